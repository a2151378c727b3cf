#!/usr/bin/env python3
"""Writes MANIFEST.json.  Theorems are collected from lean/Verif/Props/*.lean by their cNN_ prefix."""
import json, re, glob, collections
NOTES = json.load(open('/verif/tools/manifest_notes.json'))
thms = collections.defaultdict(list)
for f in sorted(glob.glob('/verif/lean/Verif/Props/*.lean')):
    ns = []
    for line in open(f):
        m = re.match(r'namespace (\S+)', line)
        if m: ns.append(m.group(1))
        m = re.match(r'end (\S+)', line)
        if m and ns and ns[-1] == m.group(1): ns.pop()
        m = re.match(r'(?:@\[.*\] )?theorem (c(\d\d\d?)_\S+)', line)
        if m:
            thms['C' + m.group(2)].append('.'.join(ns + [m.group(1)]))
claims = []
for l in open('/verif/properties.jsonl'):
    p = json.loads(l)['id']
    n = NOTES.get(p)
    if n is None or not thms[p]:
        continue
    claims.append({'property': p, 'status': n[0], 'theorems': thms[p], 'note': n[1]})
json.dump({'claims': claims}, open('/verif/MANIFEST.json', 'w'), indent=1)
print(len(claims), 'claims;', 'missing notes:', [p for p in thms if p not in NOTES])
