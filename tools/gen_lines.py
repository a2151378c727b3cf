#!/usr/bin/env python3
"""Generate lean/Verif/Data/Lines.lean from /repo/spark/pairing_bls12381/precomputations.go."""
import re, sys
src = open('/repo/spark/pairing_bls12381/precomputations.go').read().split('\n')
pat = re.compile(r'PrecomputedLines\[(\d)\]\[(\d+)\]\.(A[01]) = emulated\.ValueOf\[emulated\.BLS12381Fp\]\("(\d+)"\)')
tab = {}
n = 0
for ln in src:
    if '= emulated' in ln:
        m = pat.search(ln)
        assert m, ln
        tab[(int(m[1]), int(m[2]), m[3])] = m[4]   # later assignments win, as in Go
        n += 1
print(n, "assignments,", len(tab), "entries")
out = ['import Verif.Math.Fp', '',
 '/-! The table `PrecomputedLines [4][63]E2` (pairing_bls12381/precomputations.go:5-344).',
 'Generated by tools/gen_lines.py; entries never assigned by `init()` are Go zero values (elements without',
 'limbs), here `none`. -/', '', 'namespace Spark', '',
 '/-- precomputations.go:7-344 `PrecomputedLines[k][i]` -/',
 'def precomputedLines : ℕ → ℕ → Option (ℕ × ℕ)']
for k in range(4):
    for i in range(62, -1, -1):
        a, b = tab.get((k, i, 'A0')), tab.get((k, i, 'A1'))
        assert (a is None) == (b is None)
        if a: out.append(f'  | {k}, {i} => some ({a},\n      {b})')
out += ['  | _, _ => none', '', 'end Spark', '']
open('/verif/lean/Verif/Data/Lines.lean', 'w').write('\n'.join(out))

