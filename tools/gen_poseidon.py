#!/usr/bin/env python3
"""Generate lean/Verif/Data/PoseidonTables.lean (the tables of constants.go) and
lean/Verif/Data/PoseidonRef.lean (witnesses: round constants and Cauchy points of the Grain LFSR, proved
correct in Lean).  Every table is a list of rows, each packed into one literal, 256 bits per entry, first
entry lowest."""
import re, os
here = os.path.dirname(os.path.abspath(__file__))
out = os.path.join(here, '..', 'lean', 'Verif', 'Data')
path = '/repo/spark/pairing_bls12381/constants.go'
src = open(path).read()
r = 0x30644e72e131a029b85045b68181585d2833e84879b9709143e1f593f0000001

def sect(name):
    i = src.index('func strPOSEIDON_%s(' % name); j = src.index('\n}\n', i)
    return i, src[i:j]
def line(pos): return src.count('\n', 0, pos) + 1
def strs(name):
    base, s = sect(name); d = {}
    for m in re.finditer(r't == (\d+) \{\s*s =\s*`([^`]*)`', s):
        d[int(m[1])] = (m[2], line(base + m.start(2)), line(base + m.end(2)))
    return d
def one(s): return [int(v.strip(), 16) for v in s.replace('[', '').replace(']', '').strip().split(',')]
def two(s): return [one(x) for x in s.strip().replace('\n', '').replace(' ', '').split('],[')]
RP = [56, 57, 56, 60, 60, 63, 64, 63, 60, 66, 60, 65, 70, 60, 64, 68]

def grain(t, RF, rp):
    bits = []
    for v, n in [(1, 2), (0, 4), (254, 12), (t, 12), (RF, 10), (rp, 10)]:
        bits += [int(c) for c in bin(v)[2:].zfill(n)]
    bits += [1] * 30
    s = sum(b << i for i, b in enumerate(bits))
    cnt = 0
    def step():
        nonlocal s, cnt
        nb = ((s >> 62) ^ (s >> 51) ^ (s >> 38) ^ (s >> 23) ^ (s >> 13) ^ s) & 1
        s = (s >> 1) | (nb << 79); cnt += 1
        return nb
    for _ in range(160): step()
    cnt = 0
    def rb():
        v = 0
        for _ in range(254):
            b = step()
            while b == 0:
                step(); b = step()
            v = 2 * v + step()
        return v
    rc = []; nrc = 0
    while len(rc) < (RF + rp) * t:
        v = rb(); nrc += 1
        if v < r: rc.append(v)
    xy = [rb() for _ in range(2 * t)]
    return rc, xy, nrc, cnt // 2

def pack(l): return hex(sum(v << (256 * i) for i, v in enumerate(l)))
def rows(l, w):
    assert len(l) % w == 0
    return '[' + ',\n  '.join(pack(l[i:i + w]) for i in range(0, len(l), w)) + ']'

f = open(os.path.join(out, 'PoseidonTables.lean'), 'w')
f.write('''import Mathlib.Data.Nat.Notation

/-! Generated by tools/gen_poseidon.py from /repo/spark/pairing_bls12381/constants.go; do not edit.
The Poseidon tables, one list of rows per table and width `t`; each row is packed into one literal with
256 bits per entry, entry 0 lowest.  A one-dimensional table is the concatenation of its rows; `C` is stored
as one row, the rows of `S` have `2t-1` entries. -/

namespace Spark.PosData

''')
for name, parse in [('C', one), ('M', two), ('P', two), ('S', one)]:
    d = strs(name)
    assert sorted(d) == list(range(2, 18))
    width = {}
    for t in range(2, 18):
        s, a, b = d[t]
        v = parse(s)
        if parse is two:
            assert len(v) == t and all(len(x) == t for x in v)
            v = [x for row in v for x in row]; w = t
        else:
            w = len(v) if name == 'C' else 2 * t - 1
        assert all(x < r for x in v)
        width[t] = w
        f.write('/-- constants.go:%d-%d, %d entries, rows of %d -/\n@[irreducible] def %s%d : List ℕ := %s\n' % (a, b, len(v), w, name.lower(), t, rows(v, w)))
    at = {'C': '42-45', 'M': '4519-4522', 'P': '6696-6699', 'S': '25056-25059'}[name]
    f.write('/-- `POSEIDON_' + name + '` (constants.go:' + at + '), the rows and their width, by `t`; `none`: no table, parsing the empty string panics -/\n')
    f.write('def %s : ℕ → Option (List ℕ × ℕ)\n' % name)
    for t in range(2, 18): f.write('  | %d => some (%s%d, %d)\n' % (t, name.lower(), t, width[t]))
    f.write('  | _ => none\n\n')
f.write('end Spark.PosData\n')
f.close()

f = open(os.path.join(out, 'PoseidonRef.lean'), 'w')
f.write('''import Mathlib.Data.Nat.Notation

/-! Generated by tools/gen_poseidon.py; do not edit.  Round constants and Cauchy points of the Grain LFSR;
Lemmas/PoseidonGrain proves that these are the values the LFSR of Spec/Poseidon produces. -/

namespace Spark.PosData

''')
info = {}
for t in range(2, 18):
    rc, xy, nrc, pairs = grain(t, 8, RP[t - 2])
    info[t] = (nrc, pairs)
    f.write('/-- round constants, width %d: one row per round -/\n@[irreducible] def rc%d : List ℕ := %s\n' % (t, t, rows(rc, t)))
    f.write('/-- Cauchy points, width %d -/\n@[irreducible] def xy%d : ℕ := %s\n' % (t, t, pack(xy)))
for nm, ty, z in [('rc', 'List ℕ', '[]'), ('xy', 'ℕ', '0')]:
    f.write('/-- by width -/\ndef %s : ℕ → %s\n' % (nm, ty))
    for t in range(2, 18): f.write('  | %d => %s%d\n' % (t, nm, t))
    f.write('  | _ => %s\n' % z)
f.write('/-- number of 254-bit blocks read for the round constants and number of clock pairs used -/\ndef grainLen : ℕ → ℕ × ℕ\n')
for t in range(2, 18): f.write('  | %d => (%d, %d)\n' % ((t,) + info[t]))
f.write('  | _ => (0, 0)\n\nend Spark.PosData\n')
f.close()

# ---- instances of the checks
f = open(os.path.join(here, '..', 'lean', 'Verif', 'Lemmas', 'PoseidonInst.lean'), 'w')
f.write('''import Verif.Lemmas.PoseidonGrain

/-! Generated by tools/gen_poseidon.py: the checks of Lemmas/PoseidonCheck and Lemmas/PoseidonGrain for the
sixteen widths, evaluated by the kernel. -/

set_option maxRecDepth 100000

namespace Spark.Poseidon

open PosData

/-- the stored matrix is the Cauchy matrix of the points -/
noncomputable def chkMds (n : ℕ) (M : List ℕ) (xy : ℕ) : Bool :=
  allN (Nat.succ n) fun i => allN (Nat.succ n) fun j =>
    eqm (Nat.mul (cell M j i) (Nat.add (ent xy i) (ent xy (Nat.add (Nat.succ n) j)))) 1

/-- dimensions, relations and generator -/
noncomputable def fullChk (n rp k m nrc : ℕ) (C S M P R : List ℕ) (xy : ℕ) : Bool :=
  andB (Nat.beq C.length 1) (andB (Nat.beq S.length rp) (andB (Nat.beq M.length (Nat.succ n))
    (andB (Nat.beq P.length (Nat.succ n)) (andB (chk n rp (nth C 0) S M P R)
      (andB (chkMds n M xy) (grainChk (Nat.succ n) rp k m nrc R xy))))))

''')
rowsP = []
for t in range(2, 18):
    nrc, pairs = info[t]; m = -(-pairs // 6000)
    k = 0
    while 80 * 2 ** k < 240 + 12000 * m: k += 1
    a = '%d %d %d %d %d c%d s%d m%d p%d rc%d xy%d' % ((t - 1, RP[t - 2], k, m, nrc) + (t,) * 6)
    f.write('theorem full%d : fullChk %s = true := by decide +kernel\n' % (t, a))
    rowsP.append('  · exact ⟨%d, %d, %d, %d, c%d, s%d, m%d, p%d, rc%d, xy%d, rfl, rfl, rfl, rfl, rfl, rfl, full%d⟩\n' % ((RP[t - 2], k, m, nrc) + (t,) * 7))
f.write('''
/-- parameters of every supported number of inputs -/
theorem params (n : ℕ) (h1 : 1 ≤ n) (h2 : n ≤ 16) : ∃ (rp k m nrc : ℕ) (C S M P R : List ℕ) (xy : ℕ),
    partialRounds n = some rp ∧ PosSpec.partialRounds[n - 1]? = some rp ∧
    PosData.C (n + 1) = some (C, 8 * (n + 1) + rp) ∧ PosData.S (n + 1) = some (S, 2 * n + 1) ∧
    PosData.M (n + 1) = some (M, n + 1) ∧ PosData.P (n + 1) = some (P, n + 1) ∧
    fullChk n rp k m nrc C S M P R xy = true := by
  interval_cases n
''')
f.write(''.join(rowsP))
f.write('\nend Spark.Poseidon\n')
f.close()
