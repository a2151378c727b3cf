"""Generates lean/Verif/Data/RotWitness.lean: an honest rotation (keys, commitment, hash of its bytes, signature,
Miller value).  Points and the Poseidon commitment are evaluated with the Lean definitions; every literal is checked
by the kernel in Lemmas/RotWitness.lean, nothing here is trusted.  Run after `lake build Verif.Lemmas.TxWitness`."""
import hashlib, os, re, subprocess, tempfile
from gen_hash_example import DST, h2f, lst, swu, xmd

ROOT = os.path.dirname(os.path.dirname(os.path.abspath(__file__)))
SK = [1, 2, 4, 1024, 16, 32, 64, 128, 256, 512]
W = [100, 100, 100, 7, 100, 100, 100, 100, 100, 100]
BITS = [1, 1, 1, 1, 1, 0, 1, 1, 1, 1]
SUM = sum(s for s, b in zip(SK, BITS) if b)
HEAD = """
import Verif.Lemmas.HashExample
import Verif.Lemmas.MillerEval
import Verif.Lemmas.Generators
import Verif.Model.Poseidon
open Spark NC G2
def gN : NPt := ((gen1x,0),(gen1y,0))
def mulN (P : NPt) (k : ℕ) : NPt := (smulAux P k (Nat.log2 k) P).getD default
def hx (n : ℕ) : String := s!"0x{String.ofList (Nat.toDigits 16 n)}"
def sh (x : N2) : String := s!"({hx x.1}, {hx x.2})"
"""

def lean(src):
    with tempfile.NamedTemporaryFile("w", suffix=".lean", delete=False) as f:
        f.write(HEAD + src)
    r = subprocess.run(["lake", "env", "lean", f.name], capture_output=True, text=True, cwd=ROOT + "/lean")
    os.unlink(f.name)
    assert r.returncode == 0, r.stdout + r.stderr
    return r.stdout.strip().split("\n")

keys = lean("".join(f'#eval IO.println s!"{{hx (mulN gN {k}).1.1}} {{hx (mulN gN {k}).2.1}}"\n' for k in SK))
com = lean(f"""
def limbs (x : ℕ) : List Fr := (List.range 6).map fun j => ((x / 2^(64*j) % 2^64 : ℕ) : Fr)
def ph (l : List Fr) : Fr := (Poseidon.poseidon l).getD 0
def cmt (ks : List (ℕ × ℕ)) : Fr :=
  ph (ks.map fun (k, w) => ph [ph (limbs (mulN gN k).1.1), ph (limbs (mulN gN k).2.1), (w : Fr)])
#eval IO.println (hx (cmt {[(k, w) for k, w in zip(SK, W)]}).val)
""")[0]
msg = int(com, 16).to_bytes(32, "big")
assert msg[0] != 0
us = h2f(msg, 2)
ys = [swu(u)[3] for u in us]
pts = lean(f"""
def hN := (nHash {us[0]} {ys[0]} {us[1]} {ys[1]}).getD default
def sN := mulN hN {SUM}
def aN := mulN gN {SUM}
def zz := mul12 ((nMiller gen1x (fpOrder-gen1y) sN).getD one12) ((nMiller aN.1.1 aN.2.1 hN).getD one12)
#eval IO.println s!"({{sh hN.1}}, {{sh hN.2}})"
#eval IO.println s!"({{sh sN.1}}, {{sh sN.2}})"
#eval IO.println (hx aN.1.1)
#eval IO.println (hx aN.2.1)
#eval IO.println s!"⟨{{sh zz.c0}}, {{sh zz.c1}},\\n  {{sh zz.c2}}, {{sh zz.c3}},\\n  {{sh zz.c4}}, {{sh zz.c5}}⟩"
#eval pow12 zz ((fpOrder^12-1)/rOrder) == one12
#eval pow12 zz ((fpOrder^6-1)*(fpOrder^2+1)) == one12
#eval smulAux hN (rOrder-1) 254 hN == some (hN.1, neg hN.2)
""")
assert pts[-3:] == ["true", "false", "true"], pts[-3:]
dp = DST + bytes([len(DST)])
b0 = hashlib.sha256(bytes(64) + msg + (256).to_bytes(2, "big") + b"\0" + dp).digest()
out = xmd(msg, 256)
L = ["""import Verif.Lemmas.MillerEval
import Verif.Spec.Sha256

/-! Data of the honest rotation of `Lemmas/RotWitness.lean`, generated by tools/gen_rot_witness.py.  Every fact about
these literals is checked by the kernel there. -/

namespace Spark.Rot
open NC
"""]
L.append("/-- abscissas of the new keys -/\n@[irreducible] def kx : List ℕ := [" +
         ",\n  ".join(k.split()[0] for k in keys) + "]")
L.append("/-- ordinates of the new keys -/\n@[irreducible] def ky : List ℕ := [" +
         ",\n  ".join(k.split()[1] for k in keys) + "]")
L.append(f"/-- the new commitment -/\n@[irreducible] def cN : ℕ := {com}")
L.append(f"/-- its 32 bytes -/\ndef msgN : List Fips.Byte := {lst(msg)}")
for i, d in enumerate([b0] + [out[32*i:32*i+32] for i in range(8)]):
    L.append(f"/-- digest `b_{i}` -/\ndef digest{i} : List Fips.Byte := {lst(d)}")
for i in range(2):
    L.append(f"/-- field element -/\ndef u{i} : ℕ × ℕ := {us[i]}")
    L.append(f"/-- ordinate of its SWU point -/\ndef y{i} : ℕ × ℕ := {ys[i]}")
L.append(f"/-- the hash point -/\n@[irreducible] def hN : NPt := {pts[0]}")
L.append(f"/-- the signature -/\n@[irreducible] def sN : NPt := {pts[1]}")
L.append(f"/-- abscissa of the sum of the signers' keys -/\n@[irreducible] def ax : ℕ := {pts[2]}")
L.append(f"/-- its ordinate -/\n@[irreducible] def ay : ℕ := {pts[3]}")
z = "\n".join(pts[4:-3])
L.append(f"/-- the Miller value -/\n@[irreducible] def zN : N12 := {z}")
L.append("\nend Spark.Rot\n")
open(ROOT + "/lean/Verif/Data/RotWitness.lean", "w").write("\n".join(L))
print(SUM, com)
