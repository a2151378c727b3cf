"""Print the literals of lean/Verif/Lemmas/TxWitness.lean (hash point, signature, aggregated key, Miller value).
They are evaluated with the same definitions the kernel checks afterwards.  Run from /verif/lean after `lake build`."""
import os
import subprocess
import tempfile

SRC = r"""
import Verif.Lemmas.HashExample
import Verif.Lemmas.MillerEval
import Verif.Lemmas.Generators
open Spark NC G2
def hN := (nHash exU0 exY0 exU1 exY1).getD default
def gN : NPt := ((gen1x,0),(gen1y,0))
def sN := (smulAux hN 1023 9 hN).getD default
def aN := (smulAux gN 1023 9 gN).getD default
def z1 := (nMiller gen1x (fpOrder-gen1y) sN).getD one12
def z2 := (nMiller aN.1.1 aN.2.1 hN).getD one12
def zz := mul12 z1 z2
def sh (x : N2) : String := s!"(0x{String.ofList (Nat.toDigits 16 x.1)}, 0x{String.ofList (Nat.toDigits 16 x.2)})"
#eval IO.println (sh hN.1 ++ " " ++ sh hN.2)
#eval IO.println (sh sN.1 ++ " " ++ sh sN.2)
#eval IO.println (sh aN.1 ++ " " ++ sh aN.2)
#eval IO.println s!"{sh zz.c0} {sh zz.c1} {sh zz.c2} {sh zz.c3} {sh zz.c4} {sh zz.c5}"
#eval pow12 zz ((fpOrder^12-1)/rOrder) == one12
#eval pow12 zz ((fpOrder^6-1)*(fpOrder^2+1)) == one12
#eval smulAux hN (rOrder-1) 254 hN == some (hN.1, neg hN.2)
#eval smulAux gN (rOrder-1) 254 gN == some (gN.1, neg gN.2)
"""

with tempfile.NamedTemporaryFile("w", suffix=".lean", delete=False) as f:
    f.write(SRC)
print(subprocess.run(["lake", "env", "lean", f.name], capture_output=True, text=True).stdout)
os.unlink(f.name)
