"""Print the literals of lean/Verif/Lemmas/NineWitness.lean (511 H, 511 g1, the key aggregated by the compiled
circuit).  Run from /verif/lean after `lake build Verif.Lemmas.TxWitness`."""
import os
import subprocess
import tempfile

SRC = r"""
import Verif.Lemmas.TxWitness
open Spark NC G2 Witness
def s9 := (smulAux hN 511 8 hN).getD default
def a9 := (smulAux gN 511 8 gN).getD default
def iv (x : ℕ) := powMod fpOrder x (fpOrder-2)
def cx := 4 * iv (a9.1.1^2 % fpOrder) % fpOrder
def cy := (fpOrder - (4 * a9.2.1 * iv (a9.1.1^3 % fpOrder)) % fpOrder)
def z1 := (nMiller gen1x (fpOrder-gen1y) s9).getD one12
def z2 := (nMiller cx cy hN).getD one12
def sh (x : N2) : String := s!"(0x{String.ofList (Nat.toDigits 16 x.1)}, 0x{String.ofList (Nat.toDigits 16 x.2)})"
#eval IO.println (sh s9.1 ++ ",\n " ++ sh s9.2)
#eval IO.println (sh a9.1 ++ " " ++ sh a9.2)
#eval IO.println (sh (cx,cy))
#eval nz (pow12 (mul12 z1 z2) ((fpOrder^12-1)/rOrder)).c1
"""

with tempfile.NamedTemporaryFile("w", suffix=".lean", delete=False) as f:
    f.write(SRC)
print(subprocess.run(["lake", "env", "lean", f.name], capture_output=True, text=True).stdout)
os.unlink(f.name)
