#!/usr/bin/env python3
"""Check that every theorem in MANIFEST.json with hypotheses is used, at concrete data, by a theorem without hypotheses.

The theorems accepted as instances are those named `inst_*` (lean/Verif/Instances) or `*_example` (lean/Verif/Props) that
have no argument which is a proof.  Their proofs must mention the manifest theorem.  Run it in a built tree:

    cd /verif/lean && lake build && python3 ../tools/check_instances.py
"""
import json
import os
import subprocess
import sys
import tempfile

ROOT = os.path.dirname(os.path.dirname(os.path.abspath(__file__)))

LEAN = """import Verif
open Lean Meta

def hypotheses (ci : ConstantInfo) : MetaM Nat :=
  forallTelescope ci.type fun xs _ => do
    let mut k := 0
    for x in xs do
      if (← inferType (← inferType x)).isProp then k := k + 1
    return k

run_meta do
  let env ← getEnv
  let mut used : NameSet := {}
  for (n, ci) in env.constants.map₁.toList do
    match n with
    | .str p s =>
      if p.getRoot == `Spark && (s.startsWith "inst_" || s.endsWith "_example") then
        if (← hypotheses ci) == 0 then
          match ci.value? (allowOpaque := true) with
          | some v => for m in v.getUsedConstants do used := used.insert m
          | none => pure ()
    | _ => pure ()
  for n in [NAMES] do
    let some ci := env.find? n | throwError "missing {n}"
    let k ← hypotheses ci
    if k > 0 && !used.contains n then IO.println s!"NO INSTANCE {n}"
    else if k > 0 then IO.println s!"ok {n}"
"""


def main():
    claims = json.load(open(os.path.join(ROOT, "MANIFEST.json")))["claims"]
    names = [t for c in claims for t in c["theorems"]]
    src = LEAN.replace("NAMES", ",\n    ".join("`" + n for n in names))
    with tempfile.NamedTemporaryFile("w", suffix=".lean", delete=False) as f:
        f.write(src)
    r = subprocess.run(["lake", "env", "lean", f.name], cwd=os.path.join(ROOT, "lean"), capture_output=True, text=True)
    os.unlink(f.name)
    bad = [l for l in r.stdout.splitlines() if not l.startswith("ok ")]
    print("\n".join(bad))
    print(sum(l.startswith("ok ") for l in r.stdout.splitlines()), "theorems with hypotheses have an instance,", len(bad), "do not")
    if r.returncode != 0:
        print(r.stderr)
    sys.exit(1 if bad or r.returncode else 0)


if __name__ == "__main__":
    main()
