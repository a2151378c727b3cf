#!/usr/bin/env python3
"""Write lean/Verif/Data/ForgeWitness.lean from tools/forge_witness.json.

The numbers are an explicit run of `HashToG2` that ends in (0, 0).  They are data: the Lean kernel
checks every fact used about them (Lemmas/Forgery.lean)."""
import json
import os

here = os.path.dirname(os.path.abspath(__file__))
w = json.load(open(os.path.join(here, "forge_witness.json")))
docs = [
    ("fgU", "u", "the field element presented as both outputs of `HashToField`"),
    ("fgY", "y", "the ordinate of its SWU point"),
    ("fgLam", "lam", "the slope presented for `Q0 + Q1`, where `Q0 = Q1`"),
    ("fgL2", "l2", "the slope presented for `res - a`"),
    ("fgLp", "lp", "the slope presented for `xg - a`"),
]
out = ["import Verif.Math.NatCurve", "",
       "/-! An explicit run of `HashToG2` that ends in `(0, 0)`, written by tools/gen_forge_witness.py.  These are",
       "data: every fact about them is checked by the kernel in `Lemmas/Forgery.lean`. -/", "",
       "namespace Spark.G2", "open NC", ""]
for name, key, doc in docs:
    a, b = w[key]
    out += [f"/-- {doc} -/", f"def {name} : N2 := ({a},", f"  {b})"]
out += ["", "end Spark.G2", ""]
open(os.path.join(here, "../lean/Verif/Data/ForgeWitness.lean"), "w").write("\n".join(out))
