"""Generates lean/Verif/Data/RfcVector.lean: witnesses for the test vector of RFC 9380, Appendix J.10.1, msg = "".
Everything is checked by the kernel in lean/Verif/Props/RfcVectors.lean; nothing here is trusted."""
import hashlib, os
import gen_hash_example as g

g.DST = b"QUUX-V01-CS02-with-BLS12381G2_XMD:SHA-256_SSWU_RO_"
msg = b""
us = g.h2f(msg, 2)
dp = g.DST + bytes([len(g.DST)])
b0 = hashlib.sha256(bytes(64) + msg + (256).to_bytes(2, "big") + b"\0" + dp).digest()
out = g.xmd(msg, 256)
L = ["""import Verif.Spec.Sha256

/-! Witnesses for a test vector of RFC 9380, generated by tools/gen_rfc_vector.py.  They are data: every fact about them is
checked by the kernel in `Props/RfcVectors.lean`. -/

namespace Spark.RfcVector
"""]
L.append(f"/-- digest `b_0` -/\ndef digest0 : List Fips.Byte := {g.lst(b0)}")
for i in range(8):
    L.append(f"/-- digest `b_{i+1}` -/\ndef digest{i+1} : List Fips.Byte := {g.lst(out[32*i:32*i+32])}")
for n, u in enumerate(us):
    L.append(f"/-- ordinate of the SWU point of `u{n}` -/\ndef y{n} : ℕ × ℕ := {g.swu(u)[3]}")
L.append("\nend Spark.RfcVector\n")
root = os.path.dirname(os.path.dirname(os.path.abspath(__file__)))
open(root + "/lean/Verif/Data/RfcVector.lean", "w").write("\n".join(L))
