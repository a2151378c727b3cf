"""Generates lean/Verif/Data/EncodeWitness.lean: witnesses for a concrete case of EncodeToG2.
Everything is checked by the kernel where it is used; nothing here is trusted."""
import hashlib, os
from gen_hash_example import DST, xmd, h2f, swu, lst

if __name__ == '__main__':
    msg = bytes(range(32))
    u = h2f(msg, 1)[0]
    dp = DST + bytes([len(DST)])
    b0 = hashlib.sha256(bytes(64)+msg+(128).to_bytes(2, 'big')+b'\0'+dp).digest()
    out = xmd(msg, 128)
    L = ["""import Verif.Spec.Sha256

/-! Witnesses for a concrete case of `EncodeToG2`, generated by tools/gen_encode_example.py.  They are
data: every fact about them is checked by the kernel in `Instances/Encode.lean`. -/

namespace Spark.G2
"""]
    L.append(f"/-- digest `b_0` of the example message, 128 bytes requested -/\ndef encDigest0 : List Fips.Byte := {lst(b0)}")
    for i in range(4):
        L.append(f"/-- digest `b_{i+1}` -/\ndef encDigest{i+1} : List Fips.Byte := {lst(out[32*i:32*i+32])}")
    L.append(f"/-- field element -/\ndef encU : ℕ × ℕ := {u}")
    L.append(f"/-- ordinate of its SWU point -/\ndef encY : ℕ × ℕ := {swu(u)[3]}")
    L.append("\nend Spark.G2\n")
    root = os.path.dirname(os.path.dirname(os.path.abspath(__file__)))
    open(root+'/lean/Verif/Data/EncodeWitness.lean', 'w').write('\n'.join(L))
