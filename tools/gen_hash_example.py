"""Generates lean/Verif/Data/HashWitness.lean: witnesses for the concrete cases of HashToG2.
Everything is checked by the kernel where it is used; nothing here is trusted."""
import hashlib, os
p = 0x1a0111ea397fe69a4b1ba7b6434bacd764774b84f38512bf6730d2a0f6b0f6241eabfffeb153ffffb9feffffffffaaab
DST = b"BLS_SIG_BLS12381G2_XMD:SHA-256_SSWU_RO_POP_"

def add(a, b): return ((a[0]+b[0]) % p, (a[1]+b[1]) % p)
def neg(a): return (-a[0] % p, -a[1] % p)
def sub(a, b): return add(a, neg(b))
def mul(a, b): return ((a[0]*b[0]-a[1]*b[1]) % p, (a[0]*b[1]+a[1]*b[0]) % p)
def inv(a):
    n = pow(a[0]*a[0]+a[1]*a[1], -1, p)
    return (a[0]*n % p, -a[1]*n % p)
def e2pow(a, k):
    r = (1, 0)
    while k:
        if k & 1: r = mul(r, a)
        a = mul(a, a); k >>= 1
    return r
def sqrt_fp(a):
    r = pow(a, (p+1)//4, p)
    return r if r*r % p == a % p else None
def sqrt(a):
    """square root in Fp2 (complex method)"""
    if a[1] == 0:
        r = sqrt_fp(a[0])
        if r is not None: return (r, 0)
        return (0, sqrt_fp(-a[0]))
    n = sqrt_fp(a[0]*a[0]+a[1]*a[1])
    if n is None: return None
    for s in (n, -n):
        t = (a[0]+s)*pow(2, -1, p) % p
        x = sqrt_fp(t)
        if x is not None and x:
            r = (x, a[1]*pow(2*x, -1, p) % p)
            if mul(r, r) == (a[0] % p, a[1] % p): return r
    return None
A = (0, 240); B = (1012, 1012); Z = (-2 % p, -1 % p)
def g(x): return add(add(mul(x, mul(x, x)), mul(A, x)), B)
def xmd(msg, n):
    dp = DST + bytes([len(DST)])
    b0 = hashlib.sha256(bytes(64)+msg+n.to_bytes(2, 'big')+b'\0'+dp).digest()
    b = [hashlib.sha256(b0+b'\1'+dp).digest()]
    while 32*len(b) < n:
        b.append(hashlib.sha256(bytes(x ^ y for x, y in zip(b0, b[-1]))+bytes([len(b)+1])+dp).digest())
    return b''.join(b)[:n]
def h2f(msg, n):
    o = xmd(msg, 128*n)
    e = [int.from_bytes(o[64*i:64*i+64], 'big') % p for i in range(2*n)]
    return [(e[2*i], e[2*i+1]) for i in range(n)]
def swu(u):
    """(x1, first candidate is used, y) with the sign rule of the code"""
    zu = mul(Z, mul(u, u)); d = add(mul(zu, zu), zu)
    x1 = mul(neg(mul(B, inv(A))), add((1, 0), inv(d)))
    y = sqrt(g(x1)); first = y is not None
    x = x1 if first else mul(zu, x1)
    if not first: y = sqrt(g(x))
    if y[0] % 2 != u[0] % 2: y = neg(y)
    return x1, first, x, y

def lst(b): return '[' + ', '.join(hex(x) for x in b) + ']'

if __name__ == '__main__':
    msg = bytes(range(32))
    us = h2f(msg, 2)
    dp = DST + bytes([len(DST)])
    b0 = hashlib.sha256(bytes(64)+msg+(256).to_bytes(2, 'big')+b'\0'+dp).digest()
    out = xmd(msg, 256)
    L = ["""import Verif.Spec.Sha256

/-! Witnesses for the concrete cases of `HashToG2`, generated by tools/gen_hash_example.py.  They are
data: every fact about them is checked by the kernel in `Lemmas/HashExample.lean`. -/

namespace Spark.G2
"""]
    L.append(f"/-- digest `b_0` of the example message -/\ndef exDigest0 : List Fips.Byte := {lst(b0)}")
    for i in range(8):
        L.append(f"/-- digest `b_{i+1}` -/\ndef exDigest{i+1} : List Fips.Byte := {lst(out[32*i:32*i+32])}")
    for n, u in [('0', us[0]), ('1', us[1]), ('I', (0, 1)), ('A', (1, 0)), ('B', (2, 0))]:
        x1, f, x, y = swu(u)
        L.append(f"/-- field element -/\ndef exU{n} : ℕ × ℕ := {u}")
        L.append(f"/-- ordinate of its SWU point -/\ndef exY{n} : ℕ × ℕ := {y}")
    L.append("\nend Spark.G2\n")
    root = os.path.dirname(os.path.dirname(os.path.abspath(__file__)))
    open(root+'/lean/Verif/Data/HashWitness.lean', 'w').write('\n'.join(L))
