#!/usr/bin/env python3
"""Generates lean/Verif/Math/Primes.lean: primality certificates of the two field moduli."""
import math,random,os
random.seed(1)
R=0x30644e72e131a029b85045b68181585d2833e84879b9709143e1f593f0000001
P=0x1a0111ea397fe69a4b1ba7b6434bacd764774b84f38512bf6730d2a0f6b0f6241eabfffeb153ffffb9feffffffffaaab
C2=845817742016413227687614079825846186930871263723374447449716427752331287085975880059739566595311847852471317109
D=307202528959414010196955747273574637769335820764971303266458398669801375004184727427572867063
fm={R:[1670836401704629,13818364434197438864469338081],C2:[D],
 13818364434197438864469338081:[65865678001877903],
 }
fp_={P:[C2],D:[16902042922351,2173413060680663,156083864923250991785002799]}
def fac(n):
    out=[];d=2
    while d*d<=n and d<10**6:
        while n%d==0: out.append(d); n//=d
        d+=1
    if n>1: out.append(n)
    return out
extra={16902042922351:[431,390791],2173413060680663:[47248110014797],156083864923250991785002799:[73779548989605253],
 1670836401704629:[5156902474397]}
fm.update(extra)
out=[];done=set()
def m2(n,x,y): return ((x[0]*y[0]-x[1]*y[1])%n,(x[0]*y[1]+x[1]*y[0])%n)
def p2(n,x,e):
    r=(1,0)
    while e:
        if e&1:r=m2(n,r,x)
        x=m2(n,x,x);e>>=1
    return r
def prime(n):
    if n in done: return
    done.add(n)
    if n<10**9:
        out.append(f"theorem prime_{n} : Nat.Prime {n} := by norm_num\n"); return
    if n in fp_:
        qs=fp_[n]
        for q in qs: prime(q)
        F=math.prod(qs); assert (F-1)**2>n and all((n+1)%q==0 for q in qs)
        gs=[]
        for q in qs:
            k=2
            while 1:
                a,b=k,1
                inv=pow(a*a+b*b,-1,n)
                g=((a*a-b*b)*inv%n,2*a*b*inv%n)
                if p2(n,g,n+1)==(1,0) and math.gcd(p2(n,g,(n+1)//q)[1],n)==1: break
                k+=1
            gs.append(g)
        hs=[f"(lucas2 (n := {n}) (q := {q}) (g := {g}) prime_{q} (by decide +kernel) l h1 h2 h3)" for q,g in zip(qs,gs)]
        t=hs[0]
        for i,h in enumerate(hs[1:]): t=f"(dvd_mul2 (by norm_num) {t} {h})"
        out.append(f"theorem prime_{n} : Nat.Prime {n} :=\n  prime_of_dvd_lucas2 (F := {'*'.join(map(str,qs))}) (by norm_num) (by norm_num) (by norm_num) (by norm_num)\n    (fun l h1 h2 h3 => {t})\n")
        return
    qs=fm.get(n)
    if qs is None:
        f=sorted(set(fac(n-1)),reverse=True); qs=[]
        for q in f:
            qs.append(q)
            if (math.prod(qs)+1)**2>n: break
    for q in qs: prime(q)
    F=math.prod(qs); assert (F+1)**2>n,(n,qs); assert all((n-1)%q==0 for q in qs)
    as_=[]
    for q in qs:
        a=2
        while not(pow(a,n-1,n)==1 and pow(a,(n-1)//q,n)>=2 and math.gcd(pow(a,(n-1)//q,n)-1,n)==1): a+=1
        as_.append(a)
    hs=[f"(pock (n := {n}) (q := {q}) (a := {a}) prime_{q} (by decide +kernel) l h1 h2)" for q,a in zip(qs,as_)]
    t=hs[0]
    for h in hs[1:]: t=f"(dvd_mul2 (by norm_num) {t} {h})"
    out.append(f"theorem prime_{n} : Nat.Prime {n} :=\n  prime_of_dvd_sub_one (F := {'*'.join(map(str,qs))}) (by norm_num) (by norm_num)\n    (fun l h1 h2 => {t})\n")
prime(R);prime(P)
o=os.path.join(os.path.dirname(os.path.abspath(__file__)),'../lean/Verif/Math/Primes.lean')
open(o,'w').write("import Verif.Math.Primality\nimport Mathlib.Tactic.NormNum.Prime\nimport Mathlib.Tactic.NormNum.GCD\n\n/-! Generated by tools/gen_primes.py: primality of the BN254 scalar modulus and the BLS12-381\nbase modulus, with all intermediate certificates checked by the kernel. -/\n\nnamespace Spark\nset_option maxRecDepth 100000\n\n"+'\n'.join(out)+f"""
/-- BN254 scalar field modulus (gnark `ecc.BN254.ScalarField()`, the native field of the circuits). -/
def frOrder : ℕ := {R}
/-- BLS12-381 base field modulus (`emulated.BLS12381Fp`). -/
def fpOrder : ℕ := {P}

instance fact_fr : Fact (Nat.Prime frOrder) := ⟨prime_{R}⟩
instance fact_fp : Fact (Nat.Prime fpOrder) := ⟨prime_{P}⟩

end Spark
""")

# the order of the BLS12-381 groups, in a file of its own
out.clear(); done.clear()
O=0x73eda753299d7d483339d80809a1d80553bda402fffe5bfeffffffff00000001
fm[O]=[254760293,52437899,2529403,2508409,906349,859267]
prime(O)
o=os.path.join(os.path.dirname(os.path.abspath(__file__)),'../lean/Verif/Math/GroupOrder.lean')
open(o,'w').write("import Verif.Math.Primes\n\n/-! Generated by tools/gen_primes.py: primality of the order of the BLS12-381 groups. -/\n\nnamespace Spark\nset_option maxRecDepth 100000\n\n"+'\n'.join(out)+f"""
/-- order of the BLS12-381 groups G1, G2, GT (the scalar field modulus) -/
def rOrder : ℕ := {O}

theorem rOrder_prime : Nat.Prime rOrder := prime_{O}

end Spark
""")

# the large prime factor of the order of the twist E'(Fp2)
out.clear(); done.clear()
M=402096035359507321594726366720466575392706800671181159425656785868777272553337714697862511267018014931937703598282857976535744623203249
fm.update({M: [4638704574076146691498289350639807119782054683906549022985642612861209609656189848749536921852444848596916990932297],
 4638704574076146691498289350639807119782054683906549022985642612861209609656189848749536921852444848596916990932297: [26935696298915610574513298451669528361624243820491956655650666425177],
 26935696298915610574513298451669528361624243820491956655650666425177: [81162125843606155545104998607900118769099783],
 81162125843606155545104998607900118769099783: [19931107752921199754119],
 19931107752921199754119: [22294303974184787197], 22294303974184787197: [1857858664515398933],
 1857858664515398933: [512088937297519], 512088937297519: [12192593745179], 12192593745179: [1367711, 541]})
prime(M)
o=os.path.join(os.path.dirname(os.path.abspath(__file__)),'../lean/Verif/Math/TwistPrime.lean')
open(o,'w').write("import Verif.Math.Primes\n\n/-! Generated by tools/gen_primes.py: primality of the large factor of the order of `E'(Fp2)`. -/\n\nnamespace Spark\nset_option maxRecDepth 100000\n\n"+'\n'.join(out)+"\nend Spark\n")
