#!/usr/bin/env python3
"""Generates lean/Verif/Data/TwistPoints.lean: points of prime order on the twist E'(Fp2) and the
action of psi on them.  The kernel re-checks every one of them in Lemmas/TwistOrder.lean."""
import random, re, os
random.seed(7)
here=os.path.dirname(os.path.abspath(__file__))
p=0x1a0111ea397fe69a4b1ba7b6434bacd764774b84f38512bf6730d2a0f6b0f6241eabfffeb153ffffb9feffffffffaaab
u=-0xd201000000010000
r=u**4-u**2+1
m=402096035359507321594726366720466575392706800671181159425656785868777272553337714697862511267018014931937703598282857976535744623203249
N2=r*m*13**2*23**2*2713*11953*262069
def mul(a,b): return ((a[0]*b[0]-a[1]*b[1])%p,(a[0]*b[1]+a[1]*b[0])%p)
def add(a,b): return ((a[0]+b[0])%p,(a[1]+b[1])%p)
def sub(a,b): return ((a[0]-b[0])%p,(a[1]-b[1])%p)
def inv(a):
    n=pow(a[0]*a[0]+a[1]*a[1],-1,p); return (a[0]*n%p,-a[1]*n%p)
def pw(a,e):
    x=(1,0)
    while e:
        if e&1:x=mul(x,a)
        a=mul(a,a);e>>=1
    return x
def padd(P,Q):
    if P is None:return Q
    if Q is None:return P
    if P[0]==Q[0]:
        if P[1]!=Q[1] or P[1]==(0,0): return None
        l=mul(mul((3,0),mul(P[0],P[0])),inv(add(P[1],P[1])))
    else: l=mul(sub(Q[1],P[1]),inv(sub(Q[0],P[0])))
    x=sub(sub(mul(l,l),P[0]),Q[0]); return (x,sub(mul(l,sub(P[0],x)),P[1]))
def neg(P): return None if P is None else (P[0],sub((0,0),P[1]))
def sm(k,P):
    if k<0: return sm(-k,neg(P))
    R=None
    while k:
        if k&1:R=padd(R,P)
        P=padd(P,P);k>>=1
    return R
def sqrt2(a):
    a1=pw(a,(p-3)//4); x0=mul(a1,a); al=mul(a1,x0)
    x=mul((0,1),x0) if al==(p-1,0) else mul(pw(add((1,0),al),(p-1)//2),x0)
    return x if mul(x,x)==a else None
def rnd():
    while 1:
        x=(random.randrange(p),random.randrange(p))
        y=sqrt2(add(mul(x,mul(x,x)),(4,4)))
        if y: return (x,y)
s=open(here+'/../lean/Verif/Lemmas/Psi.lean').read()
U=tuple(map(int,re.search(r'psiUN : NC.N2 := \((\d+),\s*(\d+)\)',s).groups()))
V=tuple(map(int,re.search(r'psiVN : NC.N2 := \((\d+),\s*(\d+)\)',s).groups()))
def psi(P):
    c=lambda z:(z[0],-z[1]%p)
    return (mul(c(P[0]),U),mul(c(P[1]),V))
def roots(q):
    """roots of X^2-(u+1)X+p mod q"""
    t=(u+1)%q; d=(t*t-4*p)%q
    if q<10**6: return [x for x in range(q) if (x*x-t*x+p)%q==0]
    # Tonelli-Shanks
    Q,S=q-1,0
    while Q%2==0: Q//=2;S+=1
    z=2
    while pow(z,(q-1)//2,q)!=q-1: z+=1
    M,c,tt,R=S,pow(z,Q,q),pow(d,Q,q),pow(d,(Q+1)//2,q)
    while tt!=1:
        i,x=0,tt
        while x!=1: x=x*x%q;i+=1
        b=pow(c,1<<(M-i-1),q);M=i;c=b*b%q;tt=tt*c%q;R=R*b%q
    assert R*R%q==d
    h=pow(2,-1,q); return [(t+R)*h%q,(t-R)*h%q]
out=[]
def eig(name,q,lam):
    """a point of order q with psi X = lam X"""
    c=N2
    while c%q==0:c//=q
    t=(u+1)%q; other=(t-lam)%q
    while 1:
        X=sm(c,rnd())
        if X is None: continue
        Y=padd(psi(X),neg(sm(other,X)))
        X2=X if psi(X)==sm(lam,X) else Y
        if X2 is not None and psi(X2)==sm(lam,X2) and sm(q,X2) is None: return X2
def emit(name,doc,P):
    out.append(f"/-- {doc} -/\ndef {name} : NC.NPt :=\n  (({P[0][0]},\n    {P[0][1]}),\n   ({P[1][0]},\n    {P[1][1]}))\n")
lams={}
for name,q in (("ptM",m),("pt2713",2713),("pt11953",11953),("pt262069",262069)):
    for lam in roots(q):
        # which eigenvalue occurs on the rational q-part?
        c=N2//q; X=None
        while X is None: X=sm(c,rnd())
        if psi(X)==sm(lam,X): break
    else: raise Exception(q)
    assert sm(q,X) is None
    emit(name,f"a point of order `{q}`",X); lams[name]=(q,lam)
a,b=roots(13)
for name,lam in (("pt13a",a),("pt13b",b)):
    X=eig(name,13,lam); emit(name,"a point of order 13",X); lams[name]=(13,lam)
assert roots(23)==[]
X=None
while X is None: X=sm(N2//23//23,rnd())
assert sm(23,X) is None
t=(u+1)%23
assert psi(psi(X))==padd(sm(t,psi(X)),sm(-p%23,X))
emit("pt23","a point of order 23",X)
emit("psi16N","`16 psi` of it",sm(16,psi(X)))
o=here+'/../lean/Verif/Data/TwistPoints.lean'
open(o,'w').write("import Verif.Math.NatCurve\n\n/-! Generated by tools/gen_twist.py: points of prime order on `E'(Fp2)`. -/\n\nnamespace Spark.TwistPoints\n\n"+"\n".join(out)+"\n".join(f"/-- eigenvalue of psi on `{n}` -/\ndef lam{n[2:]} : ℕ := {l}" for n,(q,l) in lams.items())+f"""

/-- the large prime factor of the order of `E'(Fp2)` -/
def bigM : ℕ := {m}

end Spark.TwistPoints
""")
print({n:(q.bit_length(),l.bit_length(),l if l<10**6 else '') for n,(q,l) in lams.items()}, "23:",t,-p%23)
