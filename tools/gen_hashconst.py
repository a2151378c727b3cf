"""Regenerates lean/Verif/Lemmas/HashConst.lean from the constants in lean/Verif/Model/HashG2.lean."""
import os
ROOT = os.path.dirname(os.path.dirname(os.path.abspath(__file__)))
import re
p=0x1a0111ea397fe69a4b1ba7b6434bacd764774b84f38512bf6730d2a0f6b0f6241eabfffeb153ffffb9feffffffffaaab
R=pow(2,384,p); Ri=pow(R,-1,p)
s=open(ROOT+'/lean/Verif/Model/HashG2.lean').read()
out={}
for m in re.finditer(r'def (\w+) : E2 Fp :=\n  ⟨fpElement \[([^\]]*)\],\n    fpElement \[([^\]]*)\]⟩',s):
    f=lambda t: sum(int(x)<<(64*i) for i,x in enumerate(t.split(',')))*Ri%p
    out[m[1]]=(f(m[2]),f(m[3]))

L=[]
L.append('''import Verif.Model.HashG2
import Verif.Math.NatCurve
import Verif.Spec.MapToCurve
import Verif.Lemmas.Tower

/-! Values of the `fp.Element` constants of hashG2.go, and polynomials over `Fp2` the kernel can
multiply.  Generated by tools/gen_hashconst.py. -/

namespace Spark.G2
set_option maxRecDepth 100000
set_option exponentiation.threshold 10000

open NC

theorem pow384_ne : ((2 : Fp) ^ 384) ≠ 0 := by
  apply pow_ne_zero
  intro h
  have h2 : ((2 : ℕ) : Fp) = 0 := by exact_mod_cast h
  rw [ZMod.natCast_eq_zero_iff] at h2
  revert h2; decide +kernel

theorem fpElement_eval (l : List ℕ) (v : ℕ)
    (h : (l.foldr (fun l acc => l + 2 ^ 64 * acc) 0) % fpOrder = v * 2 ^ 384 % fpOrder) :
    fpElement l = (v : Fp) := by
  rw [fpElement, mul_inv_eq_iff_eq_mul₀ pow384_ne]
  have h2 := (ZMod.natCast_eq_natCast_iff' _ _ fpOrder).2 h
  rw [h2, Nat.cast_mul, Nat.cast_pow, Nat.cast_ofNat]

/-- the pair denoted by two literals -/
theorem fpElement_pair (l m : List ℕ) (v : N2)
    (h : (l.foldr (fun l acc => l + 2 ^ 64 * acc) 0) % fpOrder = v.1 * 2 ^ 384 % fpOrder)
    (h' : (m.foldr (fun l acc => l + 2 ^ 64 * acc) 0) % fpOrder = v.2 * 2 ^ 384 % fpOrder) :
    (⟨fpElement l, fpElement m⟩ : E2 Fp) = e2 v := by
  rw [fpElement_eval l v.1 h, fpElement_eval m v.2 h']; rfl
''')
for k,v in out.items():
    L.append(f'''theorem {k}_val : {k} = e2 ({v[0]}, {v[1]}) :=
  fpElement_pair _ _ _ (by decide +kernel) (by decide +kernel)
''')
L.append('''/-! ### polynomials -/

/-- evaluation of a polynomial given by its coefficients, constant term first -/
def pev (l : List N2) (x : E2 Fp) : E2 Fp := l.foldr (fun c acc => e2 c + x * acc) 0

/-- sum of polynomials -/
def padd : List N2 → List N2 → List N2
  | [], m => m
  | l, [] => l
  | a :: l, b :: m => add a b :: padd l m

/-- product of polynomials -/
def pmul : List N2 → List N2 → List N2
  | [], _ => []
  | a :: l, m => padd (m.map (mul a)) ((0, 0) :: pmul l m)

theorem e2_zero : e2 (0, 0) = 0 := by ext <;> simp [e2, toE2]

theorem pev_nil (x : E2 Fp) : pev [] x = 0 := rfl
theorem pev_cons (a : N2) (l : List N2) (x : E2 Fp) : pev (a :: l) x = e2 a + x * pev l x := rfl

theorem pev_padd (l m : List N2) (x : E2 Fp) : pev (padd l m) x = pev l x + pev m x := by
  induction l generalizing m with
  | nil => simp [padd, pev_nil]
  | cons a l ih =>
    cases m with
    | nil => simp [padd, pev_nil]
    | cons b m => simp only [padd, pev_cons, ih, e2_add]; ring

theorem pev_map (a : N2) (m : List N2) (x : E2 Fp) : pev (m.map (mul a)) x = e2 a * pev m x := by
  induction m with
  | nil => simp [pev_nil]
  | cons b m ih => rw [List.map_cons, pev_cons, ih, e2_mul, pev_cons]; ring

theorem pev_pmul (l m : List N2) (x : E2 Fp) : pev (pmul l m) x = pev l x * pev m x := by
  induction l with
  | nil => simp [pmul, pev_nil]
  | cons a l ih => rw [pmul, pev_padd, pev_map, pev_cons, ih, e2_zero, pev_cons]; ring

''')
def lst(names,monic):
    r=', '.join(f'({out[n][0]}, {out[n][1]})' for n in names)
    return '['+r+(', (1, 0)' if monic else '')+']'
for nm,key,n,monic in [('pXDen','isoXDen',2,1),('pXNum','isoXNum',4,0),('pYDen','isoYDen',3,1),('pYNum','isoYNum',4,0)]:
    L.append(f'''/-- coefficients of the polynomial `{key}` -/
def {nm} : List N2 := {lst([key+str(i) for i in range(n)],monic)}
''')
L.append('''end Spark.G2
''')
open(ROOT+'/lean/Verif/Lemmas/HashConst.lean','w').write('\n'.join(L))
