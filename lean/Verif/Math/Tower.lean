import Mathlib.Tactic.Ring
import Mathlib.Tactic.Abel
import Mathlib.Algebra.Ring.Basic
import Mathlib.Algebra.CharP.Defs
import Mathlib.Algebra.Algebra.Defs

/-!
# The tower `K ⊂ K[u]/(u²+1) ⊂ K[u,v]/(v³-(1+u)) ⊂ K[u,v,w]/(w²-v)` (specification)

Schoolbook definition of the ring structures on coordinate tuples.  This is the specification
against which the Karatsuba-style code of `tower.go` is compared; coordinates are named as in the
Go structs `E2`, `E6`, `E12` (tower.go:18-20, 431-433, 740-742).
-/

namespace Spark

/-- `A0 + A1·u` with `u² = -1` (tower.go:18-20). -/
@[ext] structure E2 (K : Type) where
  A0 : K
  A1 : K
deriving DecidableEq

/-- `B0 + B1·v + B2·v²` with `v³ = 1+u` (tower.go:431-433). -/
@[ext] structure E6 (K : Type) where
  B0 : E2 K
  B1 : E2 K
  B2 : E2 K
deriving DecidableEq

/-- `C0 + C1·w` with `w² = v` (tower.go:740-742). -/
@[ext] structure E12 (K : Type) where
  C0 : E6 K
  C1 : E6 K
deriving DecidableEq

variable {K : Type}

namespace E2
section
variable [CommRing K]
instance : Zero (E2 K) := ⟨⟨0, 0⟩⟩
instance : One (E2 K) := ⟨⟨1, 0⟩⟩
/-- componentwise sum -/
def add' (x y : E2 K) : E2 K :=
  ⟨x.A0 + y.A0, x.A1 + y.A1⟩
instance : Add (E2 K) := ⟨add'⟩
/-- componentwise negation -/
def neg' (x : E2 K) : E2 K :=
  ⟨-x.A0, -x.A1⟩
instance : Neg (E2 K) := ⟨neg'⟩
/-- componentwise difference -/
def sub' (x y : E2 K) : E2 K :=
  ⟨x.A0 - y.A0, x.A1 - y.A1⟩
instance : Sub (E2 K) := ⟨sub'⟩
/-- `(a+bu)(c+du) = (ac-bd) + (ad+bc)u`. -/
def mul' (x y : E2 K) : E2 K :=
  ⟨x.A0 * y.A0 - x.A1 * y.A1, x.A0 * y.A1 + x.A1 * y.A0⟩
instance : Mul (E2 K) := ⟨mul'⟩
/-- constants -/
def natCast' (n : ℕ) : E2 K := ⟨n, 0⟩
instance : NatCast (E2 K) := ⟨natCast'⟩
/-- constants -/
def intCast' (n : ℤ) : E2 K := ⟨n, 0⟩
instance : IntCast (E2 K) := ⟨intCast'⟩
/-- natural multiples -/
def nsmul' (n : ℕ) (x : E2 K) : E2 K :=
  ⟨n • x.A0, n • x.A1⟩
instance : SMul ℕ (E2 K) := ⟨nsmul'⟩
/-- integer multiples -/
def zsmul' (n : ℤ) (x : E2 K) : E2 K :=
  ⟨n • x.A0, n • x.A1⟩
instance : SMul ℤ (E2 K) := ⟨zsmul'⟩

@[simp] theorem A0_zero : (0 : E2 K).A0 = 0 := rfl
@[simp] theorem A1_zero : (0 : E2 K).A1 = 0 := rfl
@[simp] theorem A0_one : (1 : E2 K).A0 = 1 := rfl
@[simp] theorem A1_one : (1 : E2 K).A1 = 0 := rfl
@[simp] theorem A0_add (x y : E2 K) : (x + y).A0 = x.A0 + y.A0 := rfl
@[simp] theorem A1_add (x y : E2 K) : (x + y).A1 = x.A1 + y.A1 := rfl
@[simp] theorem A0_neg (x : E2 K) : (-x).A0 = -x.A0 := rfl
@[simp] theorem A1_neg (x : E2 K) : (-x).A1 = -x.A1 := rfl
@[simp] theorem A0_sub (x y : E2 K) : (x - y).A0 = x.A0 - y.A0 := rfl
@[simp] theorem A1_sub (x y : E2 K) : (x - y).A1 = x.A1 - y.A1 := rfl
@[simp] theorem A0_mul (x y : E2 K) : (x * y).A0 = x.A0 * y.A0 - x.A1 * y.A1 := rfl
@[simp] theorem A1_mul (x y : E2 K) : (x * y).A1 = x.A0 * y.A1 + x.A1 * y.A0 := rfl
theorem A0_natCast (n : ℕ) : (n : E2 K).A0 = n := rfl
theorem A1_natCast (n : ℕ) : (n : E2 K).A1 = 0 := rfl
theorem A0_intCast (n : ℤ) : (n : E2 K).A0 = n := rfl
theorem A1_intCast (n : ℤ) : (n : E2 K).A1 = 0 := rfl
theorem A0_nsmul (n : ℕ) (x : E2 K) : (n • x).A0 = n • x.A0 := rfl
theorem A1_nsmul (n : ℕ) (x : E2 K) : (n • x).A1 = n • x.A1 := rfl
theorem A0_zsmul (n : ℤ) (x : E2 K) : (n • x).A0 = n • x.A0 := rfl
theorem A1_zsmul (n : ℤ) (x : E2 K) : (n • x).A1 = n • x.A1 := rfl

instance instCommRing : CommRing (E2 K) where
  add_assoc _ _ _ := by ext <;> simp [add_assoc]
  zero_add _ := by ext <;> simp
  add_zero _ := by ext <;> simp
  add_comm _ _ := by ext <;> simp [add_comm]
  neg_add_cancel _ := by ext <;> simp
  sub_eq_add_neg _ _ := by ext <;> simp [sub_eq_add_neg]
  nsmul := fun n x => n • x
  nsmul_zero _ := by ext <;> simp [A0_nsmul, A1_nsmul]
  nsmul_succ _ _ := by ext <;> simp [A0_nsmul, A1_nsmul, add_mul]
  zsmul := fun n x => n • x
  zsmul_zero' _ := by ext <;> simp [A0_zsmul, A1_zsmul]
  zsmul_succ' _ _ := by ext <;> simp [A0_zsmul, A1_zsmul, add_mul]
  zsmul_neg' _ _ := by ext <;> simp [A0_zsmul, A1_zsmul, add_mul, Int.negSucc_eq] <;> ring
  mul_assoc _ _ _ := by ext <;> simp <;> ring
  one_mul _ := by ext <;> simp
  mul_one _ := by ext <;> simp
  left_distrib _ _ _ := by ext <;> simp <;> ring
  right_distrib _ _ _ := by ext <;> simp <;> ring
  zero_mul _ := by ext <;> simp
  mul_zero _ := by ext <;> simp
  mul_comm _ _ := by ext <;> simp <;> ring
  natCast_zero := by ext <;> simp [A0_natCast, A1_natCast]
  natCast_succ _ := by ext <;> simp [A0_natCast, A1_natCast]
  intCast_ofNat _ := by ext <;> simp [A0_natCast, A1_natCast, A0_intCast, A1_intCast]
  intCast_negSucc _ := by ext <;> simp [A0_natCast, A1_natCast, A0_intCast, A1_intCast]

/-- embedding of the base ring -/
def of (a : K) : E2 K := ⟨a, 0⟩
/-- `u`, a square root of `-1` -/
def u : E2 K := ⟨0, 1⟩
/-- `ξ = 1+u` -/
def xi : E2 K := ⟨1, 1⟩
/-- conjugation `a + b u ↦ a - b u` -/
def conj (x : E2 K) : E2 K := ⟨x.A0, -x.A1⟩
/-- norm `a² + b²` -/
def norm (x : E2 K) : K := x.A0 * x.A0 + x.A1 * x.A1

@[simp] theorem A0_of (a : K) : (of a).A0 = a := rfl
@[simp] theorem A1_of (a : K) : (of a).A1 = 0 := rfl
@[simp] theorem A0_u : (u : E2 K).A0 = 0 := rfl
@[simp] theorem A1_u : (u : E2 K).A1 = 1 := rfl
@[simp] theorem A0_xi : (xi : E2 K).A0 = 1 := rfl
@[simp] theorem A1_xi : (xi : E2 K).A1 = 1 := rfl
@[simp] theorem A0_conj (x : E2 K) : (conj x).A0 = x.A0 := rfl
@[simp] theorem A1_conj (x : E2 K) : (conj x).A1 = -x.A1 := rfl

theorem u_sq : (u : E2 K) * u = -1 := by ext <;> simp
theorem xi_eq : (xi : E2 K) = 1 + u := by ext <;> simp
theorem eq_of_add (x : E2 K) : x = of x.A0 + of x.A1 * u := by ext <;> simp

theorem mul_conj (x : E2 K) : x * conj x = of (norm x) := by
  ext <;> simp [norm] <;> ring

/-- the embedding as a ring homomorphism -/
def ofHom : K →+* E2 K where
  toFun := of
  map_one' := rfl
  map_mul' _ _ := by ext <;> simp
  map_zero' := rfl
  map_add' _ _ := by ext <;> simp

@[simp] theorem ofHom_apply (a : K) : ofHom a = of a := rfl

/-- conjugation as a ring homomorphism -/
def conjHom : E2 K →+* E2 K where
  toFun := conj
  map_one' := by ext <;> simp
  map_mul' _ _ := by ext <;> simp <;> ring
  map_zero' := by ext <;> simp
  map_add' _ _ := by ext <;> simp <;> ring

@[simp] theorem conjHom_apply (a : E2 K) : conjHom a = conj a := rfl
theorem of_mul (a b : K) : of (a * b) = of a * of b := ofHom.map_mul a b
theorem of_add (a b : K) : of (a + b) = of a + of b := ofHom.map_add a b
theorem of_pow (a : K) (n : ℕ) : of (a ^ n) = of a ^ n := ofHom.map_pow a n
theorem of_one : (of 1 : E2 K) = 1 := rfl
theorem of_zero : (of 0 : E2 K) = 0 := rfl
theorem of_neg (a : K) : of (-a) = -of a := ofHom.map_neg a
theorem of_injective : Function.Injective (of : K → E2 K) := fun a b h => by
  simpa using congrArg A0 h
theorem conj_mul (a b : E2 K) : conj (a * b) = conj a * conj b := conjHom.map_mul a b
theorem conj_pow (a : E2 K) (n : ℕ) : conj (a ^ n) = conj a ^ n := conjHom.map_pow a n
@[simp] theorem conj_conj (a : E2 K) : conj (conj a) = a := by ext <;> simp
theorem norm_mul (a b : E2 K) : norm (a * b) = norm a * norm b := by
  simp [norm]; ring

instance (p : ℕ) [CharP K p] : CharP (E2 K) p where
  cast_eq_zero_iff n := by
    rw [← CharP.cast_eq_zero_iff K p n]
    constructor
    · intro h; simpa [A0_natCast] using congrArg A0 h
    · intro h; ext <;> simp [A0_natCast, A1_natCast, h]

instance [Nontrivial K] : Nontrivial (E2 K) :=
  ⟨⟨0, 1, fun h => zero_ne_one (α := K) (by simpa using congrArg A0 h)⟩⟩

end
end E2
end Spark
