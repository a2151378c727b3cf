import Verif.Math.Tower

/-! Ring structures of `E6` and `E12` (schoolbook), see `Verif/Math/Tower.lean`. -/

namespace Spark

variable {K : Type}

namespace E6
section
variable [CommRing K]
instance : Zero (E6 K) := ⟨⟨0, 0, 0⟩⟩
instance : One (E6 K) := ⟨⟨1, 0, 0⟩⟩
/-- componentwise sum -/
def add' (x y : E6 K) : E6 K :=
  ⟨x.B0 + y.B0, x.B1 + y.B1, x.B2 + y.B2⟩
instance : Add (E6 K) := ⟨add'⟩
/-- componentwise negation -/
def neg' (x : E6 K) : E6 K :=
  ⟨-x.B0, -x.B1, -x.B2⟩
instance : Neg (E6 K) := ⟨neg'⟩
/-- componentwise difference -/
def sub' (x y : E6 K) : E6 K :=
  ⟨x.B0 - y.B0, x.B1 - y.B1, x.B2 - y.B2⟩
instance : Sub (E6 K) := ⟨sub'⟩
/-- schoolbook product with `v³ = ξ` -/
def mul' (x y : E6 K) : E6 K :=
  ⟨x.B0 * y.B0 + E2.xi * (x.B1 * y.B2 + x.B2 * y.B1),
   x.B0 * y.B1 + x.B1 * y.B0 + E2.xi * (x.B2 * y.B2),
   x.B0 * y.B2 + x.B1 * y.B1 + x.B2 * y.B0⟩
instance : Mul (E6 K) := ⟨mul'⟩
/-- constants -/
def natCast' (n : ℕ) : E6 K := ⟨n, 0, 0⟩
instance : NatCast (E6 K) := ⟨natCast'⟩
/-- constants -/
def intCast' (n : ℤ) : E6 K := ⟨n, 0, 0⟩
instance : IntCast (E6 K) := ⟨intCast'⟩
/-- natural multiples -/
def nsmul' (n : ℕ) (x : E6 K) : E6 K :=
  ⟨n • x.B0, n • x.B1, n • x.B2⟩
instance : SMul ℕ (E6 K) := ⟨nsmul'⟩
/-- integer multiples -/
def zsmul' (n : ℤ) (x : E6 K) : E6 K :=
  ⟨n • x.B0, n • x.B1, n • x.B2⟩
instance : SMul ℤ (E6 K) := ⟨zsmul'⟩

@[simp] theorem B0_zero : (0 : E6 K).B0 = 0 := rfl
@[simp] theorem B1_zero : (0 : E6 K).B1 = 0 := rfl
@[simp] theorem B2_zero : (0 : E6 K).B2 = 0 := rfl
@[simp] theorem B0_one : (1 : E6 K).B0 = 1 := rfl
@[simp] theorem B1_one : (1 : E6 K).B1 = 0 := rfl
@[simp] theorem B2_one : (1 : E6 K).B2 = 0 := rfl
@[simp] theorem B0_add (x y : E6 K) : (x + y).B0 = x.B0 + y.B0 := rfl
@[simp] theorem B1_add (x y : E6 K) : (x + y).B1 = x.B1 + y.B1 := rfl
@[simp] theorem B2_add (x y : E6 K) : (x + y).B2 = x.B2 + y.B2 := rfl
@[simp] theorem B0_neg (x : E6 K) : (-x).B0 = -x.B0 := rfl
@[simp] theorem B1_neg (x : E6 K) : (-x).B1 = -x.B1 := rfl
@[simp] theorem B2_neg (x : E6 K) : (-x).B2 = -x.B2 := rfl
@[simp] theorem B0_sub (x y : E6 K) : (x - y).B0 = x.B0 - y.B0 := rfl
@[simp] theorem B1_sub (x y : E6 K) : (x - y).B1 = x.B1 - y.B1 := rfl
@[simp] theorem B2_sub (x y : E6 K) : (x - y).B2 = x.B2 - y.B2 := rfl
@[simp] theorem B0_mul (x y : E6 K) :
    (x * y).B0 = x.B0 * y.B0 + E2.xi * (x.B1 * y.B2 + x.B2 * y.B1) := rfl
@[simp] theorem B1_mul (x y : E6 K) :
    (x * y).B1 = x.B0 * y.B1 + x.B1 * y.B0 + E2.xi * (x.B2 * y.B2) := rfl
@[simp] theorem B2_mul (x y : E6 K) :
    (x * y).B2 = x.B0 * y.B2 + x.B1 * y.B1 + x.B2 * y.B0 := rfl
theorem B0_natCast (n : ℕ) : (n : E6 K).B0 = n := rfl
theorem B1_natCast (n : ℕ) : (n : E6 K).B1 = 0 := rfl
theorem B2_natCast (n : ℕ) : (n : E6 K).B2 = 0 := rfl
theorem B0_intCast (n : ℤ) : (n : E6 K).B0 = n := rfl
theorem B1_intCast (n : ℤ) : (n : E6 K).B1 = 0 := rfl
theorem B2_intCast (n : ℤ) : (n : E6 K).B2 = 0 := rfl
theorem B0_nsmul (n : ℕ) (x : E6 K) : (n • x).B0 = n • x.B0 := rfl
theorem B1_nsmul (n : ℕ) (x : E6 K) : (n • x).B1 = n • x.B1 := rfl
theorem B2_nsmul (n : ℕ) (x : E6 K) : (n • x).B2 = n • x.B2 := rfl
theorem B0_zsmul (n : ℤ) (x : E6 K) : (n • x).B0 = n • x.B0 := rfl
theorem B1_zsmul (n : ℤ) (x : E6 K) : (n • x).B1 = n • x.B1 := rfl
theorem B2_zsmul (n : ℤ) (x : E6 K) : (n • x).B2 = n • x.B2 := rfl

instance instCommRing : CommRing (E6 K) where
  add_assoc _ _ _ := by ext1 <;> simp only [B0_add, B1_add, B2_add, add_assoc]
  zero_add _ := by ext1 <;> simp
  add_zero _ := by ext1 <;> simp
  add_comm _ _ := by ext1 <;> simp only [B0_add, B1_add, B2_add, add_comm]
  neg_add_cancel _ := by ext1 <;> simp
  sub_eq_add_neg _ _ := by ext1 <;> simp [sub_eq_add_neg]
  nsmul := fun n x => n • x
  nsmul_zero _ := by ext1 <;> simp [B0_nsmul, B1_nsmul, B2_nsmul]
  nsmul_succ _ _ := by ext1 <;> simp [B0_nsmul, B1_nsmul, B2_nsmul, add_mul]
  zsmul := fun n x => n • x
  zsmul_zero' _ := by ext1 <;> simp [B0_zsmul, B1_zsmul, B2_zsmul]
  zsmul_succ' _ _ := by ext1 <;> simp [B0_zsmul, B1_zsmul, B2_zsmul, add_mul]
  zsmul_neg' _ _ := by ext1 <;> simp [B0_zsmul, B1_zsmul, B2_zsmul, add_mul, Int.negSucc_eq]
  mul_assoc _ _ _ := by ext1 <;> simp only [B0_mul, B1_mul, B2_mul] <;> ring
  one_mul _ := by ext1 <;> simp
  mul_one _ := by ext1 <;> simp
  left_distrib _ _ _ := by
    ext1 <;> simp only [B0_mul, B1_mul, B2_mul, B0_add, B1_add, B2_add] <;> ring
  right_distrib _ _ _ := by
    ext1 <;> simp only [B0_mul, B1_mul, B2_mul, B0_add, B1_add, B2_add] <;> ring
  zero_mul _ := by ext1 <;> simp
  mul_zero _ := by ext1 <;> simp
  mul_comm _ _ := by ext1 <;> simp only [B0_mul, B1_mul, B2_mul] <;> ring
  natCast_zero := by ext1 <;> simp [B0_natCast, B1_natCast, B2_natCast]
  natCast_succ _ := by ext1 <;> simp [B0_natCast, B1_natCast, B2_natCast]
  intCast_ofNat _ := by
    ext1 <;> simp [B0_natCast, B1_natCast, B2_natCast, B0_intCast, B1_intCast, B2_intCast]
  intCast_negSucc _ := by
    ext1 <;> simp [B0_natCast, B1_natCast, B2_natCast, B0_intCast, B1_intCast, B2_intCast]

/-- embedding of `E2` -/
def of (a : E2 K) : E6 K := ⟨a, 0, 0⟩
/-- `v`, a cube root of `ξ` -/
def v : E6 K := ⟨0, 1, 0⟩

@[simp] theorem B0_of (a : E2 K) : (of a).B0 = a := rfl
@[simp] theorem B1_of (a : E2 K) : (of a).B1 = 0 := rfl
@[simp] theorem B2_of (a : E2 K) : (of a).B2 = 0 := rfl
@[simp] theorem B0_v : (v : E6 K).B0 = 0 := rfl
@[simp] theorem B1_v : (v : E6 K).B1 = 1 := rfl
@[simp] theorem B2_v : (v : E6 K).B2 = 0 := rfl

theorem v_cube : (v : E6 K) ^ 3 = of E2.xi := by
  rw [pow_succ, pow_two]; ext1 <;> simp
theorem eq_of_add (x : E6 K) : x = of x.B0 + of x.B1 * v + of x.B2 * v ^ 2 := by
  rw [pow_two]; ext1 <;> simp

/-- the embedding as a ring homomorphism -/
def ofHom : E2 K →+* E6 K where
  toFun := of
  map_one' := rfl
  map_mul' _ _ := by ext1 <;> simp
  map_zero' := rfl
  map_add' _ _ := by ext1 <;> simp

theorem of_mul (a b : E2 K) : of (a * b) = of a * of b := ofHom.map_mul a b
theorem of_add (a b : E2 K) : of (a + b) = of a + of b := ofHom.map_add a b
theorem of_pow (a : E2 K) (n : ℕ) : of (a ^ n) = of a ^ n := ofHom.map_pow a n
theorem of_one : (of 1 : E6 K) = 1 := rfl
theorem of_zero : (of 0 : E6 K) = 0 := rfl
theorem of_neg (a : E2 K) : of (-a) = -of a := ofHom.map_neg a
theorem of_injective : Function.Injective (of : E2 K → E6 K) := fun a b h => by
  simpa using congrArg B0 h

/-- norm to `E2` -/
def norm (x : E6 K) : E2 K :=
  x.B0 ^ 3 + E2.xi * x.B1 ^ 3 + E2.xi ^ 2 * x.B2 ^ 3 - 3 * E2.xi * (x.B0 * x.B1 * x.B2)

/-- adjugate: `x * adj x = norm x` -/
def adj (x : E6 K) : E6 K :=
  ⟨x.B0 ^ 2 - E2.xi * (x.B1 * x.B2), E2.xi * x.B2 ^ 2 - x.B0 * x.B1, x.B1 ^ 2 - x.B0 * x.B2⟩

theorem mul_adj (x : E6 K) : x * adj x = of (norm x) := by
  ext1 <;> simp only [B0_mul, B1_mul, B2_mul, adj, norm, B0_of, B1_of, B2_of] <;> ring

theorem norm_mul (x y : E6 K) : norm (x * y) = norm x * norm y := by
  simp only [norm, B0_mul, B1_mul, B2_mul]; ring

instance (p : ℕ) [CharP K p] : CharP (E6 K) p where
  cast_eq_zero_iff n := by
    rw [← CharP.cast_eq_zero_iff (E2 K) p n]
    constructor
    · intro h; simpa [B0_natCast] using congrArg B0 h
    · intro h; ext1 <;> simp [B0_natCast, B1_natCast, B2_natCast, h]

instance [Nontrivial K] : Nontrivial (E6 K) :=
  ⟨⟨0, 1, fun h => zero_ne_one (α := E2 K) (by simpa using congrArg B0 h)⟩⟩
end
end E6

namespace E12
section
variable [CommRing K]
instance : Zero (E12 K) := ⟨⟨0, 0⟩⟩
instance : One (E12 K) := ⟨⟨1, 0⟩⟩
/-- componentwise sum -/
def add' (x y : E12 K) : E12 K :=
  ⟨x.C0 + y.C0, x.C1 + y.C1⟩
instance : Add (E12 K) := ⟨add'⟩
/-- componentwise negation -/
def neg' (x : E12 K) : E12 K :=
  ⟨-x.C0, -x.C1⟩
instance : Neg (E12 K) := ⟨neg'⟩
/-- componentwise difference -/
def sub' (x y : E12 K) : E12 K :=
  ⟨x.C0 - y.C0, x.C1 - y.C1⟩
instance : Sub (E12 K) := ⟨sub'⟩
/-- schoolbook product with `w² = v` -/
def mul' (x y : E12 K) : E12 K :=
  ⟨x.C0 * y.C0 + E6.v * (x.C1 * y.C1), x.C0 * y.C1 + x.C1 * y.C0⟩
instance : Mul (E12 K) := ⟨mul'⟩
/-- constants -/
def natCast' (n : ℕ) : E12 K := ⟨n, 0⟩
instance : NatCast (E12 K) := ⟨natCast'⟩
/-- constants -/
def intCast' (n : ℤ) : E12 K := ⟨n, 0⟩
instance : IntCast (E12 K) := ⟨intCast'⟩
/-- natural multiples -/
def nsmul' (n : ℕ) (x : E12 K) : E12 K :=
  ⟨n • x.C0, n • x.C1⟩
instance : SMul ℕ (E12 K) := ⟨nsmul'⟩
/-- integer multiples -/
def zsmul' (n : ℤ) (x : E12 K) : E12 K :=
  ⟨n • x.C0, n • x.C1⟩
instance : SMul ℤ (E12 K) := ⟨zsmul'⟩

@[simp] theorem C0_zero : (0 : E12 K).C0 = 0 := rfl
@[simp] theorem C1_zero : (0 : E12 K).C1 = 0 := rfl
@[simp] theorem C0_one : (1 : E12 K).C0 = 1 := rfl
@[simp] theorem C1_one : (1 : E12 K).C1 = 0 := rfl
@[simp] theorem C0_add (x y : E12 K) : (x + y).C0 = x.C0 + y.C0 := rfl
@[simp] theorem C1_add (x y : E12 K) : (x + y).C1 = x.C1 + y.C1 := rfl
@[simp] theorem C0_neg (x : E12 K) : (-x).C0 = -x.C0 := rfl
@[simp] theorem C1_neg (x : E12 K) : (-x).C1 = -x.C1 := rfl
@[simp] theorem C0_sub (x y : E12 K) : (x - y).C0 = x.C0 - y.C0 := rfl
@[simp] theorem C1_sub (x y : E12 K) : (x - y).C1 = x.C1 - y.C1 := rfl
@[simp] theorem C0_mul (x y : E12 K) : (x * y).C0 = x.C0 * y.C0 + E6.v * (x.C1 * y.C1) := rfl
@[simp] theorem C1_mul (x y : E12 K) : (x * y).C1 = x.C0 * y.C1 + x.C1 * y.C0 := rfl
theorem C0_natCast (n : ℕ) : (n : E12 K).C0 = n := rfl
theorem C1_natCast (n : ℕ) : (n : E12 K).C1 = 0 := rfl
theorem C0_intCast (n : ℤ) : (n : E12 K).C0 = n := rfl
theorem C1_intCast (n : ℤ) : (n : E12 K).C1 = 0 := rfl
theorem C0_nsmul (n : ℕ) (x : E12 K) : (n • x).C0 = n • x.C0 := rfl
theorem C1_nsmul (n : ℕ) (x : E12 K) : (n • x).C1 = n • x.C1 := rfl
theorem C0_zsmul (n : ℤ) (x : E12 K) : (n • x).C0 = n • x.C0 := rfl
theorem C1_zsmul (n : ℤ) (x : E12 K) : (n • x).C1 = n • x.C1 := rfl

instance instCommRing : CommRing (E12 K) where
  add_assoc _ _ _ := by ext1 <;> simp only [C0_add, C1_add, add_assoc]
  zero_add _ := by ext1 <;> simp
  add_zero _ := by ext1 <;> simp
  add_comm _ _ := by ext1 <;> simp only [C0_add, C1_add, add_comm]
  neg_add_cancel _ := by ext1 <;> simp
  sub_eq_add_neg _ _ := by ext1 <;> simp [sub_eq_add_neg]
  nsmul := fun n x => n • x
  nsmul_zero _ := by ext1 <;> simp [C0_nsmul, C1_nsmul]
  nsmul_succ _ _ := by ext1 <;> simp [C0_nsmul, C1_nsmul, add_mul]
  zsmul := fun n x => n • x
  zsmul_zero' _ := by ext1 <;> simp [C0_zsmul, C1_zsmul]
  zsmul_succ' _ _ := by ext1 <;> simp [C0_zsmul, C1_zsmul, add_mul]
  zsmul_neg' _ _ := by ext1 <;> simp [C0_zsmul, C1_zsmul, add_mul, Int.negSucc_eq]
  mul_assoc _ _ _ := by ext1 <;> simp only [C0_mul, C1_mul] <;> ring
  one_mul _ := by ext1 <;> simp
  mul_one _ := by ext1 <;> simp
  left_distrib _ _ _ := by
    ext1 <;> simp only [C0_mul, C1_mul, C0_add, C1_add] <;> ring
  right_distrib _ _ _ := by
    ext1 <;> simp only [C0_mul, C1_mul, C0_add, C1_add] <;> ring
  zero_mul _ := by ext1 <;> simp
  mul_zero _ := by ext1 <;> simp
  mul_comm _ _ := by ext1 <;> simp only [C0_mul, C1_mul] <;> ring
  natCast_zero := by ext1 <;> simp [C0_natCast, C1_natCast]
  natCast_succ _ := by ext1 <;> simp [C0_natCast, C1_natCast]
  intCast_ofNat _ := by ext1 <;> simp [C0_natCast, C1_natCast, C0_intCast, C1_intCast]
  intCast_negSucc _ := by ext1 <;> simp [C0_natCast, C1_natCast, C0_intCast, C1_intCast]

/-- embedding of `E6` -/
def of (a : E6 K) : E12 K := ⟨a, 0⟩
/-- `w`, a square root of `v` -/
def w : E12 K := ⟨0, 1⟩
/-- conjugation `C0 + C1 w ↦ C0 - C1 w` -/
def conj (x : E12 K) : E12 K := ⟨x.C0, -x.C1⟩
/-- norm to `E6` -/
def norm (x : E12 K) : E6 K := x.C0 * x.C0 - E6.v * (x.C1 * x.C1)

@[simp] theorem C0_of (a : E6 K) : (of a).C0 = a := rfl
@[simp] theorem C1_of (a : E6 K) : (of a).C1 = 0 := rfl
@[simp] theorem C0_w : (w : E12 K).C0 = 0 := rfl
@[simp] theorem C1_w : (w : E12 K).C1 = 1 := rfl
@[simp] theorem C0_conj (x : E12 K) : (conj x).C0 = x.C0 := rfl
@[simp] theorem C1_conj (x : E12 K) : (conj x).C1 = -x.C1 := rfl

theorem w_sq : (w : E12 K) ^ 2 = of E6.v := by rw [pow_two]; ext1 <;> simp
theorem eq_of_add (x : E12 K) : x = of x.C0 + of x.C1 * w := by ext1 <;> simp

/-- the embedding as a ring homomorphism -/
def ofHom : E6 K →+* E12 K where
  toFun := of
  map_one' := rfl
  map_mul' _ _ := by ext1 <;> simp
  map_zero' := rfl
  map_add' _ _ := by ext1 <;> simp

/-- conjugation as a ring homomorphism -/
def conjHom : E12 K →+* E12 K where
  toFun := conj
  map_one' := by ext1 <;> simp
  map_mul' _ _ := by ext1 <;> simp <;> ring
  map_zero' := by ext1 <;> simp
  map_add' _ _ := by ext1 <;> simp <;> ring

theorem of_mul (a b : E6 K) : of (a * b) = of a * of b := ofHom.map_mul a b
theorem of_add (a b : E6 K) : of (a + b) = of a + of b := ofHom.map_add a b
theorem of_sub (a b : E6 K) : of (a - b) = of a - of b := ofHom.map_sub a b
theorem of_pow (a : E6 K) (n : ℕ) : of (a ^ n) = of a ^ n := ofHom.map_pow a n
theorem of_one : (of 1 : E12 K) = 1 := rfl
theorem of_zero : (of 0 : E12 K) = 0 := rfl
theorem of_neg (a : E6 K) : of (-a) = -of a := ofHom.map_neg a
theorem of_injective : Function.Injective (of : E6 K → E12 K) := fun a b h => by
  simpa using congrArg C0 h
theorem mul_conj (x : E12 K) : x * conj x = of (norm x) := by
  ext1 <;> simp [norm] <;> ring
theorem conj_mul (a b : E12 K) : conj (a * b) = conj a * conj b := conjHom.map_mul a b
theorem conj_pow (a : E12 K) (n : ℕ) : conj (a ^ n) = conj a ^ n := conjHom.map_pow a n
@[simp] theorem conj_conj (a : E12 K) : conj (conj a) = a := by ext1 <;> simp

instance (p : ℕ) [CharP K p] : CharP (E12 K) p where
  cast_eq_zero_iff n := by
    rw [← CharP.cast_eq_zero_iff (E6 K) p n]
    constructor
    · intro h; simpa [C0_natCast] using congrArg C0 h
    · intro h; ext1 <;> simp [C0_natCast, C1_natCast, h]

instance [Nontrivial K] : Nontrivial (E12 K) :=
  ⟨⟨0, 1, fun h => zero_ne_one (α := E6 K) (by simpa using congrArg C0 h)⟩⟩
end
end E12
end Spark
