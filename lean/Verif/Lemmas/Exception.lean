import Verif.Props.Pairing
import Verif.Math.Card

/-! The inputs on which the torus arithmetic of the final exponentiation breaks down, in coordinates, and the Miller
loop at `-P`. -/

namespace Spark
open Circ
set_option maxRecDepth 100000

namespace Torus

theorem conj_one_C1 (c : E6 Fp) : E12.conj (⟨c, 1⟩ : E12 Fp) = ⟨c, -1⟩ := by ext1 <;> simp

theorem two_ne2 : (2 : E2 Fp) ≠ 0 := fun h => by
  have := congrArg (E6.of (K := Fp)) h
  rw [← one_add_one_eq_two, E6.of_add, E6.of_one, E6.of_zero, one_add_one_eq_two] at this
  exact two_ne6 this

theorem gam2_coeff : (1 + gam2 : E2 Fp) ≠ 0 ∧ (2 * gam2 - 1 : E2 Fp) ≠ 0 := by
  have h3 : (3 : E2 Fp) ≠ 0 := fun h => by
    have := congrArg E2.A0 h
    rw [← NC.e2_three] at this
    exact cast_ne (n := 3) (by decide +kernel) (by simpa [NC.e2, toE2] using this)
  refine ⟨fun h => h3 ?_, fun h => h3 ?_⟩
  · linear_combination (2 - gam2) * h + gam2_sq
  · linear_combination (1 - 2 * gam2) * h + 4 * gam2_sq

theorem easy_C1_one (c : E6 Fp) : easy ⟨c, 1⟩ = 1 ↔ c.B0 = 0 ∧ c.B1 = 0 := by
  have he : (⟨c, 1⟩ : E12 Fp) ≠ 0 := fun h => one_ne_zero (congrArg E12.C1 h)
  have hf : frobHom2 (⟨c, 1⟩ : E12 Fp) ≠ 0 := fun h => he (frobHom2.injective (h.trans (map_zero _).symm))
  rw [easy_def, easy1_def, map_div₀, div_mul_div_comm, div_eq_one_iff_eq (mul_ne_zero hf he), conj_one_C1,
    frobHom2_coord, frobHom2_coord]
  obtain ⟨g1, g2⟩ := gam2_coeff
  constructor
  · intro h
    have h0 := congrArg (fun z => z.C1.B0) h
    have h1 := congrArg (fun z => z.C1.B1) h
    simp [E12.C1_mul] at h0 h1
    refine ⟨?_, ?_⟩
    · have : 2 * ((1 + gam2) * c.B0) = 0 := by linear_combination -h0
      simpa [two_ne2, g1] using this
    · have : 2 * ((2 * gam2 - 1) * c.B1) = 0 := by linear_combination -h1
      simpa [two_ne2, g2] using this
  · rintro ⟨h0, h1⟩
    ext1
    · rw [E12.C0_mul, E12.C0_mul]
      have : (⟨gam2 * (-1 : E6 Fp).B0, -(-1 : E6 Fp).B1, (1 - gam2) * (-1 : E6 Fp).B2⟩ : E6 Fp) =
          -⟨gam2 * (1 : E6 Fp).B0, -(1 : E6 Fp).B1, (1 - gam2) * (1 : E6 Fp).B2⟩ := by ext1 <;> simp
      dsimp only
      rw [this]; ring
    · rw [E12.C1_mul, E12.C1_mul]
      ext1 <;> simp [h0, h1]

/-- In coordinates: the easy part is 1 exactly for multiples by the subfield of `1` and of `b v² + w`. -/
theorem easy_one_iff {z : E12 Fp} (h1 : z.C1 ≠ 0) :
    easy z = 1 ↔ ∃ b : E2 Fp, z.C0 = z.C1 * ⟨0, 0, b⟩ := by
  rw [← FinalExpProps.easy_scale h1, easy_C1_one]
  constructor
  · rintro ⟨h, h'⟩
    refine ⟨(z.C0 / z.C1).B2, ?_⟩
    have : (⟨0, 0, (z.C0 / z.C1).B2⟩ : E6 Fp) = z.C0 / z.C1 := by ext1 <;> simp [h, h']
    rw [this, mul_div_cancel₀ _ h1]
  · rintro ⟨b, h⟩
    rw [h, mul_div_cancel_left₀ _ h1]
    exact ⟨rfl, rfl⟩

end Torus

namespace Pairing
variable {K : Type} [Field K] [TowerField K] [DecidableEq K]

/-- the state of a pair whose G1 point is negated -/
def PairState.neg (s : PairState K) : PairState K := { s with yInv := -s.yInv, xOverY := -s.xOverY }

omit [DecidableEq K] in
theorem sparse_neg (s : PairState K) (l : LineEval K) :
    Ext12.sparse014 (evalLine s.neg l).R1 (evalLine s.neg l).R0 =
      -E12.conj (Ext12.sparse014 (evalLine s l).R1 (evalLine s l).R0) := by
  simp only [evalLine, PairState.neg, Ext12.sparse014, tower]
  have h : ∀ x : K, E2.of (-x) = -E2.of x := fun x => by ext <;> simp
  ext1 <;> ext1 <;> simp [h]

theorem fac62_neg (s : PairState K) :
    fac62 s.neg = (fac62 s >>= fun x => pure (x.1.neg, E12.conj x.2)) := by
  simp only [fac62, bind_assoc, pure_bind, sparse_neg]
  refine congrArg _ (funext fun x => ?_)
  simp [PairState.neg, E12.conj_mul]

theorem facI_neg (i : ℕ) : ∃ d : E12 K, d * d = 1 ∧ ∀ s : PairState K,
    facI i s.neg = (facI i s >>= fun x => pure (x.1.neg, d * E12.conj x.2)) := by
  unfold facI
  split
  · refine ⟨-1, by ring, fun s => ?_⟩
    simp only [fac0, bind_assoc, pure_bind, sparse_neg]
    refine congrArg _ (funext fun x => ?_)
    simp [PairState.neg]
  · refine ⟨1, by ring, fun s => ?_⟩
    simp only [fac1, bind_assoc, pure_bind, sparse_neg]
    refine congrArg _ (funext fun x => ?_)
    simp [PairState.neg, E12.conj_mul]

theorem loop1_neg (i : ℕ) (d : E12 K) (hd : d * d = 1) : ∃ d' : E12 K, d' * d' = 1 ∧
    ∀ x : PairState K × E12 K, loop1 i (x.1.neg, d * E12.conj x.2) =
      (loop1 i x >>= fun y => pure (y.1.neg, d' * E12.conj y.2)) := by
  induction i generalizing d with
  | zero => exact ⟨d, hd, fun x => by simp only [loop1, pure_bind]⟩
  | succ i ih =>
    obtain ⟨a, ha, hf⟩ := facI_neg (K := K) (i + 1)
    obtain ⟨d', hd', h⟩ := ih a ha
    refine ⟨d', hd', fun x => ?_⟩
    simp only [loop1, hf, bind_assoc, pure_bind]
    refine congrArg _ (funext fun y => ?_)
    rw [← h]
    congr 2
    rw [E12.conj_mul, E12.conj_mul]
    linear_combination E12.conj x.2 * E12.conj x.2 * a * E12.conj y.2 * hd

theorem facLast_neg (s : PairState K) :
    facLast s.neg = (facLast s >>= fun x => pure (x.1.neg, -E12.conj x.2)) := by
  simp only [facLast, bind_assoc, pure_bind, sparse_neg]
  rfl

/-- The Miller loop at `-P` gives minus the conjugate of the Miller loop at `P`. -/
theorem miller1_neg (P : G1Affine K) (Q : G2Affine K) :
    miller1 (⟨P.X, -P.Y⟩, Q) = (miller1 (P, Q) >>= fun z => pure (-E12.conj z)) := by
  have h0 : initPair ⟨P.X, -P.Y⟩ Q = (initPair P Q >>= fun s => pure s.neg) := by
    simp only [initPair, bind_assoc, pure_bind]
    by_cases hy : P.Y = 0
    · rw [hy, neg_zero, fpInverse_zero, fail_bind, fail_bind]
    · rw [fpInverse_ne hy, fpInverse_ne (neg_ne_zero.2 hy), pure_bind, pure_bind]
      simp [PairState.neg, inv_neg]
  obtain ⟨d, hd, hl⟩ := loop1_neg (K := K) 61 1 (one_mul 1)
  simp only [miller1, h0, bind_assoc, pure_bind, body1pair, fac62_neg]
  refine congrArg _ (funext fun s => congrArg _ (funext fun x => ?_))
  have := hl x
  rw [one_mul] at this
  rw [this]
  simp only [bind_assoc, pure_bind, facLast_neg]
  refine congrArg _ (funext fun y => congrArg _ (funext fun t => ?_))
  congr 1
  have hn : ∀ a : E12 K, E12.conj (-a) = -E12.conj a := fun a => map_neg E12.conjHom a
  have hdd : E12.conj d * E12.conj d = 1 := by
    rw [← E12.conj_mul, hd]; exact map_one E12.conjHom
  simp only [E12.conj_mul, E12.conj_conj, hn]
  linear_combination -(y.2 * y.2 * t.2) * hdd

end Pairing
end Spark
