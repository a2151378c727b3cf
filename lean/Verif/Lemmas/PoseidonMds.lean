import Verif.Lemmas.PoseidonAll
import Mathlib.LinearAlgebra.Lagrange
import Mathlib.LinearAlgebra.Matrix.NonsingularInverse
import Mathlib.LinearAlgebra.Matrix.ToLinearEquiv

/-! Cauchy matrices are invertible; the Cauchy points of the sixteen widths are distinct modulo the field order. -/

namespace Spark.Poseidon

open Matrix PosSpec PosData Polynomial

/-- A Cauchy matrix has trivial kernel. -/
theorem cauchy_kernel {F : Type} [Field F] {k : ℕ} {x y : Fin k → F} (hx : Function.Injective x)
    (hy : Function.Injective y) (h0 : ∀ i j, x i + y j ≠ 0) {a : Fin k → F}
    (h : ∀ i, ∑ j, (x i + y j)⁻¹ * a j = 0) : a = 0 := by
  classical
  set f : F[X] := ∑ j, C (a j) * ∏ l ∈ Finset.univ.erase j, (X + C (y l)) with hf
  have hdeg : f.degree < (Finset.univ : Finset (Fin k)).card := by
    rcases Nat.eq_zero_or_pos k with rfl | hk
    · simp [hf]
    refine lt_of_le_of_lt (degree_sum_le _ _) ((Finset.sup_lt_iff (by simp)).2 fun j _ => ?_)
    refine lt_of_le_of_lt ((degree_mul_le _ _).trans (add_le_add_left degree_C_le _)) ?_
    rw [zero_add, degree_prod]
    simp only [degree_X_add_C, Finset.sum_const, Finset.card_erase_of_mem (Finset.mem_univ j), Finset.card_univ,
      Fintype.card_fin]
    simp only [nsmul_eq_mul, mul_one]
    exact_mod_cast Nat.sub_lt hk one_pos
  have hz : f = 0 := by
    refine eq_zero_of_degree_lt_of_eval_index_eq_zero _ hx.injOn hdeg fun i _ => ?_
    have : f.eval (x i) = (∏ l, (x i + y l)) * ∑ j, (x i + y j)⁻¹ * a j := by
      rw [hf, eval_finsetSum, Finset.mul_sum]
      refine Finset.sum_congr rfl fun j _ => ?_
      rw [eval_mul, eval_C, eval_prod, ← Finset.mul_prod_erase _ _ (Finset.mem_univ j)]
      simp only [eval_add, eval_X, eval_C]
      field_simp [h0 i j]
    rw [this, h, mul_zero]
  funext j
  have e : f.eval (-y j) = a j * ∏ l ∈ Finset.univ.erase j, (-y j + y l) := by
    rw [hf, eval_finsetSum, Finset.sum_eq_single j]
    · rw [eval_mul, eval_C, eval_prod]; simp
    · intro b _ hb
      rw [eval_mul, eval_prod, Finset.prod_eq_zero (i := j) (Finset.mem_erase.2 ⟨hb.symm, Finset.mem_univ _⟩)
        (by simp), mul_zero]
    · simp
  rw [hz, eval_zero] at e
  rcases mul_eq_zero.1 e.symm with h | h
  · exact h
  · obtain ⟨l, hl, h⟩ := Finset.prod_eq_zero_iff.1 h
    exact absurd (hy (show y l = y j by linear_combination h)) (Finset.mem_erase.1 hl).1

theorem cauchy_det {F : Type} [Field F] {k : ℕ} {x y : Fin k → F} (hx : Function.Injective x)
    (hy : Function.Injective y) (h0 : ∀ i j, x i + y j ≠ 0) :
    (Matrix.of fun i j => (x i + y j)⁻¹).det ≠ 0 := by
  intro h
  obtain ⟨v, hv, e⟩ := Matrix.exists_mulVec_eq_zero_iff.2 h
  exact hv (cauchy_kernel hx hy h0 fun i => congrFun e i)

/-- the points of each of the two halves are distinct modulo the field order -/
noncomputable def chkDistinct (n : ℕ) (xy : ℕ) : Bool :=
  allN (Nat.succ n) fun i => allN i fun j =>
    andB (Bool.rec true false (eqm (ent xy i) (ent xy j)))
      (Bool.rec true false (eqm (ent xy (Nat.add (Nat.succ n) i)) (ent xy (Nat.add (Nat.succ n) j))))

theorem distinct2 : chkDistinct 1 xy2 = true := by decide +kernel
theorem distinct3 : chkDistinct 2 xy3 = true := by decide +kernel
theorem distinct4 : chkDistinct 3 xy4 = true := by decide +kernel
theorem distinct5 : chkDistinct 4 xy5 = true := by decide +kernel
theorem distinct6 : chkDistinct 5 xy6 = true := by decide +kernel
theorem distinct7 : chkDistinct 6 xy7 = true := by decide +kernel
theorem distinct8 : chkDistinct 7 xy8 = true := by decide +kernel
theorem distinct9 : chkDistinct 8 xy9 = true := by decide +kernel
theorem distinct10 : chkDistinct 9 xy10 = true := by decide +kernel
theorem distinct11 : chkDistinct 10 xy11 = true := by decide +kernel
theorem distinct12 : chkDistinct 11 xy12 = true := by decide +kernel
theorem distinct13 : chkDistinct 12 xy13 = true := by decide +kernel
theorem distinct14 : chkDistinct 13 xy14 = true := by decide +kernel
theorem distinct15 : chkDistinct 14 xy15 = true := by decide +kernel
theorem distinct16 : chkDistinct 15 xy16 = true := by decide +kernel
theorem distinct17 : chkDistinct 16 xy17 = true := by decide +kernel

theorem params_distinct (n : ℕ) (h1 : 1 ≤ n) (h2 : n ≤ 16) : ∃ (rp k m nrc : ℕ) (C S M P R : List ℕ) (xy : ℕ),
    PosSpec.partialRounds[n - 1]? = some rp ∧ PosData.M (n + 1) = some (M, n + 1) ∧
    fullChk n rp k m nrc C S M P R xy = true ∧ chkDistinct n xy = true := by
  interval_cases n
  · exact ⟨56, 12, 16, 178, c2, s2, m2, p2, rc2, xy2, rfl, rfl, full2, distinct2⟩
  · exact ⟨57, 12, 24, 265, c3, s3, m3, p3, rc3, xy3, rfl, rfl, full3, distinct3⟩
  · exact ⟨56, 13, 29, 334, c4, s4, m4, p4, rc4, xy4, rfl, rfl, full4, distinct4⟩
  · exact ⟨60, 13, 41, 473, c5, s5, m5, p5, rc5, xy5, rfl, rfl, full5, distinct5⟩
  · exact ⟨60, 13, 44, 508, c6, s6, m6, p6, rc6, xy6, rfl, rfl, full6, distinct6⟩
  · exact ⟨63, 14, 57, 649, c7, s7, m7, p7, rc7, xy7, rfl, rfl, full7, distinct7⟩
  · exact ⟨64, 14, 66, 755, c8, s8, m8, p8, rc8, xy8, rfl, rfl, full8, distinct8⟩
  · exact ⟨63, 14, 73, 838, c9, s9, m9, p9, rc9, xy9, rfl, rfl, full9, distinct9⟩
  · exact ⟨60, 14, 77, 887, c10, s10, m10, p10, rc10, xy10, rfl, rfl, full10, distinct10⟩
  · exact ⟨66, 14, 94, 1087, c11, s11, m11, p11, rc11, xy11, rfl, rfl, full11, distinct11⟩
  · exact ⟨60, 14, 93, 1073, c12, s12, m12, p12, rc12, xy12, rfl, rfl, full12, distinct12⟩
  · exact ⟨65, 14, 108, 1246, c13, s13, m13, p13, rc13, xy13, rfl, rfl, full13, distinct13⟩
  · exact ⟨70, 15, 125, 1443, c14, s14, m14, p14, rc14, xy14, rfl, rfl, full14, distinct14⟩
  · exact ⟨60, 15, 115, 1326, c15, s15, m15, p15, rc15, xy15, rfl, rfl, full15, distinct15⟩
  · exact ⟨64, 15, 133, 1529, c16, s16, m16, p16, rc16, xy16, rfl, rfl, full16, distinct16⟩
  · exact ⟨68, 15, 146, 1690, c17, s17, m17, p17, rc17, xy17, rfl, rfl, full17, distinct17⟩

theorem neqm {a b : ℕ} (h : (Bool.rec true false (eqm a b) : Bool) = true) : (a : Fr) ≠ (b : Fr) := by
  intro e
  have : eqm a b = true := by
    exact Nat.beq_eq.mpr ((ZMod.natCast_eq_natCast_iff a b frOrder).1 e)
  rw [this] at h
  exact absurd h (by decide)

/-- the points of the generator: distinct in each half, and no sum of a point of the first and one of the second half
vanishes; the stored table is the (transposed) Cauchy matrix -/
theorem points_facts (n : ℕ) (h1 : 1 ≤ n) (h2 : n ≤ 16) (rp : ℕ) (hrp : PosSpec.partialRounds[n - 1]? = some rp) (N : ℕ)
    (consts points : List ℕ) (href : reference (n + 1) rp N = some (consts, points)) :
    (Function.Injective fun i : Fin (n + 1) => ((points.getD i 0 : ℕ) : Fr)) ∧
    (Function.Injective fun i : Fin (n + 1) => ((points.getD (n + 1 + i) 0 : ℕ) : Fr)) ∧
    (∀ i j : Fin (n + 1), ((points.getD i 0 : ℕ) : Fr) + ((points.getD (n + 1 + j) 0 : ℕ) : Fr) ≠ 0) ∧
    ∃ m, tableM (n + 1) = some m ∧ (matF m : Matrix (Fin (n + 1)) (Fin (n + 1)) Fr) = cauchy points := by
  obtain ⟨rp', k, m, nrc, C, S, M, P, R, xy, a2, a5, h, hd⟩ := params_distinct n h1 h2
  rw [hrp] at a2
  cases a2
  rw [fullChk] at h
  obtain ⟨b1, h⟩ := andB_spec h
  obtain ⟨b2, h⟩ := andB_spec h
  obtain ⟨b3, h⟩ := andB_spec h
  obtain ⟨b4, h⟩ := andB_spec h
  obtain ⟨b5, h⟩ := andB_spec h
  obtain ⟨b6, b7⟩ := andB_spec h
  obtain ⟨rfl, rfl⟩ := Prod.mk.inj (reference_unique href (grain_sound b7))
  have key : ∀ i j : Fin (n + 1), (cell M j i : Fr) * ((ent xy i : Fr) + (ent xy (n + 1 + j) : Fr)) = 1 := fun i j => by
    have := eqm_spec (allN_spec (allN_spec b6 i i.2) j j.2)
    change ((cell M j i * (ent xy i + ent xy (n + 1 + j)) : ℕ) : Fr) = ((1 : ℕ) : Fr) at this
    rwa [Nat.cast_mul, Nat.cast_add, Nat.cast_one] at this
  have g1 : ∀ i : Fin (n + 1), (unpack (2 * (n + 1)) xy).getD i 0 = ent xy i := fun i =>
    getD_unpack _ _ _ (by omega)
  have g2 : ∀ i : Fin (n + 1), (unpack (2 * (n + 1)) xy).getD (n + 1 + i) 0 = ent xy (n + 1 + i) := fun i =>
    getD_unpack _ _ _ (by omega)
  have inj : ∀ f : ℕ → ℕ, (∀ i < n + 1, ∀ j < i, (f i : Fr) ≠ (f j : Fr)) →
      Function.Injective fun i : Fin (n + 1) => (f i : Fr) := by
    intro f hf i j e
    rcases lt_trichotomy i j with h | h | h
    · exact absurd e.symm (hf j j.2 i h)
    · exact h
    · exact absurd e (hf i i.2 j h)
  have hd' : ∀ i < n + 1, ∀ j < i, (ent xy i : Fr) ≠ (ent xy j : Fr) ∧
      (ent xy (n + 1 + i) : Fr) ≠ (ent xy (n + 1 + j) : Fr) := fun i hi j hj => by
    obtain ⟨e1, e2⟩ := andB_spec (allN_spec (allN_spec hd i hi) j hj)
    exact ⟨neqm e1, neqm e2⟩
  simp only [g1, g2]
  refine ⟨inj (fun i => ent xy i) fun i hi j hj => (hd' i hi j hj).1,
    inj (fun i => ent xy (n + 1 + i)) fun i hi j hj => (hd' i hi j hj).2,
    fun i j => right_ne_zero_of_mul_eq_one (key i j), M.map (unpack (n + 1)), by rw [tableM, a5]; rfl, ?_⟩
  funext i j
  rw [matF_rows n M (Nat.eq_of_beq_eq_true b3), cauchy, g1, g2]
  exact eq_inv_of_mul_eq_one_left (key i j)

end Spark.Poseidon
