import Verif.Math.Reciprocity
import Verif.Lemmas.MillerAte
import Verif.Lemmas.Cofactor
import Verif.Math.Card

/-! The ate pairing is bilinear on `E(Fp) × {Q | ψ Q = u Q}`. -/

namespace Spark
open WeierstrassCurve Spec Cocycle
open G2 (psiHom isPsi_psiHom)
open Pairing (absSeed)
set_option maxRecDepth 100000

theorem avoids (x : Fp) : Avoids (untwist Fp) (inc1 Fp x) := fun A => by
  by_cases hA : A = 0
  · subst hA; rw [map_zero]; exact one_ne_zero
  · exact (vert_killed hA x).1

theorem inc1_eqn {x y : Fp} (h : y ^ 2 = x ^ 3 + 4) : (inc1 Fp y) ^ 2 = (inc1 Fp x) ^ 3 + inc1 Fp 4 := by
  rw [← map_pow, h, map_add, map_pow]

theorem inc1_frob (c : Fp) : inc1 Fp c ^ fpOrder = inc1 Fp c := by
  rw [← map_pow, ZMod.pow_card]

theorem millerInt_seed (Q : ETwist Fp) (x y : E12 Fp) :
    millerInt (untwist Fp Q) x y seed = minv (untwist Fp) x y absSeed Q := by
  rw [millerInt, if_neg (by decide), minv, show seed.natAbs = absSeed by decide]

theorem millerAte_pt {P : E1 Fp} {x y : Fp} (h : Pt P x y) (Q : ETwist Fp) :
    millerAte P Q = minv (untwist Fp) (inc1 Fp x) (inc1 Fp y) absSeed Q := by
  obtain ⟨h, rfl⟩ := h
  exact millerInt_seed Q _ _

theorem killed_neg_one : Killed (-1) := by
  refine ⟨neg_ne_zero.2 one_ne_zero, Killed.pow_aux (d := 2) (by ring) ?_⟩
  exact (Dvd.intro _ rfl).trans Killed.dvd2

theorem killed_of_sq {a c : E12 Fp} (hc : Killed c) (h : a ^ 2 = c ^ 2) : Killed a := by
  rcases sq_eq_sq_iff_eq_or_eq_neg.1 h with rfl | rfl
  · exact hc
  · rw [← neg_one_mul]; exact killed_neg_one.mul hc

theorem seed_dvd : fpOrder ^ 12 - 1 ∣ (absSeed + fpOrder) * ateExp := by
  rw [ateExp_def]; decide +kernel

theorem unit_pow {a : E12 Fp} (h : a ≠ 0) : a ^ (fpOrder ^ 12 - 1) = 1 := by
  have h1 := pow_card_eq_one' (x := Units.mk0 a h)
  rw [card_units] at h1
  have := congrArg Units.val h1
  simpa using this

theorem killed_pow {a : E12 Fp} (h : a ≠ 0) : Killed (a ^ (absSeed + fpOrder)) := by
  refine ⟨pow_ne_zero _ h, ?_⟩
  rw [← pow_mul]
  exact Killed.pow_aux (unit_pow h) seed_dvd

/-- `-n Q` untwists to the Frobenius image of `Q` -/
theorem untwist_neg_smul {Q : ETwist Fp} (hQ : psiHom Q = seed • Q) :
    untwist Fp (-(absSeed • Q)) = frobE (untwist Fp Q) := by
  rw [← isPsi_psiHom, hQ, show seed = -(absSeed : ℤ) by decide +kernel, neg_smul, natCast_zsmul]

theorem prod_killed {pts : List (Fp × Fp)} {L : EFull Fp → E12 Fp}
    (h : Recip (pts.map fun p => (inc1 Fp p.1, inc1 Fp p.2)) L) (hL : ∀ A, L (frobE A) = L A ^ fpOrder)
    (he : ∀ p ∈ pts, p.2 ^ 2 = p.1 ^ 3 + 4) {Q : ETwist Fp} (hQ : psiHom Q = seed • Q) :
    Killed (pts.map fun p => minv (untwist Fp) (inc1 Fp p.1) (inc1 Fp p.2) absSeed Q).prod := by
  have hv : ∀ p ∈ pts.map fun p => (inc1 Fp p.1, inc1 Fp p.2), Avoids (untwist Fp) p.1 := by
    intro p hp
    obtain ⟨q, -, rfl⟩ := List.mem_map.1 hp
    exact avoids q.1
  have hE : ∀ p ∈ pts.map fun p => (inc1 Fp p.1, inc1 Fp p.2), p.2 ^ 2 = p.1 ^ 3 + inc1 Fp 4 := by
    intro p hp
    obtain ⟨q, hq, rfl⟩ := List.mem_map.1 hp
    exact inc1_eqn (he q hq)
  have e := minv_prod h hv hE Q absSeed
  rw [List.map_map, untwist_neg_smul hQ, hL, ← pow_add] at e
  have hk := killed_pow (h.ne hv Q)
  refine killed_of_sq hk.inv ?_
  rw [inv_pow]
  exact eq_inv_of_mul_eq_one_left e

theorem chordAt_frob (c d : Fp) (A : EFull Fp) :
    chordAt (inc1 Fp c) (inc1 Fp d) (frobE A) = chordAt (inc1 Fp c) (inc1 Fp d) A ^ fpOrder := by
  by_cases hA : A = 0
  · subst hA; rw [map_zero]; exact (one_pow _).symm
  obtain ⟨x, y, h⟩ := Pt.exists_of_ne hA
  rw [chordAt_pt _ _ h, chordAt_pt _ _ (frobE_pt h), ← frobHom_apply (_ - _), map_sub, map_add, map_mul, frobHom_apply,
    frobHom_apply, frobHom_apply, frobHom_apply, inc1_frob, inc1_frob]

theorem vertAt_frob (c : Fp) (A : EFull Fp) : vertAt (inc1 Fp c) (frobE A) = vertAt (inc1 Fp c) A ^ fpOrder := by
  by_cases hA : A = 0
  · subst hA; rw [map_zero]; exact (one_pow _).symm
  obtain ⟨x, y, h⟩ := Pt.exists_of_ne hA
  rw [vertAt_pt _ h, vertAt_pt _ (frobE_pt h), ← frobHom_apply (_ - _), map_sub, frobHom_apply, frobHom_apply, inc1_frob]

theorem millerAte_zero (Q : ETwist Fp) : millerAte 0 Q = 1 := rfl

theorem millerAte_neg (P : E1 Fp) {Q : ETwist Fp} (hQ : psiHom Q = seed • Q) :
    Killed (millerAte P Q * millerAte (-P) Q) := by
  by_cases hP : P = 0
  · subst hP; rw [neg_zero, millerAte_zero, mul_one]; exact Killed.one
  obtain ⟨x, y, h⟩ := Pt.exists_of_ne hP
  have hr := recip_vert (inc1_eqn h.eqn)
  have := prod_killed (pts := [(x, y), (x, -y)]) (L := vertAt (inc1 Fp x)) (by
    simpa only [List.map_cons, List.map_nil, map_neg] using hr) (vertAt_frob x) (by
    intro p hp
    simp only [List.mem_cons, List.not_mem_nil, or_false] at hp
    rcases hp with rfl | rfl
    · exact h.eqn
    · rw [neg_sq]; exact h.eqn) hQ
  simp only [List.map_cons, List.map_nil, List.prod_cons, List.prod_nil, mul_one] at this
  rwa [millerAte_pt h, millerAte_pt h.neg]

theorem millerAte_three {P R : E1 Fp} (hP : P ≠ 0) (hR : R ≠ 0) (hPR : P + R ≠ 0) {Q : ETwist Fp}
    (hQ : psiHom Q = seed • Q) : Killed (millerAte P Q * millerAte R Q * millerAte (-(P + R)) Q) := by
  obtain ⟨c, d, x₁, x₂, x₃, hc, h1, h2, h3, -⟩ := exists_chord hP hR hPR
  have hr := recip_chord (hc.map (inc1 Fp))
  have := prod_killed (pts := [(x₁, c * x₁ + d), (x₂, c * x₂ + d), (x₃, c * x₃ + d)])
    (L := chordAt (inc1 Fp c) (inc1 Fp d)) (by
    simpa only [List.map_cons, List.map_nil, map_add, map_mul] using hr) (chordAt_frob c d) (by
    intro p hp
    simp only [List.mem_cons, List.not_mem_nil, or_false] at hp
    rcases hp with rfl | rfl | rfl
    · exact h1.eqn
    · exact h2.eqn
    · exact h3.eqn) hQ
  simp only [List.map_cons, List.map_nil, List.prod_cons, List.prod_nil, mul_one, ← mul_assoc] at this
  rwa [millerAte_pt h1, millerAte_pt h2, millerAte_pt h3]

theorem ate_def' (P : E1 Fp) (Q : ETwist Fp) : ate P Q = millerAte P Q ^ ateExp := by
  rw [ate, ateExp_def]

theorem ate_zero_left (Q : ETwist Fp) : ate 0 Q = 1 := by rw [ate_def', millerAte_zero, one_pow]

theorem ate_neg_left (P : E1 Fp) {Q : ETwist Fp} (hQ : psiHom Q = seed • Q) : ate P Q * ate (-P) Q = 1 := by
  rw [ate_def', ate_def', ← mul_pow]
  exact (millerAte_neg P hQ).2

theorem ate_ne {P : E1 Fp} {Q : ETwist Fp} : ate P Q ≠ 0 := by
  rw [ate_def']
  refine pow_ne_zero _ ?_
  by_cases hP : P = 0
  · subst hP; exact one_ne_zero
  obtain ⟨x, y, h⟩ := Pt.exists_of_ne hP
  rw [millerAte_pt h]
  exact minv_ne (avoids x) (inc1_eqn h.eqn) _ _

theorem ate_add_left (P R : E1 Fp) {Q : ETwist Fp} (hQ : psiHom Q = seed • Q) :
    ate (P + R) Q = ate P Q * ate R Q := by
  by_cases hP : P = 0
  · subst hP; rw [zero_add, ate_zero_left, one_mul]
  by_cases hR : R = 0
  · subst hR; rw [add_zero, ate_zero_left, mul_one]
  by_cases hPR : P + R = 0
  · obtain rfl : R = -P := (neg_eq_of_add_eq_zero_right hPR).symm
    rw [hPR, ate_zero_left, ate_neg_left P hQ]
  · have h1 := (millerAte_three hP hR hPR hQ).2
    rw [mul_pow, mul_pow, ← ate_def', ← ate_def', ← ate_def'] at h1
    have h2 := ate_neg_left (P + R) hQ
    have h3 : ate (-(P + R)) Q ≠ 0 := ate_ne
    exact mul_right_cancel₀ h3 (h2.trans h1.symm)

/-! ### linearity in the second argument -/

theorem slope_map {F K : Type} [Field F] [Field K] [DecidableEq F] [DecidableEq K] (f : F →+* K) (b : F) (b' : K)
    (x₁ x₂ y₁ y₂ : F) :
    (sw b').slope (f x₁) (f x₂) (f y₁) (f y₂) = f ((sw b).slope x₁ x₂ y₁ y₂) := by
  have h1 : f x₁ = f x₂ ↔ x₁ = x₂ := f.injective.eq_iff
  have h2 : f y₁ = -f y₂ ↔ y₁ = -y₂ := by rw [← map_neg]; exact f.injective.eq_iff
  unfold Affine.slope
  simp only [sw_negY, h1, h2]
  split
  · split
    · exact (map_zero f).symm
    · simp only [sw, map_div₀, map_add, map_sub, map_mul, map_pow, map_neg, map_zero, map_ofNat]
  · simp only [map_div₀, map_sub]

theorem lineVal_map {F : Type} [Field F] [DecidableEq F] (f : F →+* F) {b : F} {A B A' B' : (sw b).Point}
    {x₁ y₁ x₂ y₂ : F} (hA : Pt A x₁ y₁) (hB : Pt B x₂ y₂) (hA' : Pt A' (f x₁) (f y₁)) (hB' : Pt B' (f x₂) (f y₂))
    (x y : F) : lineVal A' B' (f x) (f y) = f (lineVal A B x y) := by
  obtain ⟨_, rfl⟩ := hA
  obtain ⟨_, rfl⟩ := hB
  obtain ⟨_, rfl⟩ := hA'
  obtain ⟨_, rfl⟩ := hB'
  have h1 : f x₁ = f x₂ ↔ x₁ = x₂ := f.injective.eq_iff
  have h2 : f y₁ = -f y₂ ↔ y₁ = -y₂ := by rw [← map_neg]; exact f.injective.eq_iff
  simp only [lineVal, h1, h2, slope_map f b b]
  split
  · rw [map_sub]
  · simp only [map_sub, map_mul]

theorem vertVal_frob (A : EFull Fp) (x : Fp) :
    vertVal (frobE A) (inc1 Fp x) = vertVal A (inc1 Fp x) ^ fpOrder := by
  by_cases hA : A = 0
  · subst hA; rw [map_zero]; exact (one_pow _).symm
  obtain ⟨x₁, y, h⟩ := Pt.exists_of_ne hA
  rw [Cocycle.vertVal_pt h, Cocycle.vertVal_pt (frobE_pt h), ← frobHom_apply, ← frobHom_apply, map_sub, frobHom_apply (inc1 Fp x), inc1_frob]

theorem lineVal_frob (A B : EFull Fp) (x y : Fp) :
    lineVal (frobE A) (frobE B) (inc1 Fp x) (inc1 Fp y) = lineVal A B (inc1 Fp x) (inc1 Fp y) ^ fpOrder := by
  by_cases hA : A = 0
  · subst hA
    rw [map_zero, lineVal_comm, lineVal_zero, lineVal_comm, lineVal_zero, vertVal_frob]
  by_cases hB : B = 0
  · subst hB
    rw [map_zero, lineVal_zero, lineVal_zero, vertVal_frob]
  obtain ⟨x₁, y₁, h1⟩ := Pt.exists_of_ne hA
  obtain ⟨x₂, y₂, h2⟩ := Pt.exists_of_ne hB
  have h3 := frobE_pt h1
  have h4 := frobE_pt h2
  simp only [← frobHom_apply] at h3 h4
  have := lineVal_map frobHom h1 h2 h3 h4 (inc1 Fp x) (inc1 Fp y)
  rwa [frobHom_apply, frobHom_apply, frobHom_apply, inc1_frob, inc1_frob] at this

theorem ate_zero_right (P : E1 Fp) : ate P 0 = 1 := by
  by_cases hP : P = 0
  · subst hP; exact ate_zero_left 0
  obtain ⟨x, y, h⟩ := Pt.exists_of_ne hP
  have e := minv_sq (avoids x) (inc1_eqn h.eqn) 0 absSeed
  have hm : ∀ n, mf (untwist Fp) (inc1 Fp x) (inc1 Fp y) 0 n = 1 := by
    intro n
    induction n with
    | zero => rfl
    | succ n ih => rw [mf, ih, nsmul_zero, g2_zero (avoids x), one_mul]
  rw [hm, nsmul_zero, map_zero, show vertVal (0 : EFull Fp) (inc1 Fp x) = 1 from rfl, ← millerAte_pt h] at e
  rw [ate_def']
  exact (killed_of_sq Killed.one (e.trans (by ring))).2

theorem sq_aux {F : Type} [Field F] {a c g k : F} {n p : ℕ} (e : a ^ 2 = c ^ 2 * ((g ^ 2) ^ n * k))
    (hk : k = (g ^ 2) ^ p) : a = c * g ^ (n + p) ∨ a = -1 * (c * g ^ (n + p)) := by
  have : a ^ 2 = (c * g ^ (n + p)) ^ 2 := by rw [e, hk]; ring
  rcases sq_eq_sq_iff_eq_or_eq_neg.1 this with h | h
  · exact Or.inl h
  · exact Or.inr (by rw [h, neg_one_mul])

theorem div_sq_aux {F : Type} [Field F] (l v : F) (p : ℕ) : (l ^ p / v ^ p) ^ 2 = ((l / v) ^ 2) ^ p := by
  rw [← div_pow, ← pow_mul, ← pow_mul, mul_comm]

theorem ate_add_right (P : E1 Fp) {Q R : ETwist Fp} (hQ : psiHom Q = seed • Q) (hR : psiHom R = seed • R) :
    ate P (Q + R) = ate P Q * ate P R := by
  by_cases hP : P = 0
  · subst hP; simp only [ate_zero_left, one_mul]
  obtain ⟨x, y, h⟩ := Pt.exists_of_ne hP
  have hv := avoids x
  have he := inc1_eqn h.eqn
  have e := minv_add hv he Q R absSeed
  rw [← millerAte_pt h, ← millerAte_pt h, ← millerAte_pt h] at e
  have e1 : g2 (untwist Fp) (inc1 Fp x) (inc1 Fp y) (-(absSeed • Q)) (-(absSeed • R)) =
      (g2 (untwist Fp) (inc1 Fp x) (inc1 Fp y) Q R) ^ fpOrder := by
    rw [g2, map_add, untwist_neg_smul hQ, untwist_neg_smul hR, ← map_add, lineVal_frob, vertVal_frob, div_sq_aux, g2,
      map_add]
  have hg : lineVal (untwist Fp Q) (untwist Fp R) (inc1 Fp x) (inc1 Fp y) /
      vertVal (untwist Fp (Q + R)) (inc1 Fp x) ≠ 0 := div_ne_zero (hv.line he Q R) (hv _)
  have hk := killed_pow hg
  rw [ate_def', ate_def', ate_def', ← mul_pow]
  rcases sq_aux e e1 with e | e
  · rw [e, mul_pow, hk.2, mul_one]
  · rw [e, mul_pow, killed_neg_one.2, mul_pow, hk.2, mul_one, one_mul]

end Spark
