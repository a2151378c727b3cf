import Verif.Lemmas.Psi
import Verif.Lemmas.MillerAte
import Verif.Lemmas.Generators

/-! Cofactor clearing. -/

namespace Spark.G2
open WeierstrassCurve Spec Circ
set_option maxRecDepth 100000

/-- the absolute value of the seed -/
abbrev absSeed : ℕ := 15132376222941642752

theorem seed_eq : seed = -(absSeed : ℤ) := by decide +kernel

/-- the Budroni-Pintore combination -/
noncomputable def bp (P : ETwist Fp) : ETwist Fp :=
  (seed ^ 2 - seed - 1) • P + (seed - 1) • psiHom P + psiHom (psiHom (2 • P))

theorem third_rep_neg {P : ETwist Fp} {t : G2Jacobian Fp} (h : JRep P t) :
    JRep (-psiHom (psiHom P)) ⟨Ext2.mulByElement t.X thirdRootOneG1, t.Y, t.Z⟩ := by
  rcases JacOf.cases h with ⟨rfl, hz⟩ | ⟨-, hz, x, y, h, h3, h4⟩
  · exact Or.inl ⟨by rw [map_zero, map_zero, neg_zero], hz⟩
  · have := (psiHom_sq_pt h).neg
    rw [neg_neg] at this
    refine JacOf.mk this hz ?_ h4
    rw [Ext2.mulByElement_eq, h3]; ring

theorem third_arep_neg {P : ETwist Fp} {t : G2Affine Fp} (h : ARep P t) :
    ARep (-psiHom (psiHom P)) ⟨Ext2.mulByElement t.X thirdRootOneG1, t.Y⟩ := by
  have := (psiHom_sq_pt h).neg
  rw [neg_neg] at this
  refine this.congr ?_ rfl
  rw [Ext2.mulByElement_eq, mul_comm]

theorem xg_rep {P : ETwist Fp} {j : G2Jacobian Fp} (h : JRep (absSeed • P) j) :
    JRep (seed • P) (jacNeg j) := by
  have := jacNeg_rep h
  rwa [seed_eq, neg_smul, natCast_zsmul]

theorem bp_eq (P : ETwist Fp) :
    seed • seed • P - seed • P - P + psiHom (seed • P - P) - -psiHom (psiHom (P + P)) = bp P := by
  rw [bp, map_sub, map_zsmul, two_nsmul, sub_neg_eq_add]
  congr 1
  rw [sub_smul, sub_smul, one_smul, sub_smul, one_smul, pow_two, mul_smul]

theorem clearCofactorJac_honest {P : ETwist Fp} {a : G2Jacobian Fp} (h : JRep P a) :
    ∃ r, (clearCofactorJac a).run = some r ∧ JRep (bp P) r := by
  obtain ⟨j1, e1, h1⟩ := constScalarMul_honest h
  have h1 := xg_rep h1
  obtain ⟨j2, e2, h2⟩ := constScalarMul_honest h1
  have h2 := xg_rep h2
  obtain ⟨j3, e3, h3⟩ := jacSub_honest h2 h1
  obtain ⟨j4, e4, h4⟩ := jacSub_honest h3 h
  obtain ⟨j5, e5, h5⟩ := jacSub_honest h1 h
  have h5 := jacPsi_rep h5
  obtain ⟨j6, e6, h6⟩ := jacAdd_honest h4 h5
  obtain ⟨j7, e7, h7⟩ := jacSub_honest h6 (third_rep_neg (jacDouble_rep h))
  refine ⟨j7, ?_, by rwa [bp_eq] at h7⟩
  simp only [clearCofactorJac, run_bind, e1, e2, e3, e4, e5, e6, e7, Option.bind_some]

/-- no two points added on the way to `bp P` are equal or opposite -/
structure Generic (P : ETwist Fp) : Prop where
  small : ∀ m : ℕ, 0 < m → m ≤ absSeed ^ 2 + absSeed + 1 → m • P ≠ 0
  ne1 : (seed ^ 2 - seed - 1) • P ≠ (seed - 1) • psiHom P
  ne2 : (seed ^ 2 - seed - 1) • P ≠ -((seed - 1) • psiHom P)
  ne3 : (seed ^ 2 - seed - 1) • P + (seed - 1) • psiHom P ≠ psiHom (psiHom (2 • P))
  ne4 : (seed ^ 2 - seed - 1) • P + (seed - 1) • psiHom P ≠ -psiHom (psiHom (2 • P))

theorem Generic.zsmul_ne {P : ETwist Fp} (h : Generic P) {k : ℤ} (hk : k ≠ 0)
    (hle : k.natAbs ≤ absSeed ^ 2 + absSeed + 1) : k • P ≠ 0 := by
  intro e
  refine h.small k.natAbs (Int.natAbs_pos.2 hk) hle ?_
  rcases Int.natAbs_eq k with hk | hk
  · rw [← natCast_zsmul, ← hk, e]
  · rw [← natCast_zsmul, ← neg_eq_zero, ← neg_smul, ← hk, e]

theorem Generic.facts {P : ETwist Fp} (h : Generic P) :
    P ≠ 0 ∧ P + P ≠ 0 ∧ seed • P ≠ 0 ∧ seed • seed • P ≠ 0 ∧
    (∀ m, 0 < m → m ≤ absSeed → m • P ≠ 0) ∧ (∀ m, 0 < m → m ≤ absSeed → m • seed • P ≠ 0) ∧
    seed • seed • P ≠ -(seed • P) ∧ seed • seed • P ≠ seed • P ∧
    seed • seed • P - seed • P ≠ 0 ∧ seed • seed • P - seed • P ≠ P ∧
    seed • seed • P - seed • P ≠ -P ∧ seed • P ≠ P ∧ seed • P ≠ -P := by
  have key : ∀ (k : ℤ) {Q : ETwist Fp}, k ≠ 0 → k.natAbs ≤ absSeed ^ 2 + absSeed + 1 → k • P = Q → Q ≠ 0 :=
    fun k Q h1 h2 e => e ▸ h.zsmul_ne h1 h2
  refine ⟨?_, ?_, ?_, ?_, ?_, ?_, ?_, ?_, ?_, ?_, ?_, ?_, ?_⟩
  · exact key 1 (by decide) (by decide +kernel) (one_smul _ _)
  · exact key 2 (by decide) (by decide +kernel) (two_zsmul _)
  · exact key seed (by decide +kernel) (by decide +kernel) rfl
  · exact key (seed * seed) (by decide +kernel) (by decide +kernel) (mul_smul _ _ _)
  · intro m hm hle
    exact h.small m hm (le_trans hle (by decide +kernel))
  · intro m hm hle
    refine key (m * seed) ?_ ?_ (by rw [mul_smul, natCast_zsmul])
    · exact mul_ne_zero (by omega) (by decide +kernel)
    · rw [Int.natAbs_mul, Int.natAbs_natCast, show seed.natAbs = absSeed by decide +kernel]
      have := Nat.mul_le_mul_right absSeed hle
      rw [← pow_two] at this
      omega
  · rw [← sub_ne_zero]
    exact key (seed * seed + seed) (by decide +kernel) (by decide +kernel)
      (by rw [add_zsmul, mul_smul, sub_neg_eq_add])
  · rw [← sub_ne_zero]
    exact key (seed * seed - seed) (by decide +kernel) (by decide +kernel) (by rw [sub_smul, mul_smul])
  · exact key (seed * seed - seed) (by decide +kernel) (by decide +kernel) (by rw [sub_smul, mul_smul])
  · rw [← sub_ne_zero]
    exact key (seed * seed - seed - 1) (by decide +kernel) (by decide +kernel)
      (by rw [sub_smul, sub_smul, mul_smul, one_smul])
  · rw [← sub_ne_zero]
    exact key (seed * seed - seed + 1) (by decide +kernel) (by decide +kernel)
      (by rw [add_zsmul, sub_smul, mul_smul, one_zsmul, sub_neg_eq_add])
  · rw [← sub_ne_zero]
    exact key (seed - 1) (by decide +kernel) (by decide +kernel) (by rw [sub_smul, one_smul])
  · rw [← sub_ne_zero]
    exact key (seed + 1) (by decide +kernel) (by decide +kernel)
      (by rw [add_zsmul, one_zsmul, sub_neg_eq_add])

theorem Generic.a_eq (P : ETwist Fp) :
    seed • seed • P - seed • P - P = (seed ^ 2 - seed - 1) • P := by
  rw [sub_smul, sub_smul, one_smul, pow_two, mul_smul]

theorem Generic.b_eq (P : ETwist Fp) : psiHom (seed • P - P) = (seed - 1) • psiHom P := by
  rw [map_sub, map_zsmul, sub_smul, one_smul]

theorem clearCofactorJac_sound {P : ETwist Fp} {a : G2Jacobian Fp} (h : JRep P a) (hg : Generic P) :
    ∃ r, clearCofactorJac a = pure r ∧ JRep (bp P) r := by
  obtain ⟨f1, f2, f3, f4, f5, f6, f7, f8, f9, f10, f11, f12, f13⟩ := hg.facts
  obtain ⟨j1, e1, h1⟩ := constScalarMul_sound h f5
  have h1 := xg_rep h1
  obtain ⟨j2, e2, h2⟩ := constScalarMul_sound h1 f6
  have h2 := xg_rep h2
  obtain ⟨j3, e3, h3⟩ := jacSub_sound h2 h1 f4 f3 f7
  obtain ⟨j4, e4, h4⟩ := jacSub_sound h3 h f9 f1 f11
  obtain ⟨j5, e5, h5⟩ := jacSub_sound h1 h f3 f1 f13
  have h5 := jacPsi_rep h5
  obtain ⟨j6, e6, h6⟩ := jacAdd_sound h4 h5 (by rwa [sub_ne_zero])
    (by rw [Ne, map_eq_zero_iff _ psiHom_injective]; rwa [sub_eq_zero])
    (by rw [Generic.a_eq, Generic.b_eq]; exact hg.ne1)
  obtain ⟨j7, e7, h7⟩ := jacSub_sound h6 (third_rep_neg (jacDouble_rep h))
    (by rw [Generic.a_eq, Generic.b_eq]; intro e; exact hg.ne2 (eq_neg_of_add_eq_zero_left e))
    (by rw [Ne, neg_eq_zero, map_eq_zero_iff _ psiHom_injective, map_eq_zero_iff _ psiHom_injective]
        exact f2)
    (by rw [Generic.a_eq, Generic.b_eq, neg_neg, ← two_nsmul]; exact hg.ne3)
  refine ⟨j7, ?_, by rwa [bp_eq] at h7⟩
  simp only [clearCofactorJac, e1, e2, e3, e4, e5, e6, e7, pure_bind]

theorem clearCofactorAff_sound {P : ETwist Fp} {a : G2Affine Fp} (h : ARep P a) (hg : Generic P) :
    ∃ r, clearCofactorAff a = pure r ∧ ARep (bp P) r := by
  obtain ⟨f1, f2, f3, f4, f5, f6, f7, f8, f9, f10, f11, f12, f13⟩ := hg.facts
  obtain ⟨j0, e0, h0⟩ := jacFromAff_sound h (Or.inl (twist_x_ne h))
  obtain ⟨j1, e1, h1⟩ := constScalarMul_sound h0 f5
  have h1 := xg_rep h1
  obtain ⟨j2, e2, h2⟩ := constScalarMul_sound h1 f6
  have h2 := xg_rep h2
  obtain ⟨a1, ea1, h1⟩ := affFromJac_sound h1 f3
  obtain ⟨a2, ea2, h2⟩ := affFromJac_sound h2 f4
  obtain ⟨j3, e3, h3⟩ := affSub_sound h2 h1 f7 f8
  obtain ⟨j4, e4, h4⟩ := affSub_sound h3 h f11 f10
  obtain ⟨j5, e5, h5⟩ := affSub_sound h1 h f13 f12
  have h5 := affPsi_rep h5
  obtain ⟨j6, e6, h6⟩ := affAdd_sound h4 h5
    (by rw [Generic.a_eq, Generic.b_eq]; exact hg.ne1)
    (by rw [Generic.a_eq, Generic.b_eq]; intro e; exact hg.ne2 (eq_neg_of_add_eq_zero_left e))
  obtain ⟨j8, e8, h8⟩ := affDouble_sound h f2
  obtain ⟨j7, e7, h7⟩ := affSub_sound h6 (third_arep_neg h8)
    (by rw [Generic.a_eq, Generic.b_eq, neg_neg, ← two_nsmul]; exact hg.ne3)
    (by rw [Generic.a_eq, Generic.b_eq, ← two_nsmul]; exact hg.ne4)
  refine ⟨j7, ?_, by rwa [bp_eq] at h7⟩
  simp only [clearCofactorAff, e0, e1, e2, ea1, ea2, e3, e4, e5, e6, e8, e7, pure_bind]

/-- the operands of each affine addition are distinct and not opposite -/
structure AffOk (P : ETwist Fp) : Prop where
  f2 : P + P ≠ 0
  f3 : seed • P ≠ 0
  f4 : seed • seed • P ≠ 0
  f7 : seed • seed • P ≠ -(seed • P)
  f8 : seed • seed • P ≠ seed • P
  f10 : seed • seed • P - seed • P ≠ P
  f11 : seed • seed • P - seed • P ≠ -P
  f12 : seed • P ≠ P
  f13 : seed • P ≠ -P
  ne1 : (seed ^ 2 - seed - 1) • P ≠ (seed - 1) • psiHom P
  ne2 : (seed ^ 2 - seed - 1) • P ≠ -((seed - 1) • psiHom P)
  ne3 : (seed ^ 2 - seed - 1) • P + (seed - 1) • psiHom P ≠ psiHom (psiHom (2 • P))
  ne4 : (seed ^ 2 - seed - 1) • P + (seed - 1) • psiHom P ≠ -psiHom (psiHom (2 • P))

theorem clearCofactorAff_honest {P : ETwist Fp} {a : G2Affine Fp} (h : ARep P a) (hg : AffOk P) :
    ∃ r, (clearCofactorAff a).run = some r ∧ ARep (bp P) r := by
  obtain ⟨f2, f3, f4, f7, f8, f10, f11, f12, f13, ne1, ne2, ne3, ne4⟩ := hg
  obtain ⟨j0, e0, h0⟩ := jacFromAff_sound h (Or.inl (twist_x_ne h))
  obtain ⟨j1, e1, h1⟩ := constScalarMul_honest h0
  have h1 := xg_rep h1
  obtain ⟨j2, e2, h2⟩ := constScalarMul_honest h1
  have h2 := xg_rep h2
  obtain ⟨a1, ea1, h1⟩ := affFromJac_sound h1 f3
  obtain ⟨a2, ea2, h2⟩ := affFromJac_sound h2 f4
  obtain ⟨j3, e3, h3⟩ := affSub_sound h2 h1 f7 f8
  obtain ⟨j4, e4, h4⟩ := affSub_sound h3 h f11 f10
  obtain ⟨j5, e5, h5⟩ := affSub_sound h1 h f13 f12
  have h5 := affPsi_rep h5
  obtain ⟨j6, e6, h6⟩ := affAdd_sound h4 h5
    (by rw [Generic.a_eq, Generic.b_eq]; exact ne1)
    (by rw [Generic.a_eq, Generic.b_eq]; intro e; exact ne2 (eq_neg_of_add_eq_zero_left e))
  obtain ⟨j8, e8, h8⟩ := affDouble_sound h f2
  obtain ⟨j7, e7, h7⟩ := affSub_sound h6 (third_arep_neg h8)
    (by rw [Generic.a_eq, Generic.b_eq, neg_neg, ← two_nsmul]; exact ne3)
    (by rw [Generic.a_eq, Generic.b_eq, ← two_nsmul]; exact ne4)
  refine ⟨j7, ?_, by rwa [bp_eq] at h7⟩
  rw [clearCofactorAff, e0, pure_bind, run_bind, e1, Option.bind_some, run_bind, e2, Option.bind_some]
  simp only [ea1, ea2, e3, e4, e5, e6, e8, e7, pure_bind]
  rfl

theorem Generic.affOk {P : ETwist Fp} (hg : Generic P) : AffOk P := by
  obtain ⟨f1, f2, f3, f4, f5, f6, f7, f8, f9, f10, f11, f12, f13⟩ := hg.facts
  exact ⟨f2, f3, f4, f7, f8, f10, f11, f12, f13, hg.ne1, hg.ne2, hg.ne3, hg.ne4⟩

/-! ### the prime-order subgroup -/

theorem zsmul_ne_zero_of_order {P : ETwist Fp} (hr : rOrder • P = 0) (h0 : P ≠ 0) {k : ℤ}
    (hk : k.natAbs % rOrder ≠ 0) : k • P ≠ 0 := by
  have ho : addOrderOf P = rOrder := by
    have : Fact rOrder.Prime := ⟨rOrder_prime⟩
    exact addOrderOf_eq_prime hr h0
  intro e
  rw [← addOrderOf_dvd_iff_zsmul_eq_zero, ho] at e
  rw [Int.natCast_dvd] at e
  exact hk (Nat.mod_eq_zero_of_dvd e)

theorem generic_of_subgroup {P : ETwist Fp} (hr : rOrder • P = 0) (h0 : P ≠ 0)
    (hψ : psiHom P = seed • P) : Generic P := by
  have key : ∀ (k : ℤ) {A B : ETwist Fp}, k.natAbs % rOrder ≠ 0 → A - B = k • P → A ≠ B := by
    intro k A B hk e
    rw [← sub_ne_zero, e]
    exact zsmul_ne_zero_of_order hr h0 hk
  have hB : (seed - 1) • psiHom P = ((seed - 1) * seed) • P := by rw [hψ, mul_smul]
  have hC : psiHom (psiHom (2 • P)) = (2 * seed * seed) • P := by
    rw [map_nsmul, map_nsmul, hψ, map_zsmul, hψ, mul_assoc, mul_smul, mul_smul, two_nsmul, two_zsmul]
  refine ⟨?_, ?_, ?_, ?_, ?_⟩
  · intro m hm hle
    rw [← natCast_zsmul]
    refine zsmul_ne_zero_of_order hr h0 ?_
    have : absSeed ^ 2 + absSeed + 1 < rOrder := by decide +kernel
    rw [Int.natAbs_natCast, Nat.mod_eq_of_lt (by omega)]
    omega
  · rw [hB]
    exact key ((seed ^ 2 - seed - 1) - (seed - 1) * seed) (by decide +kernel) (by rw [← sub_smul])
  · rw [hB]
    exact key ((seed ^ 2 - seed - 1) + (seed - 1) * seed) (by decide +kernel)
      (by rw [sub_neg_eq_add, ← add_zsmul])
  · rw [hB, hC]
    exact key ((seed ^ 2 - seed - 1) + (seed - 1) * seed - 2 * seed * seed) (by decide +kernel)
      (by rw [← add_zsmul, ← sub_smul])
  · rw [hB, hC]
    exact key ((seed ^ 2 - seed - 1) + (seed - 1) * seed + 2 * seed * seed) (by decide +kernel)
      (by rw [sub_neg_eq_add, ← add_zsmul, ← add_zsmul])

theorem e2_conj (x : NC.N2) : NC.e2 (x.1, (NC.neg x).2) = E2.conj (NC.e2 x) := by
  ext
  · rfl
  · exact NC.cast_neg x.2

theorem psi_gen_check : NC.smulAux Pairing.genN absSeed 63 Pairing.genN =
    some (NC.mul (Pairing.genN.1.1, (NC.neg Pairing.genN.1).2) psiUN,
      NC.neg (NC.mul (Pairing.genN.2.1, (NC.neg Pairing.genN.2).2) psiVN)) := by decide +kernel

/-- the standard generator lies in the eigenspace of `ψ` -/
theorem psi_gen : psiHom G2gen = seed • G2gen := by
  have h0 : Pt G2gen (NC.e2 Pairing.genN.1) (NC.e2 Pairing.genN.2) := ⟨_, rfl⟩
  have h1 := NC.smul_spec (P := G2gen) (T := Pairing.genN) ⟨_, rfl⟩ absSeed 63 psi_gen_check
    (by decide +kernel)
  have h2 := (psiHom_pt h0).neg
  have h3 : absSeed • G2gen = -psiHom G2gen := by
    refine Pt.ext h1 (h2.congr ?_ ?_)
    · simp only [NC.e2_mul, e2_conj, psiU_e2]
    · simp only [NC.e2_neg, NC.e2_mul, e2_conj, psiV_e2]
  rw [seed_eq, neg_smul, natCast_zsmul, h3, neg_neg]

theorem generic_gen : Generic G2gen := generic_of_subgroup G2gen_order G2gen_ne psi_gen

theorem three_ne_E2 : (3 : E2 Fp) ≠ 0 := fun h => by
  have h1 := congrArg E2.A0 h
  have h2 : ((3 : ℕ) : Fp) = 0 := h1
  rw [ZMod.natCast_eq_zero_iff] at h2
  exact absurd (Nat.le_of_dvd (by norm_num) h2) (by decide +kernel)

theorem thirdRoot_cube : thirdRootOneG1 ^ 3 = 1 := by decide +kernel
theorem thirdRoot_ne : thirdRootOneG1 ≠ 1 := by decide +kernel

end Spark.G2
