import Verif.Instances.Command
import Verif.Instances.Encode
import Verif.Props.Pairing
import Verif.Props.Curve
import Verif.Props.ClearCofactor

/-!
# Instances: the Miller loop, the pairings, the twist, hashing to G2 (C38-C57, C59, C92)

The points are the generator of G2 and its double.
-/

namespace Spark.Instances
open Spark Circ Spec Pairing PairingProps CurveProps HashProps G2 NC
set_option maxRecDepth 100000

/-! ## Points -/

/-- the generator of G2, affine -/
def gA : G2Affine Fp := g2 genN
/-- the generator of G2 in Jacobian coordinates with `Z = 2` -/
def gJ : G2Jacobian Fp := ⟨NC.e2 genN.1 * 2 ^ 2, NC.e2 genN.2 * 2 ^ 3, 2⟩
/-- infinity in Jacobian coordinates -/
def infJ : G2Jacobian Fp := ⟨1, 1, 0⟩

theorem gA_pt : Pt G2gen gA.X gA.Y := ⟨_, rfl⟩
theorem gJ_jac : JacOf G2gen gJ.X gJ.Y gJ.Z := .mk ⟨_, rfl⟩ two_ne_E2 rfl rfl
theorem infJ_jac : JacOf (0 : ETwist Fp) infJ.X infJ.Y infJ.Z := .zero

theorem gen_small (m : ℕ) (h : 0 < m) (h' : m ≤ 10) : m • G2gen ≠ 0 :=
  small_smul_ne G2gen_ne G2gen_order h (h'.trans (by decide))

/-- the double of the generator, affine -/
noncomputable def dA : G2Affine Fp :=
  ⟨(Pt.exists_of_ne (gen_small 2 (by omega) (by omega))).choose,
    (Pt.exists_of_ne (gen_small 2 (by omega) (by omega))).choose_spec.choose⟩
theorem dA_pt : Pt (2 • G2gen) dA.X dA.Y :=
  (Pt.exists_of_ne (gen_small 2 (by omega) (by omega))).choose_spec.choose_spec
/-- the double of the generator in Jacobian coordinates with `Z = 1` -/
noncomputable def dJ : G2Jacobian Fp := ⟨dA.X, dA.Y, 1⟩
theorem dJ_jac : JacOf (2 • G2gen) dJ.X dJ.Y dJ.Z := .mk dA_pt one_ne_zero (by simp [dJ]) (by simp [dJ])

theorem two_ne_gen : 2 • G2gen ≠ G2gen := fun e => gen_small 1 (by omega) (by omega) (by
  rw [two_nsmul] at e
  rw [one_nsmul]
  exact add_left_cancel (e.trans (add_zero _).symm))
theorem two_ne_neg : 2 • G2gen ≠ -G2gen := fun e => gen_small 3 (by omega) (by omega) (by
  rw [succ_nsmul, e, neg_add_cancel])
theorem gA_Y : gA.Y ≠ 0 := NC.e2_nz (by decide +kernel)
theorem x_ne : gA.X ≠ dA.X := Pt.x_ne gA_pt dA_pt two_ne_gen.symm fun e => gen_small 3 (by omega) (by omega) (by
  rw [succ_nsmul, add_comm, e])

/-! ## The steps of the Miller loop -/

theorem double_double : 2 • G2gen + 2 • G2gen ≠ 0 := by
  rw [← add_nsmul]; exact gen_small 4 (by omega) (by omega)
theorem double_plus : 2 • G2gen + G2gen ≠ 0 := by
  rw [← succ_nsmul]; exact gen_small 3 (by omega) (by omega)

instance_of inst_c38_tangentCompute := c38_tangentCompute dA_pt double_double
instance_of inst_c38_doubleStep := c38_doubleStep dA_pt double_double
instance_of inst_c38_addStep := c38_addStep dA_pt gA_pt two_ne_gen double_plus
instance_of inst_c38_doubleAndAddStep := c38_doubleAndAddStep dA_pt gA_pt two_ne_gen double_plus (by
  rw [← mul_nsmul', ← succ_nsmul]; exact gen_small 5 (by omega) (by omega))
instance_of inst_c38_tripleStep := c38_tripleStep dA_pt
  (by rw [← mul_nsmul']; exact gen_small 4 (by omega) (by omega))
  (by rw [← mul_nsmul']; exact gen_small 6 (by omega) (by omega))

instance_of inst_c39_product := c39_product [enc1 G1gen, enc1 (-G1gen)] [gA, dA] (by simp) (by simp)

/-! ## Pairings -/

theorem good_double : GoodPair (G1gen, 2 • G2gen) :=
  ⟨G1gen_ne, gen_small 2 (by omega) (by omega), by
    rw [← mul_nsmul', mul_comm, mul_nsmul', G2gen_order, nsmul_zero]⟩

theorem good_two : ∀ x ∈ [(G1gen, G2gen), (G1gen, 2 • G2gen)], GoodPair x := by
  intro x hx
  simp only [List.mem_cons, List.not_mem_nil, or_false] at hx
  rcases hx with rfl | rfl
  · exact goodPair_gen
  · exact good_double

instance_of inst_c40_pair_sound := c40_pair_sound [(G1gen, G2gen), (G1gen, 2 • G2gen)] (by simp) good_two
instance_of inst_c40_infinity_G1 := c40_infinity_G1 [enc1 G1gen, ⟨0, 0⟩] [gA, dA] rfl ⟨0, 0⟩ (by simp) rfl

/-! ## Arithmetic on the twist -/

instance_of inst_c44_double_neg := c44_double_neg gJ_jac
instance_of inst_c44_add := c44_add gJ_jac infJ_jac
instance_of inst_c44_sub := c44_sub gJ_jac gJ_jac
instance_of inst_c44_add_sound := c44_add_sound dJ_jac gJ_jac (gen_small 2 (by omega) (by omega)) G2gen_ne two_ne_gen
instance_of inst_c44_sub_sound := c44_sub_sound dJ_jac gJ_jac (gen_small 2 (by omega) (by omega)) G2gen_ne two_ne_neg
instance_of inst_c44_infinity_lie := c44_infinity_lie (p := infJ) rfl gJ_jac G2gen_ne

instance_of inst_c45_honest := c45_honest gJ_jac
instance_of inst_c45_sound_partial := c45_sound_partial gJ_jac fun m h h' =>
  generic_gen.small m h (h'.trans (by decide +kernel))
instance_of inst_c45_subgroup := c45_subgroup gJ_jac G2gen_order G2gen_ne
theorem inst_c45_infinity : ∃ r, (constScalarMul infJ).sat r ∧ r.Z = 0 := by
  obtain ⟨r, h, -⟩ := c45_honest infJ_jac
  exact ⟨r, (constScalarMul infJ).ok r h, c45_infinity rfl ((constScalarMul infJ).ok r h)⟩

instance_of inst_c46_round_trip := c46_round_trip gA fun h => gA_Y h.2
instance_of inst_c46_to_affine := c46_to_affine gJ_jac G2gen_ne
instance_of inst_c46_to_jacobian := c46_to_jacobian gA_pt
instance_of inst_c46_infinity_unsat := c46_infinity_unsat infJ rfl

instance_of inst_c47_add := c47_add gA_pt dA_pt x_ne
instance_of inst_c47_sub := c47_sub gA_pt dA_pt x_ne
instance_of inst_c47_opposite_unsat := c47_opposite_unsat (p := gA) (q := ⟨gA.X, -gA.Y⟩) rfl fun h =>
  gA_Y (by
    have h2 : 2 * gA.Y = 0 := by rw [two_mul]; nth_rewrite 1 [h]; exact neg_add_cancel _
    exact (mul_eq_zero.1 h2).resolve_left two_ne_E2)
instance_of inst_c47_equal_wrong := c47_equal_wrong dA_pt double_double
instance_of inst_c47_double := c47_double gA_pt gA_Y
instance_of inst_c47_double_unsat := c47_double_unsat (p := ⟨1, 0⟩) one_ne_zero rfl

instance_of inst_c48_unique := c48_unique isPsi_psiHom isPsi_psiHom
instance_of inst_c49_jacobian := c49_jacobian isPsi_psiHom gJ_jac
instance_of inst_c49_affine := c49_affine isPsi_psiHom gA_pt (affineDefined_of generic_gen.affOk)
instance_of inst_c49_sound := c49_sound isPsi_psiHom gA_pt gJ_jac (affineDefined_of generic_gen.affOk) fun m hm hle =>
  generic_gen.small m hm (by
    have : ((Pairing.absSeed ^ 2 + Pairing.absSeed + 1 : ℕ) : ℤ) = seed ^ 2 - seed + 1 := by decide +kernel
    rw [← this] at hle
    exact_mod_cast hle)
instance_of inst_c49_subgroup := c49_subgroup isPsi_psiHom gA_pt gJ_jac G2gen_order psi_gen

/-! ## Hashing -/

theorem sq_four : IsSquare ((4 : E2 Fp) / 1) := ⟨2, by rw [div_one]; norm_num⟩

instance_of inst_c51_honest := c51_honest four_ne (one_ne_zero (α := E2 Fp))
theorem inst_c51_sound_partial : ∃ z b ζ, (g2SqrtRatio 4 1).sat (z, b) ∧ ζ ^ 8 = 1 ∧
    (b = 0 ∧ z ^ 2 * 1 = 4 * ζ ∨ b = 1 ∧ z ^ 2 * 1 = -⟨2, 1⟩ * 4 * ζ) := by
  obtain ⟨z, h, -⟩ := (c51_honest four_ne (one_ne_zero (α := E2 Fp))).1 sq_four
  have h := (g2SqrtRatio 4 1).ok _ h
  obtain ⟨ζ, h1, h2⟩ := c51_sound_partial four_ne one_ne_zero h
  exact ⟨z, 0, ζ, h, h1, h2⟩
instance_of inst_c51_prover_false := c51_prover_false four_ne one_ne_zero sq_four

theorem exU0_den : Rfc.den (e2 exU0) ≠ 0 := by
  obtain ⟨R, hR⟩ := Option.isSome_iff_exists.1 ex_some
  exact (nHash_spec hR).1
theorem exU1_den : Rfc.den (e2 exU1) ≠ 0 := by
  obtain ⟨R, hR⟩ := Option.isSome_iff_exists.1 ex_some
  exact (nHash_spec hR).2.1
theorem exU0_tie : NoSignTie (e2 exU0) := by
  obtain ⟨R, hR⟩ := Option.isSome_iff_exists.1 ex_some
  exact noTie_of (nHash_spec hR).2.2.1 (by decide +kernel)
theorem exU1_tie : NoSignTie (e2 exU1) := by
  obtain ⟨R, hR⟩ := Option.isSome_iff_exists.1 ex_some
  exact noTie_of (nHash_spec hR).2.2.2.1 (by decide +kernel)

instance_of inst_c52_swu := c52_swu exU0_den
instance_of inst_c52_rfc_partial := c52_rfc_partial exU0_den exU0_tie
instance_of inst_c53_exceptional := c53_exceptional (u := 0) (by simp [Rfc.den])

theorem exUA_facts : Rfc.den (e2 exUA) ≠ 0 ∧ IsSquare (Rfc.g (Rfc.x1 (e2 exUA))) ∧
    e2 exYA ^ 2 = Rfc.g (e2 (nX exUA exYA)) := by
  have hc : swuCheck exUA exYA = true := by decide +kernel
  obtain ⟨hd, hX, hy, -, -⟩ := swuCheck_spec hc
  have hf : nX exUA exYA = nX1 exUA := by decide +kernel
  refine ⟨hd, ?_, hy⟩
  by_contra hn
  have h2 : Rfc.sswuX (e2 exUA) = Rfc.x2 (e2 exUA) := if_neg hn
  have hx1 : Rfc.x1 (e2 exUA) = e2 (nX1 exUA) := by
    refine x1_of_check hd ?_
    have h3 : mul (mul (nX1 exUA) (0, 240)) (nDen exUA) =
        neg (mul (1012, 1012) (add (nDen exUA) (1, 0))) := by decide +kernel
    have := congrArg e2 h3
    simp only [e2_mul, e2_neg, e2_add, nDen_spec, nA_spec, nB_spec, n1_spec] at this
    exact this
  rw [hf, ← hx1] at hy
  exact hn ⟨_, by rw [← hy, pow_two]⟩

instance_of inst_c54_isogeny := c54_isogeny exUA_facts.2.2
instance_of inst_c59_off_curve := c59_off_curve exUA_facts.1 exUA_facts.2.1
theorem inst_c59_sound_partial : ∃ q, (mapElementToCurve2 (e2 exU0)).sat q ∧
    (q.X = Rfc.x1 (e2 exU0) ∨ q.X = Rfc.x2 (e2 exU0)) ∧ ∃ ζ, ζ ^ 8 = 1 ∧ q.Y ^ 2 = Rfc.g q.X * ζ := by
  obtain ⟨x, y, h, -⟩ := c52_swu exU0_den
  have h := (mapElementToCurve2 (e2 exU0)).ok _ h
  exact ⟨_, h, c59_sound_partial exU0_den h⟩

instance_of inst_c57_hash_to_g2 := c57_hash_to_g2 isPsi_psiHom ex_hash_to_field exU0_den exU1_den
theorem inst_c57_map_rfc : ∃ Q, CodeMapsTo (e2 exU0) Q ∧ Rfc.MapsTo (e2 exU0) Q := by
  obtain ⟨Q0, Q1, m0, m1, -⟩ := inst_c57_hash_to_g2
  exact ⟨Q0, m0, c57_map_rfc exU0_tie m0⟩
instance_of inst_c57_encode_to_g2 := c57_encode_to_g2 isPsi_psiHom enc_hash_to_field enc_swu.1

/-- No message whose hash is exceptional is known: it would be a preimage of 0 under SHA-256 modulo `p`. Read backwards: the
example message hashes, so neither of its field elements is exceptional. -/
theorem inst_c57_exceptional : ¬ (Rfc.den (e2 exU0) = 0 ∨ Rfc.den (e2 exU1) = 0) := fun h => by
  obtain ⟨-, -, q, -, -, -, -, -, -, hq, -⟩ := c57_example
  rw [(c57_exceptional ex_hash_to_field h).1] at hq
  cases hq

instance_of inst_c92_defined := c92_defined isPsi_psiHom G2gen
theorem bp_gen : budroniPintore psiHom G2gen ≠ 0 := (c92_defined isPsi_psiHom _).1 (affineDefined_of generic_gen.affOk)
instance_of inst_c92_exact := c92_exact isPsi_psiHom gA_pt gJ_jac bp_gen
instance_of inst_c92_kernel := c92_kernel isPsi_psiHom
instance_of inst_c92_hash := c92_hash isPsi_psiHom ex_hash_to_field
instance_of inst_c92_encode := c92_encode isPsi_psiHom enc_hash_to_field
theorem inst_c92_after_map : ∃ p0 p1 : G2Affine Fp, ∃ Q0 Q1 q, CodeMapsTo (e2 exU0) Q0 ∧ CodeMapsTo (e2 exU1) Q1 ∧
    (do let q0 ← g2Isogeny p0
        let q1 ← g2Isogeny p1
        let s ← affAdd q0 q1
        clearCofactorAff s) = pure q ∧ Pt (budroniPintore psiHom (Q0 + Q1)) q.X q.Y := by
  obtain ⟨Q0, Q1, m0, m1, -⟩ := inst_c57_hash_to_g2
  obtain ⟨u0, u1, hu, -, -, h⟩ := c92_example
  rw [ex_hash_to_field] at hu
  obtain ⟨rfl, hu2⟩ := List.cons.inj (Option.some.inj hu)
  obtain ⟨rfl, -⟩ := List.cons.inj hu2
  obtain ⟨hne, hb⟩ := h Q0 Q1 m0 m1
  obtain ⟨x0, y0, -, h0, -, q0⟩ := id m0
  obtain ⟨x1, y1, -, h1, -, q1⟩ := id m1
  obtain ⟨q, e, hq⟩ := c92_after_map (p0 := ⟨x0, y0⟩) (p1 := ⟨x1, y1⟩) isPsi_psiHom h0 h1 q0 q1 hne hb
  exact ⟨_, _, Q0, Q1, q, m0, m1, e, hq⟩

end Spark.Instances
