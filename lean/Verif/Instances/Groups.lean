import Verif.Instances.Curves
import Verif.Props.Honest

/-!
# Instances: the pairing as a bilinear map, signatures, hash points, torsion and rogue keys (C40, C43, C60-C67)

The secret keys are `1, 2, 4, …, 512`; the hash point is that of the example message.
-/

namespace Spark.Instances
open Spark Circ Spec Circuit Pairing PairingProps CurveProps HashProps CircuitProps GroupProps Witness
set_option maxRecDepth 100000

/-! ## C40, C43 -/

theorem ate_gen_ne : ate G1gen G2gen ≠ 1 := fun h =>
  ((c61_nondegenerate _ _ G1gen_order G2gen_order).1.1 h).elim G1gen_ne G2gen_ne

/-- two pairs whose product is not 1: `(g1, g2)` and `(g1, 2 g2)` -/
noncomputable def twoPairs : List (E1 Fp × ETwist Fp) := [(G1gen, G2gen), (G1gen, 2 • G2gen)]

theorem two_order : rOrder • (2 • G2gen) = 0 := by rw [nsmul_left_comm, G2gen_order, nsmul_zero]

theorem twoPairs_good : ∀ x ∈ twoPairs, GoodPair x := by
  intro x hx
  rcases List.mem_cons.1 hx with rfl | hx
  · exact ⟨G1gen_ne, G2gen_ne, G2gen_order⟩
  · obtain rfl := List.mem_singleton.1 hx
    exact ⟨G1gen_ne, gen_small 2 (by omega) (by omega), two_order⟩

theorem twoPairs_ne : ateProd twoPairs ≠ 1 := by
  have h3 : ateProd twoPairs = ate G1gen (3 • G2gen) := by
    rw [show (3 : ℕ) = 1 + 2 from rfl, add_nsmul, one_nsmul, c60_add_right _ _ _ G2gen_order two_order]
    simp [ateProd, twoPairs]
  rw [h3]
  exact fun h => ((c61_nondegenerate _ _ G1gen_order
    (by rw [nsmul_left_comm, G2gen_order, nsmul_zero])).1.1 h).elim G1gen_ne (gen_small 3 (by omega) (by omega))

instance_of inst_c40_pair_exact := c40_pair_exact twoPairs (by simp [twoPairs]) twoPairs_good twoPairs_ne
instance_of inst_c40_single := c40_single G1gen G2gen ⟨G1gen_ne, G2gen_ne, G2gen_order⟩ ate_gen_ne

/-- the two pairs of the example signature -/
noncomputable def sigPairs : List (E1 Fp × ETwist Fp) := [(-G1gen, exSig), (1023 • G1gen, Hpt)]

theorem sigPairs_good : ∀ x ∈ sigPairs, GoodPair x := by
  intro x hx
  rcases List.mem_cons.1 hx with rfl | hx
  · exact good1
  · obtain rfl := List.mem_singleton.1 hx
    exact good2

theorem sigPairs_one : ateProd sigPairs = 1 := by
  have h := ex_equation
  rw [sum_keys] at h
  simpa [ateProd, sigPairs] using h

theorem sig_equation : ate (-G1gen) exSig * ate (1023 • G1gen) Hpt = 1 := by
  have h := ex_equation
  rwa [sum_keys] at h

instance_of inst_c43_complete := c43_complete sigPairs le_rfl sigPairs_good sigPairs_one
instance_of inst_c43_complete_easy := c43_complete_easy sigPairs le_rfl sigPairs_good sigPairs_one

theorem sig_check : pairingCheck [enc1 (-G1gen), enc1 (1023 • G1gen)] [enc2 exSig, enc2 Hpt] = .ok (pure ()) := by
  obtain ⟨z, c, hm, hc, h, -⟩ := inst_c43_complete_easy
  rw [h (ex_z (by rw [sum_keys]; exact hm))] at hc
  exact hc

theorem pure_satisfiable : (pure () : Circ Unit).Satisfiable := ⟨(), rfl⟩

instance_of inst_c43_sound_general := c43_sound_general _ _ _ sig_check pure_satisfiable
instance_of inst_c43_sound := c43_sound sigPairs sigPairs_good _ sig_check pure_satisfiable

/-! ## C60, C61 -/

instance_of inst_c60_add_left := c60_add_left G1gen (2 • G1gen) G2gen G2gen_order
instance_of inst_c60_add_right := c60_add_right G1gen G2gen (2 • G2gen) G2gen_order two_order
instance_of inst_c60_scalars := c60_scalars G1gen G2gen G2gen_order

theorem G1_two_ne : 2 • G1gen ≠ 0 := Witness.smul_ne (by omega) (lt_trans (by norm_num) big)

theorem inst_c60_pair : ∃ c c' x x', pair [enc1 G1gen] [enc2 G2gen] = .ok c ∧
    pair [enc1 (2 • G1gen)] [enc2 (2 • G2gen)] = .ok c' ∧ c.sat x ∧ c'.sat x' ∧ x' = x ^ (2 * 2) := by
  obtain ⟨x, hx, -⟩ := c61_pair _ _ G1gen_ne G1gen_order G2gen_ne G2gen_order
  obtain ⟨x', hx', -⟩ := c61_pair (2 • G1gen) (2 • G2gen) G1_two_ne
    (by rw [nsmul_left_comm, G1gen_order, nsmul_zero]) (gen_small 2 (by omega) (by omega)) two_order
  exact ⟨_, _, x, x', hx, hx', rfl, rfl, c60_pair _ _ G1gen_ne G2gen_ne G2gen_order 2 2 G1_two_ne
    (gen_small 2 (by omega) (by omega)) _ _ hx hx' _ _ rfl rfl⟩

instance_of inst_c61_nondegenerate := c61_nondegenerate _ _ G1gen_order G2gen_order
instance_of inst_c61_pair := c61_pair _ _ G1gen_ne G1gen_order G2gen_ne G2gen_order

/-! ## C62, C63 -/

instance_of inst_c62_equation := c62_equation 1023 exSig Hpt S_order H_order
instance_of inst_c62_secret := c62_secret G1gen G1gen_order
instance_of inst_c62_check := c62_check 1023 exSig Hpt A_ne S_ne S_order H_ne H_order _ sig_check pure_satisfiable

/-- the secret keys -/
def exSk (i : Fin 10) : ℕ := 2 ^ i.val

theorem exSk_denote (i : Fin 10) : Denotes (exKeys i) (exSk i • G1gen) := exKeys_denote i

theorem exSk_general (signs : Fin 10 → Prop) : GeneralPosition (fun i => exSk i • G1gen) signs := key_general signs

theorem all_secret : secretSum exSk (fun _ : Fin 10 => (1 : Fr) = 1) = 1023 := HonestProps.ex_secret

theorem all_secret_ne : ¬ rOrder ∣ secretSum exSk (fun _ : Fin 10 => (1 : Fr) = 1) := by
  rw [all_secret]; decide +kernel

theorem all_sum : signersSum (fun i => exSk i • G1gen) (fun _ : Fin 10 => (1 : Fr) = 1) = ∑ i, key i := by
  simp [signersSum, exSk, key]

theorem all_gaps : EvenGaps fun _ : Fin 10 => (1 : Fr) = 1 := ⟨Or.inl rfl, fun i _ _ => by simp⟩
theorem all_even : Even (absentees fun _ : Fin 10 => (1 : Fr) = 1) := by simp [absentees]

theorem exSk_sum_ne : ¬ rOrder ∣ ∑ i, exSk i := by decide +kernel

theorem all_apk {mode : Mode} (M : G2In) (weights : Fin 10 → Fr) (apk : G1Var)
    (h : (aggregatePublicKeys mode (exPriv weights).publicKeys (exPriv weights).bitList (exPriv weights).weights
      (exPub M weights).signedWeight).sat apk) : (⟨apk.X, apk.Y⟩ : G1Affine Fp) = enc1 (∑ i, key i) := by
  obtain ⟨v, hv, e, -⟩ := c19_all_sign (mode := mode) exKeys_denote (key_general _) weights
  rw [show (exPub M weights).signedWeight = ∑ i, weights i from rfl,
    show (exPriv weights).publicKeys = exKeys from rfl, show (exPriv weights).bitList = fun _ => 1 from rfl,
    show (exPriv weights).weights = weights from rfl, e] at h
  obtain rfl : v = apk := h.symm
  exact hv

theorem all_apk_rotate {mode : Mode} (apk : G1Var) (h : (aggregatePublicKeysRotate mode exKeys fun _ => 1).sat apk) :
    (⟨apk.X, apk.Y⟩ : G1Affine Fp) = enc1 (∑ i, key i) := by
  obtain ⟨v, hv, -, e⟩ := c19_all_sign (mode := mode) exKeys_denote (key_general _) fun _ => 0
  rw [e] at h
  obtain rfl : v = apk := h.symm
  exact hv

instance_of inst_c62_transaction {mode : Mode} (M : G2In) (w : Fin 10 → Fr) :=
  c62_transaction (ex_accepted (mode := mode) M w) exSk exSig
    (fun apk h => (all_apk M w apk h).trans (congrArg enc1 all_sum.symm))
    (by rw [show (fun i => (exPriv w).bitList i = 1) = fun _ => (1 : Fr) = 1 from rfl, all_sum]; exact sum_keys_ne)
    (c58_signature _).2 S_ne S_order
instance_of inst_c62_engine (M : G2In) (w : Fin 10 → Fr) :=
  c62_engine (ex_accepted M w) exSk exSk_denote (exSk_general _) all_secret_ne exSig (c58_signature _).2 S_ne S_order
instance_of inst_c62_all_sign {mode : Mode} (M : G2In) (w : Fin 10 → Fr) :=
  c62_all_sign (ex_accepted (mode := mode) M w) exSk exSk_denote (fun _ => rfl) (exSk_general _) exSk_sum_ne exSig
    (c58_signature _).2 S_ne S_order
instance_of inst_c62_rotation {mode : Mode} (M : G2In) (oldW newW : Fin 10 → Fr) :=
  c62_rotation (ex_rotate_accepted (mode := mode) M oldW newW G2.exMsg) exSk exSig
    (fun apk h => (all_apk_rotate apk h).trans (congrArg enc1 all_sum.symm)) all_secret_ne (c58_signature _).2 S_ne
    S_order

/-- three of the ten validators sign: the first three -/
def three : Fin 10 → Fr := firstSign 3

theorem three_bit (i : Fin 10) : three i = 0 ∨ three i = 1 := by rw [three, firstSign]; split <;> simp

theorem three_iff (i : Fin 10) : three i = 1 ↔ i.val < 3 := by
  rw [three, firstSign]; split <;> simp_all

theorem three_secret : secretSum exSk (fun i => three i = 1) = 7 := by
  rw [show (fun i => three i = 1) = fun i : Fin 10 => i.val < 3 from funext fun i => propext (three_iff i), secretSum]
  refine Eq.trans (Finset.sum_congr rfl fun i _ => ?_) (by decide : ∑ i : Fin 10, (if i.val < 3 then exSk i else 0) = 7)
  split <;> simp_all

theorem three_secret_ne : ¬ rOrder ∣ secretSum exSk (fun i => three i = 1) := by rw [three_secret]; decide +kernel

instance_of inst_c63_equation := c63_equation exSk (fun i => three i = 1) Hpt H_order
instance_of inst_c63_transaction (w : Fin 10 → Fr) (M : G2In) :=
  c63_transaction exSk exSk_denote three w three_bit (exSk_general _) (msgVars G2.exMsg) Hpt M H_hash H_ne H_order
    three_secret_ne _ (commit_isCommitment exKeys w)
instance_of inst_c63_all_sign {mode : Mode} (w : Fin 10 → Fr) (M : G2In) :=
  c63_all_sign (mode := mode) exSk exSk_denote w (exSk_general _) (msgVars G2.exMsg) Hpt M H_hash H_ne H_order
    exSk_sum_ne _ (commit_isCommitment exKeys w)

/-! ## C64, C65 -/

theorem inst_c64_message : ∃ (u0 u1 : E2 Fp) (Q0 Q1 : ETwist Fp), CodeMapsTo u0 Q0 ∧ CodeMapsTo u1 Q1 ∧
    (G2.hashToG2 (msgVars G2.exMsg)).run = some (enc2 (budroniPintore G2.psiHom (Q0 + Q1))) ∧
    rOrder • budroniPintore G2.psiHom (Q0 + Q1) = 0 := by
  obtain ⟨u0, u1, hu, n0, n1, h⟩ := c92_example
  obtain ⟨Q0, Q1, m0, m1, hh⟩ := HonestProps.c64_message G2.isPsi_psiHom hu n0 n1
  obtain ⟨hne, hb⟩ := h Q0 Q1 m0 m1
  exact ⟨u0, u1, Q0, Q1, m0, m1, hh hne hb⟩

theorem inst_c64_hash : ∃ H : ETwist Fp, (G2.hashToG2 (msgVars G2.exMsg)).run = some (enc2 H) ∧ H ≠ 0 ∧
    rOrder • H = 0 := by
  obtain ⟨u0, u1, -, hu, d0, d1, -, -, h, -⟩ := c57_example
  obtain ⟨Q0, Q1, m0, m1, hh⟩ := c64_hash G2.exMsg G2.isPsi_psiHom hu d0 d1
  obtain ⟨n1, n2, n3⟩ := h Q0 Q1 m0 m1
  exact hh n1 n2 n3

instance_of inst_c64_clear_cofactor := c64_clear_cofactor (2 • G2gen) G2.isPsi_psiHom dJ_jac (p := dA)
instance_of inst_c64_subgroup := c64_subgroup dA_pt dJ_jac two_order
theorem inst_c64_hash_jac : ∃ q, (G2.hashToG2OnJac (msgVars G2.exMsg)).run = some q ∧
    ∃ H : ETwist Fp, q = enc2 H ∧ H ≠ 0 ∧ rOrder • H = 0 := by
  obtain ⟨-, -, q, -, -, -, -, -, -, -, hq⟩ := c57_example
  exact ⟨q, hq, c64_hash_jac G2.exMsg q hq⟩
instance_of inst_c65_subgroup := c65_subgroup G2.isPsi_psiHom
instance_of inst_c65_characteristic := c65_characteristic G2.isPsi_psiHom

/-! ## C66, C67 -/

/-- a point of order 3 -/
noncomputable def tors : E1 Fp := c66_example.choose
theorem tors_ne : tors ≠ 0 := c66_example.choose_spec.1
theorem tors_three : 3 • tors = 0 := c66_example.choose_spec.2.1
theorem three_coprime : Nat.Coprime 3 rOrder := c66_example.choose_spec.2.2.1

theorem gen_tors : 1023 • G1gen + tors ≠ 0 := fun h => by
  have h3 := congrArg (3 • ·) h
  simp only [nsmul_add, tors_three, add_zero, nsmul_zero] at h3
  rw [← mul_nsmul'] at h3
  exact Witness.smul_ne (by omega) (lt_trans (by norm_num) big) h3

instance_of inst_c66_shift := c66_shift (1023 • G1gen) tors 3 tors_three three_coprime Hpt H_order
instance_of inst_c66_accepted := c66_accepted 1023 tors 3 tors_three three_coprime Hpt H_ne H_order (by decide +kernel)
  gen_tors

theorem rogue_commit (w : Fin 10 → Fr) : IsCommitment (fun i => (newG1Affine (enc1 (rogueKeys victims 1023 i))).X)
    (fun i => (newG1Affine (enc1 (rogueKeys victims 1023 i))).Y) w (commit exKeys w) := by
  rw [rogue_victims]; exact commit_isCommitment exKeys w

instance_of inst_c67_rogue_rotation {mode : Mode} (oldW newW : Fin 10 → Fr) (M : G2In) :=
  c67_rogue_rotation (mode := mode) victims 1023 (by decide +kernel)
    (by rw [rogue_victims]; exact key_ne) (by rw [rogue_victims]; exact key_general _)
    (by rw [rogue_victims]; exact victims_last) oldW newW (msgVars G2.exMsg) Hpt M H_hash H_ne H_order _ _
    (commit_isCommitment _ _) (rogue_commit newW)
instance_of inst_c67_takeover {mode : Mode} (w : Fin 10 → Fr) (M : G2In) :=
  c67_takeover (mode := mode) victims 1023 (by decide +kernel)
    (by rw [rogue_victims]; exact key_ne) (by rw [rogue_victims]; exact key_general _) w (msgVars G2.exMsg) Hpt M H_hash
    H_ne H_order _ (rogue_commit w)

end Spark.Instances
