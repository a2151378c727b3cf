import Verif.Props.Counting

/-!
# C103: how much of the group a prover can pass off as the hash of one message
-/

namespace Spark.HonestProps
open Spark Circ Spec Circuit Pairing PairingProps CircuitProps GroupProps ExceptionProps HashProps CurveProps G2 TwistPoints
open Counting
open scoped BigOperators
set_option maxRecDepth 100000

/-- `H` satisfies the constraints of both variants of the in-circuit hash of `msg` -/
def AcceptedAsHash (msg : Vector Fips.Byte 32) (H : ETwist Fp) : Prop :=
  (hashToG2 (msgVars msg)).sat (enc2 H) ∧ (hashToG2OnJac (msgVars msg)).sat (enc2 H)

/-- `H` satisfies the constraints of both variants of the in-circuit encoding of `msg` -/
def AcceptedAsEncoding (msg : Vector Fips.Byte 32) (H : ETwist Fp) : Prop :=
  (encodeToG2 (msgVars msg)).sat (enc2 H) ∧ (encodeToG2OnJac (msgVars msg)).sat (enc2 H)

/-- every pair of field elements without exception gives a point that is accepted, whatever the message -/
theorem accepted_of_fine (msg : Vector Fips.Byte 32) {u0 u1 : E2 Fp} {Q0 Q1 : ETwist Fp} (h : HashFine u0 u1)
    (m0 : Rfc.MapsTo u0 Q0) (m1 : Rfc.MapsTo u1 Q1) : AcceptedAsHash msg (Rfc.hEff • (Q0 + Q1)) := by
  have n0 : u0 ≠ 0 := fun e => h.1.1 (by rw [e]; rfl)
  have n1 : u1 ≠ 0 := fun e => h.2.1.1 (by rw [e]; rfl)
  obtain ⟨x0, y0, x1, y1, P0, P1, c0, c1, p0, p1, hj, -, ha⟩ :=
    hashTail_run (u0 := u0) (u1 := u1) (fun e => n0 ((c53_only_zero _).1.1 e)) (fun e => n1 ((c53_only_zero _).1.1 e))
  obtain rfl := mapsTo_unique (c57_map_rfc h.1 (codeMapsTo_of c0 p0)) m0
  obtain rfl := mapsTo_unique (c57_map_rfc h.2.1 (codeMapsTo_of c1 p1)) m1
  obtain ⟨hne, hz⟩ := h.2.2 _ _ m0 m1
  rw [← c97_clear_cofactor isPsi_psiHom] at hz ⊢
  have hz' : bp (P0 + P1) ≠ 0 := hz
  obtain ⟨q, e, hp⟩ := ha hne (fun e => hz' (by rw [e]; exact bpHom.map_zero)) (generic_of_bp hz').affOk
  obtain ⟨q', e', hp'⟩ := hj hz'
  change AcceptedAsHash msg (bp (P0 + P1))
  refine ⟨?_, ?_⟩
  · rw [hashToG2_tail, sat_bind, enc2_pt hp]
    exact ⟨_, (hashToField_sat msg 2 (by omega) _).2 rfl, (hashTail _).ok _ e⟩
  · rw [hashToG2OnJac_tail, sat_bind, enc2_pt hp']
    exact ⟨_, (hashToField_sat msg 2 (by omega) _).2 rfl, (hashTailJac _).ok _ e'⟩

/-- the same for the nonuniform encoding -/
theorem accepted_encoding (msg : Vector Fips.Byte 32) {u : E2 Fp} {Q : ETwist Fp} (t : NoSignTie u) (m : Rfc.MapsTo u Q)
    (hz : Rfc.hEff • Q ≠ 0) : AcceptedAsEncoding msg (Rfc.hEff • Q) := by
  have n : u ≠ 0 := fun e => t.1 (by rw [e]; rfl)
  obtain ⟨x, y, P, c, p, hj, -, ha⟩ := encTail_run (u := u) (fun e => n ((c53_only_zero _).1.1 e))
  obtain rfl := mapsTo_unique (c57_map_rfc t (codeMapsTo_of c p)) m
  rw [← c97_clear_cofactor isPsi_psiHom] at hz ⊢
  have hz' : bp P ≠ 0 := hz
  obtain ⟨q, e, hp⟩ := ha (generic_of_bp hz').affOk
  obtain ⟨q', e', hp'⟩ := hj hz'
  change AcceptedAsEncoding msg (bp P)
  refine ⟨?_, ?_⟩
  · rw [encodeToG2_tail, sat_bind, enc2_pt hp]
    exact ⟨_, (hashToField_sat msg 1 (by omega) _).2 rfl, (encTail _).ok _ e⟩
  · rw [encodeToG2OnJac_tail, sat_bind, enc2_pt hp']
    exact ⟨_, (hashToField_sat msg 1 (by omega) _).2 rfl, (encTailJac _).ok _ e'⟩

/-- counting: if up to `26 p + 25` exceptions every field element is mapped, after a shift by `Q1` and clearing the cofactor, to
an accepted point, then at least one point in 26 is accepted -/
theorem count_accepted (Acc : ETwist Fp → Prop) (Q1 : ETwist Fp) (B : Set (E2 Fp)) (hB : B.ncard ≤ 26 * fpOrder + 25)
    (h : ∀ u Q, u ∉ B → Rfc.MapsTo u Q → Rfc.hEff • (Q + Q1) ≠ 0 → Acc (Rfc.hEff • (Q + Q1))) :
    rOrder ≤ 26 * {H : ETwist Fp | H ≠ 0 ∧ rOrder • H = 0 ∧ Acc H}.ncard := by
  have fib : ∀ H : ETwist Fp, {u : E2 Fp | ∃ Q, Rfc.MapsTo u Q ∧ Rfc.hEff • (Q + Q1) = H}.ncard ≤ cofactor * 25 := by
    intro H
    by_cases hne : ∃ Q, Rfc.hEff • (Q + Q1) = H
    · obtain ⟨Q', hQ'⟩ := hne
      rw [← kernel_card]
      refine ncard_cover (fun k => {u : E2 Fp | Rfc.MapsTo u (k + Q')}) (fun u ⟨Q, m, e⟩ => ⟨Q - Q', ?_, ?_⟩)
        fun k _ => c99_fibre _
      · have : Rfc.hEff • ((Q + Q1) - (Q' + Q1)) = 0 := by rw [nsmul_sub, e, hQ', sub_self]
        rwa [add_sub_add_right_eq_sub] at this
      · exact Eq.subst (motive := fun P => Rfc.MapsTo u P) (sub_add_cancel Q Q').symm m
    · rw [show {u : E2 Fp | ∃ Q, Rfc.MapsTo u Q ∧ Rfc.hEff • (Q + Q1) = H} = ∅ from
        Set.eq_empty_of_forall_notMem fun u ⟨Q, _, e⟩ => hne ⟨Q, e⟩, Set.ncard_empty]
      exact Nat.zero_le _
  generalize hN : {H : ETwist Fp | H ≠ 0 ∧ rOrder • H = 0 ∧ Acc H}.ncard = N
  have hS : {u : E2 Fp | ∃ H Q, (H ≠ 0 ∧ rOrder • H = 0 ∧ Acc H) ∧ Rfc.MapsTo u Q ∧ Rfc.hEff • (Q + Q1) = H}.ncard ≤
      N * (cofactor * 25) := by
    rw [← hN]
    exact ncard_cover (fun H => {u : E2 Fp | ∃ Q, Rfc.MapsTo u Q ∧ Rfc.hEff • (Q + Q1) = H})
      (fun u ⟨H, Q, a, b⟩ => ⟨H, a, Q, b⟩) fun H _ => fib H
  have hsub : (Set.univ : Set (E2 Fp)) ⊆ (B ∪ {u : E2 Fp | ∃ Q, Rfc.MapsTo u Q ∧ Rfc.hEff • (Q + Q1) = 0}) ∪
      {u : E2 Fp | ∃ H Q, (H ≠ 0 ∧ rOrder • H = 0 ∧ Acc H) ∧ Rfc.MapsTo u Q ∧ Rfc.hEff • (Q + Q1) = H} := by
    intro u _
    by_cases hu : u ∈ B
    · exact Or.inl (Or.inl hu)
    · obtain ⟨Q, m⟩ := mapsTo_exists u
      by_cases hz : Rfc.hEff • (Q + Q1) = 0
      · exact Or.inl (Or.inr ⟨Q, m, hz⟩)
      · refine Or.inr ⟨_, Q, ⟨hz, ?_, h u Q hu m hz⟩, m, rfl⟩
        rw [← c97_clear_cofactor isPsi_psiHom]
        exact bp_order _
  have h1 := (Set.ncard_le_ncard hsub).trans ((Set.ncard_union_le _ _).trans
    (Nat.add_le_add ((Set.ncard_union_le _ _).trans (Nat.add_le_add hB (fib 0))) hS))
  rw [Set.ncard_univ, TwistPoints.card_E2] at h1
  by_contra hlt
  have hlt : 26 * N ≤ rOrder - 1 := by omega
  have h2 : 26 * fpOrder ^ 2 ≤ 26 * (26 * fpOrder + 25 + cofactor * 25) + (rOrder - 1) * (cofactor * 25) := by
    calc 26 * fpOrder ^ 2 ≤ 26 * (26 * fpOrder + 25 + cofactor * 25 + N * (cofactor * 25)) := Nat.mul_le_mul_left _ h1
      _ = 26 * (26 * fpOrder + 25 + cofactor * 25) + 26 * N * (cofactor * 25) := by ring
      _ ≤ _ := Nat.add_le_add_left (Nat.mul_le_mul_right _ hlt) _
  revert h2
  decide +kernel

/-- **C103.** For every message at least one in 26 of the points of the group is accepted as its hash. -/
theorem c103_hash (msg : Vector Fips.Byte 32) :
    rOrder ≤ 26 * {H : ETwist Fp | H ≠ 0 ∧ rOrder • H = 0 ∧ AcceptedAsHash msg H}.ncard := by
  obtain ⟨-, u1, -, -, t1, -⟩ := c99_example
  obtain ⟨Q1, m1⟩ := mapsTo_exists u1
  refine count_accepted _ Q1 ({u | ¬ NoSignTie u} ∪ {u | Rfc.MapsTo u Q1})
    ((Set.ncard_union_le _ _).trans (Nat.add_le_add c99_tie (c99_fibre Q1))) fun u Q hu m hz => ?_
  simp only [Set.mem_union, not_or, Set.mem_ofPred_eq, not_not] at hu
  refine accepted_of_fine msg ⟨hu.1, t1, fun P P1 n n1 => ?_⟩ m m1
  obtain rfl := mapsTo_unique n m
  obtain rfl := mapsTo_unique n1 m1
  exact ⟨fun e => hu.2 (Eq.subst (motive := fun P => Rfc.MapsTo u P) e n), hz⟩

/-- **C103, nonuniform encoding.** -/
theorem c103_encode (msg : Vector Fips.Byte 32) :
    rOrder ≤ 26 * {H : ETwist Fp | H ≠ 0 ∧ rOrder • H = 0 ∧ AcceptedAsEncoding msg H}.ncard := by
  refine count_accepted _ 0 {u | ¬ NoSignTie u} (c99_tie.trans (Nat.le_add_right _ _)) fun u Q hu m hz => ?_
  rw [add_zero] at hz ⊢
  exact accepted_encoding msg (not_not.1 hu) m hz

end Spark.HonestProps
