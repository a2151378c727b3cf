import Verif.Lemmas.Counting

/-!
# C98, C99: how rare the exceptional cases are

C98: key tuples for which honest proving fails.  C99: field elements for which honest hashing is not `hash_to_curve`.
-/

namespace Spark.HonestProps
open Spark Circ Spec Circuit Pairing PairingProps CircuitProps GroupProps ExceptionProps HashProps CurveProps G2 TwistPoints
open Counting
open scoped BigOperators
set_option maxRecDepth 100000

/-! ## C98 -/

/-- secret keys with which the given signers can sign: no key is infinite, no addition in the aggregation is degenerate, and the
aggregated key is not infinite -/
def KeysFine (signs : Fin 10 → Prop) (sk : Fin 10 → Fin rOrder) : Prop :=
  (∀ i, (sk i : ℕ) • G1gen ≠ 0) ∧ GeneralPosition (fun i => (sk i : ℕ) • G1gen) signs ∧
  ¬ rOrder ∣ secretSum (fun i => sk i) signs

theorem smul_gen_inj {a b : Fin rOrder} (h : (a : ℕ) • G1gen = (b : ℕ) • G1gen) : a = b := by
  have : Fact rOrder.Prime := ⟨rOrder_prime⟩
  have ho : addOrderOf G1gen = rOrder := addOrderOf_eq_prime Witness.G1gen_order G1gen_ne
  have := (nsmul_eq_nsmul_iff_modEq (x := G1gen)).1 h
  rw [ho] at this
  exact Fin.ext (Nat.ModEq.eq_of_lt_of_lt this a.2 b.2)

open Classical in
theorem signersSum_congr {K K' : Fin 10 → E1 Fp} {signs : Fin 10 → Prop} (h : ∀ j, signs j → K j = K' j) :
    signersSum K signs = signersSum K' signs := by
  unfold signersSum
  refine Finset.sum_congr rfl fun j _ => ?_
  by_cases hj : signs j
  · rw [if_pos hj, if_pos hj, h j hj]
  · rw [if_neg hj, if_neg hj]

/-- **C98.** For every non-empty set of signers: of the `r ^ 10` tuples of secret keys at most `31 r ^ 9` are unsuitable, a
fraction of `31 / r`. -/
theorem c98_keys (signs : Fin 10 → Prop) (hs : ∃ i, signs i) :
    {sk : Fin 10 → Fin rOrder | ¬ KeysFine signs sk}.ncard ≤ 31 * rOrder ^ 9 := by
  classical
  let A : Fin 10 → Set (Fin 10 → Fin rOrder) := fun i => {sk | (sk i : ℕ) • G1gen = 0}
  let B : Fin 10 × Bool → Set (Fin 10 → Fin rOrder) := fun i =>
    {sk | signersSum (fun j => (sk j : ℕ) • G1gen) (fun j => j < i.1 ∧ signs j) =
      if i.2 then (sk i.1 : ℕ) • G1gen else -((sk i.1 : ℕ) • G1gen)}
  let D : Set (Fin 10 → Fin rOrder) := {sk | rOrder ∣ secretSum (fun i => sk i) signs}
  have hA : (⋃ i, A i).ncard ≤ (Set.univ : Set (Fin 10)).ncard * rOrder ^ 9 := by
    refine ncard_cover A (fun a ha => ?_) fun i _ => ncard_tuple i fun s hs s' hs' _ => smul_gen_inj (hs.trans hs'.symm)
    obtain ⟨i, hi⟩ := Set.mem_iUnion.1 ha
    exact ⟨i, trivial, hi⟩
  have hB : (⋃ i, B i).ncard ≤ (Set.univ : Set (Fin 10 × Bool)).ncard * rOrder ^ 9 := by
    refine ncard_cover B (fun a ha => ?_) fun i _ => ncard_tuple i.1 fun s hs s' hs' e => ?_
    · obtain ⟨i, hi⟩ := Set.mem_iUnion.1 ha
      exact ⟨i, trivial, hi⟩
    · have h1 : signersSum (fun j => (s j : ℕ) • G1gen) (fun j => j < i.1 ∧ signs j) =
          signersSum (fun j => (s' j : ℕ) • G1gen) (fun j => j < i.1 ∧ signs j) :=
        signersSum_congr fun j hj => by rw [e j (ne_of_lt hj.1)]
      have h2 := hs.symm.trans (h1.trans hs')
      split at h2
      · exact smul_gen_inj h2
      · exact smul_gen_inj (neg_inj.1 h2)
  have hD : D.ncard ≤ rOrder ^ 9 := by
    obtain ⟨i, hi⟩ := hs
    refine ncard_tuple i fun s hs s' hs' e => ?_
    have split : ∀ t : Fin 10 → Fin rOrder, secretSum (fun i => t i) signs =
        t i + ∑ j ∈ Finset.univ.erase i, if signs j then (t j : ℕ) else 0 := fun t => by
      unfold secretSum
      rw [← Finset.add_sum_erase _ _ (Finset.mem_univ i), if_pos hi]
    have hsum : (∑ j ∈ Finset.univ.erase i, if signs j then (s j : ℕ) else 0) =
        ∑ j ∈ Finset.univ.erase i, if signs j then (s' j : ℕ) else 0 :=
      Finset.sum_congr rfl fun j hj => by rw [e j (Finset.ne_of_mem_erase hj)]
    have h1 : rOrder ∣ secretSum (fun i => s i) signs := hs
    have h2 : rOrder ∣ secretSum (fun i => s' i) signs := hs'
    rw [split] at h1 h2
    rw [hsum] at h1
    have := (Nat.modEq_zero_iff_dvd.2 h1).trans (Nat.modEq_zero_iff_dvd.2 h2).symm
    exact Fin.ext (Nat.ModEq.eq_of_lt_of_lt (Nat.ModEq.add_right_cancel' _ this) (s i).2 (s' i).2)
  have hsub : {sk : Fin 10 → Fin rOrder | ¬ KeysFine signs sk} ⊆ ((⋃ i, A i) ∪ ⋃ i, B i) ∪ D := by
    intro sk h
    by_contra hn
    simp only [Set.mem_union, Set.mem_iUnion, not_or, not_exists] at hn
    refine h ⟨hn.1.1, fun i _ _ => ⟨fun e => hn.1.2 (i, true) ?_, fun e => hn.1.2 (i, false) ?_⟩, hn.2⟩
    · exact e
    · exact e
  have := (Set.ncard_le_ncard hsub).trans ((Set.ncard_union_le _ _).trans
    (Nat.add_le_add ((Set.ncard_union_le _ _).trans (Nat.add_le_add hA hB)) hD))
  rw [Set.ncard_univ, Set.ncard_univ, Nat.card_eq_fintype_card, Nat.card_eq_fintype_card, Fintype.card_fin,
    Fintype.card_prod, Fintype.card_fin, Fintype.card_bool] at this
  linarith

/-- **C98, all signer sets.** At most `31 · 1023 · r ^ 9` tuples are unsuitable for some non-empty set of signers. -/
theorem c98_all_sets :
    {sk : Fin 10 → Fin rOrder | ∃ signs : Fin 10 → Prop, (∃ i, signs i) ∧ ¬ KeysFine signs sk}.ncard ≤
      1023 * (31 * rOrder ^ 9) := by
  classical
  have h := ncard_cover (S := {sk : Fin 10 → Fin rOrder | ∃ signs : Fin 10 → Prop, (∃ i, signs i) ∧ ¬ KeysFine signs sk})
    (fun b : Fin 10 → Bool => {sk | ¬ KeysFine (fun i => b i = true) sk}) (I := {fun _ => false}ᶜ) (n := 31 * rOrder ^ 9)
    (fun sk ⟨signs, ⟨i, hi⟩, h⟩ => ⟨fun i => decide (signs i), fun e => ?_, ?_⟩) fun b hb => c98_keys _ ?_
  · rwa [Set.ncard_compl, Set.ncard_singleton, Nat.card_eq_fintype_card, Fintype.card_fun, Fintype.card_fin,
      Fintype.card_bool] at h
  · have := congrFun (Set.mem_singleton_iff.1 e) i
    simp [hi] at this
  · simpa using h
  · by_contra hn
    refine hb (Set.mem_singleton_iff.2 (funext fun i => ?_))
    have := not_exists.1 hn i
    simpa using this

/-- What suitable keys are good for: in the test engine (and in the compiled circuit under the condition of C19) the keys can be
aggregated, every prover gets the sum of the signers' keys, and it is a finite point. -/
theorem c98_fine {mode : Mode} {sk : Fin 10 → Fin rOrder} {bits : Fin 10 → Fr} (hb : ∀ i, bits i = 0 ∨ bits i = 1)
    (h : KeysFine (fun i => bits i = 1) sk) (hmode : ExactAggregation mode bits) :
    ∃ apk : G1Var, aggregatePublicKeysRotate mode (fun i => newG1Affine (enc1 ((sk i : ℕ) • G1gen))) bits = pure apk ∧
      ⟨apk.X, apk.Y⟩ = enc1 (signersSum (fun i => (sk i : ℕ) • G1gen) fun i => bits i = 1) ∧
      signersSum (fun i => (sk i : ℕ) • G1gen) (fun i => bits i = 1) ≠ 0 := by
  obtain ⟨apk, e, ha⟩ := aggregate_exact (fun i => c58_denotes _ (h.1 i)) hb h.2.1 hmode
  refine ⟨apk, e, ha, ?_⟩
  classical
  intro h0
  simp only [signersSum] at h0
  rw [show (∑ i, if bits i = 1 then (sk i : ℕ) • G1gen else 0) = _ from
    sum_ite_nsmul (fun i => (sk i : ℕ)) (fun i => bits i = 1) G1gen] at h0
  have : Fact rOrder.Prime := ⟨rOrder_prime⟩
  have ho : addOrderOf G1gen = rOrder := addOrderOf_eq_prime Witness.G1gen_order G1gen_ne
  have hd := addOrderOf_dvd_iff_nsmul_eq_zero.2 h0
  rw [ho] at hd
  refine h.2.2 ?_
  unfold secretSum
  convert hd

/-- C98 is not void: some tuple suits every non-empty set of signers. -/
theorem c98_example : ∃ sk : Fin 10 → Fin rOrder, ∀ signs : Fin 10 → Prop, (∃ i, signs i) → KeysFine signs sk := by
  by_contra hn
  have hall : {sk : Fin 10 → Fin rOrder | ∃ signs : Fin 10 → Prop, (∃ i, signs i) ∧ ¬ KeysFine signs sk} = Set.univ := by
    refine Set.eq_univ_of_forall fun sk => ?_
    by_contra h
    exact hn ⟨sk, fun signs hs => by_contra fun hk => h ⟨signs, hs, hk⟩⟩
  have h := c98_all_sets
  rw [hall, Set.ncard_univ, Nat.card_eq_fintype_card, Fintype.card_fun, Fintype.card_fin, Fintype.card_fin] at h
  revert h
  decide +kernel

/-! ## C99 -/

theorem iso_lead_ne : (E2.of 0x171d6541fa38ccfaed6dea691f5fb614cb14b4e7f4e810aa22d6108f142b85757098e38d0f671c7188e2aaaaaaaa5ed1 : E2 Fp) ≠ 0 := by
  decide +kernel

theorem isoX_poly : ∃ b n2 n1 n0 d1 d0 : E2 Fp, b ≠ 0 ∧
    ∀ x, Rfc.isoXNum x = b * x ^ 3 + n2 * x ^ 2 + n1 * x + n0 ∧ Rfc.isoXDen x = x ^ 2 + d1 * x + d0 :=
  ⟨_, _, _, _, _, _, iso_lead_ne, fun _ => ⟨rfl, rfl⟩⟩

/-- at most eight non-zero field elements have a given abscissa on the isogenous curve -/
theorem fibre_sswu (x : E2 Fp) : {u : E2 Fp | u ≠ 0 ∧ Rfc.sswuX u = x}.ncard ≤ 8 := by
  have hB := isoB_ne
  have hA := isoA_ne
  have hZ := Z_ne
  have h1 : {u : E2 Fp | u ≠ 0 ∧ Rfc.x1 u = x}.ncard ≤ 4 := by
    refine ncard_quartic ((x * Rfc.isoA + Rfc.isoB) * Rfc.Z ^ 2) 0 ((x * Rfc.isoA + Rfc.isoB) * Rfc.Z) 0 Rfc.isoB
      (Or.inr (Or.inr (Or.inr (Or.inr hB)))) fun u ⟨h0, hu⟩ => ?_
    have hd : Rfc.den u ≠ 0 := fun e => h0 ((c53_only_zero u).1.1 e)
    rw [Rfc.x1, if_neg hd] at hu
    have e : (-Rfc.isoB) * (Rfc.den u + 1) = x * Rfc.isoA * Rfc.den u := by
      rw [← hu]; field_simp
    rw [Rfc.den] at e
    linear_combination -e
  have h2 : {u : E2 Fp | u ≠ 0 ∧ Rfc.x2 u = x}.ncard ≤ 4 := by
    refine ncard_quartic (Rfc.isoB * Rfc.Z ^ 2) 0 ((x * Rfc.isoA + Rfc.isoB) * Rfc.Z) 0 (x * Rfc.isoA + Rfc.isoB)
      (Or.inl (mul_ne_zero hB (pow_ne_zero _ hZ))) fun u ⟨h0, hu⟩ => ?_
    have hd : Rfc.den u ≠ 0 := fun e => h0 ((c53_only_zero u).1.1 e)
    rw [Rfc.x2, Rfc.x1, if_neg hd] at hu
    have e : Rfc.Z * u ^ 2 * ((-Rfc.isoB) * (Rfc.den u + 1)) = x * Rfc.isoA * Rfc.den u := by
      rw [← hu]; field_simp
    have hm : Rfc.Z * u ^ 2 ≠ 0 := mul_ne_zero hZ (pow_ne_zero _ h0)
    rw [Rfc.den] at e
    refine (mul_eq_zero.1 (?_ : Rfc.Z * u ^ 2 * _ = 0)).resolve_left hm
    linear_combination -e
  refine (Set.ncard_le_ncard (s := {u : E2 Fp | u ≠ 0 ∧ Rfc.sswuX u = x}) (t := {u : E2 Fp | u ≠ 0 ∧ Rfc.x1 u = x} ∪ {u : E2 Fp | u ≠ 0 ∧ Rfc.x2 u = x})
    fun u ⟨h0, hu⟩ => ?_).trans ((Set.ncard_union_le _ _).trans (Nat.add_le_add h1 h2))
  rw [Rfc.sswuX] at hu
  split at hu
  · exact Or.inl ⟨h0, hu⟩
  · exact Or.inr ⟨h0, hu⟩

/-- **C99, fibres.** At most 25 field elements are mapped to a given point of the twist. -/
theorem c99_fibre (Q : ETwist Fp) : {u : E2 Fp | Rfc.MapsTo u Q}.ncard ≤ 25 := by
  have hx : {x : E2 Fp | ∃ y, y ^ 2 = Rfc.g x ∧ Pt Q (Rfc.isoMapX x) (Rfc.isoMapY x y)}.ncard ≤ 3 := by
    by_cases hne : ∃ x y, y ^ 2 = Rfc.g x ∧ Pt Q (Rfc.isoMapX x) (Rfc.isoMapY x y)
    · obtain ⟨x0, y0, -, p0⟩ := hne
      obtain ⟨b, n2, n1, n0, d1, d0, hb, hp⟩ := isoX_poly
      refine ncard_cubic b (n2 - Rfc.isoMapX x0) (n1 - Rfc.isoMapX x0 * d1) (n0 - Rfc.isoMapX x0 * d0) hb
        fun x ⟨y, hy, p⟩ => ?_
      have h1 := (Pt.unique p p0).1
      rw [← h1]
      have h2 := div_mul_cancel₀ (Rfc.isoXNum x) (xden_ne (ne_pole hy))
      have h3 : Rfc.isoXNum x - Rfc.isoMapX x * Rfc.isoXDen x = 0 := by rw [Rfc.isoMapX, h2, sub_self]
      rw [(hp x).1, (hp x).2] at h3
      linear_combination h3
    · rw [show {x : E2 Fp | ∃ y, y ^ 2 = Rfc.g x ∧ Pt Q (Rfc.isoMapX x) (Rfc.isoMapY x y)} = ∅ from
        Set.eq_empty_of_forall_notMem fun x h => hne ⟨x, h⟩, Set.ncard_empty]
      omega
  have h1 : {u : E2 Fp | u ≠ 0 ∧ Rfc.MapsTo u Q}.ncard ≤ 3 * 8 := by
    refine (ncard_cover (S := {u : E2 Fp | u ≠ 0 ∧ Rfc.MapsTo u Q}) (fun x => {u : E2 Fp | u ≠ 0 ∧ Rfc.sswuX u = x})
      (fun u ⟨h0, x, y, ⟨hx, hy, _⟩, p⟩ => ?_)
      fun x _ => fibre_sswu x).trans (Nat.mul_le_mul_right 8 hx)
    exact ⟨x, ⟨y, hy, p⟩, h0, hx.symm⟩
  refine (Set.ncard_le_ncard (t := {u : E2 Fp | u ≠ 0 ∧ Rfc.MapsTo u Q} ∪ {0}) fun u hu => ?_).trans
    ((Set.ncard_union_le _ _).trans (Nat.add_le_add h1 (Set.ncard_singleton _).le))
  by_cases h0 : u = 0
  · exact Or.inr h0
  · exact Or.inl ⟨h0, hu⟩

/-- **C99, sign ties.** At most `26 p` of the `p ^ 2` field elements have a sign tie. -/
theorem c99_tie : {u : E2 Fp | ¬ NoSignTie u}.ncard ≤ 26 * fpOrder := by
  have h1 : {u : E2 Fp | u.A0 = 0}.ncard ≤ fpOrder := by
    refine (Set.ncard_le_ncard (t := Set.range fun b : Fp => (⟨0, b⟩ : E2 Fp)) fun u hu => ⟨u.A1, ?_⟩).trans ?_
    · exact E2.ext (Eq.symm hu) rfl
    · rw [← Set.image_univ]
      refine (Set.ncard_image_le Set.finite_univ).trans ?_
      rw [Set.ncard_univ, card_Fp]
  have hx : {x : E2 Fp | ∃ b : Fp, (⟨0, b⟩ : E2 Fp) ^ 2 = Rfc.g x}.ncard ≤ fpOrder * 3 := by
    have := ncard_cover (fun b : Fp => {x : E2 Fp | (⟨0, b⟩ : E2 Fp) ^ 2 = Rfc.g x}) (I := Set.univ) (n := 3)
      (S := {x : E2 Fp | ∃ b : Fp, (⟨0, b⟩ : E2 Fp) ^ 2 = Rfc.g x}) (fun x hx => hx.elim fun b hb => ⟨b, trivial, hb⟩) fun b _ => ?_
    · rwa [Set.ncard_univ, card_Fp] at this
    · refine ncard_cubic 1 0 Rfc.isoA (Rfc.isoB - (⟨0, b⟩ : E2 Fp) ^ 2) one_ne_zero fun x hx => ?_
      have hx : (⟨0, b⟩ : E2 Fp) ^ 2 = Rfc.g x := hx
      rw [hx, Rfc.g]
      ring
  have h2 : {u : E2 Fp | u ≠ 0 ∧ ∃ y, y ^ 2 = Rfc.g (Rfc.sswuX u) ∧ y.A0 = 0}.ncard ≤ fpOrder * 3 * 8 := by
    refine (ncard_cover (S := {u : E2 Fp | u ≠ 0 ∧ ∃ y, y ^ 2 = Rfc.g (Rfc.sswuX u) ∧ y.A0 = 0})
      (fun x => {u : E2 Fp | u ≠ 0 ∧ Rfc.sswuX u = x}) (fun u ⟨h0, y, hy, hy0⟩ => ?_)
      fun x _ => fibre_sswu x).trans (Nat.mul_le_mul_right 8 hx)
    refine ⟨Rfc.sswuX u, ⟨y.A1, ?_⟩, h0, rfl⟩
    rw [← hy]
    congr 1
    exact E2.ext hy0.symm rfl
  refine (Set.ncard_le_ncard (t := {u : E2 Fp | u.A0 = 0} ∪
    {u : E2 Fp | u ≠ 0 ∧ ∃ y, y ^ 2 = Rfc.g (Rfc.sswuX u) ∧ y.A0 = 0}) fun u hu => ?_).trans
    ((Set.ncard_union_le _ _).trans ((Nat.add_le_add h1 h2).trans (by omega)))
  by_cases h0 : u.A0 = 0
  · exact Or.inl h0
  · refine Or.inr ⟨fun e => h0 (by rw [e]; rfl), ?_⟩
    by_contra hn
    exact hu ⟨h0, fun y hy hy0 => hn ⟨y, hy, hy0⟩⟩

/-- pairs of field elements without exception: no sign tie, different images, and a finite hash -/
def HashFine (u0 u1 : E2 Fp) : Prop :=
  NoSignTie u0 ∧ NoSignTie u1 ∧
  ∀ Q0 Q1, Rfc.MapsTo u0 Q0 → Rfc.MapsTo u1 Q1 → Q0 ≠ Q1 ∧ Rfc.hEff • (Q0 + Q1) ≠ 0

/-- For messages with such a pair both honest variants return the hash of RFC 9380, a point of order `r`. -/
theorem c99_fine {msg : Vector Fips.Byte 32} {u0 u1 : E2 Fp}
    (hu : Rfc.hashToFieldFp2 msg.toList (Rfc.ascii Rfc.dstString) 2 = some [u0, u1]) (h : HashFine u0 u1) :
    ∃ H, Rfc.HashesTo msg.toList (Rfc.ascii Rfc.dstString) H ∧ H ≠ 0 ∧ rOrder • H = 0 ∧
      (hashToG2 (msgVars msg)).run = some (enc2 H) ∧ (hashToG2OnJac (msgVars msg)).run = some (enc2 H) := by
  obtain ⟨Q0, m0⟩ := mapsTo_exists u0
  obtain ⟨Q1, m1⟩ := mapsTo_exists u1
  have hH : Rfc.HashesTo msg.toList (Rfc.ascii Rfc.dstString) (Rfc.hEff • (Q0 + Q1)) := ⟨u0, u1, Q0, Q1, hu, m0, m1, rfl⟩
  obtain ⟨hne, h0⟩ := h.2.2 Q0 Q1 m0 m1
  obtain ⟨e1, -, e2⟩ := c97_hash hu h.1 h.2.1 hH
  refine ⟨_, hH, h0, ?_, e2 h0 fun Q a b => ((h.2.2 Q Q a b).1 rfl).elim, e1 h0⟩
  rw [← c97_clear_cofactor isPsi_psiHom]
  exact bp_order _

theorem kernel_card : {P : ETwist Fp | Rfc.hEff • P = 0}.ncard = cofactor := by
  have := (c92_kernel isPsi_psiHom).2.2
  simp only [c97_clear_cofactor isPsi_psiHom] at this
  exact this

/-- **C99.** Of the `p ^ 4` pairs of field elements at most a fraction `26 / r` is exceptional. -/
theorem c99_rare : {u : E2 Fp × E2 Fp | ¬ HashFine u.1 u.2}.ncard * rOrder ≤ 26 * fpOrder ^ 4 := by
  have c2 : (Set.univ : Set (E2 Fp)).ncard = fpOrder ^ 2 := by rw [Set.ncard_univ, TwistPoints.card_E2]
  have hT0 : {u : E2 Fp × E2 Fp | ¬ NoSignTie u.1}.ncard ≤ 26 * fpOrder * fpOrder ^ 2 := by
    rw [show {u : E2 Fp × E2 Fp | ¬ NoSignTie u.1} = {u : E2 Fp | ¬ NoSignTie u} ×ˢ Set.univ by ext; simp,
      Set.ncard_prod, c2]
    exact Nat.mul_le_mul_right _ c99_tie
  have hT1 : {u : E2 Fp × E2 Fp | ¬ NoSignTie u.2}.ncard ≤ fpOrder ^ 2 * (26 * fpOrder) := by
    rw [show {u : E2 Fp × E2 Fp | ¬ NoSignTie u.2} = Set.univ ×ˢ {u : E2 Fp | ¬ NoSignTie u} by ext; simp,
      Set.ncard_prod, c2]
    exact Nat.mul_le_mul_left _ c99_tie
  have fib : ∀ (u0 : E2 Fp) (Q : ETwist Fp), {u : E2 Fp × E2 Fp | u.1 = u0 ∧ Rfc.MapsTo u.2 Q}.ncard ≤ 25 := by
    intro u0 Q
    rw [show {u : E2 Fp × E2 Fp | u.1 = u0 ∧ Rfc.MapsTo u.2 Q} = {u0} ×ˢ {u : E2 Fp | Rfc.MapsTo u Q} by ext; simp,
      Set.ncard_prod, Set.ncard_singleton, one_mul]
    exact c99_fibre Q
  choose F hF using mapsTo_exists
  have hE : {u : E2 Fp × E2 Fp | Rfc.MapsTo u.2 (F u.1)}.ncard ≤ fpOrder ^ 2 * 25 := by
    have := ncard_cover (S := {u : E2 Fp × E2 Fp | Rfc.MapsTo u.2 (F u.1)})
      (fun u0 : E2 Fp => {u : E2 Fp × E2 Fp | u.1 = u0 ∧ Rfc.MapsTo u.2 (F u0)}) (I := Set.univ)
      (fun u hu => ⟨u.1, trivial, rfl, hu⟩) fun u0 _ => fib u0 _
    rwa [c2] at this
  have hK : {u : E2 Fp × E2 Fp | ∃ k, Rfc.hEff • k = 0 ∧ Rfc.MapsTo u.2 (k - F u.1)}.ncard ≤
      fpOrder ^ 2 * cofactor * 25 := by
    have := ncard_cover (S := {u : E2 Fp × E2 Fp | ∃ k, Rfc.hEff • k = 0 ∧ Rfc.MapsTo u.2 (k - F u.1)})
      (fun b : E2 Fp × ETwist Fp => {u : E2 Fp × E2 Fp | u.1 = b.1 ∧ Rfc.MapsTo u.2 (b.2 - F b.1)})
      (I := Set.univ ×ˢ {P : ETwist Fp | Rfc.hEff • P = 0})
      (fun u ⟨k, hk, hu⟩ => ⟨(u.1, k), ⟨trivial, hk⟩, rfl, hu⟩) fun b _ => fib b.1 _
    rwa [Set.ncard_prod, c2, kernel_card] at this
  have hsub : {u : E2 Fp × E2 Fp | ¬ HashFine u.1 u.2} ⊆ ({u : E2 Fp × E2 Fp | ¬ NoSignTie u.1} ∪
      {u : E2 Fp × E2 Fp | ¬ NoSignTie u.2}) ∪ ({u : E2 Fp × E2 Fp | Rfc.MapsTo u.2 (F u.1)} ∪
      {u : E2 Fp × E2 Fp | ∃ k, Rfc.hEff • k = 0 ∧ Rfc.MapsTo u.2 (k - F u.1)}) := by
    intro u h
    by_contra hn
    simp only [Set.mem_union, not_or, Set.mem_ofPred_eq, not_not, not_exists, not_and] at hn
    obtain ⟨⟨t0, t1⟩, he, hk⟩ := hn
    refine h ⟨t0, t1, fun Q0 Q1 m0 m1 => ?_⟩
    obtain rfl := mapsTo_unique (hF u.1) m0
    exact ⟨fun e => he (Eq.subst (motive := fun Q => Rfc.MapsTo u.2 Q) e.symm m1), fun e => hk _ e
      (Eq.subst (motive := fun Q => Rfc.MapsTo u.2 Q) (add_sub_cancel_left (F u.1) Q1).symm m1)⟩
  have h1 := (Set.ncard_le_ncard hsub).trans ((Set.ncard_union_le _ _).trans
    (Nat.add_le_add ((Set.ncard_union_le _ _).trans (Nat.add_le_add hT0 hT1))
      ((Set.ncard_union_le _ _).trans (Nat.add_le_add hE hK))))
  refine (Nat.mul_le_mul_right _ h1).trans ?_
  decide +kernel

/-- C99 on an explicit message: its pair is fine. -/
theorem c99_example : ∃ u0 u1, Rfc.hashToFieldFp2 exMsg.toList (Rfc.ascii Rfc.dstString) 2 = some [u0, u1] ∧ HashFine u0 u1 := by
  obtain ⟨u0, u1, H, hu, t0, t1, hne, hH, h0, -⟩ := c97_example
  refine ⟨u0, u1, hu, t0, t1, fun Q0 Q1 m0 m1 => ⟨fun e => hne Q0 m0 (Eq.subst (motive := fun Q => Rfc.MapsTo u1 Q) e.symm m1), ?_⟩⟩
  obtain ⟨v0, v1, P0, P1, hv, n0, n1, rfl⟩ := hH
  rw [hu] at hv
  have e := Option.some.inj hv
  have e0 : u0 = v0 := (List.cons.inj e).1
  have e1 : u1 = v1 := (List.cons.inj (List.cons.inj e).2).1
  subst e0 e1
  rw [mapsTo_unique m0 n0, mapsTo_unique m1 n1]
  exact h0

end Spark.HonestProps
