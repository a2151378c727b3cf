import Verif.Spec.History
import Verif.Props.Forgery
import Verif.Props.Compiled

/-!
# C83-C85: histories of proofs

C83: a verifier that keeps only the commitment behaves like one that knows the validator set, for every history, or the
history exhibits a Poseidon collision.  C84: what the declared weights of a history do not prevent.  C85: transaction and
rotation signatures are interchangeable.
-/

namespace Spark.HistoryProps
open Spark Circ Spec Circuit Pairing PairingProps GroupProps CircuitProps ForgeryProps HashProps
open scoped BigOperators
set_option maxRecDepth 100000

variable {mode : Mode}

/-- a Poseidon collision between the computations of the commitments of two sets -/
def SetCollision (V V' : ValidatorSet) : Prop :=
  Collision (fun i => (V.keys i).X) (fun i => (V.keys i).Y) V.weights
    (fun i => (V'.keys i).X) (fun i => (V'.keys i).Y) V'.weights

theorem set_binding {V V' : ValidatorSet} {c : Fr} (h : V.CommitsTo c) (h' : V'.CommitsTo c) :
    V = V' ∨ SetCollision V V' := by
  rcases commitment_binding h h' with ⟨hx, hy, hw⟩ | hcol
  · exact Or.inl (ValidatorSet.ext (keys_ext hx hy) hw)
  · exact Or.inr hcol

/-! ## C83 -/

/-- **C83.** Every history the verifier accepts, from the commitment of a set `V` on, is one the ideal verifier accepts,
and the final commitment is that of the ideal verifier's final set - or two of the sets involved exhibit a Poseidon
collision. -/
theorem c83_custody {c c' : Fr} {es : List Event} (h : Follows mode c es c') (V : ValidatorSet) (hV : V.CommitsTo c) :
    (∃ V', Ideal V es V' ∧ V'.CommitsTo c') ∨
      ∃ W W' : ValidatorSet, SetCollision W W' ∧ (W = V ∨ ∃ e ∈ es, e.Uses W) ∧ ∃ e ∈ es, e.Uses W' := by
  induction h generalizing V with
  | nil c => exact Or.inl ⟨V, .nil V, hV⟩
  | @transaction c c' pub priv es ha hc _ ih =>
    have h1 : (⟨priv.publicKeys, priv.weights⟩ : ValidatorSet).CommitsTo c := hc ▸ c17_commitment ha
    rcases set_binding hV h1 with rfl | hcol
    · rcases ih _ hV with ⟨V', hi, hV'⟩ | ⟨W, W', hcol, hW, e', he', hW'⟩
      · exact Or.inl ⟨V', .transaction rfl (c14_signed_weight ha) hi, hV'⟩
      · refine Or.inr ⟨W, W', hcol, hW.imp_right ?_, e', List.mem_cons_of_mem _ he', hW'⟩
        rintro ⟨e, he, hu⟩
        exact ⟨e, List.mem_cons_of_mem _ he, hu⟩
    · exact Or.inr ⟨_, _, hcol, Or.inl rfl, _, List.mem_cons_self, .transaction pub priv⟩
  | @rotation c c' pub priv es ha hc _ ih =>
    obtain ⟨h1, h2⟩ := c21_commitments ha
    rw [hc] at h1
    rcases set_binding (V' := ⟨priv.oldPublicKeys, priv.oldWeights⟩) hV h1 with rfl | hcol
    · rcases ih ⟨priv.newPublicKeys, priv.newWeights⟩ h2 with ⟨V', hi, hV'⟩ | ⟨W, W', hcol, hW, e', he', hW'⟩
      · exact Or.inl ⟨V', .rotation rfl (c20_trusted_weight ha) hi, hV'⟩
      · refine Or.inr ⟨W, W', hcol, Or.inr ?_, e', List.mem_cons_of_mem _ he', hW'⟩
        rcases hW with rfl | ⟨e, he, hu⟩
        · exact ⟨_, List.mem_cons_self, .new pub priv⟩
        · exact ⟨e, List.mem_cons_of_mem _ he, hu⟩
    · exact Or.inr ⟨_, _, hcol, Or.inl rfl, _, List.mem_cons_self, .old pub priv⟩

/-- **C83, converse.** Every history of verifying proofs the ideal verifier accepts, the verifier that keeps only the
commitment accepts too, and it ends with the commitment of the ideal verifier's final set. -/
theorem c83_converse {V V' : ValidatorSet} {es : List Event} (h : Ideal V es V') (ha : ∀ e ∈ es, e.Accepted mode) (c : Fr)
    (hV : V.CommitsTo c) : ∃ c', Follows mode c es c' ∧ V'.CommitsTo c' := by
  induction h generalizing c with
  | nil V => exact ⟨c, .nil c, hV⟩
  | @transaction V V' pub priv es hs _ _ ih =>
    have ha1 := ha _ List.mem_cons_self
    obtain ⟨c', hf, hc'⟩ := ih (fun e he => ha e (List.mem_cons_of_mem _ he)) c hV
    refine ⟨c', .transaction ha1 ?_ hf, hc'⟩
    subst hs
    exact isCommitment_unique (c17_commitment ha1) hV
  | @rotation V V' pub priv es hs _ _ ih =>
    have ha1 := ha _ List.mem_cons_self
    obtain ⟨h1, h2⟩ := c21_commitments ha1
    obtain ⟨c', hf, hc'⟩ := ih (fun e he => ha e (List.mem_cons_of_mem _ he)) _ h2
    refine ⟨c', .rotation ha1 ?_ hf, hc'⟩
    subst hs
    exact isCommitment_unique h1 hV

/-- The ideal final set is determined by the history. -/
theorem c83_deterministic {V V₁ V₂ : ValidatorSet} {es : List Event} (h₁ : Ideal V es V₁) (h₂ : Ideal V es V₂) :
    V₁ = V₂ := by
  induction h₁ with
  | nil => cases h₂; rfl
  | transaction _ _ _ ih => cases h₂ with | transaction _ _ h => exact ih h
  | rotation _ _ _ ih => cases h₂ with | rotation _ _ h => exact ih h

/-- Histories compose. -/
theorem c83_append {c c' c'' : Fr} {es es' : List Event} (h : Follows mode c es c') (h' : Follows mode c' es' c'') :
    Follows mode c (es ++ es') c'' := by
  induction h with
  | nil => exact h'
  | transaction ha hc _ ih => exact .transaction ha hc (ih h')
  | rotation ha hc _ ih => exact .rotation ha hc (ih h')

/-! ## C84 -/

open Classical in
/-- **The weights are free.**  Whatever signature and proof carried the keys `old` over to the keys `new` once, carry them
over again from every list of old weights to every list of new weights, with the same bits, signature and signed bytes. -/
theorem c84_reweigh {pub : RotatePublic} {priv : RotatePrivate} (h : RotateAccepted mode pub priv)
    (oldW newW : Fin 10 → Fr) (c c' : Fr)
    (hc : (⟨priv.oldPublicKeys, oldW⟩ : ValidatorSet).CommitsTo c)
    (hc' : (⟨priv.newPublicKeys, newW⟩ : ValidatorSet).CommitsTo c') :
    RotateAccepted mode
      ⟨pub.messageHash, c, c', pub.newApkCommitmentBytes,
        ∑ i, if (priv.bitList i = 1 ∧ priv.newPublicKeys i = priv.oldPublicKeys i) ∨
          (priv.bitList i = 0 ∧ priv.oldPublicKeys i = ⟨fun _ => 0, fun _ => 0⟩) then oldW i else 0⟩
      ⟨oldW, newW, priv.oldPublicKeys, priv.newPublicKeys, priv.bitList, priv.signature⟩ := by
  obtain ⟨bs, e, hf, -, -, -, hrest⟩ := (rotate_cases mode pub priv).1 h
  refine (rotate_cases mode _ _).2 ⟨bs, e, hf, ?_, isCommitment_unique hc (commit_isCommitment _ _),
    isCommitment_unique hc' (commit_isCommitment _ _), hrest⟩
  dsimp only
  refine Finset.sum_congr rfl fun i _ => ?_
  have := counts_iff (priv.oldPublicKeys i) (priv.newPublicKeys i) (bs i)
  rw [show bit (bs i) = priv.bitList i by rw [e]] at this
  by_cases h1 : counts (priv.oldPublicKeys i) (priv.newPublicKeys i) (bs i)
  · rw [if_pos h1, if_pos (this.1 h1)]
  · rw [if_neg h1, if_neg fun h2 => h1 (this.2 h2)]

open Classical in
/-- **C20, without a bound on the weights.** From any accepted rotation with two counted positions one gets an accepted rotation
- same keys, bits, signature and signed bytes, other old weights - that declares trusted weight 0 although the counted old
weights, as integers, add up to the order of the field. -/
theorem c20_wrap {pub : RotatePublic} {priv : RotatePrivate} (h : RotateAccepted mode pub priv) (i j : Fin 10) (hij : i ≠ j)
    (hi : priv.bitList i = 1 ∧ priv.newPublicKeys i = priv.oldPublicKeys i)
    (hj : priv.bitList j = 1 ∧ priv.newPublicKeys j = priv.oldPublicKeys j) :
    ∃ c oldW, RotateAccepted mode { pub with oldApkCommitment := c, trustedWeight := 0 } { priv with oldWeights := oldW } ∧
      (∑ k, if (priv.bitList k = 1 ∧ priv.newPublicKeys k = priv.oldPublicKeys k) ∨
          (priv.bitList k = 0 ∧ priv.oldPublicKeys k = ⟨fun _ => 0, fun _ => 0⟩) then (oldW k).val else 0) = frOrder := by
  obtain ⟨bs, e, hf, hw, hco, hcn, hrest⟩ := (rotate_cases mode pub priv).1 h
  set C : Fin 10 → Prop := fun k => (priv.bitList k = 1 ∧ priv.newPublicKeys k = priv.oldPublicKeys k) ∨
      (priv.bitList k = 0 ∧ priv.oldPublicKeys k = ⟨fun _ => 0, fun _ => 0⟩) with hC
  set w : Fin 10 → Fr := fun k => if k = i then 1 else if k = j then -1 else 0 with hw'
  have split : ∀ (A : Type) [AddCommMonoid A] (f : Fin 10 → A) (P : Fin 10 → Prop) [DecidablePred P], P i → P j → (∀ k, k ≠ i → k ≠ j → f k = 0) →
      (∑ k, if P k then f k else 0) = f i + f j := fun A _ f P _ pi pj h0 => by
    rw [← Finset.sum_subset (Finset.subset_univ {i, j}), Finset.sum_pair hij, if_pos pi, if_pos pj]
    intro k _ hk
    simp only [Finset.mem_insert, Finset.mem_singleton, not_or] at hk
    rw [h0 k hk.1 hk.2, ite_self]
  have wi : w i = 1 := if_pos rfl
  have wj : w j = -1 := by rw [hw']; simp [hij.symm]
  have wk : ∀ k, k ≠ i → k ≠ j → w k = 0 := fun k h1 h2 => by rw [hw']; simp [h1, h2]
  refine ⟨commit priv.oldPublicKeys w, w, ?_, ?_⟩
  · have := c84_reweigh h w priv.newWeights (commit priv.oldPublicKeys w) pub.newCommitment (commit_isCommitment _ _)
      (by rw [hcn]; exact commit_isCommitment _ _)
    have hs := split Fr w C (Or.inl hi) (Or.inl hj) wk
    rw [wi, wj, add_neg_cancel] at hs
    rw [← hs]
    exact this
  · refine (split ℕ (fun k => (w k).val) C (Or.inl hi) (Or.inl hj) fun k h1 h2 => by rw [wk k h1 h2]; rfl).trans ?_
    rw [wi, wj]
    decide +kernel

/-- `old` can be carried over to `new` with all ten positions marked as signers, for some weights -/
def Carries (mode : Mode) (old new : Fin 10 → G1In) : Prop :=
  ∃ pub priv, RotateAccepted mode pub priv ∧ priv.oldPublicKeys = old ∧ priv.newPublicKeys = new ∧
    ∀ i, priv.bitList i = 1

open Classical in
theorem carries_step {old new : Fin 10 → G1In} (h : Carries mode old new) (oldW newW : Fin 10 → Fr) :
    ∃ pub priv, Event.Accepted mode (.rotation pub priv) ∧ priv.oldPublicKeys = old ∧ priv.oldWeights = oldW ∧
      priv.newPublicKeys = new ∧ priv.newWeights = newW ∧ pub.oldApkCommitment = commit old oldW ∧
      pub.newCommitment = commit new newW ∧ pub.trustedWeight = ∑ i, if new i = old i then oldW i else 0 := by
  obtain ⟨pub, priv, ha, rfl, rfl, hb⟩ := h
  refine ⟨_, _, c84_reweigh ha oldW newW _ _ (commit_isCommitment _ _) (commit_isCommitment _ _), rfl, rfl, rfl, rfl, rfl,
    rfl, ?_⟩
  dsimp only
  refine Finset.sum_congr rfl fun i _ => ?_
  rw [hb]
  simp

/-- all weight in one place -/
def concentrate (W : Fr) (k i : Fin 10) : Fr := if i = k then W else 0

theorem concentrate_total (W : Fr) (k : Fin 10) : ∑ i, concentrate W k i = W := by simp [concentrate]

open Classical in
theorem concentrate_trust (W : Fr) (k : Fin 10) {old new : Fin 10 → G1In} (h : new k = old k) :
    (∑ i, if new i = old i then concentrate W k i else 0) = W := by
  refine Eq.trans (Finset.sum_congr rfl fun i _ => ?_) (concentrate_total W k)
  by_cases hi : i = k
  · rw [hi, if_pos h]
  · simp [concentrate, hi]

/-- every rotation of the history declares the whole weight of the set it starts from as trusted -/
def FullTrust (es : List Event) : Prop :=
  ∀ e ∈ es, ∃ pub priv, e = .rotation pub priv ∧ pub.trustedWeight = ∑ i, priv.oldWeights i

/-- **Full trust does not prevent a takeover.**  If the keys `K` can be carried over to themselves, to `K'`, and `K'` to
`K''`, where `K'` shares position 0 with `K` and position 1 with `K''` (nothing else), three rotations, each declaring the
*whole* weight of the set it starts from as trusted, lead from any weights of `K` to any weights of `K''`. -/
theorem c84_takeover {K K' K'' : Fin 10 → G1In} (h1 : Carries mode K K) (h2 : Carries mode K K')
    (h3 : Carries mode K' K'') (h0 : K' 0 = K 0) (h0' : K'' 1 = K' 1) (w w'' : Fin 10 → Fr) (c c'' : Fr)
    (hc : (⟨K, w⟩ : ValidatorSet).CommitsTo c) (hc'' : (⟨K'', w''⟩ : ValidatorSet).CommitsTo c'') :
    ∃ es, Follows mode c es c'' ∧ Ideal ⟨K, w⟩ es ⟨K'', w''⟩ ∧ FullTrust es ∧ es.length = 3 := by
  classical
  obtain rfl := isCommitment_unique hc (commit_isCommitment K w)
  obtain rfl := isCommitment_unique hc'' (commit_isCommitment K'' w'')
  set W := ∑ i, w i with hW
  obtain ⟨p1, q1, a1, k1, w1, n1, v1, o1, m1, t1⟩ := carries_step h1 w (concentrate W 0)
  obtain ⟨p2, q2, a2, k2, w2, n2, v2, o2, m2, t2⟩ := carries_step h2 (concentrate W 0) (concentrate W 1)
  obtain ⟨p3, q3, a3, k3, w3, n3, v3, o3, m3, t3⟩ := carries_step h3 (concentrate W 1) w''
  refine ⟨[.rotation p1 q1, .rotation p2 q2, .rotation p3 q3], ?_, ?_, ?_, rfl⟩
  · refine .rotation a1 o1 (.rotation a2 (by rw [o2, m1]) (.rotation a3 (by rw [o3, m2]) ?_))
    rw [m3]; exact .nil _
  · have e1 := c20_trusted_weight a1
    have e2 := c20_trusted_weight a2
    have e3 := c20_trusted_weight a3
    refine .rotation (by rw [k1, w1]) (by rw [e1, k1, w1]) ?_
    rw [n1, v1]
    refine .rotation (by rw [k2, w2]) (by rw [e2, k2, w2]) ?_
    rw [n2, v2]
    refine .rotation (by rw [k3, w3]) (by rw [e3, k3, w3]) ?_
    rw [n3, v3]; exact .nil _
  · intro e he
    simp only [List.mem_cons, List.not_mem_nil, or_false] at he
    rcases he with rfl | rfl | rfl
    · exact ⟨_, _, rfl, by rw [t1, w1]; simp⟩
    · exact ⟨_, _, rfl, by rw [t2, w2, concentrate_trust W 0 h0, concentrate_total]⟩
    · exact ⟨_, _, rfl, by rw [t3, w3, concentrate_trust W 1 h0', concentrate_total]⟩

/-- Anyone can carry any keys over to any keys `skᵢ•g1` in general position (C82). -/
theorem carries_forged (old : Fin 10 → G1In) {new : Fin 10 → G1In} (sk : Fin 10 → ℕ)
    (hk : ∀ i, Denotes (new i) (sk i • G1gen)) (hg : GeneralPosition (fun i => sk i • G1gen) fun _ => True)
    (hsk : ¬ rOrder ∣ ∑ i, sk i) : Carries mode old new :=
  ⟨_, _, c82_rotation_all_sign (mode := mode) (old := old) sk hk hg hsk (fun _ => 0) (fun _ => 0) (Vector.replicate 32 0)
    (newG2Affine ⟨0, 0⟩) _ _ (commit_isCommitment _ _) (commit_isCommitment _ _), rfl, rfl, fun _ => rfl⟩

/-- So **anyone can replace any validator set by any other**, knowing public keys only, by three rotations that each
declare the whole current weight as trusted. -/
theorem c84_anyone {K K'' : Fin 10 → G1In} (sk sk'' : Fin 10 → ℕ) (hk : ∀ i, Denotes (K i) (sk i • G1gen))
    (hk'' : ∀ i, Denotes (K'' i) (sk'' i • G1gen))
    (hg : GeneralPosition (fun i => sk i • G1gen) fun _ => True)
    (hg' : GeneralPosition (fun i => (if i = 0 then sk 0 else sk'' i) • G1gen) fun _ => True)
    (hg'' : GeneralPosition (fun i => sk'' i • G1gen) fun _ => True)
    (hs : ¬ rOrder ∣ ∑ i, sk i) (hs' : ¬ rOrder ∣ ∑ i, if i = 0 then sk 0 else sk'' i) (hs'' : ¬ rOrder ∣ ∑ i, sk'' i)
    (w w'' : Fin 10 → Fr) (c c'' : Fr)
    (hc : (⟨K, w⟩ : ValidatorSet).CommitsTo c) (hc'' : (⟨K'', w''⟩ : ValidatorSet).CommitsTo c'') :
    ∃ es, Follows mode c es c'' ∧ Ideal ⟨K, w⟩ es ⟨K'', w''⟩ ∧ FullTrust es ∧ es.length = 3 :=
  c84_takeover (K' := fun i => if i = 0 then K 0 else K'' i) (carries_forged K sk hk hg hs)
    (carries_forged K (fun i => if i = 0 then sk 0 else sk'' i) (fun i => by
      by_cases h : i = 0
      · subst h; simpa using hk 0
      · simpa [h] using hk'' i) hg' hs')
    (carries_forged _ sk'' hk'' hg'' hs'') rfl rfl w w'' c c'' hc hc''

/-- Without any dishonest step: whoever knows `x` can carry any keys over to keys that sum to `x•g1`, with the signature
`x•H` (unless the easy part of the Miller value is 1). -/
theorem carries_rogue (old : Fin 10 → G1In) (N : Fin 10 → E1 Fp) (x : ℕ) (hx : ¬ rOrder ∣ x) (hN : ∀ i, N i ≠ 0)
    (hg : GeneralPosition N fun _ => True) (hsum : ∑ i, N i = x • G1gen)
    (msg : Vector Fr 32) (H : ETwist Fp) (hH : (G2.hashToG2 msg).run = some (enc2 H)) (hH0 : H ≠ 0)
    (hHr : rOrder • H = 0)
    (hz : ∀ z, millerLoop [enc1 (-G1gen), enc1 (x • G1gen)] [enc2 (x • H), enc2 H] = .ok (pure z) →
      safeInput z ^ ((fpOrder ^ 6 - 1) * (fpOrder ^ 2 + 1)) ≠ 1) :
    Carries mode old fun i => newG1Affine (enc1 (N i)) := by
  classical
  have hk : ∀ i, Denotes (newG1Affine (enc1 (N i))) (N i) := fun i => c58_denotes _ (hN i)
  obtain ⟨apk, ha, -, hrot⟩ := c19_all_sign (mode := mode) hk hg fun _ => 0
  rw [hsum] at ha
  obtain ⟨z, hm, h⟩ := c23_rotate_complete (mode := mode) (old := old) (fun i => (hk i).1) (fun _ => 1) (fun _ => 0)
    (fun _ => 0) (fun _ => Or.inr rfl) hrot ha
    msg _ H (newG2Affine ⟨0, 0⟩) hH hH0 hHr (smul_ne_of hHr hH0 hx) (order_nsmul hHr x)
    (fun e => hx (Witness.smul_gen_eq_zero e)) ((bls_iff x (order_nsmul hHr x) hHr).2 rfl) _ _ _
    (commit_isCommitment _ _) (commit_isCommitment _ _) rfl
  exact ⟨_, _, ⟨(), (rotateDefine _ _ _).ok _ (h (hz z hm))⟩, rfl, rfl, fun _ => rfl⟩

open Classical in
/-- **Takeover by rogue keys.**  All steps are provable by an honest prover.  From the keys `K`, of which the attacker
holds none: first one validator is replaced (position 9), then the nine others, then the last one; each time the new keys
sum to `x•g1`.  The first rotation declares all weight but that of validator 9 as trusted, the others the whole
weight; the final keys and weights are the attacker's. -/
theorem c84_rogue (K K₁ K₂ K₃ : Fin 10 → E1 Fp) (x : ℕ) (hx : ¬ rOrder ∣ x)
    (hN : ∀ i, K₁ i ≠ 0 ∧ K₂ i ≠ 0 ∧ K₃ i ≠ 0)
    (hg₁ : GeneralPosition K₁ fun _ => True) (hg₂ : GeneralPosition K₂ fun _ => True)
    (hg₃ : GeneralPosition K₃ fun _ => True)
    (hs₁ : ∑ i, K₁ i = x • G1gen) (hs₂ : ∑ i, K₂ i = x • G1gen) (hs₃ : ∑ i, K₃ i = x • G1gen)
    (h₁ : ∀ i, i ≠ 9 → K₁ i = K i) (h₁' : K₁ 9 ≠ K 9) (h₂ : K₂ 9 = K₁ 9) (h₃ : K₃ 0 = K₂ 0)
    (msg : Vector Fr 32) (H : ETwist Fp) (hH : (G2.hashToG2 msg).run = some (enc2 H)) (hH0 : H ≠ 0)
    (hHr : rOrder • H = 0)
    (hz : ∀ z, millerLoop [enc1 (-G1gen), enc1 (x • G1gen)] [enc2 (x • H), enc2 H] = .ok (pure z) →
      safeInput z ^ ((fpOrder ^ 6 - 1) * (fpOrder ^ 2 + 1)) ≠ 1)
    (w w₃ : Fin 10 → Fr) (c c₃ : Fr)
    (hc : (⟨fun i => newG1Affine (enc1 (K i)), w⟩ : ValidatorSet).CommitsTo c)
    (hc₃ : (⟨fun i => newG1Affine (enc1 (K₃ i)), w₃⟩ : ValidatorSet).CommitsTo c₃) :
    ∃ pub priv es, Follows mode c (.rotation pub priv :: es) c₃ ∧ pub.trustedWeight = (∑ i, w i) - w 9 ∧
      FullTrust es ∧ es.length = 2 := by
  obtain rfl := isCommitment_unique hc (commit_isCommitment _ _)
  obtain rfl := isCommitment_unique hc₃ (commit_isCommitment _ _)
  have r₁ := carries_rogue (mode := mode) (fun i => newG1Affine (enc1 (K i))) K₁ x hx (fun i => (hN i).1) hg₁ hs₁ msg H hH
    hH0 hHr hz
  have r₂ := carries_rogue (mode := mode) (fun i => newG1Affine (enc1 (K₁ i))) K₂ x hx (fun i => (hN i).2.1) hg₂ hs₂ msg H
    hH hH0 hHr hz
  have r₃ := carries_rogue (mode := mode) (fun i => newG1Affine (enc1 (K₂ i))) K₃ x hx (fun i => (hN i).2.2) hg₃ hs₃ msg H
    hH hH0 hHr hz
  set W := ∑ i, w i with hW
  obtain ⟨p1, q1, a1, k1, w1, n1, v1, o1, m1, t1⟩ := carries_step r₁ w (concentrate W 9)
  obtain ⟨p2, q2, a2, k2, w2, n2, v2, o2, m2, t2⟩ := carries_step r₂ (concentrate W 9) (concentrate W 0)
  obtain ⟨p3, q3, a3, k3, w3, n3, v3, o3, m3, t3⟩ := carries_step r₃ (concentrate W 0) w₃
  refine ⟨p1, q1, [.rotation p2 q2, .rotation p3 q3], ?_, ?_, ?_, rfl⟩
  · refine .rotation a1 o1 (.rotation a2 (by rw [o2, m1]) (.rotation a3 (by rw [o3, m2]) ?_))
    rw [m3]; exact .nil _
  · rw [t1, eq_sub_iff_add_eq, hW, ← Finset.sum_erase_add _ _ (Finset.mem_univ (9 : Fin 10)),
      ← Finset.sum_erase_add _ w (Finset.mem_univ (9 : Fin 10)), if_neg, add_zero]
    · congr 1
      exact Finset.sum_congr rfl fun i hi => if_pos (by rw [h₁ i (Finset.ne_of_mem_erase hi)])
    · exact fun e => h₁' (enc1_injective (c58_keys.1 e))
  · intro e he
    simp only [List.mem_cons, List.not_mem_nil, or_false] at he
    rcases he with rfl | rfl
    · exact ⟨_, _, rfl, by rw [t2, w2, concentrate_trust W 9 (by rw [h₂]), concentrate_total]⟩
    · exact ⟨_, _, rfl, by rw [t3, w3, concentrate_trust W 0 (by rw [h₃]), concentrate_total]⟩

/-! ## C85 -/

open Classical in
/-- **A transaction signature is a rotation signature.**  Whatever made a transaction acceptable makes a rotation from any
old set to the transaction's keys (with any new weights) acceptable, with the same bits, signature and signed bytes. -/
theorem c85_transaction_to_rotation {pub : TxPublic} {priv : TxPrivate} (h : TxAccepted mode pub priv) (V : ValidatorSet)
    (newW : Fin 10 → Fr) (M : G2In) (c c' : Fr) (hc : V.CommitsTo c)
    (hc' : (⟨priv.publicKeys, newW⟩ : ValidatorSet).CommitsTo c') :
    RotateAccepted mode ⟨M, c, c', priv.msgBytes,
        ∑ i, if (priv.bitList i = 1 ∧ priv.publicKeys i = V.keys i) ∨
          (priv.bitList i = 0 ∧ V.keys i = ⟨fun _ => 0, fun _ => 0⟩) then V.weights i else 0⟩
      ⟨V.weights, newW, V.keys, priv.publicKeys, priv.bitList, priv.signature⟩ := by
  obtain ⟨bs, e, hf, -, -, hs, apk, H, h1, h2, h3⟩ := (tx_cases mode pub priv).1 h
  refine (rotate_cases mode _ _).2 ⟨bs, e, hf, ?_, isCommitment_unique hc (commit_isCommitment _ _),
    isCommitment_unique hc' (commit_isCommitment _ _), hs, apk, H, h1, h2, h3⟩
  dsimp only
  refine Finset.sum_congr rfl fun i _ => ?_
  have := counts_iff (V.keys i) (priv.publicKeys i) (bs i)
  rw [show bit (bs i) = priv.bitList i by rw [e]] at this
  by_cases h1 : counts (V.keys i) (priv.publicKeys i) (bs i)
  · rw [if_pos h1, if_pos (this.1 h1)]
  · rw [if_neg h1, if_neg fun h2 => h1 (this.2 h2)]

/-- **A rotation signature is a transaction signature**, of the new keys, on the signed bytes, with any weights. -/
theorem c85_rotation_to_transaction {pub : RotatePublic} {priv : RotatePrivate} (h : RotateAccepted mode pub priv)
    (weights : Fin 10 → Fr) (M : G2In) (c : Fr)
    (hc : (⟨priv.newPublicKeys, weights⟩ : ValidatorSet).CommitsTo c) :
    TxAccepted mode ⟨M, c, ∑ i, if priv.bitList i = 1 then weights i else 0⟩
      ⟨priv.newPublicKeys, priv.signature, priv.bitList, weights, pub.newApkCommitmentBytes⟩ := by
  obtain ⟨bs, e, hf, -, -, -, hs, apk, H, h1, h2, h3⟩ := (rotate_cases mode pub priv).1 h
  refine (tx_cases mode _ _).2 ⟨bs, e, hf, ?_, isCommitment_unique hc (commit_isCommitment _ _), hs, apk, H, h1, h2, h3⟩
  dsimp only
  rw [e]
  exact Finset.sum_congr rfl fun i _ => by simp only [bits_eq]

/-- In particular one signed transaction lets anyone change all weights of its validator set: the rotation from the set to
itself with any new weights is accepted, and if all ten signed, its trusted weight is the whole weight. -/
theorem c85_reweigh {pub : TxPublic} {priv : TxPrivate} (h : TxAccepted mode pub priv) (hall : ∀ i, priv.bitList i = 1)
    (newW : Fin 10 → Fr) (M : G2In) (c' : Fr) (hc' : (⟨priv.publicKeys, newW⟩ : ValidatorSet).CommitsTo c') :
    RotateAccepted mode ⟨M, pub.apkCommitment, c', priv.msgBytes, ∑ i, priv.weights i⟩
      ⟨priv.weights, newW, priv.publicKeys, priv.publicKeys, priv.bitList, priv.signature⟩ := by
  have := c85_transaction_to_rotation h ⟨priv.publicKeys, priv.weights⟩ newW M _ c' (c17_commitment h) hc'
  simpa [hall] using this

/-! ## the hypotheses are met -/

/-- a history of a transaction and a rotation of the example keys -/
theorem ex_history (M : G2In) : ∃ es c', Follows mode (commit exKeys fun _ => 100) es c' ∧ es.length = 2 ∧
    (⟨exKeys, fun _ => 100⟩ : ValidatorSet).CommitsTo (commit exKeys fun _ => 100) :=
  ⟨[.transaction (exPub M fun _ => 100) (exPriv fun _ => 100),
      .rotation (exRotPub M (fun _ => 100) (fun _ => 7) G2.exMsg) (exRotPriv (fun _ => 100) fun _ => 7)], _,
    .transaction (ex_accepted M _) rfl (.rotation (ex_rotate_accepted M _ _ _) rfl (.nil _)), rfl,
    commit_isCommitment _ _⟩

/-- secret keys of the attackers -/
def skAttack (i : Fin 10) : ℕ := 3 * 2 ^ i.val

theorem general_all {sk : Fin 10 → ℕ}
    (h : ∀ i : Fin 10, (∃ j, j < i) → (∑ j, if j < i then sk j else 0) ≠ sk i ∧
      0 < (∑ j, if j < i then sk j else 0) ∧ (∑ j, if j < i then sk j else 0) < 2000 ∧ sk i < 2000) :
    GeneralPosition (fun i => sk i • G1gen) fun _ => True := by
  have := general_of_secret (sk := sk) (bs := fun _ => true) (fun i _ hj => by
    simpa using h i (by obtain ⟨j, hj, -⟩ := hj; exact ⟨j, hj⟩))
  simpa using this

/-- The example set, held by ten honest validators, is replaced by a set of which the attackers hold all keys. -/
theorem c84_example (w w'' : Fin 10 → Fr) :
    ∃ es, Follows mode (commit exKeys w) es (commit (fun i => newG1Affine (enc1 (skAttack i • G1gen))) w'') ∧
      FullTrust es ∧ es.length = 3 := by
  obtain ⟨es, h1, -, h2, h3⟩ := c84_anyone (mode := mode) (K := exKeys)
    (K'' := fun i => newG1Affine (enc1 (skAttack i • G1gen))) (fun i => 2 ^ i.val) skAttack exKeys_denote
    (fun i => c58_denotes _ (Witness.smul_ne (by revert i; decide)
      (lt_of_lt_of_le (by revert i; decide : skAttack i < 5000) Witness.big.le)))
    (Witness.key_general _) (general_all (by decide)) (general_all (by decide))
    (by decide +kernel) (by decide +kernel) (by decide +kernel) w w'' _ _ (commit_isCommitment _ _)
    (commit_isCommitment _ _)
  exact ⟨es, h1, h2, h3⟩

/-- the keys after the second and the third rotation of the rogue takeover -/
def skRogue2 : Fin 10 → ℕ := ![3, 5, 9, 18, 33, 65, 129, 100, 149, 512]
def skRogue3 : Fin 10 → ℕ := ![3, 6, 10, 20, 40, 80, 160, 320, 200, 184]

/-- The validator set `victims` of C67 is taken over without any dishonest proof step. -/
theorem c84_rogue_example (w w₃ : Fin 10 → Fr) :
    ∃ pub priv es, Follows mode (commit (fun i => newG1Affine (enc1 (victims i))) w) (.rotation pub priv :: es)
        (commit (fun i => newG1Affine (enc1 (skRogue3 i • G1gen))) w₃) ∧
      pub.trustedWeight = (∑ i, w i) - w 9 ∧ FullTrust es ∧ es.length = 2 := by
  have hne : ∀ n : ℕ, n ≠ 0 → n < 2000 → n • G1gen ≠ 0 := fun n h0 h =>
    Witness.smul_ne h0 (lt_of_lt_of_le h (le_trans (by norm_num) Witness.big.le))
  refine c84_rogue victims Witness.key (fun i => skRogue2 i • G1gen) (fun i => skRogue3 i • G1gen) 1023
    (by decide +kernel)
    (fun i => ⟨Witness.key_ne i, hne _ (by revert i; decide) (by revert i; decide),
      hne _ (by revert i; decide) (by revert i; decide)⟩) (Witness.key_general _)
    (general_all (by decide)) (general_all (by decide)) Witness.sum_keys ?_ ?_ ?_ victims_last ?_ ?_
    _ _ H_hash Witness.H_ne Witness.H_order (fun z hm => ex_z (by rw [Witness.sum_keys]; exact hm)) w w₃ _ _
    (commit_isCommitment _ _) (commit_isCommitment _ _)
  · rw [sum_nsmul' skRogue2 G1gen, show ∑ i, skRogue2 i = 1023 by decide]
  · rw [sum_nsmul' skRogue3 G1gen, show ∑ i, skRogue3 i = 1023 by decide]
  · intro i hi
    rw [victims, if_pos]
    have := i.2
    have h9 : i.val ≠ 9 := fun h => hi (Fin.ext h)
    omega
  · rw [Witness.key, show skRogue2 9 = 2 ^ (9 : Fin 10).val by decide]
  · rw [show skRogue3 0 = skRogue2 0 by decide]

/-- the hypotheses of C85 -/
example (M : G2In) : TxAccepted mode (exPub M fun _ => 100) (exPriv fun _ => 100) ∧
    (∀ i, (exPriv fun _ => 100).bitList i = 1) ∧
    RotateAccepted mode (exRotPub M (fun _ => 100) (fun _ => 7) G2.exMsg) (exRotPriv (fun _ => 100) fun _ => 7) :=
  ⟨ex_accepted M _, fun _ => rfl, ex_rotate_accepted M _ _ _⟩

end Spark.HistoryProps
