import Verif.Props.Groups
import Verif.Lemmas.CompiledAgg
import Verif.Lemmas.CompiledExact

/-!
# C19, C63 in the compiled circuit

In the compiled circuit a validator who does not sign contributes the pair `(0, 0)`, which is added with the chord
formula.  This file says for which sets of signers the aggregated key is right all the same.
-/

namespace Spark.CircuitProps
open Spark Circ Spec Circuit Pairing PairingProps GroupProps
open scoped BigOperators
set_option maxRecDepth 100000

/-- One of the first two validators signs, and every signer but the first has an even number of non-signers before
it. -/
def EvenGaps (signs : Fin 10 → Prop) : Prop := open Classical in
  (signs 0 ∨ signs 1) ∧ ∀ i, signs i → (∃ j, j < i ∧ signs j) →
    Even (Finset.univ.filter fun j : Fin 10 => j < i ∧ ¬ signs j).card

/-- the number of validators who do not sign -/
noncomputable def absentees (signs : Fin 10 → Prop) : ℕ := open Classical in
  (Finset.univ.filter fun j : Fin 10 => ¬ signs j).card

theorem goodPattern_iff (bs : Fin 10 → Bool) : GoodPattern bs ↔ EvenGaps fun i => bs i = true := by
  rw [GoodPattern, EvenGaps]
  refine and_congr Iff.rfl (forall_congr' fun i => imp_congr_right fun _ => imp_congr_right fun _ => ?_)
  refine iff_of_eq (congrArg Even (congrArg Finset.card ?_))
  ext j; simp

theorem absent_nine (bs : Fin 10 → Bool) : absent bs 9 = absentees fun i => bs i = true := by
  rw [absent, absentees]
  congr 1
  ext j
  have : j.val ≤ 9 := by omega
  simp [this]

theorem bits_exist {bits : Fin 10 → Fr} (hb : ∀ i, bits i = 0 ∨ bits i = 1) :
    ∃ bs : Fin 10 → Bool, bits = fun i => bit (bs i) :=
  ⟨fun i => decide (bits i = 1), funext fun i => by rcases hb i with e | e <;> simp [e]⟩

/-- **Compiled circuit, even gaps.** Keys of order `r` in general position, any set of signers with even gaps: if the
number of non-signers is even the aggregated key is the sum `(x, y)` of the signers' keys, if it is odd it is
`(4/x², -4y/x³)`, whatever the prover does. -/
theorem c19_compiled_gaps {keys : Fin 10 → G1In} {K : Fin 10 → E1 Fp} (hk : ∀ i, Denotes (keys i) (K i))
    (hr : ∀ i, rOrder • K i = 0) (bits : Fin 10 → Fr) (hb : ∀ i, bits i = 0 ∨ bits i = 1)
    (hg : GeneralPosition K fun i => bits i = 1) (he : EvenGaps fun i => bits i = 1) :
    ∃ x y, enc1 (signersSum K fun i => bits i = 1) = ⟨x, y⟩ ∧ x ≠ 0 ∧
      ∃ apk : G1Var, aggregatePublicKeysRotate .compiled keys bits = pure apk ∧
        (Even (absentees fun i => bits i = 1) → (apk.X, apk.Y) = (x, y)) ∧
        (¬ Even (absentees fun i => bits i = 1) → (apk.X, apk.Y) = (4 / x ^ 2, -(4 * y) / x ^ 3)) := by
  obtain ⟨bs, rfl⟩ := bits_exist hb
  simp only [bits_eq] at *
  obtain ⟨x, y, hp, hx, h⟩ := compiled_pattern hk ((goodPattern_iff bs).2 he) hg hr
  refine ⟨x, y, enc1_pt hp, hx, _, by rw [aggregateRotate_eq _ _ fun i => (hk i).1, h], fun e => ?_, fun e => ?_⟩
  · rw [← absent_nine, Nat.even_iff] at e
    rw [phiIter, if_pos e]
  · rw [← absent_nine, Nat.even_iff] at e
    rw [phiIter, if_neg e, phi]

/-- **Compiled circuit, the first two validators do not sign**: the honest prover fails, whoever else signs. -/
theorem c19_compiled_two_absent {keys : Fin 10 → G1In} (hf : ∀ i, (keys i).Fits) (bits weights : Fin 10 → Fr)
    (hb : ∀ i, bits i = 0 ∨ bits i = 1) (h0 : bits 0 = 0) (h1 : bits 1 = 0) (t : Fr) :
    (aggregatePublicKeysRotate .compiled keys bits).run = none ∧
      (aggregatePublicKeys .compiled keys bits weights t).run = none := by
  obtain ⟨bs, rfl⟩ := bits_exist hb
  have e : ∀ i, bit (bs i) = 0 → bs i = false := fun i h => by cases hbi : bs i <;> simp_all
  have := compiled_two_absent keys (e 0 h0) (e 1 h1)
  refine ⟨by rw [aggregateRotate_eq _ _ hf, this], ?_⟩
  rw [aggregate_eq _ _ _ _ hf, run_bind, this]
  cases (assert ((∑ i, if bs i then weights i else 0) = t)).run <;> rfl

open Classical in
/-- **Compiled circuit, an odd gap before the last validator**: the last validator signs and the set of the other
signers has even gaps but an odd number of non-signers.  Then the aggregated key is not the sum of the signers' keys
(exceptional keys apart). -/
theorem c19_compiled_odd_gap {keys : Fin 10 → G1In} {K : Fin 10 → E1 Fp} (hk : ∀ i, Denotes (keys i) (K i))
    (hr : ∀ i, rOrder • K i = 0) (bits : Fin 10 → Fr) (hb : ∀ i, bits i = 0 ∨ bits i = 1) (h9 : bits 9 = 1)
    (hg : GeneralPosition K fun i => bits i = 1) (he : EvenGaps fun i => i ≠ 9 ∧ bits i = 1)
    (ho : ¬ Even (absentees fun i => bits i = 1))
    (hx : ∀ x y, Pt (signersSum K fun i => i < 9 ∧ bits i = 1) x y → x ^ 3 ≠ 4 ∧ 4 / x ^ 2 ≠ (keys 9).X.val)
    (h3 : signersSum K (fun i => bits i = 1) ≠ -K 9) :
    ∃ apk : G1Var, aggregatePublicKeysRotate .compiled keys bits = pure apk ∧
      ⟨apk.X, apk.Y⟩ ≠ enc1 (signersSum K fun i => bits i = 1) := by
  obtain ⟨bs, rfl⟩ := bits_exist hb
  simp only [bits_eq] at *
  obtain ⟨v, h, hv⟩ := compiled_odd_gap hk h9 ((goodPattern_iff _).2 (by
    have : (fun i => dropLast bs i = true) = fun i => i ≠ 9 ∧ bs i = true := by
      funext i; simp [dropLast, and_comm]
    rw [this]; exact he)) hg hr (by rw [absent_nine]; exact Nat.not_even_iff.1 ho) hx h3
  refine ⟨v, by rw [aggregateRotate_eq _ _ fun i => (hk i).1, h], fun e => hv ?_⟩
  have h0 : signersSum K (fun i => bs i = true) ≠ 0 := fun e0 => by
    have hsum := signersSum_succ K (fun i => bs i = true) 9
    rw [if_pos h9, signersSum_congr (s := fun j => j ≤ 9 ∧ bs j = true) (t := fun i => bs i = true) fun j =>
      and_iff_right (Fin.le_last j), e0] at hsum
    obtain ⟨j, hj⟩ : ∃ j, j < 9 ∧ bs j = true := by
      rcases he.1 with h | h
      · exact ⟨0, by decide, h.2⟩
      · exact ⟨1, by decide, h.2⟩
    exact (hg 9 h9 ⟨j, hj⟩).2 (eq_neg_of_add_eq_zero_left hsum)
  rcases hS : signersSum K (fun i => bs i = true) with _ | ⟨x, y, hns⟩
  · exact absurd hS h0
  · rw [hS] at e
    obtain ⟨e1, e2⟩ := G1Affine.mk.inj e
    rw [e1, e2]
    exact ⟨_, rfl⟩

/-- **Honest transactions in the compiled circuit**: accepted when the signers have even gaps and the number of
non-signers is even (and, as always, the easy part of the Miller value is not 1). -/
theorem c63_compiled {keys : Fin 10 → G1In} (sk : Fin 10 → ℕ) (hk : ∀ i, Denotes (keys i) (sk i • G1gen))
    (bits weights : Fin 10 → Fr) (hb : ∀ i, bits i = 0 ∨ bits i = 1)
    (hg : GeneralPosition (fun i => sk i • G1gen) fun i => bits i = 1) (he : EvenGaps fun i => bits i = 1)
    (ha : Even (absentees fun i => bits i = 1))
    (msg : Vector Fr 32) (H : ETwist Fp) (M : G2In)
    (hH : (G2.hashToG2 msg).run = some (enc2 H)) (hH0 : H ≠ 0) (hHr : rOrder • H = 0)
    (hsk : ¬ rOrder ∣ secretSum sk fun i => bits i = 1) (c : Fr)
    (hc : IsCommitment (fun i => (keys i).X) (fun i => (keys i).Y) weights c) :
    ∃ z, millerLoop [enc1 (-G1gen), enc1 (signersSum (fun i => sk i • G1gen) fun i => bits i = 1)]
        [enc2 (aggregateSignature sk (fun i => bits i = 1) H), enc2 H] = .ok (pure z) ∧
      (safeInput z ^ ((fpOrder ^ 6 - 1) * (fpOrder ^ 2 + 1)) ≠ 1 →
        (txDefine .compiled ⟨M, c, ∑ i, if bits i = 1 then weights i else 0⟩
          ⟨keys, newG2Affine (enc2 (aggregateSignature sk (fun i => bits i = 1) H)), bits, weights, msg⟩).run =
            some ()) := by
  have hr : ∀ i, rOrder • (sk i • G1gen) = 0 := fun i => by
    rw [smul_comm, Witness.G1gen_order, nsmul_zero]
  obtain ⟨x, y, hs, hx, apk, hagg, h1, -⟩ := c19_compiled_gaps hk hr bits hb hg he
  obtain ⟨eX, eY⟩ := Prod.mk.inj (h1 ha)
  have hS0 : aggregateSignature sk (fun i => bits i = 1) H ≠ 0 := fun e => by
    rw [aggregateSignature_eq] at e
    exact smul_ne_of hHr hH0 hsk e
  refine c23_complete_of_key (fun i => (hk i).1) bits weights hb hagg (by rw [hs, eX, eY]) msg _ H M hH hH0 hHr hS0 ?_ ?_
    (c63_equation _ _ _ hHr) c hc
  · rw [aggregateSignature_eq]; exact order_nsmul hHr _
  · rw [signersSum_secret]
    exact fun e => hsk (Witness.smul_gen_eq_zero e)

/-- **Honest rotations**: the signers among the new validators sign the hash of the signed bytes; accepted in the test
engine always, in the compiled circuit when the signers have even gaps and the number of non-signers is even (with the
trusted weight of C20, unless the easy part of the Miller value is 1). -/
theorem c63_rotation {mode : Mode} {old new : Fin 10 → G1In} (sk : Fin 10 → ℕ)
    (hk : ∀ i, Denotes (new i) (sk i • G1gen)) (bits oldW newW : Fin 10 → Fr) (hb : ∀ i, bits i = 0 ∨ bits i = 1)
    (hg : GeneralPosition (fun i => sk i • G1gen) fun i => bits i = 1)
    (hmode : mode = .engine ∨
      (EvenGaps (fun i => bits i = 1) ∧ Even (absentees fun i => bits i = 1)))
    (msg : Vector Fr 32) (H : ETwist Fp) (M : G2In)
    (hH : (G2.hashToG2 msg).run = some (enc2 H)) (hH0 : H ≠ 0) (hHr : rOrder • H = 0)
    (hsk : ¬ rOrder ∣ secretSum sk fun i => bits i = 1) (c c' tw : Fr)
    (hc : IsCommitment (fun i => (old i).X) (fun i => (old i).Y) oldW c)
    (hc' : IsCommitment (fun i => (new i).X) (fun i => (new i).Y) newW c')
    (htw : tw = ∑ i, open Classical in
      if (bits i = 1 ∧ new i = old i) ∨ (bits i = 0 ∧ old i = ⟨fun _ => 0, fun _ => 0⟩) then oldW i else 0) :
    ∃ z, millerLoop [enc1 (-G1gen), enc1 (signersSum (fun i => sk i • G1gen) fun i => bits i = 1)]
        [enc2 (aggregateSignature sk (fun i => bits i = 1) H), enc2 H] = .ok (pure z) ∧
      (safeInput z ^ ((fpOrder ^ 6 - 1) * (fpOrder ^ 2 + 1)) ≠ 1 →
        (rotateDefine mode ⟨M, c, c', msg, tw⟩
          ⟨oldW, newW, old, new, bits, newG2Affine (enc2 (aggregateSignature sk (fun i => bits i = 1) H))⟩).run =
            some ()) := by
  have hr : ∀ i, rOrder • (sk i • G1gen) = 0 := fun i => by
    rw [smul_comm, Witness.G1gen_order, nsmul_zero]
  have hS0 : aggregateSignature sk (fun i => bits i = 1) H ≠ 0 := fun e => by
    rw [aggregateSignature_eq] at e
    exact smul_ne_of hHr hH0 hsk e
  have hA0 : signersSum (fun i => sk i • G1gen) (fun i => bits i = 1) ≠ 0 := by
    rw [signersSum_secret]
    exact fun e => hsk (Witness.smul_gen_eq_zero e)
  obtain ⟨apk, hagg, ha⟩ : ∃ apk : G1Var, aggregatePublicKeysRotate mode new bits = pure apk ∧
      ⟨apk.X, apk.Y⟩ = enc1 (signersSum (fun i => sk i • G1gen) fun i => bits i = 1) := by
    cases mode with
    | engine =>
      obtain ⟨apk, e1, -, e2⟩ := c19_engine_partial hk bits oldW hb hg
      exact ⟨apk, e2, e1⟩
    | compiled =>
      obtain ⟨he, hev⟩ := hmode.resolve_left (by simp)
      obtain ⟨x, y, hs, -, apk, hagg, h1, -⟩ := c19_compiled_gaps hk hr bits hb hg he
      obtain ⟨eX, eY⟩ := Prod.mk.inj (h1 hev)
      exact ⟨apk, hagg, by rw [hs, eX, eY]⟩
  refine c23_rotate_complete (fun i => (hk i).1) bits oldW newW hb hagg ha msg _ H M hH hH0 hHr hS0 ?_ hA0
    (c63_equation _ _ _ hHr) c c' tw hc hc' htw
  rw [aggregateSignature_eq]; exact order_nsmul hHr _

/-! ## the hypotheses are met -/

/-- `3•g1` -/
def x3 : ℕ := 1527649530533633684281386512094328299672026648504329745640827351945739272160755686119065091946435084697047221031460
def y3 : ℕ := 487897572011753812113448064805964756454529228648704488481988876974355015977479905373670519228592356747638779818193
/-- `512•g1` -/
def x512 : ℕ := 1464733811480880365756823983652934221038376387086964207528158715382090188051399922892088849793991651732475097826304
def y512 : ℕ := 3543908587179019726059393744992162672139340738612233066644025328097458826387431298485743704624245262771735514404799

/-- validators 1 and 2 do not sign -/
def patA (i : Fin 10) : Bool := decide (i ≠ 1 ∧ i ≠ 2)
/-- secret keys whose signers' sum is 1023 -/
def skA : Fin 10 → ℕ := ![1, 5, 5, 2, 4, 8, 16, 32, 64, 896]
/-- only validators 0, 1 and 9 sign -/
def patB (i : Fin 10) : Bool := decide (i = 0 ∨ i = 1 ∨ i = 9)

theorem smul_gen_inj {a b : ℕ} (h : a ≠ b) (ha : a < 2000) (hb : b < 2000) : a • G1gen ≠ b • G1gen := fun e => by
  have := Witness.big
  rcases Nat.lt_or_gt_of_ne h with h | h
  · exact Witness.smul_ne (n := b - a) (by omega) (by omega) (Witness.smul_diff h e)
  · exact Witness.smul_ne (n := a - b) (by omega) (by omega) (Witness.smul_diff h e.symm)

theorem smul_gen_neg {a b : ℕ} (h : 0 < a) (ha : a < 2000) (hb : b < 2000) : a • G1gen ≠ -(b • G1gen) := fun e => by
  have := Witness.big
  refine Witness.smul_ne (n := a + b) (by omega) (by omega) ?_
  rw [add_nsmul, e, neg_add_cancel]

/-- general position of small multiples of the generator, by their secret keys -/
theorem general_of_secret {sk : Fin 10 → ℕ} {bs : Fin 10 → Bool}
    (h : ∀ i, bs i = true → (∃ j, j < i ∧ bs j = true) →
      (∑ j, if (j < i && bs j) = true then sk j else 0) ≠ sk i ∧
      0 < (∑ j, if (j < i && bs j) = true then sk j else 0) ∧
      (∑ j, if (j < i && bs j) = true then sk j else 0) < 2000 ∧ sk i < 2000) :
    GeneralPosition (fun i => sk i • G1gen) fun i => bs i = true := by
  intro i hi hj
  obtain ⟨h1, h2, h3, h4⟩ := h i hi hj
  have e : signersSum (fun i => sk i • G1gen) (fun j => j < i ∧ bs j = true) =
      (∑ j, if (j < i && bs j) = true then sk j else 0) • G1gen := by
    classical
    rw [signersSum, ← sum_ite_nsmul]
    exact Finset.sum_congr rfl fun j _ => by simp
  rw [e]
  exact ⟨smul_gen_inj h1 h3 h4, smul_gen_neg h2 h3 h4⟩

theorem patA_gaps : EvenGaps fun i => bit (patA i) = 1 := by
  simp only [bits_eq]
  exact (goodPattern_iff patA).1 (by unfold GoodPattern; decide)

theorem patA_absent : Even (absentees fun i => bit (patA i) = 1) := by
  simp only [bits_eq]
  rw [← absent_nine]; decide

theorem skA_general : GeneralPosition (fun i => skA i • G1gen) fun i => bit (patA i) = 1 := by
  simp only [bits_eq]
  exact general_of_secret (by decide)

theorem secret_bits (sk : Fin 10 → ℕ) (bs : Fin 10 → Bool) :
    secretSum sk (fun i => bit (bs i) = 1) = ∑ i, if bs i = true then sk i else 0 := by
  classical
  rw [secretSum]
  exact Finset.sum_congr rfl fun i _ => by simp only [bits_eq]

theorem skA_sum : secretSum skA (fun i => bit (patA i) = 1) = 1023 := by
  rw [secret_bits]; decide

/-- `c63_compiled` applies: validators 1 and 2 absent, the others sign the example message; the transaction is accepted
by the compiled circuit. -/
theorem c63_compiled_example (M : G2In) (weights : Fin 10 → Fr) :
    (txDefine .compiled ⟨M, commit (fun i => newG1Affine (enc1 (skA i • G1gen))) weights,
        ∑ i, if bit (patA i) = 1 then weights i else 0⟩
      ⟨fun i => newG1Affine (enc1 (skA i • G1gen)), newG2Affine (enc2 exSig), fun i => bit (patA i), weights,
        HashProps.msgVars G2.exMsg⟩).run = some () := by
  have hd : ∀ i, Denotes (newG1Affine (enc1 (skA i • G1gen))) (skA i • G1gen) := fun i =>
    c58_denotes _ (Witness.smul_ne (by revert i; decide)
      (lt_of_lt_of_le (by revert i; decide : skA i < 5000) Witness.big.le))
  have hS : aggregateSignature skA (fun i => bit (patA i) = 1) Witness.Hpt = exSig := by
    rw [aggregateSignature_eq, skA_sum]; rfl
  obtain ⟨z, hm, h⟩ := c63_compiled skA hd (fun i => bit (patA i)) weights (fun i => by cases patA i <;> simp)
    skA_general patA_gaps patA_absent _ _ M H_hash Witness.H_ne Witness.H_order (by rw [skA_sum]; decide +kernel) _
    (commit_isCommitment _ _)
  rw [hS] at hm h
  refine h (ex_z ?_)
  rw [signersSum_secret, skA_sum] at hm
  rw [Witness.sum_keys]; exact hm


/-- `c63_rotation` applies, in both modes: the same signers, any old validators and weights. -/
theorem c63_rotation_example {mode : Mode} (M : G2In) (old : Fin 10 → G1In) (oldW newW : Fin 10 → Fr) :
    ∃ tw, (rotateDefine mode ⟨M, commit old oldW, commit (fun i => newG1Affine (enc1 (skA i • G1gen))) newW,
        HashProps.msgVars G2.exMsg, tw⟩
      ⟨oldW, newW, old, fun i => newG1Affine (enc1 (skA i • G1gen)), fun i => bit (patA i),
        newG2Affine (enc2 exSig)⟩).run = some () := by
  have hd : ∀ i, Denotes (newG1Affine (enc1 (skA i • G1gen))) (skA i • G1gen) := fun i =>
    c58_denotes _ (Witness.smul_ne (by revert i; decide)
      (lt_of_lt_of_le (by revert i; decide : skA i < 5000) Witness.big.le))
  have hS : aggregateSignature skA (fun i => bit (patA i) = 1) Witness.Hpt = exSig := by
    rw [aggregateSignature_eq, skA_sum]; rfl
  obtain ⟨z, hm, h⟩ := c63_rotation (mode := mode) (old := old) skA hd (fun i => bit (patA i)) oldW newW
    (fun i => by cases patA i <;> simp)
    skA_general (Or.inr ⟨patA_gaps, patA_absent⟩) _ _ M H_hash Witness.H_ne Witness.H_order
    (by rw [skA_sum]; decide +kernel) _ _ _
    (commit_isCommitment _ _) (commit_isCommitment _ _) rfl
  rw [hS] at hm h
  refine ⟨_, h (ex_z ?_)⟩
  rw [signersSum_secret, skA_sum] at hm
  rw [Witness.sum_keys]; exact hm

theorem pt3 : Pt (3 • G1gen) (x3 : Fp) (y3 : Fp) :=
  gen_mul_pt 3 1 (by decide +kernel) (by decide) (by decide +kernel) (by decide +kernel)
theorem pt512 : Pt (512 • G1gen) (x512 : Fp) (y512 : Fp) :=
  gen_mul_pt 512 9 (by decide +kernel) (by decide) (by decide +kernel) (by decide +kernel)

/-- the claim of C19 also fails of the compiled circuit when validators 0, 1 and 9 sign, with secret keys 1, 2, 512 -/
theorem c19_compiled_odd_gap_example : ∃ apk : G1Var,
    aggregatePublicKeysRotate .compiled exKeys (fun i => bit (patB i)) = pure apk ∧
      ⟨apk.X, apk.Y⟩ ≠ enc1 (515 • G1gen) := by
  have hs : signersSum Witness.key (fun i => bit (patB i) = 1) = 515 • G1gen := by
    have := signersSum_secret (fun i : Fin 10 => 2 ^ i.val) fun i => bit (patB i) = 1
    rw [secret_bits] at this
    exact this.trans (congrArg (· • G1gen) (by decide))
  have hs3 : signersSum Witness.key (fun i => i < 9 ∧ bit (patB i) = 1) = 3 • G1gen := by
    have := signersSum_secret (fun i : Fin 10 => 2 ^ i.val) fun i => bit (decide (i < 9) && patB i) = 1
    rw [secret_bits] at this
    refine Eq.trans (signersSum_congr fun i => ?_) (this.trans (congrArg (· • G1gen) (by decide)))
    rw [bits_eq, bits_eq (fun i => decide (i < 9) && patB i)]; simp
  have h512 : (exKeys 9).X.val = (x512 : Fp) := by
    exact ((exKeys_denote 9).2.unique pt512).1
  have := c19_compiled_odd_gap exKeys_denote (K := Witness.key)
    (fun i => by rw [Witness.key, smul_comm, Witness.G1gen_order, nsmul_zero])
    (fun i => bit (patB i)) (fun i => by cases patB i <;> simp) rfl (Witness.key_general _)
    (by
      simp only [bits_eq]
      have := (goodPattern_iff (dropLast patB)).1 (by unfold GoodPattern; decide)
      have e : (fun i => dropLast patB i = true) = fun i => i ≠ 9 ∧ patB i = true := by
        funext i; simp [dropLast, and_comm]
      rwa [e] at this)
    (by simp only [bits_eq]; rw [← absent_nine]; decide)
    (by
      intro x y hp
      rw [hs3] at hp
      obtain ⟨rfl, rfl⟩ := hp.unique pt3
      rw [h512]
      constructor <;> decide +kernel)
    (by rw [hs]; exact smul_gen_neg (by norm_num) (by norm_num) (by norm_num))
  rwa [hs] at this

/-! ## exactly which sets of signers are aggregated correctly -/

theorem absentees_even (bs : Fin 10 → Bool) : Even (absentees fun i => bit (bs i) = 1) ↔ absent bs 9 % 2 = 0 := by
  simp only [bits_eq]
  rw [← absent_nine, Nat.even_iff]

theorem evenGaps_bits (bs : Fin 10 → Bool) : EvenGaps (fun i => bit (bs i) = 1) ↔ GoodPattern bs := by
  simp only [bits_eq]
  exact (goodPattern_iff bs).symm

/-- **Compiled circuit, all sets of signers, the keys `2^i • g1`.** The honest prover obtains the sum of the signers'
keys exactly if the signers have even gaps and the number of non-signers is even. -/
theorem c19_compiled_sharp (bits : Fin 10 → Fr) (hb : ∀ i, bits i = 0 ∨ bits i = 1) :
    (∃ apk : G1Var, (aggregatePublicKeysRotate .compiled exKeys bits).run = some apk ∧
      ⟨apk.X, apk.Y⟩ = enc1 (signersSum Witness.key fun i => bits i = 1)) ↔
    EvenGaps (fun i => bits i = 1) ∧ Even (absentees fun i => bits i = 1) := by
  constructor
  · rintro ⟨apk, hrun, henc⟩
    obtain ⟨bs, rfl⟩ := bits_exist hb
    by_contra hbad
    rw [evenGaps_bits, absentees_even] at hbad
    rw [aggregateRotate_eq _ _ fun i => (exKeys_denote i).1] at hrun
    by_cases h01 : bs 0 = true ∨ bs 1 = true
    · obtain ⟨v, w, hv, hw, hne⟩ := compiled_ne_engine exKeys_denote h01 hbad
      obtain ⟨u, hu, -, hu2⟩ := c19_engine_partial exKeys_denote _ (fun _ => 0) hb (Witness.key_general _)
      rw [aggregateRotate_eq _ _ fun i => (exKeys_denote i).1, hw] at hu2
      obtain rfl := Witness.pure_inj hu2
      rw [hv, run_pure] at hrun
      obtain rfl := Option.some.inj hrun
      rw [← hu] at henc
      exact hne (Prod.ext (G1Affine.mk.inj henc).1 (G1Affine.mk.inj henc).2)
    · rw [not_or, Bool.not_eq_true, Bool.not_eq_true] at h01
      rw [compiled_two_absent exKeys h01.1 h01.2] at hrun
      cases hrun
  · rintro ⟨he, ha⟩
    obtain ⟨x, y, hs, -, apk, hagg, h1, -⟩ := c19_compiled_gaps exKeys_denote (K := Witness.key)
      (fun i => by rw [Witness.key, smul_comm, Witness.G1gen_order, nsmul_zero]) bits hb (Witness.key_general _) he
    obtain ⟨eX, eY⟩ := Prod.mk.inj (h1 ha)
    exact ⟨apk, by rw [hagg, run_pure], by rw [hs, eX, eY]⟩

/-- **Compiled circuit: the sets of signers for which C19 holds.** For a set of signers, the aggregated key is the sum
of the signers' keys for all keys of order `r` in general position exactly if the signers have even gaps and the
number of non-signers is even. -/
theorem c19_compiled_iff (bits : Fin 10 → Fr) (hb : ∀ i, bits i = 0 ∨ bits i = 1) :
    (∀ (keys : Fin 10 → G1In) (K : Fin 10 → E1 Fp), (∀ i, Denotes (keys i) (K i)) → (∀ i, rOrder • K i = 0) →
      GeneralPosition K (fun i => bits i = 1) →
      ∃ apk : G1Var, aggregatePublicKeysRotate .compiled keys bits = pure apk ∧
        ⟨apk.X, apk.Y⟩ = enc1 (signersSum K fun i => bits i = 1)) ↔
    EvenGaps (fun i => bits i = 1) ∧ Even (absentees fun i => bits i = 1) := by
  constructor
  · intro h
    obtain ⟨apk, e, henc⟩ := h exKeys Witness.key exKeys_denote
      (fun i => by rw [Witness.key, smul_comm, Witness.G1gen_order, nsmul_zero]) (Witness.key_general _)
    exact (c19_compiled_sharp bits hb).1 ⟨apk, by rw [e, run_pure], henc⟩
  · rintro ⟨he, ha⟩ keys K hk hr hg
    obtain ⟨x, y, hs, -, apk, hagg, h1, -⟩ := c19_compiled_gaps hk hr bits hb hg he
    obtain ⟨eX, eY⟩ := Prod.mk.inj (h1 ha)
    exact ⟨apk, hagg, by rw [hs, eX, eY]⟩

/-- These are 76 of the 1024 sets of signers. -/
theorem c19_compiled_count :
    Nat.card {bs : Fin 10 → Bool // EvenGaps (fun i => bs i = true) ∧ Even (absentees fun i => bs i = true)} = 76 := by
  have e : ∀ bs : Fin 10 → Bool, (EvenGaps (fun i => bs i = true) ∧ Even (absentees fun i => bs i = true)) ↔
      (GoodPattern bs ∧ absent bs 9 % 2 = 0) := fun bs => by
    rw [goodPattern_iff, absent_nine, Nat.even_iff]
  simp only [e]
  rw [Nat.card_eq_fintype_card, Fintype.card_subtype]
  rw [Finset.card_nbij' (t := (Finset.range 1024).filter fun m =>
    GoodPattern (fun i => m.testBit i.val) ∧ absent (fun i => m.testBit i.val) 9 % 2 = 0)
    (i := fun bs => Nat.ofBits bs) (j := fun m i => m.testBit i.val)]
  · decide +kernel
  · intro bs h
    have hf : (fun i : Fin 10 => (Nat.ofBits bs).testBit i.val) = bs :=
      funext fun i => Nat.testBit_ofBits_lt bs i.val i.2
    simp only [Finset.coe_filter, Finset.mem_univ, true_and, Set.mem_ofPred_eq, Finset.mem_range] at h ⊢
    rw [hf]
    exact ⟨Nat.ofBits_lt_two_pow bs, h⟩
  · intro m h
    simp only [Finset.coe_filter, Finset.mem_univ, true_and, Set.mem_ofPred_eq, Finset.mem_range] at h ⊢
    exact h.2
  · intro bs _
    exact funext fun i => Nat.testBit_ofBits_lt bs i.val i.2
  · intro m h
    simp only [Finset.coe_filter, Set.mem_ofPred_eq, Finset.mem_range] at h
    refine Nat.eq_of_testBit_eq fun i => ?_
    rcases Nat.lt_or_ge i 10 with hi | hi
    · exact Nat.testBit_ofBits_lt _ i hi
    · rw [Nat.testBit_ofBits_ge _ i hi, Nat.testBit_lt_two_pow]
      exact lt_of_lt_of_le h.1 (Nat.pow_le_pow_right (n := 2) (by norm_num) hi)

end Spark.CircuitProps
