import Verif.Props.Progress
import Verif.Props.Counting

/-!
# C105: whose signature it is

The circuits get a bit list and one aggregate signature.  A signature made by one set of signers is accepted for another bit
list exactly when the keys of the two sets have the same sum; if different sets have different sums, the signature determines
the signers and the declared weight.  Key sets for which it does not are rare, but nothing in the circuits excludes them.
-/

namespace Spark.HistoryProps
open Spark Circ Spec Circuit Pairing PairingProps CircuitProps GroupProps HonestProps ExceptionProps HelperProps HashProps
open Counting
open scoped BigOperators
set_option maxRecDepth 100000

/-- different sets of signers have different sums of keys -/
def DistinctSums (K : Fin 10 → E1 Fp) : Prop :=
  ∀ A B : Fin 10 → Prop, signersSum K A = signersSum K B → ∀ i, A i ↔ B i

theorem secret_eq_iff {sk : Fin 10 → ℕ} {A B : Fin 10 → Prop} {H : ETwist Fp} (hr : rOrder • H = 0) (h0 : H ≠ 0) :
    aggregateSignature sk A H = aggregateSignature sk B H ↔
      signersSum (fun i => sk i • G1gen) A = signersSum (fun i => sk i • G1gen) B := by
  have hp := Fact.mk rOrder_prime
  have o1 : addOrderOf H = rOrder := addOrderOf_eq_prime hr h0
  have o2 : addOrderOf G1gen = rOrder := addOrderOf_eq_prime Witness.G1gen_order G1gen_ne
  rw [aggregateSignature_eq, aggregateSignature_eq, signersSum_secret, signersSum_secret, nsmul_eq_nsmul_iff_modEq,
    nsmul_eq_nsmul_iff_modEq, o1, o2]

/-- **C105, transactions.** The validators marked in `b` have signed; the proof claims that those marked in `b'` have. -/
theorem c105_transaction {mode : Mode} {V : Validators} {b b' : Fin 10 → Bool} {msg : Vector Fips.Byte 32} {H : ETwist Fp}
    (h : V.CanSign mode b msg H) (hg : GeneralPosition (fun i => V.sk i • G1gen) fun i => bit (b' i) = 1)
    (he : ExactAggregation mode fun i => bit (b' i)) (hs : ¬ rOrder ∣ secretSum V.sk fun i => bit (b' i) = 1)
    (M : G2In) {c : Fr} (hc : V.set.CommitsTo c) (w : Fr) :
    (txDefine mode ⟨M, c, w⟩ ⟨V.keys, V.sign b H, fun i => bit (b' i), V.weights, msgVars msg⟩).run = some () ↔
      w = (∑ i, if b' i then V.weights i else 0) ∧
      signersSum (fun i => V.sk i • G1gen) (fun i => b' i = true) = signersSum (fun i => V.sk i • G1gen) fun i => b i = true := by
  obtain ⟨u0, u1, hu, t0, t1, hne⟩ := h.regular
  obtain ⟨z, hz, hrun⟩ := c97_transaction (mode := mode) (pub := ⟨M, c, w⟩)
    (priv := ⟨V.keys, V.sign b H, fun i => bit (b' i), V.weights, msgVars msg⟩) V.sk (V.denotes h.keys)
    (fun i => bit_cases (b' i)) hg he hs rfl hu t0 t1 hne h.hash h.finite _ rfl
    (CanSign_signature h).1 (CanSign_signature h).2
  have e := secret_eq_iff (sk := V.sk) (A := fun i => bit (b i) = 1) (B := fun i => bit (b' i) = 1) (rfcHash_order h.hash)
    h.finite
  have hm := h.miller
  rw [hrun, sum_bits]
  simp only [bits_eq] at e hz hm ⊢
  refine ⟨fun ⟨a1, _, a3, _⟩ => ⟨a1, (e.1 a3).symm⟩, fun ⟨a1, a2⟩ => ⟨a1, hc, e.2 a2.symm, hm z ?_⟩⟩
  rw [← a2]; exact hz

/-- **C105, rotations** from any old set `V`: the new validators marked in `b` have signed, the proof claims those in `b'`. -/
theorem c105_rotation {mode : Mode} {V N : Validators} {b b' : Fin 10 → Bool} {msg : Vector Fips.Byte 32} {H : ETwist Fp}
    (h : N.CanSign mode b msg H) (hg : GeneralPosition (fun i => N.sk i • G1gen) fun i => bit (b' i) = 1)
    (he : ExactAggregation mode fun i => bit (b' i)) (hs : ¬ rOrder ∣ secretSum N.sk fun i => bit (b' i) = 1)
    (M : G2In) {c c' : Fr} (hV : ∀ i, V.sk i • G1gen ≠ 0) (hc : V.set.CommitsTo c) (hc' : N.set.CommitsTo c') (w : Fr) :
    (rotateDefine mode ⟨M, c, c', msgVars msg, w⟩
        ⟨V.weights, N.weights, V.keys, N.keys, fun i => bit (b' i), N.sign b H⟩).run = some () ↔
      w = (∑ i, open Classical in if b' i ∧ N.sk i • G1gen = V.sk i • G1gen then V.weights i else 0) ∧
      signersSum (fun i => N.sk i • G1gen) (fun i => b' i = true) = signersSum (fun i => N.sk i • G1gen) fun i => b i = true := by
  obtain ⟨u0, u1, hu, t0, t1, hne⟩ := h.regular
  obtain ⟨z, hz, hrun⟩ := c97_rotation (mode := mode) (pub := ⟨M, c, c', msgVars msg, w⟩)
    (priv := ⟨V.weights, N.weights, V.keys, N.keys, fun i => bit (b' i), N.sign b H⟩) N.sk (N.denotes h.keys)
    (fun i => bit_cases (b' i)) hg he hs rfl hu t0 t1 hne h.hash h.finite _ rfl
    (CanSign_signature h).1 (CanSign_signature h).2
  have e := secret_eq_iff (sk := N.sk) (A := fun i => bit (b i) = 1) (B := fun i => bit (b' i) = 1) (rfcHash_order h.hash)
    h.finite
  have hm := h.miller
  rw [hrun, sum_trusted hV b']
  simp only [bits_eq] at e hz hm
  refine ⟨fun ⟨a1, _, _, a3, _⟩ => ⟨a1, (e.1 ?_).symm⟩, fun ⟨a1, a2⟩ => ⟨a1, hc, hc', ?_, hm z ?_⟩⟩
  · simpa only [bits_eq] using a3
  · simpa only [bits_eq] using e.2 a2.symm
  · rw [← a2]; exact hz

theorem signersSum_false (K : Fin 10 → E1 Fp) : signersSum K (fun _ => False) = 0 := by
  simp [signersSum]

theorem signersSum_single (K : Fin 10 → E1 Fp) (i : Fin 10) : signersSum K (fun j => j = i) = K i := by
  classical
  unfold signersSum
  rw [Finset.sum_eq_single i]
  · simp
  · intro j _ hj; simp [hj]
  · simp

open Classical in
theorem signersSum_split (K : Fin 10 → E1 Fp) (A B : Fin 10 → Prop) :
    signersSum K A = signersSum K (fun i => A i ∧ B i) + signersSum K fun i => A i ∧ ¬ B i := by
  unfold signersSum
  rw [← Finset.sum_add_distrib]
  refine Finset.sum_congr rfl fun i _ => ?_
  by_cases hA : A i <;> by_cases hB : B i <;> simp [hA, hB]

/-- keys with distinct sums can be aggregated for every set of signers -/
theorem DistinctSums.general {K : Fin 10 → E1 Fp} (h : DistinctSums K) (signs : Fin 10 → Prop) : GeneralPosition K signs := by
  intro i hi _
  constructor
  · intro e
    have := h _ _ (e.trans (signersSum_single K i).symm) i
    simp at this
  · intro e
    have h2 := signersSum_split K (fun j => (j < i ∧ signs j) ∨ j = i) (fun j => j = i)
    have e1 : (fun j => ((j < i ∧ signs j) ∨ j = i) ∧ j = i) = fun j => j = i := funext fun j => propext
      ⟨fun h => h.2, fun h => ⟨Or.inr h, h⟩⟩
    have e2 : (fun j => ((j < i ∧ signs j) ∨ j = i) ∧ ¬ j = i) = fun j => j < i ∧ signs j := funext fun j => propext
      ⟨fun h => h.1.resolve_right h.2, fun h => ⟨Or.inl h, ne_of_lt h.1⟩⟩
    rw [e1, e2, signersSum_single, e, add_neg_cancel] at h2
    exact (h _ (fun _ => False) (h2.trans (signersSum_false K).symm) i).1 (Or.inr rfl)

theorem DistinctSums.ne {K : Fin 10 → E1 Fp} (h : DistinctSums K) {signs : Fin 10 → Prop} (hs : ∃ i, signs i) :
    signersSum K signs ≠ 0 := fun e => by
  obtain ⟨i, hi⟩ := hs
  exact (h signs (fun _ => False) (e.trans (signersSum_false K).symm) i).1 hi

/-- **C105, accountability.** If different sets of signers have different sums of keys, a transaction with the signature of the
validators in `b` is accepted for no other non-empty bit list, and for no other weight than theirs. -/
theorem c105_accountable {mode : Mode} {V : Validators} {b b' : Fin 10 → Bool} {msg : Vector Fips.Byte 32} {H : ETwist Fp}
    (h : V.CanSign mode b msg H) (hd : DistinctSums fun i => V.sk i • G1gen) (hb : ∃ i, b' i = true)
    (he : ExactAggregation mode fun i => bit (b' i)) (M : G2In) {c : Fr} (hc : V.set.CommitsTo c) (w : Fr) :
    (txDefine mode ⟨M, c, w⟩ ⟨V.keys, V.sign b H, fun i => bit (b' i), V.weights, msgVars msg⟩).run = some () ↔
      b' = b ∧ w = ∑ i, if b i then V.weights i else 0 := by
  have hs : ¬ rOrder ∣ secretSum V.sk fun i => bit (b' i) = 1 := fun ⟨k, e⟩ => by
    refine hd.ne (signs := fun i => bit (b' i) = 1) (by simpa only [bits_eq] using hb) ?_
    rw [signersSum_secret, e, mul_comm, mul_nsmul', Witness.G1gen_order, nsmul_zero]
  rw [c105_transaction h (hd.general _) he hs M hc w]
  constructor
  · rintro ⟨rfl, e⟩
    obtain rfl : b' = b := funext fun i => Bool.eq_iff_iff.2 (hd _ _ e i)
    exact ⟨rfl, rfl⟩
  · rintro ⟨rfl, rfl⟩
    exact ⟨rfl, rfl⟩

/-- **C105, accountability of rotations.** The same for the new validators and the trusted weight. -/
theorem c105_accountable_rotation {mode : Mode} {V N : Validators} {b b' : Fin 10 → Bool} {msg : Vector Fips.Byte 32}
    {H : ETwist Fp} (h : N.CanSign mode b msg H) (hd : DistinctSums fun i => N.sk i • G1gen) (hb : ∃ i, b' i = true)
    (he : ExactAggregation mode fun i => bit (b' i)) (M : G2In) {c c' : Fr} (hV : ∀ i, V.sk i • G1gen ≠ 0)
    (hc : V.set.CommitsTo c) (hc' : N.set.CommitsTo c') (w : Fr) :
    (rotateDefine mode ⟨M, c, c', msgVars msg, w⟩
        ⟨V.weights, N.weights, V.keys, N.keys, fun i => bit (b' i), N.sign b H⟩).run = some () ↔
      b' = b ∧ w = ∑ i, open Classical in if b i ∧ N.sk i • G1gen = V.sk i • G1gen then V.weights i else 0 := by
  have hs : ¬ rOrder ∣ secretSum N.sk fun i => bit (b' i) = 1 := fun ⟨k, e⟩ => by
    refine hd.ne (signs := fun i => bit (b' i) = 1) (by simpa only [bits_eq] using hb) ?_
    rw [signersSum_secret, e, mul_comm, mul_nsmul', Witness.G1gen_order, nsmul_zero]
  rw [c105_rotation h (hd.general _) he hs M hV hc hc' w]
  constructor
  · rintro ⟨rfl, e⟩
    obtain rfl : b' = b := funext fun i => Bool.eq_iff_iff.2 (hd _ _ e i)
    exact ⟨rfl, rfl⟩
  · rintro ⟨rfl, rfl⟩
    exact ⟨rfl, rfl⟩

/-- **C105, rarity.** Of the `r ^ 10` tuples of secret keys at most `(3 ^ 10 - 1) r ^ 9` have two sets of signers with the same
sum of keys. -/
theorem c105_rare : {sk : Fin 10 → Fin rOrder | ¬ DistinctSums fun i => (sk i : ℕ) • G1gen}.ncard ≤
    (3 ^ 10 - 1) * rOrder ^ 9 := by
  classical
  have h := ncard_cover (S := {sk : Fin 10 → Fin rOrder | ¬ DistinctSums fun i => (sk i : ℕ) • G1gen})
    (fun t : Fin 10 → SignType => {sk | signersSum (fun i => (sk i : ℕ) • G1gen) (fun i => t i = 1) =
      signersSum (fun i => (sk i : ℕ) • G1gen) fun i => t i = -1}) (I := {fun _ => 0}ᶜ) (n := rOrder ^ 9)
    (fun sk hsk => ?_) fun t ht => ?_
  · rwa [Set.ncard_compl, Set.ncard_singleton, Nat.card_eq_fintype_card, Fintype.card_fun, Fintype.card_fin,
      show Fintype.card SignType = 3 from rfl] at h
  · have hsk : ¬ DistinctSums fun i => (sk i : ℕ) • G1gen := hsk
    unfold DistinctSums at hsk
    push Not at hsk
    obtain ⟨A, B, e, i, hi⟩ := hsk
    refine ⟨fun j => if A j ∧ ¬ B j then 1 else if B j ∧ ¬ A j then -1 else 0, fun ht => ?_, ?_⟩
    · have := congrFun (Set.mem_singleton_iff.1 ht) i
      by_cases hA : A i <;> by_cases hB : B i <;> simp_all
    · have e1 : (fun j => (if A j ∧ ¬ B j then (1 : SignType) else if B j ∧ ¬ A j then -1 else 0) = 1) =
          fun j => A j ∧ ¬ B j := funext fun j => by
        by_cases hA : A j <;> by_cases hB : B j <;> simp [hA, hB]
      have e2 : (fun j => (if A j ∧ ¬ B j then (1 : SignType) else if B j ∧ ¬ A j then -1 else 0) = -1) =
          fun j => B j ∧ ¬ A j := funext fun j => by
        by_cases hA : A j <;> by_cases hB : B j <;> simp [hA, hB]
      show signersSum _ _ = signersSum _ _
      rw [e1, e2]
      rw [signersSum_split _ A B, signersSum_split _ B A] at e
      have e3 : (fun j => B j ∧ A j) = fun j => A j ∧ B j := funext fun j => propext and_comm
      rw [e3] at e
      exact add_left_cancel e
  · obtain ⟨i, hi⟩ : ∃ i, t i ≠ 0 := by
      by_contra hn
      push Not at hn
      exact ht (Set.mem_singleton_iff.2 (funext hn))
    refine ncard_tuple i fun s hs s' hs' e => ?_
    have hs : signersSum _ _ = signersSum _ _ := hs
    have hs' : signersSum _ _ = signersSum _ _ := hs'
    have key : ∀ (u : SignType) (q : Fin 10 → Fin rOrder), signersSum (fun i => (q i : ℕ) • G1gen) (fun j => t j = u) =
        (if t i = u then (q i : ℕ) • G1gen else 0) +
          signersSum (fun i => (q i : ℕ) • G1gen) fun j => t j = u ∧ ¬ j = i := fun u q => by
      rw [signersSum_split _ _ (fun j => j = i)]
      congr 1
      unfold signersSum
      rw [Finset.sum_eq_single i]
      · simp
      · intro j _ hj; simp [hj]
      · simp
    have rest : ∀ u, signersSum (fun i => (s i : ℕ) • G1gen) (fun j => t j = u ∧ ¬ j = i) =
        signersSum (fun i => (s' i : ℕ) • G1gen) fun j => t j = u ∧ ¬ j = i := fun u =>
      HonestProps.signersSum_congr fun j hj => by rw [e j hj.2]
    rw [key, key (-1)] at hs hs'
    rw [rest, rest] at hs
    generalize signersSum (fun i => (s' i : ℕ) • G1gen) (fun j => t j = 1 ∧ ¬ j = i) = P at hs hs'
    generalize signersSum (fun i => (s' i : ℕ) • G1gen) (fun j => t j = -1 ∧ ¬ j = i) = Q at hs hs'
    by_cases h1 : t i = 1
    · have h2 : ¬ (1 : SignType) = -1 := by decide
      simp only [h1, h2, if_true, if_false] at hs hs'
      exact HonestProps.smul_gen_inj (add_right_cancel (hs.trans hs'.symm))
    · have h2 : t i = -1 := by revert h1 hi; generalize t i = u; revert u; decide
      have h3 : ¬ (-1 : SignType) = 1 := by decide
      simp only [h2, h3, if_true, if_false] at hs hs'
      exact HonestProps.smul_gen_inj (add_right_cancel (hs.symm.trans hs'))

/-! ## The hypotheses can be met -/

/-- the secret keys 1, 2, 4, …, 512 of the first example set -/
theorem exFirst_distinct : DistinctSums fun i => exFirst.sk i • G1gen := by
  classical
  have hp := Fact.mk rOrder_prime
  have hd : ∀ (b : Fin 10 → Bool) (i : Fin 10),
      (∑ j, if b j = true then 2 ^ j.val else 0).testBit i.val = b i := by decide +kernel
  have hl : ∀ b : Fin 10 → Bool, (∑ j : Fin 10, if b j = true then 2 ^ j.val else 0) < 1024 := by decide +kernel
  have hb : (1024 : ℕ) < rOrder := by decide +kernel
  intro A B e
  have sec : ∀ C : Fin 10 → Prop, secretSum exFirst.sk C = ∑ j : Fin 10, if (decide (C j)) = true then 2 ^ j.val else 0 :=
    fun C => by
      unfold secretSum
      exact Finset.sum_congr rfl fun j _ => by by_cases h : C j <;> simp [h, exFirst]
  have e' : signersSum (fun i => exFirst.sk i • G1gen) A = signersSum (fun i => exFirst.sk i • G1gen) B := e
  rw [signersSum_secret, signersSum_secret, nsmul_eq_nsmul_iff_modEq,
    addOrderOf_eq_prime Witness.G1gen_order G1gen_ne, sec, sec] at e'
  have e'' := Nat.ModEq.eq_of_lt_of_lt e' ((hl _).trans hb) ((hl _).trans hb)
  intro i
  have := congrArg (fun n : ℕ => n.testBit i.val) e''
  simp only [hd (fun j => decide (A j)) i, hd (fun j => decide (B j)) i] at this
  simpa using this

/-- validators 0 and 1 -/
def twoOf (i : Fin 10) : Bool := decide (i = 0 ∨ i = 1)
/-- validators 0, 3, 4 and 5 -/
def fourOf (i : Fin 10) : Bool := decide (i = 0 ∨ i = 3 ∨ i = 4 ∨ i = 5)
/-- the key of validator 1 is the sum of the keys of validators 3, 4 and 5 -/
def collide : Validators := ⟨![1, 1022, 7, 500, 300, 222, 9, 11, 13, 15], fun i => i.val + 100⟩

theorem collide_two {mode : Mode} : collide.CanSign mode twoOf G2.exMsg Witness.Hpt :=
  can_sign (by decide) (by simp only [bits_eq]; exact general_of_secret (by decide))
    (Or.inr ⟨by simp only [bits_eq]; exact (goodPattern_iff twoOf).1 (by unfold GoodPattern; decide),
      by simp only [bits_eq]; rw [← absent_nine]; decide⟩) (by rw [secret_bits]; decide)

theorem collide_four {mode : Mode} : collide.CanSign mode fourOf G2.exMsg Witness.Hpt :=
  can_sign (by decide) (by simp only [bits_eq]; exact general_of_secret (by decide))
    (Or.inr ⟨by simp only [bits_eq]; exact (goodPattern_iff fourOf).1 (by unfold GoodPattern; decide),
      by simp only [bits_eq]; rw [← absent_nine]; decide⟩) (by rw [secret_bits]; decide)

/-- **C105, the exception occurs.** Validators 0 and 1 sign, with weight 201; the transaction is also accepted, in both modes, as
signed by validators 0, 3, 4 and 5, with weight 412. -/
theorem c105_collision {mode : Mode} (M : G2In) {c : Fr} (hc : collide.set.CommitsTo c) :
    (txDefine mode ⟨M, c, 201⟩
      ⟨collide.keys, collide.sign twoOf Witness.Hpt, fun i => bit (twoOf i), collide.weights, msgVars G2.exMsg⟩).run = some () ∧
    (txDefine mode ⟨M, c, 412⟩
      ⟨collide.keys, collide.sign twoOf Witness.Hpt, fun i => bit (fourOf i), collide.weights, msgVars G2.exMsg⟩).run = some () := by
  have h4 := collide_four (mode := mode)
  have h2 := collide_two (mode := mode)
  refine ⟨(c105_transaction h2 h2.general h2.exact h2.secret M hc _).2 ⟨by decide +kernel, rfl⟩,
    (c105_transaction h2 h4.general h4.exact h4.secret M hc _).2 ⟨by decide +kernel, ?_⟩⟩
  have a : secretSum collide.sk (fun i => bit (fourOf i) = 1) = secretSum collide.sk (fun i => bit (twoOf i) = 1) := by
    rw [secret_bits, secret_bits]; decide
  have := congrArg (· • G1gen) a
  simp only [← signersSum_secret, bits_eq] at this
  exact this

end Spark.HistoryProps
