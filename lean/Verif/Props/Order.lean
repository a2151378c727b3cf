import Verif.Props.Accountability
import Verif.Props.NoSigner

/-!
# C108: the order of the validators

The circuits get the validators as a list.  Listing the same validators in another order changes the commitment, but neither the
aggregate signature nor the weight.  In the semantics of the test engine it does not change which proofs are found either; in the
compiled circuit it does.
-/

namespace Spark.HistoryProps
open Spark Circ Spec Circuit Pairing PairingProps CircuitProps GroupProps HonestProps ExceptionProps HelperProps HashProps
open scoped BigOperators
set_option maxRecDepth 100000

/-- the same validators in another order: position `i` is taken by validator `σ i` -/
def Validators.permute (V : Validators) (σ : Equiv.Perm (Fin 10)) : Validators := ⟨fun i => V.sk (σ i), fun i => V.weights (σ i)⟩

theorem signersSum_permute (K : Fin 10 → E1 Fp) (A : Fin 10 → Prop) (σ : Equiv.Perm (Fin 10)) :
    signersSum (fun i => K (σ i)) (fun i => A (σ i)) = signersSum K A := by
  classical
  unfold signersSum
  exact Equiv.sum_comp σ fun i => if A i then K i else 0

theorem secretSum_permute (sk : Fin 10 → ℕ) (A : Fin 10 → Prop) (σ : Equiv.Perm (Fin 10)) :
    secretSum (fun i => sk (σ i)) (fun i => A (σ i)) = secretSum sk A := by
  classical
  unfold secretSum
  exact Equiv.sum_comp σ fun i => if A i then sk i else 0

theorem aggregate_permute (sk : Fin 10 → ℕ) (A : Fin 10 → Prop) (σ : Equiv.Perm (Fin 10)) (H : ETwist Fp) :
    aggregateSignature (fun i => sk (σ i)) (fun i => A (σ i)) H = aggregateSignature sk A H := by
  rw [aggregateSignature_eq, aggregateSignature_eq, secretSum_permute]

/-- **C108, what the order does not change**: the aggregate signature. -/
theorem c108_signature (V : Validators) (b : Fin 10 → Bool) (σ : Equiv.Perm (Fin 10)) (H : ETwist Fp) :
    (V.permute σ).sign (fun i => b (σ i)) H = V.sign b H := by
  unfold Validators.sign
  rw [show aggregateSignature (V.permute σ).sk (fun i => bit (b (σ i)) = 1) H =
    aggregateSignature V.sk (fun i => bit (b i) = 1) H from aggregate_permute V.sk (fun i => bit (b i) = 1) σ H]

theorem permute_can {mode mode' : Mode} {V : Validators} {b : Fin 10 → Bool} {msg : Vector Fips.Byte 32} {H : ETwist Fp}
    (h : V.CanSign mode b msg H) {σ : Equiv.Perm (Fin 10)}
    (hg : GeneralPosition (fun i => V.sk (σ i) • G1gen) fun i => bit (b (σ i)) = 1)
    (he : ExactAggregation mode' fun i => bit (b (σ i))) : (V.permute σ).CanSign mode' (fun i => b (σ i)) msg H where
  keys i := h.keys (σ i)
  general := hg
  exact := he
  secret := by
    rw [show secretSum (V.permute σ).sk (fun i => bit (b (σ i)) = 1) = _ from
      secretSum_permute V.sk (fun i => bit (b i) = 1) σ]
    exact h.secret
  regular := h.regular
  hash := h.hash
  finite := h.finite
  miller z hz := h.miller z (by
    rw [show signersSum (fun i => (V.permute σ).sk i • G1gen) (fun i => bit (b (σ i)) = 1) = _ from
        signersSum_permute (fun i => V.sk i • G1gen) (fun i => bit (b i) = 1) σ,
      show aggregateSignature (V.permute σ).sk (fun i => bit (b (σ i)) = 1) H = _ from
        aggregate_permute V.sk (fun i => bit (b i) = 1) σ H] at hz
    exact hz)

theorem DistinctSums.permute {K : Fin 10 → E1 Fp} (h : DistinctSums K) (σ : Equiv.Perm (Fin 10)) :
    DistinctSums fun i => K (σ i) := by
  intro A B e i
  have a : ∀ C : Fin 10 → Prop, signersSum (fun i => K (σ i)) C = signersSum K fun i => C (σ.symm i) := fun C => by
    rw [← signersSum_permute K _ σ]; simp only [Equiv.symm_apply_apply]
  rw [a, a] at e
  simpa using h _ _ e (σ i)

/-- **C108, transactions.** The validators in `b` have signed.  If the keys are listed in another order, in general position and with
a bit list that the mode aggregates exactly, the signature is accepted as before, for the same weight. -/
theorem c108_transaction {mode : Mode} {V : Validators} {b : Fin 10 → Bool} {msg : Vector Fips.Byte 32} {H : ETwist Fp}
    (h : V.CanSign .engine b msg H) {σ : Equiv.Perm (Fin 10)}
    (hg : GeneralPosition (fun i => V.sk (σ i) • G1gen) fun i => bit (b (σ i)) = 1)
    (he : ExactAggregation mode fun i => bit (b (σ i))) (M : G2In) {c : Fr} (hc : (V.permute σ).set.CommitsTo c) (w : Fr) :
    (txDefine mode ⟨M, c, w⟩ ⟨fun i => V.keys (σ i), V.sign b H, fun i => bit (b (σ i)), fun i => V.weights (σ i),
        msgVars msg⟩).run = some () ↔
      w = ∑ i, if b i then V.weights i else 0 := by
  have hp := permute_can (mode' := mode) h hg he
  have := c105_transaction hp hp.general hp.exact hp.secret M hc w
  rw [c108_signature, and_iff_left rfl, show (∑ i, if b (σ i) then (V.permute σ).weights i else 0) = _ from
    Equiv.sum_comp σ fun i => if b i then V.weights i else 0] at this
  exact this

/-- **C108, rotations.** Old and new validators are listed in another order. -/
theorem c108_rotation {mode : Mode} {V N : Validators} {b : Fin 10 → Bool} {msg : Vector Fips.Byte 32} {H : ETwist Fp}
    (h : N.CanSign .engine b msg H) {σ : Equiv.Perm (Fin 10)}
    (hg : GeneralPosition (fun i => N.sk (σ i) • G1gen) fun i => bit (b (σ i)) = 1)
    (he : ExactAggregation mode fun i => bit (b (σ i))) (M : G2In) {c c' : Fr} (hV : ∀ i, V.sk i • G1gen ≠ 0)
    (hc : (V.permute σ).set.CommitsTo c) (hc' : (N.permute σ).set.CommitsTo c') (w : Fr) :
    (rotateDefine mode ⟨M, c, c', msgVars msg, w⟩ ⟨fun i => V.weights (σ i), fun i => N.weights (σ i),
        fun i => V.keys (σ i), fun i => N.keys (σ i), fun i => bit (b (σ i)), N.sign b H⟩).run = some () ↔
      w = ∑ i, open Classical in if b i ∧ N.sk i • G1gen = V.sk i • G1gen then V.weights i else 0 := by
  classical
  have hp := permute_can (mode' := mode) h hg he
  have := c105_rotation (V := V.permute σ) hp hp.general hp.exact hp.secret M (fun i => hV (σ i)) hc hc' w
  rw [c108_signature, and_iff_left rfl] at this
  refine this.trans ?_
  rw [← Equiv.sum_comp σ fun i => open Classical in if b i ∧ N.sk i • G1gen = V.sk i • G1gen then V.weights i else 0]
  exact Iff.rfl

/-- **C108, test engine.** If different groups have different sums of keys, the order does not matter at all. -/
theorem c108_engine {V : Validators} {b : Fin 10 → Bool} {msg : Vector Fips.Byte 32} {H : ETwist Fp}
    (h : V.CanSign .engine b msg H) (hd : DistinctSums fun i => V.sk i • G1gen) (σ : Equiv.Perm (Fin 10)) (M : G2In) {c : Fr}
    (hc : (V.permute σ).set.CommitsTo c) (w : Fr) :
    (txDefine .engine ⟨M, c, w⟩ ⟨fun i => V.keys (σ i), V.sign b H, fun i => bit (b (σ i)), fun i => V.weights (σ i),
        msgVars msg⟩).run = some () ↔
      w = ∑ i, if b i then V.weights i else 0 :=
  c108_transaction h ((hd.permute σ).general _) (Or.inl rfl) M hc w

/-- **C108, compiled circuit, everybody signs.** Then the order does not matter either. -/
theorem c108_all_sign {V : Validators} {msg : Vector Fips.Byte 32} {H : ETwist Fp}
    (h : V.CanSign .engine (fun _ => true) msg H) (hd : DistinctSums fun i => V.sk i • G1gen) (σ : Equiv.Perm (Fin 10))
    (M : G2In) {c : Fr} (hc : (V.permute σ).set.CommitsTo c) (w : Fr) :
    (txDefine .compiled ⟨M, c, w⟩ ⟨fun i => V.keys (σ i), V.sign (fun _ => true) H, fun _ => 1, fun i => V.weights (σ i),
        msgVars msg⟩).run = some () ↔
      w = ∑ i, V.weights i := by
  have := c108_transaction (mode := .compiled) (b := fun _ => true) h ((hd.permute σ).general _)
    (Or.inr ⟨by simp [EvenGaps], by simp [absentees]⟩) M hc w
  simpa using this

/-- exchanging positions 0 and 2 -/
def swapped : Equiv.Perm (Fin 10) := Equiv.swap 0 2

/-- **C108, compiled circuit, in general.** There the order matters: the validators other than 1 and 2 of the second example set
sign; the compiled circuit finds a proof; if validators 0 and 2 change places it finds none, for any public values, while the test
engine does. -/
theorem c108_compiled_false (M : G2In) :
    (∃ c w, (txDefine .compiled ⟨M, c, w⟩ ⟨exSecond.keys, exSecond.sign patA Witness.Hpt, fun i => bit (patA i),
      exSecond.weights, msgVars G2.exMsg⟩).run = some ()) ∧
    (∀ c w, (txDefine .compiled ⟨M, c, w⟩ ⟨fun i => exSecond.keys (swapped i), exSecond.sign patA Witness.Hpt,
      fun i => bit (patA (swapped i)), fun i => exSecond.weights (swapped i), msgVars G2.exMsg⟩).run = none) ∧
    ∃ c w, (txDefine .engine ⟨M, c, w⟩ ⟨fun i => exSecond.keys (swapped i), exSecond.sign patA Witness.Hpt,
      fun i => bit (patA (swapped i)), fun i => exSecond.weights (swapped i), msgVars G2.exMsg⟩).run = some () := by
  refine ⟨⟨_, _, transaction_proved M exSecond_can (commit_isCommitment _ _) rfl⟩, fun c w => ?_, ?_⟩
  · exact c106_compiled (by dsimp only; rw [show patA (swapped 0) = false by decide]; rfl)
      (by dsimp only; rw [show patA (swapped 1) = false by decide]; rfl)
  · refine ⟨_, _, (c108_transaction (mode := .engine) (exSecond_can (mode := .engine)) (σ := swapped) ?_ (Or.inl rfl) M
      (commit_isCommitment _ _) _).2 rfl⟩
    simp only [bits_eq]
    exact general_of_secret (sk := fun i => exSecond.sk (swapped i)) (bs := fun i => patA (swapped i)) (by decide)

end Spark.HistoryProps
