import Verif.Props.Scope

/-!
# C112: the verifier has no memory

A verifier that keeps only the current commitment (C83) accepts accepted proofs again: transactions can be repeated, left out and
put in another order, rotations that lead back to a former set can be repeated, and a message signed before a rotation counts
again after it.
-/

namespace Spark.HistoryProps
open Spark Circ Spec Circuit Pairing PairingProps CircuitProps GroupProps HonestProps ExceptionProps HelperProps HashProps
open scoped BigOperators
set_option maxRecDepth 100000
variable {mode : Mode}

theorem follows_append {c c' : Fr} {es es' : List Event} :
    Follows mode c (es ++ es') c' ↔ ∃ d, Follows mode c es d ∧ Follows mode d es' c' := by
  refine ⟨fun h => ?_, fun ⟨d, h, h'⟩ => c83_append h h'⟩
  induction es generalizing c with
  | nil => exact ⟨c, .nil c, h⟩
  | cons e es ih =>
    cases h with
    | transaction ha hc h => obtain ⟨d, h1, h2⟩ := ih h; exact ⟨d, .transaction ha hc h1, h2⟩
    | rotation ha hc h => obtain ⟨d, h1, h2⟩ := ih h; exact ⟨d, .rotation ha hc h1, h2⟩

theorem follows_transaction {c c' : Fr} {pub : TxPublic} {priv : TxPrivate} {es : List Event} :
    Follows mode c (.transaction pub priv :: es) c' ↔
      Event.Accepted mode (.transaction pub priv) ∧ pub.apkCommitment = c ∧ Follows mode c es c' := by
  refine ⟨fun h => ?_, fun ⟨h1, h2, h3⟩ => .transaction h1 h2 h3⟩
  cases h with
  | transaction ha hc h => exact ⟨ha, hc, h⟩

/-- **C112, transactions.** An accepted transaction can be repeated any number of times, or left out: the verifier accepts the rest
of the history and ends with the same commitment. -/
theorem c112_repeat {c c' : Fr} {es es' : List Event} {pub : TxPublic} {priv : TxPrivate}
    (h : Follows mode c (es ++ .transaction pub priv :: es') c') (n : ℕ) :
    Follows mode c (es ++ (List.replicate n (.transaction pub priv) ++ es')) c' := by
  obtain ⟨d, h1, h2⟩ := follows_append.1 h
  obtain ⟨ha, hd, h3⟩ := follows_transaction.1 h2
  refine c83_append h1 ?_
  induction n with
  | zero => exact h3
  | succ n ih => exact .transaction ha hd ih

/-- **C112, order.** Two transactions that follow one another can be exchanged. -/
theorem c112_order {c c' : Fr} {es es' : List Event} {pub pub' : TxPublic} {priv priv' : TxPrivate} :
    Follows mode c (es ++ .transaction pub priv :: .transaction pub' priv' :: es') c' ↔
      Follows mode c (es ++ .transaction pub' priv' :: .transaction pub priv :: es') c' := by
  simp only [follows_append, follows_transaction]
  exact exists_congr fun d => and_congr_right fun _ =>
    ⟨fun ⟨a, b, a', b', h⟩ => ⟨a', b', a, b, h⟩, fun ⟨a, b, a', b', h⟩ => ⟨a', b', a, b, h⟩⟩

/-- **C112, rotations.** If a history leads back to a former commitment, its part since then can be repeated any number of times: the
verifier goes through the same sets again. -/
theorem c112_cycle {c d c' : Fr} {es cycle es' : List Event} (h : Follows mode c es d) (hd : Follows mode d cycle d)
    (h' : Follows mode d es' c') (n : ℕ) : Follows mode c (es ++ ((List.replicate n cycle).flatten ++ es')) c' := by
  refine c83_append h ?_
  induction n with
  | zero => exact h'
  | succ n ih =>
    rw [List.replicate_succ, List.flatten_cons, List.append_assoc]
    exact c83_append hd ih

/-- **C112, signatures across a rotation.** Some validators of `V` sign a message, and the transaction is accepted. After any
accepted rotation to a set `W` in which they have the same keys at the same places, the same signature on the same message is
accepted once more, now with their weight in `W`; the honest prover finds both proofs. -/
theorem c112_across {V W : Validators} {b : Fin 10 → Bool} {msg : Vector Fips.Byte 32} {H : ETwist Fp}
    (h : V.CanSign mode b msg H) (hW : ∀ i, W.sk i • G1gen ≠ 0) (hk : ∀ i, b i = true → W.sk i = V.sk i) (M : G2In)
    {pub : RotatePublic} {priv : RotatePrivate} (hr : Event.Accepted mode (.rotation pub priv))
    (hc : V.set.CommitsTo pub.oldApkCommitment) (hc' : W.set.CommitsTo pub.newCommitment) :
    ∃ (t t' : TxPublic) (p p' : TxPrivate),
      Follows mode pub.oldApkCommitment [.transaction t p, .rotation pub priv, .transaction t' p'] pub.newCommitment ∧
      (txDefine mode t p).run = some () ∧ (txDefine mode t' p').run = some () ∧
      p'.signature = p.signature ∧ p'.msgBytes = p.msgBytes ∧ p'.bitList = p.bitList ∧
      t.signedWeight = (∑ i, if b i then V.weights i else 0) ∧ t'.signedWeight = ∑ i, if b i then W.weights i else 0 := by
  have r1 := (c110_kept h h.keys (fun _ _ => rfl) M hc _).2 rfl
  have r2 := (c110_kept h hW hk M hc' _).2 rfl
  exact ⟨_, _, _, _, .transaction ⟨(), (txDefine _ _ _).ok _ r1⟩ rfl (.rotation hr rfl
    (.transaction ⟨(), (txDefine _ _ _).ok _ r2⟩ rfl (.nil _))), r1, r2, rfl, rfl, rfl, rfl, rfl⟩

end Spark.HistoryProps
