import Verif.Spec.Validator
import Verif.Model.Circuit

/-!
# Specification: histories of a verifier

A verifier of the two proofs (README: "allowing subnet validators to verify cross-chain transactions with just SNARK
proofs", rotations replace the validator set) keeps the commitment of the current validator set.  It looks at the public
inputs only.
-/

namespace Spark.Spec
open Spark Circuit

/-- a validator set: keys and weights -/
@[ext] structure ValidatorSet where
  keys : Fin 10 → G1In
  weights : Fin 10 → Fr

/-- `c` is the commitment to the set -/
def ValidatorSet.CommitsTo (V : ValidatorSet) (c : Fr) : Prop :=
  IsCommitment (fun i => (V.keys i).X) (fun i => (V.keys i).Y) V.weights c

/-- one proof, with the private inputs it was made from -/
inductive Event
  | transaction (pub : TxPublic) (priv : TxPrivate)
  | rotation (pub : RotatePublic) (priv : RotatePrivate)

/-- the proof verifies -/
def Event.Accepted (mode : Mode) : Event → Prop
  | .transaction pub priv => (txDefine mode pub priv).Satisfiable
  | .rotation pub priv => (rotateDefine mode pub priv).Satisfiable

/-- **The verifier.** Starting with commitment `c` it accepts the events and ends with `c'`: a transaction must carry the
current commitment; a rotation must carry it as old commitment and replaces it by the new one. -/
inductive Follows (mode : Mode) : Fr → List Event → Fr → Prop
  | nil (c : Fr) : Follows mode c [] c
  | transaction {c c' : Fr} {pub : TxPublic} {priv : TxPrivate} {es : List Event} :
      Event.Accepted mode (.transaction pub priv) → pub.apkCommitment = c → Follows mode c es c' →
      Follows mode c (.transaction pub priv :: es) c'
  | rotation {c c' : Fr} {pub : RotatePublic} {priv : RotatePrivate} {es : List Event} :
      Event.Accepted mode (.rotation pub priv) → pub.oldApkCommitment = c → Follows mode pub.newCommitment es c' →
      Follows mode c (.rotation pub priv :: es) c'

/-- the validator sets used by an event -/
inductive Event.Uses : Event → ValidatorSet → Prop
  | transaction (pub priv) : Uses (.transaction pub priv) ⟨priv.publicKeys, priv.weights⟩
  | old (pub priv) : Uses (.rotation pub priv) ⟨priv.oldPublicKeys, priv.oldWeights⟩
  | new (pub priv) : Uses (.rotation pub priv) ⟨priv.newPublicKeys, priv.newWeights⟩

/-- **The ideal verifier**, which knows the validator set itself: a transaction is about the current set `V`, its declared
weight is the weight in `V` of the validators marked as signers; a rotation starts from the current set, and its declared
weight is the weight in `V` of the positions marked as signers at which the key stays (or unmarked and vacant). -/
inductive Ideal : ValidatorSet → List Event → ValidatorSet → Prop
  | nil (V : ValidatorSet) : Ideal V [] V
  | transaction {V V' : ValidatorSet} {pub : TxPublic} {priv : TxPrivate} {es : List Event} :
      (⟨priv.publicKeys, priv.weights⟩ : ValidatorSet) = V →
      pub.signedWeight = (∑ i, if priv.bitList i = 1 then V.weights i else 0) → Ideal V es V' →
      Ideal V (.transaction pub priv :: es) V'
  | rotation {V V' : ValidatorSet} {pub : RotatePublic} {priv : RotatePrivate} {es : List Event} :
      (⟨priv.oldPublicKeys, priv.oldWeights⟩ : ValidatorSet) = V →
      pub.trustedWeight = (∑ i, open Classical in
        if (priv.bitList i = 1 ∧ priv.newPublicKeys i = V.keys i) ∨
          (priv.bitList i = 0 ∧ V.keys i = ⟨fun _ => 0, fun _ => 0⟩) then V.weights i else 0) →
      Ideal ⟨priv.newPublicKeys, priv.newWeights⟩ es V' →
      Ideal V (.rotation pub priv :: es) V'

/-- the total weight of a set -/
def ValidatorSet.total (V : ValidatorSet) : Fr := ∑ i, V.weights i

end Spark.Spec
