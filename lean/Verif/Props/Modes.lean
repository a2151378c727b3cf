import Verif.Props.Honest

/-!
# C109: where tests speak for the deployed circuit

The repository's tests run the circuits in gnark's test engine; what is deployed is the compiled constraint system.  They differ
in what AddG1Points recognises as the point (0,0) of an absentee (`Mode`).  For one kind of input they are the same.
-/

namespace Spark.HonestProps
open Spark Circ Spec Circuit Pairing PairingProps CircuitProps GroupProps
open scoped BigOperators
set_option maxRecDepth 100000

theorem aggregate_modes {keys : Fin 10 → G1In} {K : Fin 10 → E1 Fp} (hk : ∀ i, Denotes (keys i) (K i))
    (hr : ∀ i, rOrder • K i = 0) {bits : Fin 10 → Fr} (hb : ∀ i, bits i = 0 ∨ bits i = 1)
    (hg : GeneralPosition K fun i => bits i = 1) (he : EvenGaps fun i => bits i = 1)
    (hev : Even (absentees fun i => bits i = 1)) :
    ∃ (bs : Fin 10 → Bool) (v w : G1Var), (bits = fun i => bit (bs i)) ∧ addAll (selected .compiled keys bs) = pure v ∧
      addAll (selected .engine keys bs) = pure w ∧ v.X = w.X ∧ v.Y = w.Y := by
  have hf := fun i => (hk i).1
  obtain ⟨x, y, hs, -, v, hv, h1, -⟩ := c19_compiled_gaps hk hr bits hb hg he
  obtain ⟨eX, eY⟩ := Prod.mk.inj (h1 hev)
  obtain ⟨w, e1, -, hw⟩ := c19_engine_partial hk bits (fun _ => 0) hb hg
  rw [hs] at e1
  obtain ⟨fX, fY⟩ := G1Affine.mk.inj e1
  obtain ⟨bs, hbs, h⟩ := addAll_of_aggregate hf hb hv
  refine ⟨bs, v, w, hbs, h, ?_, eX.trans fX.symm, eY.trans fY.symm⟩
  rwa [hbs, aggregateRotate_eq .engine bs hf] at hw

/-- **C109, transactions.** Keys of order `r` in general position and a bit list with even gaps and an even number of absentees: for
all weights, signatures, messages and public values the honest prover of the compiled circuit finds a proof exactly if the test
engine accepts, and a proof exists at all in the one exactly if it does in the other. -/
theorem c109_transaction {pub : TxPublic} {priv : TxPrivate} {K : Fin 10 → E1 Fp}
    (hk : ∀ i, Denotes (priv.publicKeys i) (K i)) (hr : ∀ i, rOrder • K i = 0)
    (hg : GeneralPosition K fun i => priv.bitList i = 1) (he : EvenGaps fun i => priv.bitList i = 1)
    (hev : Even (absentees fun i => priv.bitList i = 1)) :
    ((txDefine .compiled pub priv).run = some () ↔ (txDefine .engine pub priv).run = some ()) ∧
    (TxAccepted .compiled pub priv ↔ TxAccepted .engine pub priv) := by
  suffices h : txDefine .compiled pub priv = txDefine .engine pub priv by
    rw [TxAccepted, TxAccepted, h]; exact ⟨Iff.rfl, Iff.rfl⟩
  by_cases hb : ∀ i, priv.bitList i = 0 ∨ priv.bitList i = 1
  · obtain ⟨bs, v, w, hbs, hv, hw, eX, eY⟩ := aggregate_modes hk hr hb hg he hev
    have hf := fun i => (hk i).1
    rw [txDefine, txDefine, verifyTx, verifyTx, hbs, aggregate_eq .compiled bs priv.weights _ hf,
      aggregate_eq .engine bs priv.weights _ hf, hv, hw]
    simp only [bind_assoc, pure_bind, eX, eY]
  · rw [eq_fail fun _ h => hb (c16_tx_bits ⟨_, h⟩), eq_fail fun _ h => hb (c16_tx_bits ⟨_, h⟩)]

/-- **C109, rotations.** -/
theorem c109_rotation {pub : RotatePublic} {priv : RotatePrivate} {K : Fin 10 → E1 Fp}
    (hk : ∀ i, Denotes (priv.newPublicKeys i) (K i)) (hr : ∀ i, rOrder • K i = 0)
    (hg : GeneralPosition K fun i => priv.bitList i = 1) (he : EvenGaps fun i => priv.bitList i = 1)
    (hev : Even (absentees fun i => priv.bitList i = 1)) :
    ((rotateDefine .compiled pub priv).run = some () ↔ (rotateDefine .engine pub priv).run = some ()) ∧
    (RotateAccepted .compiled pub priv ↔ RotateAccepted .engine pub priv) := by
  suffices h : rotateDefine .compiled pub priv = rotateDefine .engine pub priv by
    rw [RotateAccepted, RotateAccepted, h]; exact ⟨Iff.rfl, Iff.rfl⟩
  by_cases hb : ∀ i, priv.bitList i = 0 ∨ priv.bitList i = 1
  · obtain ⟨bs, v, w, hbs, hv, hw, eX, eY⟩ := aggregate_modes hk hr hb hg he hev
    have hf := fun i => (hk i).1
    rw [rotateDefine, rotateDefine, verifyRotate, verifyRotate, hbs, aggregateRotate_eq .compiled bs hf,
      aggregateRotate_eq .engine bs hf, hv, hw]
    simp only [pure_bind, eX, eY]
  · rw [eq_fail fun _ h => hb (c16_rotate_bits ⟨_, h⟩), eq_fail fun _ h => hb (c16_rotate_bits ⟨_, h⟩)]

end Spark.HonestProps
