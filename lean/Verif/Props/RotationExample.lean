import Verif.Props.Helpers
import Verif.Props.Compiled
import Verif.Lemmas.RotWitness

/-!
# C71: an honest rotation, from the random numbers to the accepted witness

Old validators with secret keys `1, 2, 4, …, 512` and weights 100, of which number 5 does not sign.  The random
numbers `1, 3, 1024, 7, 1` replace validator 3 by the secret key 1024 with weight 7, signing.
-/

namespace Spark.HelperProps
open Spark Circ Spec Circuit Pairing PairingProps CircuitProps GroupProps Helpers NC
open scoped BigOperators
set_option maxRecDepth 100000

/-- the old secret keys -/
def rotSk (i : Fin 10) : ℕ := 2 ^ i.val
/-- the signing bits: everybody but validator 5 -/
def rotBits (i : Fin 10) : ℕ := if i = 5 then 0 else 1
/-- the new secret keys -/
def rotSk' (i : Fin 10) : ℕ := if i = 3 then 1024 else 2 ^ i.val
/-- the new weights -/
def rotW' (i : Fin 10) : ℕ := if i = 3 then 7 else 100

theorem same_abscissa {P Q : E1 Fp} (hP : P ≠ 0) (hQ : Q ≠ 0) (h : (enc1 P).X = (enc1 Q).X) : P = Q ∨ P = -Q := by
  obtain ⟨x, y, hp⟩ := Pt.exists_of_ne hP
  obtain ⟨x', y', hq⟩ := Pt.exists_of_ne hQ
  rw [enc1_pt hp, enc1_pt hq] at h
  obtain rfl : x = x' := h
  have h1 := hp.eqn
  have h2 := hq.eqn
  rcases sq_eq_sq_iff_eq_or_eq_neg.1 (h1.trans h2.symm) with rfl | rfl
  · exact Or.inl (hp.ext hq)
  · exact Or.inr (hp.ext hq.neg)

theorem rot_key_pt : ∀ i : Fin 10, Pt (rotSk' i • G1gen) ((Poseidon.nth Rot.kx i : ℕ) : Fp) ((Poseidon.nth Rot.ky i : ℕ) : Fp) := by
  intro i
  fin_cases i
  · exact gen_mul_pt 1 0 (by decide +kernel) (by decide) (by decide +kernel) (by decide +kernel)
  · exact gen_mul_pt 2 1 (by decide +kernel) (by decide) (by decide +kernel) (by decide +kernel)
  · exact gen_mul_pt 4 2 (by decide +kernel) (by decide) (by decide +kernel) (by decide +kernel)
  · exact gen_mul_pt 1024 10 (by decide +kernel) (by decide) (by decide +kernel) (by decide +kernel)
  · exact gen_mul_pt 16 4 (by decide +kernel) (by decide) (by decide +kernel) (by decide +kernel)
  · exact gen_mul_pt 32 5 (by decide +kernel) (by decide) (by decide +kernel) (by decide +kernel)
  · exact gen_mul_pt 64 6 (by decide +kernel) (by decide) (by decide +kernel) (by decide +kernel)
  · exact gen_mul_pt 128 7 (by decide +kernel) (by decide) (by decide +kernel) (by decide +kernel)
  · exact gen_mul_pt 256 8 (by decide +kernel) (by decide) (by decide +kernel) (by decide +kernel)
  · exact gen_mul_pt 512 9 (by decide +kernel) (by decide) (by decide +kernel) (by decide +kernel)

theorem rot_sum_pt : Pt (2007 • G1gen) (Rot.ax : Fp) (Rot.ay : Fp) :=
  gen_mul_pt 2007 10 (by decide +kernel) (by decide) (by decide +kernel) (by decide +kernel)

/-- the new commitment -/
theorem rot_commitment {c : ℕ} (hc : c < frOrder) (h : CommitmentOf rotSk' rotW' c) : c = Rot.cN := by
  have h1 := Rot.nCommit_spec Rot.kx Rot.ky Rot.wN (by decide +kernel) (by decide +kernel) (by decide +kernel)
  rw [Rot.commit_check] at h1
  have h2 : CommitmentOf rotSk' rotW' Rot.cN := by
    have ex : (fun i => (newG1Affine (enc1 (rotSk' i • G1gen))).X) =
        fun i : Fin 10 => valueOfIn ((Poseidon.nth Rot.kx i : ℕ) : Fp) := funext fun i => by
      rw [enc1_pt (rot_key_pt i)]; rfl
    have ey : (fun i => (newG1Affine (enc1 (rotSk' i • G1gen))).Y) =
        fun i : Fin 10 => valueOfIn ((Poseidon.nth Rot.ky i : ℕ) : Fp) := funext fun i => by
      rw [enc1_pt (rot_key_pt i)]; rfl
    have ew : (fun i => ((rotW' i : ℕ) : Fr)) = fun i : Fin 10 => ((Poseidon.nth Rot.wN i : ℕ) : Fr) :=
      funext fun i => by fin_cases i <;> rfl
    rw [CommitmentOf, ex, ey, ew]
    exact h1
  have h3 := isCommitment_unique h h2
  have := (ZMod.natCast_eq_natCast_iff' c Rot.cN frOrder).1 h3
  rwa [Nat.mod_eq_of_lt hc, Nat.mod_eq_of_lt (by decide +kernel)] at this

/-- the bytes of the commitment -/
def rotMsg : Vector Fips.Byte 32 := ⟨Rot.msgN.toArray, rfl⟩

theorem rot_bytes : bigBytes Rot.cN = rotMsg.toList := by decide +kernel

theorem rot_hash : (G2.hashToG2 (HashProps.msgVars rotMsg)).run = some (enc2 Rot.Hpt) := by
  obtain ⟨-, -, -, -, -, h⟩ := G2.nHash_spec Rot.hash_check
  rw [G2.hashToG2_tail, run_bind, HashProps.hashToField_run (n := 2) (by norm_num) (by norm_num)
    (show Rfc.hashToFieldFp2 rotMsg.toList _ 2 = _ from Rot.hash_to_field_check), Option.bind_some, h]
  rfl

theorem rot_general : GeneralPosition (fun i => rotSk' i • G1gen) fun i => rotBits i = 1 := by
  have h := general_of_secret (sk := rotSk') (bs := fun i => decide (i ≠ 5)) (by decide)
  have e : (fun i : Fin 10 => decide (i ≠ 5) = true) = fun i => rotBits i = 1 := funext fun i => propext (by
    revert i; decide)
  rwa [e] at h

theorem rot_secret : secretSum rotSk' (fun i => rotBits i = 1) = 2007 := by
  rw [secretSum]
  exact (Finset.sum_congr rfl fun i _ => by congr).trans (by decide : (∑ i, if rotBits i = 1 then rotSk' i else 0) = 2007)

/-- **C71 on a concrete rotation**: `generateNew` makes the replacement and the assembled witness is accepted, for
every implementation of iden3's Poseidon and every off-circuit hash that agrees with the circuit's on the bytes of the
new commitment. -/
theorem c71_rotation_example {H : List ℕ → Option ℕ} (hH : IsIden3Hash H) (hashG2 : List Fips.Byte → ETwist Fp)
    (hh : hashG2 rotMsg.toList = Rot.Hpt) (M : G2In) : ∃ oldC out pub priv,
      genCommitment H ((List.ofFn fun i => rotSk i • G1gen).map coords) (List.ofFn fun _ : Fin 10 => 100) = some oldC ∧
      generateNew H hashG2 (List.ofFn rotSk) (List.ofFn fun i => rotSk i • G1gen) (List.ofFn fun _ : Fin 10 => 100)
        (List.ofFn rotBits) [1, 3, 1024, 7, 1] = some (out, []) ∧
      out.trustedWeight = 800 ∧
      rotateWitness (List.ofFn fun i => rotSk i • G1gen) out.publicKeys out.bitlist (List.ofFn fun _ : Fin 10 => 100)
        out.weights out.signature oldC out.commitment out.trustedWeight M = some (pub, priv) ∧
      (rotateDefine .engine pub priv).run = some () := by
  classical
  have hb : ∀ i, rotBits i < 2 := by decide
  have hne : ∀ i, rotSk i • G1gen ≠ 0 := Witness.key_ne
  have hne' : ∀ i, rotSk' i • G1gen ≠ 0 := fun i => (rot_key_pt i).ne_zero
  have usk : Function.update rotSk 3 1024 = rotSk' := by decide
  have uw : Function.update (fun _ : Fin 10 => 100) 3 7 = rotW' := by decide
  have ub : Function.update rotBits 3 1 = rotBits := by decide
  obtain ⟨out, hgen, e1, e2, e3, hlt, hcom, e5, e6, e4⟩ := c69_every_replacement hH hashG2 rotSk (fun _ => 100) rotBits hb
    (fun _ => by decide +kernel) 3 1024 7 1 (by norm_num) (by norm_num) (by norm_num) []
  rw [usk] at e1
  rw [uw] at e2
  rw [ub] at e3
  rw [usk, uw, ub] at e4
  rw [usk, uw] at hcom
  rw [usk, ub] at e6
  have hcN := rot_commitment hlt hcom
  have hmsg : out.msg = Rot.Hpt := by rw [e5, hcN, rot_bytes, hh]
  have hfresh : ∀ i j, (enc1 (rotSk' i • G1gen)).X = (enc1 (rotSk j • G1gen)).X →
      rotSk' i • G1gen = rotSk i • G1gen ∧ rotW' i = 100 := by
    intro i j h
    by_cases hi : i = 3
    · exfalso
      subst hi
      have h3 : rotSk' 3 = 1024 := rfl
      have h4 : rotSk j < 1024 := Witness.pow_lt j
      have h5 : 0 < rotSk j := by rw [rotSk]; positivity
      have h6 := Witness.big
      rw [h3] at h
      rcases same_abscissa (by rw [← h3]; exact hne' 3) (hne j) h with e | e
      · exact Witness.smul_ne (n := 1024 - rotSk j) (by omega) (by omega) (Witness.smul_diff (by omega) e.symm)
      · refine Witness.smul_ne (n := 1024 + rotSk j) (by omega) (by omega) ?_
        rw [add_nsmul, e, neg_add_cancel]
    · exact ⟨by rw [rotSk', if_neg hi, rotSk], by rw [rotW', if_neg hi]⟩
  obtain ⟨oldC, hold, -, -⟩ := commitment_of hH rotSk (fun _ => 100) (fun _ => by decide +kernel)
  have hs : signersSum (fun i => rotSk' i • G1gen) (fun i => rotBits i = 1) = 2007 • G1gen := by
    rw [signersSum_secret, rot_secret]
  have hsig : out.signature = 2007 • Rot.Hpt := by rw [e6, aggregateSignature_eq, rot_secret, hmsg]
  obtain ⟨pub, priv, z, hw, hz, hrun⟩ := c71_rotation hH hashG2 rotSk (fun _ => 100) rotBits hb (fun _ => by norm_num) hne
    oldC hold _ _ out hgen (fun i => rotSk' i • G1gen) rotBits rotW' e1 e3 e2 hne' hfresh rot_general
    (by rw [hs]; exact rot_sum_pt.ne_zero) rotMsg (by rw [hcN]; exact rot_bytes) (by rw [hmsg]; exact rot_hash)
    (by rw [hmsg]; exact Rot.H_ne) (by rw [hmsg]; exact Rot.H_order) M
  refine ⟨oldC, out, pub, priv, hold, hgen, ?_, hw, hrun ?_⟩
  · rw [e4]
    have : ∀ i, (rotBits i = 1 ∧ ∃ j, (enc1 (rotSk' i • G1gen)).X = (enc1 (rotSk j • G1gen)).X) ↔
        (i ≠ 5 ∧ i ≠ 3) := by
      intro i
      constructor
      · rintro ⟨h1, j, h2⟩
        refine ⟨fun e => by subst e; exact absurd h1 (by decide), fun e => ?_⟩
        subst e
        exact absurd (hfresh 3 j h2).2 (by decide)
      · rintro ⟨h1, h2⟩
        exact ⟨by rw [rotBits, if_neg h1], i, by rw [rotSk', if_neg h2, rotSk]⟩
    simp only [this]
    decide
  · rw [hs, hsig, hmsg, Rot.miller_value rot_sum_pt] at hz
    rw [← Witness.pure_inj (Except.ok.inj hz)]
    exact Rot.easy_ne

end Spark.HelperProps
