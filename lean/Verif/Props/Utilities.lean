import Verif.Model.Params
import Verif.Model.Bytes
import Verif.Model.Helpers
import Verif.Spec.Pairing
import Verif.Lemmas.PoseidonRun
import Verif.Props.Sha256

/-!
# C77 - C79: field parameters, the exported mixing layer, small helpers
-/

namespace Spark.UtilProps
open Spark Circ Spec

/-! ## C77: params.go -/

/-- what gnark's emulated arithmetic requires of its parameters: the primality flag is right, every residue fits
into the limbs, and no limb is superfluous -/
def Sound (P : Params.FieldParams) : Prop :=
  (P.isPrime = true ↔ P.modulus.Prime) ∧
    P.modulus ≤ 2 ^ (P.nbLimbs * P.bitsPerLimb) ∧ 2 ^ ((P.nbLimbs - 1) * P.bitsPerLimb) < P.modulus

/-- **C77.** Both parameter sets are sound, and the moduli are the base and scalar field orders of the
BLS12 curve with seed `u`: `r = u⁴ - u² + 1` and `3(p - u) = (u - 1)² r`. -/
theorem c77_params :
    Sound Params.bls12381Fp ∧ Sound Params.bls12381Fr ∧
      (Params.bls12381Fr.modulus : ℤ) = seed ^ 4 - seed ^ 2 + 1 ∧
      3 * ((Params.bls12381Fp.modulus : ℤ) - seed) = (seed - 1) ^ 2 * Params.bls12381Fr.modulus := by
  refine ⟨⟨⟨fun _ => fact_fp.out, fun _ => rfl⟩, ?_, ?_⟩, ⟨⟨fun _ => rOrder_prime, fun _ => rfl⟩, ?_, ?_⟩, ?_, ?_⟩ <;>
    decide +kernel

/-- The fields of the model are the ones of the parameters. -/
theorem c77_fields : Params.bls12381Fp.modulus = fpOrder ∧ Params.bls12381Fr.modulus = rOrder := by decide +kernel

/-! ## C78: the exported sparse mixing layer -/

section
open Poseidon
variable {n : ℕ}

/-- the sparse matrix number `r` of a flat table: first row `s₀ … sₙ`, first column `s₀, sₙ₊₁ … s₂ₙ`, identity
elsewhere -/
def sparse (s : List ℕ) (n r : ℕ) : Matrix (Fin (n + 1)) (Fin (n + 1)) Fr := fun i j =>
  if i = 0 then ((s.getD ((2 * n + 1) * r + j) 0 : ℕ) : Fr)
  else if j = 0 then ((s.getD ((2 * n + 1) * r + n + i) 0 : ℕ) : Fr)
  else if i = j then 1 else 0

theorem mapM_none {α β : Type} {l : List α} {f : α → Option β} {a : α} (ha : a ∈ l) (h : f a = none) :
    l.mapM f = none := by
  induction l with
  | nil => simp at ha
  | cons b l ih =>
    rw [List.mapM_cons]
    rcases List.mem_cons.1 ha with rfl | ha
    · rw [h]; rfl
    · rw [ih ha]
      cases f b <;> rfl

theorem foldlM_none {α β : Type} {l : List α} {f : β → α → Option β} {a : α} (ha : a ∈ l)
    (h : ∀ b, f b a = none) (b : β) : l.foldlM f b = none := by
  induction l generalizing b with
  | nil => simp at ha
  | cons c l ih =>
    rw [List.foldlM_cons]
    rcases List.mem_cons.1 ha with rfl | ha
    · rw [h]; rfl
    · cases f b c with
      | none => rfl
      | some d => exact ih ha d

theorem mixS_eq (x : Fin (n + 1) → Fr) (s : List ℕ) (r : ℕ) (hs : (2 * n + 1) * (r + 1) ≤ s.length) :
    mixS (List.ofFn x) s r = some (List.ofFn (Fin.cons (∑ j : Fin (n + 1), cF s ((2 * n + 1) * r + j) * x j)
      fun k : Fin n => x k.succ + x 0 * cF s ((2 * n + 1) * r + (n + 1 + k)) : Fin (n + 1) → Fr)) := by
  have ht : (n + 1) * 2 - 1 = 2 * n + 1 := by omega
  have hs' : (2 * n + 1) * r + (2 * n + 1) ≤ s.length := by rw [← Nat.mul_succ]; exact hs
  simp only [mixS, List.length_ofFn, ht]
  rw [foldlM_fin (n + 1) _ (fun j => cF s ((2 * n + 1) * r + j) * x j)]
  · rw [show n + 1 - 1 = n from rfl,
      mapM_range n _ (fun k : Fin n => x k.succ + x 0 * cF s ((2 * n + 1) * r + (n + 1 + k)))]
    · simp only [Option.bind_eq_bind, Option.bind_some, List.ofFn_succ, Fin.cons_zero, Fin.cons_succ]
      rfl
    · intro k
      have hk := k.2
      rw [show (2 * n + 1) * r + (n + 1) + ((k : ℕ) + 1) - 1 = (2 * n + 1) * r + (n + 1 + k) by omega,
        getD_some s _ 0 (by omega)]
      simp only [List.getElem?_ofFn, Option.bind_eq_bind]
      rw [dif_pos (by omega), dif_pos (by omega)]
      rfl
  · intro b j
    have hj := j.2
    rw [getD_some s _ 0 (by omega)]
    simp only [Option.bind_eq_bind, Option.bind_some, List.getElem?_ofFn]
    rw [dif_pos hj]
    rfl

/-- **C78.** `MixS` multiplies the state by the sparse matrix; if the table is too short for round `r` it panics. -/
theorem c78_mixS (x : Fin (n + 1) → Fr) (s : List ℕ) (r : ℕ) :
    ((2 * n + 1) * (r + 1) ≤ s.length →
      mixS (List.ofFn x) s r = some (List.ofFn ((sparse s n r).mulVec x))) ∧
    (s.length < (2 * n + 1) * (r + 1) → mixS (List.ofFn x) s r = none) := by
  constructor
  · intro hs
    rw [mixS_eq x s r hs]
    congr 2
    funext i
    refine Fin.cases ?_ (fun k => ?_) i
    · simp [Matrix.mulVec, dotProduct, sparse, cF]
    · simp only [Fin.cons_succ, Matrix.mulVec, dotProduct]
      rw [Fin.sum_univ_succ, Finset.sum_eq_single k]
      · simp only [sparse, Fin.succ_ne_zero, if_false, if_true, cF, Fin.val_succ]
        rw [show (2 * n + 1) * r + (n + 1 + (k : ℕ)) = (2 * n + 1) * r + n + (k + 1) by omega]
        ring
      · intro j _ hj
        simp [sparse, Fin.succ_inj, hj.symm]
      · simp
  · intro hs
    have ht : (n + 1) * 2 - 1 = 2 * n + 1 := by omega
    rw [Nat.mul_succ] at hs
    simp only [mixS, List.length_ofFn, ht]
    rcases n with _ | n
    · rw [foldlM_none (a := 0) (by simp)]
      · rfl
      · intro b
        rw [List.getElem?_eq_none (by omega)]
        rfl
    · rw [show n + 1 + 1 - 1 = n + 1 from rfl, mapM_none (a := n) (by simp)]
      · cases List.foldlM (m := Option) _ _ _ <;> rfl
      · rw [List.getElem?_eq_none (l := s) (by omega)]
        cases (List.ofFn x)[n + 1]? <;> cases (List.ofFn x)[0]? <;> rfl

/-- The linear part of a partial round of the hash is this function. -/
theorem c78_partial_round (x : Fin (n + 1) → Fr) (c s : List ℕ) (r : ℕ)
    (hc : 5 * (n + 1) + r < c.length) (hs : (2 * n + 1) * (r + 1) ≤ s.length) :
    partialRound c s (n + 1) (List.ofFn x) r =
      mixS (List.ofFn (Function.update x 0 (x 0 ^ 5 + (c[5 * (n + 1) + r] : Fr)))) s r := by
  rw [partialRound_ofFn x c s r hc hs, mixS_eq _ s r hs, partF]
  congr 3
  · rw [Fin.sum_univ_succ]
    simp [cF, List.getElem?_eq_getElem hc, Fin.succ_ne_zero]
  · funext k
    simp [cF, List.getElem?_eq_getElem hc, Fin.succ_ne_zero]

/-- a table of one round for a state of two -/
example : mixS [3, 4] [2, 5, 7] 0 = some [26, 25] := by decide +kernel

end

/-! ## C79 -/

/-- **C79, equality of words.** Satisfiable exactly for equal words. -/
theorem c79_assertEq {k : ℕ} (v w : BitVec k) :
    (v = w → Sha.assertEqWord (Sha.enc v) (Sha.enc w) = pure ()) ∧
      (v ≠ w → ¬ (Sha.assertEqWord (Sha.enc v) (Sha.enc w)).Satisfiable) := by
  have h : (∀ i : Fin k, (Sha.enc v)[i] = (Sha.enc w)[i]) ↔ v = w := by
    rw [← Sha.enc_injective.eq_iff]
    exact ⟨fun h => Vector.ext fun i hi => h ⟨i, hi⟩, fun h i => by rw [h]⟩
  constructor
  · intro e
    exact assert_true (h.2 e)
  · rintro e ⟨_, hs⟩
    exact e (h.1 hs)

/-- **C79, minimum.** -/
theorem c79_min (a b : ℤ) : H2C.goMin a b ≤ a ∧ H2C.goMin a b ≤ b ∧ (H2C.goMin a b = a ∨ H2C.goMin a b = b) := by
  unfold H2C.goMin
  split <;> omega

/-- **C79, membership.** -/
theorem c79_contains (arr : List String) (val : String) : Helpers.contains arr val = true ↔ val ∈ arr := by
  simp [Helpers.contains]

example : Helpers.contains ["a", "b"] "b" = true ∧ Helpers.contains ["a", "b"] "c" = false := by decide

end Spark.UtilProps
