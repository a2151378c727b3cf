import Verif.Lemmas.PoseidonRun
import Verif.Spec.Poseidon

/-! The optimised round structure against the textbook permutation, for any constants that satisfy the
linear relations `Cond`. -/

namespace Spark.Poseidon

open Matrix

variable {n : ℕ}

/-- the matrix without first row and column -/
def low (M : Matrix (Fin (n + 1)) (Fin (n + 1)) Fr) : Matrix (Fin n) (Fin n) Fr := fun i j => M i.succ j.succ
/-- first column below the corner -/
def lowCol (M : Matrix (Fin (n + 1)) (Fin (n + 1)) Fr) : Fin n → Fr := fun i => M i.succ 0
/-- first row right of the corner -/
def lowRow (M : Matrix (Fin (n + 1)) (Fin (n + 1)) Fr) : Fin n → Fr := fun j => M 0 j.succ

/-- the relations between the optimised constants `C`, `S`, `P` and the textbook ones `M`, `R` -/
structure Cond (n rp : ℕ) (M P : Matrix (Fin (n + 1)) (Fin (n + 1)) Fr) (C S : ℕ → Fr)
    (R : ℕ → Fin (n + 1) → Fr) : Prop where
  first : ∀ i : Fin (n + 1), C i = R 0 i
  firstHalf : ∀ k < 3, M *ᵥ (fun i => C (i + (k + 1) * (n + 1))) = R (k + 1)
  lastHalf : ∀ k < 3, M *ᵥ (fun i => C (i + (5 * (n + 1) + rp + k * (n + 1)))) = R (5 + rp + k)
  prow : ∀ j, P 0 j = M 0 j
  pcol : ∀ i : Fin n, P i.succ 0 = (low M ^ rp *ᵥ lowCol M) i
  pmat : ∀ i j : Fin n, P i.succ j.succ = (low M ^ (rp + 1)) i j
  corner : ∀ r < rp, S ((2 * n + 1) * r) = M 0 0
  row : ∀ r < rp, (fun j : Fin n => S ((2 * n + 1) * r + (j + 1))) ᵥ* low M ^ (rp - r) = lowRow M
  col : ∀ r < rp, (fun k : Fin n => S ((2 * n + 1) * r + (n + 1 + k))) = low M ^ (rp - 1 - r) *ᵥ lowCol M
  shift0 : R 4 0 = (M *ᵥ fun i => C (i + 4 * (n + 1))) 0
  shift : ∃ d : ℕ → Fin n → Fr,
    (∀ i, d 0 i = R 4 i.succ - (M *ᵥ fun i => C (i + 4 * (n + 1))) i.succ) ∧
    (∀ r < rp, R (5 + r) 0 + lowRow M ⬝ᵥ d r = M 0 0 * C (5 * (n + 1) + r)) ∧
    (∀ r < rp, ∀ i, d (r + 1) i =
      (low M *ᵥ d r) i + R (5 + r) i.succ - C (5 * (n + 1) + r) * lowCol M i) ∧
    d rp = 0

theorem mulVec_zero' (M : Matrix (Fin (n + 1)) (Fin (n + 1)) Fr) (x : Fin (n + 1) → Fr) :
    (M *ᵥ x) 0 = M 0 0 * x 0 + lowRow M ⬝ᵥ fun i => x i.succ := by
  simp [Matrix.mulVec, dotProduct, Fin.sum_univ_succ, lowRow]

theorem mulVec_succ' (M : Matrix (Fin (n + 1)) (Fin (n + 1)) Fr) (x : Fin (n + 1) → Fr) (i : Fin n) :
    (M *ᵥ x) i.succ = lowCol M i * x 0 + (low M *ᵥ fun i => x i.succ) i := by
  simp [Matrix.mulVec, dotProduct, Fin.sum_univ_succ, lowCol, low]

section
variable {rp : ℕ} {M P : Matrix (Fin (n + 1)) (Fin (n + 1)) Fr} {C S : ℕ → Fr}
  {R : ℕ → Fin (n + 1) → Fr}

/-- the partial round of the code, on functions -/
def partG (C S : ℕ → Fr) (n : ℕ) (x : Fin (n + 1) → Fr) (r : ℕ) : Fin (n + 1) → Fr :=
  let y := x 0 ^ 5 + C (5 * (n + 1) + r)
  Fin.cons (S ((2 * n + 1) * r) * y + ∑ j : Fin n, S ((2 * n + 1) * r + (j + 1)) * x j.succ)
    fun k => x k.succ + y * S ((2 * n + 1) * r + (n + 1 + k))

/-- invariant of the partial rounds: `T` is the textbook state with the constants of round `4 + r` added,
`x` the optimised one -/
def PInv (M : Matrix (Fin (n + 1)) (Fin (n + 1)) Fr) (rp : ℕ) (d : ℕ → Fin n → Fr) (r : ℕ)
    (T x : Fin (n + 1) → Fr) : Prop :=
  x 0 = T 0 ∧ (fun i => x i.succ) = low M ^ (rp - r) *ᵥ ((fun i => T i.succ) - d r)

theorem pinv_step (h : Cond n rp M P C S R) {d : ℕ → Fin n → Fr}
    (hd0 : ∀ r < rp, R (5 + r) 0 + lowRow M ⬝ᵥ d r = M 0 0 * C (5 * (n + 1) + r))
    (hd1 : ∀ r < rp, ∀ i, d (r + 1) i =
      (low M *ᵥ d r) i + R (5 + r) i.succ - C (5 * (n + 1) + r) * lowCol M i)
    {r : ℕ} (hr : r < rp) {T x : Fin (n + 1) → Fr} (hi : PInv M rp d r T x) :
    PInv M rp d (r + 1)
      (fun i => (M *ᵥ fun i => if (i : ℕ) = 0 then T i ^ 5 else T i) i + R (5 + r) i) (partG C S n x r) := by
  obtain ⟨h1, h2⟩ := hi
  set y : Fr := T 0 ^ 5 with hy
  obtain ⟨U, hU, hT, hT'⟩ : ∃ U : Fin (n + 1) → Fr,
      U = (fun i : Fin (n + 1) => if (i : ℕ) = 0 then T i ^ 5 else T i) ∧ U 0 = y ∧
      (fun i : Fin n => U i.succ) = fun i => T i.succ := ⟨_, rfl, by simp [hy], by funext i; simp⟩
  rw [← hU]
  constructor
  · simp only [partG, Fin.cons_zero]
    rw [mulVec_zero', hT, hT', h1, ← hy, h.corner r hr]
    have e : ∑ j : Fin n, S ((2 * n + 1) * r + (j + 1)) * x j.succ =
        lowRow M ⬝ᵥ ((fun i => T i.succ) - d r) := by
      rw [← h.row r hr, ← dotProduct_mulVec, ← h2]; rfl
    rw [e, dotProduct_sub]
    have := hd0 r hr
    linear_combination -this
  · have e1 : (fun i => partG C S n x r (Fin.succ i)) = (fun i => x i.succ) +
        (y + C (5 * (n + 1) + r)) • fun k : Fin n => S ((2 * n + 1) * r + (n + 1 + k)) := by
      funext i
      simp only [partG, Fin.cons_succ, Pi.add_apply, Pi.smul_apply, smul_eq_mul, h1, ← hy]
    rw [e1, h2, h.col r hr, show rp - r = rp - (r + 1) + 1 by omega, pow_succ, ← mulVec_mulVec,
      show rp - 1 - r = rp - (r + 1) by omega, ← mulVec_smul, ← mulVec_add]
    congr 1
    funext i
    simp only [Pi.add_apply, Pi.sub_apply, Pi.smul_apply, smul_eq_mul]
    rw [mulVec_succ', hT, hT', hd1 r hr i, mulVec_sub]
    simp only [Pi.sub_apply]
    ring

/-- textbook state after `k` rounds -/
def textF (M : Matrix (Fin (n + 1)) (Fin (n + 1)) Fr) (R : ℕ → Fin (n + 1) → Fr) (rp : ℕ)
    (x : Fin (n + 1) → Fr) : ℕ → Fin (n + 1) → Fr
  | 0 => x
  | k+1 => if 4 ≤ k ∧ k < 4 + rp then PosSpec.partialRound M (R k) (textF M R rp x k)
      else PosSpec.fullRound M (R k) (textF M R rp x k)

/-- full rounds of the code -/
def fullG (C : ℕ → Fr) (M : Matrix (Fin (n + 1)) (Fin (n + 1)) Fr) (off : ℕ) (x : Fin (n + 1) → Fr) :
    Fin (n + 1) → Fr := M *ᵥ fun i => x i ^ 5 + C (i + off)

/-- the optimised permutation on functions -/
def optG (C S : ℕ → Fr) (M P : Matrix (Fin (n + 1)) (Fin (n + 1)) Fr) (rp : ℕ) (x : Fin (n + 1) → Fr) :
    Fin (n + 1) → Fr :=
  let x0 : Fin (n + 1) → Fr := fun i => x i + C i
  let x1 := (List.range 3).foldl (fun st r => fullG C M ((r + 1) * (n + 1)) st) x0
  let x2 := fullG C P (4 * (n + 1)) x1
  let x3 := (List.range rp).foldl (partG C S n) x2
  let x4 := (List.range 3).foldl (fun st r => fullG C M (5 * (n + 1) + rp + r * (n + 1)) st) x3
  M *ᵥ fun i => x4 i ^ 5

theorem full_step {x X : Fin (n + 1) → Fr} {k off : ℕ} (hx : x = X + R k)
    (hc : M *ᵥ (fun i => C (i + off)) = R (k + 1)) :
    fullG C M off x = PosSpec.fullRound M (R k) X + R (k + 1) := by
  rw [← hc, fullG, PosSpec.fullRound, ← mulVec_add, hx]
  rfl

theorem opt_eq_text (h : Cond n rp M P C S R) (x : Fin (n + 1) → Fr) :
    optG C S M P rp x = textF M R rp x (8 + rp) := by
  obtain ⟨d, hd, hd0, hd1, hd2⟩ := h.shift
  set X := textF M R rp x with hX
  have fullX : ∀ k, ¬ (4 ≤ k ∧ k < 4 + rp) → X (k + 1) = PosSpec.fullRound M (R k) (X k) := by
    intro k hk
    rw [hX, textF, if_neg hk]
  have partX : ∀ k, (4 ≤ k ∧ k < 4 + rp) → X (k + 1) = PosSpec.partialRound M (R k) (X k) := by
    intro k hk
    rw [hX, textF, if_pos hk]
  have h0 : (fun i : Fin (n + 1) => x i + C i) = X 0 + R 0 := by
    funext i
    rw [h.first i]; rfl
  have h1 : (List.range 3).foldl (fun st r => fullG C M ((r + 1) * (n + 1)) st)
      (fun i : Fin (n + 1) => x i + C i) = X 3 + R 3 := by
    simp only [List.range_succ, List.range_zero, List.nil_append, List.cons_append, List.foldl_cons,
      List.foldl_nil]
    rw [full_step h0 (h.firstHalf 0 (by omega)), ← fullX 0 (by omega),
      full_step (k := 1) rfl (h.firstHalf 1 (by omega)), ← fullX 1 (by omega),
      full_step (k := 2) rfl (h.firstHalf 2 (by omega)), ← fullX 2 (by omega)]
  have h2 : PInv M rp d 0 (X 4 + R 4) (fullG C P (4 * (n + 1)) (X 3 + R 3)) := by
    set u : Fin (n + 1) → Fr := fun i => (X 3 + R 3) i ^ 5 with hu
    set c4 : Fin (n + 1) → Fr := fun i => C (i + 4 * (n + 1)) with hc4
    have e4 : X 4 = M *ᵥ u := fullX 3 (by omega)
    have ef : fullG C P (4 * (n + 1)) (X 3 + R 3) = P *ᵥ (u + c4) := rfl
    constructor
    · rw [ef, Pi.add_apply, e4, h.shift0, ← Pi.add_apply, ← mulVec_add]
      change P 0 ⬝ᵥ (u + c4) = M 0 ⬝ᵥ (u + c4)
      rw [show P 0 = M 0 from funext h.prow]
    · rw [ef]
      have e1 : (fun i : Fin n => (P *ᵥ (u + c4)) i.succ) =
          low M ^ rp *ᵥ (fun i : Fin n => (M *ᵥ (u + c4)) i.succ) := by
        generalize u + c4 = z
        funext i
        have : (fun i : Fin n => (M *ᵥ z) i.succ) = z 0 • lowCol M + low M *ᵥ fun i => z i.succ := by
          funext j
          rw [mulVec_succ', Pi.add_apply, Pi.smul_apply, smul_eq_mul, mul_comm]
        rw [this, mulVec_add, mulVec_smul, mulVec_mulVec, ← pow_succ, mulVec_succ']
        simp only [Pi.add_apply, Pi.smul_apply, smul_eq_mul]
        rw [lowCol, h.pcol, mul_comm]
        congr 1
        have : low P = low M ^ (rp + 1) := by
          funext i j
          exact h.pmat i j
        rw [this]
      rw [e1, Nat.sub_zero]
      congr 1
      funext i
      rw [Pi.sub_apply, hd, mulVec_add, Pi.add_apply, Pi.add_apply, e4]
      ring
  have h3 : ∀ r ≤ rp, PInv M rp d r (X (4 + r) + R (4 + r))
      ((List.range r).foldl (partG C S n) (fullG C P (4 * (n + 1)) (X 3 + R 3))) := by
    intro r hr
    induction r with
    | zero => exact h2
    | succ r ih =>
      have := pinv_step h hd0 hd1 (show r < rp by omega) (ih (by omega))
      rw [List.range_succ, List.foldl_append, List.foldl_cons, List.foldl_nil]
      convert this using 1
      funext i
      rw [show 4 + (r + 1) = 4 + r + 1 by omega, partX (4 + r) (by omega), PosSpec.partialRound,
        show 5 + r = 4 + r + 1 by omega]
      rfl
  have h4 : (List.range rp).foldl (partG C S n) (fullG C P (4 * (n + 1)) (X 3 + R 3)) =
      X (4 + rp) + R (4 + rp) := by
    obtain ⟨a, b⟩ := h3 rp le_rfl
    rw [Nat.sub_self, pow_zero, one_mulVec, hd2, sub_zero] at b
    funext i
    refine Fin.cases a (fun k => ?_) i
    exact congrFun b k
  simp only [optG]
  rw [h1, h4]
  simp only [List.range_succ, List.range_zero, List.nil_append, List.cons_append, List.foldl_cons,
    List.foldl_nil]
  have l0 := h.lastHalf 0 (by omega)
  have l1 := h.lastHalf 1 (by omega)
  have l2 := h.lastHalf 2 (by omega)
  rw [show 5 + rp + 0 = 4 + rp + 1 by omega] at l0
  rw [show 5 + rp + 1 = 4 + rp + 1 + 1 by omega] at l1
  rw [show 5 + rp + 2 = 4 + rp + 1 + 1 + 1 by omega] at l2
  rw [full_step (k := 4 + rp) rfl l0, ← fullX (4 + rp) (by omega),
    full_step (k := 4 + rp + 1) rfl l1, ← fullX (4 + rp + 1) (by omega),
    full_step (k := 4 + rp + 1 + 1) rfl l2, ← fullX (4 + rp + 1 + 1) (by omega),
    show 8 + rp = 4 + rp + 1 + 1 + 1 + 1 by omega, fullX (4 + rp + 1 + 1 + 1) (by omega)]
  rfl

end

end Spark.Poseidon
