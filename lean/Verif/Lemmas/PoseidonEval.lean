import Verif.Lemmas.PoseidonAll

/-! Poseidon on packed natural numbers, for evaluating hashes in the kernel. -/

namespace Spark.Poseidon

open Matrix PosSpec

noncomputable section

/-- `a^5` -/
def pow5 (a : ℕ) : ℕ := Nat.mul a (Nat.mul (Nat.mul a a) (Nat.mul a a))
/-- matrix times vector -/
def nMul (n : ℕ) (M : List ℕ) (y : ℕ) : ℕ :=
  packN (Nat.succ n) fun i => Nat.mod (sumN (Nat.succ n) fun j => Nat.mul (cell M j i) (ent y j)) frOrder
/-- S-box and constants -/
def nSbox (n c off st : ℕ) : ℕ :=
  packN (Nat.succ n) fun j => Nat.mod (Nat.add (pow5 (ent st j)) (ent c (Nat.add j off))) frOrder
/-- full round -/
def nFull (n c : ℕ) (M : List ℕ) (off st : ℕ) : ℕ := force (nSbox n c off st) fun y => nMul n M y
/-- partial round: `y` the new first element, `row` the sparse matrix -/
def nPart (n row y st : ℕ) : ℕ :=
  packN (Nat.succ n) fun i => Nat.mod
    (Nat.rec (Nat.add (Nat.mul (ent row 0) y) (sumN n fun j => Nat.mul (ent row (Nat.succ j)) (ent st (Nat.succ j))))
      (fun k _ => Nat.add (ent st (Nat.succ k)) (Nat.mul y (ent row (Nat.add (Nat.succ n) k)))) i) frOrder
/-- partial round number `r` -/
def nPartR (n c : ℕ) (S : List ℕ) (st r : ℕ) : ℕ :=
  force (Nat.mod (Nat.add (pow5 (ent st 0)) (ent c (Nat.add (Nat.mul 5 (Nat.succ n)) r))) frOrder) fun y =>
    force (nth S r) fun row => nPart n row y st
/-- rounds `r, r + 1, …, r + k - 1` -/
def nLoop (f : ℕ → ℕ → ℕ) (k r st : ℕ) : ℕ :=
  Nat.rec (fun _ st => st) (fun _ ih r st => force (f st r) fun st' => ih (Nat.succ r) st') k r st
/-- `Poseidon` -/
def nPos (n rp c : ℕ) (S M P : List ℕ) (x : ℕ) : ℕ :=
  force (packN (Nat.succ n) fun i => Nat.mod (Nat.add (Nat.rec 0 (fun j _ => ent x j) i) (ent c i)) frOrder) fun st =>
  force (nLoop (fun st r => nFull n c M (Nat.mul (Nat.succ r) (Nat.succ n)) st) 3 0 st) fun st =>
  force (nFull n c P (Nat.mul 4 (Nat.succ n)) st) fun st =>
  force (nLoop (fun st r => nPartR n c S st r) rp 0 st) fun st =>
  force (nLoop (fun st r => nFull n c M (Nat.add (Nat.add (Nat.mul 5 (Nat.succ n)) rp) (Nat.mul r (Nat.succ n))) st) 3 0 st)
    fun st => Nat.mod (sumN (Nat.succ n) fun j => Nat.mul (cell M j 0) (pow5 (ent st j))) frOrder

theorem pow5_cast (a : ℕ) : ((pow5 a : ℕ) : Fr) = (a : Fr) ^ 5 := by
  have : pow5 a = a ^ 5 := by
    change a * (a * a * (a * a)) = a ^ 5
    ring
  rw [this, Nat.cast_pow]

variable {n : ℕ}

theorem nMul_vec (M : List ℕ) (y : ℕ) : vec (n + 1) (nMul n M y) = mM n M *ᵥ vec (n + 1) y := by
  rw [nMul, vec_pack]
  funext i
  rw [sumN_eq, Matrix.mulVec, dotProduct]
  refine Finset.sum_congr rfl fun j _ => ?_
  change ((cell M j i * ent y j : ℕ) : Fr) = _
  rw [Nat.cast_mul]; rfl

theorem nSbox_vec (c off st : ℕ) : vec (n + 1) (nSbox n c off st) =
    fun j => vec (n + 1) st j ^ 5 + ((ent c (j + off) : ℕ) : Fr) := by
  rw [nSbox, vec_pack]
  funext j
  change ((pow5 (ent st j) + ent c (j + off) : ℕ) : Fr) = _
  rw [Nat.cast_add, pow5_cast]; rfl

theorem nFull_vec (c : ℕ) (M : List ℕ) (off st : ℕ) : vec (n + 1) (nFull n c M off st) =
    fullG (fun i => ((ent c i : ℕ) : Fr)) (mM n M) off (vec (n + 1) st) := by
  rw [nFull, force_eq, nMul_vec, nSbox_vec, fullG]

theorem nPart_vec (row y st : ℕ) : vec (n + 1) (nPart n row y st) =
    Fin.cons (((ent row 0 : ℕ) : Fr) * (y : Fr) + ∑ j : Fin n, ((ent row (j + 1) : ℕ) : Fr) * vec (n + 1) st j.succ)
      fun k => vec (n + 1) st k.succ + (y : Fr) * ((ent row (n + 1 + k) : ℕ) : Fr) := by
  rw [nPart, vec_pack]
  funext i
  refine Fin.cases ?_ (fun k => ?_) i
  · change ((ent row 0 * y + sumN n fun j => Nat.mul (ent row (Nat.succ j)) (ent st (Nat.succ j)) : ℕ) : Fr) = _
    rw [Fin.cons_zero, Nat.cast_add, Nat.cast_mul, sumN_eq]
    congr 1
    refine Finset.sum_congr rfl fun j _ => ?_
    change ((ent row (j + 1) * ent st (j + 1) : ℕ) : Fr) = _
    rw [Nat.cast_mul]; rfl
  · change ((ent st (k + 1) + y * ent row (n + 1 + k) : ℕ) : Fr) = _
    rw [Fin.cons_succ, Nat.cast_add, Nat.cast_mul]; rfl

theorem nPartR_vec (c : ℕ) (S : List ℕ) (st r : ℕ) : vec (n + 1) (nPartR n c S st r) =
    partG (fun i => ((ent c i : ℕ) : Fr)) (fun i => ((cell S (i / (2 * n + 1)) (i % (2 * n + 1)) : ℕ) : Fr)) n
      (vec (n + 1) st) r := by
  have sS : ∀ j : ℕ, j < 2 * n + 1 → ((cell S (((2 * n + 1) * r + j) / (2 * n + 1))
      (((2 * n + 1) * r + j) % (2 * n + 1)) : ℕ) : Fr) = ((ent (nth S r) j : ℕ) : Fr) := by
    intro j hj
    rw [Nat.mul_add_div (by omega), Nat.div_eq_of_lt hj, add_zero, Nat.mul_add_mod, Nat.mod_eq_of_lt hj]; rfl
  have s0 := sS 0 (by omega)
  rw [add_zero] at s0
  have hy : ((Nat.add (pow5 (ent st 0)) (ent c (Nat.add (Nat.mul 5 (Nat.succ n)) r)) : ℕ) : Fr) =
      vec (n + 1) st 0 ^ 5 + ((ent c (5 * (n + 1) + r) : ℕ) : Fr) := by
    change ((pow5 (ent st 0) + ent c (5 * (n + 1) + r) : ℕ) : Fr) = _
    rw [Nat.cast_add, pow5_cast]; rfl
  rw [nPartR, force_eq, force_eq, nPart_vec, cast_mod, hy, partG, s0]
  refine congrArg₂ Fin.cons ?_ ?_
  · refine congrArg₂ (· + ·) rfl ?_
    refine Finset.sum_congr rfl fun j _ => ?_
    rw [sS _ (by omega)]
  · funext k
    rw [sS _ (by omega)]

theorem nLoop_vec {f : ℕ → ℕ → ℕ} {g : (Fin (n + 1) → Fr) → ℕ → Fin (n + 1) → Fr}
    (h : ∀ st r, vec (n + 1) (f st r) = g (vec (n + 1) st) r) (k r st : ℕ) :
    vec (n + 1) (nLoop f k r st) = (List.range' r k).foldl g (vec (n + 1) st) := by
  induction k generalizing r st with
  | zero => rfl
  | succ k ih =>
    have e : nLoop f (k + 1) r st = force (f st r) fun st' => nLoop f k (Nat.succ r) st' := rfl
    rw [e, force_eq, ih, h, List.range'_succ, List.foldl_cons]

/-- the evaluator computes `Poseidon` -/
theorem nPos_spec {rp w1 w2 w3 w4 : ℕ} {C S M P : List ℕ} (hr : partialRounds n = some rp)
    (tc : PosData.C (n + 1) = some (C, w1)) (ts : PosData.S (n + 1) = some (S, w2))
    (tm : PosData.M (n + 1) = some (M, w3)) (tp : PosData.P (n + 1) = some (P, w4)) (h1 : w1 = 8 * (n + 1) + rp)
    (h2 : w2 = 2 * n + 1) (h3 : w3 = n + 1) (h4 : w4 = n + 1)
    (l1 : C.length = 1) (l2 : S.length = rp) (l3 : M.length = n + 1) (l4 : P.length = n + 1)
    (hc : nth C 0 < 2 ^ (256 * (8 * (n + 1) + rp))) (x : ℕ) :
    poseidon (List.ofFn (vec n x)) = some ((nPos n rp (nth C 0) S M P x : ℕ) : Fr) := by
  subst h1; subst h2; subst h3; subst h4
  have lC : (C.flatMap (unpack (8 * (n + 1) + rp))).length = 8 * (n + 1) + rp := by
    rw [length_flat, l1, one_mul]
  have lS : (S.flatMap (unpack (2 * n + 1))).length = (2 * n + 1) * rp := by
    rw [length_flat, l2, mul_comm]
  have hC : ∀ i, cF (C.flatMap (unpack (8 * (n + 1) + rp))) i = ((ent (nth C 0) i : ℕ) : Fr) := by
    intro i
    conv_lhs => rw [single_of_length l1]
    exact cF_single _ _ hc i
  have hS : ∀ r < rp, ∀ j < 2 * n + 1, cF (S.flatMap (unpack (2 * n + 1))) ((2 * n + 1) * r + j) =
      (fun i : ℕ => ((cell S (i / (2 * n + 1)) (i % (2 * n + 1)) : ℕ) : Fr)) ((2 * n + 1) * r + j) := by
    intro r hr j hj
    rw [cF, getD_flat _ _ _ _ hj]
    simp only
    rw [Nat.mul_add_div (by omega), Nat.div_eq_of_lt hj, add_zero, Nat.mul_add_mod, Nat.mod_eq_of_lt hj]
  have hM : (matF (M.map (unpack (n + 1))) : Matrix (Fin (n + 1)) (Fin (n + 1)) Fr) = mM n M := by
    funext i j
    exact matF_rows n M l3 i j
  have hP : (matF (P.map (unpack (n + 1))) : Matrix (Fin (n + 1)) (Fin (n + 1)) Fr) = mM n P := by
    funext i j
    exact matF_rows n P l4 i j
  rw [poseidon, poseidonEx_ofFn (vec n x) 0 1 (by omega) hr (by rw [tableC, tc]; rfl) (by rw [tableS, ts]; rfl)
    (by rw [tableM, tm]; rfl) (by rw [tableP, tp]; rfl) lC lS (square_rows n M l3) (square_rows n P l4),
    optF_eq (C := fun i => ((ent (nth C 0) i : ℕ) : Fr))
      (S := fun i : ℕ => ((cell S (i / (2 * n + 1)) (i % (2 * n + 1)) : ℕ) : Fr)) hC hS, hM, hP]
  change some _ = _
  refine congrArg some ?_
  rw [nPos, force_eq, force_eq, force_eq, force_eq, force_eq, cast_mod, sumN_eq, optG]
  dsimp only
  rw [show Fin.castLE (by omega : 1 ≤ n + 1) ⟨0, by omega⟩ = 0 from rfl, Matrix.mulVec, dotProduct]
  have hx : vec (n + 1) (packN (Nat.succ n) fun i => Nat.mod (Nat.add (Nat.rec 0 (fun j _ => ent x j) i)
      (ent (nth C 0) i)) frOrder) = fun i => (Fin.cons 0 (vec n x) : Fin (n + 1) → Fr) i + ((ent (nth C 0) i : ℕ) : Fr) := by
    rw [vec_pack]
    funext i
    refine Fin.cases ?_ (fun k => ?_) i
    · change ((0 + ent (nth C 0) 0 : ℕ) : Fr) = _
      rw [Fin.cons_zero, Nat.cast_add, Nat.cast_zero]; rfl
    · change ((ent x k + ent (nth C 0) (k + 1) : ℕ) : Fr) = _
      rw [Fin.cons_succ, Nat.cast_add]; rfl
  rw [← hx, List.range_eq_range', List.range_eq_range',
    ← nLoop_vec (f := fun st r => nFull n (nth C 0) M (Nat.mul (Nat.succ r) (Nat.succ n)) st) (fun st r => nFull_vec _ _ _ _),
    ← nFull_vec, ← nLoop_vec (f := fun st r => nPartR n (nth C 0) S st r) (fun st r => nPartR_vec _ _ _ _),
    ← nLoop_vec (f := fun st r => nFull n (nth C 0) M (Nat.add (Nat.add (Nat.mul 5 (Nat.succ n)) rp)
      (Nat.mul r (Nat.succ n))) st) (fun st r => nFull_vec _ _ _ _)]
  refine Finset.sum_congr rfl fun j _ => ?_
  change _ = ((cell M j 0 * pow5 _ : ℕ) : Fr)
  rw [Nat.cast_mul, pow5_cast]; rfl

end

end Spark.Poseidon
