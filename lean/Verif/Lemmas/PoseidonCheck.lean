import Verif.Lemmas.PoseidonOpt
import Verif.Data.PoseidonRef

/-! A checker for the relations `Cond`, written so that the kernel evaluates it quickly, and its soundness. -/

namespace Spark.Poseidon

open Matrix

noncomputable section

/-- `Σ_{i<n} f i` -/
def sumN (n : ℕ) (f : ℕ → ℕ) : ℕ := Nat.rec 0 (fun i acc => Nat.add acc (f i)) n
/-- `∀ i < n, p i` -/
def allN (n : ℕ) (p : ℕ → Bool) : Bool := Nat.rec true (fun i acc => Bool.rec false acc (p i)) n
/-- congruence modulo the scalar field order -/
def eqm (a b : ℕ) : Bool := Nat.beq (Nat.mod a frOrder) (Nat.mod b frOrder)
/-- conjunction -/
def andB (a b : Bool) : Bool := Bool.rec false b a
/-- packed entry -/
def ent (row i : ℕ) : ℕ := Nat.mod (Nat.shiftRight row (Nat.mul 256 i)) (Nat.pow 2 256)
/-- list access, 0 outside -/
def nth (l : List ℕ) (i : ℕ) : ℕ :=
  List.rec (fun _ => 0) (fun a _ ih i => Nat.rec a (fun j _ => ih j) i) l i
/-- packing -/
def packN (n : ℕ) (f : ℕ → ℕ) : ℕ :=
  Nat.rec 0 (fun i acc => Nat.add acc (Nat.shiftLeft (f i) (Nat.mul 256 i))) n
/-- evaluate before continuing -/
def force {α : Type} (n : ℕ) (k : ℕ → α) : α := Nat.rec (k 0) (fun m _ => k (Nat.succ m)) n

theorem sumN_succ (n : ℕ) (f : ℕ → ℕ) : sumN (n + 1) f = sumN n f + f n := rfl
theorem sumN_eq (n : ℕ) (f : ℕ → ℕ) : ((sumN n f : ℕ) : Fr) = ∑ i : Fin n, ((f i : ℕ) : Fr) := by
  induction n with
  | zero => simp [sumN]
  | succ n ih => rw [sumN_succ, Nat.cast_add, ih, Fin.sum_univ_castSucc]; rfl

theorem allN_spec {n : ℕ} {p : ℕ → Bool} (h : allN n p = true) : ∀ i < n, p i = true := by
  induction n with
  | zero => intro i hi; omega
  | succ n ih =>
    have e : allN (n + 1) p = Bool.rec false (allN n p) (p n) := rfl
    rw [e] at h
    intro i hi
    rcases hp : p n with _ | _
    · rw [hp] at h; exact absurd h (by simp)
    · rw [hp] at h
      rcases Nat.lt_succ_iff_lt_or_eq.1 hi with h1 | rfl
      · exact ih h i h1
      · exact hp

theorem eqm_spec {a b : ℕ} (h : eqm a b = true) : (a : Fr) = (b : Fr) :=
  (ZMod.natCast_eq_natCast_iff a b frOrder).2 (Nat.eq_of_beq_eq_true h)

theorem andB_spec {a b : Bool} (h : andB a b = true) : a = true ∧ b = true := by
  cases a
  · exact absurd h (by simp [andB])
  · exact ⟨rfl, h⟩

theorem ent_eq (row i : ℕ) : ent row i = entry row i := rfl

theorem nth_eq (l : List ℕ) (i : ℕ) : nth l i = l.getD i 0 := by
  induction l generalizing i with
  | nil => rfl
  | cons a l ih =>
    cases i with
    | zero => rfl
    | succ i => exact ih i

theorem force_eq {α : Type} (n : ℕ) (k : ℕ → α) : force n k = k n := by cases n <;> rfl

theorem packN_succ (n : ℕ) (f : ℕ → ℕ) : packN (n + 1) f = packN n f + f n <<< (256 * n) := rfl

theorem packN_lt {n : ℕ} {f : ℕ → ℕ} (hf : ∀ i < n, f i < 2 ^ 256) : packN n f < 2 ^ (256 * n) := by
  induction n with
  | zero => simp [packN]
  | succ n ih =>
    rw [packN_succ, Nat.shiftLeft_eq, Nat.mul_add, pow_add]
    have h1 := ih (fun i hi => hf i (by omega))
    have h2 := hf n (by omega)
    have h3 := Nat.mul_le_mul_right (2 ^ (256 * n)) (Nat.succ_le_of_lt h2)
    rw [Nat.succ_mul] at h3
    rw [mul_comm (2 ^ (256 * n))]
    exact lt_of_lt_of_le (by omega) h3

theorem ent_packN {n : ℕ} {f : ℕ → ℕ} (hf : ∀ i < n, f i < 2 ^ 256) {i : ℕ} (hi : i < n) :
    ent (packN n f) i = f i := by
  rw [ent_eq, entry]
  induction n with
  | zero => omega
  | succ n ih =>
    rw [packN_succ, Nat.shiftRight_eq_div_pow, Nat.shiftLeft_eq]
    rcases Nat.lt_succ_iff_lt_or_eq.1 hi with h1 | rfl
    · have ih' := ih (fun i hi => hf i (by omega)) h1
      rw [Nat.shiftRight_eq_div_pow] at ih'
      rw [show 256 * n = 256 * i + (256 + 256 * (n - i - 1)) by omega, pow_add, pow_add,
        show f n * (2 ^ (256 * i) * (2 ^ 256 * 2 ^ (256 * (n - i - 1)))) =
          2 ^ (256 * i) * (2 ^ 256 * (f n * 2 ^ (256 * (n - i - 1)))) by ring,
        Nat.add_mul_div_left _ _ (by positivity), Nat.add_mul_mod_self_left]
      exact ih'
    · have := packN_lt (fun j hj => hf j (by omega : j < i + 1))
      rw [Nat.add_mul_div_right _ _ (by positivity), Nat.div_eq_of_lt (packN_lt fun j hj => hf j (by omega)),
        zero_add, Nat.mod_eq_of_lt (hf i hi)]

/-! ### matrices -/

/-- entry of a packed `n` by `n` matrix -/
def mEnt (n A i j : ℕ) : ℕ := ent A (Nat.add (Nat.mul n i) j)
/-- packed matrix -/
def mPack (n : ℕ) (f : ℕ → ℕ → ℕ) : ℕ :=
  packN (Nat.mul n n) (fun k => Nat.mod (f (Nat.div k n) (Nat.mod k n)) frOrder)
/-- product -/
def mMul (n A B : ℕ) : ℕ := mPack n fun i j => sumN n fun k => Nat.mul (mEnt n A i k) (mEnt n B k j)

/-- the matrix denoted by a packed literal -/
def mat (n A : ℕ) : Matrix (Fin n) (Fin n) Fr := fun i j => ((mEnt n A i j : ℕ) : Fr)

theorem frOrder_lt : frOrder < 2 ^ 256 := by decide +kernel
theorem frOrder_pos : 0 < frOrder := by decide +kernel
theorem mod_fr_lt (a : ℕ) : Nat.mod a frOrder < 2 ^ 256 :=
  lt_trans (Nat.mod_lt _ frOrder_pos) frOrder_lt
theorem cast_mod (a : ℕ) : ((Nat.mod a frOrder : ℕ) : Fr) = (a : Fr) := ZMod.natCast_mod a frOrder

theorem mEnt_pack (n : ℕ) (f : ℕ → ℕ → ℕ) {i j : ℕ} (hi : i < n) (hj : j < n) :
    mEnt n (mPack n f) i j = Nat.mod (f i j) frOrder := by
  have hn : 0 < n := by omega
  have e1 : (n * i + j) / n = i := by
    rw [Nat.mul_add_div hn, Nat.div_eq_of_lt hj, add_zero]
  have e2 : (n * i + j) % n = j := by rw [Nat.mul_add_mod, Nat.mod_eq_of_lt hj]
  have hl : n * i + j < n * n := by
    have := Nat.mul_le_mul_left n (Nat.succ_le_of_lt hi)
    rw [Nat.mul_succ] at this; omega
  rw [mEnt, mPack]
  refine (ent_packN (fun k _ => mod_fr_lt _) hl).trans ?_
  change Nat.mod (f ((n * i + j) / n) ((n * i + j) % n)) frOrder = _
  rw [e1, e2]

theorem mat_pack (n : ℕ) (f : ℕ → ℕ → ℕ) :
    mat n (mPack n f) = fun i j : Fin n => ((f i j : ℕ) : Fr) := by
  funext i j
  rw [mat, mEnt_pack n f i.2 j.2, cast_mod]

theorem mat_mul (n A B : ℕ) : mat n (mMul n A B) = mat n A * mat n B := by
  rw [mMul, mat_pack]
  funext i j
  rw [sumN_eq, Matrix.mul_apply]
  refine Finset.sum_congr rfl fun k _ => ?_
  change ((mEnt n A i k * mEnt n B k j : ℕ) : Fr) = _
  rw [Nat.cast_mul]; rfl

/-- square and multiply -/
def mPow (n : ℕ) (fuel : ℕ) : ℕ → ℕ → ℕ → ℕ :=
  Nat.rec (fun _ _ acc => acc)
    (fun _ ih e base acc => Bool.rec
      (force (Bool.rec acc (mMul n acc base) (Nat.beq (Nat.mod e 2) 1)) fun acc' =>
        force (mMul n base base) fun base' => ih (Nat.div e 2) base' acc')
      acc (Nat.beq e 0)) fuel

theorem mPow_spec (n fuel e base acc : ℕ) (h : e < 2 ^ fuel) :
    mat n (mPow n fuel e base acc) = mat n acc * mat n base ^ e := by
  induction fuel generalizing e base acc with
  | zero =>
    have : e = 0 := by simpa using h
    subst this
    rw [pow_zero, mul_one]; rfl
  | succ f ih =>
    have e1 : mPow n (f + 1) e base acc = Bool.rec
      (force (Bool.rec acc (mMul n acc base) (Nat.beq (Nat.mod e 2) 1)) fun acc' =>
        force (mMul n base base) fun base' => mPow n f (Nat.div e 2) base' acc')
      acc (Nat.beq e 0) := rfl
    rw [e1, force_eq, force_eq]
    rcases h0 : Nat.beq e 0 with _ | _
    · simp only
      rw [ih _ _ _ (by
        change e / 2 < 2 ^ f
        rw [pow_succ] at h; omega), mat_mul, ← pow_two, ← pow_mul]
      change _ * mat n base ^ (2 * (e / 2)) = _
      rcases h1 : Nat.beq (Nat.mod e 2) 1 with _ | _
      · have : e % 2 ≠ 1 := fun hc => by
          have : Nat.beq (Nat.mod e 2) 1 = true := by
            change Nat.beq (e % 2) 1 = true
            rw [hc]; rfl
          rw [this] at h1; cases h1
        rw [show 2 * (e / 2) = e by omega]
      · have : e % 2 = 1 := Nat.eq_of_beq_eq_true h1
        simp only
        rw [mat_mul, mul_assoc, ← pow_succ', show 2 * (e / 2) + 1 = e by omega]
    · have : e = 0 := Nat.eq_of_beq_eq_true h0
      subst this
      rw [pow_zero, mul_one]

/-! ### the checks

`c` is the packed row of `POSEIDON_C`, `S`, `M`, `P` the packed rows of the other tables, `R` the packed
textbook round constants, one row per round; `n` inputs, `rp` partial rounds. -/

/-- entry of a table of packed rows -/
def cell (rows : List ℕ) (i j : ℕ) : ℕ := ent (nth rows i) j

/-- `(M · c[off …])_i` -/
def mc (n : ℕ) (M : List ℕ) (c off i : ℕ) : ℕ :=
  sumN (Nat.succ n) fun j => Nat.mul (cell M j i) (ent c (Nat.add j off))

/-- constants of the full rounds -/
def chkFull (n rp c : ℕ) (M R : List ℕ) : Bool :=
  andB (allN (Nat.succ n) fun i => eqm (ent c i) (cell R 0 i))
    (andB (allN 3 fun k => allN (Nat.succ n) fun i =>
        eqm (mc n M c (Nat.mul (Nat.succ k) (Nat.succ n)) i) (cell R (Nat.succ k) i))
      (allN 3 fun k => allN (Nat.succ n) fun i =>
        eqm (mc n M c (Nat.add (Nat.add (Nat.mul 5 (Nat.succ n)) rp) (Nat.mul k (Nat.succ n))) i)
          (cell R (Nat.add (Nat.add 5 rp) k) i)))

/-- `low M` packed -/
def lowN (n : ℕ) (M : List ℕ) : ℕ := mPack n fun i j => cell M (Nat.succ j) (Nat.succ i)

/-- the matrix of the last full round before the partial rounds -/
def chkP (n rp L : ℕ) (M P S : List ℕ) : Bool :=
  andB (allN (Nat.succ n) fun j => eqm (cell P j 0) (cell M j 0))
    (andB (allN n fun i => eqm (cell P 0 (Nat.succ i))
        (sumN n fun j => Nat.mul (mEnt n L i j) (cell S 0 (Nat.add (Nat.succ n) j))))
      (force (mPow n 8 rp L L) fun Q =>
        allN n fun i => allN n fun j => eqm (cell P (Nat.succ j) (Nat.succ i)) (mEnt n Q i j)))

/-- the sparse matrices -/
def chkS (n rp L : ℕ) (M S : List ℕ) : Bool :=
  andB (allN rp fun r => eqm (cell S r 0) (cell M 0 0))
    (andB (allN n fun j => eqm (sumN n fun i => Nat.mul (cell S (Nat.pred rp) (Nat.succ i)) (mEnt n L i j))
        (cell M (Nat.succ j) 0))
      (andB (allN n fun i => eqm (cell S (Nat.pred rp) (Nat.add (Nat.succ n) i)) (cell M 0 (Nat.succ i)))
        (allN (Nat.pred rp) fun r =>
          andB (allN n fun j => eqm (sumN n fun i => Nat.mul (cell S r (Nat.succ i)) (mEnt n L i j))
              (cell S (Nat.succ r) (Nat.succ j)))
            (allN n fun i => eqm (cell S r (Nat.add (Nat.succ n) i))
              (sumN n fun j => Nat.mul (mEnt n L i j) (cell S (Nat.succ r) (Nat.add (Nat.succ n) j)))))))

/-- `-a` -/
def negN (a : ℕ) : ℕ := Nat.sub frOrder (Nat.mod a frOrder)

/-- first shift vector -/
def d0N (n c : ℕ) (M R : List ℕ) : ℕ :=
  packN n fun i => Nat.mod (Nat.add (cell R 4 (Nat.succ i)) (negN (mc n M c (Nat.mul 4 (Nat.succ n)) (Nat.succ i)))) frOrder

/-- next shift vector -/
def dNext (n c L : ℕ) (M R : List ℕ) (r d : ℕ) : ℕ :=
  packN n fun i => Nat.mod (Nat.add (Nat.add (sumN n fun j => Nat.mul (mEnt n L i j) (ent d j))
    (cell R (Nat.add 5 r) (Nat.succ i)))
    (negN (Nat.mul (ent c (Nat.add (Nat.mul 5 (Nat.succ n)) r)) (cell M 0 (Nat.succ i))))) frOrder

/-- constant of the first element in a partial round -/
def chkR (n c : ℕ) (M R : List ℕ) (r d : ℕ) : Bool :=
  eqm (Nat.add (cell R (Nat.add 5 r) 0) (sumN n fun j => Nat.mul (cell M (Nat.succ j) 0) (ent d j)))
    (Nat.mul (cell M 0 0) (ent c (Nat.add (Nat.mul 5 (Nat.succ n)) r)))

/-- all partial rounds -/
def dLoop (n c L : ℕ) (M R : List ℕ) (k : ℕ) : ℕ → ℕ → Bool :=
  Nat.rec (fun _ d => Nat.beq d 0)
    (fun _ ih r d => andB (chkR n c M R r d) (force (dNext n c L M R r d) fun d' => ih (Nat.succ r) d')) k

/-- everything -/
def chk (n rp c : ℕ) (S M P R : List ℕ) : Bool :=
  andB (Nat.blt 0 rp) (andB (Nat.blt rp 256) (andB (Nat.blt c (Nat.pow 2 (Nat.mul 256 (Nat.add (Nat.mul 8 (Nat.succ n)) rp))))
    (force (lowN n M) fun L =>
      andB (chkFull n rp c M R) (andB (chkP n rp L M P S) (andB (chkS n rp L M S)
        (andB (eqm (cell R 4 0) (mc n M c (Nat.mul 4 (Nat.succ n)) 0))
          (force (d0N n c M R) fun d => dLoop n c L M R rp 0 d)))))))

/-! ### tables -/

theorem getD_unpack (w row i : ℕ) (h : i < w) : (unpack w row).getD i 0 = ent row i := by
  rw [unpack, List.getD_eq_getElem _ _ (by simpa using h)]
  simp [ent_eq]

theorem getD_flat (rows : List ℕ) (w r j : ℕ) (hj : j < w) :
    (rows.flatMap (unpack w)).getD (w * r + j) 0 = cell rows r j := by
  induction rows generalizing r with
  | nil =>
    rw [cell, nth_eq]
    simp [ent_eq, entry]
  | cons a rows ih =>
    rw [List.flatMap_cons]
    cases r with
    | zero =>
      rw [Nat.mul_zero, Nat.zero_add, List.getD_append _ _ _ _ (by simpa [unpack] using hj), getD_unpack _ _ _ hj]
      rfl
    | succ r =>
      have hl : (unpack w a).length = w := by simp [unpack]
      rw [List.getD_append_right _ _ _ _ (by rw [hl, Nat.mul_succ]; omega), hl,
        show w * (r + 1) + j - w = w * r + j by rw [Nat.mul_succ]; omega, ih]
      rfl

theorem cF_single (w row : ℕ) (h : row < 2 ^ (256 * w)) (i : ℕ) :
    cF ([row].flatMap (unpack w)) i = ((ent row i : ℕ) : Fr) := by
  rw [cF, List.flatMap_singleton]
  by_cases hi : i < w
  · rw [getD_unpack _ _ _ hi]
  · rw [List.getD_eq_default _ _ (by simpa [unpack] using hi), ent_eq, entry, Nat.shiftRight_eq_div_pow,
      Nat.div_eq_of_lt (lt_of_lt_of_le h (Nat.pow_le_pow_right (by omega) (Nat.mul_le_mul_left _ (by omega)))),
      Nat.zero_mod]

theorem matF_rows (n : ℕ) (rows : List ℕ) (hl : rows.length = n + 1) (i j : Fin (n + 1)) :
    matF (rows.map (unpack (n + 1))) i j = ((cell rows j i : ℕ) : Fr) := by
  have hj : (j : ℕ) < rows.length := by rw [hl]; exact j.2
  rw [matF, List.getD_eq_getElem (rows.map (unpack (n + 1))) _ (by simpa using hj), List.getElem_map,
    getD_unpack _ _ _ i.2, cell, nth_eq, List.getD_eq_getElem _ _ hj]

theorem square_rows (n : ℕ) (rows : List ℕ) (hl : rows.length = n + 1) :
    Square (n + 1) (rows.map (unpack (n + 1))) := by
  refine ⟨by simpa using hl, ?_⟩
  intro row hr
  obtain ⟨a, -, rfl⟩ := List.mem_map.1 hr
  simp [unpack]

/-! ### soundness -/

section
variable {n rp c : ℕ} {S M P R : List ℕ}

/-- matrix of the packed rows -/
def mM (n : ℕ) (M : List ℕ) : Matrix (Fin (n + 1)) (Fin (n + 1)) Fr := fun i j => ((cell M j i : ℕ) : Fr)

theorem mc_eq (off : ℕ) (i : Fin (n + 1)) : ((mc n M c off i : ℕ) : Fr) =
    (mM n M *ᵥ fun j : Fin (n + 1) => ((ent c (j + off) : ℕ) : Fr)) i := by
  rw [mc, sumN_eq, Matrix.mulVec, dotProduct]
  refine Finset.sum_congr rfl fun j _ => ?_
  change ((cell M j i * ent c (j + off) : ℕ) : Fr) = _
  rw [Nat.cast_mul]; rfl

theorem low_eq : mat n (lowN n M) = low (mM n M) := by
  rw [lowN, mat_pack]; rfl

theorem negN_cast (a : ℕ) : ((negN a : ℕ) : Fr) = -(a : Fr) := by
  have h : negN a + Nat.mod a frOrder = frOrder :=
    Nat.sub_add_cancel (le_of_lt (Nat.mod_lt _ frOrder_pos))
  have := congrArg (Nat.cast (R := Fr)) h
  rw [Nat.cast_add, cast_mod, ZMod.natCast_self] at this
  linear_combination this

/-- the shift vectors -/
def dSeq (n c L : ℕ) (M R : List ℕ) : ℕ → ℕ
  | 0 => d0N n c M R
  | r+1 => dNext n c L M R r (dSeq n c L M R r)

theorem dLoop_spec (L k r : ℕ) (h : dLoop n c L M R k r (dSeq n c L M R r) = true) :
    (∀ j < k, chkR n c M R (r + j) (dSeq n c L M R (r + j)) = true) ∧ dSeq n c L M R (r + k) = 0 := by
  induction k generalizing r with
  | zero => exact ⟨fun j hj => by omega, Nat.eq_of_beq_eq_true h⟩
  | succ k ih =>
    have e : dLoop n c L M R (k + 1) r (dSeq n c L M R r) = andB (chkR n c M R r (dSeq n c L M R r))
      (force (dNext n c L M R r (dSeq n c L M R r)) fun d' => dLoop n c L M R k (Nat.succ r) d') := rfl
    rw [e, force_eq] at h
    obtain ⟨h1, h2⟩ := andB_spec h
    obtain ⟨h3, h4⟩ := ih (r + 1) h2
    refine ⟨fun j hj => ?_, ?_⟩
    · cases j with
      | zero => exact h1
      | succ j =>
        have := h3 j (by omega)
        rwa [show r + 1 + j = r + (j + 1) by omega] at this
    · rwa [show r + 1 + k = r + (k + 1) by omega] at h4

/-- a packed vector -/
def vec (n d : ℕ) : Fin n → Fr := fun i => ((ent d i : ℕ) : Fr)

theorem vec_pack (f : ℕ → ℕ) : vec n (packN n fun i => Nat.mod (f i) frOrder) = fun i : Fin n => ((f i : ℕ) : Fr) := by
  funext i
  rw [vec, ent_packN (fun _ _ => mod_fr_lt _) i.2, cast_mod]

theorem chk_sound (h : chk n rp c S M P R = true) :
    c < 2 ^ (256 * (8 * (n + 1) + rp)) ∧
    Cond n rp (mM n M) (mM n P) (fun i => ((ent c i : ℕ) : Fr))
      (fun i => ((cell S (i / (2 * n + 1)) (i % (2 * n + 1)) : ℕ) : Fr))
      (fun k i => ((cell R k i : ℕ) : Fr)) := by
  rw [chk, force_eq, force_eq] at h
  obtain ⟨hrp, h⟩ := andB_spec h
  obtain ⟨hrp2, h⟩ := andB_spec h
  obtain ⟨hc, h⟩ := andB_spec h
  obtain ⟨hF, h⟩ := andB_spec h
  obtain ⟨hP, h⟩ := andB_spec h
  obtain ⟨hS, h⟩ := andB_spec h
  obtain ⟨h0, hd⟩ := andB_spec h
  obtain ⟨hF1, hF⟩ := andB_spec hF
  obtain ⟨hF2, hF3⟩ := andB_spec hF
  rw [chkP, force_eq] at hP
  obtain ⟨hP1, hP⟩ := andB_spec hP
  obtain ⟨hP2, hP3⟩ := andB_spec hP
  obtain ⟨hS1, hS⟩ := andB_spec hS
  obtain ⟨hS2, hS⟩ := andB_spec hS
  obtain ⟨hS3, hS4⟩ := andB_spec hS
  have hrp : 0 < rp := Nat.blt_eq ▸ hrp
  have hrp2 : rp < 256 := Nat.blt_eq ▸ hrp2
  have hc : c < 2 ^ (256 * (8 * (n + 1) + rp)) := Nat.blt_eq ▸ hc
  have hd := dLoop_spec (lowN n M) rp 0 hd
  have sS : ∀ r j : ℕ, j < 2 * n + 1 → (fun i : ℕ => ((cell S (i / (2 * n + 1)) (i % (2 * n + 1)) : ℕ) : Fr))
      ((2 * n + 1) * r + j) = ((cell S r j : ℕ) : Fr) := by
    intro r j hj
    simp only
    rw [Nat.mul_add_div (by omega), Nat.div_eq_of_lt hj, add_zero, Nat.mul_add_mod, Nat.mod_eq_of_lt hj]
  have hL : ∀ i j : Fin n, ((mEnt n (lowN n M) i j : ℕ) : Fr) = low (mM n M) i j := by
    intro i j
    rw [← low_eq]; rfl
  -- one step of the row recursion
  have rowMul : ∀ r, (fun j : Fin n => ((cell S r (j + 1) : ℕ) : Fr)) ᵥ* low (mM n M) =
      fun j : Fin n => ((sumN n (fun i => Nat.mul (cell S r (Nat.succ i)) (mEnt n (lowN n M) i j)) : ℕ) : Fr) := by
    intro r
    funext j
    rw [sumN_eq, Matrix.vecMul, dotProduct]
    refine Finset.sum_congr rfl fun i _ => ?_
    change _ = ((cell S r (i + 1) * mEnt n (lowN n M) i j : ℕ) : Fr)
    rw [Nat.cast_mul, hL]
  have colMul : ∀ r, low (mM n M) *ᵥ (fun j : Fin n => ((cell S r (n + 1 + j) : ℕ) : Fr)) =
      fun i : Fin n => ((sumN n (fun j => Nat.mul (mEnt n (lowN n M) i j)
        (cell S r (Nat.add (Nat.succ n) j))) : ℕ) : Fr) := by
    intro r
    funext i
    rw [sumN_eq, Matrix.mulVec, dotProduct]
    refine Finset.sum_congr rfl fun j _ => ?_
    change _ = ((mEnt n (lowN n M) i j * cell S r (n + 1 + j) : ℕ) : Fr)
    rw [Nat.cast_mul, hL]
  have rows : ∀ k r, r + k + 1 = rp →
      (fun j : Fin n => ((cell S r (j + 1) : ℕ) : Fr)) ᵥ* low (mM n M) ^ (k + 1) = lowRow (mM n M) := by
    intro k
    induction k with
    | zero =>
      intro r hr
      rw [zero_add, pow_one, rowMul]
      funext j
      have := eqm_spec (allN_spec hS2 j j.2)
      rw [show Nat.pred rp = r by rw [Nat.pred_eq_sub_one]; omega] at this
      exact this
    | succ k ih =>
      intro r hr
      have := ih (r + 1) (by omega)
      rw [pow_succ' _ (k + 1), ← Matrix.vecMul_vecMul, rowMul]
      rw [← this]
      congr 1
      funext j
      have h1 := allN_spec hS4 r (by rw [Nat.pred_eq_sub_one]; omega)
      exact eqm_spec (allN_spec (andB_spec h1).1 j j.2)
  have cols : ∀ k r, r + k + 1 = rp →
      (fun j : Fin n => ((cell S r (n + 1 + j) : ℕ) : Fr)) = low (mM n M) ^ k *ᵥ lowCol (mM n M) := by
    intro k
    induction k with
    | zero =>
      intro r hr
      rw [pow_zero, one_mulVec]
      funext j
      have := eqm_spec (allN_spec hS3 j j.2)
      rw [show Nat.pred rp = r by rw [Nat.pred_eq_sub_one]; omega] at this
      exact this
    | succ k ih =>
      intro r hr
      rw [pow_succ', ← mulVec_mulVec, ← ih (r + 1) (by omega), colMul]
      funext j
      have h1 := allN_spec hS4 r (by rw [Nat.pred_eq_sub_one]; omega)
      exact eqm_spec (allN_spec (andB_spec h1).2 j j.2)
  refine ⟨hc, ?_⟩
  constructor
  · intro i
    exact eqm_spec (allN_spec hF1 i i.2)
  · intro k hk
    funext i
    rw [← mc_eq]
    exact eqm_spec (allN_spec (allN_spec hF2 k hk) i i.2)
  · intro k hk
    funext i
    rw [← mc_eq]
    exact eqm_spec (allN_spec (allN_spec hF3 k hk) i i.2)
  · intro j
    exact eqm_spec (allN_spec hP1 j j.2)
  · intro i
    have := eqm_spec (allN_spec hP2 i i.2)
    rw [← congrFun (colMul 0) i] at this
    rw [show rp = (rp - 1) + 1 by omega, pow_succ', ← mulVec_mulVec, ← cols (rp - 1) 0 (by omega)]
    exact this
  · intro i j
    have := eqm_spec (allN_spec (allN_spec hP3 i i.2) j j.2)
    have e : mat n (mPow n 8 rp (lowN n M) (lowN n M)) = low (mM n M) ^ (rp + 1) := by
      rw [mPow_spec _ _ _ _ _ hrp2, low_eq, ← pow_succ']
    rw [← e]
    exact this
  · intro r hr
    have := sS r 0 (by omega)
    rw [add_zero] at this
    exact this.trans (eqm_spec (allN_spec hS1 r hr))
  · intro r hr
    have : (fun j : Fin n => (fun i : ℕ => ((cell S (i / (2 * n + 1)) (i % (2 * n + 1)) : ℕ) : Fr))
        ((2 * n + 1) * r + (j + 1))) = fun j : Fin n => ((cell S r (j + 1) : ℕ) : Fr) :=
      funext fun j => sS r (j + 1) (by omega)
    rw [this, show rp - r = (rp - r - 1) + 1 by omega]
    exact rows _ r (by omega)
  · intro r hr
    have : (fun j : Fin n => (fun i : ℕ => ((cell S (i / (2 * n + 1)) (i % (2 * n + 1)) : ℕ) : Fr))
        ((2 * n + 1) * r + (n + 1 + j))) = fun j : Fin n => ((cell S r (n + 1 + j) : ℕ) : Fr) :=
      funext fun j => sS r (n + 1 + j) (by omega)
    rw [this]
    exact cols _ r (by omega)
  · have := eqm_spec h0
    exact this.trans (mc_eq (n := n) _ 0)
  · refine ⟨fun r => vec n (dSeq n c (lowN n M) M R r), ?_, ?_, ?_, ?_⟩
    · intro i
      have := congrFun (vec_pack (n := n) fun i => Nat.add (cell R 4 (Nat.succ i))
        (negN (mc n M c (Nat.mul 4 (Nat.succ n)) (Nat.succ i)))) i
      refine Eq.trans this ?_
      change ((_ + _ : ℕ) : Fr) = _
      rw [Nat.cast_add, negN_cast, sub_eq_add_neg]
      congr 2
      exact mc_eq (n := n) _ i.succ
    · intro r hr
      have := hd.1 r hr
      rw [zero_add] at this
      have := eqm_spec this
      change ((_ + _ : ℕ) : Fr) = ((_ * _ : ℕ) : Fr) at this
      rw [Nat.cast_add, Nat.cast_mul, sumN_eq] at this
      refine Eq.trans ?_ this
      congr 1
      refine Finset.sum_congr rfl fun j _ => ?_
      change _ = ((_ * _ : ℕ) : Fr)
      rw [Nat.cast_mul]
      rfl
    · intro r hr i
      have := congrFun (vec_pack (n := n) fun i => Nat.add (Nat.add (sumN n fun j => Nat.mul
        (mEnt n (lowN n M) i j) (ent (dSeq n c (lowN n M) M R r) j))
        (cell R (Nat.add 5 r) (Nat.succ i)))
        (negN (Nat.mul (ent c (Nat.add (Nat.mul 5 (Nat.succ n)) r)) (cell M 0 (Nat.succ i))))) i
      refine Eq.trans this ?_
      change ((_ + _ + negN (_ * _) : ℕ) : Fr) = _
      rw [Nat.cast_add, Nat.cast_add, negN_cast, Nat.cast_mul, sumN_eq, ← sub_eq_add_neg]
      congr 1
      congr 1
      refine Finset.sum_congr rfl fun j _ => ?_
      change ((_ * _ : ℕ) : Fr) = _
      rw [Nat.cast_mul, hL]
      rfl
    · have := hd.2
      rw [zero_add] at this
      simp only [this]
      funext i
      simp [vec, ent_eq, entry]

end

end

end Spark.Poseidon
