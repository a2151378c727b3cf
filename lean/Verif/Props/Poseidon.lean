import Verif.Lemmas.PoseidonAll

/-!
# Properties of the Poseidon hash (C10, C11, C12)
-/

set_option maxRecDepth 100000

namespace Spark.PoseidonProps

open Poseidon

/-! ## C10: the hasher object -/

/-- a call on the hasher -/
inductive Call
  | write (xs : List Fr)
  | sum
  | reset

/-- the digests returned by a sequence of calls; `none` as soon as one call panics -/
def exec (h : Hasher) : List Call → Option (List Fr)
  | [] => some []
  | .write xs :: cs => exec (h.write xs) cs
  | .reset :: cs => exec h.reset cs
  | .sum :: cs => do
    let (d, h') ← h.sum
    let ds ← exec h' cs
    pure (d :: ds)

/-- is this call a `Reset`? -/
def Call.isReset : Call → Bool
  | .reset => true
  | _ => false

/-- what a call writes -/
def Call.payload : Call → List Fr
  | .write xs => xs
  | _ => []

/-- everything written after the last `Reset` of a history -/
def written (history : List Call) : List Fr :=
  ((history.reverse.takeWhile fun c => !c.isReset).reverse).flatMap Call.payload

/-- the histories in front of the `Sum` calls of a sequence, in order -/
def histories (cs : List Call) : List (List Call) :=
  (List.range cs.length).filterMap fun i => match cs[i]? with
    | some Call.sum => some (cs.take i)
    | _ => none

theorem written_snoc (hist : List Call) (c : Call) :
    written (hist ++ [c]) = if c.isReset then [] else written hist ++ c.payload := by
  simp only [written, List.reverse_append, List.reverse_cons, List.reverse_nil, List.nil_append,
    List.cons_append, List.takeWhile_cons]
  cases c <;> simp [Call.isReset, Call.payload]

theorem exec_histories (pre cs : List Call) (h : Hasher) (hd : h.data = written pre) :
    exec h cs = ((List.range cs.length).filterMap fun i => match cs[i]? with
      | some Call.sum => some (pre ++ cs.take i)
      | _ => none).mapM fun hist => poseidon (written hist) := by
  induction cs generalizing pre h with
  | nil => rfl
  | cons c cs ih =>
    have step : ∀ h' : Hasher, h'.data = written (pre ++ [c]) → exec h' cs =
        ((List.range cs.length).filterMap fun i => match (c :: cs)[i + 1]? with
          | some Call.sum => some (pre ++ (c :: cs).take (i + 1))
          | _ => none).mapM fun hist => poseidon (written hist) := by
      intro h' hd'
      rw [ih (pre ++ [c]) h' hd']
      simp
    rw [List.length_cons, List.range_succ_eq_map, List.filterMap_cons, List.filterMap_map]
    cases c with
    | write xs =>
      simp only [exec, List.getElem?_cons_zero]
      refine step _ ?_
      rw [written_snoc, ← hd]; rfl
    | reset =>
      simp only [exec, List.getElem?_cons_zero]
      refine step _ ?_
      rw [written_snoc]; rfl
    | sum =>
      simp only [exec, List.getElem?_cons_zero, List.take_zero, List.append_nil, List.mapM_cons, Hasher.sum, hd]
      rcases hp : poseidon (written pre) with _ | d
      · rfl
      · simp only [Option.bind_eq_bind, Option.bind_some, Option.pure_def]
        rw [step _ (by rw [written_snoc]; simp [Call.isReset, Call.payload])]
        rfl

/-- C10. For every sequence of calls on a new hasher, the digests returned by its `Sum` calls are the Poseidon
hashes of everything written since the last `Reset` (a panic of one of them ends the run). -/
theorem c10_hasher (cs : List Call) :
    exec newHasher cs = (histories cs).mapM fun hist => poseidon (written hist) :=
  (exec_histories [] cs newHasher rfl).trans (by simp [histories])

/-- `Write` in pieces is `Write` at once, and `Sum` does not consume what was written. -/
theorem c10_pieces (a b : List Fr) : exec newHasher [.write a, .sum, .write b, .sum] =
    (do let x ← poseidon a; let y ← poseidon (a ++ b); pure [x, y]) := by
  have e : histories [.write a, .sum, .write b, .sum] = [[.write a], [.write a, .sum, .write b]] := rfl
  have w1 : written [.write a] = a := by simp [written, Call.isReset, Call.payload]
  have w2 : written [.write a, .sum, .write b] = a ++ b := by simp [written, Call.isReset, Call.payload]
  rw [c10_hasher, e, List.mapM_cons, List.mapM_cons, w1, w2]
  rcases poseidon a with _ | x
  · rfl
  · rcases poseidon (a ++ b) with _ | y <;> rfl

/-- after `Reset` earlier writes have no influence -/
theorem c10_reset (cs : List Call) (a : List Fr) :
    (exec newHasher (cs ++ [.reset, .write a, .sum])).isSome →
    ∃ ds d, exec newHasher (cs ++ [.reset, .write a, .sum]) = some (ds ++ [d]) ∧ poseidon a = some d := by
  intro h
  rw [c10_hasher] at h ⊢
  have e : histories (cs ++ [Call.reset, .write a, .sum]) =
      histories cs ++ [cs ++ [Call.reset, .write a]] := by
    rw [histories, List.length_append, List.range_add, List.filterMap_append, List.filterMap_map]
    congr 1
    · refine List.filterMap_congr fun i hi => ?_
      have := List.mem_range.1 hi
      rw [List.getElem?_append_left this, List.take_append_of_le_length (by omega)]
    · simp [List.range_succ, List.take_append]
  rw [e, List.mapM_append] at h ⊢
  have hw : written (cs ++ [Call.reset, .write a]) = a := by
    rw [show cs ++ [Call.reset, Call.write a] = (cs ++ [Call.reset]) ++ [Call.write a] by simp,
      written_snoc, written_snoc]
    simp [Call.isReset, Call.payload]
  rcases h1 : (histories cs).mapM (fun hist => poseidon (written hist)) with _ | ds
  · rw [h1] at h; exact absurd h (by simp)
  · rcases h2 : poseidon a with _ | d
    · rw [h1] at h; simp [hw, h2] at h
    · exact ⟨ds, d, by simp [hw, h2], rfl⟩

/-! ## C11: supported lengths -/

/-- C11. `Poseidon` returns a value exactly for 1 to 16 inputs; every other length panics, and no supported
length leaves the constant tables. -/
theorem c11_defined (inputs : List Fr) :
    (poseidon inputs).isSome ↔ 1 ≤ inputs.length ∧ inputs.length ≤ 16 := by
  constructor
  · intro h
    by_contra hc
    rw [poseidon, poseidonEx_none inputs 0 1 (by omega)] at h
    exact absurd h (by simp)
  · rintro ⟨h1, h2⟩
    obtain ⟨rp, N, consts, points, -, -, h⟩ := poseidonEx_text inputs.length h1 h2
    have := h (fun i => inputs[i]) 0 1 (by omega)
    rw [← ofFn_get] at this
    rw [poseidon, this]
    simp

/-- C11 inside a circuit: a supported length emits no constraint that could fail and its value cannot be
chosen by the prover; every other length has no circuit. -/
theorem c11_circuit (inputs : List Fr) :
    (1 ≤ inputs.length ∧ inputs.length ≤ 16 → ∃ h, poseidon inputs = some h ∧ poseidonC inputs = pure h) ∧
    (¬ (1 ≤ inputs.length ∧ inputs.length ≤ 16) → poseidonC inputs = Circ.fail) := by
  constructor
  · intro h
    obtain ⟨d, hd⟩ := Option.isSome_iff_exists.1 ((c11_defined inputs).2 h)
    exact ⟨d, hd, by rw [poseidonC, hd]⟩
  · intro h
    have : poseidon inputs = none := by
      rw [← Option.not_isSome_iff_eq_none]
      exact fun hs => h ((c11_defined inputs).1 hs)
    rw [poseidonC, this]

/-- the hasher returns a digest exactly when 1 to 16 elements are pending -/
theorem c11_hasher (xs : List Fr) :
    (exec newHasher [.write xs, .sum]).isSome ↔ 1 ≤ xs.length ∧ xs.length ≤ 16 := by
  rw [← c11_defined, c10_hasher]
  simp only [histories, written, List.length_cons, List.length_nil, List.range_succ, List.range_zero]
  rcases h : poseidon xs with _ | d <;> simp [Call.isReset, Call.payload, h]

/-! ## C12: optimised and textbook permutation -/

/-- C12. For every supported number of inputs, every initial state and every requested number of outputs up
to the width, the optimised code returns the first outputs of the textbook permutation with the round
constants and the Cauchy matrix of the Grain LFSR. -/
theorem c12_permutation (n : ℕ) (h1 : 1 ≤ n) (h2 : n ≤ 16) (rp : ℕ)
    (hrp : PosSpec.partialRounds[n - 1]? = some rp) (N : ℕ) (consts points : List ℕ)
    (href : PosSpec.reference (n + 1) rp N = some (consts, points))
    (x : Fin n → Fr) (init : Fr) (k : ℕ) (hk : k ≤ n + 1) :
    poseidonEx (List.ofFn x) init k = some (List.ofFn fun i : Fin k =>
      PosSpec.permutation consts points rp (Fin.cons init x : Fin (n + 1) → Fr) (Fin.castLE hk i)) := by
  obtain ⟨rp', N', consts', points', e1, e2, h⟩ := poseidonEx_text n h1 h2
  rw [hrp] at e1
  cases e1
  obtain ⟨rfl, rfl⟩ := Prod.mk.inj (reference_unique href e2)
  exact h x init k hk

/-- C12, the hash: first element of the permuted state `(0, inputs)`. -/
theorem c12_hash (n : ℕ) (h1 : 1 ≤ n) (h2 : n ≤ 16) (rp : ℕ)
    (hrp : PosSpec.partialRounds[n - 1]? = some rp) (N : ℕ) (consts points : List ℕ)
    (href : PosSpec.reference (n + 1) rp N = some (consts, points)) (x : Fin n → Fr) :
    poseidon (List.ofFn x) =
      some (PosSpec.permutation consts points rp (Fin.cons 0 x : Fin (n + 1) → Fr) 0) := by
  rw [poseidon, c12_permutation n h1 h2 rp hrp N consts points href x 0 1 (by omega)]
  rfl

/-- C12, non-vacuity: the generator does produce constants for every supported width. -/
theorem c12_reference_exists (n : ℕ) (h1 : 1 ≤ n) (h2 : n ≤ 16) : ∃ rp N consts points,
    PosSpec.partialRounds[n - 1]? = some rp ∧
    PosSpec.reference (n + 1) rp N = some (consts, points) ∧
    consts.length = (8 + rp) * (n + 1) ∧ points.length = 2 * (n + 1) := by
  obtain ⟨rp, N, consts, points, e1, e2, -⟩ := poseidonEx_text n h1 h2
  refine ⟨rp, N, consts, points, e1, e2, ?_⟩
  rw [PosSpec.reference] at e2
  obtain ⟨⟨p, r⟩, h3, h4⟩ := Option.bind_eq_some_iff.1 e2
  simp only at h4
  split at h4
  · next hl =>
    simp only [Option.some.injEq, Prod.mk.injEq] at h4
    obtain ⟨rfl, rfl⟩ := h4
    refine ⟨?_, by rw [List.length_take]; omega⟩
    have : ∀ (q k : ℕ) (bs a r : List ℕ), PosSpec.accept q k bs = some (a, r) → a.length = k := by
      intro q k bs
      induction bs generalizing k with
      | nil =>
        intro a r h
        cases k with
        | zero => rw [PosSpec.accept] at h; cases h; rfl
        | succ k => rw [PosSpec.accept] at h; exact absurd h (by simp)
      | cons b bs ih =>
        intro a r h
        cases k with
        | zero => rw [PosSpec.accept] at h; cases h; rfl
        | succ k =>
          rw [PosSpec.accept] at h
          split at h
          · obtain ⟨⟨a', r'⟩, h1, h2⟩ := Option.map_eq_some_iff.1 h
            simp only [Prod.mk.injEq] at h2
            obtain ⟨rfl, rfl⟩ := h2
            rw [List.length_cons, ih k a' r' h1]
          · exact ih (k + 1) a r h
    exact this _ _ _ _ _ h3
  · exact absurd h4 (by simp)

/-- a published test vector (circomlib): Poseidon(1, 2) -/
theorem c12_vector : poseidon [1, 2] =
    some 7853200120776062878684798364095072458815029376092732009249414926327459813530 := by
  decide +kernel

/-- C10 on concrete calls: two writes are hashed together -/
example : exec newHasher [.write [1], .write [2], .sum] =
    some [7853200120776062878684798364095072458815029376092732009249414926327459813530] := by
  have e : histories [.write [1], .write [2], .sum] = [[.write [1], .write [2]]] := rfl
  have w : written [.write [1], .write [2]] = [1, 2] := rfl
  rw [c10_hasher, e, List.mapM_cons, w, c12_vector]
  rfl

/-- C10 and C11 on concrete calls: nothing is pending after `Reset`, and `Sum` panics -/
example : exec newHasher [.write [1], .reset, .sum] = none := by
  have e : histories [.write [1], .reset, .sum] = [[.write [1], .reset]] := rfl
  have w : written [.write [1], .reset] = [] := rfl
  have p : poseidon [] = none := by
    rw [poseidon, poseidonEx_none [] 0 1 (Or.inl rfl)]
    rfl
  rw [c10_hasher, e, List.mapM_cons, w, p]
  rfl

end Spark.PoseidonProps
