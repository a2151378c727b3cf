import Verif.Lemmas.CircuitMain

/-!
# The transaction and rotation circuits

C13-C23, C58 and the consequences of C09 for the circuits.  `mode` is the way Go's `==` answers for limb
handles (`Circuit.Mode`): building the constraint system, or gnark's test engine.
-/

namespace Spark.CircuitProps
open Spark Circ Spec Circuit Pairing PairingProps HashProps
open scoped BigOperators

/-- some assignment of the hints satisfies the transaction circuit on these inputs -/
def TxAccepted (mode : Mode) (pub : TxPublic) (priv : TxPrivate) : Prop := (txDefine mode pub priv).Satisfiable

/-- some assignment of the hints satisfies the rotation circuit on these inputs -/
def RotateAccepted (mode : Mode) (pub : RotatePublic) (priv : RotatePrivate) : Prop :=
  (rotateDefine mode pub priv).Satisfiable

variable {mode : Mode} {pub : TxPublic} {priv : TxPrivate} {rpub : RotatePublic} {rpriv : RotatePrivate}

/-! ## C58 -/

theorem c58_bound (x : Fp) (j : Fin 6) :
    valueOf x j < 2 ^ 64 ∧ (j = 5 → valueOf x j < 2 ^ 61) := by
  refine ⟨Nat.mod_lt _ (by norm_num), ?_⟩
  rintro rfl
  rw [valueOf]
  refine (Nat.mod_le _ _).trans_lt (Nat.div_lt_of_lt_mul ?_)
  rw [← pow_add]
  exact (ZMod.val_lt x).trans (by decide +kernel)

theorem limbs_sum (n : ℕ) (h : n < 2 ^ 384) :
    ∑ j : Fin 6, n / 2 ^ (64 * j.val) % 2 ^ 64 * 2 ^ (64 * j.val) = n := by
  simp only [Fin.sum_univ_six, Fin.isValue, Fin.val_zero, Fin.val_one, Fin.val_two]
  simp only [show ((3 : Fin 6) : ℕ) = 3 from rfl, show ((4 : Fin 6) : ℕ) = 4 from rfl,
    show ((5 : Fin 6) : ℕ) = 5 from rfl]
  norm_num at h ⊢
  omega

/-- The limbs recombine to the element. -/
theorem c58_recombine (x : Fp) : ∑ j : Fin 6, valueOf x j * 2 ^ (64 * j.val) = x.val :=
  limbs_sum _ ((ZMod.val_lt x).trans (by decide +kernel))

theorem limb_val (x : Fp) (j : Fin 6) : (valueOfIn x j).val = valueOf x j := by
  rw [valueOfIn, ZMod.val_natCast, Nat.mod_eq_of_lt ((c58_bound x j).1.trans (by decide +kernel))]

/-- As circuit inputs the limbs pass gnark's width check and denote the element. -/
theorem c58_circuit (x : Fp) : (valueOfIn x).Fits ∧ (valueOfIn x).toNat = x.val ∧ (valueOfIn x).val = x := by
  have h : (valueOfIn x).toNat = x.val := by
    simp only [Limbs.toNat, limb_val, c58_recombine]
  refine ⟨fun j => ?_, h, by rw [Limbs.val, h, ZMod.natCast_zmod_val]⟩
  rw [limb_val]
  split
  · next h5 => exact (c58_bound x j).2 (Fin.ext h5)
  · exact (c58_bound x j).1

/-- Different elements have different limbs. -/
theorem c58_injective : Function.Injective valueOf ∧ Function.Injective valueOfIn := by
  refine ⟨fun x y h => ?_, fun x y h => ?_⟩
  · have hx := c58_recombine x
    rw [h, c58_recombine y] at hx
    exact (ZMod.val_injective _ hx).symm
  · rw [← (c58_circuit x).2.2, h, (c58_circuit y).2.2]

/-- Different keys (and different G2 points) have different circuit inputs. -/
theorem c58_keys : Function.Injective newG1Affine ∧ Function.Injective newG2Affine := by
  constructor
  · intro v w h
    obtain ⟨h1, h2⟩ := G1In.mk.inj h
    exact G1Affine.ext (c58_injective.2 h1) (c58_injective.2 h2)
  · intro v w h
    obtain ⟨h1, h2, h3, h4⟩ := G2In.mk.inj h
    exact G2Affine.ext (E2.ext (c58_injective.2 h1) (c58_injective.2 h2))
      (E2.ext (c58_injective.2 h3) (c58_injective.2 h4))

/-- A key produced by `NewG1Affine` from a point of the curve denotes that point. -/
theorem c58_denotes (P : E1 Fp) (h : P ≠ 0) : Denotes (newG1Affine (enc1 P)) P := by
  rcases P with _ | ⟨x, y, hP⟩
  · exact absurd rfl h
  · refine ⟨⟨(c58_circuit _).1, (c58_circuit _).1⟩, ?_⟩
    simp only [newG1Affine, enc1, (c58_circuit _).2.2]
    exact ⟨hP, rfl⟩

/-- A signature produced by `NewG2Affine` passes the width checks and denotes the point. -/
theorem c58_signature (v : G2Affine Fp) : (newG2Affine v).Fits ∧ (newG2Affine v).val = v := by
  refine ⟨⟨(c58_circuit _).1, (c58_circuit _).1, (c58_circuit _).1, (c58_circuit _).1⟩, ?_⟩
  simp only [G2In.val, newG2Affine, (c58_circuit _).2.2]

/-- `NewG1AffineArray`: the first ten entries in order, unassigned (so no proof) if there are fewer, a panic if
there are more. -/
theorem c58_array (v : List (G1Affine Fp)) :
    (newG1AffineArray v = none ↔ 10 < v.length) ∧
    ∀ a, newG1AffineArray v = some a → ∀ i : Fin 10,
      (∀ h : i.val < v.length, a i = some (newG1Affine v[i.val])) ∧ (v.length ≤ i.val → a i = none) := by
  rw [newG1AffineArray]
  split
  · next h =>
    refine ⟨⟨fun hn => absurd hn (by simp), fun h' => absurd h (by omega)⟩, ?_⟩
    intro a ha i
    obtain rfl := Option.some.inj ha
    dsimp only
    refine ⟨fun h => by rw [List.getElem?_eq_getElem h, Option.map_some], fun h => ?_⟩
    rw [List.getElem?_eq_none h, Option.map_none]
  · next h => exact ⟨⟨fun _ => by omega, fun _ => rfl⟩, fun a ha => by cases ha⟩

/-- The converse does not hold for circuit inputs: an element whose value plus `p` is below `2^381` is denoted by
a second limb vector that passes the width check, so one key has several encodings (and commitments). -/
theorem c58_noncanonical (x : Fp) (h : x.val + fpOrder < 2 ^ 381) :
    ∃ l : Limbs, l.Fits ∧ l.val = x ∧ l ≠ valueOfIn x := by
  have hb : ∀ j : Fin 6, (x.val + fpOrder) / 2 ^ (64 * j.val) % 2 ^ 64 < 2 ^ (if j.val = 5 then 61 else 64) := by
    intro j
    split
    · next h5 =>
      rw [h5]
      exact (Nat.mod_le _ _).trans_lt (Nat.div_lt_of_lt_mul (by rw [← pow_add]; exact h))
    · exact Nat.mod_lt _ (by norm_num)
  have hv : ∀ j : Fin 6, (((x.val + fpOrder) / 2 ^ (64 * j.val) % 2 ^ 64 : ℕ) : Fr).val =
      (x.val + fpOrder) / 2 ^ (64 * j.val) % 2 ^ 64 := fun j => by
    rw [ZMod.val_natCast, Nat.mod_eq_of_lt ((Nat.mod_lt _ (by norm_num)).trans (by decide +kernel))]
  have hn : Limbs.toNat (fun j => (((x.val + fpOrder) / 2 ^ (64 * j.val) % 2 ^ 64 : ℕ) : Fr)) = x.val + fpOrder := by
    simp only [Limbs.toNat, hv]
    exact limbs_sum _ (h.trans (by decide +kernel))
  refine ⟨fun j => (((x.val + fpOrder) / 2 ^ (64 * j.val) % 2 ^ 64 : ℕ) : Fr), fun j => ?_, ?_, fun e => ?_⟩
  · rw [hv]; exact hb j
  · rw [Limbs.val, hn]; simp
  · rw [e, (c58_circuit x).2.1] at hn
    have := fpOrder_pos
    omega

example : (1 : Fp).val + fpOrder < 2 ^ 381 := by decide +kernel
example (v : G1Affine Fp) : ∃ a, newG1AffineArray [v] = some a ∧ a 0 = some (newG1Affine v) ∧ a 1 = none :=
  ⟨_, rfl, rfl, rfl⟩

/-! ## C13 -/

/-- The contract is met by the hash modelled in `Model/Poseidon.lean`, read on integers. -/
theorem iden3_exists : ∃ H, IsIden3Hash H := by
  refine ⟨fun xs => if 1 ≤ xs.length ∧ xs.length ≤ 16 ∧ ∀ x ∈ xs, x < frOrder then
    some (pos (xs.map fun x : ℕ => (x : Fr))).val else none, ?_, ?_⟩
  · intro xs h1 h2 h3
    refine ⟨_, if_pos ⟨h1, h2, h3⟩, ZMod.val_lt _, ?_⟩
    rw [ZMod.natCast_zmod_val]
    exact isPoseidon_pos (by simpa using h1) (by simpa using h2)
  · intro xs h
    refine if_neg fun ⟨h1, h2, h3⟩ => ?_
    rcases h with h | h | ⟨x, hx, h⟩
    · omega
    · omega
    · exact absurd (h3 x hx) (by omega)

theorem mapM_some_of {α β : Type} (l : List α) (f : α → Option β) (g : α → β) (h : ∀ x ∈ l, f x = some (g x)) :
    l.mapM f = some (l.map g) := by
  induction l with
  | nil => rfl
  | cons a l ih =>
    rw [List.mapM_cons, h a List.mem_cons_self, ih fun x hx => h x (List.mem_cons_of_mem _ hx)]
    rfl

theorem mapM_none_of {α β : Type} (l : List α) (f : α → Option β) (a : α) (ha : a ∈ l) (h : f a = none) :
    l.mapM f = none := by
  induction l with
  | nil => cases ha
  | cons b l ih =>
    rw [List.mapM_cons]
    rcases List.mem_cons.1 ha with rfl | ha
    · rw [h]; rfl
    · rw [ih ha]
      rcases f b with _ | _ <;> rfl

/-- **C13.** The commitment computed off-circuit from ten keys and ten weights below the field order is the one
the circuit computes from their circuit encodings (further entries of the slices are ignored). -/
theorem c13_agree {H : List ℕ → Option ℕ} (hH : IsIden3Hash H) (keys : List (G1Affine Fp)) (weights : List ℕ)
    (K : Fin 10 → G1Affine Fp) (w : Fin 10 → ℕ) (hK : ∀ i : Fin 10, keys[i.val]? = some (K i))
    (hw : ∀ i : Fin 10, weights[i.val]? = some (w i)) (hlt : ∀ i, w i < frOrder) :
    ∃ c, genCommitment H keys weights = some c ∧ c < frOrder ∧
      computeAPKCommitment (fun i => newG1Affine (K i)) (fun i => (w i : Fr)) = pure (c : Fr) := by
  have hl : ∀ x : Fp, ∃ h, H (List.ofFn (valueOf x)) = some h ∧ h < frOrder ∧
      (h : Fr) = pos (List.ofFn (valueOfIn x)) := by
    intro x
    obtain ⟨h, e, hh, hp⟩ := hH.hash (List.ofFn (valueOf x)) (by simp) (by simp) (by
      intro n hn
      obtain ⟨j, rfl⟩ := (List.mem_ofFn' _ _).1 hn
      exact (c58_bound x j).1.trans (by decide +kernel))
    refine ⟨h, e, hh, ?_⟩
    rw [List.map_ofFn] at hp
    exact isPoseidon_unique hp (isPoseidon_pos (by simp) (by simp))
  choose hf he hb hp using hl
  have hv : ∀ i : Fin 10, ∃ h, H [hf (K i).X, hf (K i).Y, w i] = some h ∧ h < frOrder ∧
      (h : Fr) = valHash (newG1Affine (K i)) (w i) := by
    intro i
    obtain ⟨h, e, hh, hq⟩ := hH.hash [hf (K i).X, hf (K i).Y, w i] (by simp) (by simp) (by
      intro n hn
      simp only [List.mem_cons, List.not_mem_nil, or_false] at hn
      rcases hn with rfl | rfl | rfl
      · exact hb _
      · exact hb _
      · exact hlt i)
    refine ⟨h, e, hh, ?_⟩
    simp only [List.map_cons, List.map_nil, hp] at hq
    exact isPoseidon_unique hq (isPoseidon_pos (by simp) (by simp))
  choose vf ve vb vp using hv
  obtain ⟨c, ce, cb, cp⟩ := hH.hash (List.ofFn vf) (by simp) (by simp) (by
    intro n hn
    obtain ⟨j, rfl⟩ := (List.mem_ofFn' _ _).1 hn
    exact vb j)
  refine ⟨c, ?_, cb, ?_⟩
  · rw [genCommitment, mapM_some_of _ _ (fun i => if h : i < 10 then vf ⟨i, h⟩ else 0)]
    · rw [← ce]
      show H _ = _
      congr 1
    · intro i hi
      rw [List.mem_range] at hi
      have h1 := hK ⟨i, hi⟩
      have h2 := hw ⟨i, hi⟩
      dsimp only at h1 h2
      rw [dif_pos hi, h1, h2]
      simp only [Option.bind_eq_bind, Option.bind_some, he, ve]
  · rw [computeAPKCommitment_eq, commit]
    rw [List.map_ofFn] at cp
    rw [isPoseidon_unique cp (isPoseidon_pos (by simp) (by simp))]
    congr 3
    funext i
    exact (vp i).symm

/-- Fewer than ten keys or weights, or a weight that is not below the field order: the helper panics. -/
theorem c13_panics {H : List ℕ → Option ℕ} (hH : IsIden3Hash H) (keys : List (G1Affine Fp)) (weights : List ℕ)
    (h : keys.length < 10 ∨ weights.length < 10 ∨ ∃ i : Fin 10, ∃ w, weights[i.val]? = some w ∧ frOrder ≤ w) :
    genCommitment H keys weights = none := by
  have key : ∃ i, i < 10 ∧ (keys[i]? = none ∨ weights[i]? = none ∨ ∃ w, weights[i]? = some w ∧ frOrder ≤ w) := by
    rcases h with h | h | ⟨i, w, h, hw⟩
    · exact ⟨9, by omega, Or.inl (List.getElem?_eq_none (by omega))⟩
    · exact ⟨9, by omega, Or.inr (Or.inl (List.getElem?_eq_none (by omega)))⟩
    · exact ⟨i, i.2, Or.inr (Or.inr ⟨w, h, hw⟩)⟩
  obtain ⟨i, hi, hc⟩ := key
  rw [genCommitment, mapM_none_of _ _ i (List.mem_range.2 hi)]
  · rfl
  · rcases hc with e | e | ⟨w, e, hw⟩
    · rw [e]; rfl
    · rw [e]; rcases keys[i]? with _ | _ <;> rfl
    · rw [e]
      rcases keys[i]? with _ | k
      · rfl
      · simp only [Option.bind_eq_bind, Option.bind_some]
        rcases H (List.ofFn (valueOf k.X)) with _ | a
        · rfl
        rcases H (List.ofFn (valueOf k.Y)) with _ | b
        · rfl
        exact hH.error _ (Or.inr (Or.inr ⟨w, by simp, hw⟩))

/-- the hypotheses of `c13_agree` are met by ten copies of the generator with weight 100 -/
example : ∃ (H : List ℕ → Option ℕ) (keys : List (G1Affine Fp)) (weights : List ℕ) (K : Fin 10 → G1Affine Fp)
    (w : Fin 10 → ℕ), IsIden3Hash H ∧ (∀ i : Fin 10, keys[i.val]? = some (K i)) ∧
    (∀ i : Fin 10, weights[i.val]? = some (w i)) ∧ ∀ i, w i < frOrder := by
  obtain ⟨H, hH⟩ := iden3_exists
  refine ⟨H, List.replicate 10 (enc1 G1gen), List.replicate 10 100, fun _ => enc1 G1gen, fun _ => 100, hH,
    fun i => ?_, fun i => ?_, fun i => ?_⟩
  · rw [List.getElem?_replicate, if_pos i.2]
  · rw [List.getElem?_replicate, if_pos i.2]
  · show 100 < frOrder
    decide +kernel

/-! ## C16 -/

theorem bits_eq (bs : Fin 10 → Bool) (i : Fin 10) : bit (bs i) = 1 ↔ bs i = true := by
  cases bs i <;> simp

/-- **C16.** Accepted bit lists are boolean: transactions. -/
theorem c16_tx_bits (h : TxAccepted mode pub priv) (i : Fin 10) : priv.bitList i = 0 ∨ priv.bitList i = 1 := by
  obtain ⟨bs, e, -⟩ := (tx_cases mode pub priv).1 h
  rw [e]
  dsimp only
  cases bs i <;> simp

/-- Accepted bit lists are boolean: rotations. -/
theorem c16_rotate_bits (h : RotateAccepted mode rpub rpriv) (i : Fin 10) :
    rpriv.bitList i = 0 ∨ rpriv.bitList i = 1 := by
  obtain ⟨bs, e, -⟩ := (rotate_cases mode rpub rpriv).1 h
  rw [e]
  dsimp only
  cases bs i <;> simp

/-! ## C14 -/

/-- **C14.** The public signed weight is the sum of the weights of the validators whose bit is 1. -/
theorem c14_signed_weight (h : TxAccepted mode pub priv) :
    pub.signedWeight = ∑ i, if priv.bitList i = 1 then priv.weights i else 0 := by
  obtain ⟨bs, e, -, hw, -⟩ := (tx_cases mode pub priv).1 h
  rw [← hw, e]
  exact Finset.sum_congr rfl fun i _ => by simp only [bits_eq]

/-! ## C15 -/

theorem sum_val (f : Fin 10 → Fr) (B : ℕ) (hB : 10 * B < frOrder) (hf : ∀ i, (f i).val ≤ B) :
    (∑ i, f i).val = ∑ i, (f i).val := by
  have hs : ∑ i, (f i).val < frOrder := by
    refine lt_of_le_of_lt (Finset.sum_le_card_nsmul _ _ B fun i _ => hf i) ?_
    simpa using hB
  have : (∑ i, f i) = ((∑ i, (f i).val : ℕ) : Fr) := by
    push_cast
    exact Finset.sum_congr rfl fun i _ => (ZMod.natCast_zmod_val _).symm
  rw [this, ZMod.val_natCast, Nat.mod_eq_of_lt hs]

/-- **C15.** With weights at most `B`, `10·B` below the field order, the signed weight is the integer sum. -/
theorem c15_no_wrap (h : TxAccepted mode pub priv) (B : ℕ) (hB : 10 * B < frOrder)
    (hw : ∀ i, (priv.weights i).val ≤ B) :
    pub.signedWeight.val = ∑ i, if priv.bitList i = 1 then (priv.weights i).val else 0 := by
  rw [c14_signed_weight h, sum_val _ B hB]
  · exact Finset.sum_congr rfl fun i _ => by split <;> simp
  · intro i
    split
    · exact hw i
    · simp

/-- in particular for 64-bit weights -/
theorem c15_no_wrap_64 (h : TxAccepted mode pub priv) (hw : ∀ i, (priv.weights i).val < 2 ^ 64) :
    pub.signedWeight.val = ∑ i, if priv.bitList i = 1 then (priv.weights i).val else 0 :=
  c15_no_wrap h (2 ^ 64) (by decide +kernel) fun i => (hw i).le

/-- Without a bound it is not: nothing in the circuit bounds the weights.  From any accepted transaction with two
signers (whose weights do not add up to `-1`) one gets an accepted transaction - same keys, same signature, same
declared weight, another weight list and its commitment - in which the signers' integer weights add up to more
than the declared weight. -/
theorem c15_wrap (h : TxAccepted mode pub priv) (i j : Fin 10) (hij : i ≠ j) (hi : priv.bitList i = 1)
    (hj : priv.bitList j = 1) (hs : priv.weights i + priv.weights j ≠ -1) :
    ∃ c weights', TxAccepted mode { pub with apkCommitment := c } { priv with weights := weights' } ∧
      pub.signedWeight.val < ∑ k, if priv.bitList k = 1 then (weights' k).val else 0 := by
  obtain ⟨bs, e, hf, hw, hc, hsig, apk, H, h1, h2, h3⟩ := (tx_cases mode pub priv).1 h
  have bi : bs i = true := by rw [e] at hi; exact (bits_eq bs i).1 hi
  have bj : bs j = true := by rw [e] at hj; exact (bits_eq bs j).1 hj
  set w := priv.weights
  set w' : Fin 10 → Fr := Function.update (Function.update w i (w i + w j + 1)) j (-1) with hw'
  have wi : w' i = w i + w j + 1 := by rw [hw', Function.update_of_ne hij, Function.update_self]
  have wj : w' j = -1 := by rw [hw', Function.update_self]
  have wk : ∀ k, k ≠ i → k ≠ j → w' k = w k := fun k hi hj => by
    rw [hw', Function.update_of_ne hj, Function.update_of_ne hi]
  have split2 : ∀ (M : Type) [AddCommMonoid M] (f : Fin 10 → M),
      ∑ k, f k = f i + f j + ∑ k ∈ (Finset.univ.erase i).erase j, f k := by
    intro M _ f
    rw [← Finset.add_sum_erase _ f (Finset.mem_univ i),
      ← Finset.add_sum_erase (Finset.univ.erase i) f (Finset.mem_erase.2 ⟨hij.symm, Finset.mem_univ j⟩), add_assoc]
  refine ⟨commit priv.publicKeys w', w', ?_, ?_⟩
  · refine (tx_cases mode _ _).2 ⟨bs, e, hf, ?_, rfl, hsig, apk, H, h1, h2, h3⟩
    dsimp only
    rw [← hw, split2, split2 Fr]
    simp only [bi, bj, if_true, wi, wj]
    refine congrArg₂ (· + ·) (by ring) ?_
    · refine Finset.sum_congr rfl fun k hk => ?_
      rw [Finset.mem_erase, Finset.mem_erase] at hk
      rw [wk k hk.2.1 hk.1]
  · rw [split2 ℕ]
    have hi' : priv.bitList i = 1 := hi
    simp only [hi, hj, if_true, wi, wj]
    have hq : (-1 : Fr).val = frOrder - 1 := by decide +kernel
    have hne : w i + w j + 1 ≠ 0 := fun h0 => hs (eq_neg_of_add_eq_zero_left h0)
    have hpos : 0 < (w i + w j + 1).val := Nat.pos_of_ne_zero fun h0 => hne ((ZMod.val_eq_zero _).1 h0)
    have hlt := ZMod.val_lt pub.signedWeight
    rw [hq]
    omega

/-! ## C17 -/

/-- **C17.** The public commitment is the Poseidon commitment of the limbs of the ten keys and of the weights. -/
theorem c17_commitment (h : TxAccepted mode pub priv) :
    IsCommitment (fun i => (priv.publicKeys i).X) (fun i => (priv.publicKeys i).Y) priv.weights
      pub.apkCommitment := by
  obtain ⟨bs, -, -, -, hc, -⟩ := (tx_cases mode pub priv).1 h
  rw [hc]
  exact commit_isCommitment _ _

/-- Equal commitments: equal keys and weights, or the two computations exhibit a Poseidon collision. -/
theorem commitment_binding {x y x' y' : Fin 10 → Fin 6 → Fr} {w w' : Fin 10 → Fr} {c : Fr}
    (h : IsCommitment x y w c) (h' : IsCommitment x' y' w' c) :
    (x = x' ∧ y = y' ∧ w = w') ∨ Collision x y w x' y' w' := by
  obtain ⟨hx, hy, m, a1, a2, a3, a4⟩ := h
  obtain ⟨hx', hy', m', b1, b2, b3, b4⟩ := h'
  by_cases hm : m = m'
  swap
  · exact Or.inr ⟨List.ofFn m, List.ofFn m', c, .all m fun i => ⟨_, _, a1 i, a2 i, a3 i⟩,
      .all m' fun i => ⟨_, _, b1 i, b2 i, b3 i⟩, fun e => hm (List.ofFn_injective e), by simp, a4, b4⟩
  subst hm
  by_cases hv : ∀ i, [hx i, hy i, w i] = [hx' i, hy' i, w' i]
  swap
  · push Not at hv
    obtain ⟨i, hi⟩ := hv
    exact Or.inr ⟨_, _, m i, .validator i _ _ (a1 i) (a2 i), .validator i _ _ (b1 i) (b2 i), hi, rfl, a3 i, b3 i⟩
  by_cases hxx : x = x'
  swap
  · obtain ⟨i, hi⟩ := Function.ne_iff.1 hxx
    have e := hv i
    simp only [List.cons.injEq, and_true] at e
    exact Or.inr ⟨_, _, hx i, .keyX i, .keyX i, fun e => hi (List.ofFn_injective e), by simp, a1 i, e.1 ▸ b1 i⟩
  by_cases hyy : y = y'
  swap
  · obtain ⟨i, hi⟩ := Function.ne_iff.1 hyy
    have e := hv i
    simp only [List.cons.injEq, and_true] at e
    exact Or.inr ⟨_, _, hy i, .keyY i, .keyY i, fun e => hi (List.ofFn_injective e), by simp, a2 i, e.2.1 ▸ b2 i⟩
  refine Or.inl ⟨hxx, hyy, funext fun i => ?_⟩
  have e := hv i
  simp only [List.cons.injEq, and_true] at e
  exact e.2.2

theorem keys_ext {k k' : Fin 10 → G1In} (hx : (fun i => (k i).X) = fun i => (k' i).X)
    (hy : (fun i => (k i).Y) = fun i => (k' i).Y) : k = k' :=
  funext fun i => G1In.ext (congrFun hx i) (congrFun hy i)

/-- Two accepted transactions with the same commitment use the same keys and weights, or their commitments
exhibit a Poseidon collision. -/
theorem c17_binding {mode' : Mode} {pub' : TxPublic} {priv' : TxPrivate} (h : TxAccepted mode pub priv)
    (h' : TxAccepted mode' pub' priv') (hc : pub.apkCommitment = pub'.apkCommitment) :
    (priv.publicKeys = priv'.publicKeys ∧ priv.weights = priv'.weights) ∨
      Collision (fun i => (priv.publicKeys i).X) (fun i => (priv.publicKeys i).Y) priv.weights
        (fun i => (priv'.publicKeys i).X) (fun i => (priv'.publicKeys i).Y) priv'.weights := by
  rcases commitment_binding (c17_commitment h) (hc ▸ c17_commitment h') with ⟨hx, hy, hw⟩ | hcol
  · exact Or.inl ⟨keys_ext hx hy, hw⟩
  · exact Or.inr hcol

/-! ## C18 -/

/-- **C18 is false of the code (1).** The public message hash can be replaced by anything. -/
theorem c18_message_hash_free (M : G2In) :
    TxAccepted mode pub priv ↔ TxAccepted mode { pub with messageHash := M } priv := Iff.rfl

/-- **C18 is false of the code (2)**, and C09 for transactions: the signed bytes can be replaced by any others. -/
theorem c18_bytes_free (msg msg' : Vector Fips.Byte 32) :
    TxAccepted mode pub { priv with msgBytes := msgVars msg } ↔
      TxAccepted mode pub { priv with msgBytes := msgVars msg' } := by
  simp only [TxAccepted, tx_cases, (c09_hash_to_g2_any_message msg msg' _).1]

/-! ## C19 -/

theorem bits_of (bs : Fin 10 → Bool) : (fun i => bs i = true) = fun i => bit (bs i) = 1 :=
  funext fun i => propext (bits_eq bs i).symm

/-- **C19 in gnark's test engine.** For keys in general position the aggregated key is the sum of the keys whose
bit is 1 ((0,0) if there is none), for both aggregation functions and whatever the prover does. -/
theorem c19_engine_partial {keys : Fin 10 → G1In} {K : Fin 10 → E1 Fp} (hk : ∀ i, Denotes (keys i) (K i))
    (bits weights : Fin 10 → Fr) (hb : ∀ i, bits i = 0 ∨ bits i = 1)
    (hg : GeneralPosition K fun i => bits i = 1) :
    ∃ apk : G1Var, ⟨apk.X, apk.Y⟩ = enc1 (signersSum K fun i => bits i = 1) ∧
      aggregatePublicKeys .engine keys bits weights (∑ i, if bits i = 1 then weights i else 0) = pure apk ∧
      aggregatePublicKeysRotate .engine keys bits = pure apk := by
  obtain ⟨bs, rfl⟩ : ∃ bs : Fin 10 → Bool, bits = fun i => bit (bs i) :=
    ⟨fun i => decide (bits i = 1), funext fun i => by rcases hb i with e | e <;> simp [e]⟩
  rw [← bits_of] at hg ⊢
  obtain ⟨v, e, hv⟩ := engine_sum hk bs hg
  refine ⟨v, ?_, ?_, ?_⟩
  · rcases hv with ⟨-, rfl, h0⟩ | ⟨-, -, hp⟩
    · rw [h0]; rfl
    · rw [enc1_pt hp]
  · rw [aggregate_eq .engine bs weights _ fun i => (hk i).1, assert_true, pure_bind, e]
    exact Finset.sum_congr rfl fun i _ => by simp only [bits_eq]
  · rw [aggregateRotate_eq .engine bs fun i => (hk i).1, e]

/-- the first `m` validators sign -/
def firstSign (m : ℕ) : Fin 10 → Fr := fun i => if i.val < m then 1 else 0

theorem firstSign_eq (m : ℕ) : firstSign m = fun i => bit (decide (i.val < m)) := by
  funext i
  rw [firstSign]
  split <;> simp [*]

/-- Compiled circuit, the first `m ≥ 1` validators sign, keys in general position, `(x, y)` the sum of the signers'
keys with `x ≠ 0`: the aggregated key is that sum when the number of non-signers is even, and `(4/x², -4y/x³)` when
it is odd. -/
theorem c19_compiled {keys : Fin 10 → G1In} {K : Fin 10 → E1 Fp} (hk : ∀ i, Denotes (keys i) (K i))
    (m : ℕ) (h1 : 1 ≤ m) (h10 : m ≤ 10) (hg : GeneralPosition K fun i => i.val < m) :
    ∃ x y, Pt (signersSum K fun i => i.val < m) x y ∧ (x ≠ 0 →
      ∃ apk : G1Var, aggregatePublicKeysRotate .compiled keys (firstSign m) = pure apk ∧
        ((10 - m) % 2 = 0 → (apk.X, apk.Y) = (x, y)) ∧
        ((10 - m) % 2 = 1 → (apk.X, apk.Y) = (4 / x ^ 2, -(4 * y) / x ^ 3))) := by
  obtain ⟨x, y, hp, h⟩ := compiled_prefix hk m h1 h10 hg
  refine ⟨x, y, hp, fun hx => ⟨phiIter x y (10 - m), ?_, fun e => ?_, fun e => ?_⟩⟩
  · rw [firstSign_eq, aggregateRotate_eq _ _ fun i => (hk i).1, h (Or.inr hx)]
  · rw [phiIter, if_pos e]
  · rw [phiIter, if_neg (by omega), phi]

/-- All ten sign: both modes return the sum. -/
theorem c19_all_sign {keys : Fin 10 → G1In} {K : Fin 10 → E1 Fp} (hk : ∀ i, Denotes (keys i) (K i))
    (hg : GeneralPosition K fun _ => True) (weights : Fin 10 → Fr) :
    ∃ apk : G1Var, ⟨apk.X, apk.Y⟩ = enc1 (∑ i, K i) ∧
      aggregatePublicKeys mode keys (fun _ => 1) weights (∑ i, weights i) = pure apk ∧
      aggregatePublicKeysRotate mode keys (fun _ => 1) = pure apk := by
  have hsum : signersSum K (fun _ => True) = ∑ i, K i := by simp [signersSum]
  have key : ∃ v, addAll (selected mode keys fun _ => true) = pure v ∧ ⟨v.X, v.Y⟩ = enc1 (∑ i, K i) := by
    cases mode
    · have ht : (fun i : Fin 10 => i.val < 10) = fun _ => True := funext fun i => by simp [i.2]
      have ht' : (fun i : Fin 10 => decide (i.val < 10)) = fun _ => true := funext fun i => by simp
      obtain ⟨x, y, hp, h⟩ := compiled_prefix hk 10 (by omega) le_rfl (by rw [ht]; exact hg)
      rw [ht, hsum] at hp
      rw [ht'] at h
      exact ⟨_, h (Or.inl rfl), by rw [enc1_pt hp]; rfl⟩
    · obtain ⟨v, e, hv⟩ := engine_sum hk (fun _ => true) (by simpa using hg)
      refine ⟨v, e, ?_⟩
      rcases hv with ⟨h, -⟩ | ⟨-, -, hp⟩
      · exact absurd ⟨0, rfl⟩ h
      · rw [show (fun _ : Fin 10 => true = true) = fun _ => True by simp, hsum] at hp
        rw [enc1_pt hp]
  obtain ⟨v, e, hv⟩ := key
  have hb : (fun _ : Fin 10 => (1 : Fr)) = fun i => bit ((fun _ : Fin 10 => true) i) := by simp
  refine ⟨v, hv, ?_, ?_⟩
  · rw [hb, aggregate_eq mode _ weights _ fun i => (hk i).1, assert_true (by simp), pure_bind, e]
  · rw [hb, aggregateRotate_eq mode _ fun i => (hk i).1, e]

/-- **C19 is false of the compiled circuit**: with an odd number of validators at the end of the list not signing,
the only possible aggregated key is not a point of the curve (unless the sum has `x³ = 4`), hence not the sum. -/
theorem c19_compiled_false {keys : Fin 10 → G1In} {K : Fin 10 → E1 Fp} (hk : ∀ i, Denotes (keys i) (K i))
    (m : ℕ) (h1 : 1 ≤ m) (h10 : m ≤ 10) (hodd : (10 - m) % 2 = 1) (hg : GeneralPosition K fun i => i.val < m)
    (hx : ∀ x y, Pt (signersSum K fun i => i.val < m) x y → x ≠ 0 ∧ x ^ 3 ≠ 4) :
    ∃ apk : G1Var, aggregatePublicKeysRotate .compiled keys (firstSign m) = pure apk ∧
      apk.Y ^ 2 ≠ apk.X ^ 3 + 4 ∧ ⟨apk.X, apk.Y⟩ ≠ enc1 (signersSum K fun i => i.val < m) := by
  obtain ⟨x, y, hp, h⟩ := c19_compiled hk m h1 h10 hg
  obtain ⟨h0, h4⟩ := hx x y hp
  obtain ⟨apk, e, -, ho⟩ := h h0
  obtain ⟨eX, eY⟩ := Prod.mk.inj (ho hodd)
  have hoff : apk.Y ^ 2 ≠ apk.X ^ 3 + 4 := by
    rw [eX, eY]
    exact fun hc => h4 ((phi_off_curve hp.eqn h0).1 hc)
  refine ⟨apk, e, hoff, fun hc => hoff ?_⟩
  rw [enc1_pt hp] at hc
  obtain ⟨e1, e2⟩ := G1Affine.mk.inj hc
  rw [e1, e2]
  exact hp.eqn

/-- Compiled circuit, nobody signs: the prover can make every `(λ², -λ³)` the aggregated key. -/
theorem c19_compiled_nobody {keys : Fin 10 → G1In} (hf : ∀ i, (keys i).Fits) (weights : Fin 10 → Fr) (l : Fp) :
    ∃ apk : G1Var, (apk.X, apk.Y) = (l ^ 2, -l ^ 3) ∧
      (aggregatePublicKeys .compiled keys (fun _ => 0) weights 0).sat apk ∧
      (aggregatePublicKeysRotate .compiled keys fun _ => 0).sat apk := by
  have hb : (fun _ : Fin 10 => (0 : Fr)) = fun i => bit ((fun _ : Fin 10 => false) i) := by simp
  refine ⟨⟨l ^ 2, -l ^ 3, false⟩, rfl, ?_, ?_⟩
  · rw [hb, aggregate_eq _ _ weights _ hf, assert_true (by simp), pure_bind]
    exact compiled_none keys l
  · rw [hb, aggregateRotate_eq _ _ hf]
    exact compiled_none keys l

/-- Two equal keys (both modes): the prover chooses the slope of the line, so the "sum" of the two can be any point
`(λ² - 2x, λ(3x - λ²) - y)`, and the honest prover fails. -/
theorem c19_equal_keys (x y l : Fp) :
    (addG1Points ⟨x, y, false⟩ ⟨x, y, false⟩).sat ⟨l ^ 2 - 2 * x, l * (3 * x - l ^ 2) - y, false⟩ ∧
      (addG1Points ⟨x, y, false⟩ ⟨x, y, false⟩).run = none := by
  refine ⟨double_free x y l, ?_⟩
  rw [add_chord rfl rfl, run_bind]
  simp [fpDiv]

/-! ## C20 -/

theorem counts_iff (old new : G1In) (b : Bool) : counts old new b ↔
    (bit b = 1 ∧ new = old) ∨ (bit b = 0 ∧ old = ⟨fun _ => 0, fun _ => 0⟩) := by
  rw [counts]
  cases b <;> simp

/-- **C20.** The public trusted weight is the sum of the old weights at the positions where the bit is 1 and old and
new key have the same limbs, or the bit is 0 and the old key is the all-zero placeholder. -/
theorem c20_trusted_weight (h : RotateAccepted mode rpub rpriv) :
    rpub.trustedWeight = ∑ i, open Classical in
      if (rpriv.bitList i = 1 ∧ rpriv.newPublicKeys i = rpriv.oldPublicKeys i) ∨
        (rpriv.bitList i = 0 ∧ rpriv.oldPublicKeys i = ⟨fun _ => 0, fun _ => 0⟩)
      then rpriv.oldWeights i else 0 := by
  obtain ⟨bs, e, -, hw, -⟩ := (rotate_cases mode rpub rpriv).1 h
  rw [hw]
  refine Finset.sum_congr rfl fun i _ => ?_
  have hc := counts_iff (rpriv.oldPublicKeys i) (rpriv.newPublicKeys i) (bs i)
  rw [show bit (bs i) = rpriv.bitList i by rw [e]] at hc
  by_cases h1 : counts (rpriv.oldPublicKeys i) (rpriv.newPublicKeys i) (bs i)
  · rw [if_pos h1, if_pos (hc.1 h1)]
  · rw [if_neg h1, if_neg fun h2 => h1 (hc.2 h2)]

/-- As integers, for old weights at most `B` with `10·B` below the field order. -/
theorem c20_no_wrap (h : RotateAccepted mode rpub rpriv) (B : ℕ) (hB : 10 * B < frOrder)
    (hw : ∀ i, (rpriv.oldWeights i).val ≤ B) :
    rpub.trustedWeight.val = ∑ i, open Classical in
      if (rpriv.bitList i = 1 ∧ rpriv.newPublicKeys i = rpriv.oldPublicKeys i) ∨
        (rpriv.bitList i = 0 ∧ rpriv.oldPublicKeys i = ⟨fun _ => 0, fun _ => 0⟩)
      then (rpriv.oldWeights i).val else 0 := by
  rw [c20_trusted_weight h, sum_val _ B hB]
  · exact Finset.sum_congr rfl fun i _ => by split <;> simp
  · intro i
    split
    · exact hw i
    · simp

/-- A validator that keeps its key but moves to another position is not counted: if no position has the same key
before and after, and no old key is the placeholder, the trusted weight is 0. -/
theorem c20_positional (h : RotateAccepted mode rpub rpriv)
    (hd : ∀ i, rpriv.newPublicKeys i ≠ rpriv.oldPublicKeys i)
    (h0 : ∀ i, rpriv.oldPublicKeys i ≠ ⟨fun _ => 0, fun _ => 0⟩) : rpub.trustedWeight = 0 := by
  rw [c20_trusted_weight h]
  exact Finset.sum_eq_zero fun i _ => if_neg fun hc => hc.elim (fun h => hd i h.2) fun h => h0 i h.2

/-! ## C21 -/

/-- **C21.** Both public commitments are the Poseidon commitments of the key and weight lists used. -/
theorem c21_commitments (h : RotateAccepted mode rpub rpriv) :
    IsCommitment (fun i => (rpriv.oldPublicKeys i).X) (fun i => (rpriv.oldPublicKeys i).Y) rpriv.oldWeights
      rpub.oldApkCommitment ∧
    IsCommitment (fun i => (rpriv.newPublicKeys i).X) (fun i => (rpriv.newPublicKeys i).Y) rpriv.newWeights
      rpub.newCommitment := by
  obtain ⟨bs, -, -, -, ho, hn, -⟩ := (rotate_cases mode rpub rpriv).1 h
  rw [ho, hn]
  exact ⟨commit_isCommitment _ _, commit_isCommitment _ _⟩

/-- The chain of custody: a rotation and a transaction with the same commitment (the rotation's new commitment)
use the same keys and weights, or exhibit a Poseidon collision. -/
theorem c21_chain (h : RotateAccepted mode rpub rpriv) (h' : TxAccepted mode pub priv)
    (hc : rpub.newCommitment = pub.apkCommitment) :
    (rpriv.newPublicKeys = priv.publicKeys ∧ rpriv.newWeights = priv.weights) ∨
      Collision (fun i => (rpriv.newPublicKeys i).X) (fun i => (rpriv.newPublicKeys i).Y) rpriv.newWeights
        (fun i => (priv.publicKeys i).X) (fun i => (priv.publicKeys i).Y) priv.weights := by
  rcases commitment_binding (c21_commitments h).2 (hc ▸ c17_commitment h') with ⟨hx, hy, hw⟩ | hcol
  · exact Or.inl ⟨keys_ext hx hy, hw⟩
  · exact Or.inr hcol

/-! ## C22 -/

/-- **C22 is false of the code (1).** The signed bytes are not related to the new commitment: any bytes do. -/
theorem c22_bytes_free (msg msg' : Vector Fips.Byte 32) :
    RotateAccepted mode { rpub with newApkCommitmentBytes := msgVars msg } rpriv ↔
      RotateAccepted mode { rpub with newApkCommitmentBytes := msgVars msg' } rpriv := by
  simp only [RotateAccepted, rotate_cases, (c09_hash_to_g2_any_message msg msg' _).1]

/-- **C22 is false of the code (2).** The signature does not cover the new weights: with the same signature, the
same signed bytes and any other list of new weights (and its commitment) the rotation is accepted. -/
theorem c22_new_weights_free (weights' : Fin 10 → Fr) (h : RotateAccepted mode rpub rpriv) :
    ∃ c, IsCommitment (fun i => (rpriv.newPublicKeys i).X) (fun i => (rpriv.newPublicKeys i).Y) weights' c ∧
      RotateAccepted mode { rpub with newCommitment := c } { rpriv with newWeights := weights' } := by
  obtain ⟨bs, e, hf, hw, ho, hn, hrest⟩ := (rotate_cases mode rpub rpriv).1 h
  exact ⟨commit rpriv.newPublicKeys weights', commit_isCommitment _ _,
    (rotate_cases mode _ _).2 ⟨bs, e, hf, hw, ho, rfl, hrest⟩⟩

/-- The message hash of a rotation is not used either. -/
theorem c22_message_hash_free (M : G2In) :
    RotateAccepted mode rpub rpriv ↔ RotateAccepted mode { rpub with messageHash := M } rpriv := Iff.rfl

/-! ## C23 -/

/-- **C23, soundness.** In every accepted transaction there are an aggregated key produced by `AggregatePublicKeys`
from the committed keys, the bits and the weights, and a hash point produced by `HashToG2`, such that a Miller
loop value of `(-g1, signature), (key, hash)` is mapped to 1 by the final exponentiation. -/
theorem c23_sound (h : TxAccepted mode pub priv) :
    ∃ (apk : G1Var) (hp : G2Affine Fp),
      (aggregatePublicKeys mode priv.publicKeys priv.bitList priv.weights pub.signedWeight).sat apk ∧
      (G2.hashToG2 priv.msgBytes).sat hp ∧
      ∃ m z, millerLoop [enc1 (-G1gen), ⟨apk.X, apk.Y⟩] [priv.signature.val, hp] = .ok m ∧ m.sat z ∧ z ≠ 0 ∧
        z ^ ((fpOrder ^ 12 - 1) / rOrder) = 1 := by
  obtain ⟨bs, e, hf, hw, hc, hs, apk, hp, h1, h2, h3⟩ := (tx_cases mode pub priv).1 h
  refine ⟨apk, hp, ?_, h2, ?_⟩
  · rw [e, aggregate_eq mode bs _ _ hf, assert_true hw, pure_bind]
    exact h1
  · obtain ⟨c, hc1, hc2⟩ := check_ok g1neg ⟨apk.X, apk.Y⟩ priv.signature.val hp
    rw [hc2] at h3
    rw [← g1neg_eq]
    exact c43_sound_general _ _ c hc1 h3

/-- the same for rotations -/
theorem c23_rotate_sound (h : RotateAccepted mode rpub rpriv) :
    ∃ (apk : G1Var) (hp : G2Affine Fp),
      (aggregatePublicKeysRotate mode rpriv.newPublicKeys rpriv.bitList).sat apk ∧
      (G2.hashToG2 rpub.newApkCommitmentBytes).sat hp ∧
      ∃ m z, millerLoop [enc1 (-G1gen), ⟨apk.X, apk.Y⟩] [rpriv.signature.val, hp] = .ok m ∧ m.sat z ∧ z ≠ 0 ∧
        z ^ ((fpOrder ^ 12 - 1) / rOrder) = 1 := by
  obtain ⟨bs, e, hf, hw, ho, hn, hs, apk, hp, h1, h2, h3⟩ := (rotate_cases mode rpub rpriv).1 h
  refine ⟨apk, hp, ?_, h2, ?_⟩
  · rw [e, aggregateRotate_eq mode bs hf]
    exact h1
  · obtain ⟨c, hc1, hc2⟩ := check_ok g1neg ⟨apk.X, apk.Y⟩ rpriv.signature.val hp
    rw [hc2] at h3
    rw [← g1neg_eq]
    exact c43_sound_general _ _ c hc1 h3

theorem neg_gen_good : -G1gen ≠ 0 := neg_ne_zero.2 G1gen_ne

/-- With points of the right groups: the pairing equation `e(-g1, S) · e(A, H) = 1` holds for the sum `A` of the
signers' keys (whenever the aggregation is exact: `c19_engine_partial`, `c19_all_sign`), the signature `S` and some output
`H` of `HashToG2`. -/
theorem c23_pairing_equation (h : TxAccepted mode pub priv) (A : E1 Fp) (S : ETwist Fp)
    (hA : ∀ apk, (aggregatePublicKeys mode priv.publicKeys priv.bitList priv.weights pub.signedWeight).sat apk →
      ⟨apk.X, apk.Y⟩ = enc1 A)
    (hA0 : A ≠ 0) (hS : priv.signature.val = enc2 S) (hS0 : S ≠ 0) (hSr : rOrder • S = 0) :
    ∃ hp, (G2.hashToG2 priv.msgBytes).sat hp ∧
      ∀ H : ETwist Fp, hp = enc2 H → H ≠ 0 → rOrder • H = 0 → ate (-G1gen) S * ate A H = 1 := by
  obtain ⟨bs, e, hf, hw, hc, hs, apk, hp, h1, h2, h3⟩ := (tx_cases mode pub priv).1 h
  refine ⟨hp, h2, fun H hH hH0 hHr => ?_⟩
  have ha := hA apk (by rw [e, aggregate_eq mode bs _ _ hf, assert_true hw, pure_bind]; exact h1)
  obtain ⟨c, hc1, hc2⟩ := check_ok g1neg ⟨apk.X, apk.Y⟩ priv.signature.val hp
  rw [hc2] at h3
  rw [g1neg_eq, ha, hS, hH] at hc1
  have := c43_sound [(-G1gen, S), (A, H)] (by
    intro x hx
    simp only [List.mem_cons, List.not_mem_nil, or_false] at hx
    rcases hx with rfl | rfl
    · exact ⟨neg_gen_good, hS0, hSr⟩
    · exact ⟨hA0, hH0, hHr⟩) c hc1 h3
  simpa [ateProd] using this

/-- The honest prover passes the pairing check when the pairing equation holds, unless the easy part of the Miller
value is already 1. -/
theorem pairing_complete {A : E1 Fp} {S H : ETwist Fp} (hH0 : H ≠ 0) (hHr : rOrder • H = 0) (hS0 : S ≠ 0)
    (hSr : rOrder • S = 0) (hA0 : A ≠ 0) (heq : ate (-G1gen) S * ate A H = 1) :
    ∃ z, millerLoop [enc1 (-G1gen), enc1 A] [enc2 S, enc2 H] = .ok (pure z) ∧
      (safeInput z ^ ((fpOrder ^ 6 - 1) * (fpOrder ^ 2 + 1)) ≠ 1 →
        (pairingCheckStmt [enc1 (-G1gen), enc1 A] [enc2 S, enc2 H]).run = some ()) := by
  obtain ⟨z, c, hm, hc, hp, -⟩ := c43_complete_easy [(-G1gen, S), (A, H)] (by simp) (by
    intro x hx
    simp only [List.mem_cons, List.not_mem_nil, or_false] at hx
    rcases hx with rfl | rfl
    · exact ⟨neg_gen_good, hS0, hSr⟩
    · exact ⟨hA0, hH0, hHr⟩) (by simpa [ateProd] using heq)
  refine ⟨z, hm, fun hz => ?_⟩
  obtain ⟨c2, e1, e2⟩ := check_ok (enc1 (-G1gen)) (enc1 A) (enc2 S) (enc2 H)
  rw [e2]
  have e3 := hc.symm.trans e1
  rw [← Except.ok.inj e3, hp hz, run_pure]

/-- what an aggregation that returns `A` computes internally -/
theorem addAll_of_aggregate {keys : Fin 10 → G1In} {bits : Fin 10 → Fr} (hf : ∀ i, (keys i).Fits)
    (hb : ∀ i, bits i = 0 ∨ bits i = 1) {apk : G1Var} (h : aggregatePublicKeysRotate mode keys bits = pure apk) :
    ∃ bs : Fin 10 → Bool, (bits = fun i => bit (bs i)) ∧ addAll (selected mode keys bs) = pure apk := by
  obtain ⟨bs, hbs⟩ : ∃ bs : Fin 10 → Bool, bits = fun i => bit (bs i) :=
    ⟨fun i => decide (bits i = 1), funext fun i => by rcases hb i with e | e <;> simp [e]⟩
  refine ⟨bs, hbs, ?_⟩
  rwa [hbs, aggregateRotate_eq mode bs hf] at h

/-- **C23, completeness, whenever the aggregation is exact.**  Boolean bits, keys that fit and whose aggregation is
the point `A`, a signature satisfying the pairing equation with `A` and the hash of the message, the matching
public inputs: accepted by the honest prover, unless the easy part of the Miller value is already 1. -/
theorem c23_complete_of_key {keys : Fin 10 → G1In} (hf : ∀ i, (keys i).Fits)
    (bits weights : Fin 10 → Fr) (hb : ∀ i, bits i = 0 ∨ bits i = 1) {A : E1 Fp} {apk : G1Var}
    (hagg : aggregatePublicKeysRotate mode keys bits = pure apk) (ha : ⟨apk.X, apk.Y⟩ = enc1 A)
    (msg : Vector Fr 32) (S H : ETwist Fp) (M : G2In)
    (hH : (G2.hashToG2 msg).run = some (enc2 H)) (hH0 : H ≠ 0) (hHr : rOrder • H = 0)
    (hS0 : S ≠ 0) (hSr : rOrder • S = 0) (hA0 : A ≠ 0) (heq : ate (-G1gen) S * ate A H = 1) (c : Fr)
    (hc : IsCommitment (fun i => (keys i).X) (fun i => (keys i).Y) weights c) :
    ∃ z, millerLoop [enc1 (-G1gen), enc1 A] [enc2 S, enc2 H] = .ok (pure z) ∧
      (safeInput z ^ ((fpOrder ^ 6 - 1) * (fpOrder ^ 2 + 1)) ≠ 1 →
        (txDefine mode ⟨M, c, ∑ i, if bits i = 1 then weights i else 0⟩
          ⟨keys, newG2Affine (enc2 S), bits, weights, msg⟩).run = some ()) := by
  obtain ⟨z, hm, hp⟩ := pairing_complete hH0 hHr hS0 hSr hA0 heq
  refine ⟨z, hm, fun hz => ?_⟩
  have hcc := isCommitment_unique hc (commit_isCommitment keys weights)
  obtain ⟨bs, hbs, hadd⟩ := addAll_of_aggregate hf hb hagg
  have hsig := c58_signature (enc2 S)
  have hsum : (∑ i, if bs i then weights i else 0) = ∑ i, if bits i = 1 then weights i else 0 := by
    rw [hbs]; exact Finset.sum_congr rfl fun i _ => by simp only [bits_eq]
  refine tx_run (bs := bs) (apk := apk) (h := enc2 H) hbs hf hsum hcc hsig.1
    (by rw [hadd, run_pure]) hH ?_
  rw [hsig.2, g1neg_eq, ha]
  exact hp hz

/-- **C23, completeness.** An honest witness - boolean bits, keys denoting points in general position, a signature
satisfying the pairing equation with the sum of the signers' keys and the hash of the message, the matching public
inputs - is accepted by the honest prover (test engine), unless the easy part of the Miller value is already 1. -/
theorem c23_complete {keys : Fin 10 → G1In} {K : Fin 10 → E1 Fp} (hk : ∀ i, Denotes (keys i) (K i))
    (bits weights : Fin 10 → Fr) (hb : ∀ i, bits i = 0 ∨ bits i = 1)
    (hg : GeneralPosition K fun i => bits i = 1)
    (msg : Vector Fr 32) (S H : ETwist Fp) (M : G2In)
    (hH : (G2.hashToG2 msg).run = some (enc2 H)) (hH0 : H ≠ 0) (hHr : rOrder • H = 0)
    (hS0 : S ≠ 0) (hSr : rOrder • S = 0) (hA0 : signersSum K (fun i => bits i = 1) ≠ 0)
    (heq : ate (-G1gen) S * ate (signersSum K fun i => bits i = 1) H = 1) (c : Fr)
    (hc : IsCommitment (fun i => (keys i).X) (fun i => (keys i).Y) weights c) :
    ∃ z, millerLoop [enc1 (-G1gen), enc1 (signersSum K fun i => bits i = 1)] [enc2 S, enc2 H] = .ok (pure z) ∧
      (safeInput z ^ ((fpOrder ^ 6 - 1) * (fpOrder ^ 2 + 1)) ≠ 1 →
        (txDefine .engine ⟨M, c, ∑ i, if bits i = 1 then weights i else 0⟩
          ⟨keys, newG2Affine (enc2 S), bits, weights, msg⟩).run = some ()) := by
  obtain ⟨apk, ha, -, hrot⟩ := c19_engine_partial hk bits weights hb hg
  exact c23_complete_of_key (fun i => (hk i).1) bits weights hb hrot ha msg S H M hH hH0 hHr hS0 hSr hA0 heq c hc

/-- The same in both modes when all ten sign. -/
theorem c23_complete_all_sign {keys : Fin 10 → G1In} {K : Fin 10 → E1 Fp} (hk : ∀ i, Denotes (keys i) (K i))
    (weights : Fin 10 → Fr) (hg : GeneralPosition K fun _ => True)
    (msg : Vector Fr 32) (S H : ETwist Fp) (M : G2In)
    (hH : (G2.hashToG2 msg).run = some (enc2 H)) (hH0 : H ≠ 0) (hHr : rOrder • H = 0)
    (hS0 : S ≠ 0) (hSr : rOrder • S = 0) (hA0 : ∑ i, K i ≠ 0)
    (heq : ate (-G1gen) S * ate (∑ i, K i) H = 1) (c : Fr)
    (hc : IsCommitment (fun i => (keys i).X) (fun i => (keys i).Y) weights c) :
    ∃ z, millerLoop [enc1 (-G1gen), enc1 (∑ i, K i)] [enc2 S, enc2 H] = .ok (pure z) ∧
      (safeInput z ^ ((fpOrder ^ 6 - 1) * (fpOrder ^ 2 + 1)) ≠ 1 →
        (txDefine mode ⟨M, c, ∑ i, weights i⟩
          ⟨keys, newG2Affine (enc2 S), fun _ => 1, weights, msg⟩).run = some ()) := by
  obtain ⟨apk, ha, -, hrot⟩ := c19_all_sign (mode := mode) hk hg weights
  have := c23_complete_of_key (fun i => (hk i).1) _ weights (fun _ => Or.inr rfl) hrot ha msg S H M hH hH0 hHr hS0
    hSr hA0 heq c hc
  simpa only [if_true] using this

/-- Rotations: an honest witness is accepted whenever the aggregation is exact, with the trusted weight of `C20`. -/
theorem c23_rotate_complete {old new : Fin 10 → G1In} (hf : ∀ i, (new i).Fits)
    (bits oldW newW : Fin 10 → Fr) (hb : ∀ i, bits i = 0 ∨ bits i = 1) {A : E1 Fp} {apk : G1Var}
    (hagg : aggregatePublicKeysRotate mode new bits = pure apk) (ha : ⟨apk.X, apk.Y⟩ = enc1 A)
    (msg : Vector Fr 32) (S H : ETwist Fp) (M : G2In)
    (hH : (G2.hashToG2 msg).run = some (enc2 H)) (hH0 : H ≠ 0) (hHr : rOrder • H = 0)
    (hS0 : S ≠ 0) (hSr : rOrder • S = 0) (hA0 : A ≠ 0) (heq : ate (-G1gen) S * ate A H = 1) (c c' tw : Fr)
    (hc : IsCommitment (fun i => (old i).X) (fun i => (old i).Y) oldW c)
    (hc' : IsCommitment (fun i => (new i).X) (fun i => (new i).Y) newW c')
    (htw : tw = ∑ i, open Classical in
      if (bits i = 1 ∧ new i = old i) ∨ (bits i = 0 ∧ old i = ⟨fun _ => 0, fun _ => 0⟩) then oldW i else 0) :
    ∃ z, millerLoop [enc1 (-G1gen), enc1 A] [enc2 S, enc2 H] = .ok (pure z) ∧
      (safeInput z ^ ((fpOrder ^ 6 - 1) * (fpOrder ^ 2 + 1)) ≠ 1 →
        (rotateDefine mode ⟨M, c, c', msg, tw⟩
          ⟨oldW, newW, old, new, bits, newG2Affine (enc2 S)⟩).run = some ()) := by
  obtain ⟨z, hm, hp⟩ := pairing_complete hH0 hHr hS0 hSr hA0 heq
  refine ⟨z, hm, fun hz => ?_⟩
  have hcc := isCommitment_unique hc (commit_isCommitment old oldW)
  have hcc' := isCommitment_unique hc' (commit_isCommitment new newW)
  obtain ⟨bs, hbs, hadd⟩ := addAll_of_aggregate hf hb hagg
  have hsig := c58_signature (enc2 S)
  refine rotate_run (bs := bs) (apk := apk) (h := enc2 H) hbs hf ?_ hcc hcc' hsig.1
    (by dsimp only; rw [hadd, run_pure]) hH ?_
  · dsimp only
    rw [htw]
    refine Finset.sum_congr rfl fun i _ => ?_
    have := counts_iff (old i) (new i) (bs i)
    rw [show bit (bs i) = bits i by rw [hbs]] at this
    by_cases h1 : counts (old i) (new i) (bs i)
    · rw [if_pos h1, if_pos (this.1 h1)]
    · rw [if_neg h1, if_neg fun h2 => h1 (this.2 h2)]
  · rw [hsig.2, g1neg_eq, ha]
    exact hp hz

end Spark.CircuitProps
