import Verif.Model.Helpers
import Verif.Spec.Helpers
import Mathlib.Data.BitVec
import Mathlib.Data.Nat.Size

/-!
# Helper lemmas for C68-C72
-/

namespace Spark.HelperProps
open Spark Circ Spec Circuit Pairing PairingProps CircuitProps GroupProps Helpers
open scoped BigOperators
set_option maxRecDepth 100000

theorem coords_eq : coords = enc1 := by
  funext P
  cases P <;> rfl

theorem mapM_genRandom (e : ℕ) {α : Type} (l : List α) (draws : List ℕ) :
    (l.mapM fun _ => genRandom e) draws = if l.length ≤ draws.length then
      some ((draws.take l.length).map (· % 2 ^ e), draws.drop l.length) else none := by
  induction l generalizing draws with
  | nil => simp [List.mapM_nil, pure, StateT.pure]
  | cons a l ih =>
    rw [List.mapM_cons]
    rcases draws with _ | ⟨d, ds⟩
    · simp [genRandom, bind, StateT.bind]
    · have := ih ds
      simp only [genRandom, bind, StateT.bind, Option.bind_some, this]
      split
      · next h => simp [h, pure, StateT.pure]
      · next h => simp [h]

theorem draws_fn (draws : List ℕ) (k e : ℕ) (h : k + 10 ≤ draws.length) :
    ((draws.drop k).take 10).map (· % 2 ^ e) = List.ofFn fun i : Fin 10 => draws.getD (k + i.val) 0 % 2 ^ e := by
  refine List.ext_getElem (by simp; omega) fun i h1 h2 => ?_
  have hi : i < 10 := by simpa using h2
  rw [List.getElem_map, List.getElem_take, List.getElem_drop, List.getElem_ofFn, List.getD_eq_getElem?_getD,
    List.getElem?_eq_getElem (by omega)]
  rfl

theorem ofFn_get {α : Type} (f : Fin 10 → α) (i : Fin 10) : (List.ofFn f)[i.val]? = some (f i) := by
  rw [List.getElem?_eq_getElem (by simp), List.getElem_ofFn]

theorem commitment_of {H : List ℕ → Option ℕ} (hH : IsIden3Hash H) (sk w : Fin 10 → ℕ) (hw : ∀ i, w i < frOrder) :
    ∃ c, genCommitment H ((List.ofFn fun i => genPublickey (sk i)).map coords) (List.ofFn w) = some c ∧ c < frOrder ∧
      CommitmentOf sk w c := by
  obtain ⟨c, e, hc, h⟩ := c13_agree hH ((List.ofFn fun i => genPublickey (sk i)).map coords) (List.ofFn w)
    (fun i => enc1 (sk i • G1gen)) w (fun i => by
      rw [List.getElem?_map, ofFn_get (fun i => genPublickey (sk i)), coords_eq]; rfl) (fun i => ofFn_get w i) hw
  refine ⟨c, e, hc, ?_⟩
  rw [computeAPKCommitment_eq] at h
  have h' : commit (fun i => newG1Affine (enc1 (sk i • G1gen))) (fun i => (w i : Fr)) = (c : Fr) := by
    have := congrArg Circ.run h
    simpa using this
  rw [CommitmentOf, ← h']
  exact commit_isCommitment _ _

/-- the slices for ten secret keys, weights and bits -/
noncomputable def slices (sk w b : Fin 10 → ℕ) : Slices :=
  ⟨List.ofFn w, List.ofFn fun i => genPublickey (sk i), List.ofFn b, List.ofFn sk⟩

theorem setIdx_ofFn {α : Type} (f : Fin 10 → α) (i : Fin 10) (x : α) :
    setIdx (List.ofFn f) i.val x = some (List.ofFn (Function.update f i x)) := by
  rw [setIdx, if_pos (by simp)]
  congr 1
  refine List.ext_getElem (by simp) fun j h1 h2 => ?_
  rw [List.getElem_set, List.getElem_ofFn, List.getElem_ofFn, Function.update_apply]
  by_cases h : i.val = j
  · rw [if_pos h, if_pos (Fin.ext h.symm)]
  · rw [if_neg h, if_neg fun e => h (by rw [← e])]

theorem replaceAt_slices (sk w b : Fin 10 → ℕ) (i : Fin 10) (s' w' b' : ℕ) :
    replaceAt (slices sk w b) i.val s' w' b' =
      some (slices (Function.update sk i s') (Function.update w i w') (Function.update b i b')) := by
  have : Function.update (fun i => genPublickey (sk i)) i (genPublickey s') =
      fun j => genPublickey (Function.update sk i s' j) := funext fun j => by
    rw [Function.update_apply, Function.update_apply]; split <;> rfl
  simp only [replaceAt, slices, setIdx_ofFn, bind, Option.bind_some, this, pure]

theorem replaceLoop_spec (n : ℕ) : ∀ (count : ℕ) (m : List ℕ) (sk w b : Fin 10 → ℕ) (draws : List ℕ)
    (out : Slices × List ℕ), draws.length ≤ n → replaceLoop count m (slices sk w b) draws = some out →
    ∃ R sk' w' b', R.card = count ∧ (∀ i ∈ R, i.val ∉ m) ∧ Replaced R sk w b sk' w' b' ∧
      out.1 = slices sk' w' b' := by
  induction n with
  | zero =>
    intro count m sk w b draws out hn h
    obtain rfl : draws = [] := List.length_eq_zero_iff.1 (by omega)
    rcases count with _ | count
    · rw [replaceLoop] at h
      obtain rfl := Option.some.inj h
      exact ⟨∅, sk, w, b, rfl, by simp, ⟨fun i _ => ⟨rfl, rfl, rfl⟩, by simp⟩, rfl⟩
    · rw [replaceLoop] at h
      cases h
  | succ n ih =>
    intro count m sk w b draws out hn h
    rcases count with _ | count
    · rw [replaceLoop] at h
      obtain rfl := Option.some.inj h
      exact ⟨∅, sk, w, b, rfl, by simp, ⟨fun i _ => ⟨rfl, rfl, rfl⟩, by simp⟩, rfl⟩
    rcases draws with _ | ⟨d, ds⟩
    · rw [replaceLoop] at h
      cases h
    rw [List.length_cons] at hn
    rw [replaceLoop.eq_def] at h
    dsimp only at h
    split at h
    · exact ih _ _ _ _ _ _ _ (by omega) h
    next hm =>
    rcases ds with _ | ⟨dsk, _ | ⟨dw, _ | ⟨db, ds⟩⟩⟩
    · cases h
    · cases h
    · cases h
    dsimp only at h
    obtain ⟨i, hi⟩ : ∃ i : Fin 10, i.val = d % 2 ^ 4 % 10 := ⟨⟨_, Nat.mod_lt _ (by norm_num)⟩, rfl⟩
    rw [← hi] at h hm
    rw [replaceAt_slices] at h
    obtain ⟨R, sk', w', b', hR, hmem, hrep, hout⟩ := ih _ _ _ _ _ _ _ (by simp at hn; omega) h
    have hiR : i ∉ R := fun hc => hmem i hc List.mem_cons_self
    refine ⟨insert i R, sk', w', b', by rw [Finset.card_insert_of_notMem hiR, hR], ?_, ⟨?_, ?_⟩, hout⟩
    · intro j hj
      rcases Finset.mem_insert.1 hj with rfl | hj
      · exact hm
      · exact fun hc => hmem j hj (List.mem_cons_of_mem _ hc)
    · intro j hj
      rw [Finset.mem_insert, not_or] at hj
      have := hrep.same j hj.2
      rwa [Function.update_of_ne hj.1, Function.update_of_ne hj.1, Function.update_of_ne hj.1] at this
    · intro j hj
      rcases Finset.mem_insert.1 hj with rfl | hj
      · obtain ⟨e1, e2, e3⟩ := hrep.same j hiR
        rw [Function.update_self] at e1 e2 e3
        rw [e1, e2, e3]
        exact ⟨Nat.mod_lt _ (by norm_num), Nat.mod_lt _ (by norm_num), Nat.mod_lt _ (by norm_num)⟩
      · exact hrep.fresh j hj

theorem foldlM_sums {A B : Type} [AddCommMonoid A] [AddCommMonoid B] (step : A × B → ℕ → Option (A × B)) (n : ℕ)
    (f : ℕ → A) (g : ℕ → B) (h : ∀ acc, ∀ i < n, step acc i = some (acc.1 + f i, acc.2 + g i)) :
    (List.range n).foldlM step (0, 0) = some (∑ i ∈ Finset.range n, f i, ∑ i ∈ Finset.range n, g i) := by
  induction n with
  | zero => rfl
  | succ n ih =>
    rw [List.range_succ, List.foldlM_append, ih fun acc i hi => h acc i (by omega)]
    simp only [bind, Option.bind_some, List.foldlM_cons, List.foldlM_nil]
    rw [h _ n (by omega), Finset.sum_range_succ, Finset.sum_range_succ]
    rfl

theorem int64_bit {b : ℕ} (hb : b < 2) : int64 b = 1 ↔ b = 1 := by
  have : b = 0 ∨ b = 1 := by omega
  rcases this with rfl | rfl <;> simp [int64]

open Classical in
theorem signLoop (sk w b : Fin 10 → ℕ) (hb : ∀ i, b i < 2) (oldX : List Fp) (msg : ETwist Fp) :
    (List.range 10).foldlM (signRound (slices sk w b) oldX msg) (0, 0) =
      some (aggregateSignature sk (fun i => b i = 1) msg,
        ∑ i, if (coords (sk i • G1gen)).X ∈ oldX ∧ b i = 1 then int64 (w i) else 0) := by
  rw [foldlM_sums _ 10 (fun i => if h : i < 10 then (if b ⟨i, h⟩ = 1 then sk ⟨i, h⟩ • msg else 0) else 0)
    (fun i => if h : i < 10 then
      (if (coords (sk ⟨i, h⟩ • G1gen)).X ∈ oldX ∧ b ⟨i, h⟩ = 1 then int64 (w ⟨i, h⟩) else 0) else 0)]
  · rw [Finset.sum_range, Finset.sum_range]
    simp only [Fin.is_lt, dif_pos, Fin.eta, aggregateSignature]
    congr!
  · intro acc i hi
    rw [dif_pos hi, dif_pos hi]
    have e1 := ofFn_get (fun i => genPublickey (sk i)) ⟨i, hi⟩
    have e2 := ofFn_get b ⟨i, hi⟩
    have e3 := ofFn_get w ⟨i, hi⟩
    have e4 := ofFn_get sk ⟨i, hi⟩
    simp only [genPublickey] at e1 e2 e3 e4
    simp only [signRound, slices, e1, e2, e3, e4, bind, Option.bind_some, int64_bit (hb _), genPublickey, pure]
    split
    · next h1 =>
      simp only [h1, and_true, if_true, Option.bind_some]
      split
      · rfl
      · rw [add_zero]
    · next h1 =>
      simp only [h1, and_false, if_false, Option.bind_some, add_zero]

open Classical in
/-- what `generateNew` returns once the replacements are made -/
theorem generateNew_of {H : List ℕ → Option ℕ} (hH : IsIden3Hash H) (hashG2 : List Fips.Byte → ETwist Fp)
    (sk w b sk' w' b' : Fin 10 → ℕ) (hb' : ∀ i, b' i < 2) (hw' : ∀ i, w' i < frOrder) (dc : ℕ) (draws rest : List ℕ)
    (hl : replaceLoop (if dc % 2 ^ 2 = 0 then 2 else dc % 2 ^ 2) [] (slices sk w b) draws =
      some (slices sk' w' b', rest)) :
    ∃ c, c < frOrder ∧ CommitmentOf sk' w' c ∧
      generateNew H hashG2 (List.ofFn sk) (List.ofFn fun i => sk i • G1gen) (List.ofFn w) (List.ofFn b) (dc :: draws) =
        some (⟨List.ofFn fun i => sk' i • G1gen, List.ofFn w', List.ofFn b', c, hashG2 (bigBytes c),
          aggregateSignature sk' (fun i => b' i = 1) (hashG2 (bigBytes c)),
          ∑ i, if b' i = 1 ∧ ∃ j, (enc1 (sk' i • G1gen)).X = (enc1 (sk j • G1gen)).X then int64 (w' i) else 0⟩,
          rest) := by
  obtain ⟨c, hc, hclt, hcom⟩ := commitment_of hH sk' w' hw'
  refine ⟨c, hclt, hcom, ?_⟩
  rw [generateNew, if_neg (by simp)]
  simp only [genRandom, bind, Option.bind_some]
  change (replaceLoop _ [] (slices sk w b) draws).bind _ = _
  rw [hl, Option.bind_some]
  dsimp only
  change (genCommitment H ((List.ofFn fun i => genPublickey (sk' i)).map coords) (List.ofFn w')).bind _ = _
  rw [hc, Option.bind_some, signLoop sk' w' b' hb', Option.bind_some]
  have : ∀ i, ((coords (sk' i • G1gen)).X ∈ (List.ofFn fun i => sk i • G1gen).map (fun pk => (coords pk).X) ∧
      b' i = 1) ↔ (b' i = 1 ∧ ∃ j, (enc1 (sk' i • G1gen)).X = (enc1 (sk j • G1gen)).X) := fun i => by
    rw [coords_eq, and_comm]
    refine and_congr_right fun _ => ?_
    rw [List.map_ofFn, List.mem_ofFn']
    exact ⟨fun ⟨j, e⟩ => ⟨j, e.symm⟩, fun ⟨j, e⟩ => ⟨j, e.symm⟩⟩
  simp only [this]
  rfl

theorem int64_sum {ι : Type} (s : Finset ι) (f : ι → ℕ) : ∑ i ∈ s, int64 (f i) = int64 (∑ i ∈ s, f i) := by
  classical
  induction s using Finset.induction_on with
  | empty => rfl
  | insert a s ha ih =>
    rw [Finset.sum_insert ha, Finset.sum_insert ha, ih, int64, int64, int64, BitVec.ofNat_add]

theorem int64_toInt {n : ℕ} (h : n < 2 ^ 63) : (int64 n).toInt = n := by
  have e : (int64 n).toNat = n := by
    rw [int64, BitVec.toNat_ofNat]
    exact Nat.mod_eq_of_lt (by omega)
  rw [BitVec.toInt_eq_toNat_of_lt (by rw [e]; omega), e]

theorem newG1Affine_ne {P : E1 Fp} (h : P ≠ 0) : newG1Affine (enc1 P) ≠ ⟨fun _ => 0, fun _ => 0⟩ := fun e => by
  have h0 : newG1Affine (enc1 (0 : E1 Fp)) = ⟨fun _ => 0, fun _ => 0⟩ := by
    rw [G1In.ext_iff]
    constructor <;> · funext j; simp [newG1Affine, enc1, valueOfIn, valueOf]
  exact h (enc1_injective (c58_keys.1 (e.trans h0.symm)))

theorem int64_one (b : ℕ) : int64 b = 1 ↔ b % 2 ^ 64 = 1 := by
  rw [int64, ← BitVec.toNat_inj, BitVec.toNat_ofNat]
  rfl

theorem apk_fold (sk bits : List ℕ) (acc : E1 Fp) :
    ((sk.map fun s => s • G1gen).zip bits).foldl (fun apk kb => if int64 kb.2 = 1 then apk + kb.1 else apk) acc =
      acc + signedSecret sk bits • G1gen := by
  induction sk generalizing bits acc with
  | nil => simp [signedSecret, zero_nsmul]
  | cons s sk ih =>
    rcases bits with _ | ⟨b, bits⟩
    · simp [signedSecret, zero_nsmul]
    · rw [List.map_cons, List.zip_cons_cons, List.foldl_cons, ih, signedSecret, add_nsmul]
      simp only [int64_one]
      split
      · rw [add_assoc]
      · rw [zero_nsmul, zero_add]

theorem signedSecret_ofFn (n : ℕ) (sk b : Fin n → ℕ) (hb : ∀ i, b i < 2) :
    signedSecret (List.ofFn sk) (List.ofFn b) = ∑ i, if b i = 1 then sk i else 0 := by
  induction n with
  | zero => rfl
  | succ n ih =>
    rw [List.ofFn_succ, List.ofFn_succ, signedSecret, ih _ _ fun i => hb _, Fin.sum_univ_succ]
    congr 1
    have := hb 0
    rw [Nat.mod_eq_of_lt (by omega)]

theorem secretSum_eq (sk b : Fin 10 → ℕ) (hb : ∀ i, b i < 2) :
    signedSecret (List.ofFn sk) (List.ofFn b) = secretSum sk fun i => b i = 1 := by
  rw [signedSecret_ofFn 10 sk b hb, secretSum]
  congr!

theorem keyVariables_ofFn (K : Fin 10 → E1 Fp) :
    keyVariables (List.ofFn K) = some fun i => newG1Affine (enc1 (K i)) := by
  have : newG1AffineArray ((List.ofFn K).map coords) = some fun i => some (newG1Affine (enc1 (K i))) := by
    rw [newG1AffineArray, if_pos (by simp)]
    congr 1
    funext i
    rw [List.getElem?_map, ofFn_get, coords_eq]
    rfl
  rw [keyVariables, this]
  simp

theorem variables_ofFn (f : Fin 10 → ℕ) : bigIntToVariableArray (List.ofFn f) = some fun i => (f i : Fr) := by
  rw [bigIntToVariableArray, if_pos (by simp)]
  congr 1
  funext i
  rw [List.getD_eq_getElem?_getD, ofFn_get]
  rfl

theorem byteVariables_vec (v : Vector Fips.Byte 32) : byteVariables v.toList = some (HashProps.msgVars v) := by
  rw [byteVariables, dif_pos (by simp)]
  congr 1
  rw [HashProps.msgVars, ← Vector.toArray_inj]
  apply Array.ext'
  simp
  rfl

theorem coords2_eq : coords2 = enc2 := by
  funext P
  cases P <;> rfl

theorem signTx_eq (sk w b : Fin 10 → ℕ) (hb : ∀ i, b i < 2) (msg : ETwist Fp) :
    signTx (List.ofFn sk) (List.ofFn b) (List.ofFn w) msg =
      some (aggregateSignature sk (fun i => b i = 1) msg, ∑ i, if b i = 1 then w i else 0) := by
  rw [signTx, List.length_ofFn, foldlM_sums _ 10
    (fun i => if h : i < 10 then (if b ⟨i, h⟩ = 1 then sk ⟨i, h⟩ • msg else 0) else 0)
    (fun i => if h : i < 10 then (if b ⟨i, h⟩ = 1 then w ⟨i, h⟩ else 0) else 0)]
  · rw [Finset.sum_range, Finset.sum_range]
    simp only [Fin.is_lt, dif_pos, Fin.eta, aggregateSignature]
    congr!
  · intro acc i hi
    rw [dif_pos hi, dif_pos hi]
    have e2 := ofFn_get b ⟨i, hi⟩
    have e3 := ofFn_get w ⟨i, hi⟩
    have e4 := ofFn_get sk ⟨i, hi⟩
    dsimp only at e2 e3 e4
    have := hb ⟨i, hi⟩
    simp only [e2, e3, e4, bind, Option.bind_some, pure]
    by_cases h1 : b ⟨i, hi⟩ = 1
    · rw [if_pos (by omega), if_pos h1, if_pos h1]
    · rw [if_neg (by omega), if_neg h1, if_neg h1, add_zero, add_zero]

/-- the bits of the witness are those of the helper -/
theorem bit_cast {b : ℕ} (hb : b < 2) : (b : Fr) = 1 ↔ b = 1 := by
  have : b = 0 ∨ b = 1 := by omega
  rcases this with rfl | rfl <;> simp

theorem I2OSP_length (n len : ℕ) : (Rfc.I2OSP n len).length = len := by
  rw [Rfc.I2OSP, Sha.beBytes_length]

end Spark.HelperProps
