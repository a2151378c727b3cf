import Verif.Lemmas.Helpers

/-!
# C68-C72: the off-circuit helpers

Key sets are given by ten secret keys `sk i`; `sk i • G1gen` is the public key.  Random numbers are an arbitrary list.
-/

namespace Spark.HelperProps
open Spark Circ Spec Circuit Pairing PairingProps CircuitProps GroupProps Helpers
open scoped BigOperators
set_option maxRecDepth 100000

/-! ## C68: `generate` -/

/-- **C68.** Given thirty random numbers `d`, `generate` returns ten bits, ten weights below `2^10` and ten key pairs
with secret keys below `2^230` (the bits from the first ten numbers, and so on), and the Poseidon commitment to these
keys and weights; it uses up exactly these numbers. -/
theorem c68_generate {H : List ℕ → Option ℕ} (hH : IsIden3Hash H) (d : Fin 30 → ℕ) (rest : List ℕ) :
    ∃ c, c < frOrder ∧ CommitmentOf (fun i => d (i.natAdd 20) % 2 ^ 230) (fun i => d (i.castAdd 10 |>.natAdd 10) % 2 ^ 10) c ∧
      generate H (List.ofFn d ++ rest) = some (⟨List.ofFn fun i : Fin 10 => (d (i.natAdd 20) % 2 ^ 230) • G1gen,
        List.ofFn fun i : Fin 10 => d (i.castAdd 20) % 2, List.ofFn fun i : Fin 10 => d (i.castAdd 10 |>.natAdd 10) % 2 ^ 10, c,
        List.ofFn fun i : Fin 10 => d (i.natAdd 20) % 2 ^ 230⟩, rest) := by
  obtain ⟨c, e, hc, hcom⟩ := commitment_of hH (fun i : Fin 10 => d (i.natAdd 20) % 2 ^ 230)
    (fun i => d (i.castAdd 10 |>.natAdd 10) % 2 ^ 10)
    (fun i => (Nat.mod_lt _ (by norm_num)).trans (by decide +kernel))
  refine ⟨c, hc, hcom, ?_⟩
  have hlen : (List.ofFn d ++ rest).length = 30 + rest.length := by rw [List.length_append, List.length_ofFn]
  have hget : ∀ i, (h : i < 30) → (List.ofFn d ++ rest).getD i 0 = d ⟨i, h⟩ := fun i h => by
    rw [List.getD_eq_getElem?_getD, List.getElem?_append_left (by simpa using h),
      List.getElem?_eq_getElem (by simpa using h), List.getElem_ofFn]
    rfl
  have h1 := draws_fn (List.ofFn d ++ rest) 0 1 (by omega)
  have h2 := draws_fn (List.ofFn d ++ rest) 10 10 (by omega)
  have h3 := draws_fn (List.ofFn d ++ rest) 20 230 (by omega)
  rw [List.drop_zero] at h1
  have f1 : (fun i : Fin 10 => (List.ofFn d ++ rest).getD (0 + i.val) 0 % 2 ^ 1) = fun i => d (i.castAdd 20) % 2 :=
    funext fun i => by
      rw [hget _ (by omega), pow_one]; congr 2; exact Fin.ext (by simp)
  have f2 : (fun i : Fin 10 => (List.ofFn d ++ rest).getD (10 + i.val) 0 % 2 ^ 10) =
      fun i => d (i.castAdd 10 |>.natAdd 10) % 2 ^ 10 := funext fun i => by rw [hget _ (by omega)]; rfl
  have f3 : (fun i : Fin 10 => (List.ofFn d ++ rest).getD (20 + i.val) 0 % 2 ^ 230) =
      fun i => d (i.natAdd 20) % 2 ^ 230 := funext fun i => by rw [hget _ (by omega)]; rfl
  rw [f1] at h1; rw [f2] at h2; rw [f3] at h3
  have hr : (List.ofFn d ++ rest).drop 30 = rest := List.drop_left' (by simp)
  simp only [generate, genBitlist, genWeights, bind, StateT.bind, mapM_genRandom, List.length_range]
  rw [if_pos (by omega), Option.bind_some]
  dsimp only
  rw [if_pos (by rw [List.length_drop]; omega), Option.bind_some]
  dsimp only
  rw [List.drop_drop, if_pos (by rw [List.length_drop]; omega), Option.bind_some]
  dsimp only
  rw [List.drop_drop, h1, h2, h3, hr, List.map_ofFn]
  simp only [Function.comp_def, liftM, monadLift, MonadLift.monadLift, StateT.lift, bind, e, Option.bind_some, pure,
    StateT.pure]
  rfl

/-! ## C69: `generateNew` -/

open Classical in
/-- **C69.** Whatever the random numbers are, if `generateNew` returns for an old validator set `sk, w, b`, then
between one and three validators have been replaced (fresh secret keys, weights and bits), the others are unchanged;
the commitment is that of the new set, the message is the hash of its bytes, the signature is the sum of the signers'
signatures, and the trusted weight is the sum, in 64-bit arithmetic, of the new weights of the signers whose abscissa
is that of some old key. -/
theorem c69_generate_new {H : List ℕ → Option ℕ} (hH : IsIden3Hash H) (hashG2 : List Fips.Byte → ETwist Fp)
    (sk w b : Fin 10 → ℕ) (hb : ∀ i, b i < 2) (hw : ∀ i, w i < frOrder) (draws rest : List ℕ) (out : NewSet)
    (h : generateNew H hashG2 (List.ofFn sk) (List.ofFn fun i => sk i • G1gen) (List.ofFn w) (List.ofFn b) draws =
      some (out, rest)) :
    ∃ R sk' w' b', (1 ≤ R.card ∧ R.card ≤ 3) ∧ Replaced R sk w b sk' w' b' ∧
      out.publicKeys = List.ofFn (fun i => sk' i • G1gen) ∧ out.weights = List.ofFn w' ∧ out.bitlist = List.ofFn b' ∧
      out.commitment < frOrder ∧ CommitmentOf sk' w' out.commitment ∧ out.msg = hashG2 (bigBytes out.commitment) ∧
      out.signature = aggregateSignature sk' (fun i => b' i = 1) out.msg ∧
      out.trustedWeight = ∑ i, if b' i = 1 ∧ ∃ j, (enc1 (sk' i • G1gen)).X = (enc1 (sk j • G1gen)).X
        then int64 (w' i) else 0 := by
  have h0 := h
  rw [generateNew, if_neg (by simp)] at h
  rcases draws with _ | ⟨dc, draws⟩
  · cases h
  simp only [genRandom, bind, Option.bind_some] at h
  have hc13 : 1 ≤ (if dc % 2 ^ 2 = 0 then 2 else dc % 2 ^ 2) ∧ (if dc % 2 ^ 2 = 0 then 2 else dc % 2 ^ 2) ≤ 3 := by
    have := Nat.mod_lt dc (show 2 ^ 2 > 0 by norm_num)
    split <;> omega
  change (replaceLoop _ [] (slices sk w b) draws).bind _ = _ at h
  rcases hl : replaceLoop (if dc % 2 ^ 2 = 0 then 2 else dc % 2 ^ 2) [] (slices sk w b) draws with _ | ⟨s, ds⟩
  · rw [hl] at h; cases h
  obtain ⟨R, sk', w', b', hR, -, hrep, hs⟩ := replaceLoop_spec _ _ _ _ _ _ _ _ le_rfl hl
  dsimp only at hs
  have hb' : ∀ i, b' i < 2 := fun i => by
    by_cases hi : i ∈ R
    · exact (hrep.fresh i hi).2.2
    · rw [(hrep.same i hi).2.2]; exact hb i
  have hw' : ∀ i, w' i < frOrder := fun i => by
    by_cases hi : i ∈ R
    · exact (hrep.fresh i hi).2.1.trans (by decide +kernel)
    · rw [(hrep.same i hi).2.1]; exact hw i
  obtain ⟨c, hclt, hcom, hout⟩ := generateNew_of hH hashG2 sk w b sk' w' b' hb' hw' dc draws ds (hs ▸ hl)
  rw [h0] at hout
  obtain ⟨rfl, -⟩ := Prod.mk.inj (Option.some.inj hout)
  exact ⟨R, sk', w', b', hR ▸ hc13, hrep, rfl, rfl, rfl, hclt, hcom, rfl, rfl, rfl⟩

open Classical in
/-- Conversely, every single replacement can happen: for every position `i`, secret key, weight and bit there are
random numbers for which exactly this replacement is made. -/
theorem c69_every_replacement {H : List ℕ → Option ℕ} (hH : IsIden3Hash H) (hashG2 : List Fips.Byte → ETwist Fp)
    (sk w b : Fin 10 → ℕ) (hb : ∀ i, b i < 2) (hw : ∀ i, w i < frOrder) (i : Fin 10) (s x y : ℕ) (hs : s < 2 ^ 230)
    (hx : x < 2 ^ 10) (hy : y < 2) (rest : List ℕ) :
    ∃ out, generateNew H hashG2 (List.ofFn sk) (List.ofFn fun i => sk i • G1gen) (List.ofFn w) (List.ofFn b)
        (1 :: i.val :: s :: x :: y :: rest) = some (out, rest) ∧
      out.publicKeys = List.ofFn (fun j => Function.update sk i s j • G1gen) ∧
      out.weights = List.ofFn (Function.update w i x) ∧ out.bitlist = List.ofFn (Function.update b i y) ∧
      out.commitment < frOrder ∧ CommitmentOf (Function.update sk i s) (Function.update w i x) out.commitment ∧
      out.msg = hashG2 (bigBytes out.commitment) ∧
      out.signature = aggregateSignature (Function.update sk i s) (fun j => Function.update b i y j = 1) out.msg ∧
      out.trustedWeight = ∑ k, if Function.update b i y k = 1 ∧
        ∃ j, (enc1 (Function.update sk i s k • G1gen)).X = (enc1 (sk j • G1gen)).X
        then int64 (Function.update w i x k) else 0 := by
  have hl : replaceLoop (if 1 % 2 ^ 2 = 0 then 2 else 1 % 2 ^ 2) [] (slices sk w b) (i.val :: s :: x :: y :: rest) =
      some (slices (Function.update sk i s) (Function.update w i x) (Function.update b i y), rest) := by
    have hi : i.val % 2 ^ 4 % 10 = i.val := by have := i.2; omega
    rw [if_neg (by norm_num), show 1 % 2 ^ 2 = 0 + 1 by norm_num, replaceLoop.eq_def]
    dsimp only
    rw [hi, if_neg List.not_mem_nil, Nat.mod_eq_of_lt hs, Nat.mod_eq_of_lt hx, Nat.mod_eq_of_lt (by simpa using hy),
      replaceAt_slices]
    simp only [bind, Option.bind_some]
    rw [replaceLoop.eq_def]
  obtain ⟨c, hc, hcom, h⟩ := generateNew_of hH hashG2 sk w b _ _ _ (fun j => by
      rw [Function.update_apply]; split
      · exact hy
      · exact hb j) (fun j => by
      rw [Function.update_apply]; split
      · exact hx.trans (by decide +kernel)
      · exact hw j) 1 _ rest hl
  exact ⟨_, h, rfl, rfl, rfl, hc, hcom, rfl, rfl, rfl⟩

/-! ### the trusted weight -/

open Classical in
/-- The trusted weight of `generateNew` is the one the circuit demands (`C20`), provided a new key has the abscissa of
some old key only if it is the old key at the same position with the same weight, and no old key is zero. -/
theorem c69_trusted_weight {sk w sk' w' b' : Fin 10 → ℕ} (hb' : ∀ i, b' i < 2) (hw : ∀ i, w i < 2 ^ 59)
    (hne : ∀ i, sk i • G1gen ≠ 0)
    (hfresh : ∀ i j, (enc1 (sk' i • G1gen)).X = (enc1 (sk j • G1gen)).X → sk' i • G1gen = sk i • G1gen ∧ w' i = w i) :
    (((∑ i, if b' i = 1 ∧ ∃ j, (enc1 (sk' i • G1gen)).X = (enc1 (sk j • G1gen)).X then int64 (w' i) else 0 :
        BitVec 64).toInt : ℤ) : Fr) =
      ∑ i, if ((b' i : Fr) = 1 ∧ newG1Affine (enc1 (sk' i • G1gen)) = newG1Affine (enc1 (sk i • G1gen))) ∨
        ((b' i : Fr) = 0 ∧ newG1Affine (enc1 (sk i • G1gen)) = ⟨fun _ => 0, fun _ => 0⟩) then (w i : Fr) else 0 := by
  have key : ∀ i, (b' i = 1 ∧ ∃ j, (enc1 (sk' i • G1gen)).X = (enc1 (sk j • G1gen)).X) ↔
      (b' i = 1 ∧ sk' i • G1gen = sk i • G1gen) := fun i =>
    and_congr_right fun _ => ⟨fun ⟨j, e⟩ => (hfresh i j e).1, fun e => ⟨i, by rw [e]⟩⟩
  have h1 : (∑ i, if b' i = 1 ∧ ∃ j, (enc1 (sk' i • G1gen)).X = (enc1 (sk j • G1gen)).X then int64 (w' i) else 0 :
      BitVec 64) = int64 (∑ i, if b' i = 1 ∧ sk' i • G1gen = sk i • G1gen then w i else 0) := by
    rw [← int64_sum]
    refine Finset.sum_congr rfl fun i _ => ?_
    by_cases h : b' i = 1 ∧ sk' i • G1gen = sk i • G1gen
    · rw [if_pos h, if_pos ((key i).2 h), (hfresh i i (by rw [h.2])).2]
    · rw [if_neg h, if_neg fun h' => h ((key i).1 h')]; rfl
  have h2 : (∑ i, if b' i = 1 ∧ sk' i • G1gen = sk i • G1gen then w i else 0) < 2 ^ 63 := by
    have : (∑ i, if b' i = 1 ∧ sk' i • G1gen = sk i • G1gen then w i else 0) ≤ ∑ _i : Fin 10, 2 ^ 59 :=
      Finset.sum_le_sum fun i _ => by
        split
        · exact (hw i).le
        · exact Nat.zero_le _
    rw [Finset.sum_const, Finset.card_univ, Fintype.card_fin] at this
    refine this.trans_lt (by norm_num)
  rw [h1, int64_toInt h2, Int.cast_natCast, Nat.cast_sum]
  refine Finset.sum_congr rfl fun i _ => ?_
  have hz := newG1Affine_ne (hne i)
  have : b' i = 0 ∨ b' i = 1 := by have := hb' i; omega
  rcases this with h | h
  · rw [if_neg (by simp [h]), if_neg, Nat.cast_zero]
    rintro (⟨e, -⟩ | ⟨-, e⟩)
    · rw [h, Nat.cast_zero] at e; exact zero_ne_one e
    · exact hz e
  · by_cases hk : sk' i • G1gen = sk i • G1gen
    · rw [if_pos ⟨h, hk⟩, if_pos (Or.inl ⟨by rw [h, Nat.cast_one], by rw [hk]⟩)]
    · rw [if_neg fun e => hk e.2, if_neg, Nat.cast_zero]
      rintro (⟨-, e⟩ | ⟨-, e⟩)
      · exact hk (enc1_injective (c58_keys.1 e))
      · exact hz e

/-! ## C70: `verifyPairingCheck` -/

/-- **C70.** For keys `sk_i•g1` (any number of them), `verifyPairingCheck` passes exactly when there are as many bits
as keys and the signature is `(∑ sk_i)•msg`, the sum being over the positions whose bit is 1; in all other cases it
panics.  (Signature and message of order `r`.) -/
theorem c70_verify (sk bits : List ℕ) (S msg : ETwist Fp) (hS : rOrder • S = 0) (hm : rOrder • msg = 0) :
    verifyPairingCheck (sk.map fun s => s • G1gen) bits S msg = some () ↔
      sk.length = bits.length ∧ S = signedSecret sk bits • msg := by
  rw [verifyPairingCheck, List.length_map]
  by_cases hl : sk.length = bits.length
  · rw [if_neg (not_not.2 hl)]
    dsimp only
    rw [apk_fold, zero_add]
    have := bls_iff (signedSecret sk bits) hS hm
    by_cases h : S = signedSecret sk bits • msg
    · rw [if_pos (this.2 h)]
      exact ⟨fun _ => ⟨hl, h⟩, fun _ => rfl⟩
    · rw [if_neg fun e => h (this.1 e)]
      exact ⟨fun e => (Option.some_ne_none _ e.symm).elim, fun e => absurd e.2 h⟩
  · rw [if_pos hl]
    exact ⟨fun e => (Option.some_ne_none _ e.symm).elim, fun e => absurd e.1 hl⟩

/-- The signature made by `generateNew` passes the check. -/
theorem c70_generate_new {H : List ℕ → Option ℕ} (hH : IsIden3Hash H) (hashG2 : List Fips.Byte → ETwist Fp)
    (hr : ∀ m, rOrder • hashG2 m = 0)
    (sk w b : Fin 10 → ℕ) (hb : ∀ i, b i < 2) (hw : ∀ i, w i < frOrder) (draws rest : List ℕ) (out : NewSet)
    (h : generateNew H hashG2 (List.ofFn sk) (List.ofFn fun i => sk i • G1gen) (List.ofFn w) (List.ofFn b) draws =
      some (out, rest)) :
    verifyPairingCheck out.publicKeys out.bitlist out.signature (hashG2 (bigBytes out.commitment)) = some () := by
  obtain ⟨R, sk', w', b', -, hrep, e1, -, e3, -, -, e4, e5, -⟩ := c69_generate_new hH hashG2 sk w b hb hw draws rest out h
  have hb' : ∀ i, b' i < 2 := fun i => by
    by_cases hi : i ∈ R
    · exact (hrep.fresh i hi).2.2
    · rw [(hrep.same i hi).2.2]; exact hb i
  have hm : rOrder • out.msg = 0 := by rw [e4]; exact hr _
  have hmap : (List.ofFn fun i => sk' i • G1gen) = (List.ofFn sk').map fun s => s • G1gen := by
    rw [List.map_ofFn]; rfl
  rw [← e4, e1, e3, e5, aggregateSignature_eq, hmap]
  exact (c70_verify _ _ _ _ (order_nsmul hm _) hm).2 ⟨by simp, by rw [secretSum_eq _ _ hb']⟩

/-! ## C71: the witnesses assembled from the helpers are accepted -/

/-- Without that proviso it is not: `generateNew` counts a replaced validator whose fresh key happens to be the old key
of another validator; the circuit does not.  (Secret keys `1, …, 10`, nobody signs, all old weights 0; validator 0 is
replaced by the key `2•g1` of validator 1, with weight 5, and signs.) -/
theorem c69_trusted_mismatch {H : List ℕ → Option ℕ} (hH : IsIden3Hash H) (hashG2 : List Fips.Byte → ETwist Fp) :
    ∃ (sk : Fin 10 → ℕ) (draws : List ℕ) (out : NewSet),
      generateNew H hashG2 (List.ofFn sk) (List.ofFn fun i => sk i • G1gen) (List.ofFn fun _ : Fin 10 => 0)
        (List.ofFn fun _ : Fin 10 => 0) draws = some (out, []) ∧ out.trustedWeight = 5 ∧
      ∀ (mode : Mode) (oldC : ℕ) (M : G2In) (pub : RotatePublic) (priv : RotatePrivate),
        rotateWitness (List.ofFn fun i => sk i • G1gen) out.publicKeys out.bitlist (List.ofFn fun _ : Fin 10 => 0) out.weights
          out.signature oldC out.commitment out.trustedWeight M = some (pub, priv) →
        ¬ RotateAccepted mode pub priv := by
  classical
  obtain ⟨out, h, h1, h2, h3, -, -, -, -, h4⟩ := c69_every_replacement hH hashG2 (fun i => i.val + 1) (fun _ => 0) (fun _ => 0)
    (fun _ => by norm_num) (fun _ => by decide +kernel) 0 2 5 1 (by norm_num) (by norm_num) (by norm_num) []
  have htw : out.trustedWeight = 5 := by
    rw [h4, Finset.sum_eq_single (0 : Fin 10)]
    · rw [if_pos]
      · rw [Function.update_self]; rfl
      · rw [Function.update_self, Function.update_self]
        exact ⟨rfl, 1, rfl⟩
    · intro k _ hk
      rw [if_neg]
      rw [Function.update_of_ne hk]
      simp
    · simp
  refine ⟨_, _, out, h, htw, fun mode oldC M pub priv hwit hacc => ?_⟩
  have hc := c20_trusted_weight hacc
  rw [rotateWitness, h1, h2, h3, keyVariables_ofFn, keyVariables_ofFn, variables_ofFn, variables_ofFn,
    variables_ofFn] at hwit
  simp only [bind, Option.bind_some] at hwit
  rcases hby : byteVariables (bigBytes out.commitment) with _ | v
  · rw [hby] at hwit; cases hwit
  rw [hby] at hwit
  obtain ⟨rfl, rfl⟩ := Prod.mk.inj (Option.some.inj hwit)
  dsimp only at hc
  rw [htw, Finset.sum_eq_zero] at hc
  · revert hc
    decide +kernel
  · intro i _
    split
    · rw [Nat.cast_zero]
    · rfl

/-- **C71, transactions** (bls-tx_test.go).  The witness assembled from a key set with secret keys `sk`, weights `w`,
bits `b`, a message and the signatures of the signers on its hash is accepted by the transaction circuit (test engine),
with the sum of the signers' weights as signed weight: for keys in general position, if the circuit's hash of the
message is the point `M` that was signed, of order `r`, and unless the easy part of the Miller value is 1. -/
theorem c71_transaction {H : List ℕ → Option ℕ} (hH : IsIden3Hash H) (sk w b : Fin 10 → ℕ) (hb : ∀ i, b i < 2)
    (hw : ∀ i, w i < frOrder) (hne : ∀ i, sk i • G1gen ≠ 0)
    (hg : GeneralPosition (fun i => sk i • G1gen) fun i => b i = 1)
    (hsk : ¬ rOrder ∣ secretSum sk fun i => b i = 1) (msg : Vector Fips.Byte 32) (M : ETwist Fp)
    (hM : (G2.hashToG2 (HashProps.msgVars msg)).run = some (enc2 M)) (hM0 : M ≠ 0) (hMr : rOrder • M = 0) :
    ∃ c sig sw pub priv z,
      genCommitment H ((List.ofFn fun i => sk i • G1gen).map coords) (List.ofFn w) = some c ∧
      signTx (List.ofFn sk) (List.ofFn b) (List.ofFn w) M = some (sig, sw) ∧
      verifyPairingCheck (List.ofFn fun i => sk i • G1gen) (List.ofFn b) sig M = some () ∧
      txWitness (List.ofFn fun i => sk i • G1gen) (List.ofFn b) (List.ofFn w) sig M c sw msg.toList = some (pub, priv) ∧
      millerLoop [enc1 (-G1gen), enc1 (signersSum (fun i => sk i • G1gen) fun i => b i = 1)] [enc2 sig, enc2 M] =
        .ok (pure z) ∧
      (safeInput z ^ ((fpOrder ^ 6 - 1) * (fpOrder ^ 2 + 1)) ≠ 1 → (txDefine .engine pub priv).run = some ()) := by
  obtain ⟨c, hc, -, hcom⟩ := commitment_of hH sk w hw
  have hbits : (fun i => ((b i : ℕ) : Fr) = 1) = fun i => b i = 1 := funext fun i => propext (bit_cast (hb i))
  have hbf : ∀ i, ((b i : ℕ) : Fr) = 0 ∨ ((b i : ℕ) : Fr) = 1 := fun i => by
    have : b i = 0 ∨ b i = 1 := by have := hb i; omega
    rcases this with h | h <;> simp [h]
  obtain ⟨z, hz, hrun⟩ := c63_transaction sk (fun i => c58_denotes _ (hne i)) (fun i => (b i : Fr)) (fun i => (w i : Fr))
    hbf (by rw [hbits]; exact hg) (HashProps.msgVars msg) M (newG2Affine (coords2 M)) hM hM0 hMr
    (by rw [hbits]; exact hsk) (c : Fr) hcom
  rw [hbits] at hz hrun
  refine ⟨c, _, _, ⟨newG2Affine (coords2 M), (c : Fr), ((∑ i, if b i = 1 then w i else 0 : ℕ) : Fr)⟩,
    ⟨fun i => newG1Affine (enc1 (sk i • G1gen)), newG2Affine (coords2 (aggregateSignature sk (fun i => b i = 1) M)),
      fun i => (b i : Fr), fun i => (w i : Fr), HashProps.msgVars msg⟩, z, hc, signTx_eq sk w b hb M, ?_, ?_, hz,
    fun h => ?_⟩
  · rw [aggregateSignature_eq, show (List.ofFn fun i => sk i • G1gen) = (List.ofFn sk).map fun s => s • G1gen by
      rw [List.map_ofFn]; rfl]
    exact (c70_verify _ _ _ _ (order_nsmul hMr _) hMr).2 ⟨by simp, by rw [secretSum_eq _ _ hb]⟩
  · rw [txWitness, keyVariables_ofFn, variables_ofFn, variables_ofFn, byteVariables_vec]
    rfl
  · have := hrun h
    rw [coords2_eq] at this ⊢
    rw [← this]
    congr 3
    rw [Nat.cast_sum]
    refine Finset.sum_congr rfl fun i _ => ?_
    rw [Nat.cast_ite, Nat.cast_zero]
    simp only [bit_cast (hb i)]

open Classical in
/-- **C71, rotations** (bls-rotate_test.go).  The witness assembled from an old key set and the result of
`generateNew` is accepted by the rotation circuit (test engine) whenever the signers' new keys are in general position
with non-zero sum, no replaced key has the abscissa of an old one, no key is zero, the commitment has 32 bytes whose
hash in the circuit is the point that was signed, of order `r`, and the easy part of the Miller value is not 1. -/
theorem c71_rotation {H : List ℕ → Option ℕ} (hH : IsIden3Hash H) (hashG2 : List Fips.Byte → ETwist Fp)
    (sk w b : Fin 10 → ℕ) (hb : ∀ i, b i < 2) (hw : ∀ i, w i < 2 ^ 59) (hne : ∀ i, sk i • G1gen ≠ 0) (oldC : ℕ)
    (hold : genCommitment H ((List.ofFn fun i => sk i • G1gen).map coords) (List.ofFn w) = some oldC)
    (draws rest : List ℕ) (out : NewSet)
    (h : generateNew H hashG2 (List.ofFn sk) (List.ofFn fun i => sk i • G1gen) (List.ofFn w) (List.ofFn b) draws =
      some (out, rest)) (K : Fin 10 → E1 Fp) (bits weights : Fin 10 → ℕ) (hK : out.publicKeys = List.ofFn K)
    (hbits : out.bitlist = List.ofFn bits) (hweights : out.weights = List.ofFn weights) (hK0 : ∀ i, K i ≠ 0)
    (hfresh : ∀ i j, (enc1 (K i)).X = (enc1 (sk j • G1gen)).X → K i = sk i • G1gen ∧ weights i = w i)
    (hg : GeneralPosition K fun i => bits i = 1) (hs : signersSum K (fun i => bits i = 1) ≠ 0)
    (bytes : Vector Fips.Byte 32) (hbytes : bigBytes out.commitment = bytes.toList)
    (hM : (G2.hashToG2 (HashProps.msgVars bytes)).run = some (enc2 out.msg)) (hM0 : out.msg ≠ 0)
    (hMr : rOrder • out.msg = 0) (M : G2In) :
    ∃ pub priv z, rotateWitness (List.ofFn fun i => sk i • G1gen) out.publicKeys out.bitlist (List.ofFn w) out.weights
        out.signature oldC out.commitment out.trustedWeight M = some (pub, priv) ∧
      millerLoop [enc1 (-G1gen), enc1 (signersSum K fun i => bits i = 1)] [enc2 out.signature, enc2 out.msg] =
        .ok (pure z) ∧
      (safeInput z ^ ((fpOrder ^ 6 - 1) * (fpOrder ^ 2 + 1)) ≠ 1 → (rotateDefine .engine pub priv).run = some ()) := by
  have hwf : ∀ i, w i < frOrder := fun i => (hw i).trans (by decide +kernel)
  obtain ⟨R, sk', w', b', -, hrep, e1, e2, e3, -, hcom', e4, e5, e6⟩ :=
    c69_generate_new hH hashG2 sk w b hb hwf draws rest out h
  obtain rfl : K = fun i => sk' i • G1gen := List.ofFn_injective (hK.symm.trans e1)
  obtain rfl : bits = b' := List.ofFn_injective (hbits.symm.trans e3)
  obtain rfl : weights = w' := List.ofFn_injective (hweights.symm.trans e2)
  have hb' : ∀ i, bits i < 2 := fun i => by
    by_cases hi : i ∈ R
    · exact (hrep.fresh i hi).2.2
    · rw [(hrep.same i hi).2.2]; exact hb i
  obtain ⟨c, hc, -, hcom⟩ := commitment_of hH sk w hwf
  obtain rfl : c = oldC := Option.some.inj (hc.symm.trans hold)
  have hbits' : (fun i => ((bits i : ℕ) : Fr) = 1) = fun i => bits i = 1 :=
    funext fun i => propext (bit_cast (hb' i))
  have hbf : ∀ i, ((bits i : ℕ) : Fr) = 0 ∨ ((bits i : ℕ) : Fr) = 1 := fun i => by
    have : bits i = 0 ∨ bits i = 1 := by have := hb' i; omega
    rcases this with h | h <;> simp [h]
  have htw := c69_trusted_weight hb' hw hne hfresh
  rw [← e6] at htw
  have hk : ∀ i, Denotes (newG1Affine (enc1 (sk' i • G1gen))) (sk' i • G1gen) := fun i => c58_denotes _ (hK0 i)
  obtain ⟨apk, ha, -, hrot⟩ := c19_engine_partial hk (fun i => (bits i : Fr)) (fun _ => 0) hbf (by rw [hbits']; exact hg)
  rw [hbits'] at ha
  have hss := signersSum_secret sk' fun i => bits i = 1
  have hn : ¬ rOrder ∣ secretSum sk' fun i => bits i = 1 := fun ⟨k, e⟩ => hs (by
    rw [hss, e, mul_comm, mul_nsmul', Witness.G1gen_order, nsmul_zero])
  have hsig := aggregateSignature_eq sk' (fun i => bits i = 1) out.msg
  rw [← e5] at hsig
  obtain ⟨z, hz, hrun⟩ := c23_rotate_complete (mode := .engine) (old := fun i => newG1Affine (enc1 (sk i • G1gen)))
    (fun i => (hk i).1) (fun i => (bits i : Fr)) (fun i => (w i : Fr)) (fun i => (weights i : Fr)) hbf hrot ha
    (HashProps.msgVars bytes) out.signature out.msg M hM hM0 hMr (by rw [hsig]; exact smul_ne_of hMr hM0 hn)
    (by rw [hsig]; exact order_nsmul hMr _) hs (by rw [e5]; exact c63_equation _ _ _ hMr) (c : Fr)
    (out.commitment : Fr) _ hcom hcom' htw
  refine ⟨_, _, z, ?_, hz, hrun⟩
  rw [rotateWitness, e1, e2, e3, keyVariables_ofFn, keyVariables_ofFn, variables_ofFn, variables_ofFn, variables_ofFn,
    hbytes, byteVariables_vec, coords2_eq]
  rfl

/-! ## C72: `big.Int.Bytes` -/

/-- **C72.** The bytes that `generateNew` signs are the 32-byte encoding of the commitment exactly when the commitment
is at least `2^248`; smaller ones have fewer bytes. -/
theorem c72_bytes (n : ℕ) (hn : n < frOrder) :
    (bigBytes n).length ≤ 32 ∧ (bigBytes n = Rfc.I2OSP n 32 ↔ 2 ^ 248 ≤ n) ∧
      ((bigBytes n).length = 32 ↔ 2 ^ 248 ≤ n) := by
  have h256 : n < 2 ^ 256 := hn.trans (by decide +kernel)
  have hs : n.size ≤ 256 := Nat.size_le.2 h256
  have hl : (bigBytes n).length = (n.size + 7) / 8 := I2OSP_length _ _
  have key : (n.size + 7) / 8 = 32 ↔ 2 ^ 248 ≤ n := by
    rw [← Nat.lt_size]; omega
  refine ⟨by rw [hl]; omega, ⟨fun e => ?_, fun e => ?_⟩, by rw [hl]; exact key⟩
  · rw [← key, ← hl, e, I2OSP_length]
  · rw [bigBytes, key.2 e]

/-- In the other cases the witness of the rotation cannot be completed: some of the 32 byte inputs stay unassigned. -/
theorem c72_short_commitment (old new : List (E1 Fp)) (bits oldW newW : List ℕ) (S : ETwist Fp) (oldC c : ℕ)
    (tw : BitVec 64) (M : G2In) (hc : c < 2 ^ 248) : rotateWitness old new bits oldW newW S oldC c tw M = none := by
  have : byteVariables (bigBytes c) = none := by
    rw [byteVariables, dif_neg]
    intro e
    rw [bigBytes, I2OSP_length] at e
    have := Nat.size_le.2 hc
    omega
  rw [rotateWitness, this]
  rcases keyVariables old with _ | _
  · rfl
  rcases keyVariables new with _ | _
  · rfl
  rcases bigIntToVariableArray bits with _ | _
  · rfl
  rcases bigIntToVariableArray oldW with _ | _
  · rfl
  rcases bigIntToVariableArray newW with _ | _ <;> rfl

example : bigBytes 0x010203 = [1, 2, 3] ∧ bigBytes 0 = [] := by decide +kernel

/-! ## the hypotheses can be met -/

/-- a function with the contract of iden3's Poseidon exists -/
theorem iden3_exists : ∃ H : List ℕ → Option ℕ, IsIden3Hash H := by
  classical
  refine ⟨fun xs => if 1 ≤ xs.length ∧ xs.length ≤ 16 ∧ ∀ x ∈ xs, x < frOrder then
    some (pos (xs.map fun x : ℕ => (x : Fr))).val else none, ⟨fun xs h1 h2 h3 => ?_, fun xs h => ?_⟩⟩
  · refine ⟨_, if_pos ⟨h1, h2, h3⟩, ZMod.val_lt _, ?_⟩
    rw [ZMod.natCast_zmod_val]
    exact isPoseidon_pos (by simpa using h1) (by simpa using h2)
  · rw [if_neg]
    rintro ⟨h1, h2, h3⟩
    rcases h with h | h | ⟨x, hx, h⟩
    · omega
    · omega
    · exact absurd (h3 x hx) (by omega)

/-- The hypotheses of `c71_transaction`: secret keys `1, 2, 4, …, 512`, everybody signs the example message. -/
example : (∀ i : Fin 10, 2 ^ i.val • G1gen ≠ 0) ∧
    GeneralPosition (fun i : Fin 10 => 2 ^ i.val • G1gen) (fun _ => 1 = 1) ∧
    (¬ rOrder ∣ secretSum (fun i => 2 ^ i.val) fun _ => 1 = 1) ∧
    (G2.hashToG2 (HashProps.msgVars G2.exMsg)).run = some (enc2 Witness.Hpt) ∧ Witness.Hpt ≠ 0 ∧
    rOrder • Witness.Hpt = 0 := by
  refine ⟨Witness.key_ne, Witness.key_general _, ?_, H_hash, Witness.H_ne, Witness.H_order⟩
  simp only [secretSum, if_true]
  decide +kernel

/-- The hypotheses of `c70_verify` for three keys, two of which sign. -/
example : verifyPairingCheck ([3, 5, 11].map fun s => s • G1gen) [1, 0, 1] (14 • Witness.Hpt) Witness.Hpt = some () :=
  (c70_verify _ _ _ _ (order_nsmul Witness.H_order _) Witness.H_order).2 ⟨rfl, rfl⟩

end Spark.HelperProps
