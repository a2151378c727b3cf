import Verif.Props.Compiled
import Verif.Props.Exception

/-!
# C91: what the honest prover accepts

Exact conditions under which a run with honest hint functions accepts a transaction or a rotation; the parts of C18 and
C22 that are true of such runs.
-/

namespace Spark.HonestProps
open Spark Circ Spec Circuit Pairing PairingProps CircuitProps GroupProps ExceptionProps HashProps
open scoped BigOperators
set_option maxRecDepth 100000

/-- the aggregated key is the sum of the signers' keys: in the test engine, and in the compiled circuit when the signers
have even gaps and the number of non-signers is even -/
def ExactAggregation (mode : Mode) (bits : Fin 10 → Fr) : Prop :=
  mode = .engine ∨ (EvenGaps (fun i => bits i = 1) ∧ Even (absentees fun i => bits i = 1))

theorem aggregate_exact {mode : Mode} {keys : Fin 10 → G1In} {sk : Fin 10 → ℕ}
    (hk : ∀ i, Denotes (keys i) (sk i • G1gen)) {bits : Fin 10 → Fr} (hb : ∀ i, bits i = 0 ∨ bits i = 1)
    (hg : GeneralPosition (fun i => sk i • G1gen) fun i => bits i = 1) (hmode : ExactAggregation mode bits) :
    ∃ apk : G1Var, aggregatePublicKeysRotate mode keys bits = pure apk ∧
      ⟨apk.X, apk.Y⟩ = enc1 (signersSum (fun i => sk i • G1gen) fun i => bits i = 1) := by
  have hr : ∀ i, rOrder • (sk i • G1gen) = 0 := fun i => by
    rw [smul_comm, Witness.G1gen_order, nsmul_zero]
  cases mode with
  | engine =>
    obtain ⟨apk, e1, -, e2⟩ := c19_engine_partial hk bits (fun _ => 0) hb hg
    exact ⟨apk, e2, e1⟩
  | compiled =>
    obtain ⟨he, hev⟩ := hmode.resolve_left (by simp)
    obtain ⟨x, y, hs, -, apk, hagg, h1, -⟩ := c19_compiled_gaps hk hr bits hb hg he
    obtain ⟨eX, eY⟩ := Prod.mk.inj (h1 hev)
    exact ⟨apk, hagg, by rw [hs, eX, eY]⟩

/-- the final check: the signature is `a•H` and the Miller value is not exceptional -/
theorem check_iff {a : ℕ} {S H : ETwist Fp} (ha : ¬ rOrder ∣ a) (hS0 : S ≠ 0) (hSr : rOrder • S = 0) (hH0 : H ≠ 0)
    (hHr : rOrder • H = 0) :
    ∃ z, millerLoop [enc1 (-G1gen), enc1 (a • G1gen)] [enc2 S, enc2 H] = .ok (pure z) ∧
      ((pairingCheckStmt [enc1 (-G1gen), enc1 (a • G1gen)] [enc2 S, enc2 H]).run = some () ↔
        S = a • H ∧ ¬ Exceptional z) := by
  obtain ⟨z, hm, hc⟩ := c86_pairingCheck [(-G1gen, S), (a • G1gen, H)] (by simp) (by
    intro x hx
    simp only [List.mem_cons, List.not_mem_nil, or_false] at hx
    rcases hx with rfl | rfl
    · exact ⟨neg_gen_good, hS0, hSr⟩
    · exact ⟨fun e => ha (Witness.smul_gen_eq_zero e), hH0, hHr⟩)
  refine ⟨z, hm, ?_⟩
  obtain ⟨c, e1, e2⟩ := check_ok (enc1 (-G1gen)) (enc1 (a • G1gen)) (enc2 S) (enc2 H)
  have e3 := Except.ok.inj (e1.symm.trans hc)
  have e4 : ateProd [(-G1gen, S), (a • G1gen, H)] = ate (-G1gen) S * ate (a • G1gen) H := by simp [ateProd]
  rw [← bls_iff a hSr hHr, ← e4, e2, e3]
  split
  · next h => exact ⟨fun _ => h, fun _ => rfl⟩
  · next h => exact ⟨fun e => by simp at e, fun h' => absurd h' h⟩

/-- **C91, transactions.**  Keys `skᵢ•g1` in general position, boolean bits, exact aggregation, an honest hash point `H`
and a signature of order `r`: the honest prover accepts exactly when the signed weight is the weight of the signers, the
commitment is that of the keys and weights, the signature is the signers' aggregate signature on `H` and the Miller
value is not one of the exceptional values the final exponentiation rejects. -/
theorem c91_transaction {mode : Mode} {pub : TxPublic} {priv : TxPrivate} (sk : Fin 10 → ℕ)
    (hk : ∀ i, Denotes (priv.publicKeys i) (sk i • G1gen)) (hb : ∀ i, priv.bitList i = 0 ∨ priv.bitList i = 1)
    (hg : GeneralPosition (fun i => sk i • G1gen) fun i => priv.bitList i = 1)
    (hmode : ExactAggregation mode priv.bitList)
    (hsk : ¬ rOrder ∣ secretSum sk fun i => priv.bitList i = 1) (S H : ETwist Fp)
    (hH : (G2.hashToG2 priv.msgBytes).run = some (enc2 H)) (hH0 : H ≠ 0) (hHr : rOrder • H = 0)
    (hS : priv.signature = newG2Affine (enc2 S)) (hS0 : S ≠ 0) (hSr : rOrder • S = 0) :
    ∃ z, millerLoop [enc1 (-G1gen), enc1 (signersSum (fun i => sk i • G1gen) fun i => priv.bitList i = 1)]
        [enc2 S, enc2 H] = .ok (pure z) ∧
      ((txDefine mode pub priv).run = some () ↔
        pub.signedWeight = (∑ i, if priv.bitList i = 1 then priv.weights i else 0) ∧
        IsCommitment (fun i => (priv.publicKeys i).X) (fun i => (priv.publicKeys i).Y) priv.weights
          pub.apkCommitment ∧
        S = aggregateSignature sk (fun i => priv.bitList i = 1) H ∧ ¬ Exceptional z) := by
  obtain ⟨apk, hagg, ha⟩ := aggregate_exact hk hb hg hmode
  have hf := fun i => (hk i).1
  obtain ⟨bs, hbs, hadd⟩ := addAll_of_aggregate hf hb hagg
  have hsig := c58_signature (enc2 S)
  rw [signersSum_secret] at ha ⊢
  obtain ⟨z, hm, hz⟩ := check_iff hsk hS0 hSr hH0 hHr
  refine ⟨z, hm, ?_⟩
  rw [aggregateSignature_eq, ← hz]
  have hsum : (∑ i, if bs i then priv.weights i else 0) = ∑ i, if priv.bitList i = 1 then priv.weights i else 0 := by
    rw [hbs]; exact Finset.sum_congr rfl fun i _ => by simp only [bits_eq]
  constructor
  · intro h
    have hacc : TxAccepted mode pub priv := ⟨(), (txDefine _ _ _).ok _ h⟩
    have hw := c14_signed_weight hacc
    have hc := c17_commitment hacc
    refine ⟨hw, hc, ?_⟩
    have hcc := isCommitment_unique hc (commit_isCommitment _ _)
    rw [txDefine, verifyTx, hbs, aggregate_eq mode bs priv.weights _ hf, assert_true (hsum.trans hw.symm), pure_bind,
      run_bind, hadd, run_pure, Option.bind_some, computeAPKCommitment_eq, pure_bind, commitmentCheck, apiAssertEq,
      assert_true hcc, pure_bind, run_bind, hH, Option.bind_some, hS, useG2_fits hsig.1, pure_bind, hsig.2, g1neg_eq,
      ha] at h
    exact h
  · rintro ⟨hw, hc, h⟩
    have hcc := isCommitment_unique hc (commit_isCommitment _ _)
    refine tx_run (bs := bs) (apk := apk) (h := enc2 H) hbs hf (hsum.trans hw.symm) hcc (by rw [hS]; exact hsig.1)
      (by rw [hadd, run_pure]) hH ?_
    rw [hS, hsig.2, g1neg_eq, ha]
    exact h

/-- **C91, rotations.** -/
theorem c91_rotation {mode : Mode} {pub : RotatePublic} {priv : RotatePrivate} (sk : Fin 10 → ℕ)
    (hk : ∀ i, Denotes (priv.newPublicKeys i) (sk i • G1gen)) (hb : ∀ i, priv.bitList i = 0 ∨ priv.bitList i = 1)
    (hg : GeneralPosition (fun i => sk i • G1gen) fun i => priv.bitList i = 1)
    (hmode : ExactAggregation mode priv.bitList)
    (hsk : ¬ rOrder ∣ secretSum sk fun i => priv.bitList i = 1) (S H : ETwist Fp)
    (hH : (G2.hashToG2 pub.newApkCommitmentBytes).run = some (enc2 H)) (hH0 : H ≠ 0) (hHr : rOrder • H = 0)
    (hS : priv.signature = newG2Affine (enc2 S)) (hS0 : S ≠ 0) (hSr : rOrder • S = 0) :
    ∃ z, millerLoop [enc1 (-G1gen), enc1 (signersSum (fun i => sk i • G1gen) fun i => priv.bitList i = 1)]
        [enc2 S, enc2 H] = .ok (pure z) ∧
      ((rotateDefine mode pub priv).run = some () ↔
        pub.trustedWeight = (∑ i, open Classical in
          if (priv.bitList i = 1 ∧ priv.newPublicKeys i = priv.oldPublicKeys i) ∨
            (priv.bitList i = 0 ∧ priv.oldPublicKeys i = ⟨fun _ => 0, fun _ => 0⟩) then priv.oldWeights i else 0) ∧
        IsCommitment (fun i => (priv.oldPublicKeys i).X) (fun i => (priv.oldPublicKeys i).Y) priv.oldWeights
          pub.oldApkCommitment ∧
        IsCommitment (fun i => (priv.newPublicKeys i).X) (fun i => (priv.newPublicKeys i).Y) priv.newWeights
          pub.newCommitment ∧
        S = aggregateSignature sk (fun i => priv.bitList i = 1) H ∧ ¬ Exceptional z) := by
  obtain ⟨apk, hagg, ha⟩ := aggregate_exact hk hb hg hmode
  have hf := fun i => (hk i).1
  obtain ⟨bs, hbs, hadd⟩ := addAll_of_aggregate hf hb hagg
  have hsig := c58_signature (enc2 S)
  rw [signersSum_secret] at ha ⊢
  obtain ⟨z, hm, hz⟩ := check_iff hsk hS0 hSr hH0 hHr
  refine ⟨z, hm, ?_⟩
  rw [aggregateSignature_eq, ← hz]
  have hsum : (∑ i, if counts (priv.oldPublicKeys i) (priv.newPublicKeys i) (bs i) then priv.oldWeights i else 0) =
      ∑ i, open Classical in
        if (priv.bitList i = 1 ∧ priv.newPublicKeys i = priv.oldPublicKeys i) ∨
          (priv.bitList i = 0 ∧ priv.oldPublicKeys i = ⟨fun _ => 0, fun _ => 0⟩) then priv.oldWeights i else 0 := by
    refine Finset.sum_congr rfl fun i _ => ?_
    have := counts_iff (priv.oldPublicKeys i) (priv.newPublicKeys i) (bs i)
    rw [show bit (bs i) = priv.bitList i by rw [hbs]] at this
    by_cases h1 : counts (priv.oldPublicKeys i) (priv.newPublicKeys i) (bs i)
    · rw [if_pos h1, if_pos (this.1 h1)]
    · rw [if_neg h1, if_neg fun h2 => h1 (this.2 h2)]
  constructor
  · intro h
    have hacc : RotateAccepted mode pub priv := ⟨(), (rotateDefine _ _ _).ok _ h⟩
    have hw := c20_trusted_weight hacc
    obtain ⟨hc, hc'⟩ := c21_commitments hacc
    refine ⟨hw, hc, hc', ?_⟩
    have hcc := isCommitment_unique hc (commit_isCommitment _ _)
    have hcc' := isCommitment_unique hc' (commit_isCommitment _ _)
    rw [rotateDefine, verifyRotate, hbs, trustedWeight_eq, pure_bind, commitmentCheck, apiAssertEq,
      assert_true (hw.trans hsum.symm), pure_bind, computeAPKCommitment_eq, pure_bind, commitmentCheck, apiAssertEq,
      assert_true hcc, pure_bind, computeAPKCommitment_eq, pure_bind, commitmentCheck, apiAssertEq, assert_true hcc',
      pure_bind, aggregateRotate_eq mode bs hf, run_bind, hadd, run_pure, Option.bind_some, run_bind, hH,
      Option.bind_some, hS, useG2_fits hsig.1, pure_bind, hsig.2, g1neg_eq, ha] at h
    exact h
  · rintro ⟨hw, hc, hc', h⟩
    have hcc := isCommitment_unique hc (commit_isCommitment _ _)
    have hcc' := isCommitment_unique hc' (commit_isCommitment _ _)
    refine rotate_run (bs := bs) (apk := apk) (h := enc2 H) hbs hf (hw.trans hsum.symm) hcc hcc'
      (by rw [hS]; exact hsig.1) (by rw [hadd, run_pure]) hH ?_
    rw [hS, hsig.2, g1neg_eq, ha]
    exact h

/-! ## general position is necessary -/

theorem foldlM_run_inv {α β : Type} {n : ℕ} (f : Fin n → α) (step : β → α → Circ β) (I : ℕ → β → Prop) (C : Fin n → Prop)
    (h : ∀ (i : Fin n) (b b' : β), I i b → (step b (f i)).run = some b' → C i ∧ I (i + 1) b') (b b' : β) (h0 : I 0 b)
    (hr : ((List.ofFn f).foldlM step b).run = some b') : ∀ i, C i := by
  induction n generalizing b I with
  | zero => exact fun i => i.elim0
  | succ n ih =>
    rw [List.ofFn_succ, List.foldlM_cons, run_bind] at hr
    obtain ⟨b1, e1, e2⟩ := Option.bind_eq_some_iff.1 hr
    obtain ⟨c0, i1⟩ := h 0 b b1 h0 e1
    have := ih (fun i => f i.succ) (fun k => I (k + 1)) (fun i => C i.succ)
      (fun i b b' hb e => h i.succ b b' (by simpa using hb) e) b1 (by simpa using i1) e2
    exact Fin.cases c0 this

theorem add_degenerate {p q : G1Var} (h : p.isZeroConst = false) (h' : q.isZeroConst = false) (hx : p.X = q.X) :
    (addG1Points p q).run = none := by
  rw [add_chord h h', run_bind, hx, sub_self]
  simp [fpDiv]

theorem engine_step_run {v v' : G1Var} {S K : E1 Fp} {a : Prop} {b : Bool} {key : G1In} (h : Rep v S a)
    (hk : Pt K key.X.val key.Y.val) (hr : (addG1Points v (selVal .engine b key)).run = some v') :
    (a → b = true → S ≠ K ∧ S ≠ -K) ∧ Rep v' (S + if b then K else 0) (a ∨ b = true) := by
  have hg : a → b = true → S ≠ K ∧ S ≠ -K := by
    rintro ha rfl
    rcases h with ⟨hn, -⟩ | ⟨-, hv, hS⟩
    · exact absurd ha hn
    have key' : v.X = key.X.val → False := fun e => by
      rw [add_degenerate hv (by simp [selVal.eq_def]) (by simpa [selVal.eq_def] using e)] at hr
      cases hr
    refine ⟨fun e => ?_, fun e => ?_⟩
    · subst e; exact key' (hS.unique hk).1
    · subst e; exact key' (hS.unique hk.neg).1
  obtain ⟨v'', e, h'⟩ := engine_step h hk hg
  rw [e, run_pure] at hr
  obtain rfl := Option.some.inj hr
  exact ⟨hg, h'⟩

/-- **General position is necessary**: in the test engine the honest prover can aggregate the keys only if no partial sum
of signers' keys equals the next signer's key or its negative; equal keys of the first two signers, for instance, make
every proof attempt fail. -/
theorem c91_general_position {keys : Fin 10 → G1In} {K : Fin 10 → E1 Fp} (hk : ∀ i, Denotes (keys i) (K i))
    (bits : Fin 10 → Fr) (hb : ∀ i, bits i = 0 ∨ bits i = 1) :
    (∃ apk, (aggregatePublicKeysRotate .engine keys bits).run = some apk) ↔ GeneralPosition K fun i => bits i = 1 := by
  constructor
  · rintro ⟨apk, hr⟩
    obtain ⟨bs, rfl⟩ : ∃ bs : Fin 10 → Bool, bits = fun i => bit (bs i) :=
      ⟨fun i => decide (bits i = 1), funext fun i => by rcases hb i with e | e <;> simp [e]⟩
    rw [aggregateRotate_eq .engine bs fun i => (hk i).1, selected, addAll_ofFn] at hr
    rw [← bits_of]
    have h0 : Rep (selVal .engine (bs 0) (keys 0)) (signersSum K fun j => j ≤ 0 ∧ bs j = true)
        (∃ j, j ≤ 0 ∧ bs j = true) := by
      rw [signersSum_first]
      have e : (∃ j : Fin 10, j ≤ 0 ∧ bs j = true) ↔ bs 0 = true :=
        ⟨fun ⟨j, h, hb⟩ => by rwa [← Fin.le_zero_iff.1 h], fun h => ⟨0, le_refl _, h⟩⟩
      rw [e]
      rcases hb : bs 0 with _ | _
      · exact Or.inl ⟨by simp, by simp [selVal.eq_def], by simp⟩
      · exact Or.inr ⟨rfl, by simp [selVal.eq_def], by simpa [selVal.eq_def] using (hk 0).2⟩
    have := foldlM_run_inv (fun i : Fin 9 => selVal .engine (bs i.succ) (keys i.succ)) addG1Points
      (fun k v => Rep v (signersSum K fun j => j.val ≤ k ∧ bs j = true) (∃ j : Fin 10, j.val ≤ k ∧ bs j = true))
      (fun i => (∃ j, j < i.succ ∧ bs j = true) → bs i.succ = true →
        signersSum K (fun j => j < i.succ ∧ bs j = true) ≠ K i.succ ∧
        signersSum K (fun j => j < i.succ ∧ bs j = true) ≠ -K i.succ)
      (fun i v v' h hr => by
        have hlt : ∀ j : Fin 10, j.val ≤ i.val ↔ j < i.succ := fun j => by
          rw [Fin.lt_def, Fin.val_succ]; omega
        have hle : ∀ j : Fin 10, j.val ≤ i.val + 1 ↔ j ≤ i.succ := fun j => by
          rw [Fin.le_def, Fin.val_succ]
        simp only [hlt] at h
        obtain ⟨hc, h'⟩ := engine_step_run (K := K i.succ) (b := bs i.succ) h (hk i.succ).2 hr
        refine ⟨hc, ?_⟩
        have e1 := signersSum_succ K (fun i => bs i = true) i.succ
        simp only [hle]
        rw [← e1]
        have e2 : (∃ j, j ≤ i.succ ∧ bs j = true) ↔ ((∃ j, j < i.succ ∧ bs j = true) ∨ bs i.succ = true) := by
          constructor
          · rintro ⟨j, h, hb⟩
            rcases h.lt_or_eq with h | rfl
            · exact Or.inl ⟨j, h, hb⟩
            · exact Or.inr hb
          · rintro (⟨j, h, hb⟩ | hb)
            · exact ⟨j, h.le, hb⟩
            · exact ⟨_, le_refl _, hb⟩
        rw [e2]
        convert h' using 2
        split_ifs <;> rfl) _ _ (by simpa [Fin.le_def] using h0) hr
    intro i hi hex
    rcases Fin.eq_zero_or_eq_succ i with rfl | ⟨i, rfl⟩
    · obtain ⟨j, hj, -⟩ := hex
      exact absurd hj (by simp)
    · exact this i hex hi
  · intro hg
    obtain ⟨apk, -, -, e⟩ := c19_engine_partial hk bits (fun _ => 0) hb hg
    exact ⟨apk, by rw [e, run_pure]⟩

theorem run_first {α β : Type} {m : Circ α} {k : α → Circ β} {b : β} (h : (m >>= k).run = some b) :
    ∃ a, m.run = some a ∧ (k a).run = some b := by
  rw [run_bind] at h
  exact Option.bind_eq_some_iff.1 h

/-- So a transaction the honest prover accepts in the test engine has its signers' keys in general position, ... -/
theorem c91_transaction_position {pub : TxPublic} {priv : TxPrivate} {K : Fin 10 → E1 Fp}
    (hk : ∀ i, Denotes (priv.publicKeys i) (K i)) (h : (txDefine .engine pub priv).run = some ()) :
    GeneralPosition K fun i => priv.bitList i = 1 := by
  have hb := c16_tx_bits ⟨(), (txDefine _ _ _).ok _ h⟩
  refine (c91_general_position hk _ hb).1 ?_
  obtain ⟨bs, hbs⟩ : ∃ bs : Fin 10 → Bool, priv.bitList = fun i => bit (bs i) :=
    ⟨fun i => decide (priv.bitList i = 1), funext fun i => by rcases hb i with e | e <;> simp [e]⟩
  obtain ⟨apk, e, -⟩ := run_first h
  rw [hbs, aggregate_eq .engine bs priv.weights _ fun i => (hk i).1] at e
  obtain ⟨-, -, e⟩ := run_first e
  rw [hbs, aggregateRotate_eq .engine bs fun i => (hk i).1]
  exact ⟨apk, e⟩

/-- ... and so has a rotation. -/
theorem c91_rotation_position {pub : RotatePublic} {priv : RotatePrivate} {K : Fin 10 → E1 Fp}
    (hk : ∀ i, Denotes (priv.newPublicKeys i) (K i)) (h : (rotateDefine .engine pub priv).run = some ()) :
    GeneralPosition K fun i => priv.bitList i = 1 := by
  have hb := c16_rotate_bits ⟨(), (rotateDefine _ _ _).ok _ h⟩
  refine (c91_general_position hk _ hb).1 ?_
  rw [rotateDefine, verifyRotate] at h
  obtain ⟨t, -, h⟩ := run_first h
  obtain ⟨-, -, h⟩ := run_first h
  obtain ⟨c, -, h⟩ := run_first h
  obtain ⟨-, -, h⟩ := run_first h
  obtain ⟨c', -, h⟩ := run_first h
  obtain ⟨-, -, h⟩ := run_first h
  obtain ⟨apk, e, -⟩ := run_first h
  exact ⟨apk, e⟩

/-- For instance: if the first two validators sign and have the same key, no honest proof attempt succeeds. -/
theorem c91_duplicate_key {pub : TxPublic} {priv : TxPrivate} {K : Fin 10 → E1 Fp}
    (hk : ∀ i, Denotes (priv.publicKeys i) (K i)) (h0 : priv.bitList 0 = 1) (h1 : priv.bitList 1 = 1) (he : K 0 = K 1) :
    (txDefine .engine pub priv).run = none := by
  by_contra hn
  obtain ⟨u, hu⟩ := Option.ne_none_iff_exists'.1 hn
  refine (c91_transaction_position hk hu 1 h1 ⟨0, by decide, h0⟩).1 ?_
  rw [← he]
  have e : signersSum K (fun j => j < 1 ∧ priv.bitList j = 1) = signersSum K fun j => j = 0 := by
    refine signersSum_congr fun j => ⟨fun h => ?_, fun h => ?_⟩
    · have := h.1; omega
    · subst h; exact ⟨by decide, h0⟩
  rw [e, signersSum]
  refine (Finset.sum_eq_single 0 (fun j _ hj => ?_) fun h => absurd (Finset.mem_univ _) h).trans ?_
  · exact if_neg hj
  · exact if_pos rfl

/-! ## the true parts of C18 and C22 -/

/-- **C18, honest prover** (the claim for every prover and for the public `MessageHash` is false, `c18_false`): a
transaction accepted with honest hints carries the signers' aggregate signature on the hash of `MsgBytes`. -/
theorem c18_honest_partial {mode : Mode} {pub : TxPublic} {priv : TxPrivate}
    (h : (txDefine mode pub priv).run = some ()) (sk : Fin 10 → ℕ)
    (hk : ∀ i, Denotes (priv.publicKeys i) (sk i • G1gen))
    (hg : GeneralPosition (fun i => sk i • G1gen) fun i => priv.bitList i = 1)
    (hmode : ExactAggregation mode priv.bitList)
    (hsk : ¬ rOrder ∣ secretSum sk fun i => priv.bitList i = 1) (msg : Vector Fips.Byte 32) (S H : ETwist Fp)
    (hmsg : priv.msgBytes = msgVars msg)
    (hH : (G2.hashToG2 (msgVars msg)).run = some (enc2 H)) (hH0 : H ≠ 0) (hHr : rOrder • H = 0)
    (hS : priv.signature = newG2Affine (enc2 S)) (hS0 : S ≠ 0) (hSr : rOrder • S = 0) :
    S = aggregateSignature sk (fun i => priv.bitList i = 1) H := by
  obtain ⟨z, -, hz⟩ := c91_transaction (mode := mode) (pub := pub) sk hk
    (c16_tx_bits ⟨(), (txDefine _ _ _).ok _ h⟩) hg hmode hsk S H (by rw [hmsg]; exact hH) hH0 hHr hS hS0 hSr
  exact (hz.1 h).2.2.1

/-- **C22, honest prover** (missing because false, `c22_false`: the claim for every prover, and that the signed bytes
encode `NewCommitment`): a rotation accepted with honest hints carries the aggregate signature of the new signers on
the hash of the signed bytes. -/
theorem c22_honest_partial {mode : Mode} {pub : RotatePublic} {priv : RotatePrivate}
    (h : (rotateDefine mode pub priv).run = some ()) (sk : Fin 10 → ℕ)
    (hk : ∀ i, Denotes (priv.newPublicKeys i) (sk i • G1gen))
    (hg : GeneralPosition (fun i => sk i • G1gen) fun i => priv.bitList i = 1)
    (hmode : ExactAggregation mode priv.bitList)
    (hsk : ¬ rOrder ∣ secretSum sk fun i => priv.bitList i = 1) (msg : Vector Fips.Byte 32) (S H : ETwist Fp)
    (hmsg : pub.newApkCommitmentBytes = msgVars msg)
    (hH : (G2.hashToG2 (msgVars msg)).run = some (enc2 H)) (hH0 : H ≠ 0) (hHr : rOrder • H = 0)
    (hS : priv.signature = newG2Affine (enc2 S)) (hS0 : S ≠ 0) (hSr : rOrder • S = 0) :
    S = aggregateSignature sk (fun i => priv.bitList i = 1) H := by
  obtain ⟨z, -, hz⟩ := c91_rotation (mode := mode) (pub := pub) sk hk
    (c16_rotate_bits ⟨(), (rotateDefine _ _ _).ok _ h⟩) hg hmode hsk S H (by rw [hmsg]; exact hH) hH0 hHr hS hS0 hSr
  exact (hz.1 h).2.2.2.1

/-! ## a concrete case -/

theorem ex_secret : secretSum (fun i => 2 ^ i.val) (fun _ : Fin 10 => (1 : Fr) = 1) = 1023 := by
  simp only [secretSum, if_true]
  decide

/-- The example of Props/CircuitExamples meets the hypotheses: with the signature `1023•H` it is accepted exactly with
the right commitment and signed weight, with any other `n•H` never. -/
theorem c91_example {mode : Mode} (M : G2In) (w : Fin 10 → Fr) (c t : Fr) :
    ((txDefine mode ⟨M, c, t⟩ (exPriv w)).run = some () ↔ t = ∑ i, w i ∧ c = commit exKeys w) ∧
    ∀ n, ¬ rOrder ∣ n → n % rOrder ≠ 1023 →
      (txDefine mode ⟨M, c, t⟩ { exPriv w with signature := newG2Affine (enc2 (n • Witness.Hpt)) }).run ≠ some () := by
  have ev : Even (absentees fun _ : Fin 10 => (1 : Fr) = 1) ∧ EvenGaps fun _ : Fin 10 => (1 : Fr) = 1 := by
    constructor
    · simp [absentees]
    · refine ⟨Or.inl rfl, fun i _ _ => ?_⟩
      simp
  have hsk : ¬ rOrder ∣ secretSum (fun i => 2 ^ i.val) (fun _ : Fin 10 => (1 : Fr) = 1) := by
    rw [ex_secret]; decide +kernel
  have hagg : aggregateSignature (fun i => 2 ^ i.val) (fun _ : Fin 10 => (1 : Fr) = 1) Witness.Hpt = exSig := by
    rw [aggregateSignature_eq, ex_secret]; rfl
  have hsum : (∑ i, if (1 : Fr) = 1 then w i else 0) = ∑ i, w i := by simp only [if_true]
  constructor
  · obtain ⟨z, hm, hz⟩ := c91_transaction (mode := mode) (pub := ⟨M, c, t⟩) (priv := exPriv w) (fun i => 2 ^ i.val)
      exKeys_denote (fun _ => Or.inr rfl) (Witness.key_general _) (Or.inr ⟨ev.2, ev.1⟩) hsk exSig Witness.Hpt H_hash
      Witness.H_ne Witness.H_order rfl Witness.S_ne Witness.S_order
    rw [hz]
    have hx : ¬ Exceptional z := by
      rw [exceptional_easy]
      refine ex_z ?_
      rw [← hm]
      congr 3
      simp [signersSum, exPriv, Witness.key]
    constructor
    · rintro ⟨h1, h2, -, -⟩
      exact ⟨h1.trans hsum, isCommitment_unique h2 (commit_isCommitment _ _)⟩
    · rintro ⟨h1, h2⟩
      refine ⟨h1.trans hsum.symm, ?_, hagg.symm, hx⟩
      show IsCommitment _ _ _ c
      rw [h2]
      exact commit_isCommitment _ _
  · intro n hn hne h
    have := c18_honest_partial h (fun i => 2 ^ i.val) exKeys_denote (Witness.key_general _) (Or.inr ⟨ev.2, ev.1⟩) hsk
      G2.exMsg (n • Witness.Hpt) Witness.Hpt rfl H_hash Witness.H_ne Witness.H_order rfl
      (smul_ne_of Witness.H_order Witness.H_ne hn) (order_nsmul Witness.H_order n)
    have e : n • Witness.Hpt = 1023 • Witness.Hpt := this.trans hagg
    have hp : Fact rOrder.Prime := ⟨rOrder_prime⟩
    have ho : addOrderOf Witness.Hpt = rOrder := addOrderOf_eq_prime Witness.H_order Witness.H_ne
    rw [nsmul_eq_nsmul_iff_modEq, ho] at e
    exact hne (Eq.trans e (by decide +kernel))

end Spark.HonestProps
