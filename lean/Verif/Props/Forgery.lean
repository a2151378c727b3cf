import Verif.Props.Groups
import Verif.Lemmas.PairZero
import Verif.Lemmas.Forgery

/-!
# C80-C82: `(0, 0)` as a point of the twist, and the signature `(0, 0)`

`(0, 0)` is what the code uses for the point at infinity; it is not on the twist, and nothing in the circuits excludes
it as a signature or as a hash.
-/

namespace Spark.ForgeryProps
open Spark Circ Spec Circuit Pairing PairingProps CircuitProps GroupProps HashProps FinalExpProps Torus
open scoped BigOperators
set_option maxRecDepth 100000

/-! ## C80: pairings with `(0, 0)` -/

/-- Inputs as in `GoodPair`, where the second point may be the point at infinity. -/
def GoodOrInfinity (x : E1 Fp × ETwist Fp) : Prop := x.1 ≠ 0 ∧ rOrder • x.2 = 0

theorem enc1_Y_ne {P : E1 Fp} (h : P ≠ 0) : (enc1 P).Y ≠ 0 := by
  rcases P with _ | ⟨a, b, hP⟩
  · exact absurd rfl h
  · exact e1_y_ne (P := .some a b hP) (x := a) ⟨hP, rfl⟩

theorem enc2_zero : enc2 0 = ⟨0, 0⟩ := rfl

theorem miller_or {x : E1 Fp × ETwist Fp} (h : GoodOrInfinity x) :
    ∃ z, (miller1 (enc1 x.1, enc2 x.2)).run = some z ∧ z ≠ 0 ∧ z ^ ateExp = ate x.1 x.2 := by
  by_cases h0 : x.2 = 0
  · rw [h0, enc2_zero, ate_zero_right]
    obtain ⟨c, hc, e⟩ := miller1_zero (enc1_Y_ne h.1)
    have hk : Killed (E12.of (E6.of c) * L0) := (Killed.of (y := E6.of c) fun h => hc (congrArg E6.B0 h)).mul L0_killed
    exact ⟨_, e, hk.1, hk.2⟩
  · obtain ⟨z, e, hz, hv⟩ := miller_good (x := x) ⟨h.1, h0, h.2⟩
    exact ⟨z, by rw [e, run_pure], hz, hv⟩

theorem miller_or_list (L : List (E1 Fp × ETwist Fp)) (h : ∀ x ∈ L, GoodOrInfinity x) :
    ∃ zs, (mapC miller1 ((L.map fun x => enc1 x.1).zip (L.map fun x => enc2 x.2))).run = some zs ∧
      zs.prod ≠ 0 ∧ zs.prod ^ ateExp = ateProd L := by
  induction L with
  | nil => exact ⟨[], rfl, by simp, by simp [ateProd]⟩
  | cons x L ih =>
    obtain ⟨z, e, hz, hv⟩ := miller_or (h x List.mem_cons_self)
    obtain ⟨zs, es, hzs, hvs⟩ := ih fun y hy => h y (List.mem_cons_of_mem _ hy)
    refine ⟨z :: zs, ?_, ?_, ?_⟩
    · simp only [List.map_cons, List.zip_cons_cons, mapC, run_bind, e, es, Option.bind_some, run_pure]
    · rw [List.prod_cons]; exact mul_ne_zero hz hzs
    · rw [List.prod_cons, mul_pow, hv, hvs, ateProd, ateProd, List.map_cons, List.prod_cons]

/-- **An honest prover's pairings treat `(0, 0)` as the point at infinity**: for pairs of non-zero points of `E(Fp)` and
points of order dividing `r` of the twist - infinity included, encoded `(0, 0)` - whose pairings do not multiply to 1,
`Pair` returns `∏ e(Pᵢ, Qᵢ)³`. -/
theorem c80_pair (L : List (E1 Fp × ETwist Fp)) (h0 : L ≠ []) (h : ∀ x ∈ L, GoodOrInfinity x) (h1 : ateProd L ≠ 1) :
    ∃ c, pair (L.map fun x => enc1 x.1) (L.map fun x => enc2 x.2) = .ok c ∧ c.run = some (ateProd L ^ 3) := by
  obtain ⟨zs, e, hz, hv⟩ := miller_or_list L h
  refine ⟨_, by rw [pair, millerLoop_eq (by simpa using h0) (by simp)], ?_⟩
  simp only [run_bind, e, Option.bind_some, run_pure]
  rw [finalExp_exact _ hz (by rwa [hv])]
  simp only [run_pure, Option.bind_some, hv]

/-- The check is then not passed by an honest prover. -/
theorem c80_check (L : List (E1 Fp × ETwist Fp)) (h0 : L ≠ []) (h : ∀ x ∈ L, GoodOrInfinity x) (h1 : ateProd L ≠ 1) :
    ∃ c, pairingCheck (L.map fun x => enc1 x.1) (L.map fun x => enc2 x.2) = .ok c ∧ c.run = none := by
  obtain ⟨zs, e, hz, hv⟩ := miller_or_list L h
  obtain ⟨c, hc, hr⟩ := c80_pair L h0 h h1
  refine ⟨_, check_of_pair hc, ?_⟩
  rw [run_bind, hr, Option.bind_some]
  have h3 : ateProd L ^ 3 ≠ 1 := fun h3 => h1 (pow_three_eq_one (by rw [← hv]; exact order_r hz) h3)
  rw [assert_false h3]; rfl

/-- **The infinite signature is rejected by an honest prover**: with a key and a hash of order `r`, an honest prover
does not pass the check of the circuits with the signature `(0, 0)`. -/
theorem c80_infinite_signature (A : E1 Fp) (H : ETwist Fp) (hA0 : A ≠ 0) (hA : rOrder • A = 0) (hH0 : H ≠ 0)
    (hH : rOrder • H = 0) :
    ∃ c, pairingCheck [enc1 (-G1gen), enc1 A] [⟨0, 0⟩, enc2 H] = .ok c ∧ c.run = none := by
  obtain ⟨a, -, rfl⟩ := G1_nsmul hA
  refine c80_check [(-G1gen, 0), (a • G1gen, H)] (by simp) ?_ ?_
  · intro x hx
    simp only [List.mem_cons, List.not_mem_nil, or_false] at hx
    rcases hx with rfl | rfl
    · exact ⟨neg_gen_good, nsmul_zero _⟩
    · exact ⟨hA0, hH⟩
  · intro h1
    have := (c62_equation a 0 H (nsmul_zero _) hH).1 (by simpa [ateProd] using h1)
    have hd : ¬ rOrder ∣ a := fun ⟨k, hk⟩ => hA0 (by rw [hk, mul_nsmul, Witness.G1gen_order, nsmul_zero])
    exact smul_ne_of hH hH0 hd this.symm

/-! ### only `(0, 0)` -/

theorem gam2_ne_neg_one : (1 : E2 Fp) + gam2 ≠ 0 := fun h => by
  have h1 : gam2 = -1 := by linear_combination h
  have h2 := gam2_sq
  rw [h1] at h2
  have h3 : (3 : E2 Fp) = 0 := by linear_combination h2
  exact G2.three_ne_E2 h3

theorem easy_ne {c : E2 Fp} (hc : c ≠ 0) : easy (⟨E6.of c, 1⟩ : E12 Fp) ≠ 1 := by
  intro h
  have he : (⟨E6.of c, 1⟩ : E12 Fp) ≠ 0 := fun h => one_ne_zero (congrArg E12.C1 h)
  have hf : frobHom2 (⟨E6.of c, 1⟩ : E12 Fp) ≠ 0 := (map_ne_zero _).2 he
  rw [easy_def, easy1_def, map_div₀, div_mul_div_comm, div_eq_one_iff_eq (mul_ne_zero hf he), frobHom2_coord,
    frobHom2_coord] at h
  have h2 := congrArg (fun z => z.C1.B0) h
  simp [E12.C1_mul] at h2
  have h3 : 2 * (c * (1 + gam2)) = 0 := by linear_combination -h2
  exact mul_ne_zero two_ne_E2 (mul_ne_zero hc gam2_ne_neg_one) h3

theorem L0_C0 (c : E2 Fp) : (E12.of (E6.of c) * L0).C0 = 0 := by
  rw [E12.C0_mul]; ext1 <;> simp [Ext12.sparse014]

theorem L0_C1 {c : E2 Fp} (hc : c ≠ 0) : (E12.of (E6.of c) * L0).C1 ≠ 0 := fun h => by
  have := congrArg E6.B1 h
  rw [E12.C1_mul] at this
  simp [Ext12.sparse014] at this
  exact hc this

/-- the Miller value on `n` pairs whose second points are all `(0, 0)` -/
theorem miller_all (P : List (G1Affine Fp)) (h : ∀ p ∈ P, p.Y ≠ 0) :
    ∃ (zs : List (E12 Fp)) (c : E2 Fp), c ≠ 0 ∧
      (mapC miller1 (P.zip (P.map fun _ => (⟨0, 0⟩ : G2Affine Fp)))).run = some zs ∧
      zs.prod = E12.of (E6.of c) * (if Even P.length then 1 else L0) := by
  induction P with
  | nil => exact ⟨[], 1, one_ne_zero, rfl, by simp; rfl⟩
  | cons p P ih =>
    obtain ⟨zs, c, hc, e, ez⟩ := ih fun q hq => h q (List.mem_cons_of_mem _ hq)
    obtain ⟨c', hc', e'⟩ := miller1_zero (h p List.mem_cons_self)
    have hrun : (mapC miller1 ((p :: P).zip ((p :: P).map fun _ => (⟨0, 0⟩ : G2Affine Fp)))).run =
        some (E12.of (E6.of c') * L0 :: zs) := by
      simp only [List.map_cons, List.zip_cons_cons, mapC, run_bind, e, e', Option.bind_some, run_pure]
    by_cases hp : Even P.length
    · rw [if_pos hp] at ez
      refine ⟨_, c' * c, mul_ne_zero hc' hc, hrun, ?_⟩
      rw [if_neg (by rw [List.length_cons, Nat.even_add_one]; exact not_not.2 hp), List.prod_cons, ez, E6.of_mul, E12.of_mul]; ring
    · rw [if_neg hp] at ez
      refine ⟨_, c' * c * E2.xi, mul_ne_zero (mul_ne_zero hc' hc) xi_ne, hrun, ?_⟩
      rw [if_pos (by rw [List.length_cons, Nat.even_add_one]; exact hp), List.prod_cons, ez, E6.of_mul, E12.of_mul, E6.of_mul, E12.of_mul, ← L0_sq]; ring

/-- **All second points `(0, 0)`**: the true product of pairings is 1 and an honest prover passes the check exactly
when the number of pairs is even. -/
theorem c80_all_infinity (P : List (G1Affine Fp)) (h0 : P ≠ []) (h : ∀ p ∈ P, p.Y ≠ 0) :
    ∃ c, pairingCheck P (P.map fun _ => ⟨0, 0⟩) = .ok c ∧
      c.run = if Even P.length then some () else none := by
  obtain ⟨zs, c, hc, e, ez⟩ := miller_all P h
  refine ⟨_, check_of_pair (by rw [pair, millerLoop_eq h0 (by simp)]), ?_⟩
  simp only [run_bind, e, Option.bind_some, run_pure]
  have hl : Even P.length → (P.length == 1) = false := fun hE => by
    rw [beq_eq_false_iff_ne]; intro h1; rw [h1] at hE; exact absurd hE (by decide)
  by_cases hE : Even P.length
  · rw [if_pos hE, mul_one] at ez
    rw [if_pos hE, hl hE, finalExponentiation, if_neg (by decide), ez, ← finalExp_eq,
      (c36_safe_subfield_all (E12.of (E6.of c)) rfl).1 (by
        rw [← easy_eq (fun h => one_ne_zero (congrArg E12.C1 h))]; exact easy_ne hc)]
    simp only [run_pure, Option.bind_some]
    exact (assert_true trivial).symm ▸ rfl
  · rw [if_neg hE] at ez
    have hf := c36_C0_zero _ (L0_C0 c) (L0_C1 hc)
    have : finalExponentiation zs.prod (P.length == 1) = fail := by
      rw [ez, finalExponentiation]
      split
      · exact hf.2
      · rw [← finalExp_eq]; exact hf.1
    rw [if_neg hE, this]; rfl

/-- the check at the end of both circuits, with `(0, 0)` for signature and hash -/
theorem check_zero {P Q : G1Affine Fp} (hP : P.Y ≠ 0) (hQ : Q.Y ≠ 0) :
    (pairingCheckStmt [P, Q] [⟨0, 0⟩, ⟨0, 0⟩]).run = some () := by
  obtain ⟨c, h1, h2⟩ := c80_all_infinity [P, Q] (by simp) (by simp [hP, hQ])
  obtain ⟨c', h3, h4⟩ := check_ok P Q ⟨0, 0⟩ ⟨0, 0⟩
  rw [h4, ← Except.ok.inj (h1.symm.trans h3), h2]
  exact if_pos even_two

/-! ### a dishonest prover -/

theorem facLast_free {s : PairState Fp} (h : ZeroState s) (l : E2 Fp) :
    (facLast s).sat (s, Ext12.sparse014 0 (-l * E2.of s.xOverY)) := by
  have ht : (tangentCompute (⟨0, 0⟩ : G2Affine Fp)).sat ⟨-l, 0⟩ := by
    refine ⟨l, ⟨l, trivial, (), ?_, rfl⟩, ?_⟩
    · simp [tower]
    · rw [sat_pure]; simp [tower]
  refine ⟨⟨-l, 0⟩, by rw [h.2]; exact ht, ?_⟩
  rw [sat_pure]
  simp [evalLine, tower]

theorem sparse014_injective : Function.Injective fun c : E2 Fp => Ext12.sparse014 (0 : E2 Fp) c := fun a b h => by
  have := congrArg (fun z => z.C0.B1) h
  simpa [Ext12.sparse014] using this

/-- **`(0, 0)` leaves the Miller loop undetermined**: the last slope is `0/0`, and whatever the prover puts for it is
accepted; different choices give different Miller values. -/
theorem c80_undetermined (P : G1Affine Fp) (hX : P.X ≠ 0) (hY : P.Y ≠ 0) :
    ∃ m, millerLoop [P] [⟨0, 0⟩] = .ok m ∧ ∃ f : E2 Fp → E12 Fp, Function.Injective f ∧ ∀ l, m.sat (f l) := by
  refine ⟨_, millerLoop_one P ⟨0, 0⟩, ?_⟩
  rw [miller1, initPair_ne hY, pure_bind]
  have h : ZeroState ⟨⟨0, 0⟩, ⟨0, 0⟩, P.Y⁻¹, P.X * P.Y⁻¹⟩ := ⟨rfl, rfl⟩
  have hx : (⟨⟨0, 0⟩, ⟨0, 0⟩, P.Y⁻¹, P.X * P.Y⁻¹⟩ : PairState Fp).xOverY ≠ 0 := mul_ne_zero hX (inv_ne_zero hY)
  generalize (⟨⟨0, 0⟩, ⟨0, 0⟩, P.Y⁻¹, P.X * P.Y⁻¹⟩ : PairState Fp) = s at h hx
  obtain ⟨z, hz, e⟩ := loop1_zero h 61 (z := L0 * L0) ⟨E2.xi, 0, xi_ne, by rw [L0_sq, pow_zero, mul_one]⟩
  obtain ⟨c, hc, e2⟩ := hz.sq
  refine ⟨fun l => E12.conj (z * z * Ext12.sparse014 0 (-l * E2.of s.xOverY)), fun a b hab => ?_, fun l => ?_⟩
  · have h1 := congrArg E12.conj hab
    dsimp only at h1
    rw [E12.conj_conj, E12.conj_conj] at h1
    have hzz : z * z ≠ 0 := by
      rw [e2]; exact fun h => hc (congrArg (fun z => z.C0.B0) h)
    have h2 := sparse014_injective (mul_left_cancel₀ hzz h1)
    have h3 : E2.of s.xOverY ≠ 0 := fun h => hx (congrArg E2.A0 h)
    exact neg_injective (mul_right_cancel₀ h3 h2)
  · exact ⟨_, (fac62 s).ok _ (fac62_zero h), _, (loop1 61 _).ok _ e, _, facLast_free h l, rfl⟩

/-- The hypotheses of the theorems above: pairs of generators, with and without infinity. -/
example : GoodOrInfinity (G1gen, 0) ∧ GoodOrInfinity (G1gen, G2gen) ∧ ateProd [(G1gen, 0), (G1gen, G2gen)] ≠ 1 ∧
    (enc1 G1gen).Y ≠ 0 ∧ (enc1 G1gen).X ≠ 0 := by
  refine ⟨⟨G1gen_ne, nsmul_zero _⟩, ⟨G1gen_ne, G2gen_order⟩, ?_, enc1_Y_ne G1gen_ne, ?_⟩
  · simp only [ateProd, List.map_cons, List.map_nil, List.prod_cons, List.prod_nil, ate_zero_right, one_mul, mul_one]
    exact ate_gen_ne
  · intro h
    have h1 : ((gen1x : ℕ) : ZMod fpOrder) = 0 := h
    rw [ZMod.natCast_eq_zero_iff] at h1
    exact absurd h1 (by decide +kernel)

/-! ## C81: every message can be hashed to `(0, 0)` -/

/-- **The hash of every message can be `(0, 0)`**: for every message the constraints of `HashToG2` have a solution
with that output, which is not a point of the twist (`c81_not_a_point`). -/
theorem c81_hash_zero (msg : Vector Fips.Byte 32) : (G2.hashToG2 (msgVars msg)).sat ⟨0, 0⟩ := by
  obtain ⟨us, hl, hs⟩ := G2.hashTail_zero
  rw [G2.hashToG2_tail]
  exact ⟨us, (G2.hashToField_sat msg 2 (by norm_num) us).2 hl, hs⟩

/-- `(0, 0)` are not the coordinates of a point of the twist. -/
theorem c81_not_a_point (P : ETwist Fp) : ¬ Pt P 0 0 := fun h => twist_x_ne h rfl

/-- Any two messages have a common possible hash. -/
theorem c81_collision (msg msg' : Vector Fips.Byte 32) :
    ∃ h, (G2.hashToG2 (msgVars msg)).sat h ∧ (G2.hashToG2 (msgVars msg')).sat h :=
  ⟨_, c81_hash_zero msg, c81_hash_zero msg'⟩

/-! ## C82: the signature `(0, 0)` -/

/-- **Transactions**: whatever the keys, bits, weights and message, if the aggregation of the selected keys can end in
a pair with non-zero ordinate, the transaction with the signature `(0, 0)` is accepted with the matching commitment
and weight. -/
theorem c82_transaction {mode : Mode} {keys : Fin 10 → G1In} (hf : ∀ i, (keys i).Fits) (bits weights : Fin 10 → Fr)
    (hb : ∀ i, bits i = 0 ∨ bits i = 1) {apk : G1Var} (ha : (aggregatePublicKeysRotate mode keys bits).sat apk)
    (hY : apk.Y ≠ 0) (msg : Vector Fips.Byte 32) (M : G2In) (c : Fr)
    (hc : IsCommitment (fun i => (keys i).X) (fun i => (keys i).Y) weights c) :
    TxAccepted mode ⟨M, c, ∑ i, if bits i = 1 then weights i else 0⟩
      ⟨keys, newG2Affine ⟨0, 0⟩, bits, weights, msgVars msg⟩ := by
  obtain ⟨bs, hbs⟩ : ∃ bs : Fin 10 → Bool, bits = fun i => bit (bs i) :=
    ⟨fun i => decide (bits i = 1), funext fun i => by rcases hb i with e | e <;> simp [e]⟩
  have hsig := c58_signature ⟨0, 0⟩
  have hsum : (∑ i, if bs i then weights i else 0) = ∑ i, if bits i = 1 then weights i else 0 := by
    rw [hbs]; exact Finset.sum_congr rfl fun i _ => by simp only [bits_eq]
  rw [hbs, aggregateRotate_eq mode bs hf] at ha
  refine (tx_cases _ _ _).2 ⟨bs, hbs, hf, hsum, isCommitment_unique hc (commit_isCommitment keys weights), hsig.1, apk,
    ⟨0, 0⟩, ha, c81_hash_zero msg, ?_⟩
  dsimp only
  rw [hsig.2]
  exact ⟨(), (pairingCheckStmt _ _).ok _ (check_zero (by rw [g1neg_eq]; exact enc1_Y_ne neg_gen_good) hY)⟩

/-- The test engine, keys in general position with a non-zero sum. -/
theorem c82_engine {keys : Fin 10 → G1In} {K : Fin 10 → E1 Fp} (hk : ∀ i, Denotes (keys i) (K i))
    (bits weights : Fin 10 → Fr) (hb : ∀ i, bits i = 0 ∨ bits i = 1) (hg : GeneralPosition K fun i => bits i = 1)
    (h0 : signersSum K (fun i => bits i = 1) ≠ 0) (msg : Vector Fips.Byte 32) (M : G2In) (c : Fr)
    (hc : IsCommitment (fun i => (keys i).X) (fun i => (keys i).Y) weights c) :
    TxAccepted .engine ⟨M, c, ∑ i, if bits i = 1 then weights i else 0⟩
      ⟨keys, newG2Affine ⟨0, 0⟩, bits, weights, msgVars msg⟩ := by
  obtain ⟨apk, ha, -, hrot⟩ := c19_engine_partial hk bits weights hb hg
  refine c82_transaction (fun i => (hk i).1) bits weights hb (apk := apk) (by rw [hrot]; exact rfl) ?_ msg M c hc
  have := enc1_Y_ne h0
  rwa [← ha] at this

/-- **Forged transactions, both modes, all ten validators "signing"**: knowing only the public keys of ten validators,
whose secret keys do not sum to a multiple of `r`, anyone can prove that all of them signed any message. -/
theorem c82_all_sign {mode : Mode} {keys : Fin 10 → G1In} (sk : Fin 10 → ℕ)
    (hk : ∀ i, Denotes (keys i) (sk i • G1gen)) (hg : GeneralPosition (fun i => sk i • G1gen) fun _ => True)
    (hsk : ¬ rOrder ∣ ∑ i, sk i) (weights : Fin 10 → Fr) (msg : Vector Fips.Byte 32) (M : G2In) (c : Fr)
    (hc : IsCommitment (fun i => (keys i).X) (fun i => (keys i).Y) weights c) :
    TxAccepted mode ⟨M, c, ∑ i, weights i⟩ ⟨keys, newG2Affine ⟨0, 0⟩, fun _ => 1, weights, msgVars msg⟩ := by
  obtain ⟨apk, ha, -, hrot⟩ := c19_all_sign (mode := mode) hk hg weights
  have h0 : ∑ i, sk i • G1gen ≠ 0 := by
    rw [show ∑ i, sk i • G1gen = (∑ i, sk i) • G1gen from sum_nsmul' sk G1gen]
    exact fun e => hsk (Witness.smul_gen_eq_zero e)
  have := c82_transaction (mode := mode) (fun i => (hk i).1) (fun _ => 1) weights (fun _ => Or.inr rfl) (apk := apk)
    (by rw [hrot]; exact rfl) (by have := enc1_Y_ne h0; rwa [← ha] at this) msg M c hc
  simpa only [if_true] using this

/-- **Rotations**: the same, to any new keys. -/
theorem c82_rotation {mode : Mode} {old new : Fin 10 → G1In} (hf : ∀ i, (new i).Fits) (bits oldW newW : Fin 10 → Fr)
    (hb : ∀ i, bits i = 0 ∨ bits i = 1) {apk : G1Var} (ha : (aggregatePublicKeysRotate mode new bits).sat apk)
    (hY : apk.Y ≠ 0) (msg : Vector Fips.Byte 32) (M : G2In) (c c' tw : Fr)
    (hc : IsCommitment (fun i => (old i).X) (fun i => (old i).Y) oldW c)
    (hc' : IsCommitment (fun i => (new i).X) (fun i => (new i).Y) newW c')
    (htw : tw = ∑ i, open Classical in
      if (bits i = 1 ∧ new i = old i) ∨ (bits i = 0 ∧ old i = ⟨fun _ => 0, fun _ => 0⟩) then oldW i else 0) :
    RotateAccepted mode ⟨M, c, c', msgVars msg, tw⟩ ⟨oldW, newW, old, new, bits, newG2Affine ⟨0, 0⟩⟩ := by
  obtain ⟨bs, hbs⟩ : ∃ bs : Fin 10 → Bool, bits = fun i => bit (bs i) :=
    ⟨fun i => decide (bits i = 1), funext fun i => by rcases hb i with e | e <;> simp [e]⟩
  have hsig := c58_signature ⟨0, 0⟩
  rw [hbs, aggregateRotate_eq mode bs hf] at ha
  refine (rotate_cases _ _ _).2 ⟨bs, hbs, hf, ?_, isCommitment_unique hc (commit_isCommitment old oldW),
    isCommitment_unique hc' (commit_isCommitment new newW), hsig.1, apk, ⟨0, 0⟩, ha, c81_hash_zero msg, ?_⟩
  · dsimp only
    rw [htw]
    refine Finset.sum_congr rfl fun i _ => ?_
    have := counts_iff (old i) (new i) (bs i)
    rw [show bit (bs i) = bits i by rw [hbs]] at this
    by_cases h1 : counts (old i) (new i) (bs i)
    · rw [if_pos h1, if_pos (this.1 h1)]
    · rw [if_neg h1, if_neg fun h2 => h1 (this.2 h2)]
  · dsimp only
    rw [hsig.2]
    exact ⟨(), (pairingCheckStmt _ _).ok _ (check_zero (by rw [g1neg_eq]; exact enc1_Y_ne neg_gen_good) hY)⟩

/-- Forged rotations, both modes: knowing only the old and the new public keys, anyone can prove that all ten
validators of the new set signed. -/
theorem c82_rotation_all_sign {mode : Mode} {old new : Fin 10 → G1In} (sk : Fin 10 → ℕ)
    (hk : ∀ i, Denotes (new i) (sk i • G1gen)) (hg : GeneralPosition (fun i => sk i • G1gen) fun _ => True)
    (hsk : ¬ rOrder ∣ ∑ i, sk i) (oldW newW : Fin 10 → Fr) (msg : Vector Fips.Byte 32) (M : G2In) (c c' : Fr)
    (hc : IsCommitment (fun i => (old i).X) (fun i => (old i).Y) oldW c)
    (hc' : IsCommitment (fun i => (new i).X) (fun i => (new i).Y) newW c') :
    RotateAccepted mode ⟨M, c, c', msgVars msg, ∑ i, open Classical in if new i = old i then oldW i else 0⟩
      ⟨oldW, newW, old, new, fun _ => 1, newG2Affine ⟨0, 0⟩⟩ := by
  obtain ⟨apk, ha, -, hrot⟩ := c19_all_sign (mode := mode) hk hg newW
  have h0 : ∑ i, sk i • G1gen ≠ 0 := by
    rw [show ∑ i, sk i • G1gen = (∑ i, sk i) • G1gen from sum_nsmul' sk G1gen]
    exact fun e => hsk (Witness.smul_gen_eq_zero e)
  refine c82_rotation (mode := mode) (fun i => (hk i).1) (fun _ => 1) oldW newW (fun _ => Or.inr rfl) (apk := apk)
    (by rw [hrot]; exact rfl) (by have := enc1_Y_ne h0; rwa [← ha] at this) msg M c c' _ hc hc' ?_
  refine Finset.sum_congr rfl fun i _ => ?_
  by_cases h : new i = old i <;> simp [h]

/-- A forged rotation of the example keys. -/
example (mode : Mode) (msg : Vector Fips.Byte 32) (M : G2In) :
    RotateAccepted mode ⟨M, commit exKeys fun _ => 100, commit exKeys fun _ => 7, msgVars msg,
        1000⟩
      ⟨fun _ => 100, fun _ => 7, exKeys, exKeys, fun _ => 1, newG2Affine ⟨0, 0⟩⟩ := by
  have := c82_rotation_all_sign (mode := mode) (old := exKeys) (fun i => 2 ^ i.val) exKeys_denote
    (Witness.key_general _) (by decide +kernel) (fun _ => 100) (fun _ => 7) msg M _ _ (commit_isCommitment exKeys _)
    (commit_isCommitment exKeys _)
  norm_num at this
  exact this

/-- **The circuits do not establish that anyone signed**: not every accepted transaction carries the aggregate
signature `(∑ skᵢ)•H` on some non-zero point `H` of order `r` of the twist, even when the keys are honest and in
general position. -/
theorem c82_not_unforgeable (mode : Mode) : ¬ ∀ (pub : TxPublic) (priv : TxPrivate) (sk : Fin 10 → ℕ),
    TxAccepted mode pub priv → (∀ i, Denotes (priv.publicKeys i) (sk i • G1gen)) →
    GeneralPosition (fun i => sk i • G1gen) (fun i => priv.bitList i = 1) →
    ¬ rOrder ∣ secretSum sk (fun i => priv.bitList i = 1) →
    ∃ H : ETwist Fp, H ≠ 0 ∧ rOrder • H = 0 ∧
      priv.signature.val = enc2 (secretSum sk (fun i => priv.bitList i = 1) • H) := by
  intro h
  have hs : secretSum (fun i : Fin 10 => 2 ^ i.val) (fun _ => (1 : Fr) = 1) = ∑ i : Fin 10, 2 ^ i.val := by
    simp [secretSum]
  have hn : ¬ rOrder ∣ (∑ i : Fin 10, 2 ^ i.val) := by decide +kernel
  obtain ⟨H, h0, hr, e⟩ := h _ _ (fun i => 2 ^ i.val)
    (c82_all_sign (mode := mode) (fun i => 2 ^ i.val) exKeys_denote (Witness.key_general _) hn (fun _ => 1) G2.exMsg
      (newG2Affine ⟨0, 0⟩) _ (commit_isCommitment exKeys fun _ => 1))
    exKeys_denote (Witness.key_general _) (by rw [hs]; exact hn)
  dsimp only at e
  rw [(c58_signature _).2, hs] at e
  have hne := smul_ne_of hr h0 hn
  generalize (∑ i : Fin 10, 2 ^ i.val) • H = S at e hne
  rcases S with _ | ⟨a, b, hS⟩
  · exact hne rfl
  · exact twist_x_ne (T := .some a b hS) ⟨hS, rfl⟩ (congrArg G2Affine.X e).symm

end Spark.ForgeryProps
