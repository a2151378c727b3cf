import Verif.Lemmas.Generators

/-!
# Properties C38-C43: the Miller loop and the pairings

Specification: `Verif/Spec/Pairing.lean` - Mathlib's elliptic-curve group law on
`E : y² = x³ + 4` (`E1`), `E' : y² = x³ + 4(1+u)` (`ETwist`), lines, verticals, Miller's recursion
and the reduced ate pairing `ate P Q = f_{u,Q}(P)^((p¹²-1)/r)`.
`Pt P x y` says that `P` is the affine point `(x, y)`.
-/

namespace Spark.PairingProps
open Spark Circ Spec Pairing FinalExpProps
set_option maxRecDepth 100000

/-! ## C38 -/

section
variable {K : Type} [Field K] [TowerField K] [DecidableEq K] {b : E2 K} {T S : (sw b).Point}
  {p q : G2Affine K}

/-- A `lineEvaluation` denotes the line `y + R0·x + R1 = 0`; it is the line through `T` and `S`. -/
def IsLine (l : LineEval K) (T S : (sw b).Point) : Prop :=
  ∀ x y : E2 K, y + l.R0 * x + l.R1 = lineVal T S x y

theorem isLine_of {l : E2 K} (h : Slope T S l p.X p.Y) : IsLine (lineOf l p) T S := fun x y => by
  rw [h.lineVal, lineOf]; ring

/-- `tangentCompute`: the tangent line. -/
theorem c38_tangentCompute (hT : Pt T p.X p.Y) (h2 : T + T ≠ 0) :
    ∃ l, tangentCompute p = pure l ∧ IsLine l T T :=
  ⟨_, tangentCompute_eq hT h2, isLine_of (tangent_slope hT h2)⟩

/-- `doubleStep`: the point `2T` and the tangent line. -/
theorem c38_doubleStep (hT : Pt T p.X p.Y) (h2 : T + T ≠ 0) :
    ∃ p' l, doubleStep p = pure (p', l) ∧ Pt (T + T) p'.X p'.Y ∧ IsLine l T T := by
  obtain ⟨p', h, e⟩ := doubleStep_eq hT h2
  exact ⟨p', _, e, h, isLine_of (tangent_slope hT h2)⟩

/-- `addStep`: the point `T + S` and the chord. -/
theorem c38_addStep (hT : Pt T p.X p.Y) (hS : Pt S q.X q.Y) (h1 : T ≠ S) (h2 : T + S ≠ 0) :
    ∃ p' l, addStep p q = pure (p', l) ∧ Pt (T + S) p'.X p'.Y ∧ IsLine l T S := by
  obtain ⟨p', l, h, hl, e⟩ := addStep_eq hT hS h1 h2
  exact ⟨p', _, e, h, isLine_of hl⟩

/-- `doubleAndAddStep`: the point `2T + S`, the chord through `T, S` and the chord through
`T, T + S`. -/
theorem c38_doubleAndAddStep (hT : Pt T p.X p.Y) (hS : Pt S q.X q.Y) (h1 : T ≠ S)
    (h2 : T + S ≠ 0) (h3 : 2 • T + S ≠ 0) :
    ∃ p' l m, doubleAndAddStep p q = pure (p', l, m) ∧ Pt (2 • T + S) p'.X p'.Y ∧
      IsLine l T S ∧ IsLine m T (T + S) := by
  have e : 2 • T + S = T + S + T := by rw [two_nsmul]; abel
  rw [e] at h3 ⊢
  obtain ⟨p', l, m, h, hl, hm, e⟩ := doubleAndAddStep_eq hT hS h1 h2 hS.ne_zero h3
  exact ⟨p', _, _, e, h, isLine_of hl, isLine_of hm⟩

/-- `tripleStep`: the point `3T`, the tangent at `T` and the chord through `T, 2T`. -/
theorem c38_tripleStep (hT : Pt T p.X p.Y) (h2 : 2 • T ≠ 0) (h3 : 3 • T ≠ 0) :
    ∃ p' l m, tripleStep p = pure (p', l, m) ∧ Pt (3 • T) p'.X p'.Y ∧
      IsLine l T T ∧ IsLine m T (2 • T) := by
  have e : 3 • T = T + T + T := by rw [succ_nsmul, two_nsmul]
  rw [e] at h3 ⊢
  rw [two_nsmul] at h2 ⊢
  obtain ⟨p', l, m, h, hl, hm, e⟩ := tripleStep_eq hT h2 h3
  exact ⟨p', _, _, e, h, isLine_of hl, isLine_of hm⟩

end

/-- General position is met, for instance, by the G2 generator `Q` and `2Q`, `3Q`. -/
example : ∃ (T S : ETwist Fp) (p q : G2Affine Fp), Pt T p.X p.Y ∧ Pt S q.X q.Y ∧ T ≠ S ∧ T + S ≠ 0 ∧
    2 • T + S ≠ 0 ∧ 2 • T ≠ 0 ∧ 3 • T ≠ 0 := by
  have hm : ∀ m, 0 < m → m ≤ 10 → m • G2gen ≠ 0 := fun m h1 h2 =>
    small_smul_ne G2gen_ne G2gen_order h1 (h2.trans (by decide))
  obtain ⟨x, y, h⟩ := Pt.exists_of_ne (hm 2 (by omega) (by omega))
  refine ⟨2 • G2gen, G2gen, ⟨x, y⟩, g2 genN, h, ⟨_, rfl⟩, ?_, ?_, ?_, ?_, ?_⟩
  · intro e
    refine hm 1 (by omega) (by omega) ?_
    rw [two_nsmul] at e
    rw [one_nsmul]
    exact add_left_cancel (e.trans (add_zero _).symm)
  · have := hm 3 (by omega) (by omega); rwa [succ_nsmul] at this
  · have := hm 5 (by omega) (by omega)
    rw [← mul_nsmul']; rwa [succ_nsmul] at this
  · have := hm 4 (by omega) (by omega); rwa [← mul_nsmul']
  · have := hm 6 (by omega) (by omega); rwa [← mul_nsmul']

/-! ## C39 -/

section
variable {K : Type} [Field K] [TowerField K] [DecidableEq K]

/-- Every output of the `n`-pair Miller loop is a product of outputs of the one-pair loops, and
conversely; the honest solver computes the product of what it computes for each pair.
Arbitrary inputs, including points not on the curve. -/
theorem c39_product (P : List (G1Affine K)) (Q : List (G2Affine K)) (h0 : P ≠ [])
    (h : P.length = Q.length) :
    ∃ c, millerLoop P Q = .ok c ∧ ∃ f : G1Affine K → G2Affine K → Circ (E12 K),
      (∀ p q, millerLoop [p] [q] = .ok (f p q)) ∧
      (∀ z, c.sat z ↔ ∃ zs : List (E12 K),
        List.Forall₂ (fun x z => (f x.1 x.2).sat z) (P.zip Q) zs ∧ z = zs.prod) ∧
      (∀ zs : List (E12 K), List.Forall₂ (fun x z => (f x.1 x.2).run = some z) (P.zip Q) zs →
        c.run = some zs.prod) := by
  refine ⟨_, millerLoop_eq h0 h, fun p q => miller1 (p, q), fun p q => millerLoop_one p q,
    fun z => ?_, fun zs hzs => ?_⟩
  · rw [sat_bind]
    simp only [sat_mapC, sat_pure]
  · have : (mapC miller1 (P.zip Q)).run = some zs := by
      clear h h0
      generalize P.zip Q = L at hzs
      induction hzs with
      | nil => rfl
      | cons h1 _ ih => simp only [mapC, run_bind, ih, run_pure]; simp [h1]
    rw [run_bind, this]; rfl

end

/-! ## C42 -/

/-- The size test. -/
def BadSizes (P : List (G1Affine Fp)) (Q : List (G2Affine Fp)) : Prop :=
  P = [] ∨ P.length ≠ Q.length

theorem c42_millerLoop (P : List (G1Affine Fp)) (Q : List (G2Affine Fp)) :
    (∃ err, millerLoop P Q = .error err) ↔ BadSizes P Q := by
  simp only [millerLoop, BadSizes, List.length_eq_zero_iff]
  split
  · next h => exact ⟨fun _ => h, fun _ => ⟨_, rfl⟩⟩
  · next h => exact ⟨fun ⟨_, e⟩ => (by cases e), fun h' => absurd h' h⟩

theorem c42_pair (P : List (G1Affine Fp)) (Q : List (G2Affine Fp)) :
    (∃ err, pair P Q = .error err) ↔ BadSizes P Q := by
  rw [← c42_millerLoop, pair]
  rcases millerLoop P Q with e | c
  · exact ⟨fun _ => ⟨_, rfl⟩, fun _ => ⟨_, rfl⟩⟩
  · exact ⟨fun ⟨_, e⟩ => (by cases e), fun ⟨_, e⟩ => (by cases e)⟩

theorem c42_pairingCheck (P : List (G1Affine Fp)) (Q : List (G2Affine Fp)) :
    (∃ err, pairingCheck P Q = .error err) ↔ BadSizes P Q := by
  rw [← c42_pair, pairingCheck]
  rcases pair P Q with e | c
  · exact ⟨fun _ => ⟨_, rfl⟩, fun _ => ⟨_, rfl⟩⟩
  · exact ⟨fun ⟨_, e⟩ => (by cases e), fun ⟨_, e⟩ => (by cases e)⟩

example (p : G1Affine Fp) (q : G2Affine Fp) : BadSizes [p] [q, q] ∧ ¬ BadSizes [p, p] [q, q] := by
  simp [BadSizes]

/-! ## C41 -/

/-- The standard generator of G2 (draft-irtf-cfrg-pairing-friendly-curves, 4.2.1). -/
def g2Gen : G2Affine Fp :=
  ⟨⟨0x024aa2b2f08f0a91260805272dc51051c6e47ad4fa403b02b4510b647ae3d1770bac0326a805bbefd48056c8c121bdb8,
    0x13e02b6052719f607dacd3a088274f65596bd0d09920b61ab5da61bbdc7f5049334cf11213945d57e5ac7d055d042b7e⟩,
   ⟨0x0ce5d527727d6e118cc9cdc6da2e351aadfd9baa8cbdd3a76d429a695160d12c923ac9cc3baca289e193548608b82801,
    0x0606c4a02ea734cc32acd2b02bc28b99cb3e287e85a763af267492ab572e99ab3f370d275cec1da1aaa9075ff05f79be⟩⟩

theorem g2Gen_eq : g2 genN = g2Gen := by
  simp only [g2, genN, NC.e2, toE2, g2Gen, Nat.cast_ofNat]

/-- `MillerLoopFixedQ` is `MillerLoop` with the generator (for all inputs, as circuits: same honest
value, same reachable values). -/
theorem c41_millerLoop (P : G1Affine Fp) : millerLoop [P] [g2Gen] = .ok (millerLoopFixedQ P) := by
  rw [millerLoop_one, millerLoopFixedQ_gen, g2Gen_eq]

theorem millerLoop_two (P T : G1Affine Fp) (Q R : G2Affine Fp) :
    millerLoop [P, T] [Q, R] =
      .ok (miller1 (P, Q) >>= fun a => miller1 (T, R) >>= fun b => pure (a * b)) := by
  rw [millerLoop_eq (by simp) rfl]
  congr 1
  simp only [List.zip_cons_cons, List.zip_nil_left, mapC, bind_assoc, pure_bind, List.prod_cons,
    List.prod_nil, mul_one]

theorem c41_doubleMillerLoop (P T : G1Affine Fp) (Q : G2Affine Fp) :
    millerLoop [P, T] [Q, g2Gen] = .ok (doubleMillerLoopFixedQ P T Q) := by
  rw [millerLoop_two, doubleMillerLoopFixedQ_gen, g2Gen_eq]

theorem c41_pair (P : G1Affine Fp) : pair [P] [g2Gen] = .ok (pairFixedQ P) := by
  rw [pair, c41_millerLoop]; rfl

theorem c41_doublePair (P T : G1Affine Fp) (Q : G2Affine Fp) :
    pair [P, T] [Q, g2Gen] = .ok (doublePairFixedQ P T Q) := by
  rw [pair, c41_doubleMillerLoop]; rfl

/-! ## C40 -/

/-- Coordinates of a point of `E(Fp)` (the code represents infinity by (0,0)). -/
def enc1 : E1 Fp → G1Affine Fp
  | .zero => ⟨0, 0⟩
  | .some x y _ => ⟨x, y⟩

/-- Coordinates of a point of `E'(Fp2)`. -/
def enc2 : ETwist Fp → G2Affine Fp
  | .zero => ⟨0, 0⟩
  | .some x y _ => ⟨x, y⟩

/-- The inputs a caller is supposed to use: a non-zero point of `E(Fp)` and a non-zero point of
order `r` of the twist. -/
def GoodPair (x : E1 Fp × ETwist Fp) : Prop := x.1 ≠ 0 ∧ x.2 ≠ 0 ∧ rOrder • x.2 = 0

/-- The standard generators are such inputs. -/
theorem goodPair_gen : GoodPair (G1gen, G2gen) := ⟨G1gen_ne, G2gen_ne, G2gen_order⟩

/-- `∏ e(Pᵢ, Qᵢ)` -/
noncomputable def ateProd (L : List (E1 Fp × ETwist Fp)) : E12 Fp := (L.map fun x => ate x.1 x.2).prod

theorem ate_eq (P : E1 Fp) (Q : ETwist Fp) : ate P Q = millerAte P Q ^ ateExp := by
  rw [ate, ateExp_def]

theorem miller_good {x : E1 Fp × ETwist Fp} (h : GoodPair x) :
    ∃ z, miller1 (enc1 x.1, enc2 x.2) = pure z ∧ z ≠ 0 ∧ z ^ ateExp = ate x.1 x.2 := by
  obtain ⟨P, Q⟩ := x
  obtain ⟨h1, h2, h3⟩ := h
  dsimp only at h1 h2 h3
  rcases P with _ | ⟨a, b, hP⟩
  · exact absurd rfl h1
  rcases hQ : Q with _ | ⟨c, d, hQ'⟩
  · exact absurd hQ h2
  have hPt : Pt (b := 4) (.some a b hP) a b := ⟨hP, rfl⟩
  have hg : Good a b Q (enc2 Q) :=
    ⟨e1_y_ne hPt, hPt.eqn, by rw [hQ]; exact ⟨hQ', rfl⟩, fun m hm hm' => small_smul_ne h2 h3 hm hm'⟩
  obtain ⟨z, k, e, hz, hk, hv⟩ := miller1_eq hg
  refine ⟨z, ?_, hz, ?_⟩
  · rw [← hQ]; exact e
  · rw [hv, mul_pow, hk.2, one_mul, ate_eq, ← hQ]; rfl

theorem miller_good_list (L : List (E1 Fp × ETwist Fp)) (h : ∀ x ∈ L, GoodPair x) :
    ∃ zs, mapC miller1 ((L.map fun x => enc1 x.1).zip (L.map fun x => enc2 x.2)) = pure zs ∧
      zs.prod ≠ 0 ∧ zs.prod ^ ateExp = ateProd L := by
  induction L with
  | nil => exact ⟨[], rfl, by simp, by simp [ateProd]⟩
  | cons x L ih =>
    obtain ⟨z, e, hz, hv⟩ := miller_good (h x List.mem_cons_self)
    obtain ⟨zs, es, hzs, hvs⟩ := ih fun y hy => h y (List.mem_cons_of_mem _ hy)
    refine ⟨z :: zs, ?_, ?_, ?_⟩
    · simp only [List.map_cons, List.zip_cons_cons, mapC, e, es, pure_bind]
    · rw [List.prod_cons]; exact mul_ne_zero hz hzs
    · rw [List.prod_cons, mul_pow, hv, hvs, ateProd, ateProd, List.map_cons, List.prod_cons]

theorem fullExponent_eq : fullExponent = ateExp * 3 := by rw [fullExponent, ateExp_def, mul_comm]

theorem finalExp_sound (u : Bool) {z : E12 Fp} (hz : z ≠ 0) {out e' : E12 Fp}
    (h : (finalExponentiation z u).sat (out, e')) : out = (z ^ ateExp) ^ 3 := by
  rw [← pow_mul, ← fullExponent_eq]
  cases u
  · exact c35_safe_sound z hz out e' h
  · exact c35_unsafe_sound z hz out e' h

theorem finalExp_exact (u : Bool) {z : E12 Fp} (hz : z ≠ 0) (h : z ^ ateExp ≠ 1) :
    finalExponentiation z u = pure ((z ^ ateExp) ^ 3, z) := by
  rw [← pow_mul, ← fullExponent_eq]
  rw [ateExp_def] at h
  cases u
  · exact (c35_exact z hz h).1
  · exact (c35_exact z hz h).2

theorem pair_eq (L : List (E1 Fp × ETwist Fp)) (h0 : L ≠ []) (h : ∀ x ∈ L, GoodPair x) :
    ∃ z, z ≠ 0 ∧ z ^ ateExp = ateProd L ∧
      pair (L.map fun x => enc1 x.1) (L.map fun x => enc2 x.2) =
        .ok (finalExponentiation z (L.length == 1) >>= fun r => pure r.1) := by
  obtain ⟨zs, e, hz, hv⟩ := miller_good_list L h
  refine ⟨zs.prod, hz, hv, ?_⟩
  rw [pair, millerLoop_eq (by simpa using h0) (by simp), e]
  simp only [pure_bind, List.length_map]

/-- `Pair` returns the cube of the product of the reduced ate pairings, whatever the prover does:
`(∏ f_{u,Qᵢ}(Pᵢ))^(3(p¹²-1)/r)`. -/
theorem c40_pair_sound (L : List (E1 Fp × ETwist Fp)) (h0 : L ≠ []) (h : ∀ x ∈ L, GoodPair x) :
    ∃ c, pair (L.map fun x => enc1 x.1) (L.map fun x => enc2 x.2) = .ok c ∧
      ∀ out, c.sat out → out = ateProd L ^ 3 := by
  obtain ⟨z, hz, hv, e⟩ := pair_eq L h0 h
  refine ⟨_, e, fun out ho => ?_⟩
  obtain ⟨⟨o, e'⟩, h1, h2⟩ := ho
  rw [sat_pure] at h2
  subst h2
  rw [← hv]
  exact finalExp_sound _ hz h1

/-- ... and unless that product is 1 the honest prover succeeds. -/
theorem c40_pair_exact (L : List (E1 Fp × ETwist Fp)) (h0 : L ≠ []) (h : ∀ x ∈ L, GoodPair x)
    (h1 : ateProd L ≠ 1) :
    pair (L.map fun x => enc1 x.1) (L.map fun x => enc2 x.2) = .ok (pure (ateProd L ^ 3)) := by
  obtain ⟨z, hz, hv, e⟩ := pair_eq L h0 h
  rw [e, finalExp_exact _ hz (by rwa [hv]), pure_bind, hv]

/-- A single non-degenerate pairing. -/
theorem c40_single (P : E1 Fp) (Q : ETwist Fp) (h : GoodPair (P, Q)) (h1 : ate P Q ≠ 1) :
    pair [enc1 P] [enc2 Q] = .ok (pure (ate P Q ^ 3)) := by
  have := c40_pair_exact [(P, Q)] (by simp) (by simpa using h) (by simpa [ateProd] using h1)
  simpa [ateProd] using this

/-- A point with `y = 0` - in particular (0,0), the code's representation of infinity - makes every
pairing unsatisfiable. -/
theorem c40_infinity_G1 (P : List (G1Affine Fp)) (Q : List (G2Affine Fp)) (h : P.length = Q.length)
    (p : G1Affine Fp) (hp : p ∈ P) (hy : p.Y = 0) : millerLoop P Q = .ok fail ∧ pair P Q = .ok fail := by
  have h0 : P ≠ [] := List.ne_nil_of_mem hp
  have hm : millerLoop P Q = .ok fail := by
    rw [millerLoop_eq h0 h]
    congr 1
    refine eq_fail fun z hz => ?_
    obtain ⟨zs, hzs, -⟩ := hz
    rw [sat_mapC] at hzs
    obtain ⟨q, hq⟩ : ∃ q, (p, q) ∈ P.zip Q := by
      clear hzs
      induction P generalizing Q with
      | nil => cases hp
      | cons a P ih =>
        cases Q with
        | nil => simp at h
        | cons b Q =>
          rcases List.mem_cons.1 hp with rfl | hp'
          · exact ⟨b, by simp⟩
          · obtain ⟨q, hq⟩ := ih Q (by simpa using h) hp' (List.ne_nil_of_mem hp')
            exact ⟨q, by simp [hq]⟩
    obtain ⟨z', -, hz'⟩ := forall₂_left hzs hq
    obtain ⟨s, hs, -⟩ := hz'
    obtain ⟨i, hi, -⟩ := hs
    rw [hy, fpInverse_zero] at hi
    exact hi
  refine ⟨hm, ?_⟩
  rw [pair, hm]
  simp only [fail_bind]

/-! ## C43 -/

theorem pow_three_eq_one {a : E12 Fp} (hr : a ^ rOrder = 1) (h3 : a ^ 3 = 1) : a = 1 := by
  have h1 := orderOf_dvd_of_pow_eq_one hr
  have h2 := orderOf_dvd_of_pow_eq_one h3
  have : orderOf a ∣ 1 := by
    have hc : Nat.gcd rOrder 3 = 1 := by decide +kernel
    rw [← hc]; exact Nat.dvd_gcd h1 h2
  exact orderOf_eq_one_iff.1 (Nat.dvd_one.1 this)

theorem order_r {z : E12 Fp} (hz : z ≠ 0) : (z ^ ateExp) ^ rOrder = 1 := by
  have hf : (z ^ fpOrder ^ 6) ^ fpOrder ^ 6 = z := by rw [E12.frob6, E12.frob6, E12.conj_conj]
  rw [← pow_mul] at hf ⊢
  have e : ateExp * rOrder = fpOrder ^ 6 * fpOrder ^ 6 - 1 := by rw [ateExp_def]; decide +kernel
  rw [e]
  exact Killed.sub_one_aux hz (by decide +kernel) (by rw [hf, one_mul])

theorem check_of_pair {P : List (G1Affine Fp)} {Q : List (G2Affine Fp)} {c : Circ (E12 Fp)}
    (h : pair P Q = .ok c) : pairingCheck P Q = .ok (c >>= fun f => assert (f = 1)) := by
  rw [pairingCheck, h]
  simp only [tower]

/-- Arbitrary inputs (any coordinates, on the curve or not), any prover: if the check accepts then
some value `z` of the Miller loop on these inputs has `z^((p¹²-1)/r) = 1`. -/
theorem c43_sound_general (P : List (G1Affine Fp)) (Q : List (G2Affine Fp)) (c : Circ Unit)
    (hc : pairingCheck P Q = .ok c) (hs : c.Satisfiable) :
    ∃ m z, millerLoop P Q = .ok m ∧ m.sat z ∧ z ≠ 0 ∧ z ^ ((fpOrder ^ 12 - 1) / rOrder) = 1 := by
  rcases hm : millerLoop P Q with e | m
  · simp only [pairingCheck, pair, hm] at hc; cases hc
  have hp : pair P Q = .ok (m >>= fun z => finalExponentiation z (P.length == 1) >>= fun r => pure r.1) := by
    rw [pair, hm]
  rw [check_of_pair hp] at hc
  obtain rfl := Except.ok.inj hc
  obtain ⟨u, f, ⟨z, hz, ⟨o, e'⟩, ho, hf⟩, ha⟩ := hs
  rw [sat_pure] at hf
  subst hf
  rw [sat_assert] at ha
  have hz0 := millerLoop_ne hm hz
  refine ⟨m, z, rfl, hz, hz0, ?_⟩
  have h3 := finalExp_sound _ hz0 ho
  rw [← ateExp_def]
  exact pow_three_eq_one (order_r hz0) (by rw [← h3]; exact ha)

/-- If `PairingCheck` accepts points of the right groups, the product of the reduced ate pairings
is 1. -/
theorem c43_sound (L : List (E1 Fp × ETwist Fp)) (h : ∀ x ∈ L, GoodPair x) (c : Circ Unit)
    (hc : pairingCheck (L.map fun x => enc1 x.1) (L.map fun x => enc2 x.2) = .ok c)
    (hs : c.Satisfiable) : ateProd L = 1 := by
  have h0 : L ≠ [] := by rintro rfl; cases hc
  obtain ⟨z, hz, hv, e⟩ := pair_eq L h0 h
  rw [check_of_pair e] at hc
  obtain rfl := Except.ok.inj hc
  obtain ⟨u, f, ⟨⟨o, e'⟩, ho, hf⟩, ha⟩ := hs
  rw [sat_pure] at hf
  subst hf
  rw [sat_assert] at ha
  have h3 := finalExp_sound _ hz ho
  rw [← hv]
  exact pow_three_eq_one (order_r hz) (by rw [← h3]; exact ha)

/-- Conversely, when the product is 1 (two or more pairs) the check is satisfiable exactly when the
final exponentiation's torus arithmetic meets no exceptional case on the Miller value `z`, and then
the honest prover succeeds. -/
theorem c43_complete (L : List (E1 Fp × ETwist Fp)) (h2 : 2 ≤ L.length) (h : ∀ x ∈ L, GoodPair x)
    (h1 : ateProd L = 1) :
    ∃ m z c, millerLoop (L.map fun x => enc1 x.1) (L.map fun x => enc2 x.2) = .ok m ∧ m = pure z ∧
      pairingCheck (L.map fun x => enc1 x.1) (L.map fun x => enc2 x.2) = .ok c ∧
      (c.Satisfiable ↔ (finalExp z).Satisfiable) ∧ ((finalExp z).Satisfiable → c = pure ()) := by
  have h0 : L ≠ [] := by rintro rfl; simp at h2
  obtain ⟨zs, e, hz, hv⟩ := miller_good_list L h
  have hm : millerLoop (L.map fun x => enc1 x.1) (L.map fun x => enc2 x.2) = .ok (pure zs.prod) := by
    rw [millerLoop_eq (by simpa using h0) (by simp), e, pure_bind]
  have hl : (L.length == 1) = false := by
    rw [beq_eq_false_iff_ne]; omega
  have hp : pair (L.map fun x => enc1 x.1) (L.map fun x => enc2 x.2) =
      .ok (finalExp zs.prod >>= fun r => pure r.1) := by
    rw [pair, hm]
    simp only [pure_bind, List.length_map, hl]
    rfl
  have hkey : (finalExp zs.prod).Satisfiable →
      (finalExp zs.prod >>= fun r => pure r.1 >>= fun f => assert (f = 1)) = pure () := by
    intro hs
    by_cases hC : zs.prod.C1 = 0
    · obtain ⟨⟨o, e'⟩, ho⟩ := hs
      rw [finalExp_eq, Torus.safe_zero hC] at *
      rw [Torus.chk_pure (sat_chk.1 ho).1, pure_bind, pure_bind, assert_true rfl]
    · rw [c35_safe_exact_of_satisfiable _ hC hs, pure_bind, pure_bind, assert_true]
      rw [fullExponent_eq, pow_mul, hv, h1, one_pow]
  refine ⟨_, _, _, hm, rfl, check_of_pair hp, ⟨?_, ?_⟩, ?_⟩
  · rintro ⟨-, f, ⟨r, hr, -⟩, -⟩; exact ⟨r, hr⟩
  · intro hs
    rw [bind_assoc, hkey hs]; exact ⟨(), rfl⟩
  · intro hs
    rw [bind_assoc, hkey hs]

/-- the value the safe final exponentiation works on -/
noncomputable def safeInput (z : E12 Fp) : E12 Fp := open Classical in if z.C1 = 0 then ⟨z.C0, 1⟩ else z

/-- The safe final exponentiation fails exactly on the values whose easy part is 1. -/
theorem finalExp_satisfiable (z : E12 Fp) :
    (finalExp z).Satisfiable ↔ safeInput z ^ ((fpOrder ^ 6 - 1) * (fpOrder ^ 2 + 1)) ≠ 1 := by
  by_cases h : z.C1 = 0
  · rw [safeInput, if_pos h]
    refine ⟨fun hs h1 => ?_, fun h1 => ?_⟩
    · rw [(c36_safe_subfield_all z h).2 h1] at hs
      obtain ⟨_, ha⟩ := hs
      exact ha
    · rw [(c36_safe_subfield_all z h).1 h1]; exact ⟨_, rfl⟩
  · rw [safeInput, if_neg h]
    refine ⟨fun hs h1 => ?_, fun h1 => ?_⟩
    · rw [(c35_safe_all z h).2 h1] at hs
      obtain ⟨_, ha⟩ := hs
      exact ha
    · rw [(c35_safe_all z h).1 h1]; exact ⟨_, rfl⟩

/-- Completeness with the exception made explicit: when the product is 1, the check is passed by the honest prover
unless the easy part `(p⁶-1)(p²+1)` of the Miller value is already 1, in which case nobody can pass it. -/
theorem c43_complete_easy (L : List (E1 Fp × ETwist Fp)) (h2 : 2 ≤ L.length) (h : ∀ x ∈ L, GoodPair x)
    (h1 : ateProd L = 1) :
    ∃ z c, millerLoop (L.map fun x => enc1 x.1) (L.map fun x => enc2 x.2) = .ok (pure z) ∧
      pairingCheck (L.map fun x => enc1 x.1) (L.map fun x => enc2 x.2) = .ok c ∧
      (safeInput z ^ ((fpOrder ^ 6 - 1) * (fpOrder ^ 2 + 1)) ≠ 1 → c = pure ()) ∧
      (safeInput z ^ ((fpOrder ^ 6 - 1) * (fpOrder ^ 2 + 1)) = 1 → c = fail) := by
  obtain ⟨m, z, c, hm, rfl, hc, hs, hp⟩ := c43_complete L h2 h h1
  refine ⟨z, c, hm, hc, fun e => hp ((finalExp_satisfiable z).2 e), fun e => ?_⟩
  refine eq_fail fun a ha => ?_
  exact (finalExp_satisfiable z).1 (hs.1 ⟨a, ha⟩) e

/-- One pair: the unsafe final exponentiation can never return 1, so the check is unsatisfiable for
every input. -/
theorem c43_single_unsatisfiable (P : G1Affine Fp) (Q : G2Affine Fp) :
    pairingCheck [P] [Q] = .ok fail := by
  have hp : pair [P] [Q] = .ok (miller1 (P, Q) >>= fun z => finalExpUnsafe z >>= fun r => pure r.1) := by
    rw [pair, millerLoop_one]; rfl
  rw [check_of_pair hp]
  congr 1
  refine eq_fail fun _ ha => ?_
  obtain ⟨f, ⟨z, hz, ⟨o, e'⟩, ho, hf⟩, ha⟩ := ha
  rw [sat_pure] at hf
  subst hf
  rw [sat_assert] at ha
  have hz0 := miller1_ne hz
  by_cases hC : z.C1 = 0
  · rw [Torus.unsafe_fail hC hz0] at ho; exact ho
  · have hne := ho
    rw [Torus.unsafe_eq hC, sat_chk] at hne
    obtain ⟨h1, h2⟩ := hne
    exact h1 _ (List.mem_append.2 (Or.inr List.mem_cons_self)) ((Prod.ext_iff.1 h2).1.symm.trans ha)

end Spark.PairingProps
