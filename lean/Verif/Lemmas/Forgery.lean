import Verif.Lemmas.HashEval
import Verif.Math.NatJac
import Verif.Data.ForgeWitness

/-! A run of `HashToG2` that ends in `(0, 0)`: evaluators for the code in which the prover chooses the answers of
the zero and equality tests and the slopes left free by `0/0`, with proofs that what they accept is an
assignment of the circuit. -/

namespace Spark.G2
set_option maxRecDepth 100000
set_option exponentiation.threshold 10000
open NC NJ Circ Spec

/-- the Jacobian triple as field elements -/
def jc (T : NJac) : G2Jacobian Fp := ⟨e2 T.1, e2 T.2.1, e2 T.2.2⟩
/-- the affine pair as field elements -/
def ac (T : NPt) : G2Affine Fp := ⟨e2 T.1, e2 T.2⟩

/-- the formula of `G2JacobianDouble` -/
def nDbl (T : NJac) : NJac :=
  let a := mul T.1 T.1
  let b := mul T.2.1 T.2.1
  let d := mul (4, 0) (mul T.1 b)
  let e := mul (3, 0) a
  let x := sub (mul e e) (add d d)
  (x, sub (mul e (sub d x)) (mul (8, 0) (mul b b)), mul (2, 0) (mul T.2.1 T.2.2))

theorem nDbl_spec (T : NJac) : jc (nDbl T) = jacDouble (jc T) := by
  ext1 <;> simp only [jc, nDbl, jacDouble, tower, e2_mul, e2_add, e2_sub, e2_two, e2_three, e2_four, e2_eight] <;>
    ring

/-- `U1, U2, S1, S2` -/
def nUS (p a : NJac) : N2 × N2 × N2 × N2 :=
  let zp := mul p.2.2 p.2.2
  let za := mul a.2.2 a.2.2
  (mul a.1 zp, mul p.1 za, mul (mul a.2.1 p.2.2) zp, mul (mul p.2.1 a.2.2) za)

theorem nUS_spec (p a : NJac) : jacAddUS (jc p) (jc a) =
    (e2 (nUS p a).1, e2 (nUS p a).2.1, e2 (nUS p a).2.2.1, e2 (nUS p a).2.2.2) := by
  simp only [jc, nUS, jacAddUS, tower, e2_mul]

/-- the generic formula of `G2JacobianAddAssign` -/
def nGen (p a : NJac) : NJac :=
  let us := nUS p a
  let h := sub us.2.1 us.1
  let i := mul (4, 0) (mul h h)
  let j := mul h i
  let r := mul (2, 0) (sub us.2.2.2 us.2.2.1)
  let v := mul us.1 i
  let x := sub (sub (mul r r) j) (add v v)
  (x, sub (mul (sub v x) r) (mul (2, 0) (mul us.2.2.1 j)), mul (mul (2, 0) (mul p.2.2 a.2.2)) h)

theorem nGen_spec (p a : NJac) : jc (nGen p a) = addChoice (jc p) (jc a) true true true := by
  rw [addChoice, if_pos rfl, if_pos rfl, if_pos rfl, nUS_spec]
  ext1 <;> simp only [jc, nGen, jacAddGeneric, tower, e2_mul, e2_add, e2_sub, e2_two, e2_four] <;> ring

/-- the element has a second representative below `2^381` -/
def nFit (x : N2) : Bool :=
  decide (x.1 % fpOrder + fpOrder < 2 ^ 381) || decide (x.2 % fpOrder + fpOrder < 2 ^ 381)

theorem val_e2' (x : N2) : (e2 x).A1.val = x.2 % fpOrder := ZMod.val_natCast _ _

theorem e2NotEqual_fit (x : N2) {y : E2 Fp} (h : nFit x = true) : (e2NotEqual (e2 x) y).sat 1 := by
  by_cases hxy : e2 x = y
  · subst hxy
    refine e2NotEqual_cheat ?_
    simpa only [nFit, Bool.or_eq_true, decide_eq_true_eq, val_e2, val_e2'] using h
  · rw [(e2NotEqual_test _ _).eq_one hxy]; exact rfl

theorem e2NotZero_one (x : E2 Fp) : (e2NotZero x).sat 1 := by
  by_cases h : x = 0
  · subst h; exact e2NotZero_cheat
  · rw [(e2NotZero_test _).eq_one h]; exact rfl

/-- the prover can answer that the two points are different -/
def nNe (p a : NJac) : Bool :=
  let us := nUS p a
  nz (sub us.1 us.2.1) || nFit us.1 || nz (sub us.2.2.1 us.2.2.2) || nFit us.2.2.1

theorem nNe_spec {p a : NJac} (h : nNe p a = true) : (neCirc (jc p) (jc a)).sat 1 := by
  rw [neCirc, nUS_spec]
  refine (e2NotEqual_test _ _).or_cheat (e2NotEqual_test _ _) ?_
  simp only [nNe, Bool.or_eq_true] at h
  have key : ∀ x y : N2, nz (sub x y) = true → (e2NotEqual (e2 x) (e2 y)).sat 1 := by
    intro x y hxy
    have := e2_nz hxy
    rw [e2_sub, sub_ne_zero] at this
    rw [(e2NotEqual_test _ _).eq_one this]; exact rfl
  rcases h with ((h | h) | h) | h
  · exact Or.inl (key _ _ h)
  · exact Or.inl (e2NotEqual_fit _ h)
  · exact Or.inr (key _ _ h)
  · exact Or.inr (e2NotEqual_fit _ h)

/-- `G2JacobianAddAssign`: with `inf`, the first point is (honestly) infinity; otherwise the prover answers that
neither point is infinity and that they differ -/
def nAdd (inf : Bool) (p a : NJac) : Option NJac :=
  if inf then (if nz p.2.2 then none else some a) else (if nNe p a then some (nGen p a) else none)

theorem e2_nnz {x : N2} (h : nz x = false) : e2 x = 0 := by
  simp only [nz, Bool.or_eq_false_iff, bne_eq_false_iff_eq] at h
  ext
  · show (x.1 : Fp) = 0
    rw [ZMod.natCast_eq_zero_iff]; exact Nat.dvd_of_mod_eq_zero h.1
  · show (x.2 : Fp) = 0
    rw [ZMod.natCast_eq_zero_iff]; exact Nat.dvd_of_mod_eq_zero h.2

theorem nAdd_spec {inf : Bool} {p a r : NJac} (h : nAdd inf p a = some r) :
    (jacAdd (jc p) (jc a)).sat (jc r) := by
  classical
  rw [nAdd] at h
  split at h
  · split at h
    · cases h
    · next hz =>
      obtain rfl := Option.some.inj h
      have hz : (jc p).Z = 0 := e2_nnz (by simpa using hz)
      have := (jacAdd _ _).ok _ (jacAdd_run (jc p) (jc a))
      rwa [hz, decide_eq_false (not_not.2 rfl), addChoice, if_neg Bool.false_ne_true] at this
  · split at h
    · next hn =>
      obtain rfl := Option.some.inj h
      rw [nGen_spec]
      exact jacAdd_sat_of (pz := true) (az := true) (ne := true) (e2NotZero_one _) (e2NotZero_one _) (nNe_spec hn)
    · cases h

/-- one iteration of `G2JacobianConstScalarMul`; `f j` tells how the prover answers in iteration `j` -/
def nStep (f : ℕ → Bool) (t0 t1 res : NJac) (j : ℕ) : Option NJac :=
  let res := nDbl (nDbl res)
  if j = 1 then nAdd (f j) res t0
  else if j = 3 then nAdd (f j) res t1
  else if j = 7 then nAdd (f j) res t0
  else if j = 23 then nAdd (f j) res t0
  else some res

theorem nStep_spec {f : ℕ → Bool} {t0 t1 res r : NJac} {j : ℕ} (h : nStep f t0 t1 res j = some r) :
    (scalarStep (jc t0) (jc t1) (jc res) j).sat (jc r) := by
  simp only [scalarStep, ← nDbl_spec]
  simp only [nStep] at h
  split
  · next hj => rw [if_pos hj] at h; exact nAdd_spec h
  · next hj =>
    rw [if_neg hj] at h
    split
    · next hj => rw [if_pos hj] at h; exact nAdd_spec h
    · next hj =>
      rw [if_neg hj] at h
      split
      · next hj => rw [if_pos hj] at h; exact nAdd_spec h
      · next hj =>
        rw [if_neg hj] at h
        split
        · next hj => rw [if_pos hj] at h; exact nAdd_spec h
        · next hj =>
          rw [if_neg hj] at h
          obtain rfl := Option.some.inj h
          exact rfl

/-- the loop of `G2JacobianConstScalarMul` -/
def nLoop (f : ℕ → Bool) (t0 t1 : NJac) : List ℕ → NJac → Option NJac
  | [], res => some res
  | j :: js, res => match nStep f t0 t1 res j with
    | none => none
    | some res => nLoop f t0 t1 js res

theorem nLoop_spec {f : ℕ → Bool} {t0 t1 r : NJac} : ∀ (l : List ℕ) {res : NJac},
    nLoop f t0 t1 l res = some r →
    (l.foldlM (scalarStep (jc t0) (jc t1)) (jc res)).sat (jc r)
  | [], res, h => by obtain rfl := Option.some.inj h; exact rfl
  | j :: js, res, h => by
    rw [nLoop] at h
    split at h
    · cases h
    · next r' hr =>
      rw [List.foldlM_cons]
      exact ⟨_, nStep_spec hr, nLoop_spec js h⟩

/-- `G2JacobianConstScalarMul` -/
def nMul (f : ℕ → Bool) (a : NJac) : Option NJac :=
  match nAdd false (nDbl a) a with
  | none => none
  | some res => nLoop f a (nDbl a) (List.range' 1 31) res

theorem nMul_spec {f : ℕ → Bool} {a r : NJac} (h : nMul f a = some r) : (constScalarMul (jc a)).sat (jc r) := by
  rw [nMul] at h
  split at h
  · cases h
  · next res hr =>
    have h1 := nAdd_spec hr
    have h2 := nLoop_spec _ h
    rw [nDbl_spec] at h1 h2
    exact ⟨_, h1, h2⟩

/-- `G2JacobianNeg` -/
def nNegJ (T : NJac) : NJac := (T.1, neg T.2.1, T.2.2)
theorem nNegJ_spec (T : NJac) : jc (nNegJ T) = jacNeg (jc T) := by
  simp only [jc, nNegJ, jacNeg, tower, e2_neg]

/-- `FromJac` (checked) -/
def nAff (T : NJac) : Option NPt :=
  let i := inv T.2.2
  let z2 := mul T.2.2 T.2.2
  let x := mul T.1 (mul i i)
  let y := mul T.2.1 (mul i (mul i i))
  if nz T.2.2 && (mul x z2 == mul T.1 (1, 0)) && (mul y (mul z2 T.2.2) == mul T.2.1 (1, 0)) then some (x, y) else none

theorem nAff_spec {T : NJac} {R : NPt} (h : nAff T = some R) : affFromJac (jc T) = pure (ac R) := by
  simp only [nAff] at h
  split at h
  · next hc =>
    simp only [Bool.and_eq_true, beq_iff_eq] at hc
    obtain ⟨⟨h0, h1⟩, h2⟩ := hc
    obtain rfl := Option.some.inj h
    have hz := e2_nz h0
    have h1 := congrArg e2 h1
    have h2 := congrArg e2 h2
    rw [e2_mul _ (1, 0), n1_spec, mul_one, e2_mul _ (mul _ _), e2_mul T.2.2] at h1
    rw [e2_mul _ (1, 0), n1_spec, mul_one, e2_mul _ (mul _ _), e2_mul (mul _ _), e2_mul T.2.2] at h2
    rw [affFromJac_ne (j := jc T) hz, ac]
    simp only [jc]
    congr 2
    · rw [div_eq_iff (pow_ne_zero 2 hz)]; exact h1.symm.trans (by ring)
    · rw [div_eq_iff (pow_ne_zero 3 hz)]; exact h2.symm.trans (by ring)
  · cases h

/-- `G2AddAssign` with the slope `l` (checked) -/
def nChord (l : N2) (p q : NPt) : Option NPt :=
  if mul l (sub q.1 p.1) == mul (sub q.2 p.2) (1, 0) then
    let x := sub (sub (mul l l) p.1) q.1
    some (x, sub (mul l (sub p.1 x)) p.2)
  else none

theorem nChord_spec {l : N2} {p q r : NPt} (h : nChord l p q = some r) : (affAdd (ac p) (ac q)).sat (ac r) := by
  simp only [nChord] at h
  split at h
  · next hc =>
    obtain rfl := Option.some.inj h
    have hc := congrArg e2 (beq_iff_eq.1 hc)
    rw [e2_mul _ (1, 0), n1_spec, mul_one, e2_mul, e2_sub, e2_sub] at hc
    rw [affAdd_eq]
    refine ⟨e2 l, (Ext2.sat_divUnchecked _ _ _).2 hc, ?_⟩
    show _ = _
    simp only [chord, ac, e2_sub, e2_mul, pow_two]
  · cases h

/-- the honest slope -/
def nSlope (p q : NPt) : N2 := mul (sub q.2 p.2) (inv (sub q.1 p.1))

theorem ac_neg (T : NPt) : ac (negP T) = ⟨(ac T).X, Ext2.neg (ac T).Y⟩ := by
  simp only [ac, negP, tower, e2_neg]

theorem nSub_spec {l : N2} {p q r : NPt} (h : nChord l p (negP q) = some r) :
    (affSub (ac p) (ac q)).sat (ac r) := by
  have := nChord_spec h
  rwa [ac_neg] at this

theorem ac_psi (T : NPt) : ac (psiP T) = affPsi (ac T) := by
  simp only [ac, psiP, affPsi, tower, e2_mul, e2_conj, psiU_e2, psiV_e2]

/-- `G2Double` (checked) -/
def nDblA (p : NPt) : Option NPt :=
  let l := mul (mul (3, 0) (mul p.1 p.1)) (inv (mul (2, 0) p.2))
  if mul l (mul (2, 0) p.2) == mul (3, 0) (mul p.1 p.1) then
    let x := sub (sub (mul l l) p.1) p.1
    some (x, sub (mul l (sub p.1 x)) p.2)
  else none

theorem nDblA_spec {p r : NPt} (h : nDblA p = some r) : (affDouble (ac p)).sat (ac r) := by
  simp only [nDblA] at h
  split at h
  · next hc =>
    obtain rfl := Option.some.inj h
    have hc := congrArg e2 (beq_iff_eq.1 hc)
    generalize mul (mul (3, 0) (mul p.1 p.1)) (inv (mul (2, 0) p.2)) = l at hc
    rw [e2_mul l, e2_mul (2, 0), e2_mul (3, 0), e2_mul p.1, e2_two, e2_three] at hc
    rw [affDouble_eq]
    refine ⟨e2 l, (Ext2.sat_divUnchecked _ _ _).2 (by simpa only [ac, pow_two] using hc), ?_⟩
    show _ = _
    simp only [tangent, ac, e2_sub, e2_mul, pow_two]
  · cases h

/-- the constant of hashG2.go:656 -/
def thirdN : N2 := (4002409555221667392624310435006688643935503118305586438271171395842971157480381377015405980053539358417135540939436, 0)

theorem third_e2 : e2 thirdN = E2.of thirdRootOneG1 := by decide +kernel

/-- `G2ClearCofactor` with the free choices of the prover (`f`, `g`: answers in the two scalar multiplications,
`l2`, `lp`: slopes of the two subtractions of `a`) -/
def nClear (f g : ℕ → Bool) (l2 lp : N2) (a : NPt) : Option NPt := do
  let jxg ← nMul f (a.1, a.2, (1, 0))
  let jxxg ← nMul g (nNegJ jxg)
  let xg ← nAff (nNegJ jxg)
  let xxg ← nAff (nNegJ jxxg)
  let r1 ← nChord (nSlope xxg (negP xg)) xxg (negP xg)
  let r2 ← nChord l2 r1 (negP a)
  let t ← nChord lp xg (negP a)
  let r3 ← nChord (nSlope r2 (psiP t)) r2 (psiP t)
  let d ← nDblA a
  let w : NPt := (mul d.1 thirdN, d.2)
  if nz a.1 then nChord (nSlope r3 (negP w)) r3 (negP w) else none

theorem nClear_spec {f g : ℕ → Bool} {l2 lp : N2} {a r : NPt} (h : nClear f g l2 lp a = some r) :
    (clearCofactorAff (ac a)).sat (ac r) := by
  simp only [nClear, Option.bind_eq_bind, Option.bind_eq_some_iff] at h
  obtain ⟨j1, h1, j2, h2, xg, h3, xxg, h4, r1, h5, r2, h6, t, h7, r3, h8, d, h9, h10⟩ := h
  split at h10
  · next hx =>
    have m1 := nMul_spec h1
    have m2 := nMul_spec h2
    have a3 := nAff_spec h3
    have a4 := nAff_spec h4
    rw [nNegJ_spec] at m2 a3 a4
    have s5 := nSub_spec h5
    have s6 := nSub_spec h6
    have s7 := nSub_spec h7
    have s8 := nChord_spec h8
    rw [ac_psi] at s8
    have s9 := nDblA_spec h9
    have s10 := nSub_spec h10
    have e0 : jacFromAff (ac a) = pure (jc (a.1, a.2, (1, 0))) := by
      rw [jacFromAff_ne (Or.inl (e2_nz hx))]; rfl
    have ew : ac (mul d.1 thirdN, d.2) = ⟨Ext2.mulByElement (ac d).X thirdRootOneG1, (ac d).Y⟩ := by
      simp only [ac, e2_mul, third_e2, Ext2.mulByElement_eq]
    rw [ew] at s10
    rw [clearCofactorAff, e0, pure_bind]
    refine ⟨_, m1, _, m2, ?_⟩
    refine ⟨ac xg, by rw [a3]; exact rfl, ac xxg, by rw [a4]; exact rfl, ?_⟩
    exact ⟨_, s5, _, s6, _, s7, _, s8, _, s9, s10⟩
  · cases h10

/-- the answers in the first scalar multiplication: honest infinity in iteration 7 -/
def fgF (j : ℕ) : Bool := j == 7
/-- the answers in the second one: honest infinity in iteration 23 -/
def fgG (j : ℕ) : Bool := j == 23

/-- the whole run after `HashToField` -/
def nForge : Option NPt :=
  if swuCheck fgU fgY then do
    let q ← nIso (nX fgU fgY) fgY
    let s ← nChord fgLam q q
    nClear fgF fgG fgL2 fgLp s
  else none

theorem nForge_zero : nForge.map (fun T => (nz T.1, nz T.2)) = some (false, false) := by decide +kernel

/-- The prover can make `HashToG2` return `(0, 0)`. -/
theorem hashTail_zero : ∃ us : List (E2 Fp), us.length = 2 ∧ (hashTail us).sat ⟨0, 0⟩ := by
  have h := nForge_zero
  rw [Option.map_eq_some_iff] at h
  obtain ⟨T, hT, hz⟩ := h
  rw [nForge] at hT
  split at hT
  · next hs =>
    simp only [Option.bind_eq_bind, Option.bind_eq_some_iff] at hT
    obtain ⟨q, hq, s, hss, hc⟩ := hT
    obtain ⟨e1, e2'⟩ := nIso_spec hq
    obtain ⟨x, y, Q, hr, hcs, hi, -⟩ := mapIso_honest (swuCheck_spec hs).1
    obtain ⟨rfl, rfl⟩ := codeSswu_unique hs hcs
    have hm := (mapElementToCurve2 _).ok _ hr
    rw [e1, e2'] at hi
    have hT0 : ac T = ⟨0, 0⟩ := by
      rw [Prod.mk.injEq] at hz
      rw [ac, e2_nnz hz.1, e2_nnz hz.2]
    have ha := nChord_spec hss
    have hcl := nClear_spec hc
    rw [hT0] at hcl
    have hi' : (g2Isogeny ⟨e2 (nX fgU fgY), e2 fgY⟩).sat (ac q) := by rw [hi]; exact rfl
    refine ⟨[e2 fgU, e2 fgU], rfl, ?_⟩
    rw [hashTail, nth_zero, nth_one, pure_bind]
    refine ⟨_, hm, ?_⟩
    refine ⟨e2 fgU, rfl, ?_⟩
    refine ⟨_, hm, _, hi', _, hi', _, ha, _, hcl, 0, ?_, 0, ?_, rfl⟩
    · rw [e2Reduce_eq]; exact rfl
    · rw [e2Reduce_eq]; exact rfl
  · cases hT

end Spark.G2
