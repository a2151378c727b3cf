import Verif.Lemmas.MillerProd
import Verif.Lemmas.MillerSteps
import Verif.Math.NatCurve

/-! The table of precomputed lines is the chain of lines of the G2 generator. -/

namespace Spark
open Circ
set_option maxRecDepth 100000

namespace Pairing

/-- Coordinates of the standard generator of G2 (draft-irtf-cfrg-pairing-friendly-curves, 4.2.1). -/
def genN : NC.NPt :=
  ((0x024aa2b2f08f0a91260805272dc51051c6e47ad4fa403b02b4510b647ae3d1770bac0326a805bbefd48056c8c121bdb8,
    0x13e02b6052719f607dacd3a088274f65596bd0d09920b61ab5da61bbdc7f5049334cf11213945d57e5ac7d055d042b7e),
   (0x0ce5d527727d6e118cc9cdc6da2e351aadfd9baa8cbdd3a76d429a695160d12c923ac9cc3baca289e193548608b82801,
    0x0606c4a02ea734cc32acd2b02bc28b99cb3e287e85a763af267492ab572e99ab3f370d275cec1da1aaa9075ff05f79be))

/-- the point denoted by a pair of pairs -/
def g2 (T : NC.NPt) : G2Affine Fp := ⟨NC.e2 T.1, NC.e2 T.2⟩
/-- the line denoted by two pairs -/
def ln (a c : NC.N2) : LineEval Fp := ⟨NC.e2 a, NC.e2 c⟩

open NC in
/-- check a tangent line against the table and double -/
def chkDbl (T : NPt) (a c : N2) : Option NPt :=
  let l := NC.neg a
  let d := NC.mul (2, 0) T.2
  let x := NC.sub (NC.sub (NC.mul l l) T.1) T.1
  if nz d && NC.mul l d == NC.mul (3, 0) (NC.mul T.1 T.1) && c == NC.sub (NC.mul l T.1) T.2
  then some (x, NC.sub (NC.mul l (NC.sub T.1 x)) T.2) else none

open NC in
/-- check the two lines of a double-and-add step -/
def chkDaa (T S : NPt) (a c a' c' : N2) : Option NPt :=
  let l := NC.neg a
  let d := NC.sub T.1 S.1
  let x3 := NC.sub (NC.sub (NC.mul l l) T.1) S.1
  let m := NC.neg a'
  let d' := NC.sub x3 T.1
  let x4 := NC.sub (NC.sub (NC.mul m m) T.1) x3
  if nz d && NC.mul l d == NC.sub T.2 S.2 && c == NC.sub (NC.mul l T.1) T.2 &&
    nz d' && NC.mul (NC.neg (NC.add m l)) d' == NC.mul (2, 0) T.2 && c' == NC.sub (NC.mul m T.1) T.2
  then some (x4, NC.sub (NC.mul m (NC.sub T.1 x4)) T.2) else none

open NC in
/-- check the two lines of a tripling step -/
def chkTriple (T : NPt) (a c a' c' : N2) : Option NPt :=
  let l := NC.neg a
  let d := NC.mul (2, 0) T.2
  let x2 := NC.sub (NC.sub (NC.mul l l) T.1) T.1
  let m := NC.neg a'
  let d' := NC.sub T.1 x2
  let x := NC.sub (NC.mul m m) (NC.add x2 T.1)
  if nz d && NC.mul l d == NC.mul (3, 0) (NC.mul T.1 T.1) && c == NC.sub (NC.mul l T.1) T.2 &&
    nz d' && NC.mul (NC.add m l) d' == d && c' == NC.sub (NC.mul m T.1) T.2
  then some (x, NC.sub (NC.mul m (NC.sub T.1 x)) T.2) else none

theorem div_of {l n d : E2 Fp} (hd : d ≠ 0) (h : l * d = n) : n / d = l := by
  rw [div_eq_iff hd, h]

theorem chkDbl_spec {T R : NC.NPt} {a c : NC.N2} (h : chkDbl T a c = some R) :
    doubleStep (g2 T) = pure (g2 R, ln a c) := by
  simp only [chkDbl] at h
  split at h
  · next hc =>
    simp only [Bool.and_eq_true, beq_iff_eq] at hc
    obtain ⟨⟨h1, h2⟩, rfl⟩ := hc
    obtain rfl := Option.some.inj h
    have h1 := NC.e2_nz h1
    have h2 := congrArg NC.e2 h2
    simp only [NC.e2_mul, NC.e2_neg, NC.e2_two, NC.e2_three] at h1 h2
    simp only [doubleStep, tower, int_three]
    dsimp only [g2]
    rw [Ext2.divUnchecked_eq h1, pure_bind, div_of h1 h2]
    simp only [ln, NC.e2_mul, NC.e2_neg, NC.e2_sub, neg_neg]
  · cases h

theorem tangentCompute_of_doubleStep (p : G2Affine Fp) :
    tangentCompute p = (doubleStep p >>= fun x => pure x.2) := by
  simp only [tangentCompute, doubleStep, bind_assoc, pure_bind]

theorem chkDaa_spec {T S R : NC.NPt} {a c a' c' : NC.N2} (h : chkDaa T S a c a' c' = some R) :
    doubleAndAddStep (g2 T) (g2 S) = pure (g2 R, ln a c, ln a' c') := by
  simp only [chkDaa] at h
  split at h
  · next hc =>
    simp only [Bool.and_eq_true, beq_iff_eq] at hc
    obtain ⟨⟨⟨⟨⟨h1, h2⟩, rfl⟩, h3⟩, h4⟩, rfl⟩ := hc
    obtain rfl := Option.some.inj h
    have h1 := NC.e2_nz h1
    have h3 := NC.e2_nz h3
    have h2 := congrArg NC.e2 h2
    have h4 := congrArg NC.e2 h4
    simp only [NC.e2_mul, NC.e2_neg, NC.e2_sub, NC.e2_add, NC.e2_two] at h1 h2 h3 h4
    simp only [doubleAndAddStep, tower]
    dsimp only [g2]
    rw [Ext2.divUnchecked_eq h1, pure_bind, div_of h1 h2, Ext2.divUnchecked_eq h3, pure_bind,
      div_of h3 h4]
    simp only [ln, NC.e2_mul, NC.e2_neg, NC.e2_sub]
    have e : -(-(-NC.e2 a' + -NC.e2 a) + -NC.e2 a) = -NC.e2 a' := by ring
    simp only [e, neg_neg]
  · cases h

theorem chkTriple_spec {T R : NC.NPt} {a c a' c' : NC.N2} (h : chkTriple T a c a' c' = some R) :
    tripleStep (g2 T) = pure (g2 R, ln a c, ln a' c') := by
  simp only [chkTriple] at h
  split at h
  · next hc =>
    simp only [Bool.and_eq_true, beq_iff_eq] at hc
    obtain ⟨⟨⟨⟨⟨h1, h2⟩, rfl⟩, h3⟩, h4⟩, rfl⟩ := hc
    obtain rfl := Option.some.inj h
    have h1 := NC.e2_nz h1
    have h3 := NC.e2_nz h3
    have h2 := congrArg NC.e2 h2
    have h4 := congrArg NC.e2 h4
    simp only [NC.e2_mul, NC.e2_neg, NC.e2_sub, NC.e2_add, NC.e2_two, NC.e2_three] at h1 h2 h3 h4
    simp only [tripleStep, tower, int_three]
    dsimp only [g2]
    rw [Ext2.divUnchecked_eq h1, pure_bind, div_of h1 h2, Ext2.divUnchecked_eq h3, pure_bind,
      div_of h3 h4]
    simp only [ln, NC.e2_mul, NC.e2_neg, NC.e2_sub, NC.e2_add]
    have e : -NC.e2 a' + -NC.e2 a - -NC.e2 a = -NC.e2 a' := by ring
    simp only [e, neg_neg]
  · cases h

/-- check the lines of iterations `i, …, 0` against the table -/
def chkChain (tab : ℕ → ℕ → Option NC.N2) (gen : NC.NPt) : ℕ → NC.NPt → Bool
  | 0, T =>
    match tab 0 0, tab 1 0 with
    | some a, some c => loopCounter.getD 0 0 == 0 && (chkDbl T a c).isSome
    | _, _ => false
  | i + 1, T =>
    match tab 0 (i + 1), tab 1 (i + 1) with
    | some a, some c =>
      if loopCounter.getD (i + 1) 0 = 0 then
        match chkDbl T a c with
        | some R => chkChain tab gen i R
        | none => false
      else
        match tab 2 (i + 1), tab 3 (i + 1) with
        | some a', some c' =>
          match chkDaa T gen a c a' c' with
          | some R => chkChain tab gen i R
          | none => false
        | _, _ => false
    | _, _ => false

/-- check the whole table -/
def chkTable (tab : ℕ → ℕ → Option NC.N2) (gen : NC.NPt) : Bool :=
  match tab 0 62, tab 1 62, tab 2 62, tab 3 62 with
  | some a, some c, some a', some c' =>
    match chkTriple gen a c a' c' with
    | some R => chkChain tab gen 61 R
    | none => false
  | _, _, _, _ => false

theorem chkTable_true : chkTable precomputedLines genN = true := by decide +kernel

/-- iterations `i, …, 0` of the Miller loop of one pair -/
def tail (i : ℕ) (x : PairState Fp × E12 Fp) : Circ (E12 Fp) :=
  loop1 i x >>= fun x => facLast x.1 >>= fun y => pure (x.2 * x.2 * y.2)

theorem body1pair_tail (s : PairState Fp) :
    body1pair s = (fac62 s >>= fun x => tail 61 x >>= fun z => pure (E12.conj z)) := by
  simp only [body1pair, tail, bind_assoc, pure_bind]

theorem tail_succ (i : ℕ) (x : PairState Fp × E12 Fp) :
    tail (i + 1) x = (facI (i + 1) x.1 >>= fun y => tail i (y.1, x.2 * x.2 * y.2)) := by
  simp only [tail, loop1, bind_assoc]

theorem tail_zero (x : PairState Fp × E12 Fp) :
    tail 0 x = (facLast x.1 >>= fun y => pure (x.2 * x.2 * y.2)) := by
  simp only [tail, loop1, pure_bind]

section
variable {tab : ℕ → ℕ → Option NC.N2} {gen : NC.NPt} (htab : ∀ k i, precomputedLines k i = tab k i)
include htab

theorem precomp_eq {k i : ℕ} {a : NC.N2} (h : tab k i = some a) :
    precomp k i = pure (NC.e2 a) := by
  rw [precomp, htab, h]; rfl

theorem mulPrecomp_eq {k i : ℕ} {a c : NC.N2} (h : tab k i = some a)
    (h' : tab (k + 1) i = some c) (s : PairState Fp) (res : E12 Fp) :
    mulPrecomp k i s.yInv s.xOverY res =
      pure (res * Ext12.sparse014 (evalLine s (ln a c)).R1 (evalLine s (ln a c)).R0) := by
  rw [mulPrecomp, precomp_eq htab h, precomp_eq htab h', pure_bind, pure_bind, Ext12.mulBy014_eq]
  rfl

theorem fixedLoop_tail (i : ℕ) (T : NC.NPt) (hT : chkChain tab gen i T = true) (s : PairState Fp)
    (hQ : s.Q = g2 gen) (hA : s.Qacc = g2 T) (res : E12 Fp) :
    fixedLoop s.yInv s.xOverY (i + 1) res = tail i (s, res) := by
  induction i generalizing T s res with
  | zero =>
    rw [tail_zero]
    simp only [chkChain] at hT
    split at hT
    · next a c ha hc =>
      rw [Bool.and_eq_true, beq_iff_eq] at hT
      obtain ⟨R, hR⟩ := Option.isSome_iff_exists.1 hT.2
      have hs := chkDbl_spec hR
      simp only [fixedLoop, tower]
      rw [mulPrecomp_eq htab ha hc, pure_bind, if_pos hT.1, pure_bind, facLast, hA,
        tangentCompute_of_doubleStep, hs]
      simp only [pure_bind]
    · cases hT
  | succ i ih =>
    rw [tail_succ]
    simp only [chkChain] at hT
    split at hT
    · next a c ha hc =>
      rw [fixedLoop]
      simp only [tower]
      rw [mulPrecomp_eq htab ha hc, pure_bind]
      split at hT
      · next hb =>
        split at hT
        · next R hR =>
          have hs := chkDbl_spec hR
          rw [if_pos hb, pure_bind]
          simp only [facI, if_pos hb]
          rw [fac0, hA, hs]
          simp only [pure_bind]
          exact ih R hT { s with Qacc := g2 R } hQ rfl _
        · cases hT
      · next hb =>
        split at hT
        · next a' c' ha' hc' =>
          split at hT
          · next R hR =>
            have hs := chkDaa_spec hR
            rw [if_neg hb, mulPrecomp_eq htab ha' hc', pure_bind]
            simp only [facI, if_neg hb]
            rw [fac1, hA, hQ, hs]
            simp only [pure_bind]
            rw [mul_assoc]
            exact ih R hT ⟨g2 gen, g2 R, s.yInv, s.xOverY⟩ rfl rfl _
          · cases hT
        · cases hT
    · cases hT

omit htab in
theorem chkTable_spec (h : chkTable tab gen = true) : ∃ a c a' c' R, tab 0 62 = some a ∧
    tab 1 62 = some c ∧ tab 2 62 = some a' ∧ tab 3 62 = some c' ∧
    chkTriple gen a c a' c' = some R ∧ chkChain tab gen 61 R = true := by
  simp only [chkTable] at h
  split at h
  · next a c a' c' h1 h2 h3 h4 =>
    split at h
    · next R hR => exact ⟨a, c, a', c', R, h1, h2, h3, h4, hR, h⟩
    · cases h
  · cases h

/-- the part of the fixed-argument loop after the inversion -/
theorem fixed_eq (h : chkTable tab gen = true) (s : PairState Fp) (hQ : s.Q = g2 gen) (hA : s.Qacc = g2 gen) :
    (mulPrecomp 0 62 s.yInv s.xOverY 1 >>= fun res => mulPrecomp 2 62 s.yInv s.xOverY res >>=
        fun res => fixedLoop s.yInv s.xOverY 62 res) =
      (fac62 s >>= fun x => tail 61 x) := by
  obtain ⟨a, c, a', c', R, h1, h2, h3, h4, hR, hc⟩ := chkTable_spec h
  have hs := chkTriple_spec hR
  rw [mulPrecomp_eq htab h1 h2, pure_bind, mulPrecomp_eq htab h3 h4, pure_bind, one_mul, fac62, hA, hs]
  simp only [pure_bind]
  exact fixedLoop_tail htab 61 R hc { s with Qacc := g2 R } hQ rfl _

theorem millerLoopFixedQ_eq (h : chkTable tab gen = true) (P : G1Affine Fp) :
    millerLoopFixedQ P = miller1 (P, g2 gen) := by
  have hy : ∀ y : Fp, (mulPrecomp 0 62 y (P.X * y) 1 >>= fun res =>
      mulPrecomp 2 62 y (P.X * y) res >>= fun res =>
        fixedLoop y (P.X * y) 62 res >>= fun res => pure (Ext12.conjugate res)) =
      body1pair ⟨g2 gen, g2 gen, y, P.X * y⟩ := fun y => by
    have := fixed_eq htab h ⟨g2 gen, g2 gen, y, P.X * y⟩ rfl rfl
    rw [body1pair_tail, ← bind_assoc (fac62 _), ← this]
    simp only [bind_assoc, tower]
  simp only [millerLoopFixedQ, miller1, initPair, bind_assoc, pure_bind, Ext12.one_eq, hy]

end

theorem mulPrecomp_mul (k i : ℕ) (y x : Fp) (r1 r2 : E12 Fp) :
    mulPrecomp k i y x (r1 * r2) = (mulPrecomp k i y x r2 >>= fun r => pure (r1 * r)) := by
  simp only [mulPrecomp, bind_assoc, pure_bind, Ext12.mulBy014_eq, mul_assoc]

theorem facLast_fac0 (s : PairState Fp) :
    (facLast s >>= fun y => pure y.2) = (fac0 s >>= fun y => pure y.2) := by
  simp only [facLast, fac0, tangentCompute_of_doubleStep, bind_assoc, pure_bind]

theorem swap5 {A B C D E F : Type} (m : Circ A) (n : A → Circ B) (m0 : Circ C) (m2 : C → Circ D)
    (f : D → Circ E) (g : B → E → Circ F) :
    (m0 >>= fun x => m2 x >>= fun y => m >>= fun u => n u >>= fun a => f y >>= fun b => g a b) =
      (m >>= fun u => n u >>= fun a => m0 >>= fun x => m2 x >>= fun y => f y >>= fun b => g a b) := by
  have := bind_comm (m0 >>= m2) (m >>= n) (fun y a => f y >>= g a)
  simpa only [bind_assoc] using this

theorem doubleFixedLoop_eq (y x : Fp) (i : ℕ) (s : PairState Fp) (r1 r2 : E12 Fp) :
    doubleFixedLoop y x (i + 1) s (r1 * r2) =
      (tail i (s, r1) >>= fun a => fixedLoop y x (i + 1) r2 >>= fun b => pure (a * b)) := by
  induction i generalizing s r1 r2 with
  | zero =>
    have hb : loopCounter.getD 0 0 = 0 := rfl
    rw [tail_zero, doubleFixedLoop]
    simp only [if_pos hb, doubleFixedLoop, fixedLoop, tower, factors0 s, bind_assoc, pure_bind]
    rw [mul_mul_mul_comm]
    simp only [mulPrecomp_mul, bind_assoc, pure_bind]
    rw [bind_comm (facLast s)]
    congr 1; funext u
    have := congrArg (fun m => m >>= fun z => (pure (r1 * r1 * z * (r2 * u)) : Circ (E12 Fp)))
      (facLast_fac0 s)
    rw [bind_assoc, bind_assoc] at this
    simp only [pure_bind] at this
    rw [this]
    have e : ∀ z : E12 Fp, r1 * r1 * (r2 * u) * z = r1 * r1 * z * (r2 * u) :=
      fun z => mul_right_comm _ _ _
    simp only [e]
  | succ i ih =>
    rw [tail_succ, doubleFixedLoop, fixedLoop]
    split
    · next hb =>
      simp only [if_pos hb, facI, tower, factors0 s, bind_assoc, pure_bind]
      rw [mul_mul_mul_comm]
      simp only [mulPrecomp_mul, bind_assoc, pure_bind]
      rw [bind_comm]
      congr 1; funext u
      have : ∀ z : E12 Fp, r1 * r1 * z * u.2 = r1 * r1 * u.2 * z := fun z => mul_right_comm _ _ _
      simp only [this, ih]
      rw [bind_comm]
    · next hb =>
      simp only [if_neg hb, facI, tower, factors1 s, bind_assoc, pure_bind]
      rw [mul_mul_mul_comm]
      simp only [mulPrecomp_mul, bind_assoc, pure_bind]
      have : ∀ z u : E12 Fp, r1 * r1 * z * u = r1 * r1 * u * z := fun z u => mul_right_comm _ _ _
      simp only [this, ih]
      exact swap5 _ _ _ _ _ _

theorem doubleMillerLoopFixedQ_eq' {gen : NC.NPt}
    (h : ∀ P : G1Affine Fp, millerLoopFixedQ P = miller1 (P, g2 gen)) (P T : G1Affine Fp)
    (Q : G2Affine Fp) :
    doubleMillerLoopFixedQ P T Q =
      (miller1 (P, Q) >>= fun a => miller1 (T, g2 gen) >>= fun b => pure (a * b)) := by
  rw [← h]
  simp only [doubleMillerLoopFixedQ, millerLoopFixedQ, miller1, initPair, body1pair_tail,
    body62first_eq, bind_assoc, pure_bind]
  congr 1; funext y
  rw [← bind_assoc (fac62 _), bind_comm (fac62 _ >>= _)]
  congr 1; funext y2
  rw [bind_assoc]
  congr 1; funext s
  have e : s.2 = s.2 * 1 := (mul_one _).symm
  rw [e, mulPrecomp_mul, bind_assoc]
  simp only [pure_bind, mulPrecomp_mul _ _ _ _ s.2, bind_assoc, doubleFixedLoop_eq, tower]
  have := bind_comm (mulPrecomp 0 62 y2 (T.X * y2) 1 >>= fun x => mulPrecomp 2 62 y2 (T.X * y2) x)
    (tail 61 s) (fun x a => fixedLoop y2 (T.X * y2) 62 x >>= fun x => pure (a.conj * x.conj))
  simp only [bind_assoc] at this
  simp only [E12.conj_mul]
  exact this

/-- the fixed generator -/
theorem millerLoopFixedQ_gen (P : G1Affine Fp) : millerLoopFixedQ P = miller1 (P, g2 genN) :=
  millerLoopFixedQ_eq (fun _ _ => rfl) chkTable_true P

theorem doubleMillerLoopFixedQ_gen (P T : G1Affine Fp) (Q : G2Affine Fp) :
    doubleMillerLoopFixedQ P T Q =
      (miller1 (P, Q) >>= fun a => miller1 (T, g2 genN) >>= fun b => pure (a * b)) :=
  doubleMillerLoopFixedQ_eq' millerLoopFixedQ_gen P T Q

end Pairing
end Spark
