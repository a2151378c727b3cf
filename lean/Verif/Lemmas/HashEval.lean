import Verif.Lemmas.Sha256Test
import Verif.Props.HashG2

/-! Evaluators for concrete cases of `HashToG2` in the kernel, with proofs that what they accept is true
of the specification. -/

namespace Spark.Fips

/-- `blocks` with fuel -/
def blocksF : ℕ → List Byte → List (List Byte)
  | 0, _ => []
  | n+1, m => if 64 ≤ m.length then m.take 64 :: blocksF n (m.drop 64) else []

theorem blocksF_eq : ∀ (n : ℕ) (m : List Byte), m.length < 64 * (n + 1) → blocksF n m = blocks m := by
  intro n
  induction n with
  | zero =>
    intro m h
    rw [blocks, if_neg (by omega)]; rfl
  | succ n ih =>
    intro m h
    rw [blocks, blocksF]
    split
    · rw [ih _ (by rw [List.length_drop]; omega)]
    · rfl

/-- one compression with a precomputed schedule -/
def compressT (s : Vars) (B : List Byte) : Vars :=
  let T := wTab B 64
  let v := roundsT T s 64
  { a := v.a + s.a, b := v.b + s.b, c := v.c + s.c, d := v.d + s.d, e := v.e + s.e, f := v.f + s.f,
    g := v.g + s.g, h := v.h + s.h }

theorem compressT_eq (s : Vars) (B : List Byte) : compressT s B = compress s B := by
  simp only [compressT, compress, roundsT_eq _ _ 64 le_rfl]

/-- SHA-256 of at most `64 * n + 63` padded bytes -/
def sha256T (n : ℕ) (m : List Byte) : List Byte :=
  let H := (blocksF n (pad m)).foldl compressT initVars
  [H.a, H.b, H.c, H.d, H.e, H.f, H.g, H.h].flatMap fun w => beBytes 4 w.toNat

theorem sha256T_eq (n : ℕ) (m : List Byte) (h : (pad m).length < 64 * (n + 1)) :
    sha256T n m = sha256 m := by
  have hc : compressT = compress := by funext s B; exact compressT_eq s B
  simp only [sha256T, sha256, blocksF_eq n _ h, hc]

end Spark.Fips

namespace Spark.G2
set_option maxRecDepth 100000
set_option exponentiation.threshold 10000
open NC Circ Spec

/-- Horner evaluation -/
def hev (l : List N2) (x : N2) : N2 := l.foldr (fun c acc => add c (mul x acc)) (0, 0)

theorem hev_spec (l : List N2) (x : N2) : e2 (hev l x) = pev l (e2 x) := by
  induction l with
  | nil => exact e2_zero
  | cons c l ih =>
    rw [pev_cons, ← ih, ← e2_mul, ← e2_add]; rfl

/-- `Z` -/
def nZ : N2 := (fpOrder - 2, fpOrder - 1)
theorem nZ_spec : e2 nZ = Rfc.Z := by decide +kernel
theorem nA_spec : e2 (0, 240) = Rfc.isoA := by decide +kernel
theorem nB_spec : e2 (1012, 1012) = Rfc.isoB := by decide +kernel
theorem n1_spec : e2 (1, 0) = 1 := by rfl

/-- `Z·u²` -/
def nZu (u : N2) : N2 := mul nZ (mul u u)
/-- `Z²u⁴ + Zu²` -/
def nDen (u : N2) : N2 := add (mul (nZu u) (nZu u)) (nZu u)

theorem nZu_spec (u : N2) : e2 (nZu u) = Rfc.Z * e2 u ^ 2 := by
  rw [nZu, e2_mul, e2_mul, nZ_spec, pow_two]
theorem nDen_spec (u : N2) : e2 (nDen u) = Rfc.den (e2 u) := by
  rw [nDen, e2_add, e2_mul, nZu_spec, Rfc.den]; ring

/-- the first candidate abscissa (its correctness is checked at each use) -/
def nX1 (u : N2) : N2 := mul (neg (mul (1012, 1012) (inv (0, 240)))) (add (1, 0) (inv (nDen u)))

/-- the abscissa selected by the ordinate `y` -/
def nX (u y : N2) : N2 := if mul y y == hev pG (nX1 u) then nX1 u else mul (nZu u) (nX1 u)

/-- `(nX u y, y)` is the SWU point of `u` -/
def swuCheck (u y : N2) : Bool :=
  nz (nDen u) &&
  (mul (mul (nX1 u) (0, 240)) (nDen u) == neg (mul (1012, 1012) (add (nDen u) (1, 0)))) &&
  (mul y y == hev pG (nX u y)) && (y.1 % fpOrder != 0) && (y.1 % fpOrder % 2 == u.1 % fpOrder % 2)

theorem val_e2 (x : N2) : (e2 x).A0.val = x.1 % fpOrder := ZMod.val_natCast _ _

theorem x1_of_check {u x : E2 Fp} (hd : Rfc.den u ≠ 0)
    (h : x * Rfc.isoA * Rfc.den u = -(Rfc.isoB * (Rfc.den u + 1))) : Rfc.x1 u = x := by
  have hA := isoA_ne
  have : Rfc.isoA * Rfc.den u ≠ 0 := mul_ne_zero hA hd
  apply mul_left_cancel₀ this
  rw [Rfc.x1, if_neg hd]
  field_simp
  linear_combination -h

theorem sswuX_first {u y : E2 Fp} (h : y ^ 2 = Rfc.g (Rfc.x1 u)) : Rfc.sswuX u = Rfc.x1 u := by
  rw [Rfc.sswuX, if_pos ⟨y, by rw [← h, pow_two]⟩]

theorem sswuX_second {u y : E2 Fp} (hd : Rfc.den u ≠ 0) (h : y ^ 2 = Rfc.g (Rfc.x2 u)) :
    Rfc.sswuX u = Rfc.x2 u := by
  rw [Rfc.sswuX, if_neg]
  rintro ⟨s, hs⟩
  rw [gx2_eq hd, hs] at h
  have hu : u ≠ 0 := by rintro rfl; exact hd (by simp [Rfc.den])
  have hs0 : s ≠ 0 := by
    rintro rfl
    exact g_ne_zero (Rfc.x1 u) (by rw [hs, zero_mul])
  apply Z_not_sq
  have hZ := Z_ne
  refine ⟨y / (Rfc.Z * u ^ 3 * s), ?_⟩
  field_simp
  linear_combination -h

theorem swuCheck_spec {u y : N2} (h : swuCheck u y = true) : Rfc.den (e2 u) ≠ 0 ∧
    e2 (nX u y) = Rfc.sswuX (e2 u) ∧ e2 y ^ 2 = Rfc.g (e2 (nX u y)) ∧ (e2 y).A0 ≠ 0 ∧
    (e2 y).A0.val.testBit 0 = (e2 u).A0.val.testBit 0 := by
  simp only [swuCheck, Bool.and_eq_true, beq_iff_eq, bne_iff_ne] at h
  obtain ⟨⟨⟨⟨h1, h2⟩, h3⟩, h4⟩, h5⟩ := h
  have hd : Rfc.den (e2 u) ≠ 0 := by rw [← nDen_spec]; exact e2_nz h1
  have hx1 : Rfc.x1 (e2 u) = e2 (nX1 u) := by
    have := congrArg e2 h2
    simp only [e2_mul, e2_neg, e2_add, nDen_spec, nA_spec, nB_spec, n1_spec] at this
    exact x1_of_check hd this
  have hy : e2 y ^ 2 = Rfc.g (e2 (nX u y)) := by
    rw [g_pev, ← hev_spec, ← h3, e2_mul, pow_two]
  have hX : e2 (nX u y) = Rfc.sswuX (e2 u) := by
    rw [nX] at hy ⊢
    split at hy
    · next hc =>
      rw [if_pos hc, sswuX_first (y := e2 y) (by rw [hx1]; exact hy), hx1]
    · next hc =>
      have e : e2 (mul (nZu u) (nX1 u)) = Rfc.x2 (e2 u) := by
        rw [e2_mul, nZu_spec, Rfc.x2, hx1]
      rw [if_neg hc, e, sswuX_second (y := e2 y) hd (by rw [← e]; exact hy)]
  refine ⟨hd, hX, hy, ?_, ?_⟩
  · intro h0
    have := val_e2 y
    rw [h0, ZMod.val_zero] at this
    exact h4 this.symm
  · rw [val_e2, val_e2, Nat.testBit_zero, Nat.testBit_zero, h5]

/-- the ordinate is determined -/
theorem codeSswu_unique {u y : N2} (h : swuCheck u y = true) {x' y' : E2 Fp} (hc : CodeSswu (e2 u) x' y') :
    x' = e2 (nX u y) ∧ y' = e2 y := by
  obtain ⟨hd, hX, hy, h0, hs⟩ := swuCheck_spec h
  obtain ⟨hx', hy', hs'⟩ := hc
  have ex : x' = e2 (nX u y) := by rw [hx', hX]
  refine ⟨ex, ?_⟩
  rw [ex, ← hy] at hy'
  rcases sq_eq_sq_iff_eq_or_eq_neg.1 hy' with e | e
  · exact e
  · exfalso
    have hne : (-(e2 y).A0) ≠ 0 := neg_ne_zero.2 h0
    have : y'.A0 = -(e2 y).A0 := by rw [e]; rfl
    have h2 := hs' (by rw [this]; exact hne)
    rw [← hs, this, parity_neg h0] at h2
    simp at h2

theorem codeSswu_of {u y : N2} (h : swuCheck u y = true) : CodeSswu (e2 u) (e2 (nX u y)) (e2 y) := by
  obtain ⟨hd, hX, hy, h0, hs⟩ := swuCheck_spec h
  exact ⟨hX, hy, fun _ => hs⟩

theorem noTie_of {u y : N2} (h : swuCheck u y = true) (hu : u.1 % fpOrder ≠ 0) :
    HashProps.NoSignTie (e2 u) := by
  obtain ⟨hd, hX, hy, h0, hs⟩ := swuCheck_spec h
  refine ⟨fun e => hu ?_, fun y' hy' => ?_⟩
  · rw [← val_e2, e, ZMod.val_zero]
  · rw [← hX, ← hy] at hy'
    rcases sq_eq_sq_iff_eq_or_eq_neg.1 hy' with e | e
    · rw [e]; exact h0
    · rw [e]; exact neg_ne_zero.2 h0

/-- the isogeny (checked) -/
def nIso (x y : N2) : Option NPt :=
  let X := mul (hev pXNum x) (inv (hev pXDen x))
  let Y := mul (mul y (hev pYNum x)) (inv (hev pYDen x))
  if nz (hev pXDen x) && nz (hev pYDen x) && (mul X (hev pXDen x) == hev pXNum x) &&
    (mul Y (hev pYDen x) == mul y (hev pYNum x)) then some (X, Y) else none

theorem nIso_spec {x y : N2} {T : NPt} (h : nIso x y = some T) :
    Rfc.isoMapX (e2 x) = e2 T.1 ∧ Rfc.isoMapY (e2 x) (e2 y) = e2 T.2 := by
  simp only [nIso] at h
  split at h
  · next hc =>
    simp only [Bool.and_eq_true, beq_iff_eq] at hc
    obtain ⟨⟨⟨h1, h2⟩, h3⟩, h4⟩ := hc
    obtain rfl := Option.some.inj h
    have e1 := e2_nz h1
    have e2' := e2_nz h2
    have e3 := congrArg e2 h3
    have e4 := congrArg e2 h4
    rw [e2_mul] at e3
    rw [e2_mul, e2_mul y] at e4
    simp only [hev_spec, xden_rfc, yden_rfc, xnum_rfc, ynum_rfc] at e1 e2' e3 e4 ⊢
    constructor
    · rw [Rfc.isoMapX, div_eq_iff e1]; exact e3.symm
    · rw [Rfc.isoMapY, div_eq_iff e2']; exact e4.symm
  · cases h

/-- the negative of a point -/
def negP (T : NPt) : NPt := (T.1, neg T.2)
/-- `ψ` of a point -/
def psiP (T : NPt) : NPt := (mul (T.1.1, (neg T.1).2) psiUN, mul (T.2.1, (neg T.2).2) psiVN)

variable {P Q : ETwist Fp} {T S R : NPt}

theorem negP_spec (h : IsPt P T) : IsPt (-P) (negP T) :=
  (Pt.neg h).congr rfl (e2_neg _).symm
theorem psiP_spec (h : IsPt P T) : IsPt (psiHom P) (psiP T) := by
  refine (psiHom_pt h).congr ?_ ?_
  · rw [psiP, e2_mul, e2_conj, psiU_e2]
  · rw [psiP, e2_mul, e2_conj, psiV_e2]

theorem addP_ne (h : IsPt P T) (h' : IsPt Q S) (hd : addP T S = some R) : P ≠ Q ∧ P ≠ -Q := by
  simp only [addP] at hd
  split at hd
  · next hc =>
    rw [Bool.and_eq_true] at hc
    have h1 := e2_nz hc.1
    rw [e2_sub] at h1
    have hne := sub_ne_zero.1 h1
    constructor
    · rintro rfl; exact hne (Pt.unique h h').1
    · intro e; exact hne (Pt.unique h (e ▸ Pt.neg h')).1
  · cases hd

/-- the Budroni-Pintore formula (checked) -/
def nCof (T : NPt) : Option NPt := do
  let D ← dbl T
  let S ← smulAux T absSeed 63 T
  let SS ← smulAux S absSeed 63 S
  let U ← addP SS S
  let A ← addP U (negP T)
  let S1 ← addP S T
  let C ← addP A (psiP (negP S1))
  addP C (psiP (psiP D))

theorem nCof_spec (h : IsPt P T) (hc : nCof T = some R) :
    CurveProps.AffineDefined psiHom P ∧ IsPt (bp P) R := by
  simp only [nCof, Option.bind_eq_bind, Option.bind_eq_some_iff] at hc
  obtain ⟨D, hD, S, hS, SS, hSS, U, hU, A, hA, S1, hS1, C, hC, hR⟩ := hc
  have hk : bitsVal absSeed 63 1 = absSeed := by decide +kernel
  have pD := dbl_spec h hD
  have pS := smul_spec h absSeed 63 hS hk
  have pSS := smul_spec pS absSeed 63 hSS hk
  have pU := add_spec pSS pS hU
  have pA := add_spec pU (negP_spec h) hA
  have pS1 := add_spec pS h hS1
  have pB := psiP_spec (negP_spec pS1)
  have pC := add_spec pA pB hC
  have pE := psiP_spec (psiP_spec pD)
  have pR := add_spec pC pE hR
  have n1 := addP_ne pSS pS hU
  have n2 := addP_ne pU (negP_spec h) hA
  have n3 := addP_ne pS h hS1
  have n4 := addP_ne pA pB hC
  have n5 := addP_ne pC pE hR
  have eS : seed • P = -(absSeed • P) := by rw [seed_eq, neg_smul, natCast_zsmul]
  have eSS : seed • seed • P = absSeed • absSeed • P := by
    rw [eS, seed_eq, neg_smul, smul_neg, neg_neg, natCast_zsmul]
  have eA : (seed ^ 2 - seed - 1) • P = absSeed • absSeed • P + absSeed • P + -P := by
    rw [sub_smul, sub_smul, one_smul, pow_two, mul_smul, eSS, eS]; abel
  have eB : (seed - 1) • psiHom P = psiHom (-(absSeed • P + P)) := by
    rw [← map_zsmul, sub_smul, one_smul, eS]; congr 1; abel
  have eE : psiHom (psiHom (2 • P)) = psiHom (psiHom (P + P)) := by rw [two_nsmul]
  refine ⟨⟨pD.ne_zero, ?_, ?_, ?_, ?_, ?_, ?_, ?_⟩, ?_⟩
  · rw [eS]; exact neg_ne_zero.2 pS.ne_zero
  · rw [eSS]; exact pSS.ne_zero
  · rw [eSS, eS, neg_neg]; exact ⟨n1.2, n1.1⟩
  · rw [eSS, eS, sub_neg_eq_add]
    exact ⟨by simpa using n2.2, n2.1⟩
  · rw [eS]
    exact ⟨fun e => n3.2 (neg_eq_iff_eq_neg.1 e), fun e => n3.1 (neg_injective e)⟩
  · rw [eA, eB]; exact n4
  · rw [eA, eB, eE]; exact n5
  · have : bp P = absSeed • absSeed • P + absSeed • P + -P + psiHom (-(absSeed • P + P)) +
        psiHom (psiHom (P + P)) := by
      rw [bp, eA, eB, eE]
    rw [this]; exact pR

end Spark.G2
