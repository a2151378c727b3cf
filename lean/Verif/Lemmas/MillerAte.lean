import Verif.Lemmas.MillerSteps
import Verif.Lemmas.MillerProd
import Verif.Lemmas.FinalExp
import Mathlib.Tactic.IrreducibleDef

/-! The circuit's Miller loop computes the textbook Miller function up to factors killed by the final
exponentiation. -/

namespace Spark
open WeierstrassCurve Spec Circ Torus
set_option maxRecDepth 100000

/-! ### factors killed by the exponent `(p¹²-1)/r` -/

/-- the exponent `(p¹²-1)/r` -/
irreducible_def ateExp : ℕ := (fpOrder ^ 12 - 1) / rOrder

/-- `c` is a non-zero element killed by the final exponentiation. -/
def Killed (c : E12 Fp) : Prop := c ≠ 0 ∧ c ^ ateExp = 1

namespace Killed

theorem pow_aux {G : Type} [Field G] {a : G} {d n : ℕ} (h : a ^ d = 1) (hd : d ∣ n) : a ^ n = 1 := by
  obtain ⟨k, rfl⟩ := hd
  rw [pow_mul, h, one_pow]

theorem sub_one_aux {G : Type} [Field G] {a c : G} {d : ℕ} (ha : a ≠ 0) (hd : 0 < d)
    (h : a ^ d = c * a) : a ^ (d - 1) = c := by
  obtain ⟨k, rfl⟩ : ∃ k, d = k + 1 := ⟨d - 1, by omega⟩
  rw [pow_succ] at h
  exact mul_right_cancel₀ ha h

theorem one : Killed 1 := ⟨one_ne_zero, one_pow _⟩
theorem mul {a c : E12 Fp} (h : Killed a) (h' : Killed c) : Killed (a * c) :=
  ⟨mul_ne_zero h.1 h'.1, by rw [mul_pow, h.2, h'.2, one_mul]⟩
theorem inv {a : E12 Fp} (h : Killed a) : Killed a⁻¹ :=
  ⟨inv_ne_zero h.1, by rw [inv_pow, h.2, inv_one]⟩
theorem div {a c : E12 Fp} (h : Killed a) (h' : Killed c) : Killed (a / c) := by
  rw [div_eq_mul_inv]; exact h.mul h'.inv
theorem pow {a : E12 Fp} (h : Killed a) (n : ℕ) : Killed (a ^ n) :=
  ⟨pow_ne_zero n h.1, by rw [← pow_mul, mul_comm, pow_mul, h.2, one_pow]⟩

theorem dvd6 : fpOrder ^ 6 - 1 ∣ ateExp := by
  rw [ateExp_def]; decide +kernel
theorem dvd2 : 2 * (fpOrder ^ 2 - 1) ∣ ateExp := by
  rw [ateExp_def]; decide +kernel

theorem of {y : E6 Fp} (hy : y ≠ 0) : Killed (E12.of y) := by
  have h0 : E12.of y ≠ 0 := fun h => hy (E12.of_injective (h.trans E12.of_zero.symm))
  refine ⟨h0, pow_aux (d := fpOrder ^ 6 - 1) ?_ dvd6⟩
  refine sub_one_aux h0 (pow_pos fpOrder_pos 6) ?_
  rw [← E12.of_pow, E6.frob6, one_mul]

theorem neg_one_aux {G : Type} [Field G] {a : G} {d : ℕ} (h : a ^ d = -1) : a ^ (2 * d) = 1 := by
  rw [mul_comm, pow_mul, h]; ring

theorem frob_aux {G : Type} [Field G] {w g : G} {q : ℕ} (h : w ^ q = g * w) (hg : g ^ 3 = -1) :
    (w ^ 3) ^ q = -1 * w ^ 3 := by
  rw [← pow_mul, mul_comm, pow_mul, h, mul_pow, hg]

theorem w3 : Killed (E12.w ^ 3) := by
  have h0 : (E12.w : E12 Fp) ^ 3 ≠ 0 := pow_ne_zero 3 w_ne_zero
  refine ⟨h0, pow_aux (d := 2 * (fpOrder ^ 2 - 1)) (neg_one_aux ?_) dvd2⟩
  exact sub_one_aux h0 (pow_pos fpOrder_pos 2) (frob_aux E12.w_frob2 gam2_cube12)

theorem inc1 {y : Fp} (hy : y ≠ 0) : Killed (Spec.inc1 Fp y) :=
  of (y := E6.of (E2.of y)) (fun h => hy (congrArg (fun z : E6 Fp => z.B0.A0) h))

/-- conjugation inverts, up to a killed factor -/
theorem conj {f : E12 Fp} : ∃ c, Killed c ∧ E12.conj f = c * f⁻¹ := by
  by_cases hf : f = 0
  · subst hf
    exact ⟨1, one, by rw [inv_zero, mul_zero]; ext1 <;> simp⟩
  · refine ⟨E12.of (E12.norm f), of (fun h => hf (E12.norm_eq_zero.1 h)), ?_⟩
    rw [← E12.mul_conj, mul_assoc, mul_comm (E12.conj f), ← mul_assoc, mul_inv_cancel₀ hf, one_mul]

end Killed

/-! ### lines and verticals of untwisted points -/

section
variable {K : Type} [Field K] [TowerField K]

theorem sparse014_eq_w (c0 c1 : E2 K) :
    Ext12.sparse014 c0 c1 = inc2 K c0 + inc2 K c1 * E12.w ^ 2 + E12.w ^ 3 := by
  rw [pow_succ E12.w 2, E12.w_sq]
  show _ = E12.of (E6.of c0) + E12.of (E6.of c1) * E12.of E6.v + E12.of E6.v * E12.w
  ext1
  · simp only [E12.C0_add, E12.C0_mul, E12.C0_of, E12.C1_of, E12.C0_w, E12.C1_w]
    ext1 <;> simp [Ext12.sparse014]
  · simp only [E12.C1_add, E12.C1_mul, E12.C0_of, E12.C1_of, E12.C0_w, E12.C1_w]
    ext1 <;> simp [Ext12.sparse014]

theorem sparse014_ne (c0 c1 : E2 K) : Ext12.sparse014 c0 c1 ≠ 0 := fun h =>
  one_ne_zero (α := E2 K) (congrArg (fun z : E12 K => z.C1.B1) h)

theorem line_aux {G : Type} [Field G] {w X Y l x₁ y₁ : G} (hw : w ≠ 0) (hY : Y ≠ 0) :
    (l * x₁ - y₁) * Y⁻¹ + -l * (X * Y⁻¹) * w ^ 2 + w ^ 3 =
      w ^ 3 * Y⁻¹ * (Y - w⁻¹ ^ 3 * y₁ - w⁻¹ * l * (X - w⁻¹ ^ 2 * x₁)) := by
  field_simp
  ring

theorem inc2_mul_of (a : E2 K) (k : K) : inc2 K (a * E2.of k) = inc2 K a * inc1 K k := by
  rw [map_mul]; rfl

variable [DecidableEq K]

theorem sparse_line {T S : ETwist K} {l : E2 K} {p : G2Affine K} (h : Slope T S l p.X p.Y)
    {x y : K} (hy : y ≠ 0) {s : Pairing.PairState K} (h1 : s.yInv = y⁻¹) (h2 : s.xOverY = x * y⁻¹) :
    Ext12.sparse014 (Pairing.evalLine s (Pairing.lineOf l p)).R1
        (Pairing.evalLine s (Pairing.lineOf l p)).R0 =
      E12.w ^ 3 * (inc1 K y)⁻¹ * lineVal (untwist K T) (untwist K S) (inc1 K x) (inc1 K y) := by
  have hs := h.twist (inc2 K) (inv_ne_zero w_ne_zero) untwist_coeff
  have hY : inc1 K y ≠ 0 := fun h => hy ((map_eq_zero (inc1 K)).1 h)
  rw [show untwist K = twistHom (inc2 K) (inv_ne_zero w_ne_zero) untwist_coeff from rfl]
  rw [hs.lineVal, sparse014_eq_w]
  simp only [Pairing.evalLine, Pairing.lineOf, tower]
  rw [inc2_mul_of, inc2_mul_of, h1, h2, map_mul (inc1 K), map_inv₀, map_sub, map_mul, map_neg]
  exact line_aux w_ne_zero hY

theorem vert_aux {G : Type} [Field G] {w X x₁ : G} (hw : w ≠ 0) (h : X - w⁻¹ ^ 2 * x₁ = 0) :
    X * w ^ 2 = x₁ := by
  have : X = w⁻¹ ^ 2 * x₁ := sub_eq_zero.1 h
  rw [this]; field_simp

end

theorem two_ne_E2 : (2 : E2 Fp) ≠ 0 := fun h => two_ne12 (by
  have := congrArg (inc2 Fp) h
  rwa [map_ofNat, map_zero] at this)

theorem twist_x_ne {T : ETwist Fp} {x₁ y₁ : E2 Fp} (h : Pt T x₁ y₁) : x₁ ≠ 0 := by
  rintro rfl
  have e := h.eqn
  refine TowerField.xi_not_sq (K := Fp) (y₁ / 2) ?_
  have : (⟨4, 4⟩ : E2 Fp) = 4 * E2.xi := by
    have h4 : (4 : E2 Fp) = ⟨4, 0⟩ := rfl
    rw [h4]; ext <;> simp
  rw [this] at e
  have h4 : (4 : E2 Fp) = 2 * 2 := by norm_num
  rw [div_mul_div_comm, ← h4, div_eq_iff (by rw [h4]; exact mul_ne_zero two_ne_E2 two_ne_E2)]
  linear_combination e

theorem vert_killed {T : ETwist Fp} (hT : T ≠ 0) (x : Fp) :
    Killed (vertVal (untwist Fp T) (inc1 Fp x)) := by
  obtain ⟨x₁, y₁, h⟩ := Pt.exists_of_ne hT
  have ht : Pt (untwist Fp T) _ _ := h.twist (inc2 Fp) (inv_ne_zero w_ne_zero) untwist_coeff
  rw [vertVal_pt ht]
  have e : inc1 Fp x - E12.w⁻¹ ^ 2 * inc2 Fp x₁ =
      E12.of (E6.of (E2.of x) - E6.v⁻¹ * E6.of x₁) := by
    have hv : E12.of (E6.v⁻¹ : E6 Fp) = (E12.of E6.v)⁻¹ := map_inv₀ E12.ofHom E6.v
    rw [E12.of_sub, E12.of_mul, inv_pow, E12.w_sq, hv]
    rfl
  rw [e]
  refine Killed.of fun h0 => ?_
  have hv : (E6.v : E6 Fp) ≠ 0 := fun h => one_ne_zero (α := E2 Fp) (congrArg E6.B1 h)
  have h1 : E6.of (E2.of x) * E6.v = E6.of x₁ := by
    rw [sub_eq_zero.1 h0, mul_comm, ← mul_assoc, mul_inv_cancel₀ hv, one_mul]
  refine twist_x_ne h ?_
  have := congrArg E6.B0 h1
  simp at this
  exact this.symm

/-! ### the recursion -/

section
variable {F : Type} [Field F] [DecidableEq F] {b : F}

theorem miller_one (Q : (sw b).Point) (x y : F) : miller Q x y 1 = 1 := by
  rw [miller]; simp

theorem miller_double (Q : (sw b).Point) (x y : F) {n : ℕ} (hn : 0 < n) :
    miller Q x y (2 * n) =
      miller Q x y n ^ 2 * lineVal (n • Q) (n • Q) x y / vertVal ((2 * n) • Q) x := by
  rw [miller, if_neg (by omega), if_pos (by omega), show 2 * n / 2 = n by omega]

theorem miller_double_add (Q : (sw b).Point) (x y : F) {n : ℕ} (hn : 0 < n) :
    miller Q x y (2 * n + 1) =
      miller Q x y (2 * n) * lineVal ((2 * n) • Q) Q x y / vertVal ((2 * n + 1) • Q) x := by
  rw [miller, if_neg (by omega), if_neg (by omega), show 2 * n + 1 - 1 = 2 * n by omega]
end

namespace Pairing

/-- The absolute value of the seed. -/
def absSeed : ℕ := 15132376222941642752

/-- Loop invariant: `Qacc = n·Q` and the accumulator is the Miller function up to killed factors. -/
structure MInv (x y : Fp) (Q : ETwist Fp) (q : G2Affine Fp) (n : ℕ) (s : PairState Fp) (g : E12 Fp) :
    Prop where
  hQ : s.Q = q
  acc : Pt (n • Q) s.Qacc.X s.Qacc.Y
  yInv : s.yInv = y⁻¹
  xOverY : s.xOverY = x * y⁻¹
  ne : g ≠ 0
  val : ∃ c, Killed c ∧ g = c * miller (untwist Fp Q) (inc1 Fp x) (inc1 Fp y) n

variable {x y : Fp} {Q : ETwist Fp} {q : G2Affine Fp}

/-- the hypotheses on the pair -/
structure Good (x y : Fp) (Q : ETwist Fp) (q : G2Affine Fp) : Prop where
  hy : y ≠ 0
  he : y ^ 2 = x ^ 3 + 4
  hq : Pt Q q.X q.Y
  hm : ∀ m, 0 < m → m ≤ absSeed → m • Q ≠ 0

namespace Good

theorem eqF (h : Good x y Q q) : (inc1 Fp y) ^ 2 = (inc1 Fp x) ^ 3 + inc1 Fp 4 := by
  rw [← map_pow, h.he, map_add, map_pow]

theorem hY (h : Good x y Q q) : Killed (inc1 Fp y) := Killed.inc1 h.hy

theorem smul_ne (h : Good x y Q q) {m n : ℕ} (hmn : m < n) (hn : n ≤ absSeed) : n • Q ≠ m • Q := by
  intro e
  apply h.hm (n - m) (by omega) (by omega)
  have : (n - m) • Q + m • Q = 0 + m • Q := by rw [← add_nsmul, Nat.sub_add_cancel hmn.le, e, zero_add]
  exact add_right_cancel this

end Good

theorem double_aux {G : Type} [Field G] {c M k l v g : G} (hv : v ≠ 0) (hg : g = c * M) :
    g * g * (k * l) = (c ^ 2 * k * v) * (M ^ 2 * l / v) := by
  subst hg; field_simp

theorem fac0_inv (h : Good x y Q q) {n : ℕ} (hn : 0 < n) (hN : 2 * n ≤ absSeed) {s : PairState Fp}
    {g : E12 Fp} (hi : MInv x y Q q n s g) :
    ∃ s' f, fac0 s = pure (s', f) ∧ MInv x y Q q (2 * n) s' (g * g * f) := by
  have h2 : n • Q + n • Q ≠ 0 := by
    rw [← add_nsmul, ← two_mul]; exact h.hm _ (by omega) hN
  obtain ⟨p', hp', he⟩ := doubleStep_eq hi.acc h2
  have hl := sparse_line (tangent_slope hi.acc h2) h.hy hi.yInv hi.xOverY
  refine ⟨{ s with Qacc := p' },
    Ext12.sparse014 (evalLine s (lineOf (3 * (s.Qacc.X * s.Qacc.X) / (2 * s.Qacc.Y)) s.Qacc)).R1 (evalLine s (lineOf (3 * (s.Qacc.X * s.Qacc.X) / (2 * s.Qacc.Y)) s.Qacc)).R0, ?_, ?_⟩
  · rw [fac0, he, pure_bind]
  · refine ⟨hi.hQ, ?_, hi.yInv, hi.xOverY, mul_ne_zero (mul_ne_zero hi.ne hi.ne) (sparse014_ne _ _), ?_⟩
    · rw [two_mul, add_nsmul]; exact hp'
    · obtain ⟨c, hc, hg⟩ := hi.val
      have hv := vert_killed (h.hm (2 * n) (by omega) hN) x
      rw [map_nsmul] at hv
      refine ⟨_, ((hc.pow 2).mul (Killed.w3.mul h.hY.inv)).mul hv, ?_⟩
      rw [hl, miller_double _ _ _ hn, map_nsmul]
      exact double_aux hv.1 hg

theorem daa_val_aux {G : Type} [Field G] {c M k l1 l2 l3 l4 v2 v3 vd g : G} (h2 : v2 ≠ 0) (h3 : v3 ≠ 0)
    (hg : g = c * M) (e : l1 * l2 * vd = l3 * l4 * v2) :
    g * g * (k * l3 * (k * l4)) = (c ^ 2 * k ^ 2 * vd * v3) * (M ^ 2 * l1 / v2 * l2 / v3) := by
  subst hg
  field_simp
  linear_combination -(c ^ 2 * M ^ 2 * k ^ 2) * e

theorem fac1_inv (h : Good x y Q q) {n : ℕ} (hn : 1 < n) (hN : 2 * n + 1 ≤ absSeed) {s : PairState Fp}
    {g : E12 Fp} (hi : MInv x y Q q n s g) :
    ∃ s' f, fac1 s = pure (s', f) ∧ MInv x y Q q (2 * n + 1) s' (g * g * f) := by
  have hQ0 : Q ≠ 0 := by simpa using h.hm 1 (by omega) (by omega)
  have e1 : n • Q + Q = (n + 1) • Q := by rw [add_nsmul, one_nsmul]
  have e2 : n • Q + n • Q = (2 * n) • Q := by rw [two_mul, add_nsmul]
  have e3 : n • Q + Q + n • Q = (2 * n + 1) • Q := by rw [two_mul, add_nsmul, add_nsmul, one_nsmul]; abel
  have d1 : n • Q ≠ Q := by simpa using h.smul_ne hn (by omega)
  have d2 : n • Q + Q ≠ 0 := by rw [e1]; exact h.hm _ (by omega) (by omega)
  have d3 : n • Q + Q + n • Q ≠ 0 := by rw [e3]; exact h.hm _ (by omega) (by omega)
  have d4 : n • Q + n • Q ≠ 0 := by rw [e2]; exact h.hm _ (by omega) (by omega)
  have d5 : n • Q + n • Q ≠ Q := by
    rw [e2]; simpa using h.smul_ne (m := 1) (n := 2 * n) (by omega) (by omega)
  obtain ⟨p', l, m, hp', hl, hm, he⟩ := doubleAndAddStep_eq hi.acc (hi.hQ ▸ h.hq) d1 d2 hQ0 d3
  have hl' := sparse_line hl h.hy hi.yInv hi.xOverY
  have hm' := sparse_line hm h.hy hi.yInv hi.xOverY
  refine ⟨{ s with Qacc := p' },
    Ext12.sparse014 (evalLine s (lineOf l s.Qacc)).R1 (evalLine s (lineOf l s.Qacc)).R0 *
    Ext12.sparse014 (evalLine s (lineOf m s.Qacc)).R1 (evalLine s (lineOf m s.Qacc)).R0, ?_, ?_⟩
  · rw [fac1, he, pure_bind]
  · refine ⟨hi.hQ, ?_, hi.yInv, hi.xOverY, mul_ne_zero (mul_ne_zero hi.ne hi.ne)
      (mul_ne_zero (sparse014_ne _ _) (sparse014_ne _ _)), ?_⟩
    · rw [← e3]; exact hp'
    · obtain ⟨c, hc, hg⟩ := hi.val
      have hv2 := vert_killed d4 x
      have hv3 := vert_killed d3 x
      have hvd := vert_killed d2 x
      have hU : Function.Injective (untwist Fp) :=
        twistHom_injective (inc2 Fp) (inv_ne_zero w_ne_zero) untwist_coeff
      have hU0 : ∀ {A : ETwist Fp}, A ≠ 0 → untwist Fp A ≠ 0 := fun hA e =>
        hA (hU (e.trans (map_zero _).symm))
      have D := daa (T := untwist Fp (n • Q)) (Q := untwist Fp Q) h.eqF
        (hU0 (h.hm n (by omega) (by omega))) (hU0 hQ0) (fun e => d1 (hU e))
        (by rw [← map_add]; exact hU0 d2) (by rw [← map_add]; exact hU0 d4)
        (by rw [← map_add]; exact fun e => d5 (hU e))
        (by
          rw [← map_add, ← map_add]; refine hU0 ?_
          rw [e2, show (2 * n) • Q + Q = (2 * n + 1) • Q by rw [add_nsmul _ (2 * n) 1, one_nsmul]]
          exact h.hm _ (by omega) (by omega))
      have hms : lineVal (untwist Fp (n • Q)) (untwist Fp (n • Q + Q)) (inc1 Fp x) (inc1 Fp y) =
          lineVal (untwist Fp (n • Q + Q)) (untwist Fp (n • Q)) (inc1 Fp x) (inc1 Fp y) := by
        have hs := hm.twist (inc2 Fp) (inv_ne_zero w_ne_zero) untwist_coeff
        exact (hs.lineVal _ _).trans (hs.lineVal_symm _ _).symm
      rw [hms] at hm'
      rw [← map_add, ← map_add] at D
      refine ⟨_, (((hc.pow 2).mul ((Killed.w3.mul h.hY.inv).pow 2)).mul hvd).mul hv3, ?_⟩
      rw [hl', hm', miller_double_add _ _ _ (by omega), miller_double _ _ _ (by omega),
        ← map_nsmul, ← map_nsmul, ← map_nsmul, ← e3, ← e2]
      exact daa_val_aux hv2.1 hv3.1 hg D

theorem triple_val_aux {G : Type} [Field G] {k l1 l2 v2 v3 : G} (h2 : v2 ≠ 0) (h3 : v3 ≠ 0) :
    k * l1 * (k * l2) = (k ^ 2 * v2 * v3) * (1 ^ 2 * l1 / v2 * l2 / v3) := by
  field_simp

theorem fac62_inv (h : Good x y Q q) {s : PairState Fp} (hQ : s.Q = q) (hacc : s.Qacc = q)
    (hyI : s.yInv = y⁻¹) (hxy : s.xOverY = x * y⁻¹) :
    ∃ s' f, fac62 s = pure (s', f) ∧ MInv x y Q q 3 s' f := by
  have e2 : Q + Q = (2 * 1) • Q := by rw [mul_one, two_nsmul]
  have e3 : Q + Q + Q = (2 * 1 + 1) • Q := by
    rw [show 2 * 1 + 1 = 3 from rfl, succ_nsmul, two_nsmul]
  have d2 : Q + Q ≠ 0 := by rw [e2]; exact h.hm _ (by omega) (by decide)
  have d3 : Q + Q + Q ≠ 0 := by rw [e3]; exact h.hm _ (by omega) (by decide)
  have hacc' : Pt Q s.Qacc.X s.Qacc.Y := by rw [hacc]; exact h.hq
  obtain ⟨p', l, m, hp', hl, hm, he⟩ := tripleStep_eq hacc' d2 d3
  have hl' := sparse_line hl h.hy hyI hxy
  have hm' := sparse_line hm h.hy hyI hxy
  refine ⟨{ s with Qacc := p' },
    Ext12.sparse014 (evalLine s (lineOf l s.Qacc)).R1 (evalLine s (lineOf l s.Qacc)).R0 *
    Ext12.sparse014 (evalLine s (lineOf m s.Qacc)).R1 (evalLine s (lineOf m s.Qacc)).R0, ?_, ?_⟩
  · rw [fac62, he, pure_bind]
  · refine ⟨hQ, ?_, hyI, hxy, mul_ne_zero (sparse014_ne _ _) (sparse014_ne _ _), ?_⟩
    · rw [show 3 = 2 * 1 + 1 from rfl, ← e3]; exact hp'
    · have hv2 := vert_killed d2 x
      have hv3 := vert_killed d3 x
      have hms : lineVal (untwist Fp Q) (untwist Fp (Q + Q)) (inc1 Fp x) (inc1 Fp y) =
          lineVal (untwist Fp (Q + Q)) (untwist Fp Q) (inc1 Fp x) (inc1 Fp y) := by
        have hs := hm.twist (inc2 Fp) (inv_ne_zero w_ne_zero) untwist_coeff
        exact (hs.lineVal _ _).trans (hs.lineVal_symm _ _).symm
      rw [hms] at hm'
      refine ⟨_, (((Killed.w3.mul h.hY.inv).pow 2).mul hv2).mul hv3, ?_⟩
      rw [hl', hm', show 3 = 2 * 1 + 1 from rfl, miller_double_add _ _ _ (by omega),
        miller_double _ _ _ (by omega), miller_one,
        ← map_nsmul, ← map_nsmul, ← map_nsmul, ← e3, ← e2, one_nsmul]
      exact triple_val_aux hv2.1 hv3.1

theorem facLast_inv (h : Good x y Q q) {n : ℕ} (hn : 0 < n) (hN : 2 * n ≤ absSeed) {s : PairState Fp}
    {g : E12 Fp} (hi : MInv x y Q q n s g) :
    ∃ f, facLast s = pure (s, f) ∧ g * g * f ≠ 0 ∧ ∃ c, Killed c ∧
      g * g * f = c * miller (untwist Fp Q) (inc1 Fp x) (inc1 Fp y) (2 * n) := by
  have h2 : n • Q + n • Q ≠ 0 := by
    rw [← add_nsmul, ← two_mul]; exact h.hm _ (by omega) hN
  have hl := sparse_line (tangent_slope hi.acc h2) h.hy hi.yInv hi.xOverY
  refine ⟨Ext12.sparse014 (evalLine s (lineOf (3 * (s.Qacc.X * s.Qacc.X) / (2 * s.Qacc.Y)) s.Qacc)).R1 (evalLine s (lineOf (3 * (s.Qacc.X * s.Qacc.X) / (2 * s.Qacc.Y)) s.Qacc)).R0, ?_,
    mul_ne_zero (mul_ne_zero hi.ne hi.ne) (sparse014_ne _ _), ?_⟩
  · rw [facLast, tangentCompute_eq hi.acc h2, pure_bind]
  · obtain ⟨c, hc, hg⟩ := hi.val
    have hv := vert_killed (h.hm (2 * n) (by omega) hN) x
    rw [map_nsmul] at hv
    refine ⟨_, ((hc.pow 2).mul (Killed.w3.mul h.hY.inv)).mul hv, ?_⟩
    rw [hl, miller_double _ _ _ hn, map_nsmul]
    exact double_aux hv.1 hg

/-- the multiple reached by iterations `i, …, 1` from `n` -/
def runBits : ℕ → ℕ → ℕ
  | 0, n => n
  | i + 1, n => runBits i (if loopCounter.getD (i + 1) 0 = 0 then 2 * n else 2 * n + 1)

theorem le_runBits (i n : ℕ) : n ≤ runBits i n := by
  induction i generalizing n with
  | zero => exact le_rfl
  | succ i ih =>
    refine le_trans ?_ (ih _)
    split <;> omega

theorem runBits_eq : 2 * runBits 61 3 = absSeed := by decide +kernel

theorem loop1_inv (h : Good x y Q q) (i : ℕ) {n : ℕ} (hn : 1 < n) (hN : runBits i n ≤ absSeed)
    {s : PairState Fp} {g : E12 Fp} (hi : MInv x y Q q n s g) :
    ∃ s' g', loop1 i (s, g) = pure (s', g') ∧ MInv x y Q q (runBits i n) s' g' := by
  induction i generalizing n s g with
  | zero => exact ⟨s, g, rfl, hi⟩
  | succ i ih =>
    rw [loop1, facI]
    rw [runBits] at *
    split
    · next hb =>
      rw [if_pos hb] at hN
      obtain ⟨s', f, e, hi'⟩ := fac0_inv h (by omega) ((le_runBits _ _).trans hN) hi
      rw [e, pure_bind]
      exact ih (by omega) hN hi'
    · next hb =>
      rw [if_neg hb] at hN
      obtain ⟨s', f, e, hi'⟩ := fac1_inv h (by omega) ((le_runBits _ _).trans hN) hi
      rw [e, pure_bind]
      exact ih (by omega) hN hi'

theorem inv_aux {G : Type} [Field G] {c M v : G} (hv : v ≠ 0) :
    (c * M)⁻¹ = c⁻¹ * v * (1 / (M * v)) := by
  field_simp

/-- One Miller loop: the circuit has exactly one value, which is non-zero and equals the textbook
Miller function up to factors killed by the final exponentiation. -/
theorem miller1_eq (h : Good x y Q q) :
    ∃ z c, miller1 (⟨x, y⟩, q) = pure z ∧ z ≠ 0 ∧ Killed c ∧
      z = c * millerInt (untwist Fp Q) (inc1 Fp x) (inc1 Fp y) seed := by
  obtain ⟨s, f, e1, i1⟩ := fac62_inv h (s := ⟨q, q, y⁻¹, x * y⁻¹⟩) rfl rfl rfl rfl
  have hN : 2 * runBits 61 3 ≤ absSeed := runBits_eq.le
  obtain ⟨s2, g2, e2, i2⟩ := loop1_inv h 61 (n := 3) (by omega) (by omega) i1
  obtain ⟨f3, e3, n3, c, hc, i3⟩ := facLast_inv h (Nat.lt_of_lt_of_le (by omega) (le_runBits 61 3)) hN i2
  obtain ⟨d, hd, hd'⟩ := Killed.conj (f := g2 * g2 * f3)
  have hv := vert_killed (h.hm absSeed (by decide) le_rfl) x
  rw [map_nsmul] at hv
  have hne : E12.conj (g2 * g2 * f3) ≠ 0 := by
    rw [hd']; exact mul_ne_zero hd.1 (inv_ne_zero n3)
  refine ⟨E12.conj (g2 * g2 * f3), _, ?_, hne, hd.mul (hc.inv.mul hv), ?_⟩
  rotate_left
  · rw [hd', i3, runBits_eq, millerInt, if_neg (by decide), show seed.natAbs = absSeed by decide,
      inv_aux hv.1, ← mul_assoc]
  · rw [miller1, initPair, fpInverse_ne h.hy, pure_bind, pure_bind, body1pair, e1, pure_bind, e2,
      pure_bind, e3, pure_bind]

end Pairing
end Spark
