import Verif.Lemmas.SqrtRatio

/-! `g2SqrtRatio` and `MapElementToCurve2`, honest and arbitrary provers. -/

namespace Spark.G2
set_option maxRecDepth 100000
set_option exponentiation.threshold 10000

open NC Circ

/-- the last factor `tv4` of an assignment with flags `f1, f2, f3` -/
noncomputable def lastRoot (u v : E2 Fp) (f1 f2 f3 : Bool) : E2 Fp :=
  (adj f3 (adj f2 (adj f1 (sqrtInit u v) sqrtC7 sqrtTv1) sqrtTv1 (sqrtTv1 ^ 2))
    (sqrtTv1 ^ 2) (sqrtTv1 ^ 4)).2

theorem trace_inv {u v z : E2 Fp} {f1 f2 f3 : Bool} (h : SqrtTrace u v f1 f2 f3 z) :
    z ^ 2 * v = target f1 u * lastRoot u v f1 f2 f3 := by
  rw [h.hz]
  have h3 := adj2_inv (adj2_inv (adj1_inv (sqrtInit_inv u v) f1) f2 sqrtTv1) f3 (sqrtTv1 ^ 2)
  rw [← pow_mul] at h3
  exact h3

theorem adj_snd (f : Bool) (s : E2 Fp × E2 Fp) (a b : E2 Fp) :
    (adj f s a b).2 = if f then s.2 * b else s.2 := by cases f <;> rfl

theorem sq_eq_one_or {a : E2 Fp} (h : a ^ 4 = 1) : a ^ 2 = 1 ∨ a ^ 2 = -1 := by
  have : (a ^ 2 - 1) * (a ^ 2 + 1) = 0 := by linear_combination h
  rcases mul_eq_zero.1 this with e | e
  · exact Or.inl (sub_eq_zero.1 e)
  · exact Or.inr (eq_neg_of_add_eq_zero_left e)

theorem eq_one_or {a : E2 Fp} (h : a ^ 2 = 1) : a = 1 ∨ a = -1 := sq_eq_one_iff.1 h

/-- with truthful flags the last factor is 1 -/
theorem lastRoot_honest {u v : E2 Fp} (hu : u ≠ 0) (hv : v ≠ 0) {f1 f2 f3 : Bool}
    (h1 : f1 = true ↔ (sqrtInit u v).2 ^ 4 ≠ 1)
    (h2 : f2 = true ↔ (adj f1 (sqrtInit u v) sqrtC7 sqrtTv1).2 ^ 2 ≠ 1)
    (h3 : f3 = true ↔ (adj f2 (adj f1 (sqrtInit u v) sqrtC7 sqrtTv1) sqrtTv1 (sqrtTv1 ^ 2)).2 ^ 1 ≠ 1) :
    lastRoot u v f1 f2 f3 = 1 := by
  have ht := sqrtTv1_four
  have h8 : (sqrtInit u v).2 ^ 8 = 1 := c2_pow_eight (w_ne hu hv)
  have b1 : (adj f1 (sqrtInit u v) sqrtC7 sqrtTv1).2 ^ 4 = 1 := by
    rw [adj_snd]
    cases f1
    · simpa using h1
    · have h4 : (sqrtInit u v).2 ^ 4 ≠ 1 := h1.1 rfl
      have : ((sqrtInit u v).2 ^ 4 - 1) * ((sqrtInit u v).2 ^ 4 + 1) = 0 := by linear_combination h8
      have e := (mul_eq_zero.1 this).resolve_left (sub_ne_zero.2 h4)
      rw [if_pos rfl, mul_pow, ht, eq_neg_of_add_eq_zero_left e]; ring
  have b2 : (adj f2 (adj f1 (sqrtInit u v) sqrtC7 sqrtTv1) sqrtTv1 (sqrtTv1 ^ 2)).2 ^ 2 = 1 := by
    rw [adj_snd]
    cases f2
    · by_contra hc; exact absurd (h2.2 hc) (by simp)
    · have e := (sq_eq_one_or b1).resolve_left (h2.1 rfl)
      rw [if_pos rfl, mul_pow, e]; linear_combination -ht
  rw [lastRoot, adj_snd]
  cases f3
  · simpa using h3
  · have e := (eq_one_or b2).resolve_left (by simpa using h3.1 rfl)
    rw [if_pos rfl, e, ht]; ring

open Classical in
/-- honest solver -/
theorem sqrtRatio_honest {u v : E2 Fp} (hu : u ≠ 0) (hv : v ≠ 0) : ∃ z,
    (g2SqrtRatio u v).run = some (z, bit (decide (¬ IsSquare (u / v)))) ∧
    z ^ 2 * v = if IsSquare (u / v) then u else Rfc.Z * u := by
  obtain ⟨f1, f2, f3, z, hr, ht, g1, g2, g3⟩ := g2SqrtRatio_run u v
  have hf : f1 = decide (¬ IsSquare (u / v)) := by
    rw [Bool.eq_iff_iff, decide_eq_true_eq, ← w_square hv, ← c2_pow_four (w_ne hu hv)]
    exact ⟨g1, ht.h1⟩
  refine ⟨z, by rw [hr, hf], ?_⟩
  rw [trace_inv ht, lastRoot_honest hu hv ⟨g1, ht.h1⟩ ⟨g2, ht.h2⟩ ⟨g3, ht.h3⟩, mul_one, hf, target]
  by_cases h : IsSquare (u / v) <;> simp [h]

/-- `u = 0`: the code reports a non-square -/
theorem sqrtRatio_zero (v : E2 Fp) : (g2SqrtRatio 0 v).run = some (0, 1) := by
  obtain ⟨f1, f2, f3, z, hr, ht, g1, g2, g3⟩ := g2SqrtRatio_run 0 v
  have hc2 : c2 ≠ 0 := by rw [c2_eq]; omega
  have e2 : (sqrtInit 0 v).2 = 0 := by
    rw [sqrtInit]; simp [hc2]
  have e1 : (sqrtInit 0 v).1 = 0 := by rw [sqrtInit]; simp
  have hf : f1 = true := ht.h1 (by rw [e2]; simp)
  have hz : z = 0 := by
    rw [ht.hz]
    have k : ∀ (f : Bool) (s : E2 Fp × E2 Fp) (a b : E2 Fp), s.1 = 0 → (adj f s a b).1 = 0 := by
      intro f s a b h; cases f <;> simp [adj, h]
    exact k _ _ _ _ (k _ _ _ _ (k _ _ _ _ e1))
  rw [hr, hz, hf]; rfl

/-- every prover: the result is off by an 8-th root of unity -/
theorem sqrtRatio_sound {u v z : E2 Fp} {b : Fr} (hu : u ≠ 0) (hv : v ≠ 0)
    (h : (g2SqrtRatio u v).sat (z, b)) : ∃ f ζ, b = bit f ∧ ζ ^ 8 = 1 ∧ z ^ 2 * v = target f u * ζ := by
  obtain ⟨f1, f2, f3, rfl, ht⟩ := (g2SqrtRatio_sat u v z b).1 h
  refine ⟨f1, lastRoot u v f1 f2 f3, rfl, ?_, trace_inv ht⟩
  have h8 : (sqrtInit u v).2 ^ 8 = 1 := c2_pow_eight (w_ne hu hv)
  have ht := sqrtTv1_four
  have k : ∀ (f : Bool) (s : E2 Fp × E2 Fp) (a b : E2 Fp), s.2 ^ 8 = 1 → b ^ 8 = 1 →
      (adj f s a b).2 ^ 8 = 1 := by
    intro f s a b h h'
    rw [adj_snd]; cases f
    · exact h
    · rw [if_pos rfl, mul_pow, h, h', mul_one]
  have t8 : sqrtTv1 ^ 8 = 1 := by linear_combination (sqrtTv1 ^ 4 - 1) * ht
  refine k _ _ _ _ (k _ _ _ _ (k _ _ _ _ h8 t8) ?_) ?_
  · linear_combination (sqrtTv1 ^ 8 + 1) * t8
  · linear_combination (sqrtTv1 ^ 24 + sqrtTv1 ^ 16 + sqrtTv1 ^ 8 + 1) * t8

/-- a cheating prover can always raise the flag; on a square the result is then wrong -/
theorem sqrtRatio_cheat {u v : E2 Fp} (hu : u ≠ 0) (hv : v ≠ 0) (hs : IsSquare (u / v)) :
    ∃ z ζ, (g2SqrtRatio u v).sat (z, 1) ∧ ζ ^ 4 = -1 ∧ z ^ 2 * v = Rfc.Z * u * ζ := by
  have ht : SqrtTrace u v true true true _ := ⟨fun _ => rfl, fun _ => rfl, fun _ => rfl, rfl⟩
  refine ⟨_, lastRoot u v true true true, (g2SqrtRatio_sat u v _ 1).2 ⟨true, true, true, rfl, ht⟩,
    ?_, trace_inv ht⟩
  have h4 : (sqrtInit u v).2 ^ 4 = 1 := (c2_pow_four (w_ne hu hv)).2 ((w_square hv).2 hs)
  have ht := sqrtTv1_four
  simp only [lastRoot, adj_snd, if_true]
  linear_combination sqrtTv1 ^ 28 * h4 +
    (sqrtTv1 ^ 24 - sqrtTv1 ^ 20 + sqrtTv1 ^ 16 - sqrtTv1 ^ 12 + sqrtTv1 ^ 8 - sqrtTv1 ^ 4 + 1) * ht

/-! ### SSWU -/

/-- `tv3`, numerator of `x1` -/
def sswuNum (u : E2 Fp) : E2 Fp := (Rfc.den u + 1) * Rfc.isoB
/-- `tv4`, denominator of `x1` -/
def sswuDen (u : E2 Fp) : E2 Fp := -Rfc.den u * Rfc.isoA
/-- `tv2`, numerator of `g(x1)` -/
def sswuGNum (u : E2 Fp) : E2 Fp :=
  (sswuNum u ^ 2 + sswuDen u ^ 2 * Rfc.isoA) * sswuNum u + sswuDen u ^ 3 * Rfc.isoB

theorem sswuDen_ne {u : E2 Fp} (h : Rfc.den u ≠ 0) : sswuDen u ≠ 0 :=
  mul_ne_zero (neg_ne_zero.2 h) isoA_ne

theorem x1_eq {u : E2 Fp} (h : Rfc.den u ≠ 0) : Rfc.x1 u = sswuNum u / sswuDen u := by
  have hA := isoA_ne
  rw [Rfc.x1, if_neg h, sswuNum, sswuDen]
  field_simp

theorem gx1_eq {u : E2 Fp} (h : Rfc.den u ≠ 0) : Rfc.g (Rfc.x1 u) = sswuGNum u / sswuDen u ^ 3 := by
  have hd := sswuDen_ne h
  rw [x1_eq h, Rfc.g, sswuGNum]
  field_simp

/-- `g(x2) = Z³u⁶·g(x1)` -/
theorem gx2_eq {u : E2 Fp} (h : Rfc.den u ≠ 0) :
    Rfc.g (Rfc.x2 u) = (Rfc.Z * u ^ 2) ^ 3 * Rfc.g (Rfc.x1 u) := by
  have hA := isoA_ne
  have hx : Rfc.isoA * Rfc.x1 u * Rfc.den u = -Rfc.isoB * (Rfc.den u + 1) := by
    rw [Rfc.x1, if_neg h]; field_simp
  rw [Rfc.x2, Rfc.g, Rfc.g]
  rw [Rfc.den] at hx
  linear_combination (1 - Rfc.Z * u ^ 2) * hx

theorem sswuGNum_ne {u : E2 Fp} (h : Rfc.den u ≠ 0) : sswuGNum u ≠ 0 := by
  intro h0
  have := gx1_eq h
  rw [h0, zero_div] at this
  exact g_ne_zero _ this

/-- the circuit, with field operations -/
theorem mapElement_eq (u : E2 Fp) :
    mapElementToCurve2 u = (g2SqrtRatio (sswuGNum u) (sswuDen u ^ 3) >>= fun r =>
      let x := if unbit r.2 then Rfc.Z * u ^ 2 * sswuNum u else sswuNum u
      let y := if unbit r.2 then Rfc.Z * u ^ 2 * u * r.1 else r.1
      g2Sgn0 u >>= fun s => g2Sgn0 y >>= fun s' =>
      Ext2.div x (sswuDen u) >>= fun x =>
      pure ⟨x, if unbit s ^^ unbit s' then -y else y⟩) := by
  have e0 : u * u * Rfc.Z * (u * u * Rfc.Z) + u * u * Rfc.Z = Rfc.den u := by rw [Rfc.den]; ring
  have e1 : ∀ D N A B : E2 Fp, (N * N + D * D * A) * N + D * D * D * B = (N ^ 2 + D ^ 2 * A) * N + D ^ 3 * B := by
    intros; ring
  have e2 : ∀ D : E2 Fp, D * D * D = D ^ 3 := by intros; ring
  have e3 : u * u * Rfc.Z = Rfc.Z * u ^ 2 := by ring
  rw [mapElementToCurve2]
  simp only [Ext2.mul_eq, Ext2.square_eq, Ext2.add_eq, Ext2.neg_eq, Ext2.one_eq, tv4Z_eq, sswuA_eq, sswuB_eq, e0]
  rw [show (Rfc.den u + 1) * Rfc.isoB = sswuNum u from rfl, show -Rfc.den u * Rfc.isoA = sswuDen u from rfl,
    e1, show (sswuNum u ^ 2 + sswuDen u ^ 2 * Rfc.isoA) * sswuNum u + sswuDen u ^ 3 * Rfc.isoB = sswuGNum u from rfl,
    e2, e3]
  have hb : ∀ r : E2 Fp × Fr, (g2SqrtRatio (sswuGNum u) (sswuDen u ^ 3)).sat r → ∃ f, r.2 = bit f := by
    rintro ⟨z, b⟩ h
    obtain ⟨f1, _, _, e, _⟩ := (g2SqrtRatio_sat _ _ _ _).1 h
    exact ⟨f1, e⟩
  have hs : ∀ a b, (g2Sgn0 a).sat b → b = 0 ∨ b = 1 := by
    intro a b h
    obtain ⟨v, -, -, rfl⟩ := (g2Sgn0_sat _ _).1 h
    cases v.testBit 0
    · exact Or.inl rfl
    · exact Or.inr rfl
  refine bind_congr_sat fun r hr => ?_
  obtain ⟨z, b⟩ := r
  obtain ⟨f, rfl⟩ : ∃ f, b = bit f := hb _ hr
  dsimp only
  rw [Ext2.select_eq, pure_bind, Ext2.select_eq, pure_bind, unbit_bit]
  refine bind_bit_congr (hs _) fun s => bind_bit_congr (hs _) fun s' => ?_
  rw [apiXor_bit, pure_bind, Ext2.select_eq, pure_bind, unbit_bit, unbit_bit]

/-- exceptional inputs have no assignment -/
theorem mapElement_exceptional {u : E2 Fp} (h : Rfc.den u = 0) : mapElementToCurve2 u = fail := by
  rw [mapElement_eq]
  refine eq_fail fun a => ?_
  simp only [sat_bind]
  rintro ⟨r, -, s, -, s', -, x, hx, -⟩
  rw [sswuDen, h, neg_zero, zero_mul, Ext2.div_zero] at hx
  exact hx

theorem xden_div {u : E2 Fp} (h : Rfc.den u ≠ 0) (f : Bool) :
    (if f then Rfc.Z * u ^ 2 * sswuNum u else sswuNum u) / sswuDen u = if f then Rfc.x2 u else Rfc.x1 u := by
  cases f
  · exact (x1_eq h).symm
  · rw [if_pos rfl, if_pos rfl, Rfc.x2, x1_eq h]; ring

/-- sign of the output: parity of the real part (when it is not zero) -/
theorem parity_neg {a : Fp} (h : a ≠ 0) : (-a).val.testBit 0 = !a.val.testBit 0 := by
  have : NeZero a := ⟨h⟩
  rw [ZMod.val_neg_of_ne_zero]
  have h1 := ZMod.val_lt a
  have h2 : fpOrder % 2 = 1 := by decide +kernel
  simp only [Nat.testBit_zero]
  rw [← decide_not]
  congr 1
  rw [eq_iff_iff]
  omega

open Classical in
theorem mapElement_honest {u : E2 Fp} (h : Rfc.den u ≠ 0) : ∃ x y,
    (mapElementToCurve2 u).run = some ⟨x, y⟩ ∧ x = Rfc.sswuX u ∧ y ^ 2 = Rfc.g x ∧
    (y.A0 ≠ 0 → y.A0.val.testBit 0 = u.A0.val.testBit 0) := by
  have hd := sswuDen_ne h
  have hn := sswuGNum_ne h
  obtain ⟨z, hr, hz⟩ := sqrtRatio_honest hn (pow_ne_zero 3 hd)
  rw [← gx1_eq h] at hr hz
  set f := decide (¬ IsSquare (Rfc.g (Rfc.x1 u))) with hf
  set y0 := if f = true then Rfc.Z * u ^ 2 * u * z else z with hy0
  have hx : (if f = true then Rfc.x2 u else Rfc.x1 u) = Rfc.sswuX u := by
    rw [Rfc.sswuX, hf]
    by_cases hs : IsSquare (Rfc.g (Rfc.x1 u)) <;> simp [hs]
  refine ⟨Rfc.sswuX u, if u.A0.val.testBit 0 ^^ y0.A0.val.testBit 0 then -y0 else y0, ?_, rfl, ?_, ?_⟩
  · rw [mapElement_eq, run_bind, hr, Option.bind_some]
    dsimp only
    rw [unbit_bit, run_bind, g2Sgn0_run, Option.bind_some, run_bind, g2Sgn0_run, Option.bind_some,
      Ext2.div_eq hd, pure_bind, run_pure, unbit_bit, unbit_bit, xden_div h, hx]
  · have hy2 : y0 ^ 2 = Rfc.g (Rfc.sswuX u) := by
      have hd3 := pow_ne_zero 3 hd
      by_cases hs : IsSquare (Rfc.g (Rfc.x1 u))
      · have hff : f = false := by simp [hf, hs]
        rw [if_pos hs] at hz
        rw [hy0, Rfc.sswuX, if_pos hs, hff, gx1_eq h, eq_div_iff hd3]
        simpa using hz
      · have hff : f = true := by simp [hf, hs]
        rw [if_neg hs] at hz
        rw [hy0, Rfc.sswuX, if_neg hs, hff, if_pos rfl, gx2_eq h, gx1_eq h]
        field_simp
        linear_combination Rfc.Z ^ 2 * u ^ 6 * hz
    split
    · rw [neg_pow_two]; exact hy2
    · exact hy2
  · intro hne
    by_cases hc : (u.A0.val.testBit 0 ^^ y0.A0.val.testBit 0) = true
    · rw [if_pos hc] at hne ⊢
      have hne' : y0.A0 ≠ 0 := by
        intro h0; apply hne; rw [E2.A0_neg, h0, neg_zero]
      rw [E2.A0_neg, parity_neg hne']
      revert hc
      cases u.A0.val.testBit 0 <;> cases y0.A0.val.testBit 0 <;> simp
    · rw [if_neg hc] at hne ⊢
      revert hc
      cases u.A0.val.testBit 0 <;> cases y0.A0.val.testBit 0 <;> simp

end Spark.G2
