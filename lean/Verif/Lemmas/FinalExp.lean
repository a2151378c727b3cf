import Verif.Model.FinalExp
import Mathlib.Tactic.IrreducibleDef
import Verif.Lemmas.TorusChain

/-! The final exponentiation. -/

namespace Spark
open Circ
set_option maxRecDepth 100000

namespace Torus

/-- the exponent of the hard part -/
irreducible_def hardExp : ℤ :=
  (-15132376222941642752 - 1) ^ 2 * (-15132376222941642752 + fpOrder) *
    ((-15132376222941642752) ^ 2 + (fpOrder : ℤ) ^ 2 - 1)

theorem hardExp_eq : hardExp + 3 = 3 * (((fpOrder : ℤ) ^ 4 - fpOrder ^ 2 + 1) / rOrder) := by
  rw [hardExp_def]; decide +kernel

/-- `e^(p⁶-1)`, as a quotient -/
noncomputable irreducible_def easy1 (e : E12 Fp) : E12 Fp := E12.conj e / e

/-- the easy part `e^((p⁶-1)(p²+1))` -/
noncomputable irreducible_def easy (e : E12 Fp) : E12 Fp := frobHom2 (easy1 e) * easy1 e

theorem D_start (e : E12 Fp) (h1 : e.C1 ≠ 0) : D (-(e.C0 / e.C1)) = easy1 e := by
  have he : e ≠ 0 := fun h => h1 (by rw [h]; rfl)
  symm
  rw [eq_D_iff, easy1_def, div_mul_eq_mul_div, div_eq_iff he]
  have h2 : e = E12.of e.C0 + E12.of e.C1 * E12.w := by ext1 <;> simp
  have h3 : E12.conj e = E12.of e.C0 - E12.of e.C1 * E12.w := by ext1 <;> simp
  have h4 : E12.of (e.C0 / e.C1) * E12.of e.C1 = E12.of e.C0 := by
    rw [← E12.of_mul, div_mul_cancel₀ _ h1]
  rw [h3]
  have h5 : (E12.of (-(e.C0 / e.C1)) + E12.w) * e = (E12.of (-(e.C0 / e.C1)) + E12.w) *
      (E12.of e.C0 + E12.of e.C1 * E12.w) := by rw [← h2]
  rw [h5, E12.of_neg, ← h4]
  ring

theorem start_eq {e : E12 Fp} (h1 : e.C1 ≠ 0) :
    Ext12.mulTorus (Ext12.frobeniusSquareTorus (-(e.C0 / e.C1))) (-(e.C0 / e.C1)) = tor (easy e) := by
  rw [mulTorus_eq, D_frobeniusSquareTorus, D_start e h1, easy_def]

theorem easy1_norm {e : E12 Fp} (he : e ≠ 0) : easy1 e * E12.conj (easy1 e) = 1 := by
  have hc : E12.conj e ≠ 0 := fun h => he (by
    have := E12.conj_conj e; rw [h] at this; rw [← this]; ext1 <;> simp)
  have h : E12.conj (easy1 e) * E12.conj e = e := by
    rw [← E12.conj_mul, easy1_def, div_mul_cancel₀ _ he, E12.conj_conj]
  rw [easy1_def] at *
  rw [div_mul_eq_mul_div, mul_comm, h, div_self he]

theorem frobHom2_norm {a : E12 Fp} (h : a * E12.conj a = 1) :
    frobHom2 a * E12.conj (frobHom2 a) = 1 := by
  have := norm_zpow h ((fpOrder : ℤ) ^ 2 * 1)
  rwa [← zpow_frob2, zpow_one] at this

theorem frobHom2_thrice (a : E12 Fp) : frobHom2 (frobHom2 (frobHom2 a)) = E12.conj a := by
  rw [← E12.frob6, frobHom2_apply, frobHom2_apply, frobHom2_apply, ← pow_mul, ← pow_mul]
  exact congrArg _ (by ring)

theorem easy_CN {e : E12 Fp} (he : e ≠ 0) : CN (easy e) := by
  have h1 := easy1_norm he
  refine ⟨?_, ?_⟩
  · rw [easy_def]; unfold Cyc
    rw [map_mul, map_mul, frobHom2_thrice]
    linear_combination frobHom2 (frobHom2 (easy1 e)) * frobHom2 (easy1 e) * h1
  · have h2 := frobHom2_norm h1
    rw [easy_def]
    rw [E12.conj_mul]
    linear_combination easy1 e * E12.conj (easy1 e) * h2 + h1

/-! ### the chain -/

local notation "X" => (-15132376222941642752 : ℤ)

/-- exponent after the two multiplications by `X - 1` -/
irreducible_def e2 : ℤ := (X - 1) ^ 2
/-- exponent after the multiplication by `X + p` -/
irreducible_def e3 : ℤ := fpOrder * e2 + X * e2

theorem hard_aux : (-e3 + X * (X * e3)) + (fpOrder : ℤ) ^ 2 * e3 = hardExp := by
  rw [e3_def, e2_def, hardExp_def]; ring

theorem chain_sound {e : E12 Fp} (h1 : e.C1 ≠ 0) {c t1 : E6 Fp}
    (h : (Pairing.finalExpChain e).sat (c, t1)) :
    Is (easy e) 3 c ∧ Is (easy e) hardExp t1 := by
  have he : e ≠ 0 := fun h => h1 (by rw [h]; rfl)
  have ha := (easy_CN he).ne_zero
  rw [Pairing.finalExpChain, Ext6.divUnchecked_eq h1, pure_bind] at h
  simp only [Ext6.neg_eq] at h
  obtain ⟨c1, g1, t0, g2, t1a, g3, t1b, g4, t2a, g5, t1c, g6, t2b, g7, t1d, g8, c2, g9, t0a, g10,
    t2c, g11, t1e, g12, t1f, g13, h⟩ := h
  simp only [sat_pure, Prod.mk.injEq] at h
  obtain ⟨rfl, rfl⟩ := h
  have k1 : Is (easy e) 1 c1 := by
    rw [start_eq h1, sat_tor] at g1
    unfold Is
    rw [zpow_one, g1.2, D_C ⟨(easy_CN he).norm, g1.1⟩]
  have k2 := k1.sq g2
  have k3 := k2.half ha g3
  have k4 := k3.mul ha k1.inv g4
  have k5 := k4.expt ha g5
  have k6 := k4.inv.mul ha k5 g6
  have k7 := k6.expt ha g7
  have k8 := k6.frob.mul ha k7 g8
  have k9 := k1.mul ha k2 g9
  have k10 := k8.expt ha g10
  have k11 := k10.expt ha g11
  have k12 := k8.inv.mul ha k11 g12
  have k13 := k12.mul ha k8.frob2 g13
  refine ⟨k9.cast (by norm_num), k13.cast ?_⟩
  rw [← hard_aux]
  rw [e3_def, e2_def]
  ring

/-- the exponents met by the chain, relative to the easy part -/
def feExps : List ℤ :=
  [1] ++ ([2] ++ (halfExps 2 ++ ([X - 1] ++ (exptExps (X - 1) ++ ([e2] ++ (exptExps e2 ++ ([e3] ++
    ([3] ++ (exptExps e3 ++ (exptExps (X * e3) ++ ([-e3 + X * (X * e3)] ++ [hardExp])))))))))))

theorem chain_eq {e : E12 Fp} (h1 : e.C1 ≠ 0) :
    Pairing.finalExpChain e =
      chk (easy e) feExps (C (easy e ^ (3 : ℤ)), C (easy e ^ hardExp)) := by
  have he : e ≠ 0 := fun h => h1 (by rw [h]; rfl)
  have hm := easy_CN he
  rw [Pairing.finalExpChain, Ext6.divUnchecked_eq h1, pure_bind]
  simp only [Ext6.neg_eq]
  rw [start_eq h1]
  generalize easy e = m at *
  have ht : tor m = chk m [1] (C (m ^ (1 : ℤ))) := by rw [← tor_zpow, zpow_one]
  rw [ht, feExps]
  refine chk_bind fun a1 => ?_
  have a1 := a1 1 List.mem_cons_self
  rw [hm.sq' (k := 2) a1 (by norm_num)]
  refine chk_bind fun a2 => ?_
  have a2 := a2 2 List.mem_cons_self
  rw [hm.half a2]
  refine chk_bind fun a3 => ?_
  rw [hm.inv a1, hm.mul' (k := X - 1) (half_ne a3) (neg_ne a1) (by norm_num)]
  refine chk_bind fun a4 => ?_
  have a4 := a4 _ List.mem_cons_self
  rw [hm.expt a4]
  refine chk_bind fun a5 => ?_
  rw [hm.inv a4, hm.mul' (k := e2) (neg_ne a4) (expt_ne a5) (by rw [e2_def]; norm_num)]
  refine chk_bind fun a6 => ?_
  have a6 := a6 _ List.mem_cons_self
  rw [hm.expt a6]
  refine chk_bind fun a7 => ?_
  rw [hm.frob a6, hm.mul' (k := e3) (frob_ne a6) (expt_ne a7) e3_def]
  refine chk_bind fun a8 => ?_
  have a8 := a8 _ List.mem_cons_self
  rw [hm.mul' (k := 3) a1 a2 (by norm_num)]
  refine chk_bind fun a9 => ?_
  rw [hm.expt a8]
  refine chk_bind fun a10 => ?_
  rw [hm.expt (expt_ne a10)]
  refine chk_bind fun a11 => ?_
  rw [hm.inv a8, hm.frob2 a8, hm.mul (neg_ne a8) (expt_ne a11)]
  refine chk_bind fun a12 => ?_
  rw [hm.mul' (k := hardExp) (a12 _ List.mem_cons_self) (frob2_ne a8) hard_aux.symm]
  exact chk_bind_pure fun _ => rfl

/-! ### both variants -/

theorem not_cyc_aux {G : Type} [Field G] (f : G →+* G) (d g w : G) (h : f (f d) * d = f d)
    (hw : f w = g * w) (hg : f g = g) (h3 : g ^ 3 = -1) (h2 : g ^ 2 = g - 1)
    (s1 : d * (1 - w) = 1 + w) : 2 * w ^ 3 = 0 := by
  have s2 := congrArg f s1
  rw [map_mul, map_sub, map_add, map_one, hw] at s2
  have s3 := congrArg f s2
  rw [map_mul, map_sub, map_add, map_one, map_mul, hg, hw] at s3
  -- (1+g²w)(1+w)(1-gw) = (1+gw)(1-g²w)(1-w)
  have key : (1 + g * (g * w)) * (1 + w) * (1 - g * w)
      = (1 + g * w) * (1 - g * (g * w)) * (1 - w) := by
    rw [← s3, ← s1, ← s2]
    linear_combination (1 - g * (g * w)) * (1 - w) * (1 - g * w) * h
  linear_combination key - 2 * w * h2 + 2 * w ^ 3 * h3

theorem frobHom2_gam2 : frobHom2 (E12.of (E6.of gam2)) = E12.of (E6.of gam2) := by
  rw [frobHom2_coord]
  ext1 <;> ext1 <;> simp

theorem gam2_cube12 : (E12.of (E6.of gam2)) ^ 3 = -1 := by
  rw [← E12.of_pow, ← E6.of_pow, gam2_cube, E6.of_neg, E12.of_neg, E6.of_one, E12.of_one]

theorem gam2_sq12 : (E12.of (E6.of gam2)) ^ 2 = E12.of (E6.of gam2) - 1 := by
  rw [← E12.of_pow, ← E6.of_pow, gam2_sq]
  ext1 <;> ext1 <;> simp

theorem two_ne12 : (2 : E12 Fp) ≠ 0 := by
  have : (2 : E12 Fp) = E12.of 2 := by
    rw [← one_add_one_eq_two, ← one_add_one_eq_two, E12.of_add, E12.of_one]
  rw [this]
  exact fun h => two_ne6 (E12.of_injective (h.trans E12.of_zero.symm))

theorem w_ne : (E12.w : E12 Fp) ≠ 0 := fun h => by
  have := congrArg (fun z => z.C1.B0.A0) h
  simp at this

theorem not_cyc_D_one : ¬ Cyc (D (1 : E6 Fp)) := by
  intro h
  have hw : frobHom2 E12.w = E12.of (E6.of gam2) * E12.w := by rw [frobHom2_apply, E12.w_frob2]
  have s1 := D_spec (1 : E6 Fp)
  rw [E12.of_one] at s1
  have k2 := not_cyc_aux frobHom2 (D 1) _ E12.w h hw frobHom2_gam2 gam2_cube12 gam2_sq12 s1
  exact pow_ne_zero 3 w_ne ((mul_eq_zero.1 k2).resolve_left two_ne12)

theorem unsafe_eq {e : E12 Fp} (h1 : e.C1 ≠ 0) :
    Pairing.finalExpUnsafe e =
      chk (easy e) (feExps ++ [hardExp + 3]) (easy e ^ (hardExp + 3), e) := by
  have he : e ≠ 0 := fun h => h1 (by rw [h]; rfl)
  have hm := easy_CN he
  rw [Pairing.finalExpUnsafe, chain_eq h1]
  refine chk_bind fun hL => ?_
  dsimp only
  have h3 : easy e ^ (3 : ℤ) ≠ 1 := hL _ (by simp [feExps])
  have hh : easy e ^ hardExp ≠ 1 := hL _ (by simp [feExps])
  rw [hm.mul' (k := hardExp + 3) h3 hh (add_comm _ _)]
  refine chk_bind_pure fun hk => ?_
  rw [decompressTorus_eq, pure_bind, D_C (hm.tor (hk _ List.mem_cons_self))]

theorem chain_safe {e : E12 Fp} (h1 : e.C1 ≠ 0) (s1 : Bool) :
    (do
      let (c, t1) ← Pairing.finalExpChain e
      let sum := Ext6.add c t1
      let selector2 ← Ext6.isZero sum
      let t1 ← Ext6.select selector2 Ext6.one t1
      let selector := (1 - bit s1) * (1 - selector2)
      let m ← Ext12.mulTorus c t1
      let d ← Ext12.decompressTorus m
      let result ← Ext12.select selector d Ext12.one
      pure (result, e)) =
    chk (easy e) feExps (if s1 then 1 else easy e ^ (hardExp + 3), e) := by
  have he : e ≠ 0 := fun h => h1 (by rw [h]; rfl)
  have hm := easy_CN he
  rw [chain_eq h1]
  refine chk_bind_pure fun hL => ?_
  dsimp only
  have h3 : easy e ^ (3 : ℤ) ≠ 1 := hL _ (by simp [feExps])
  have hh : easy e ^ hardExp ≠ 1 := hL _ (by simp [feExps])
  have hb : ∀ b : Bool, (1 - bit s1) * (1 - bit b) = bit (!s1 && !b) := by
    intro b; cases s1 <;> cases b <;> simp [bit]
  simp only [tower, pure_bind, hb]
  have hsum : C (easy e ^ (3 : ℤ)) + C (easy e ^ hardExp) = 0 ↔ easy e ^ (hardExp + 3) = 1 := by
    rw [← mul_D_eq_one, D_C (hm.tor h3), D_C (hm.tor hh), ← zpow_add₀ hm.ne_zero, add_comm]
  by_cases hs : easy e ^ (hardExp + 3) = 1
  · have : decide (C (easy e ^ (3 : ℤ)) + C (easy e ^ hardExp) = 0) = true := by
      rw [decide_eq_true_iff]; exact hsum.2 hs
    rw [this, if_pos rfl, mulTorus_eq, D_C (hm.tor h3)]
    have hne : easy e ^ (3 : ℤ) * D 1 ≠ 1 := by
      intro h
      have h' : D 1 = (easy e ^ (3 : ℤ))⁻¹ := eq_inv_of_mul_eq_one_right h
      apply not_cyc_D_one
      rw [h']
      exact (hm.cyc.zpow 3).inv
    rw [tor_of_ne hne, pure_bind, decompressTorus_eq, pure_bind]
    simp [tower, hs]
  · have : decide (C (easy e ^ (3 : ℤ)) + C (easy e ^ hardExp) = 0) = false := by
      rw [decide_eq_false_iff_not]; exact fun h => hs (hsum.1 h)
    rw [this]
    simp only [Bool.false_eq_true, if_false]
    rw [hm.mul' (k := hardExp + 3) h3 hh (add_comm _ _), chk_pure (by simpa using hs), pure_bind,
      decompressTorus_eq, pure_bind, D_C (hm.tor hs)]
    cases s1 <;> simp [tower]

theorem safe_eq {e : E12 Fp} (h1 : e.C1 ≠ 0) :
    Pairing.finalExpSafe e = chk (easy e) feExps (easy e ^ (hardExp + 3), e) := by
  rw [Pairing.finalExpSafe, Ext6.isZero_eq, pure_bind, decide_eq_false h1, Ext6.select_eq, pure_bind]
  exact chain_safe h1 false

theorem safe_zero {e : E12 Fp} (h1 : e.C1 = 0) :
    Pairing.finalExpSafe e = chk (easy ⟨e.C0, 1⟩) feExps (1, ⟨e.C0, 1⟩) := by
  rw [Pairing.finalExpSafe, Ext6.isZero_eq, pure_bind, decide_eq_true h1, Ext6.select_eq, pure_bind]
  exact chain_safe (e := ⟨e.C0, 1⟩) one_ne_zero true

theorem unsafe_fail {e : E12 Fp} (h1 : e.C1 = 0) (h0 : e ≠ 0) : Pairing.finalExpUnsafe e = fail := by
  have hc : e.C0 ≠ 0 := fun h => h0 (by ext1 <;> simp [h, h1])
  rw [Pairing.finalExpUnsafe, Pairing.finalExpChain, h1, Ext6.divUnchecked_fail hc, fail_bind, fail_bind]

/-! ### exponents -/

theorem easy_pow_aux {G : Type} [Field G] {e : G} (he : e ≠ 0) (N P : ℕ) (H K : ℤ)
    (hk : ((N : ℤ) - 1) * (P + 1) * H = K) : ((e ^ N / e) ^ P * (e ^ N / e)) ^ H = e ^ K := by
  have h1 : e ^ N / e = e ^ ((N : ℤ) - 1) := by rw [zpow_sub₀ he, zpow_one, zpow_natCast]
  rw [h1, ← zpow_natCast (e ^ ((N : ℤ) - 1)), ← zpow_mul, ← zpow_add₀ he, ← zpow_mul, ← hk]
  congr 1
  ring

theorem easy_pow {e : E12 Fp} (he : e ≠ 0) (H K : ℤ)
    (hk : (((fpOrder ^ 6 : ℕ) : ℤ) - 1) * ((fpOrder ^ 2 : ℕ) + 1) * H = K) :
    easy e ^ H = e ^ K := by
  rw [easy_def, easy1_def, frobHom2_apply, ← E12.frob6]
  exact easy_pow_aux he _ _ _ _ hk

theorem fullExp : (((fpOrder ^ 6 : ℕ) : ℤ) - 1) * ((fpOrder ^ 2 : ℕ) + 1) * (hardExp + 3) =
    ((3 * ((fpOrder ^ 12 - 1) / rOrder) : ℕ) : ℤ) := by
  rw [hardExp_eq]; decide +kernel

theorem easy_full {e : E12 Fp} (he : e ≠ 0) :
    easy e ^ (hardExp + 3) = e ^ (3 * ((fpOrder ^ 12 - 1) / rOrder)) := by
  rw [easy_pow he _ _ fullExp, zpow_natCast]

/-- `Φ₁₂(p)/r` -/
irreducible_def cofac : ℤ := ((fpOrder : ℤ) ^ 4 - fpOrder ^ 2 + 1) / rOrder

theorem cofac_full : (((fpOrder ^ 6 : ℕ) : ℤ) - 1) * ((fpOrder ^ 2 : ℕ) + 1) * cofac =
    (((fpOrder ^ 12 - 1) / rOrder : ℕ) : ℤ) := by
  rw [cofac_def]; decide +kernel

theorem easy_cofac {e : E12 Fp} (he : e ≠ 0) :
    easy e ^ cofac = e ^ ((fpOrder ^ 12 - 1) / rOrder) := by
  rw [easy_pow he _ _ cofac_full, zpow_natCast]

theorem order_aux {G : Type} [Field G] {m : G} (hm : m ≠ 0) {r : ℕ} (hr : r.Prime) (q k : ℤ)
    (h1 : m ^ ((r : ℤ) * q) = 1) (h2 : m ^ q ≠ 1) (h3 : m ^ k = 1) : (r : ℤ) ∣ k := by
  by_contra hd
  have hc : IsCoprime (r : ℤ) k := (Prime.coprime_iff_not_dvd (Nat.prime_iff_prime_int.1 hr)).2 hd
  obtain ⟨a, b, hab⟩ := hc
  apply h2
  have : q = (r * q) * a + k * (b * q) := by linear_combination -q * hab
  rw [this, zpow_add₀ hm, zpow_mul m (r * q) a, h1, zpow_mul m k, h3, one_zpow, one_zpow, one_mul]

theorem cyc_pow_aux {G : Type} [Field G] {m : G} (hm : m ≠ 0) (P K : ℤ)
    (h : m ^ (P * (P * 1)) * m = m ^ (P * 1)) (hk : K = P * P - P + 1) : m ^ K = 1 := by
  have e1 : K + P * 1 = P * (P * 1) + 1 := by rw [hk]; ring
  have e2 : m ^ (K + P * 1) = m ^ (P * 1) := by rw [e1, zpow_add₀ hm, zpow_one, h]
  rw [zpow_add₀ hm] at e2
  exact mul_eq_right₀ (zpow_ne_zero _ hm) |>.1 e2

theorem CN.pow_one {m : E12 Fp} (h : CN m) : m ^ ((rOrder : ℤ) * cofac) = 1 := by
  have h1 := h.cyc
  unfold Cyc at h1
  rw [← zpow_one m, zpow_frob2, zpow_frob2, zpow_one] at h1
  refine cyc_pow_aux h.ne_zero _ _ h1 ?_
  rw [cofac_def]; decide +kernel

theorem feExps_ndvd : ∀ k ∈ feExps ++ [hardExp + 3], ¬ (rOrder : ℤ) ∣ k := by
  rw [feExps, e3_def, e2_def, hardExp_def]
  decide +kernel

theorem feExps_ne {e : E12 Fp} (he : e ≠ 0) (h : e ^ ((fpOrder ^ 12 - 1) / rOrder) ≠ 1) :
    ∀ k ∈ feExps ++ [hardExp + 3], easy e ^ k ≠ 1 := fun k hk h1 => by
  rw [← easy_cofac he] at h
  exact feExps_ndvd k hk (order_aux (easy_CN he).ne_zero rOrder_prime _ _ (easy_CN he).pow_one h h1)

/-- every exponent met along the chain is coprime to `Φ₁₂(p)` -/
theorem feExps_gcd : ∀ k ∈ feExps, Int.gcd k (rOrder * cofac) = 1 := by
  rw [feExps, e3_def, e2_def, hardExp_def, cofac_def]
  decide +kernel

theorem pow_gcd_aux {G : Type} [Field G] {m : G} (hm : m ≠ 0) {N k : ℤ} (hN : m ^ N = 1) (hk : m ^ k = 1)
    (hg : Int.gcd k N = 1) : m = 1 := by
  obtain ⟨a, b, hab⟩ := Int.isCoprime_iff_gcd_eq_one.2 hg
  rw [← zpow_one m, ← hab, zpow_add₀ hm, mul_comm a, mul_comm b, zpow_mul, zpow_mul, hk, hN, one_zpow, one_zpow,
    one_mul]

/-- so the only exceptional value is 1 -/
theorem feExps_ne_iff {e : E12 Fp} (he : e ≠ 0) : (∀ k ∈ feExps, easy e ^ k ≠ 1) ↔ easy e ≠ 1 := by
  constructor
  · intro h h1
    exact h 1 (by simp [feExps]) (by rw [h1, one_zpow])
  · intro h k hk h1
    exact h (pow_gcd_aux (easy_CN he).ne_zero (easy_CN he).pow_one h1 (feExps_gcd k hk))

end Torus
end Spark
