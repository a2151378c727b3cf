import Verif.Lemmas.MillerAte
import Verif.Lemmas.MillerFixed
import Verif.Props.FinalExp

/-! Facts used by the pairing properties: no 2-torsion on `E(Fp)`, orders, non-vanishing Miller
values, and the composition of the Miller loop with the final exponentiation. -/

namespace Spark
open Circ Spec
set_option maxRecDepth 100000

theorem neg4_pow : E2.of ((-4 : Fp)) ^ ((fpOrder - 1) / 3) ≠ 1 := by
  have h : (E2.of (-4 : Fp)) = toE2 fpOrder (fpOrder - 4, 0) := by
    rw [toE2_eq]
    ext
    · show (-4 : Fp) = ((fpOrder - 4 : ℕ) : Fp)
      rw [Nat.cast_sub (by decide +kernel)]
      simp
    · show (0 : Fp) = ((0 : ℕ) : Fp)
      simp
  rw [h, E2.pow_eval _ _ (by decide +kernel) (4002409555221667392624310435006688643935503118305586438271171395842971157480381377015405980053539358417135540939436, 0) (by decide +kernel)]
  intro e
  have e' : toE2 fpOrder (4002409555221667392624310435006688643935503118305586438271171395842971157480381377015405980053539358417135540939436, 0) = toE2 fpOrder (1, 0) := by
    rw [e, toE2_eq]; ext <;> simp
  have := toE2_inj (by decide +kernel) (by decide +kernel) e'
  revert this
  decide +kernel

theorem cube_aux {G : Type} [Field G] {x c : G} {n : ℕ} (hx : x ^ 3 = c) (hn : x ^ (3 * n) = 1) :
    c ^ n = 1 := by rw [← hx, ← pow_mul, hn]

/-- `E(Fp)` has no point with `y = 0`. -/
theorem e1_y_ne {P : E1 Fp} {x y : Fp} (h : Pt P x y) : y ≠ 0 := by
  rintro rfl
  have e := h.eqn
  have h3 : x ^ 3 = -4 := by linear_combination -e
  have hx : x ≠ 0 := by
    rintro rfl
    have h4 : (4 : Fp) = 0 := by linear_combination -e
    have : (2 : Fp) * 2 = 0 := by linear_combination h4
    rcases mul_eq_zero.1 this with h2 | h2 <;>
      exact (Nat.Prime.ne_one Nat.prime_two) (by
        have h2' : ((2 : ℕ) : Fp) = 0 := by exact_mod_cast h2
        rw [ZMod.natCast_eq_zero_iff] at h2'
        exact absurd (Nat.le_of_dvd (by norm_num) h2') (by decide +kernel))
  have hp := ZMod.pow_card_sub_one_eq_one hx
  have hd : fpOrder - 1 = 3 * ((fpOrder - 1) / 3) := by decide +kernel
  rw [hd] at hp
  have := cube_aux h3 hp
  apply neg4_pow
  rw [← E2.of_pow, this]; rfl

/-- small multiples of a point of order `r` do not vanish -/
theorem small_smul_ne {A : Type} [AddCommGroup A] {Q : A} (h0 : Q ≠ 0) (hr : rOrder • Q = 0) {m : ℕ}
    (hm : 0 < m) (hm' : m ≤ Pairing.absSeed) : m • Q ≠ 0 := by
  intro h
  have h1 : addOrderOf Q ∣ rOrder := addOrderOf_dvd_of_nsmul_eq_zero hr
  have h2 : addOrderOf Q ∣ m := addOrderOf_dvd_of_nsmul_eq_zero h
  rcases (Nat.dvd_prime rOrder_prime).1 h1 with h3 | h3
  · exact h0 (AddMonoid.addOrderOf_eq_one_iff.1 h3)
  · rw [h3] at h2
    have := Nat.le_of_dvd hm h2
    exact absurd (this.trans hm') (by decide +kernel)

namespace Pairing
variable {K : Type} [Field K] [TowerField K] [DecidableEq K]

theorem fac62_ne {s : PairState K} {x} (h : (fac62 s).sat x) : x.2 ≠ 0 := by
  obtain ⟨a, -, h⟩ := h
  rw [sat_pure] at h
  subst h
  exact mul_ne_zero (sparse014_ne _ _) (sparse014_ne _ _)

theorem facI_ne {i : ℕ} {s : PairState K} {x} (h : (facI i s).sat x) : x.2 ≠ 0 := by
  rw [facI] at h
  split at h
  · obtain ⟨a, -, h⟩ := h
    rw [sat_pure] at h
    subst h
    exact sparse014_ne _ _
  · obtain ⟨a, -, h⟩ := h
    rw [sat_pure] at h
    subst h
    exact mul_ne_zero (sparse014_ne _ _) (sparse014_ne _ _)

theorem facLast_ne {s : PairState K} {x} (h : (facLast s).sat x) : x.2 ≠ 0 := by
  obtain ⟨a, -, h⟩ := h
  rw [sat_pure] at h
  subst h
  exact sparse014_ne _ _

theorem loop1_ne {i : ℕ} {x z : PairState K × E12 K} (hx : x.2 ≠ 0) (h : (loop1 i x).sat z) : z.2 ≠ 0 := by
  induction i generalizing x with
  | zero => rw [loop1, sat_pure] at h; subst h; exact hx
  | succ i ih =>
    obtain ⟨y, hy, h⟩ := h
    exact ih (x := (y.1, x.2 * x.2 * y.2)) (mul_ne_zero (mul_ne_zero hx hx) (facI_ne hy)) h

/-- Whatever the points and the prover, a Miller loop never has value 0. -/
theorem miller1_ne {x : G1Affine K × G2Affine K} {z : E12 K} (h : (miller1 x).sat z) : z ≠ 0 := by
  obtain ⟨s, -, a, ha, b, hb, c, hc, h⟩ := h
  rw [sat_pure] at h
  subst h
  have := mul_ne_zero (mul_ne_zero (loop1_ne (fac62_ne ha) hb) (loop1_ne (fac62_ne ha) hb)) (facLast_ne hc)
  intro h0
  apply this
  have := congrArg E12.conj h0
  rwa [E12.conj_conj, show E12.conj (0 : E12 K) = 0 from map_zero E12.conjHom] at this

theorem forall₂_right {α β : Type} {R : α → β → Prop} {l : List α} {m : List β}
    (h : List.Forall₂ R l m) {b : β} (hb : b ∈ m) : ∃ a ∈ l, R a b := by
  induction h with
  | nil => cases hb
  | cons h1 h2 ih =>
    rcases List.mem_cons.1 hb with rfl | hb
    · exact ⟨_, List.mem_cons_self, h1⟩
    · obtain ⟨a, ha, h⟩ := ih hb
      exact ⟨a, List.mem_cons_of_mem _ ha, h⟩

theorem forall₂_left {α β : Type} {R : α → β → Prop} {l : List α} {m : List β}
    (h : List.Forall₂ R l m) {a : α} (ha : a ∈ l) : ∃ b ∈ m, R a b := by
  obtain ⟨b, hb, h⟩ := forall₂_right h.flip ha
  exact ⟨b, hb, h⟩

theorem millerLoop_ne {P : List (G1Affine K)} {Q : List (G2Affine K)} {c} (h : millerLoop P Q = .ok c)
    {z : E12 K} (hz : c.sat z) : z ≠ 0 := by
  by_cases h0 : P = []
  · subst h0; cases h
  by_cases hl : P.length = Q.length
  · rw [millerLoop_eq h0 hl] at h
    obtain rfl := Except.ok.inj h
    obtain ⟨zs, hzs, e⟩ := hz
    rw [sat_pure] at e
    subst e
    rw [sat_mapC] at hzs
    intro h
    rw [List.prod_eq_zero_iff] at h
    obtain ⟨a, -, ha⟩ := forall₂_right hzs h
    exact miller1_ne ha rfl
  · simp only [millerLoop] at h
    rw [if_pos (Or.inr hl)] at h
    cases h

end Pairing
end Spark
