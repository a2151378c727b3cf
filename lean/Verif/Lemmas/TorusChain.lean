import Verif.Lemmas.TorusExp
import Verif.Math.GroupOrder
import Mathlib.Tactic.NormNum.DivMod
import Mathlib.Data.Int.GCD

/-! Addition chains on compressed elements: every output of a chain decompresses to the right
power, and the chains are exact on elements whose order is divisible by the group order. -/

namespace Spark
open Circ
set_option maxRecDepth 100000

namespace Torus

/-! ### soundness: values that decompress to a given power -/

/-- `y` decompresses to `a^i` -/
def Is (a : E12 Fp) (i : ℤ) (y : E6 Fp) : Prop := D y = a ^ i

theorem Is.self (y : E6 Fp) : Is (D y) 1 y := (zpow_one _).symm

theorem D_ne_zero (y : E6 Fp) : D y ≠ 0 := (tor_D y).ne_zero

section sound
variable {a : E12 Fp} {i j : ℤ} {y y' z : E6 Fp}

theorem Is.cast (h : Is a i y) (e : i = j) : Is a j y := e ▸ h

theorem Is.mul (ha : a ≠ 0) (h : Is a i y) (h' : Is a j y') (hz : (Ext12.mulTorus y y').sat z) :
    Is a (i + j) z := by
  rw [mulTorus_eq, sat_tor] at hz
  unfold Is at *
  rw [hz.2, D_C ⟨?_, hz.1⟩, h, h', zpow_add₀ ha]
  rw [E12.conj_mul]
  have h1 := (tor_D y).1
  have h2 := (tor_D y').1
  linear_combination D y' * E12.conj (D y') * h1 + h2

theorem Is.sq (h : Is a i y) (hz : (Ext12.squareTorus y).sat z) : Is a (2 * i) z := by
  rw [sat_squareTorus, sat_tor] at hz
  unfold Is at *
  rw [hz.2, D_C ⟨?_, hz.1⟩, h, zpow_mul, zpow_two, mul_zpow]
  rw [E12.conj_mul]
  have h1 := (tor_D y).1
  linear_combination (D y * E12.conj (D y) + 1) * h1

theorem Is.nsq {n : ℕ} : ∀ {i : ℤ} {y : E6 Fp}, Is a i y → (Ext12.nSquareTorus y n).sat z →
    Is a (2 ^ n * i) z := by
  induction n with
  | zero => intro i y h hz; rw [Ext12.nSquareTorus, sat_pure] at hz; subst hz; exact h.cast (by ring)
  | succ n ih =>
    intro i y h hz
    rw [Ext12.nSquareTorus] at hz
    obtain ⟨w, h1, h2⟩ := hz
    exact (ih (h.sq h1) h2).cast (by ring)

theorem Is.inv (h : Is a i y) : Is a (-i) (Ext12.inverseTorus y) := by
  unfold Is at *
  rw [Ext12.inverseTorus, Ext6.neg_eq, D_neg, h, zpow_neg]

theorem Is.frob (h : Is a i y) : Is a (fpOrder * i) (Ext12.frobeniusTorus y) := by
  unfold Is at *
  rw [D_frobeniusTorus, frobHom_apply, h, mul_comm, zpow_mul, zpow_natCast]

theorem Is.frob2 (h : Is a i y) : Is a ((fpOrder : ℤ) ^ 2 * i) (Ext12.frobeniusSquareTorus y) := by
  unfold Is at *
  rw [D_frobeniusSquareTorus, frobHom2_apply, h, mul_comm, zpow_mul]
  norm_cast

theorem Is.half (ha : a ≠ 0) (h : Is a i y) (hz : (Ext12.exptHalfTorus y).sat z) :
    Is a (-7566188111470821376 * i) z := by
  rw [Ext12.exptHalfTorus] at hz
  obtain ⟨z1, h1, z2, h2, z3, h3, z4, h4, z5, h5, z6, h6, z7, h7, z8, h8, z9, h9, z10, h10,
    z11, h11, z12, h12, hz⟩ := hz
  rw [sat_pure] at hz
  subst hz
  have g1 := h.sq h1
  have g2 := h.mul ha g1 h2
  have g3 := g2.sq h3
  have g4 := g3.sq h4
  have g5 := h.mul ha g4 h5
  have g6 := g5.nsq h6
  have g7 := h.mul ha g6 h7
  have g8 := g7.nsq h8
  have g9 := h.mul ha g8 h9
  have g10 := g9.nsq h10
  have g11 := h.mul ha g10 h11
  have g12 := g11.nsq h12
  exact g12.inv.cast (by ring)

theorem Is.expt (ha : a ≠ 0) (h : Is a i y) (hz : (Ext12.exptTorus y).sat z) :
    Is a (-15132376222941642752 * i) z := by
  rw [Ext12.exptTorus] at hz
  obtain ⟨z1, h1, h2⟩ := hz
  exact ((h.half ha h1).sq h2).cast (by ring)

end sound

/-! ### exact behaviour on cyclotomic elements -/

/-- cyclotomic of norm 1 -/
structure CN (a : E12 Fp) : Prop where
  cyc : Cyc a
  norm : a * E12.conj a = 1

open Classical in
/-- the circuit that outputs `z` if none of the powers `a^k`, `k ∈ L`, is 1, and is unsatisfiable
otherwise -/
noncomputable def chk {α : Type} (a : E12 Fp) (L : List ℤ) (z : α) : Circ α :=
  if ∀ k ∈ L, a ^ k ≠ 1 then pure z else fail

section exact
variable {a : E12 Fp} {i j : ℤ} {α β : Type}

theorem chk_pure {L : List ℤ} (h : ∀ k ∈ L, a ^ k ≠ 1) (z : α) : chk a L z = pure z := if_pos h

theorem chk_fail {L : List ℤ} (h : ∃ k ∈ L, a ^ k = 1) (z : α) : chk a L z = fail :=
  if_neg fun h' => by obtain ⟨k, hk, e⟩ := h; exact h' k hk e

theorem chk_nil (z : α) : chk a [] z = pure z := chk_pure (by simp) z

theorem chk_bind {L L' : List ℤ} {z : α} {w : β} {f : α → Circ β}
    (h : (∀ k ∈ L, a ^ k ≠ 1) → f z = chk a L' w) : chk a L z >>= f = chk a (L ++ L') w := by
  by_cases hL : ∀ k ∈ L, a ^ k ≠ 1
  · rw [chk_pure hL, pure_bind, h hL]
    by_cases hL' : ∀ k ∈ L', a ^ k ≠ 1
    · rw [chk_pure hL', chk_pure]
      intro k hk
      rcases List.mem_append.1 hk with hk | hk
      · exact hL k hk
      · exact hL' k hk
    · push Not at hL'
      rw [chk_fail hL', chk_fail]
      obtain ⟨k, hk, e⟩ := hL'
      exact ⟨k, List.mem_append.2 (Or.inr hk), e⟩
  · push Not at hL
    rw [chk_fail hL, fail_bind, chk_fail]
    obtain ⟨k, hk, e⟩ := hL
    exact ⟨k, List.mem_append.2 (Or.inl hk), e⟩

theorem chk_bind_pure {L : List ℤ} {z : α} {w : β} {f : α → Circ β}
    (h : (∀ k ∈ L, a ^ k ≠ 1) → f z = pure w) : chk a L z >>= f = chk a L w := by
  rw [chk_bind (L' := []) (w := w) (fun hL => by rw [h hL, chk_nil]), List.append_nil]

theorem Cyc.zpow (ha : Cyc a) (i : ℤ) : Cyc (a ^ i) := by
  unfold Cyc at *
  rw [map_zpow₀, map_zpow₀, ← mul_zpow, ha]

theorem norm_zpow (h : a * E12.conj a = 1) (i : ℤ) : a ^ i * E12.conj (a ^ i) = 1 := by
  rw [← E12.frob6, ← zpow_natCast (a ^ i), ← zpow_mul, mul_comm i, zpow_mul, zpow_natCast,
    ← mul_zpow, E12.frob6, h, one_zpow]

theorem CN.ne_zero (h : CN a) : a ≠ 0 := fun h0 => by
  have := h.norm; rw [h0, zero_mul] at this; exact zero_ne_one this

theorem CN.tor (h : CN a) (hi : a ^ i ≠ 1) : Tor (a ^ i) := ⟨norm_zpow h.norm i, hi⟩

theorem tor_zpow (k : ℤ) : tor (a ^ k) = chk a [k] (C (a ^ k)) := by
  by_cases h : a ^ k = 1
  · rw [chk_fail ⟨k, by simp, h⟩, h, tor_one]
  · rw [chk_pure (by simpa using h), tor_of_ne h]

theorem CN.mul (h : CN a) (hi : a ^ i ≠ 1) (hj : a ^ j ≠ 1) :
    Ext12.mulTorus (C (a ^ i)) (C (a ^ j)) = chk a [i + j] (C (a ^ (i + j))) := by
  rw [mulTorus_C (h.tor hi) (h.tor hj), ← zpow_add₀ h.ne_zero, tor_zpow]

theorem CN.mul' (h : CN a) {k : ℤ} (hi : a ^ i ≠ 1) (hj : a ^ j ≠ 1) (e : k = i + j) :
    Ext12.mulTorus (C (a ^ i)) (C (a ^ j)) = chk a [k] (C (a ^ k)) := by
  subst e; exact h.mul hi hj

theorem CN.sq (h : CN a) (hi : a ^ i ≠ 1) :
    Ext12.squareTorus (C (a ^ i)) = chk a [2 * i] (C (a ^ (2 * i))) := by
  rw [squareTorus_of_cyc (h.tor hi) (cyclotomicSquare_eq (h.cyc.zpow i)),
    ← zpow_add₀ h.ne_zero, ← two_mul, tor_zpow]

theorem CN.sq' (h : CN a) {k : ℤ} (hi : a ^ i ≠ 1) (e : k = 2 * i) :
    Ext12.squareTorus (C (a ^ i)) = chk a [k] (C (a ^ k)) := by
  subst e; exact h.sq hi

/-- the exponents met while doubling `n` times from `i` -/
def nsqExps : ℕ → ℤ → List ℤ
  | 0, _ => []
  | n + 1, i => (2 * i) :: nsqExps n (2 * i)

theorem nsqExps_last (n : ℕ) : ∀ i : ℤ, (2 ^ n * i = i) ∨ 2 ^ n * i ∈ nsqExps n i := by
  induction n with
  | zero => intro i; left; ring
  | succ n ih =>
    intro i
    right
    rw [nsqExps]
    rcases ih (2 * i) with h | h
    · rw [pow_succ, mul_assoc, h]; exact List.mem_cons_self
    · rw [pow_succ, mul_assoc]; exact List.mem_cons_of_mem _ h

theorem CN.nsq (h : CN a) (n : ℕ) : ∀ {i : ℤ}, a ^ i ≠ 1 →
    Ext12.nSquareTorus (C (a ^ i)) n = chk a (nsqExps n i) (C (a ^ (2 ^ n * i))) := by
  induction n with
  | zero => intro i hi; rw [Ext12.nSquareTorus, nsqExps, chk_nil, pow_zero, one_mul]
  | succ n ih =>
    intro i hi
    rw [Ext12.nSquareTorus, h.sq hi]
    rw [pow_succ, mul_assoc]
    exact chk_bind (L := [2 * i]) fun hL => ih (hL _ List.mem_cons_self)

theorem CN.nsq' (h : CN a) (n : ℕ) {k : ℤ} (hi : a ^ i ≠ 1) (e : k = 2 ^ n * i) :
    Ext12.nSquareTorus (C (a ^ i)) n = chk a (nsqExps n i) (C (a ^ k)) := by
  subst e; exact h.nsq n hi

theorem nsq_ne {n : ℕ} {k : ℤ} (hi : a ^ i ≠ 1) (hL : ∀ k ∈ nsqExps n i, a ^ k ≠ 1)
    (e : k = 2 ^ n * i) : a ^ k ≠ 1 := by
  subst e
  rcases nsqExps_last n i with h | h
  · rwa [h]
  · exact hL _ h

theorem CN.inv (h : CN a) (hi : a ^ i ≠ 1) :
    Ext12.inverseTorus (C (a ^ i)) = C (a ^ (-i)) := by
  rw [inverseTorus_C (h.tor hi), zpow_neg]

theorem CN.inv' (h : CN a) {k : ℤ} (hi : a ^ i ≠ 1) (e : k = -i) :
    Ext12.inverseTorus (C (a ^ i)) = C (a ^ k) := by
  subst e; exact h.inv hi

theorem neg_ne_aux {G : Type} [Field G] {x : G} {i : ℤ} (hi : x ^ i ≠ 1) : x ^ (-i) ≠ 1 := by
  rw [zpow_neg]; exact fun h => hi (inv_eq_one.1 h)

theorem neg_ne (hi : a ^ i ≠ 1) : a ^ (-i) ≠ 1 := neg_ne_aux hi

theorem neg_ne' {k : ℤ} (hi : a ^ i ≠ 1) (e : k = -i) : a ^ k ≠ 1 := e ▸ neg_ne hi

/-- the exponents met while raising to half the seed -/
def halfExps (i : ℤ) : List ℤ :=
  [2 * i] ++ ([3 * i] ++ ([6 * i] ++ ([12 * i] ++ ([13 * i] ++ (nsqExps 3 (13 * i) ++
    ([105 * i] ++ (nsqExps 9 (105 * i) ++ ([53761 * i] ++ (nsqExps 32 (53761 * i) ++
      ([230901736800257 * i] ++ nsqExps 15 (230901736800257 * i)))))))))))

theorem CN.half (h : CN a) (hi : a ^ i ≠ 1) :
    Ext12.exptHalfTorus (C (a ^ i)) = chk a (halfExps i) (C (a ^ (-7566188111470821376 * i))) := by
  rw [Ext12.exptHalfTorus, halfExps, h.sq hi]
  refine chk_bind fun h1 => ?_
  rw [h.mul' (k := 3 * i) hi (h1 _ List.mem_cons_self) (by ring)]
  refine chk_bind fun h2 => ?_
  rw [h.sq' (k := 6 * i) (h2 _ List.mem_cons_self) (by ring)]
  refine chk_bind fun h3 => ?_
  rw [h.sq' (k := 12 * i) (h3 _ List.mem_cons_self) (by ring)]
  refine chk_bind fun h4 => ?_
  rw [h.mul' (k := 13 * i) hi (h4 _ List.mem_cons_self) (by ring)]
  refine chk_bind fun h5 => ?_
  rw [h.nsq' 3 (k := 104 * i) (h5 _ List.mem_cons_self) (by ring)]
  refine chk_bind fun h6 => ?_
  rw [h.mul' (k := 105 * i) hi (nsq_ne (h5 _ List.mem_cons_self) h6 (by ring)) (by ring)]
  refine chk_bind fun h7 => ?_
  rw [h.nsq' 9 (k := 53760 * i) (h7 _ List.mem_cons_self) (by ring)]
  refine chk_bind fun h8 => ?_
  rw [h.mul' (k := 53761 * i) hi (nsq_ne (h7 _ List.mem_cons_self) h8 (by ring)) (by ring)]
  refine chk_bind fun h9 => ?_
  rw [h.nsq' 32 (k := 230901736800256 * i) (h9 _ List.mem_cons_self) (by ring)]
  refine chk_bind fun h10 => ?_
  rw [h.mul' (k := 230901736800257 * i) hi (nsq_ne (h9 _ List.mem_cons_self) h10 (by ring)) (by ring)]
  refine chk_bind fun h11 => ?_
  rw [h.nsq' 15 (k := 7566188111470821376 * i) (h11 _ List.mem_cons_self) (by ring)]
  refine chk_bind_pure fun h12 => ?_
  rw [h.inv' (k := -7566188111470821376 * i) (nsq_ne (h11 _ List.mem_cons_self) h12 (by ring)) (by ring)]

theorem half_ne (hL : ∀ k ∈ halfExps i, a ^ k ≠ 1) : a ^ (-7566188111470821376 * i) ≠ 1 := by
  have h1 : a ^ (230901736800257 * i) ≠ 1 := hL _ (by simp [halfExps])
  refine neg_ne' (nsq_ne (n := 15) (k := 7566188111470821376 * i) h1 (fun k hk => hL k ?_) (by ring)) (by ring)
  simp [halfExps, hk]

/-- the exponents met while raising to the seed -/
def exptExps (i : ℤ) : List ℤ := halfExps i ++ [-15132376222941642752 * i]

theorem CN.expt (h : CN a) (hi : a ^ i ≠ 1) :
    Ext12.exptTorus (C (a ^ i)) = chk a (exptExps i) (C (a ^ (-15132376222941642752 * i))) := by
  rw [Ext12.exptTorus, h.half hi]
  refine chk_bind fun h1 => ?_
  rw [h.sq' (k := -15132376222941642752 * i) (half_ne h1) (by ring)]

theorem expt_ne (hL : ∀ k ∈ exptExps i, a ^ k ≠ 1) : a ^ (-15132376222941642752 * i) ≠ 1 :=
  hL _ (by simp [exptExps])

theorem zpow_frob (i : ℤ) : frobHom (a ^ i) = a ^ (fpOrder * i) := by
  rw [frobHom_apply, mul_comm (fpOrder : ℤ), zpow_mul, zpow_natCast]

theorem zpow_frob2 (i : ℤ) : frobHom2 (a ^ i) = a ^ ((fpOrder : ℤ) ^ 2 * i) := by
  rw [frobHom2_apply, mul_comm ((fpOrder : ℤ) ^ 2), zpow_mul]
  norm_cast

theorem frob_ne (hi : a ^ i ≠ 1) : a ^ (fpOrder * i) ≠ 1 := by
  rw [← zpow_frob]; intro h; exact hi (frobHom.injective (h.trans (map_one frobHom).symm))

theorem frob2_ne (hi : a ^ i ≠ 1) : a ^ ((fpOrder : ℤ) ^ 2 * i) ≠ 1 := by
  rw [← zpow_frob2]; intro h; exact hi (frobHom2.injective (h.trans (map_one frobHom2).symm))

theorem CN.frob (h : CN a) (hi : a ^ i ≠ 1) :
    Ext12.frobeniusTorus (C (a ^ i)) = C (a ^ (fpOrder * i)) := by
  apply D_inj
  rw [D_frobeniusTorus, D_C (h.tor hi), D_C (h.tor (frob_ne hi)), zpow_frob]

theorem CN.frob2 (h : CN a) (hi : a ^ i ≠ 1) :
    Ext12.frobeniusSquareTorus (C (a ^ i)) = C (a ^ ((fpOrder : ℤ) ^ 2 * i)) := by
  apply D_inj
  rw [D_frobeniusSquareTorus, D_C (h.tor hi), D_C (h.tor (frob2_ne hi)), zpow_frob2]

end exact

end Torus
end Spark
