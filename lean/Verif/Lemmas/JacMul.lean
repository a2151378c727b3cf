import Verif.Lemmas.Jac
import Verif.Math.NatCurve

/-! Scalar multiplication, conversions, affine arithmetic and ψ of g2.go. -/

namespace Spark.G2
open WeierstrassCurve Spec Circ
set_option maxRecDepth 100000

/-! ### scalar multiplication -/

/-- multiplier after one iteration -/
def mulStep (k j : ℕ) : ℕ :=
  4 * k + (if j = 1 then 1 else if j = 3 then 2 else if j = 7 then 1 else if j = 23 then 1 else 0)

theorem mulSteps_eq : (List.range' 1 31).foldl mulStep 3 = 15132376222941642752 := by decide +kernel

theorem double_nsmul {P : ETwist Fp} {k : ℕ} {p : G2Jacobian Fp} (h : JRep (k • P) p) :
    JRep ((4 * k) • P) (jacDouble (jacDouble p)) := by
  have := jacDouble_rep (jacDouble_rep h)
  rw [← add_nsmul, ← add_nsmul] at this
  rwa [show 4 * k = k + k + (k + k) by ring]

theorem scalarStep_honest {P : ETwist Fp} {t0 t1 res : G2Jacobian Fp} {k : ℕ} (h0 : JRep P t0)
    (h1 : JRep (P + P) t1) (h : JRep (k • P) res) (j : ℕ) :
    ∃ r, (scalarStep t0 t1 res j).run = some r ∧ JRep (mulStep k j • P) r := by
  have hd := double_nsmul h
  simp only [scalarStep, mulStep]
  split
  · rw [add_nsmul, one_nsmul]; exact jacAdd_honest hd h0
  split
  · rw [add_nsmul, two_nsmul]; exact jacAdd_honest hd h1
  split
  · rw [add_nsmul, one_nsmul]; exact jacAdd_honest hd h0
  split
  · rw [add_nsmul, one_nsmul]; exact jacAdd_honest hd h0
  · exact ⟨_, rfl, hd⟩

theorem scalarLoop_honest {P : ETwist Fp} {t0 t1 : G2Jacobian Fp} (h0 : JRep P t0)
    (h1 : JRep (P + P) t1) (l : List ℕ) : ∀ (k : ℕ) (res : G2Jacobian Fp), JRep (k • P) res →
    ∃ r, (l.foldlM (scalarStep t0 t1) res).run = some r ∧ JRep (l.foldl mulStep k • P) r := by
  induction l with
  | nil => intro k res h; exact ⟨res, rfl, h⟩
  | cons j l ih =>
    intro k res h
    obtain ⟨r, e, hr⟩ := scalarStep_honest h0 h1 h j
    rw [List.foldlM_cons, run_bind, e, Option.bind_some]
    exact ih _ r hr

theorem constScalarMul_honest {P : ETwist Fp} {a : G2Jacobian Fp} (h : JRep P a) :
    ∃ r, (constScalarMul a).run = some r ∧ JRep (15132376222941642752 • P) r := by
  have h1 := jacDouble_rep h
  obtain ⟨r, e, hr⟩ := jacAdd_honest h1 h
  have hr' : JRep (3 • P) r := by
    rw [show 3 = 1 + 1 + 1 from rfl, add_nsmul, add_nsmul, one_nsmul]; exact hr
  obtain ⟨s, e', hs⟩ := scalarLoop_honest h h1 (List.range' 1 31) 3 r hr'
  rw [mulSteps_eq] at hs
  refine ⟨s, ?_, hs⟩
  rw [constScalarMul, run_bind, e, Option.bind_some]
  exact e'

theorem mulStep_ge (k j : ℕ) : 4 * k ≤ mulStep k j := Nat.le_add_right _ _

theorem foldl_mulStep_ge (l : List ℕ) (k : ℕ) : k ≤ l.foldl mulStep k := by
  induction l generalizing k with
  | nil => exact le_rfl
  | cons j l ih =>
    have := mulStep_ge k j
    exact le_trans (by omega) (ih (mulStep k j))

theorem nsmul_ne_of {P : ETwist Fp} {N m n : ℕ} (hN : ∀ m, 0 < m → m ≤ N → m • P ≠ 0) (h : n < m)
    (hm : m ≤ N) : m • P ≠ n • P := by
  intro e
  refine hN (m - n) (by omega) (by omega) ?_
  have : (m - n) • P + n • P = 0 + n • P := by
    rw [← add_nsmul, Nat.sub_add_cancel h.le, e, zero_add]
  exact add_right_cancel this

theorem scalarStep_sound {P : ETwist Fp} {t0 t1 res : G2Jacobian Fp} {k N : ℕ} (h0 : JRep P t0)
    (h1 : JRep (P + P) t1) (h : JRep (k • P) res) (j : ℕ) (hk : 0 < k)
    (hN : ∀ m, 0 < m → m ≤ N → m • P ≠ 0) (hle : mulStep k j ≤ N) :
    ∃ r, scalarStep t0 t1 res j = pure r ∧ JRep (mulStep k j • P) r := by
  have hd := double_nsmul h
  have h4 := mulStep_ge k j
  have hd0 : (4 * k) • P ≠ 0 := hN _ (by omega) (by omega)
  have hP0 : P ≠ 0 := by have := hN 1 one_pos (by omega); rwa [one_nsmul] at this
  have hP2 : P + P ≠ 0 := by have := hN 2 two_pos (by omega); rwa [two_nsmul] at this
  have hne1 : (4 * k) • P ≠ P := by
    have := nsmul_ne_of hN (m := 4 * k) (n := 1) (by omega) (by omega)
    rwa [one_nsmul] at this
  have hne2 : (4 * k) • P ≠ P + P := by
    have := nsmul_ne_of hN (m := 4 * k) (n := 2) (by omega) (by omega)
    rwa [two_nsmul] at this
  simp only [scalarStep, mulStep]
  split
  · rw [add_nsmul, one_nsmul]; exact jacAdd_sound hd h0 hd0 hP0 hne1
  split
  · rw [add_nsmul, two_nsmul]; exact jacAdd_sound hd h1 hd0 hP2 hne2
  split
  · rw [add_nsmul, one_nsmul]; exact jacAdd_sound hd h0 hd0 hP0 hne1
  split
  · rw [add_nsmul, one_nsmul]; exact jacAdd_sound hd h0 hd0 hP0 hne1
  · exact ⟨_, rfl, hd⟩

theorem scalarLoop_sound {P : ETwist Fp} {t0 t1 : G2Jacobian Fp} {N : ℕ} (h0 : JRep P t0)
    (h1 : JRep (P + P) t1) (hN : ∀ m, 0 < m → m ≤ N → m • P ≠ 0) (l : List ℕ) :
    ∀ (k : ℕ) (res : G2Jacobian Fp), 0 < k → l.foldl mulStep k ≤ N → JRep (k • P) res →
    ∃ r, l.foldlM (scalarStep t0 t1) res = pure r ∧ JRep (l.foldl mulStep k • P) r := by
  induction l with
  | nil => intro k res _ _ h; exact ⟨res, rfl, h⟩
  | cons j l ih =>
    intro k res hk hle h
    rw [List.foldl_cons] at hle
    have := foldl_mulStep_ge l (mulStep k j)
    obtain ⟨r, e, hr⟩ := scalarStep_sound h0 h1 h j hk hN (by omega)
    rw [List.foldlM_cons, e, pure_bind]
    have := mulStep_ge k j
    exact ih _ r (by omega) hle hr

theorem constScalarMul_sound {P : ETwist Fp} {a : G2Jacobian Fp} (h : JRep P a)
    (hN : ∀ m, 0 < m → m ≤ 15132376222941642752 → m • P ≠ 0) :
    ∃ r, constScalarMul a = pure r ∧ JRep (15132376222941642752 • P) r := by
  have h1 := jacDouble_rep h
  have hP0 : P ≠ 0 := by have := hN 1 one_pos (by omega); rwa [one_nsmul] at this
  have hP2 : P + P ≠ 0 := by have := hN 2 two_pos (by omega); rwa [two_nsmul] at this
  have hne : P + P ≠ P := by
    have := nsmul_ne_of hN (m := 2) (n := 1) (by omega) (by omega)
    rwa [two_nsmul, one_nsmul] at this
  obtain ⟨r, e, hr⟩ := jacAdd_sound h1 h hP2 hP0 hne
  have hr' : JRep (3 • P) r := by
    rw [show 3 = 1 + 1 + 1 from rfl, add_nsmul, add_nsmul, one_nsmul]; exact hr
  obtain ⟨s, e', hs⟩ := scalarLoop_sound h h1 hN (List.range' 1 31) 3 r (by omega)
    (by rw [mulSteps_eq]) hr'
  rw [mulSteps_eq] at hs
  exact ⟨s, by rw [constScalarMul, e, pure_bind, e'], hs⟩

theorem jacDouble_inf {p : G2Jacobian Fp} (h : p.Z = 0) : (jacDouble p).Z = 0 := by
  simp only [jacDouble, tower, h]; ring

theorem scalarLoop_inf {t0 t1 : G2Jacobian Fp} (h0 : t0.Z = 0) (h1 : t1.Z = 0) (l : List ℕ) :
    ∀ (res r : G2Jacobian Fp), res.Z = 0 → (l.foldlM (scalarStep t0 t1) res).sat r → r.Z = 0 := by
  induction l with
  | nil => intro res r h hr; rw [List.foldlM_nil, sat_pure] at hr; rw [hr]; exact h
  | cons j l ih =>
    intro res r h hr
    rw [List.foldlM_cons] at hr
    obtain ⟨s, hs, hr⟩ := hr
    refine ih s r ?_ hr
    have hd := jacDouble_inf (jacDouble_inf h)
    simp only [scalarStep] at hs
    split at hs
    · exact jacAdd_inf hd h0 hs
    split at hs
    · exact jacAdd_inf hd h1 hs
    split at hs
    · exact jacAdd_inf hd h0 hs
    split at hs
    · exact jacAdd_inf hd h0 hs
    · rw [sat_pure] at hs; rw [hs]; exact hd

theorem constScalarMul_inf {a r : G2Jacobian Fp} (h : a.Z = 0) (hr : (constScalarMul a).sat r) :
    r.Z = 0 := by
  obtain ⟨s, hs, hr⟩ := hr
  have hd := jacDouble_inf h
  exact scalarLoop_inf h hd _ s r (jacAdd_inf hd h hs) hr

/-! ### conversions -/

/-- `q` is the affine point `P` -/
def ARep (P : ETwist Fp) (q : G2Affine Fp) : Prop := Pt P q.X q.Y

theorem affNotInfinity_test (q : G2Affine Fp) :
    Test (affNotInfinity q) (q.X ≠ 0 ∨ q.Y ≠ 0) :=
  (e2NotZero_test _).or (e2NotZero_test _)

theorem jacFromAff_bit (q : G2Affine Fp) (b : Bool) :
    (do
      let z ← Ext2.select (bit b) Ext2.one Ext2.zero
      let x ← Ext2.select (bit b) q.X Ext2.one
      let y ← Ext2.select (bit b) q.Y Ext2.one
      pure (⟨x, y, z⟩ : G2Jacobian Fp) : Circ (G2Jacobian Fp)) =
      pure (if b then ⟨q.X, q.Y, 1⟩ else ⟨1, 1, 0⟩) := by
  simp only [tower, pure_bind]
  cases b <;> rfl

theorem jacFromAff_ne {q : G2Affine Fp} (h : q.X ≠ 0 ∨ q.Y ≠ 0) :
    jacFromAff q = pure ⟨q.X, q.Y, 1⟩ := by
  rw [jacFromAff, (affNotInfinity_test q).eq_one h, pure_bind]
  exact jacFromAff_bit q true

theorem jacFromAff_zero_run : (jacFromAff ⟨0, 0⟩).run = some ⟨1, 1, 0⟩ := by
  rw [jacFromAff, run_bind, (affNotInfinity_test _).run_false (by simp), Option.bind_some]
  have := jacFromAff_bit ⟨0, 0⟩ false
  exact congrArg Circ.run this

theorem affFromJac_zero (X Y : E2 Fp) : affFromJac ⟨X, Y, 0⟩ = fail := by
  rw [affFromJac, Ext2.inverse_zero, fail_bind]

theorem affFromJac_ne {j : G2Jacobian Fp} (h : j.Z ≠ 0) :
    affFromJac j = pure ⟨j.X / j.Z ^ 2, j.Y / j.Z ^ 3⟩ := by
  rw [affFromJac, Ext2.inverse_eq h, pure_bind, (e2NotZero_test _).eq_one h, pure_bind]
  have hs : ∀ x y : E2 Fp, Ext2.select 1 x y = pure x := fun x y => Ext2.select_eq true x y
  rw [hs, pure_bind, hs, pure_bind]
  simp only [tower]
  congr 2 <;> field_simp

theorem affFromJac_sound {P : ETwist Fp} {j : G2Jacobian Fp} (h : JRep P j) (hP : P ≠ 0) :
    ∃ q, affFromJac j = pure q ∧ ARep P q := by
  have hz : j.Z ≠ 0 := fun e => hP ((JacOf.Z_eq_zero_iff h).1 e)
  refine ⟨_, affFromJac_ne hz, ?_⟩
  rcases h with ⟨e, -⟩ | ⟨-, h⟩
  · exact absurd e hP
  · exact h

theorem jacFromAff_sound {P : ETwist Fp} {q : G2Affine Fp} (h : ARep P q) (hq : q.X ≠ 0 ∨ q.Y ≠ 0) :
    ∃ j, jacFromAff q = pure j ∧ JRep P j :=
  ⟨_, jacFromAff_ne hq, JacOf.mk h one_ne_zero (by simp) (by simp)⟩

/-! ### affine arithmetic -/

/-- the result of `G2AddAssign` for slope `l` -/
def chord (l : E2 Fp) (p p1 : G2Affine Fp) : G2Affine Fp :=
  ⟨l ^ 2 - p.X - p1.X, l * (p.X - (l ^ 2 - p.X - p1.X)) - p.Y⟩

theorem affAdd_eq (p p1 : G2Affine Fp) : affAdd p p1 =
    (Ext2.divUnchecked (p1.Y - p.Y) (p1.X - p.X) >>= fun l => pure (chord l p p1)) := by
  simp only [affAdd, tower]
  congr 1
  funext l
  congr 1
  ext1
  · simp only [chord]; ring
  · simp only [chord]; ring

theorem affAdd_sound {P Q : ETwist Fp} {p q : G2Affine Fp} (hp : ARep P p) (hq : ARep Q q)
    (h1 : P ≠ Q) (h2 : P + Q ≠ 0) : ∃ r, affAdd p q = pure r ∧ ARep (P + Q) r := by
  have hx := Pt.x_ne hp hq h1 h2
  have hd : q.X - p.X ≠ 0 := sub_ne_zero.2 hx.symm
  refine ⟨_, by rw [affAdd_eq, Ext2.divUnchecked_eq hd, pure_bind], ?_⟩
  refine Pt.add hp hq hx ?_
  field_simp
  ring

theorem affSub_sound {P Q : ETwist Fp} {p q : G2Affine Fp} (hp : ARep P p) (hq : ARep Q q)
    (h1 : P ≠ -Q) (h2 : P ≠ Q) : ∃ r, affSub p q = pure r ∧ ARep (P - Q) r := by
  rw [sub_eq_add_neg]
  exact affAdd_sound hp (q := ⟨q.X, -q.Y⟩) (Pt.neg hq) h1 (by rwa [← sub_eq_add_neg, sub_ne_zero])

/-- the result of `G2Double` for slope `l` -/
def tangent (l : E2 Fp) (p : G2Affine Fp) : G2Affine Fp :=
  ⟨l ^ 2 - p.X - p.X, l * (p.X - (l ^ 2 - p.X - p.X)) - p.Y⟩

theorem affDouble_eq (p : G2Affine Fp) : affDouble p =
    (Ext2.divUnchecked (3 * p.X ^ 2) (2 * p.Y) >>= fun l => pure (tangent l p)) := by
  have e3 : E2.of (3 : Fp) = 3 := rfl
  have e2 : E2.of (2 : Fp) = 2 := rfl
  simp only [affDouble, tower, e3, e2]
  rw [show p.X * p.X * 3 = 3 * p.X ^ 2 by ring, show p.Y * 2 = 2 * p.Y by ring]
  congr 1
  funext l
  congr 1
  ext1
  · simp only [tangent]; ring
  · simp only [tangent]; ring

theorem affDouble_sound {P : ETwist Fp} {p : G2Affine Fp} (hp : ARep P p) (h2 : P + P ≠ 0) :
    ∃ r, affDouble p = pure r ∧ ARep (P + P) r := by
  have hy := Pt.two_y_ne hp h2
  refine ⟨_, by rw [affDouble_eq, Ext2.divUnchecked_eq hy, pure_bind], ?_⟩
  exact Pt.double hp hy (div_mul_cancel₀ _ hy)

end Spark.G2
