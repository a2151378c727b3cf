import Verif.Lemmas.Hints
import Verif.Props.Torus
import Verif.Props.Tower

/-!
# C74: the hint functions and their call sites

`rx`, `ry` are the integers, reduced modulo `p` or not, that the solver passes for the coordinates of `x`, `y`.
-/

namespace Spark.HintProps
open Spark Circ Hints TorusProps TowerProps Torus

/-- **C74, inversion.** With the hint functions of hints.go called as in tower.go, the inversion of every non-zero
element, whatever integers represent it, has exactly one outcome, the inverse, which the honest solver finds. -/
theorem c74_inverse :
    (∀ {rx x}, Rep2 rx x → x ≠ 0 → inverseE2 rx x = pure x⁻¹) ∧
    (∀ {rx x}, Rep6 rx x → x ≠ 0 → inverseE6 rx x = pure x⁻¹) ∧
    (∀ {rx x}, Rep12 rx x → x ≠ 0 → inverseE12 rx x = pure x⁻¹) :=
  ⟨fun h h0 => (inverseE2_eq h).trans ((c28_e2_inverse _).1 h0),
   fun h h0 => (inverseE6_eq h).trans ((c28_e6_inverse _).1 h0),
   fun h h0 => (inverseE12_eq h).trans ((c28_e12_inverse _).1 h0)⟩

/-- **C74, division.** -/
theorem c74_division :
    (∀ {rx ry x y}, Rep2 rx x → Rep2 ry y → y ≠ 0 → divE2 rx ry x y = pure (x / y)) ∧
    (∀ {rx ry x y}, Rep6 rx x → Rep6 ry y → y ≠ 0 → divE6 rx ry x y = pure (x / y)) ∧
    (∀ {rx ry x y}, Rep12 rx x → Rep12 ry y → y ≠ 0 → divE12 rx ry x y = pure (x / y)) :=
  ⟨fun hx hy h0 => (divE2_eq hx hy).trans (Ext2.divUnchecked_eq h0 _),
   fun hx hy h0 => (divE6_eq hx hy).trans (Ext6.divUnchecked_eq h0 _),
   fun hx hy h0 => (divE12_eq hx hy).trans (Ext12.divUnchecked_eq h0 _)⟩

/-- **C74, squaring on the torus.** For compressed cyclotomic elements whose square is not 1. -/
theorem c74_square_torus {ry : E6 ℕ} {y : E6 Fp} (hy : Rep6 ry y)
    (hc : Dec y ^ fpOrder ^ 4 * Dec y = Dec y ^ fpOrder ^ 2) (h : Dec y ^ 2 ≠ 1) :
    ∃ r, squareTorus ry y = pure r ∧ Dec r = Dec y ^ 2 := by
  rw [squareTorus_eq hy]
  exact c33_squareTorus_exact y hc h

/-- The circuits with these hints are the ones all other theorems are about. -/
theorem c74_same_circuits :
    (∀ {rx x}, Rep2 rx x → inverseE2 rx x = Ext2.inverse x) ∧
    (∀ {rx x}, Rep6 rx x → inverseE6 rx x = Ext6.inverse x) ∧
    (∀ {rx x}, Rep12 rx x → inverseE12 rx x = Ext12.inverse x) ∧
    (∀ {rx ry x y}, Rep2 rx x → Rep2 ry y → divE2 rx ry x y = Ext2.divUnchecked x y) ∧
    (∀ {rx ry x y}, Rep6 rx x → Rep6 ry y → divE6 rx ry x y = Ext6.divUnchecked x y) ∧
    (∀ {rx ry x y}, Rep12 rx x → Rep12 ry y → divE12 rx ry x y = Ext12.divUnchecked x y) ∧
    (∀ {ry y}, Rep6 ry y → squareTorus ry y = Ext12.squareTorus y) :=
  ⟨inverseE2_eq, inverseE6_eq, inverseE12_eq, divE2_eq, divE6_eq, divE12_eq, squareTorus_eq⟩

/-- The hint `divG1Hint` (used by no circuit of the package) divides abscissa by abscissa and ordinate by
ordinate; with fewer than four inputs it panics. -/
theorem c74_div_g1 (ax ay bx by' : ℕ) (rest : List ℕ) :
    solve .divG1 2 (ax :: ay :: bx :: by' :: rest) = some #v[(ax : Fp) / bx, (ay : Fp) / by'] ∧
      ∀ ins : List ℕ, ins.length < 4 → solve .divG1 2 ins = none := by
  constructor
  · change some (Vector.ofFn fun i : Fin 2 =>
      ((([big ((bx : Fp)⁻¹ * ax), big ((by' : Fp)⁻¹ * ay)] : List ℕ).getD i.val 0 : ℕ) : Fp)) = _
    refine congrArg some (Vector.ext fun i hi => ?_)
    rw [Vector.getElem_ofFn]
    obtain rfl | rfl : i = 0 ∨ i = 1 := by omega
    · exact (cast_big _).trans (div_eq_inv_mul _ _).symm
    · exact (cast_big _).trans (div_eq_inv_mul _ _).symm
  · intro ins h
    rcases ins with _ | ⟨_, _ | ⟨_, _ | ⟨_, _ | ⟨_, _⟩⟩⟩⟩
    · rfl
    · rfl
    · rfl
    · rfl
    · simp at h
      omega

/-- **C58, tower elements.** Off-circuit values of the tower keep their coordinates when they become circuit inputs. -/
theorem c58_tower (x : E2 Fp) (y : E6 Fp) (z : E12 Fp) :
    fromE2 x = x ∧ fromE6 y = y ∧ fromE12 z = z ∧ newGTEl z = z := ⟨rfl, rfl, rfl, rfl⟩

/-- unreduced representatives of `1 + 2u` and its inverse -/
example : inverseE2 ⟨fpOrder + 1, 2 * fpOrder + 2⟩ ⟨1, 2⟩ = pure (⟨1, 2⟩ : E2 Fp)⁻¹ :=
  c74_inverse.1 (by
    rw [Rep2, cast2]
    push_cast
    rw [show ((fpOrder : ℕ) : Fp) = 0 from ZMod.natCast_self _]
    simp) fun h => one_ne_zero (congrArg E2.A0 h)

end Spark.HintProps
