import Verif.Math.Tower6
import Verif.Math.Fp

/-!
# Specification for C74: integers representing an element of a tower field modulo `p`
-/

namespace Spark.HintProps
open Spark

/-- the element of the tower whose coordinates are given by integers -/
def cast2 (rx : E2 ℕ) : E2 Fp := ⟨(rx.A0 : Fp), (rx.A1 : Fp)⟩

/-- the integers `rx`, reduced or not, represent the coordinates of `x` -/
def Rep2 (rx : E2 ℕ) (x : E2 Fp) : Prop := cast2 rx = x

/-- the element of the tower whose coordinates are given by integers -/
def cast6 (rx : E6 ℕ) : E6 Fp := ⟨⟨(rx.B0.A0 : Fp), (rx.B0.A1 : Fp)⟩, ⟨(rx.B1.A0 : Fp), (rx.B1.A1 : Fp)⟩, ⟨(rx.B2.A0 : Fp), (rx.B2.A1 : Fp)⟩⟩

/-- the integers `rx`, reduced or not, represent the coordinates of `x` -/
def Rep6 (rx : E6 ℕ) (x : E6 Fp) : Prop := cast6 rx = x

/-- the element of the tower whose coordinates are given by integers -/
def cast12 (rx : E12 ℕ) : E12 Fp := ⟨⟨⟨(rx.C0.B0.A0 : Fp), (rx.C0.B0.A1 : Fp)⟩, ⟨(rx.C0.B1.A0 : Fp), (rx.C0.B1.A1 : Fp)⟩, ⟨(rx.C0.B2.A0 : Fp), (rx.C0.B2.A1 : Fp)⟩⟩, ⟨⟨(rx.C1.B0.A0 : Fp), (rx.C1.B0.A1 : Fp)⟩, ⟨(rx.C1.B1.A0 : Fp), (rx.C1.B1.A1 : Fp)⟩, ⟨(rx.C1.B2.A0 : Fp), (rx.C1.B2.A1 : Fp)⟩⟩⟩

/-- the integers `rx`, reduced or not, represent the coordinates of `x` -/
def Rep12 (rx : E12 ℕ) (x : E12 Fp) : Prop := cast12 rx = x

end Spark.HintProps
