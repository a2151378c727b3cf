import Verif.Model.Hints
import Verif.Spec.Hints

/-!
# Helper lemmas for C74: the flat hints are the hints of the tower model
-/

namespace Spark.HintProps
open Spark Circ Hints

theorem hint_map {α β γ : Type} (o : Option α) (f : α → β) (hf : Function.Surjective f) (g : β → Circ γ) :
    (hint o >>= fun a => g (f a)) = hint (o.map f) >>= g := by
  refine ext' ?_ fun c => ?_
  · rw [run_bind, run_bind, run_hint, run_hint, Option.bind_map]; rfl
  · rw [sat_bind, sat_bind]
    constructor
    · rintro ⟨a, -, h⟩
      exact ⟨f a, trivial, h⟩
    · rintro ⟨b, -, h⟩
      obtain ⟨a, rfl⟩ := hf b
      exact ⟨a, trivial, h⟩

theorem cast_big (x : Fp) : ((big x : ℕ) : Fp) = x := ZMod.natCast_zmod_val x

/-- an element from the results of a hint -/
def ofRes2 (res : Vector Fp 2) : E2 Fp := ⟨res[0], res[1]⟩

theorem ofRes2_surjective : Function.Surjective ofRes2 := fun x =>
  ⟨#v[x.A0, x.A1], rfl⟩

theorem ofRes2_solve {h : Name} {ins : List ℕ} {c : E2 Fp} (hh : h ∈ getHints)
    (hf : fn h ins = some [big c.A0, big c.A1]) :
    (solve h 2 ins).map ofRes2 = some c := by
  rw [solve, if_pos hh, hf, Option.bind_some, if_pos (by simp)]
  refine congrArg some ?_
  simp only [ofRes2, Vector.getElem_ofFn, List.getD_cons_zero, List.getD_cons_succ, cast_big]

theorem inverseE2_eq {rx : E2 ℕ} {x : E2 Fp} (hx : Rep2 rx x) : inverseE2 rx x = Ext2.inverse x := by
  obtain rfl := hx
  refine (hint_map (solve .inverseE2 2 (args2 rx)) ofRes2 ofRes2_surjective fun inv => do
    Ext2.assertIsEqual Ext2.one (Ext2.mul inv (cast2 rx))
    pure inv).trans ?_
  rw [ofRes2_solve (c := (cast2 rx)⁻¹) (by decide) rfl]
  rfl

theorem divE2_eq {rx ry : E2 ℕ} {x y : E2 Fp} (hx : Rep2 rx x) (hy : Rep2 ry y) :
    divE2 rx ry x y = Ext2.divUnchecked x y := by
  obtain rfl := hx
  obtain rfl := hy
  refine (hint_map (solve .divE2 2 (args2 rx ++ args2 ry)) ofRes2 ofRes2_surjective fun div => do
    Ext2.assertIsEqual (cast2 rx) (Ext2.mul div (cast2 ry))
    pure div).trans ?_
  rw [ofRes2_solve (c := (cast2 ry)⁻¹ * cast2 rx) (by decide) rfl]
  rfl

/-- an element from the results of a hint -/
def ofRes6 (res : Vector Fp 6) : E6 Fp := ⟨⟨res[0], res[1]⟩, ⟨res[2], res[3]⟩, ⟨res[4], res[5]⟩⟩

theorem ofRes6_surjective : Function.Surjective ofRes6 := fun x =>
  ⟨#v[x.B0.A0, x.B0.A1, x.B1.A0, x.B1.A1, x.B2.A0, x.B2.A1], rfl⟩

theorem ofRes6_solve {h : Name} {ins : List ℕ} {c : E6 Fp} (hh : h ∈ getHints)
    (hf : fn h ins = some [big c.B0.A0, big c.B0.A1, big c.B1.A0, big c.B1.A1, big c.B2.A0, big c.B2.A1]) :
    (solve h 6 ins).map ofRes6 = some c := by
  rw [solve, if_pos hh, hf, Option.bind_some, if_pos (by simp)]
  refine congrArg some ?_
  simp only [ofRes6, Vector.getElem_ofFn, List.getD_cons_zero, List.getD_cons_succ, cast_big]

theorem inverseE6_eq {rx : E6 ℕ} {x : E6 Fp} (hx : Rep6 rx x) : inverseE6 rx x = Ext6.inverse x := by
  obtain rfl := hx
  refine (hint_map (solve .inverseE6 6 (args6 rx)) ofRes6 ofRes6_surjective fun inv => do
    Ext6.assertIsEqual Ext6.one (Ext6.mul inv (cast6 rx))
    pure inv).trans ?_
  rw [ofRes6_solve (c := (cast6 rx)⁻¹) (by decide) rfl]
  rfl

theorem divE6_eq {rx ry : E6 ℕ} {x y : E6 Fp} (hx : Rep6 rx x) (hy : Rep6 ry y) :
    divE6 rx ry x y = Ext6.divUnchecked x y := by
  obtain rfl := hx
  obtain rfl := hy
  refine (hint_map (solve .divE6 6 (args6 rx ++ args6 ry)) ofRes6 ofRes6_surjective fun div => do
    Ext6.assertIsEqual (cast6 rx) (Ext6.mul div (cast6 ry))
    pure div).trans ?_
  rw [ofRes6_solve (c := (cast6 ry)⁻¹ * cast6 rx) (by decide) rfl]
  rfl

/-- an element from the results of a hint -/
def ofRes12 (res : Vector Fp 12) : E12 Fp := ⟨⟨⟨res[0], res[1]⟩, ⟨res[2], res[3]⟩, ⟨res[4], res[5]⟩⟩, ⟨⟨res[6], res[7]⟩, ⟨res[8], res[9]⟩, ⟨res[10], res[11]⟩⟩⟩

theorem ofRes12_surjective : Function.Surjective ofRes12 := fun x =>
  ⟨#v[x.C0.B0.A0, x.C0.B0.A1, x.C0.B1.A0, x.C0.B1.A1, x.C0.B2.A0, x.C0.B2.A1, x.C1.B0.A0, x.C1.B0.A1, x.C1.B1.A0, x.C1.B1.A1, x.C1.B2.A0, x.C1.B2.A1], rfl⟩

theorem ofRes12_solve {h : Name} {ins : List ℕ} {c : E12 Fp} (hh : h ∈ getHints)
    (hf : fn h ins = some [big c.C0.B0.A0, big c.C0.B0.A1, big c.C0.B1.A0, big c.C0.B1.A1, big c.C0.B2.A0, big c.C0.B2.A1, big c.C1.B0.A0, big c.C1.B0.A1, big c.C1.B1.A0, big c.C1.B1.A1, big c.C1.B2.A0, big c.C1.B2.A1]) :
    (solve h 12 ins).map ofRes12 = some c := by
  rw [solve, if_pos hh, hf, Option.bind_some, if_pos (by simp)]
  refine congrArg some ?_
  simp only [ofRes12, Vector.getElem_ofFn, List.getD_cons_zero, List.getD_cons_succ, cast_big]

theorem inverseE12_eq {rx : E12 ℕ} {x : E12 Fp} (hx : Rep12 rx x) : inverseE12 rx x = Ext12.inverse x := by
  obtain rfl := hx
  refine (hint_map (solve .inverseE12 12 (args12 rx)) ofRes12 ofRes12_surjective fun inv => do
    Ext12.assertIsEqual Ext12.one (Ext12.mul inv (cast12 rx))
    pure inv).trans ?_
  rw [ofRes12_solve (c := (cast12 rx)⁻¹) (by decide) rfl]
  rfl

theorem divE12_eq {rx ry : E12 ℕ} {x y : E12 Fp} (hx : Rep12 rx x) (hy : Rep12 ry y) :
    divE12 rx ry x y = Ext12.divUnchecked x y := by
  obtain rfl := hx
  obtain rfl := hy
  refine (hint_map (solve .divE12 12 (args12 rx ++ args12 ry)) ofRes12 ofRes12_surjective fun div => do
    Ext12.assertIsEqual (cast12 rx) (Ext12.mul div (cast12 ry))
    pure div).trans ?_
  rw [ofRes12_solve (c := (cast12 ry)⁻¹ * cast12 rx) (by decide) rfl]
  rfl

theorem squareTorus_eq {ry : E6 ℕ} {y : E6 Fp} (hy : Rep6 ry y) : squareTorus ry y = Ext12.squareTorus y := by
  obtain rfl := hy
  refine (hint_map (solve .squareTorus 6 (args6 ry)) ofRes6 ofRes6_surjective fun sq => do
    Ext6.assertIsEqual (Ext6.mul (Ext6.sub (Ext6.double sq) (cast6 ry)) (cast6 ry)) ⟨Ext2.zero, Ext2.one, Ext2.zero⟩
    pure sq).trans ?_
  rw [ofRes6_solve (c := Ext12.squareTorusHint (cast6 ry)) (by decide) rfl]
  rfl

end Spark.HintProps
