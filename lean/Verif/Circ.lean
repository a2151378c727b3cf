import Mathlib.Tactic.Common

/-!
# Circuits with an honest solver and an arbitrary prover

gnark circuits are Go programs that emit constraints and register *hint functions*.
The honest solver evaluates the hints; a malicious prover may replace the value of every
hint by any value satisfying the emitted constraints.  `Circ α` models one circuit fragment
returning (the variables that denote) an `α`:

* `run`  - the value computed by the honest solver, `none` when the Go code panics, a hint
  returns an error or the honest values violate a constraint;
* `sat a` - in *some* satisfying assignment of the emitted constraints the fragment's
  output is `a`.

This file models the gnark runtime (not part of `/repo`); see DESIGN.md, trusted base.
-/

namespace Spark

/-- A circuit fragment (models the effect of a Go function on a gnark `frontend.API`). -/
structure Circ (α : Type) where
  /-- honest solver -/
  run : Option α
  /-- outputs of satisfying assignments -/
  sat : α → Prop
  /-- honest assignments are satisfying assignments -/
  ok : ∀ a, run = some a → sat a

namespace Circ

variable {α β γ : Type}

theorem ext' {c d : Circ α} (h1 : c.run = d.run) (h2 : ∀ a, c.sat a ↔ d.sat a) : c = d := by
  cases c; cases d
  simp only [mk.injEq]
  exact ⟨h1, funext fun a => propext (h2 a)⟩

/-- A fragment that emits no constraint. -/
protected def pure (a : α) : Circ α where
  run := some a
  sat b := b = a
  ok b h := by simpa [eq_comm] using h

/-- Sequential composition. -/
protected def bind (m : Circ α) (f : α → Circ β) : Circ β where
  run := m.run.bind fun a => (f a).run
  sat b := ∃ a, m.sat a ∧ (f a).sat b
  ok b h := by
    rcases hm : m.run with _ | a
    · simp [hm] at h
    · refine ⟨a, m.ok a hm, (f a).ok b ?_⟩
      simpa [hm] using h

instance : Monad Circ where
  pure := Circ.pure
  bind := Circ.bind

@[simp] theorem run_pure (a : α) : (pure a : Circ α).run = some a := rfl
@[simp] theorem sat_pure (a b : α) : (pure a : Circ α).sat b ↔ b = a := Iff.rfl
@[simp] theorem run_bind (m : Circ α) (f : α → Circ β) :
    (m >>= f).run = m.run.bind fun a => (f a).run := rfl
@[simp] theorem sat_bind (m : Circ α) (f : α → Circ β) (b : β) :
    (m >>= f).sat b ↔ ∃ a, m.sat a ∧ (f a).sat b := Iff.rfl

instance : LawfulMonad Circ := LawfulMonad.mk'
  (id_map := by
    intro α x
    refine ext' ?_ ?_
    · show (x.run.bind fun a => some a) = x.run
      cases x.run <;> rfl
    · intro a
      show (∃ b, x.sat b ∧ a = b) ↔ x.sat a
      simp)
  (pure_bind := by
    intro α β x f
    refine ext' ?_ ?_ <;> simp)
  (bind_assoc := by
    intro α β γ x f g
    refine ext' ?_ ?_
    · simp [Option.bind_assoc]
    · intro c
      simp only [sat_bind]
      exact ⟨fun ⟨b, ⟨a, h1, h2⟩, h3⟩ => ⟨a, h1, b, h2, h3⟩,
        fun ⟨a, h1, b, h2, h3⟩ => ⟨b, ⟨a, h1, h2⟩, h3⟩⟩)

@[simp] theorem run_map (m : Circ α) (f : α → β) : (f <$> m).run = m.run.map f := by
  rw [← bind_pure_comp, run_bind]; cases m.run <;> rfl
@[simp] theorem sat_map (m : Circ α) (f : α → β) (b : β) :
    (f <$> m).sat b ↔ ∃ a, m.sat a ∧ b = f a := by
  rw [← bind_pure_comp, sat_bind]; rfl

/-- A constraint. -/
def assert (p : Prop) [Decidable p] : Circ Unit where
  run := if p then some () else none
  sat _ := p
  ok _ h := by by_contra hp; simp [hp] at h

@[simp] theorem run_assert (p : Prop) [Decidable p] :
    (assert p).run = if p then some () else none := rfl
@[simp] theorem sat_assert (p : Prop) [Decidable p] (u : Unit) : (assert p).sat u ↔ p := Iff.rfl

/-- A hint: the honest solver uses `h` (`none`: the hint function returns an error), the
prover any value whatsoever. -/
def hint (h : Option α) : Circ α where
  run := h
  sat _ := True
  ok _ _ := trivial

@[simp] theorem run_hint (h : Option α) : (hint h).run = h := rfl
@[simp] theorem sat_hint (h : Option α) (a : α) : (hint h).sat a ↔ True := Iff.rfl

/-- A Go panic / compile-time error: no circuit, hence no assignment. -/
def fail : Circ α where
  run := none
  sat _ := False
  ok _ h := by simp at h

@[simp] theorem run_fail : (fail : Circ α).run = none := rfl
@[simp] theorem sat_fail (a : α) : (fail : Circ α).sat a ↔ False := Iff.rfl

/-- A fragment is satisfiable when some satisfying assignment exists. -/
def Satisfiable (c : Circ α) : Prop := ∃ a, c.sat a

/-- `c` is *exactly* `a`: the honest solver succeeds with `a`, and `a` is the only output any
prover can reach. -/
def Exact (c : Circ α) (a : α) : Prop := c.run = some a ∧ ∀ b, c.sat b → b = a

theorem Exact.sat_iff {c : Circ α} {a : α} (h : c.Exact a) (b : α) : c.sat b ↔ b = a :=
  ⟨h.2 b, fun e => e ▸ c.ok _ h.1⟩

theorem exact_iff_pure {c : Circ α} {a : α} : c.Exact a ↔ c = pure a := by
  constructor
  · intro h
    exact ext' h.1 (fun b => by simpa using h.sat_iff b)
  · rintro rfl
    exact ⟨rfl, fun b h => h⟩

theorem Exact.eq_pure {c : Circ α} {a : α} (h : c.Exact a) : c = pure a := exact_iff_pure.1 h

theorem exact_pure (a : α) : (pure a : Circ α).Exact a := exact_iff_pure.2 rfl

theorem Exact.bind {c : Circ α} {a : α} {f : α → Circ β} {b : β}
    (h : c.Exact a) (h2 : (f a).Exact b) : (c >>= f).Exact b := by
  rw [h.eq_pure, pure_bind]; exact h2

theorem Exact.satisfiable {c : Circ α} {a : α} (h : c.Exact a) : c.Satisfiable :=
  ⟨a, c.ok _ h.1⟩

theorem assert_true {p : Prop} [Decidable p] (h : p) : assert p = pure () :=
  ext' (by simp [h]) (by simp [h])

theorem assert_false {p : Prop} [Decidable p] (h : ¬p) : assert p = fail :=
  ext' (by simp [h]) (by simp [h])

/-- a fragment without satisfying assignment is the failing one -/
theorem eq_fail {c : Circ α} (h : ∀ a, ¬ c.sat a) : c = fail := by
  refine ext' ?_ (fun a => by simpa using h a)
  rcases hc : c.run with _ | a
  · rfl
  · exact absurd (c.ok _ hc) (h a)

theorem not_satisfiable_iff {c : Circ α} : ¬ c.Satisfiable ↔ c = fail := by
  constructor
  · intro h; exact eq_fail (fun a ha => h ⟨a, ha⟩)
  · rintro rfl ⟨a, ha⟩; exact ha

theorem fail_bind (f : α → Circ β) : (fail >>= f) = fail :=
  ext' rfl (by simp)

theorem Exact.not_fail {a : α} : ¬ (fail : Circ α).Exact a := by
  intro h; simpa using h.1

end Circ
end Spark
