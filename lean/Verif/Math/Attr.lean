import Lean.Meta.Tactic.Simp.RegisterCommand

/-- rewrites the modelled tower operations to the ring operations of the specification -/
register_simp_attr tower
