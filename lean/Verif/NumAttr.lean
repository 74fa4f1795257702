import Lean.Meta.Tactic.Simp.RegisterCommand

/-- Simp set turning the scalar operations of the model into the standard ones on `ℝ`. -/
register_simp_attr num_real
