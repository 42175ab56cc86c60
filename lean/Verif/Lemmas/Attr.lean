import Lean.Meta.Tactic.Simp.RegisterCommand

/-- Definitional unfolding lemmas of the model's component-wise operations. -/
register_simp_attr zeo
