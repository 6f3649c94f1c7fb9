import Lean.Meta.Tactic.Simp.RegisterCommand
/-! Simp sets used to translate scalar operations to field operations. -/
/-- laws of `OrderedScalar` -/
register_simp_attr ord_simp
/-- laws of `ExactScalar` -/
register_simp_attr exact_simp
