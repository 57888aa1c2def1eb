import Lean.Meta.Tactic.Simp.RegisterCommand

/-! Simp set unfolding the lane-wise vector operations of the model (proof automation only). -/

/-- Unfolds the vector model down to operations on components. -/
register_simp_attr vec
