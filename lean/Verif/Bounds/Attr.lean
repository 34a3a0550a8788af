import Lean.Meta.Tactic.Simp.RegisterCommand

/-!
Simp set with the extent of every array of the force model.
-/

/-- extents of arrays -/
register_simp_attr bnd
