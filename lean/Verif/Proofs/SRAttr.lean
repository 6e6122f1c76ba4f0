import Lean

/-! The simp set that computes the fields of an updated `simple_resource` state. -/

/-- Projections of updated states. -/
register_simp_attr sr_proj
