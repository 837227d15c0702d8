/-
The simp set of the relabelling lemmas.
-/
import Lean.Meta.Tactic.Simp.RegisterCommand

/-- Lemmas that push a relabelling of positions inwards. -/
register_simp_attr labs
