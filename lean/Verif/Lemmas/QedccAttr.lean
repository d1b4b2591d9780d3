/-
Simplification set for the values of terms of tensor programs.
-/
import Mathlib.Tactic

/-- Values of terms of tensor programs. -/
register_simp_attr qedcc_eval
