import Mathlib.Data.Real.Basic

/-!
# What a regression test should mean
-/

namespace Dg1d.Spec

/-- Two tables of numbers with the same rows and columns, entries closer than `tol`. -/
def TablesClose (tol : ℝ) (a b : List (List ℝ)) : Prop :=
  List.Forall₂ (List.Forall₂ fun x y => |x - y| < tol) a b

end Dg1d.Spec
