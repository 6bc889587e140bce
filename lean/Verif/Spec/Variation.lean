import Mathlib.Algebra.BigOperators.Intervals
import Mathlib.Algebra.Order.BigOperators.Group.Finset
import Mathlib.Data.Real.Basic

/-! # Total variation of cell values (specification) -/

namespace Dg1d.Spec

/-- Total variation of the values `u 1, …, u N`: the sum of the jumps between neighbours, with the jump from the last to the first when the
domain is periodic. -/
noncomputable def variation (periodic : Prop) [Decidable periodic] (N : ℕ) (u : ℕ → ℝ) : ℝ :=
  ∑ e ∈ Finset.Ico 1 N, |u (e + 1) - u e| + if periodic then |u 1 - u N| else 0

end Dg1d.Spec
