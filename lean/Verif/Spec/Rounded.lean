import Mathlib.Algebra.BigOperators.Group.Finset.Basic
import Mathlib.Data.Real.Basic

/-!
# Accuracy of rounded arithmetic (specification)

The standard model of floating point arithmetic with underflow: relative error `ε` plus absolute error `ε η`.
-/

namespace Dg1d.Spec

/-- Every result is rounded with relative error `ε`, up to an absolute error `ε η` near zero. -/
def RoundsWithin (rnd : ℝ → ℝ) (ε η : ℝ) : Prop := ∀ x, |rnd x - x| ≤ ε * (|x| + η)

/-- Inner products of at most `N` terms have an error of `ε` relative to the sum of the absolute values of the terms. -/
def DotsWithin (dot : ℕ → (ℕ → ℝ) → (ℕ → ℝ) → ℝ) (N : ℕ) (ε η : ℝ) : Prop :=
  ∀ n ≤ N, ∀ a b : ℕ → ℝ, |dot n a b - ∑ i ∈ Finset.range n, a i * b i| ≤ ε * (∑ i ∈ Finset.range n, |a i * b i| + η)

/-- A stored coefficient of a Runge–Kutta table: zero is stored as zero, anything else is at least `1e-14` in absolute
value and stored with relative error `ε`. -/
def StoredCoef (ε a' a : ℝ) : Prop := (a' = 0 ∧ a = 0) ∨ (1 / 10 ^ 14 ≤ |a| ∧ |a' - a| ≤ ε * |a|)

end Dg1d.Spec
