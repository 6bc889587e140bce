import Mathlib.MeasureTheory.Integral.IntervalIntegral.Basic
import Mathlib.Analysis.SpecialFunctions.Complex.Circle

/-! # Averages of functions and trigonometric polynomials (specification) -/

namespace Dg1d.Spec

/-- The average of `u` between `a` and `b`. -/
noncomputable def average (u : ℝ → ℝ) (a b : ℝ) : ℝ := (∫ x in a..b, u x) / (b - a)

/-- The trigonometric polynomial of period `P` with the amplitudes `β m` for the wave numbers `2πm/P`, `m` in `S`. -/
noncomputable def trigPoly (S : Finset ℤ) (β : ℤ → ℂ) (P x : ℝ) : ℝ := ∑ m ∈ S, (β m * Complex.exp ((2 * Real.pi * m / P * x : ℝ) * Complex.I)).re

end Dg1d.Spec
