import Mathlib.Data.Real.Basic

/-!
# Double precision numbers (specification)

IEEE 754 binary64 without overflow: the exponent has no upper bound. Rounding is to nearest; what happens to ties is a
separate condition, so that most theorems hold whatever the rule for ties.
-/

namespace Dg1d.Spec

/-- A binary64 number: an integer below `2^53` times a power of two not below `2^-1074`. -/
def Binary64 (x : ℝ) : Prop := ∃ m e : ℤ, |m| < 2 ^ 53 ∧ -1074 ≤ e ∧ x = m * (2 : ℝ) ^ e

/-- `rnd` rounds to a nearest binary64 number. -/
def RoundsToNearest (rnd : ℝ → ℝ) : Prop := ∀ x, Binary64 (rnd x) ∧ ∀ y, Binary64 y → |x - rnd x| ≤ |x - y|

/-- A binary64 number whose significand, normalised to 53 bits (or subnormal), is even. -/
def EvenSignificand (x : ℝ) : Prop :=
  ∃ m e : ℤ, |m| < 2 ^ 53 ∧ -1074 ≤ e ∧ (2 ^ 52 ≤ |m| ∨ e = -1074) ∧ Even m ∧ x = m * (2 : ℝ) ^ e

/-- Between two nearest numbers `rnd` takes the one with the even significand. -/
def TiesToEven (rnd : ℝ → ℝ) : Prop :=
  ∀ x y, Binary64 y → y ≠ rnd x → |x - y| = |x - rnd x| → EvenSignificand (rnd x)

end Dg1d.Spec
