import Mathlib.Analysis.SpecialFunctions.Complex.Arg

/-! Points of the plane as complex numbers, and going round their mean. -/

namespace Dg1d.Spec

/-- The complex number of a point. -/
def point (q : ℝ × ℝ) : ℂ := ⟨q.1, q.2⟩

/-- The points go round their mean: the angle seen from there does not decrease. -/
def GoesRound (pts : List (ℝ × ℝ)) : Prop :=
  pts.Pairwise fun a b => (point a - (pts.map point).sum / pts.length).arg ≤ (point b - (pts.map point).sum / pts.length).arg

end Dg1d.Spec
