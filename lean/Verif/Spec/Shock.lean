import Verif.Spec.Euler

/-!
# Independent specification: shock waves

Discontinuities that move as one wave and obey Lax's entropy condition (Lax, Comm. Pure Appl. Math. 10 (1957)). Nothing here
refers to the model of the code.
-/

namespace Dg1d.Spec

/-- A shock of speed `s`: the Rankine-Hugoniot conditions hold and the characteristics of the first (`v - c`) or of the third
(`v + c`) family run into it from both sides. -/
def LaxShock (γ s : ℝ) (a b : Prim) : Prop :=
  RankineHugoniot γ s a b ∧ (s < a.v - a.c γ ∧ b.v - b.c γ < s ∨ s < a.v + a.c γ ∧ b.v + b.c γ < s)

/-- The ratio of the lower to the higher pressure is below `r`. -/
def StrongerThan (r : ℝ) (a b : Prim) : Prop := min a.p b.p < r * max a.p b.p

end Dg1d.Spec
