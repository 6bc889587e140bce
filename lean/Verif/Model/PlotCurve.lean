import Verif.Model.Numpy
import Verif.Model.Text
import Mathlib.Analysis.SpecialFunctions.Trigonometric.Basic

/-!
# dg1d/plot.py — the curve drawn as the exact solution
-/

namespace Dg1d
open Text

/-- dg1d/plot.py:104-106: the points of the black curve, 200 samples of a sine. -/
noncomputable def sineCurve : List (ℝ × ℝ) :=
  let xe : Vec ℝ := linspace (-1) 1 200
  (List.range 200).map fun i => (xe.val i, Real.sin (2 * Real.pi * xe.val i))

/-- dg1d/plot.py:103-106: what is drawn into the figure of every field. It depends on the argument `system` only, not on the files read. -/
noncomputable def exactCurve (system : Str) : Option (List (ℝ × ℝ)) := if system = "advection".toList then some sineCurve else none

end Dg1d
