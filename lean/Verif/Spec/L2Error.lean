import Mathlib.MeasureTheory.Integral.IntervalIntegral.Basic
import Mathlib.Analysis.Calculus.Deriv.Basic
import Verif.Spec.Dg

/-! # Distance of a discontinuous Galerkin solution to a function (specification) -/

open Polynomial

namespace Dg1d.Spec

/-- `L²` distance over the mesh between field `f` of the solution and a function `u` of the physical coordinate. In cell `e`, between the
edges `x_{e-1}` and `x_e`, the solution at `x` is its polynomial at the local coordinate `2 (x - centre) / dx`. -/
noncomputable def l2Error (s : Sol ℝ) (f : ℕ) (u : ℝ → ℝ) : ℝ :=
  √(∑ e ∈ Finset.Icc 1 s.NE, ∫ x in s.x.val (e - 1)..s.x.val e, ((cellPoly s e f).eval (2 * (x - s.xc.val (e - 1)) / s.dx) - u x) ^ 2)

/-- `U t x` is a classical solution of `u_t + u_x = 0` on the whole line with initial data `u0`. -/
structure SolvesAdvection (U : ℝ → ℝ → ℝ) (u0 : ℝ → ℝ) : Prop where
  init : ∀ x, U 0 x = u0 x
  smooth : Differentiable ℝ fun q : ℝ × ℝ => U q.1 q.2
  equation : ∀ t x, deriv (fun r => U r x) t + deriv (fun y => U t y) x = 0

end Dg1d.Spec
