import Verif.Spec.Euler
import Verif.Spec.Legendre

/-! # Physical gas states, and quadrature rules with end points -/

open Polynomial

namespace Dg1d.Spec

/-- The three numbers are the conserved variables of a gas with positive density and pressure. -/
def IsGas (γ : ℝ) (u : Fin 3 → ℝ) : Prop := ∃ w : Prim, w.Phys ∧ ∀ k, u k = w.cons γ k

/-- A rule for the mean value over [-1, 1] with positive weights: weight `ω` at both end points and weights `w i` at `N`
more points, exact for polynomials of degree at most `p`. -/
structure EndRule (p N : ℕ) (ω : ℝ) (w ξ : ℕ → ℝ) : Prop where
  end_pos : 0 < ω
  pos : ∀ i < N, 0 < w i
  exact : ∀ P : ℝ[X], P.degree < (p + 1 : ℕ) → intPoly P / 2 = ω * (P.eval (-1) + P.eval 1) + ∑ i ∈ Finset.range N, w i * P.eval (ξ i)

end Dg1d.Spec
