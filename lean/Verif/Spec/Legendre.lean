import Mathlib.Algebra.Polynomial.Derivative
import Mathlib.Algebra.Polynomial.Eval.Degree
import Mathlib.Algebra.Polynomial.Roots

/-!
# Legendre polynomials, integrals of polynomials over [-1,1], Gauss rules (specification)
-/

open Polynomial

namespace Dg1d.Spec
variable (K : Type*) [Field K]

/-- Legendre polynomials by Bonnet's recursion
`(n+2) P_{n+2} = (2n+3) x P_{n+1} - (n+1) P_n`. -/
noncomputable def legendre : ℕ → K[X]
  | 0 => 1
  | 1 => X
  | n + 2 => C (1 / ((n : K) + 2)) * (C (2 * (n : K) + 3) * X * legendre (n + 1) - C ((n : K) + 1) * legendre n)

variable {K}

/-- Antiderivative with value 0 at 0. -/
noncomputable def antideriv (f : K[X]) : K[X] := f.sum fun k a => C (a / ((k : K) + 1)) * X ^ (k + 1)

/-- Integral of a polynomial over `[a, b]` (equals the Riemann integral over ℝ, see
`integral_eq_intPoly`). -/
noncomputable def intBetween (a b : K) (f : K[X]) : K := (antideriv f).eval b - (antideriv f).eval a

/-- Integral over `[-1, 1]`. -/
noncomputable def intPoly (f : K[X]) : K := intBetween (-1) 1 f

/-- A Gauss rule with `n` nodes: distinct nodes, integrates polynomials of degree < 2n exactly. -/
structure IsGaussRule (n : ℕ) (x w : ℕ → K) : Prop where
  distinct : ∀ i < n, ∀ j < n, x i = x j → i = j
  exact : ∀ f : K[X], f.degree < 2 * n → ∑ g ∈ Finset.range n, w g * f.eval (x g) = intPoly f

/-- The polynomial with Legendre coefficients `c 0, …, c (n-1)`. -/
noncomputable def legSeries (n : ℕ) (c : ℕ → K) : K[X] := ∑ i ∈ Finset.range n, C (c i) * legendre K i

end Dg1d.Spec
