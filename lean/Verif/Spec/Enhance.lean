import Verif.Spec.Legendre

/-! # Enhanced face values (specification)

Coordinates: `Q` is a polynomial in the local coordinate of one cell; in the local coordinate of its right neighbour
the same function is `x ↦ Q (x+2)`, in that of its left neighbour `x ↦ Q (x-2)`. -/

open Polynomial

namespace Dg1d.Spec
variable {K : Type*} [Field K]

/-- Coefficient `n` of the L² projection of `Q` on the Legendre polynomials. -/
noncomputable def projCoeff (Q : K[X]) (n : ℕ) : K := intPoly (Q * legendre K n) * ((2 * (n : K) + 1) / 2)

/-- `own`, `other` are weights on the `p+1` coefficients of a cell and of the neighbour at distance `shift`: applied to
the projections of any polynomial of degree at most `d` they give its value at `x₀`. -/
def ExactWeights (p d : ℕ) (own other : ℕ → K) (shift x₀ : K) : Prop :=
  ∀ Q : K[X], Q.degree ≤ (d : WithBot ℕ) →
    ∑ n ∈ Finset.range (p + 1), own n * projCoeff Q n +
      ∑ n ∈ Finset.range (p + 1), other n * projCoeff (Q.comp (X + C shift)) n = Q.eval x₀

end Dg1d.Spec
