import Mathlib.Algebra.Field.Defs

/-! # Uniform mesh (specification) -/

namespace Dg1d.Spec

/-- `N` cells of equal width `dx` from `A` to `B`, with edges `x 0 … x N` and centroids `xc 0 … xc (N-1)`. -/
structure IsUniformMesh {K : Type*} [Field K] (A B : K) (N : ℕ) (x xc : ℕ → K) (dx : K) : Prop where
  first : x 0 = A
  last : x N = B
  width : dx = (B - A) / N
  spacing : ∀ i < N, x (i + 1) - x i = dx
  centre : ∀ i < N, xc i = (x i + x (i + 1)) / 2

end Dg1d.Spec
