import Verif.Spec.RungeKutta

/-!
# Order of a Runge–Kutta method on linear problems (specification)

On `u' = A u` only the trees without branching matter (Hairer–Nørsett–Wanner, Solving ODEs I, II.2 and IV.2).
-/

namespace Dg1d.Spec
variable {F : Type*} [Field F] [LinearOrder F]

/-- The tree with `m + 1` vertices that never branches. -/
def chain : ℕ → RTree
  | 0 => .leaf
  | m + 1 => .graft .leaf (chain m)

/-- The conditions of the trees that do not branch, up to `q` vertices and up to the relative error `eps`. -/
def NearLinearOrder (b : List F) (beta : ℕ → ℕ → F) (q : ℕ) (eps : F) : Prop :=
  ∀ m, (chain m).size ≤ q → |∑ i ∈ Finset.range b.length, b.getD i 0 * (chain m).stageWeight b.length beta i * ((chain m).density : F) - 1| ≤ eps

/-- An explicit table with at most `n` stages and entries of at most `W`. -/
structure Moderate (b : List F) (beta : ℕ → ℕ → F) (n : ℕ) (W : F) : Prop where
  stages : b.length ≤ n
  explicit : ∀ k < b.length, ∀ j < b.length, k ≤ j → beta k j = 0
  weights : ∀ k < b.length, |b.getD k 0| ≤ W
  entries : ∀ k < b.length, ∀ j < k, |beta k j| ≤ W

end Dg1d.Spec
