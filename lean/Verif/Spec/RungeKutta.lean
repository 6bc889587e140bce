import Mathlib.Algebra.BigOperators.Group.Finset.Basic
import Mathlib.Algebra.Module.BigOperators
import Mathlib.Algebra.BigOperators.Fin
import Mathlib.Algebra.Order.Group.Abs

/-!
# Textbook explicit Runge–Kutta methods (specification)

Independent of the code's loops: stage values and step in any vector space, rooted trees, elementary
weights and densities (Butcher; Hairer–Nørsett–Wanner, Solving ODEs I, II.2).
-/

namespace Dg1d.Spec
variable {F : Type*} [Field F] {V : Type*} [AddCommGroup V] [Module F V]

/-- Stage value `U_k = u + h Σ_{j<k} β_kj R(U_j)`. -/
def stageValue (beta : ℕ → ℕ → F) (R : V → V) (h : F) (u : V) : ℕ → V
  | k => u + h • ∑ j : Fin k, beta k j • R (stageValue beta R h u j)
termination_by k => k
decreasing_by exact j.2

/-- One step with weights `b_0, …, b_{s-1}`: `u + h Σ_k b_k R(U_k)`. -/
def rkStep (b : List F) (beta : ℕ → ℕ → F) (R : V → V) (h : F) (u : V) : V :=
  u + h • ∑ k ∈ Finset.range b.length, b.getD k 0 • R (stageValue beta R h u k)

/-- Rooted trees with ordered branches: a single vertex, or a tree `t` with one more tree `s` attached
to its root. Every rooted tree arises (in general several times, once per ordering). -/
inductive RTree where
  | leaf
  | graft (t s : RTree)
  deriving DecidableEq

namespace RTree

/-- number of vertices -/
def size : RTree → ℕ
  | leaf => 1
  | graft t s => t.size + s.size

/-- product of the densities of the branches at the root -/
def branchDensity : RTree → ℕ
  | leaf => 1
  | graft t s => t.branchDensity * (s.size * s.branchDensity)

/-- density γ(t): the number of vertices times the densities of the branches -/
def density (t : RTree) : ℕ := t.size * t.branchDensity

/-- internal weight of stage `i`: `φ_i(leaf)=1`, each branch `s` contributes a factor `Σ_j β_ij φ_j(s)` -/
def stageWeight (n : ℕ) (beta : ℕ → ℕ → F) : RTree → ℕ → F
  | leaf, _ => 1
  | graft t s, i => stageWeight n beta t i * ∑ j ∈ Finset.range n, beta i j * stageWeight n beta s j

end RTree

/-- The order condition of a tree, `Σ_i b_i φ_i(t) = 1/γ(t)`, multiplied by `γ(t)`. -/
def OrderCondition (b : List F) (beta : ℕ → ℕ → F) (t : RTree) : Prop :=
  ∑ i ∈ Finset.range b.length, b.getD i 0 * t.stageWeight b.length beta i * (t.density : F) = 1

/-- The method satisfies the order conditions of all trees with at most `p` vertices. -/
def HasOrder (b : List F) (beta : ℕ → ℕ → F) (p : ℕ) : Prop :=
  ∀ t : RTree, t.size ≤ p → OrderCondition b beta t

/-- The method satisfies the order conditions of all trees with at most `p` vertices up to the relative error `eps`. -/
def NearOrder [LinearOrder F] (b : List F) (beta : ℕ → ℕ → F) (p : ℕ) (eps : F) : Prop :=
  ∀ t : RTree, t.size ≤ p → |∑ i ∈ Finset.range b.length, b.getD i 0 * t.stageWeight b.length beta i * (t.density : F) - 1| ≤ eps

/-- An explicit Butcher table with consistent abscissae. -/
structure Consistent (b a : List F) (beta : ℕ → ℕ → F) : Prop where
  lengths : a.length = b.length
  explicit : ∀ k < b.length, ∀ j < b.length, k ≤ j → beta k j = 0
  weights : b.sum = 1
  rows : ∀ k < b.length, ∑ j ∈ Finset.range k, beta k j = a.getD k 0

end Dg1d.Spec
