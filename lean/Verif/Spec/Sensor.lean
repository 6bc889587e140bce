import Verif.Spec.Euler
import Mathlib.Algebra.Order.Group.Abs

/-! # Troubled-cell sensors (specification)

Henry de Frahan, Varadan, Johnsen, J. Comput. Phys. 280 (2015): a face is detected when `Ψ(x) = 2x/(1+x)²` of a
normalised jump `x ≥ 0` exceeds a threshold; both cells next to a detected face are flagged. -/

namespace Dg1d.Spec

/-- `Ψ(x) = 2x/(1+x)²`. -/
def psi {K : Type*} [Field K] (x : K) : K := 2 * x / (1 + x) ^ 2

/-- Some face of cell `e` satisfies `P`. The faces are numbered `0 … NE`; face `i` is between cells `i` and `i+1`. -/
def NextTo (NE : ℕ) (P : ℕ → Prop) (e : ℕ) : Prop := ∃ i ≤ NE, P i ∧ (e = i ∨ e = i + 1)

/-- Normalised strength of the contact wave between two states. -/
noncomputable def contactJump (γ : ℝ) (wL wR : Prim) : ℝ :=
  |(wR.rho - wL.rho) - (wR.p - wL.p) / roeC γ wL wR ^ 2| / (wL.rho + wR.rho)

/-- Normalised pressure jump. -/
noncomputable def pressureJump (wL wR : Prim) : ℝ := |wR.p - wL.p| / (wL.p + wR.p)

/-- The Lax condition of the first family (speeds `v - c`), with the Roe-averaged speed as the shock speed. -/
def Compressive (γ : ℝ) (wL wR : Prim) : Prop :=
  wL.v - wL.c γ > roeV wL wR - roeC γ wL wR ∧ roeV wL wR - roeC γ wL wR > wR.v - wR.c γ

end Dg1d.Spec
