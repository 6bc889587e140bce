import Verif.Spec.Euler
import Mathlib.Analysis.Calculus.Deriv.Basic

/-!
# Independent specification: smooth solutions of the Euler equations

Nothing here refers to the model of the code.
-/

namespace Dg1d.Spec

/-- `W t x` is a classical solution of `u_t + f(u)_x = 0` for the conserved variables `u` and the flux `f` of a gas: at each point each of
the three has a time derivative, which is minus the derivative of its flux along the line. -/
def SolvesEuler (γ : ℝ) (W : ℝ → ℝ → Prim) : Prop :=
  ∀ t x, ∀ k : Fin 3, ∃ d, HasDerivAt (fun τ => (W τ x).cons γ k) d t ∧ HasDerivAt (fun y => (W t y).flux γ k) (-d) x

/-- The density profile `ρ0` carried along with velocity `v` at pressure `P`. -/
def carriedGas (ρ0 : ℝ → ℝ) (v P t x : ℝ) : Prim := ⟨ρ0 (x - v * t), v, P⟩

end Dg1d.Spec
