import Verif.Spec.Euler
import Verif.Spec.Dg

/-!
# Independent specification: a gas with the same velocity and pressure everywhere

Where velocity and pressure do not vary, the Euler equations reduce to `ρ_t + v ρ_x = 0`: the density is carried along
(contact discontinuities, entropy waves). Nothing here refers to the model of the code but the solution read as polynomials
(`cellPoly`).
-/

namespace Dg1d.Spec

/-- The flux of mass, momentum and energy that belongs to a mass flux `g` in a gas of velocity `v` and pressure `P`. -/
noncomputable def carriedFlux (γ v P g : ℝ) : Fin 3 → ℝ := ![g, v * g + P, v ^ 2 / 2 * g + γ / (γ - 1) * P * v]

/-- Upwind mass flux between densities `rL` and `rR`. -/
noncomputable def upwindMass (v rL rR : ℝ) : ℝ := if 0 ≤ v then v * rL else v * rR

/-- Mass flux of the Rusanov (local Lax-Friedrichs) scheme: the mean, minus half the larger signal speed times the jump. -/
noncomputable def rusanovMass (γ v P rL rR : ℝ) : ℝ :=
  (v * (rL + rR) - (|v| + max √(γ * P / rL) √(γ * P / rR)) * (rR - rL)) / 2

/-- The mass flux of the solver called `name`. -/
noncomputable def contactMass (γ : ℝ) (name : String) (v P rL rR : ℝ) : ℝ :=
  if name = "rusanov" then rusanovMass γ v P rL rR else upwindMass v rL rR

/-- At every point of every cell the conserved variables are those of a gas of velocity `v` and pressure `P`, whatever the
density there. -/
def SameVP (γ v P : ℝ) (s : Sol ℝ) : Prop :=
  ∀ e, 1 ≤ e → e ≤ s.NE → ∀ ξ : ℝ, ∀ k : Fin 3, (cellPoly s e k).eval ξ = (⟨(cellPoly s e 0).eval ξ, v, P⟩ : Prim).cons γ k

end Dg1d.Spec
