import Verif.Spec.Euler
import Mathlib.Analysis.SpecialFunctions.Trigonometric.Basic

/-! # The flows the initial conditions stand for (specification), in primitive variables -/

namespace Dg1d.Spec
open Real

/-- Entropy wave: density `1 + 0.2 sin πx` carried by unit velocity at unit pressure. -/
noncomputable def entropyWave (x : ℝ) : Prim := ⟨1 + sin (π * x) / 5, 1, 1⟩

/-- Acoustic pulse of amplitude 1e-4 in density and pressure in a gas at rest with unit sound speed. -/
noncomputable def acousticPulse (γ x : ℝ) : Prim :=
  ⟨1 + cos (π * x / 2) ^ 8 / 10000, 0, 1 / γ + cos (π * x / 2) ^ 8 / 10000⟩

/-- Shock tube with the diaphragm at `xd`. -/
noncomputable def shockTube (xd : ℝ) (wL wR : Prim) (x : ℝ) : Prim := if x < xd then wL else wR

/-- Shu-Osher problem: Mach 3 shock at `x = 1` running into a density wave. -/
noncomputable def shuOsher (x : ℝ) : Prim := if x < 1 then ⟨3.857143, 2.629369, 10.333333⟩ else ⟨1 + sin (5 * (x - 5)) / 5, 0, 1⟩

/-- Two simple waves running apart from a gas at rest with unit sound speed: everywhere the invariant
`c + (γ-1)/2 |v|` is 1 and the flow is isentropic, `ρ = γ c^(2/(γ-1))`; the velocity is 0 in the middle,
`∓2/γ` outside, and points away from the middle. -/
structure IsSimpleWave (γ x : ℝ) (w : Prim) : Prop where
  invariant : w.c γ + (γ - 1) / 2 * |w.v| = 1
  isentropic : w.rho = γ * w.c γ ^ (2 / (γ - 1))
  middle : |x| ≤ 1 / 2 → w.v = 0
  left : x ≤ -3 / 2 → w.v = -(2 / γ)
  right : 3 / 2 ≤ x → w.v = 2 / γ
  between : 1 / 2 < |x| → |x| < 3 / 2 → 0 < w.v * x ∧ |w.v| < 2 / γ

end Dg1d.Spec
