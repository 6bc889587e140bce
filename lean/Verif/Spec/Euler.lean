import Mathlib.Analysis.SpecialFunctions.Pow.Real
import Mathlib.Analysis.Real.Sqrt
import Mathlib.Data.Fin.VecNotation
import Mathlib.Algebra.BigOperators.Fin

/-!
# Independent specification: the one-dimensional Euler equations in primitive variables

Textbook formulas (Toro, *Riemann Solvers and Numerical Methods for Fluid Dynamics*), written with density, velocity
and pressure. Nothing here refers to the model of the code.
-/

namespace Dg1d.Spec

/-- Primitive variables: density, velocity, pressure. -/
structure Prim where
  rho : ℝ
  v : ℝ
  p : ℝ

/-- Positive density and pressure. -/
def Prim.Phys (w : Prim) : Prop := 0 < w.rho ∧ 0 < w.p

/-- Total energy of a perfect gas. -/
noncomputable def Prim.energy (γ : ℝ) (w : Prim) : ℝ := w.p / (γ - 1) + w.rho * w.v ^ 2 / 2

/-- Conserved variables. -/
noncomputable def Prim.cons (γ : ℝ) (w : Prim) : Fin 3 → ℝ := ![w.rho, w.rho * w.v, w.energy γ]

/-- The flux of the Euler equations. -/
noncomputable def Prim.flux (γ : ℝ) (w : Prim) : Fin 3 → ℝ :=
  ![w.rho * w.v, w.rho * w.v ^ 2 + w.p, w.v * (w.energy γ + w.p)]

/-- Speed of sound. -/
noncomputable def Prim.c (γ : ℝ) (w : Prim) : ℝ := √(γ * w.p / w.rho)

/-- Total specific enthalpy. -/
noncomputable def Prim.enthalpy (γ : ℝ) (w : Prim) : ℝ := γ / (γ - 1) * (w.p / w.rho) + w.v ^ 2 / 2

/-- The mirror image `x ↦ -x` of a state. -/
def Prim.mirror (w : Prim) : Prim := ⟨w.rho, -w.v, w.p⟩

/-- The mirror image of a flux of (mass, momentum, energy). -/
def mirrorFlux (F : Fin 3 → ℝ) : Fin 3 → ℝ := ![-F 0, F 1, -F 2]

/-- Rankine-Hugoniot conditions across a discontinuity moving with speed `s`. -/
def RankineHugoniot (γ s : ℝ) (a b : Prim) : Prop := ∀ k, Prim.flux γ b k - Prim.flux γ a k = s * (Prim.cons γ b k - Prim.cons γ a k)

/-- Roe averages of velocity and total enthalpy, weighted with the square roots of the densities. -/
noncomputable def roeMean (wL wR : Prim) (f : Prim → ℝ) : ℝ := (√wL.rho * f wL + √wR.rho * f wR) / (√wL.rho + √wR.rho)

/-- Roe-averaged velocity. -/
noncomputable def roeV (wL wR : Prim) : ℝ := roeMean wL wR Prim.v

/-- Roe-averaged total enthalpy. -/
noncomputable def roeH (γ : ℝ) (wL wR : Prim) : ℝ := roeMean wL wR (Prim.enthalpy γ)

/-- Roe-averaged density. -/
noncomputable def roeRho (wL wR : Prim) : ℝ := √(wL.rho * wR.rho)

/-- Roe-averaged speed of sound. -/
noncomputable def roeC (γ : ℝ) (wL wR : Prim) : ℝ := √((γ - 1) * (roeH γ wL wR - roeV wL wR ^ 2 / 2))

/-- Eigenvalues of the Roe matrix: `v - c, v, v + c`. -/
noncomputable def roeLambda (γ : ℝ) (wL wR : Prim) : Fin 3 → ℝ :=
  ![roeV wL wR - roeC γ wL wR, roeV wL wR, roeV wL wR + roeC γ wL wR]

/-- Right eigenvectors of the Roe matrix. -/
noncomputable def roeVec (γ : ℝ) (wL wR : Prim) : Fin 3 → Fin 3 → ℝ :=
  ![![1, roeV wL wR - roeC γ wL wR, roeH γ wL wR - roeV wL wR * roeC γ wL wR],
    ![1, roeV wL wR, roeV wL wR ^ 2 / 2],
    ![1, roeV wL wR + roeC γ wL wR, roeH γ wL wR + roeV wL wR * roeC γ wL wR]]

/-- Wave strengths. -/
noncomputable def roeAlpha (γ : ℝ) (wL wR : Prim) : Fin 3 → ℝ :=
  ![((wR.p - wL.p) - roeRho wL wR * roeC γ wL wR * (wR.v - wL.v)) / (2 * roeC γ wL wR ^ 2),
    (wR.rho - wL.rho) - (wR.p - wL.p) / roeC γ wL wR ^ 2,
    ((wR.p - wL.p) + roeRho wL wR * roeC γ wL wR * (wR.v - wL.v)) / (2 * roeC γ wL wR ^ 2)]

/-- Harten's entropy fix of `|x|` with width `d`. -/
noncomputable def hartenAbs (d x : ℝ) : ℝ := if |x| < d / 2 then x ^ 2 / d + d / 4 else |x|

/-- Largest signal speed. -/
noncomputable def Prim.speed (γ : ℝ) (w : Prim) : ℝ := |w.v| + w.c γ

/-- The Rusanov (local Lax-Friedrichs) flux. -/
noncomputable def rusanovFlux (γ : ℝ) (wL wR : Prim) : Fin 3 → ℝ := fun k =>
  (wL.flux γ k + wR.flux γ k) / 2 - max (wL.speed γ) (wR.speed γ) / 2 * (wR.cons γ k - wL.cons γ k)

/-- Widths of the entropy fix of the three waves: four times the expansion of the acoustic speeds, none for the
contact. -/
noncomputable def fixWidth (γ : ℝ) (wL wR : Prim) : Fin 3 → ℝ :=
  ![max 0 (4 * ((wR.v - wR.c γ) - (wL.v - wL.c γ))), 0, max 0 (4 * ((wR.v + wR.c γ) - (wL.v + wL.c γ)))]

/-- Roe's flux with Harten's entropy fix. -/
noncomputable def roeFlux (γ : ℝ) (wL wR : Prim) : Fin 3 → ℝ := fun k =>
  (wL.flux γ k + wR.flux γ k) / 2 -
    (∑ j, hartenAbs (fixWidth γ wL wR j) (roeLambda γ wL wR j) * roeAlpha γ wL wR j * roeVec γ wL wR j k) / 2

end Dg1d.Spec
