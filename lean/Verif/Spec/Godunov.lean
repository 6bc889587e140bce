import Verif.Spec.Euler

/-!
# Independent specification: the wave curves of the Riemann problem

Textbook relations (Toro, chapter 4; Masatsuka, *I do like CFD*, section 7) between a state `w` ahead of an acoustic
wave and the pressure `P` behind it. Nothing here refers to the model of the code.
-/

namespace Dg1d.Spec

/-- The isentropic exponent `(γ-1)/(2γ)`. -/
noncomputable def isoExp (γ : ℝ) : ℝ := (γ - 1) / (2 * γ)

/-- Velocity jump across an expansion from `w` to pressure `P`. -/
noncomputable def expansionJump (γ : ℝ) (w : Prim) (P : ℝ) : ℝ := 2 * w.c γ / (γ - 1) * (1 - (P / w.p) ^ isoExp γ)

/-- Mass flux through a shock from `w` to pressure `P`. -/
noncomputable def shockFlux (γ : ℝ) (w : Prim) (P : ℝ) : ℝ := √(w.rho * ((γ + 1) * P + (γ - 1) * w.p) / 2)

/-- Mass flux through the wave from `w` to pressure `P`; waves weaker than one part in `10^15` are counted as shocks. -/
noncomputable def waveFlux (γ : ℝ) (w : Prim) (P : ℝ) : ℝ :=
  if P < (1 - 1 / 10 ^ 15) * w.p then (w.p - P) / expansionJump γ w P else shockFlux γ w P

/-- Density behind the wave: Rankine-Hugoniot for a compression, isentropic for an expansion. -/
noncomputable def waveRho (γ : ℝ) (w : Prim) (P : ℝ) : ℝ :=
  if w.p ≤ P then w.rho * ((γ + 1) * P + (γ - 1) * w.p) / ((γ - 1) * P + (γ + 1) * w.p) else w.rho * (P / w.p) ^ (1 / γ)

/-- The pressure of the two-expansion solution. -/
noncomputable def twoExpansionPressure (γ : ℝ) (wL wR : Prim) : ℝ :=
  ((wL.c γ + wR.c γ - (γ - 1) / 2 * (wR.v - wL.v)) / (wL.c γ / wL.p ^ isoExp γ + wR.c γ / wR.p ^ isoExp γ)) ^ (1 / isoExp γ)

/-- Godunov's fixed point map for the pressure. -/
noncomputable def pressureMap (γ : ℝ) (wL wR : Prim) (P : ℝ) : ℝ :=
  (waveFlux γ wL P * wR.p + waveFlux γ wR P * wL.p - waveFlux γ wL P * waveFlux γ wR P * (wR.v - wL.v)) /
    (waveFlux γ wL P + waveFlux γ wR P)

/-- The iterates of that map. -/
noncomputable def pressureIter (γ : ℝ) (wL wR : Prim) : ℕ → ℝ
  | 0 => twoExpansionPressure γ wL wR
  | j + 1 => pressureMap γ wL wR (pressureIter γ wL wR j)

/-- Velocity between the waves. -/
noncomputable def starV (γ : ℝ) (wL wR : Prim) (P : ℝ) : ℝ :=
  (waveFlux γ wL P * wL.v + waveFlux γ wR P * wR.v - (wR.p - wL.p)) / (waveFlux γ wL P + waveFlux γ wR P)

/-- The state behind the wave into `w` with velocity `V`. -/
noncomputable def behind (γ : ℝ) (w : Prim) (V P : ℝ) : Prim := ⟨waveRho γ w P, V, P⟩

/-- The point of the expansion between `w` and `s` (straight in the plane of velocity and sound speed) whose
characteristic speed `v + σ c` is zero; its pressure and density follow isentropically from `w`. -/
noncomputable def sonicPoint (γ σ : ℝ) (w s : Prim) : Prim :=
  let lw := w.v + σ * w.c γ
  let ls := s.v + σ * s.c γ
  let c := (ls * w.c γ - lw * s.c γ) / (ls - lw)
  let P := w.p * (c / w.c γ) ^ (1 / isoExp γ)
  ⟨γ * P / c ^ 2, -σ * c, P⟩

open Classical in
/-- The state on the interface `x = 0` of the wave fan with middle pressure `P`. -/
noncomputable def interfaceState (γ : ℝ) (wL wR : Prim) (P : ℝ) : Prim :=
  let V := starV γ wL wR P
  let sL := behind γ wL V P
  let sR := behind γ wR V P
  if 0 < V - sL.c γ then sonicPoint γ (-1) wL sL
  else if V + sR.c γ < 0 then sonicPoint γ 1 wR sR
  else if 0 ≤ V then sL else sR

end Dg1d.Spec
