import Verif.Model.Rk
import Verif.Spec.Euler
import Mathlib.Data.Real.Basic

/-! # What a change of units does to a gas

`dens`, `len` and `time` are the numbers by which densities, lengths and times are multiplied; velocities are then
multiplied by `len / time`, pressures by `dens * (len / time)^2`. -/

namespace Dg1d.Spec

/-- New units of density, length and time. -/
structure Units where
  dens : ℝ
  len : ℝ
  time : ℝ
  dens_pos : 0 < dens
  len_pos : 0 < len
  time_pos : 0 < time

/-- The factor of velocities. -/
noncomputable def Units.vel (U : Units) : ℝ := U.len / U.time

/-- The factor of the `f`-th field: density, momentum density, energy density. -/
noncomputable def Units.field (U : Units) (f : ℕ) : ℝ := U.dens * U.vel ^ f

/-- The solution `s` of a problem with three fields, stored cell after cell, written down in the new units. The
inverse mass matrix is one over a length. -/
noncomputable def Units.sol (U : Units) (s : Sol ℝ) : Sol ℝ :=
  { s with
    t := U.time * s.t
    x := ⟨s.x.len, fun i => U.len * s.x.val i⟩
    xc := ⟨s.xc.len, fun i => U.len * s.xc.val i⟩
    dx := U.len * s.dx
    u := ⟨s.u.rows, s.u.cols, fun r c => U.field (c % 3) * s.u.val r c⟩
    scaledMinv := ⟨s.scaledMinv.len, fun n => s.scaledMinv.val n / U.len⟩ }

/-- Density, velocity and pressure in the new units. -/
noncomputable def Units.prim (U : Units) (w : Prim) : Prim := ⟨U.dens * w.rho, U.vel * w.v, U.dens * U.vel ^ 2 * w.p⟩

/-- The fluxes of mass, momentum and energy in the new units. -/
noncomputable def Units.flux (U : Units) (F : Fin 3 → ℝ) : Fin 3 → ℝ := fun f => U.vel * U.field f * F f

/-- An output in the new units. -/
noncomputable def Units.out (U : Units) (o : OutRec ℝ) : OutRec ℝ := ⟨o.nout, U.time * o.dt, U.sol o.sol⟩

/-- The deck in the new units: the final time is the only quantity with a dimension. -/
noncomputable def Units.deck (U : Units) (d : RkDeck ℝ) : RkDeck ℝ := { d with finaltime := U.time * d.finaltime }

end Dg1d.Spec
