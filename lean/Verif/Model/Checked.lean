import Verif.Model.Dg
import Verif.Model.Euler

/-!
# dg1d/dg.py, dg1d/euler_physics.py — the residual with the densities checked

At a quadrature point of zero density `euler_physics.interior_flux` divides by zero and goes on with NaN, which the model
of `interior_flux` does not represent (division by zero gives 0 in Lean). The version here stops there instead, as the
models of the Riemann solvers do.
-/

namespace Dg1d.Euler

/-- One of the densities that `interior_flux` divides by is zero: dg.py:42-50 fills the ghost cells and evaluates the solution
at the quadrature points, euler_physics.py:346-347 reads the densities `ug[:, 0::3]` and divides. -/
def VacuumPoint (s : Sol ℝ) : Prop :=
  ∃ g < s.applyBc.collocate.rows, ∃ i < (s.applyBc.collocate.cols + 2) / 3, (stateAt (s.applyBc.collocate.val g) i).rho = 0

open Classical in
/-- dg.py:31-66 `residual`, stopped where `interior_flux` (euler_physics.py:339-356) would compute NaN. -/
noncomputable def checkedResidual (s : Sol ℝ) : Except PyErr (Sol ℝ × Arr ℝ) :=
  if VacuumPoint s then .error .notReal else residual s

end Dg1d.Euler
