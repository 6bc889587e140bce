import Verif.Model.Integrate
import Mathlib.LinearAlgebra.Matrix.Determinant.Basic

/-!
# analysis/rk_stability.py — stability function of a Runge–Kutta table

The function whose level set is drawn. Root finding and sampling are in `StabilityCurves`; plotting is not modelled.
-/

namespace Dg1d
variable {F : Type*} [Field F]

/-- analysis/rk_stability.py:186-190: `B`, the array `betas` (`s` rows, `s-1` columns) with a zero column
appended. -/
def formattedB (tab : Tableau F) : Matrix (Fin tab.coeffs.length) (Fin tab.coeffs.length) F :=
  Matrix.of fun k j => if j.val < tab.coeffs.length - 1 then tab.beta k j else 0

/-- analysis/rk_stability.py:84-85 and 142-143: `det(I - z*B + z*outer(e, coeffs))`. -/
def stabilityFunction (tab : Tableau F) (z : F) : F :=
  (1 - z • formattedB tab + z • Matrix.of fun _ j => tab.coeffs.getD j.val 0 :
    Matrix (Fin tab.coeffs.length) (Fin tab.coeffs.length) F).det

/-- analysis/rk_stability.py:163-181 `get_formatted_rk_coeffs`: the table chosen by a name. -/
noncomputable def formattedTable (method : String) : Tableau ℝ :=
  if method = "rk3" then rk3.map (↑)
  else if method = "rk4" then rk4.map (↑)
  else if method = "rk5" then rk5.map (↑)
  else if method = "rk6" then rk6
  else if method = "rk8" then rk8.map (↑)
  else if method = "rk10" then rk10.map (↑)
  else if method = "rk12" then rk12.map (↑)
  else if method = "rk14" then rk14.map (↑)
  else rk4.map (↑)

end Dg1d
