import Verif.Model.Stability
import Verif.Model.DgStability
import Mathlib.LinearAlgebra.Matrix.Charpoly.Basic
import Mathlib.Analysis.SpecialFunctions.Complex.Arg

/-!
# analysis — the curves drawn by the stability scripts

`np.roots` and `nla.eigvals` are parameters, with the contracts below. Floating point is replaced by exact numbers (a table
coefficient that is zero in exact arithmetic is zero for sympy). The plots are not modelled.
-/

open Polynomial

namespace Dg1d
open Classical in
/-- analysis/aux_functions.py:7-27 `sort_roots_angle(roots)`, from the list of rows: all entries, column after column, sorted by
the angle about their mean. (`argsort` may put equal angles in any order; here it is stable.) -/
noncomputable def sortRootsAngle (ncols : ℕ) (rows : List (List ℂ)) : List (ℝ × ℝ) :=
  let reshaped := (List.range ncols).flatMap fun n => rows.map fun row => row.getD n 0
  let x0 := (reshaped.map Complex.re).sum / reshaped.length
  let y0 := (reshaped.map Complex.im).sum / reshaped.length
  let angle : ℂ → ℝ := fun z => Complex.arg ⟨z.re - x0, z.im - y0⟩
  (reshaped.mergeSort fun a b => decide (angle a ≤ angle b)).map fun z => (z.re, z.im)

/-- analysis/rk_stability.py:84-85: `sp.Poly(sp.det(A))` with the symbol `z`. (Complex coefficients from the start; the
script converts in line 98.) -/
noncomputable def sigmaPoly (tab : Tableau ℂ) : ℂ[X] :=
  (1 - (X : ℂ[X]) • (formattedB tab).map C + (X : ℂ[X]) • Matrix.of fun (_ j : Fin tab.coeffs.length) => C (tab.coeffs.getD j.val 0) :
    Matrix (Fin tab.coeffs.length) (Fin tab.coeffs.length) ℂ[X]).det

open Classical in
/-- sympy's `Poly.coeffs()`: the coefficients that are not zero, highest degree first. analysis/rk_stability.py:98. -/
noncomputable def polyCoeffs (q : ℂ[X]) : List ℂ := ((List.range (q.natDegree + 1)).reverse.map q.coeff).filter fun a => decide (a ≠ 0)

/-- The polynomial with given coefficients, highest degree first, for `np.roots`. analysis/rk_stability.py:102. -/
noncomputable def ofCoeffs (l : List ℂ) : ℂ[X] := l.foldl (fun q a => q * X + C a) 0

/-- Contract of `np.roots`: all roots, with multiplicity, in some order. analysis/rk_stability.py:102. -/
def IsRoots (roots : List ℂ → List ℂ) : Prop := ∀ l, ofCoeffs l ≠ 0 → (roots l : Multiset ℂ) = (ofCoeffs l).roots

/-- analysis/rk_stability.py:90, 94: angle `k` of 100. -/
noncomputable def theta (k : ℕ) : ℝ := 2 * Real.pi * k / 99

/-- analysis/rk_stability.py:98-99: the coefficients with `exp(1j*theta)` added to the last one (`IndexError` if there is none). -/
noncomputable def shiftLast (l : List ℂ) (t : ℝ) : Except PyErr (List ℂ) :=
  match l.getLast? with
  | none => .error .indexError
  | some a => .ok (l.dropLast ++ [a + Complex.exp (Complex.I * t)])

/-- analysis/rk_stability.py:102 `roots[k, :] = …`: a row of the array is set to a list of the same length, or to one value. -/
def assignRow (n : ℕ) (l : List ℂ) : Except PyErr (List ℂ) :=
  if l.length = n then .ok l else if l.length = 1 then .ok (List.replicate n (l.getD 0 0)) else .error .valueError

/-- analysis/rk_stability.py:64-113 `exact_stability_boundary(coeffs, B)`: the points `x`, `y`. -/
noncomputable def exactStabilityBoundary (roots : List ℂ → List ℂ) (tab : Tableau ℂ) : Except PyErr (List (ℝ × ℝ)) := do
  let sigma := sigmaPoly tab
  let rows ← (List.range 100).mapM fun k => do assignRow sigma.natDegree (roots (← shiftLast (polyCoeffs sigma) (theta k)))
  return sortRootsAngle sigma.natDegree rows

/-- analysis/rk_stability.py:133-137: the sample point `Z[i, j]`. -/
noncomputable def sampleZ (i j : ℕ) : ℂ := ⟨-6 + 9 * j / 199, 6 * i / 199⟩

/-- analysis/rk_stability.py:138-143: `sigma[i, j]` in `approximate_stability_bndry`, whose contour 1 is drawn. -/
noncomputable def sampledSigma (tab : Tableau ℂ) (i j : ℕ) : ℝ := ‖stabilityFunction tab (sampleZ i j)‖

namespace Stability

/-- An array as matrix, for `nla.eigvals`. analysis/dg_stability.py:216. -/
def asMatrix (n : ℕ) (A : Arr ℂ) : Matrix (Fin n) (Fin n) ℂ := Matrix.of fun i j => A.val i j

/-- Contract of `nla.eigvals` for `n` by `n` matrices: the eigenvalues with multiplicity, in some order. analysis/dg_stability.py:216. -/
def IsEigvals (eigvals : ℕ → Arr ℂ → List ℂ) : Prop := ∀ n A, (eigvals n A : Multiset ℂ) = (asMatrix n A).charpoly.roots

/-- analysis/dg_stability.py:204: angle `k` of 50. -/
noncomputable def beta (k : ℕ) : ℝ := -Real.pi + 2 * Real.pi * k / 49

/-- analysis/dg_stability.py:201-221 `get_eigenvalue`, for the matrices as functions of `T`. -/
noncomputable def getEigenvalue (eigvals : ℕ → Arr ℂ → List ℂ) (p : ℕ) (m : ℂ → Arr ℝ × Arr ℝ × Arr ℂ × Arr ℂ) : List (ℝ × ℝ) :=
  sortRootsAngle (p + 1) ((List.range 50).map fun k => eigvals (p + 1) (fullMatrix (m (Complex.exp (beta k * Complex.I)))))

end Stability
end Dg1d
