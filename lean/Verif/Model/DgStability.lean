import Verif.Model.Enhance
import Mathlib.Analysis.Complex.Basic

/-!
# analysis/dg_stability.py — the matrices of the stability analysis

The sympy symbol `T` is replaced by a number from the start (the script substitutes it in `get_eigenvalue`); `T**-1` is the
inverse. `nla.eigvals` and the sorting of the eigenvalues are in `StabilityCurves`; the plots are not modelled.
-/

open Polynomial

namespace Dg1d.Stability

/-- A real array used together with complex ones. analysis/dg_stability.py:211-215. -/
def toC (A : Arr ℝ) : Arr ℂ := ⟨A.rows, A.cols, fun i j => (A.val i j : ℂ)⟩

/-- `np.diag(v)`. analysis/dg_stability.py:170, 189. -/
def diag (v : Vec ℝ) : Arr ℝ := ⟨v.len, v.len, fun i j => if i = j then v.val i else 0⟩

/-- analysis/dg_stability.py:71-84 `dg_interior_flux_matrix(p)`. -/
noncomputable def dgInteriorFluxMatrix (p : ℕ) : Arr ℝ :=
  ⟨p + 1, p + 1, fun i j => integrateLegendreProduct (derivative (Spec.legendre ℝ i)) (Spec.legendre ℝ j)⟩

/-- analysis/dg_stability.py:89-108 `dg_interface_flux_matrix(p, T)`: `G0`, `G1`. -/
noncomputable def dgInterfaceFluxMatrix (p : ℕ) (T : ℂ) : Arr ℂ × Arr ℂ :=
  (⟨p + 1, p + 1, fun i j => ((legval (-1) (legBasisCoef i) * legval 1 (legBasisCoef j) : ℝ) : ℂ) * T⁻¹⟩,
    ⟨p + 1, p + 1, fun i j => ((legval 1 (legBasisCoef i) * legval 1 (legBasisCoef j) : ℝ) : ℂ)⟩)

/-- analysis/aux_functions.py:31-40 `delta(i, j)`, for integers. -/
def delta (i j : ℕ) : ℂ := if i = j then 1 else 0

/-- analysis/dg_stability.py:136-146: the matrix `BL` (`BR` is built but not used). -/
noncomputable def icbBL (p : ℕ) (K : List ℕ) (T : ℂ) : Arr ℂ :=
  ⟨p + K.length + 1, p + K.length + 1, fun i j => if i = j then (if i < p + 1 then 1 else T) else 0⟩

/-- analysis/dg_stability.py:149-154: the reduction matrix `R`. -/
noncomputable def icbR (p : ℕ) (K : List ℕ) : Arr ℂ :=
  ⟨p + K.length + 1, p + 1, fun i j => if i < p + 1 then (if i = j then 1 else 0) else delta (K.getD (i - (p + 1)) 0) j⟩

/-- analysis/dg_stability.py:112-160 `icb_interface_flux_matrix(p, K, T)`: `G0`, `G1`. -/
noncomputable def icbInterfaceFluxMatrix (p : ℕ) (K : List ℕ) (T : ℂ) : Except PyErr (Arr ℂ × Arr ℂ) :=
  let phat := p + K.length
  let G0 : Arr ℂ := ⟨p + 1, phat + 1, fun i j => ((legval (-1) (legBasisCoef i) * legval 1 (legBasisCoef j) : ℝ) : ℂ) * T⁻¹⟩
  let G1 : Arr ℂ := ⟨p + 1, phat + 1, fun i j => ((legval 1 (legBasisCoef i) * legval 1 (legBasisCoef j) : ℝ) : ℂ)⟩
  match (enhancementMatrix p K (2 : ℝ)).inv with
  | .error e => .error e
  | .ok Ainv =>
    match (enhancementMatrix p K (-2 : ℝ)).inv with
    | .error e => .error e
    | .ok _ => .ok (((G0.dot (toC Ainv)).dot (icbBL p K T)).dot (icbR p K), ((G1.dot (toC Ainv)).dot (icbBL p K T)).dot (icbR p K))

/-- analysis/dg_stability.py:164-178 `dg_matrices(p, T)`: `Minv`, `F`, `G0`, `G1`. -/
noncomputable def dgMatrices (lib : GaussLib ℝ) (p : ℕ) (T : ℂ) : Arr ℝ × Arr ℝ × Arr ℂ × Arr ℂ :=
  (diag (Basis.init lib p).minv, dgInteriorFluxMatrix p, dgInterfaceFluxMatrix p T)

/-- analysis/dg_stability.py:182-197 `icb_matrices(p, K, T)`. -/
noncomputable def icbMatrices (lib : GaussLib ℝ) (p : ℕ) (K : List ℕ) (T : ℂ) : Except PyErr (Arr ℝ × Arr ℝ × Arr ℂ × Arr ℂ) :=
  match icbInterfaceFluxMatrix p K T with
  | .error e => .error e
  | .ok G => .ok (diag (Basis.init lib p).minv, dgInteriorFluxMatrix p, G)

/-- analysis/dg_stability.py:215 `FK = Minv.dot(-(g1 - g0) + F)`, in `get_eigenvalue`. -/
noncomputable def fullMatrix (m : Arr ℝ × Arr ℝ × Arr ℂ × Arr ℂ) : Arr ℂ :=
  (toC m.1).dot (((m.2.2.2.add (m.2.2.1.smul (-1))).smul (-1)).add (toC m.2.1))

end Dg1d.Stability
