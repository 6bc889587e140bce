import Verif.Model.Solution
import Verif.Model.BasisInit
import Verif.Model.LinAlg
import Mathlib.Data.List.Sort

/-!
# dg1d/enhance.py — enhanced face values
-/

open Polynomial

namespace Dg1d
variable {K : Type*} [Field K]

/-- enhance.py:94-140 `enhancement_matrices`: the matrix `A` (`shift = 2`, sub-matrix `cl`) or `B` (`shift = -2`,
sub-matrix `cr`): `vstack(hstack(diag(ones), zeros), c)`. -/
noncomputable def enhancementMatrix (p : ℕ) (modes : List ℕ) (shift : K) : Arr K :=
  { rows := (p + 1) + modes.length
    cols := p + modes.length + 1
    val := fun i j =>
      if i < p + 1 then (if j < p + 1 then (if i = j then 1 else 0) else 0)
      else
        let l1 := Spec.legendre K (modes.getD (i - (p + 1)) 0)
        integrateLegendreProduct l1 (shiftLegendrePolynomial (Spec.legendre K j) shift) / integrateLegendreProduct l1 l1 }

/-- `np.insert(v, i, 0)`: `IndexError` when `i` is past the end. enhance.py:87-88. -/
def Vec.insertZero (v : Vec K) (i : ℕ) : Except PyErr (Vec K) :=
  if i ≤ v.len then .ok ⟨v.len + 1, fun k => if k < i then v.val k else if k = i then 0 else v.val (k - 1)⟩
  else .error .indexError

/-- enhance.py:85-88: zeros for the modes left out (the same loop for `betaL` and `alphaR`). -/
def padModes (p : ℕ) (modes : List ℕ) (v : Vec K) : Except PyErr (Vec K) :=
  (List.range (p + 1)).foldlM (fun v i => if i ∈ modes then .ok v else v.insertZero i) v

/-- enhance.py:62-90 `left_enhancement_vectors(Ainv, Binv, solution_order, modes, psi)`. -/
def leftEnhancementVectors (Ainv Binv : Arr K) (p : ℕ) (modes : List ℕ) (psi : Arr K) : Except PyErr (Enhance K) :=
  let vs := (psi.row 0).dotArr Binv
  let ve := (psi.row 1).dotArr Ainv
  let betaR := vs.slice 0 (p + 1)
  let alphaL := ve.slice 0 (p + 1)
  match padModes p modes (vs.slice (p + 1) vs.len) with
  | .error e => .error e
  | .ok betaL =>
    match padModes p modes (ve.slice (p + 1) ve.len) with
    | .error e => .error e
    | .ok alphaR => .ok ⟨alphaL, alphaR, betaL, betaR⟩

/-- enhance.py:21-44 `Enhance.__init__`, from the list of modes on (the first word of the line, `etype`, is not used).
`L.basis(mode)` (enhance.py:125) raises `ValueError` for a negative mode. -/
noncomputable def Enhance.init [DecidableEq K] (lib : GaussLib K) (p : ℕ) (modes : List ℤ) : Except PyErr (Enhance K) :=
  let modes := modes.insertionSort (· ≤ ·)
  if ∃ m ∈ modes, m < 0 then .error .valueError
  else
    let modes := modes.map Int.toNat
    let basis := Basis.init lib (p + modes.length)
    match (enhancementMatrix p modes (2 : K)).inv with
    | .error e => .error e
    | .ok Ainv =>
      match (enhancementMatrix p modes (-2 : K)).inv with
      | .error e => .error e
      | .ok Binv => leftEnhancementVectors Ainv Binv p modes basis.psi

end Dg1d
