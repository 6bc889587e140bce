import Verif.Model.Numpy
import Mathlib.LinearAlgebra.Matrix.Adjugate

/-!
# `np.linalg.inv` / `np.linalg.det` (external library, exact arithmetic)
-/

namespace Dg1d
variable {K : Type*} [Field K] [DecidableEq K]

/-- The square matrix of the first `n` rows and columns of an array. limiting.py:40-41, enhance.py:140. -/
def Arr.toMatrix (A : Arr K) (n : ℕ) : Matrix (Fin n) (Fin n) K := fun i j => A.val i j

/-- `np.linalg.inv(A)`: `LinAlgError` for a matrix that is not square or is singular, else the inverse. limiting.py:40-41, enhance.py:140. -/
def Arr.inv (A : Arr K) : Except PyErr (Arr K) :=
  if A.rows = A.cols ∧ (A.toMatrix A.rows).det ≠ 0 then
    .ok { rows := A.rows
          cols := A.rows
          val := fun i j =>
            if h : i < A.rows ∧ j < A.rows then
              (A.toMatrix A.rows).det⁻¹ * (A.toMatrix A.rows).adjugate ⟨i, h.1⟩ ⟨j, h.2⟩
            else 0 }
  else .error .linAlgError

end Dg1d
