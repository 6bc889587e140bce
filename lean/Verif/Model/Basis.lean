import Verif.Model.Numpy
import Mathlib.Algebra.Polynomial.Derivative
import Mathlib.Algebra.Polynomial.Eval.Degree
import Mathlib.Data.Real.Basic

/-!
# dg1d/basis.py — data structure

The class `Basis`, independent of the number type. How `Basis(order)` is filled from the Gauss nodes
is in `Model/BasisInit.lean`.
-/

namespace Dg1d

/-- basis.py:17-46 `class Basis`: the attributes set by `__init__`. `NG = len(x)`. -/
structure Basis (K : Type*) where
  p : ℕ
  Ns : ℕ
  x : Vec K
  w : Vec K
  NG : ℕ
  phi : Arr K
  dphiW : Arr K
  psi : Arr K
  m : Vec K
  minv : Vec K

end Dg1d
