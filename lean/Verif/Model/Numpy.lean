import Mathlib.Algebra.Order.Field.Basic
import Mathlib.Algebra.BigOperators.Group.Finset.Basic

/-!
# The fragment of Python / numpy used by dg1d

External library behaviour, not code of /repo: arrays, slices, `np.dot`, `np.linspace`, exceptions.
Arrays are a shape plus an entry function; entries outside the shape are never meaningful.
-/

namespace Dg1d

/-- Python exceptions (and process exits) as values. `sysExit` models `sys.exit(msg)`, which raises
`SystemExit` and is *not* a subclass of `Exception`. `notReal` is not an exception of Python: it marks the place where
the code would go on with NaN or inf, which the model does not represent. Raised e.g. at solution.py:382, rk.py:232-237, euler_physics.py:153. -/
inductive PyErr where
  | sysExit (msg : String)
  | stopIteration
  | valueError
  | indexError
  | keyError
  | typeError
  | attributeError
  | unboundLocal
  | linAlgError
  | ioError
  | zeroDivision
  | notReal
  deriving DecidableEq, Repr

/-- One-dimensional numpy array. E.g. basis.py:36, dg.py:26. -/
structure Vec (K : Type*) where
  len : ℕ
  val : ℕ → K

/-- Two-dimensional numpy array (`shape = (rows, cols)`). E.g. solution.py:490, dg.py:24-28. -/
structure Arr (K : Type*) where
  rows : ℕ
  cols : ℕ
  val : ℕ → ℕ → K

/-- Python normalisation of a slice bound `i` for a sequence of length `len`
(`slice.indices` for a positive step): negative bounds count from the end, everything is clamped. E.g. dg.py:57-58, 81-86, solution.py:531-541. -/
def pyIdx (len : ℕ) (i : ℤ) : ℕ :=
  if i < 0 then (i + len).toNat else min i.toNat len

namespace Vec
variable {K : Type*}

/-- `v[lo:hi]`. dg.py:57-58, 81-82. -/
def slice (v : Vec K) (lo hi : ℤ) : Vec K :=
  { len := pyIdx v.len hi - pyIdx v.len lo
    val := fun i => v.val (pyIdx v.len lo + i) }

/-- `v[start::3]`, the stride used for the interleaved Euler fields. E.g. euler_physics.py:49-57. -/
def every3 (v : Vec K) (start : ℕ) : ℕ → K := fun i => v.val (start + 3 * i)

/-- `np.zeros(n)`. E.g. rk.py:62, 134, solution.py:490. -/
def zeros [Zero K] (n : ℕ) : Vec K := ⟨n, fun _ => 0⟩

end Vec

/-- The array `F` with `F[0::3] = f0; F[1::3] = f1; F[2::3] = f2`. E.g. euler_physics.py:65-72. -/
def interleave3 {K : Type*} (f0 f1 f2 : ℕ → K) : ℕ → K := fun j =>
  if j % 3 = 0 then f0 (j / 3) else if j % 3 = 1 then f1 (j / 3) else f2 (j / 3)

namespace Arr
variable {K : Type*}

/-- `A[:, lo:hi]`. solution.py:531-541, enhance.py:51-56. -/
def colSlice (A : Arr K) (lo hi : ℤ) : Arr K :=
  { rows := A.rows
    cols := pyIdx A.cols hi - pyIdx A.cols lo
    val := fun r c => A.val r (pyIdx A.cols lo + c) }

/-- `A[:, lo:hi:step]` for a positive step. solution.py:146-149. -/
def colSliceStep (A : Arr K) (lo hi : ℤ) (step : ℕ) : Arr K :=
  { rows := A.rows
    cols := (pyIdx A.cols hi - pyIdx A.cols lo + step - 1) / step
    val := fun r c => A.val r (pyIdx A.cols lo + c * step) }

/-- `A[:, lo:hi] = B` (numpy requires the shapes to agree; all uses in dg1d do). solution.py:531-541, enhance.py:51-56, dg.py:86. -/
def setColSlice (A : Arr K) (lo hi : ℤ) (B : Arr K) : Arr K :=
  { A with val := fun r c =>
      if pyIdx A.cols lo ≤ c ∧ c < pyIdx A.cols hi then B.val r (c - pyIdx A.cols lo)
      else A.val r c }

/-- `A[:, lo:hi:step] = B` for a positive step. solution.py:215-220. -/
def setColSliceStep (A : Arr K) (lo hi : ℤ) (step : ℕ) (B : Arr K) : Arr K :=
  { A with val := fun r c =>
      if pyIdx A.cols lo ≤ c ∧ c < pyIdx A.cols hi ∧ (c - pyIdx A.cols lo) % step = 0
      then B.val r ((c - pyIdx A.cols lo) / step)
      else A.val r c }

/-- `A[r, :]`. dg.py:57-58, enhance.py:73-74. -/
def row (A : Arr K) (r : ℕ) : Vec K := ⟨A.cols, fun c => A.val r c⟩

/-- `A[:, c]`. limiting.py:85-89. -/
def col (A : Arr K) (c : ℕ) : Vec K := ⟨A.rows, fun r => A.val r c⟩

/-- `np.zeros((r, c))`. E.g. rk.py:62, 134, solution.py:490. -/
def zeros [Zero K] (r c : ℕ) : Arr K := ⟨r, c, fun _ _ => 0⟩

/-- `np.dot(A, B)` for two matrices. solution.py:579, 591, dg.py:71, limiting.py:40. -/
def dot [NonUnitalNonAssocSemiring K] (A B : Arr K) : Arr K :=
  { rows := A.rows
    cols := B.cols
    val := fun i j => ∑ k ∈ Finset.range A.cols, A.val i k * B.val k j }

/-- `a * A` for a scalar `a`. solution.py:559, rk.py:105. -/
def smul [Mul K] (a : K) (A : Arr K) : Arr K := { A with val := fun r c => a * A.val r c }

/-- `A + B` elementwise. solution.py:559. -/
def add [Add K] (A B : Arr K) : Arr K := { A with val := fun r c => A.val r c + B.val r c }

end Arr

/-- `np.dot(v, A)` for a vector and a matrix. enhance.py:51-56, 73-74. -/
def Vec.dotArr {K : Type*} [NonUnitalNonAssocSemiring K] (v : Vec K) (A : Arr K) : Vec K :=
  { len := A.cols
    val := fun j => ∑ k ∈ Finset.range v.len, v.val k * A.val k j }

/-- `np.dot(A, v)` for a matrix and a vector. limiting.py:114, 119. -/
def Arr.dotVec {K : Type*} [NonUnitalNonAssocSemiring K] (A : Arr K) (v : Vec K) : Vec K :=
  { len := A.rows
    val := fun i => ∑ k ∈ Finset.range A.cols, A.val i k * v.val k }

/-- `np.linspace(a, b, num)` for `num ≥ 1`: `a + i*(b-a)/(num-1)`, the last sample (if there is more
than one) being set to `b` exactly. solution.py:203, 483, rk.py:68, 138. -/
def linspace {K : Type*} [Field K] (a b : K) (num : ℕ) : Vec K :=
  { len := num
    val := fun i => if i = num - 1 ∧ 1 < num then b
      else a + (i : K) * ((b - a) / ((num - 1 : ℕ) : K)) }

end Dg1d
