import Verif.Model.Basis

/-!
# dg1d/solution.py — the `Solution` object and its array operations

Constructors / initial conditions are in `Model/InitialConditions.lean`, `Model/Construct.lean`,
input/output in `Model/IO.lean`.
-/

namespace Dg1d

/-- A Python string together with whether it is *the* interned literal object of solution.py.
`apply_bc` compares boundary names with `is` (solution.py:530,532,538,540): identity holds for the
literals assigned in the initial-condition methods of the same module (solution.py:240-241, 289-290, …)
and fails for a string built at run time, e.g. parsed from a file (solution.py:187-188).
(CPython behaviour.) -/
structure PyStr where
  val : String
  interned : Bool
  deriving DecidableEq, Repr

/-- `s is 'literal'` inside solution.py. solution.py:530, 532, 538, 540. -/
def PyStr.isLit (s : PyStr) (lit : String) : Prop := s.interned = true ∧ s.val = lit

/-- The test is a Boolean one (solution.py:530, 532, 538, 540). -/
instance (s : PyStr) (lit : String) : Decidable (s.isLit lit) := by
  unfold PyStr.isLit; infer_instance

/-- A string literal of solution.py. E.g. solution.py:240-241. -/
def PyStr.lit (s : String) : PyStr := ⟨s, true⟩

/-- Result of a wave-speed computation: a number, or `NaN`. euler_physics.py:19-31. -/
inductive Wave (K : Type*) where
  | fin (v : K)
  | nan

/-- solution.py:83-118 `set_manipulation_functions`: the entries of the `keywords` dictionary that
depend on the PDE system. `sensing thresholds u NF sensors` is the function stored under 'sensing'
with its three arguments (it reads only `u` and `N_F` of the solution); it returns the mutated
sensor array. -/
structure Physics (K : Type*) where
  fields : List String
  riemann : Vec K → Vec K → Except PyErr (Vec K)
  interiorFlux : Arr K → Arr K
  maxWaveSpeed : Arr K → Except PyErr (Wave K)
  sensing : List K → Arr K → ℕ → Vec ℕ → Except PyErr (Vec ℕ)

/-- enhance.py:40-41: the vectors stored by `Enhance.__init__` that `face_value` uses. -/
structure Enhance (K : Type*) where
  alphaL : Vec K
  alphaR : Vec K
  betaL : Vec K
  betaR : Vec K

/-- sensor.py:15-27 `class Sensor`. -/
structure Sensor (K : Type*) where
  thresholds : List K
  sensors : Vec ℕ

/-- solution.py:25-80 `class Solution`: the attributes. `enhance = none` means
`keywords['evaluate_face_solution']` is `collocate_faces`; `sensors = none` means `issensing = False`. -/
structure Sol (K : Type*) where
  basis : Basis K
  kw : Physics K
  t : K
  n : ℕ
  NE : ℕ
  NF : ℕ
  x : Vec K
  xc : Vec K
  dx : K
  u : Arr K
  scaledMinv : Vec K
  bcl : PyStr
  bcr : PyStr
  enhance : Option (Enhance K)
  sensors : Option (Sensor K)

namespace Sol
variable {K : Type*}

/-- solution.py:520-523 `add_ghosts`: `np.c_[zeros, u, zeros]`. -/
def addGhosts [Zero K] (s : Sol K) : Sol K :=
  { s with u :=
    { rows := s.u.rows
      cols := s.NF + s.u.cols + s.NF
      val := fun r c => if c < s.NF then 0
        else if c < s.NF + s.u.cols then s.u.val r (c - s.NF) else 0 } }

/-- solution.py:529-535, the left half of `apply_bc`. The `else` branch only prints. -/
def applyBcLeft (s : Sol K) : Sol K :=
  if s.bcl.isLit "periodic" then
    { s with u := s.u.setColSlice 0 s.NF (s.u.colSlice (-2 * (s.NF : ℤ)) (-(s.NF : ℤ))) }
  else if s.bcl.isLit "zerograd" then
    { s with u := s.u.setColSlice 0 s.NF (s.u.colSlice s.NF (2 * (s.NF : ℤ))) }
  else s

/-- solution.py:537-543, the right half of `apply_bc`. The `else` branch only prints. -/
def applyBcRight (s : Sol K) : Sol K :=
  if s.bcr.isLit "periodic" then
    { s with u := s.u.setColSlice (-(s.NF : ℤ)) s.u.cols (s.u.colSlice s.NF (2 * (s.NF : ℤ))) }
  else if s.bcr.isLit "zerograd" then
    { s with u := s.u.setColSlice (-(s.NF : ℤ)) s.u.cols (s.u.colSlice (-2 * (s.NF : ℤ)) (-(s.NF : ℤ))) }
  else s

/-- solution.py:526-543 `apply_bc`. -/
def applyBc (s : Sol K) : Sol K := s.applyBcLeft.applyBcRight

/-- solution.py:551-553 `copy_data_only`. (`copy`, solution.py:546-548, a deep copy, is the identity
on values.) -/
def copyDataOnly (s other : Sol K) : Sol K := { s with u := other.u }

/-- solution.py:556-559 `smart_axpy`. -/
def smartAxpy [Field K] [LinearOrder K] (s : Sol K) (a : K) (x : Arr K) : Sol K :=
  if |a| > 1 / 10 ^ 15 then { s with u := s.u.add (x.smul a) } else s

/-- solution.py:577-579 `collocate`. -/
def collocate [NonUnitalNonAssocSemiring K] (s : Sol K) : Arr K := s.basis.phi.dot s.u

/-- solution.py:589-591 `collocate_faces`. -/
def collocateFaces [NonUnitalNonAssocSemiring K] (s : Sol K) : Arr K := s.basis.psi.dot s.u

/-- enhance.py:47-58: the array `Enhance.face_value` returns. `uf_tmp` (enhance.py:44) starts as zeros and the entries
`[0, :N_F]` and `[1, -N_F:]` are never written, so they stay zero. -/
def _root_.Dg1d.Enhance.faceArr [NonUnitalNonAssocSemiring K] (en : Enhance K) (u : Arr K)
    (NF : ℕ) : Arr K :=
  let uL := u.colSlice 0 (-(NF : ℤ))
  let uR := u.colSlice NF u.cols
  let f0 := fun c => (en.betaL.dotArr uL).val c + (en.betaR.dotArr uR).val c
  let f1 := fun c => (en.alphaL.dotArr uL).val c + (en.alphaR.dotArr uR).val c
  { rows := 2
    cols := u.cols
    val := fun r c =>
      if r = 0 then (if pyIdx u.cols NF ≤ c then f0 (c - pyIdx u.cols NF) else 0)
      else (if c < pyIdx u.cols (-(NF : ℤ)) then f1 c else 0) }

/-- enhance.py:47-58 `Enhance.face_value`. `np.dot` raises `ValueError` when a vector's length is not the number of
rows of `u`. -/
def _root_.Dg1d.Enhance.faceValue [NonUnitalNonAssocSemiring K] (en : Enhance K) (u : Arr K) (NF : ℕ) : Except PyErr (Arr K) :=
  if en.alphaL.len = u.rows ∧ en.alphaR.len = u.rows ∧ en.betaL.len = u.rows ∧ en.betaR.len = u.rows then
    .ok (en.faceArr u NF)
  else .error .valueError

/-- solution.py:582-586 `evaluate_faces`, with the dispatch set at solution.py:71-74 / 101. -/
def evaluateFaces [NonUnitalNonAssocSemiring K] (s : Sol K) : Except PyErr (Arr K) :=
  match s.enhance with
  | none => .ok s.collocateFaces
  | some en => en.faceValue s.u s.NF

end Sol
end Dg1d
