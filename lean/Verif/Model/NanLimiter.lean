import Verif.Model.Nan
import Verif.Model.Limiter

/-!
# dg1d/limiting.py — hierarchical reconstruction of data that hold NaN

The same functions as in `Model/Limiter.lean`, on reals with NaN, and the sensor of the Euler equations. What `sorted` does with NaN depends on the sort: modelled is `list.sort` of CPython up to 3.12 (`np.math`, which limiting.py uses, does not
exist in versions of numpy for later ones).
-/

namespace Dg1d.Nan
open Num

open Classical in
/-- `x < y`; a comparison with NaN is false. limiting.py:207. -/
noncomputable def lt : Num → Num → Bool
  | num x, num y => decide (x < y)
  | _, _ => false

/-- limiting.py:207: `sorted([a, b, c])`. CPython's `list.sort` first takes the run the list starts with (`count_run`): strictly
descending if `b < a`, and then reversed, ascending otherwise. If `c` does not continue it, `c` is put in by bisection (`binarysort`),
comparing it with the second of the two first. -/
noncomputable def sorted3 (a b c : Num) : List Num :=
  if lt b a then
    if lt c b then [c, b, a]
    else if lt c a then (if lt c b then [c, b, a] else [b, c, a]) else [b, a, c]
  else
    if lt c b then (if lt c a then [c, a, b] else [a, c, b])
    else [a, b, c]

/-- limiting.py:202-207 `scalar_minmod(a, b)`: `sorted([a, b, 0])[1]`. -/
noncomputable def scalarMinmod (a b : Num) : Num := (sorted3 a b (num 0)).getD 1 nan

/-- A sum computed by `x += ...` in a loop, started at 0. limiting.py:132-152. -/
noncomputable def sumOver (l : List ℕ) (f : ℕ → Num) : Num := l.foldl (fun acc n => acc + f n) (num 0)

/-- `np.dot(A, v)` for a table `A` of reals and a vector. limiting.py:114, 119. -/
noncomputable def vdot (A : Arr ℝ) (v : Vec Num) : Vec Num :=
  ⟨A.rows, fun i => sumOver (List.range A.cols) fun k => num (A.val i k) * v.val k⟩

/-- limiting.py:131-165, one pass of the loop on derivatives (`m ≥ 1`): (`avgLC`, `alim[m]`). -/
noncomputable def limitStep (lm : HrLimiter ℝ) (N : ℕ) (ac al ar alim : ℕ → Num) (m : ℕ) : Num × Num :=
  let avgdU := fun a : ℕ → Num => sumOver (List.range' (m - 1) (N + 1 - (m - 1))) fun n => a n * num (lm.integral.val (m - 1) n)
  let avgR := fun T : Arr ℝ => sumOver (List.range' (m + 1) (N + 1 - (m + 1))) fun n => alim n * num (T.val (m - 1) n)
  let avgLL := num (1 / 2) * (avgdU al - avgR lm.bounds31)
  let avgLC := num (1 / 2) * (avgdU ac - avgR lm.integral)
  let avgLR := num (1 / 2) * (avgdU ar - avgR lm.bounds13)
  let c1 := num (1 / 2) * (avgLC - avgLL)
  let c2 := num (1 / 2) * (avgLR - avgLC)
  (avgLC, scalarMinmod c1 c2)

/-- limiting.py:128-165: `for m in range(N, 0, -1)`, on (`alim`, `avgLC`); `avgLC` is unbound before the first pass. -/
noncomputable def limitLoop (lm : HrLimiter ℝ) (N : ℕ) (ac al ar : ℕ → Num) : ℕ → (ℕ → Num) × Option Num → (ℕ → Num) × Option Num
  | 0, st => st
  | m + 1, st =>
    let r := limitStep lm N ac al ar st.1 (m + 1)
    limitLoop lm N ac al ar m (Function.update st.1 (m + 1) r.2, some r.1)

/-- limiting.py:122-169 `limit_monomial(ac, al, ar)`. -/
noncomputable def limitMonomial (lm : HrLimiter ℝ) (ac al ar : Vec Num) : Except PyErr (Vec Num) :=
  let N := ac.len - 1
  match limitLoop lm N ac.val al.val ar.val N (fun _ => num 0, none) with
  | (_, none) => .error .unboundLocal
  | (alim, some avgLC) => .ok ⟨ac.len, Function.update alim 0 avgLC⟩

/-- limiting.py:95-119 `hr(uc, ul, ur)` with `legendre_to_monomial`, `monomial_to_legendre`. -/
noncomputable def hr (lm : HrLimiter ℝ) (uc ul ur : Vec Num) : Except PyErr (Vec Num) :=
  match limitMonomial lm (vdot lm.L2M uc) (vdot lm.L2M ul) (vdot lm.L2M ur) with
  | .error e => .error e
  | .ok t => .ok (vdot lm.M2L t)

/-- `A[:, c] = v`. limiting.py:85-89. -/
def setCol (A : Arr Num) (c : ℕ) (v : Vec Num) : Arr Num := { A with val := fun r j => if j = c then v.val r else A.val r j }

/-- limiting.py:85-89: `for f in range(0, N_F)`, the fields of cell `e`; `u` is `solution.u`. -/
noncomputable def limitFields (lm : HrLimiter ℝ) (NF : ℕ) (u : Arr Num) (e : ℕ) (ulim : Arr Num) : Except PyErr (Arr Num) :=
  (List.range NF).foldlM (fun ulim f =>
    match hr lm (u.col (e * NF + f)) (u.col ((e - 1) * NF + f)) (u.col ((e + 1) * NF + f)) with
    | .error err => .error err
    | .ok v => .ok (setCol ulim (e * NF + f) v)) ulim

/-- limiting.py:78-92 `adaptive_hr(solution)` on the array, with the flags `flag` the sensor has left. -/
noncomputable def adaptiveHr (lm : HrLimiter ℝ) (s : Sol ℝ) (flag : ℕ → ℕ) (u : Arr Num) : Except PyErr (Arr Num) :=
  match (List.range' 1 s.NE).foldlM (fun ulim e => if flag e ≠ 0 then limitFields lm s.NF u e ulim else .ok ulim) u with
  | .error e => .error e
  | .ok ulim => .ok (bc s ulim)

/-- euler_physics.py:367-400: the discontinuity test of one face; a comparison with NaN is false. An infinity (a divisor is zero) ends as NaN
or as `-∞` in `XSI`, see the remark in `Model/Nan.lean`: `2 ∞ / ((1 + ∞) (1 + ∞))` is NaN. -/
noncomputable def isDiscontinuity (γ th0 : ℝ) (L R : St) : Bool :=
  let RT := sqrt (R.rho / L.rho)
  let v := (L.v + RT * R.v) / (num 1 + RT)
  let H := (L.H γ + RT * R.H γ) / (num 1 + RT)
  let a := sqrt (num (γ - 1) * (H - num (1 / 2) * v * v))
  let dV2 := (R.rho - L.rho) - (R.p γ - L.p γ) / (a * a)
  let xsi := abs dV2 / (L.rho + R.rho)
  lt (num th0) (num 2 * xsi / ((num 1 + xsi) * (num 1 + xsi)))

/-- euler_physics.py:367-390, 404-408: the shock test of one face. -/
noncomputable def isShock (γ th1 : ℝ) (L R : St) : Bool :=
  let RT := sqrt (R.rho / L.rho)
  let v := (L.v + RT * R.v) / (num 1 + RT)
  let H := (L.H γ + RT * R.H γ) / (num 1 + RT)
  let a := sqrt (num (γ - 1) * (H - num (1 / 2) * v * v))
  let phi := abs (R.p γ - L.p γ) / (L.p γ + R.p γ)
  lt (num th1) (num 2 * phi / ((num 1 + phi) * (num 1 + phi))) && lt (v - a) (L.v - L.a γ) && lt (R.v - R.a γ) (v - a)

/-- euler_physics.py:361-410, sensor.py:30-37 `sensing`: the flags, from clean ones. -/
noncomputable def sensing (γ : ℝ) (th : List ℝ) (u : Arr Num) (NF len : ℕ) : Except PyErr (Vec ℕ) :=
  let ul := (u.row 0).slice 0 (-(NF : ℤ))
  let ur := (u.row 0).slice NF u.cols
  let n := (ul.len + 2) / 3
  match th with
  | th0 :: th1 :: _ =>
    .ok (raiseSensors (fun i => isShock γ th1 (stateAt ul.val i) (stateAt ur.val i)) n 2
      (raiseSensors (fun i => isDiscontinuity γ th0 (stateAt ul.val i) (stateAt ur.val i)) n 1 ⟨len, fun _ => 0⟩))
  | _ => .error .indexError

/-- limiting.py:72-92 `adaptive_hr(solution)` of an Euler solution on its array: `s.sensors` holds the thresholds. -/
noncomputable def limitGas (lm : HrLimiter ℝ) (γ : ℝ) (s : Sol ℝ) (u : Arr Num) : Except PyErr (Arr Num) :=
  match s.sensors with
  | none => .error .attributeError
  | some sn =>
    match sensing γ sn.thresholds u s.NF sn.sensors.len with
    | .error e => .error e
    | .ok flags => adaptiveHr lm s flags.val u

/-- limiting.py:65-69 `limit(solution)` for the runs of `Model/Nan.lean`, which have no place for an exception: used where `limitGas` raises none
(order at least 1, two thresholds; `C111_total`). -/
noncomputable def limitOf (lm : HrLimiter ℝ) (γ : ℝ) (s : Sol ℝ) (u : Arr Num) : Arr Num :=
  match limitGas lm γ s u with
  | .ok u' => u'
  | .error _ => u

end Dg1d.Nan
