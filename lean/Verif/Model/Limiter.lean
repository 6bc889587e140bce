import Verif.Model.Solution
import Verif.Model.LinAlg
import Mathlib.Data.Nat.Factorial.Basic
import Mathlib.Data.List.Sort

/-!
# dg1d/limiting.py — hierarchical reconstruction, dg1d/sensor.py — the `Sensor` object
-/

namespace Dg1d
variable {K : Type*} [Field K] [LinearOrder K]

/-- sensor.py:19-27 `Sensor.__init__(thresholds, length)`. -/
def Sensor.init (thresholds : List K) (length : ℕ) : Sensor K := ⟨thresholds, ⟨length, fun _ => 0⟩⟩

/-- sensor.py:30-37 `Sensor.sensing(solution)`: clean the flags, then call the physics' sensor. -/
def Sensor.sensing (sn : Sensor K) (s : Sol K) : Except PyErr (Sensor K) :=
  match s.kw.sensing sn.thresholds s.u s.NF ⟨sn.sensors.len, fun _ => 0⟩ with
  | .error e => .error e
  | .ok v => .ok { sn with sensors := v }

/-- limiting.py:175-186 `integrate_monomial_derivative(k, n)`; the code calls it with `k ≤ n` only. -/
def integrateMonomialDerivative (k n : ℕ) : K :=
  let num := n - k + 1
  if num % 2 = 1 then 2 / (num.factorial : K) else 0

/-- limiting.py:191-197 `integrate_monomial_derivative_bounds(k, n, a, b)`; the code calls it with `k ≤ n` only. -/
def integrateMonomialDerivativeBounds (k n : ℕ) (a b : K) : K :=
  let num := n - k + 1
  (b ^ num - a ^ num) / (num.factorial : K)

/-- limiting.py:202-207 `scalar_minmod(a, b)`: `sorted([a, b, 0])[1]`. -/
def scalarMinmod (a b : K) : K := ([a, b, 0].insertionSort (· ≤ ·)).getD 1 0

/-- The attributes of a `Limiter` of type 'adaptive_hr' (limiting.py:32-56). `ulim` is scratch space, overwritten
before every use. -/
structure HrLimiter (K : Type*) where
  L2M : Arr K
  M2L : Arr K
  integral : Arr K
  bounds31 : Arr K
  bounds13 : Arr K

/-- A `Limiter`; `none` when `keywords['type']` is `None`. limiting.py:19-69. -/
abbrev Limiter (K : Type*) := Option (HrLimiter K)

/-- limiting.py:34-40: the matrix `V[i, j] = x[i]**j / j!`. -/
def taylorMatrix (B : Basis K) : Arr K := ⟨B.Ns, B.Ns, fun i j => B.x.val i ^ j / (j.factorial : K)⟩

/-- limiting.py:45-56: the three tables of integrals. The loops are `for m in range(p, 0, -1)`,
`for n in range(m-1, p+1)`, with `[m-1, n]` the entry written. Result: (integral, bounds_31, bounds_13). -/
def integralTables (B : Basis K) : Arr K × Arr K × Arr K :=
  let filled (lo : ℕ) (f : ℕ → ℕ → K) : Arr K := ⟨B.Ns, B.Ns, fun k n =>
    if k + 1 ≤ B.p ∧ k + lo ≤ n ∧ n < B.p + 1 then f k n else 0⟩
  (filled 0 integrateMonomialDerivative,
   filled 2 fun k n => integrateMonomialDerivativeBounds k n (-3) (-1),
   filled 2 fun k n => integrateMonomialDerivativeBounds k n 1 3)

/-- limiting.py:19-62 `Limiter.__init__(limiting_type, solution)`. -/
def Limiter.init (limitingType : String) (s : Sol K) : Except PyErr (Limiter K) :=
  if limitingType = "adaptive_hr" then
    match (taylorMatrix s.basis).inv with
    | .error e => .error e
    | .ok Vinv =>
      let L2M := Vinv.dot s.basis.phi
      match L2M.inv with
      | .error e => .error e
      | .ok M2L =>
        let t := integralTables s.basis
        .ok (some ⟨L2M, M2L, t.1, t.2.1, t.2.2⟩)
  else .ok none

namespace HrLimiter

/-- limiting.py:131-165, one pass of the loop on derivatives (`m ≥ 1`): (`avgLC`, `alim[m]`). -/
def limitStep (lm : HrLimiter K) (N : ℕ) (ac al ar alim : ℕ → K) (m : ℕ) : K × K :=
  let avgdU := fun a : ℕ → K => ∑ n ∈ Finset.Ico (m - 1) (N + 1), a n * lm.integral.val (m - 1) n
  let avgR := fun T : Arr K => ∑ n ∈ Finset.Ico (m + 1) (N + 1), alim n * T.val (m - 1) n
  let avgLL := 1 / 2 * (avgdU al - avgR lm.bounds31)
  let avgLC := 1 / 2 * (avgdU ac - avgR lm.integral)
  let avgLR := 1 / 2 * (avgdU ar - avgR lm.bounds13)
  let c1 := 1 / 2 * (avgLC - avgLL)
  let c2 := 1 / 2 * (avgLR - avgLC)
  (avgLC, scalarMinmod c1 c2)

/-- limiting.py:128-165: `for m in range(N, 0, -1)`, on (`alim`, `avgLC`); `avgLC` is unbound before the first pass. -/
def limitLoop (lm : HrLimiter K) (N : ℕ) (ac al ar : ℕ → K) : ℕ → (ℕ → K) × Option K → (ℕ → K) × Option K
  | 0, st => st
  | m + 1, st =>
    let r := lm.limitStep N ac al ar st.1 (m + 1)
    limitLoop lm N ac al ar m (Function.update st.1 (m + 1) r.2, some r.1)

/-- limiting.py:122-169 `limit_monomial(ac, al, ar)`. -/
def limitMonomial (lm : HrLimiter K) (ac al ar : Vec K) : Except PyErr (Vec K) :=
  let N := ac.len - 1
  match lm.limitLoop N ac.val al.val ar.val N (fun _ => 0, none) with
  | (_, none) => .error .unboundLocal
  | (alim, some avgLC) => .ok ⟨ac.len, Function.update alim 0 avgLC⟩

/-- limiting.py:95-119 `hr(uc, ul, ur)` with `legendre_to_monomial`, `monomial_to_legendre`. -/
def hr (lm : HrLimiter K) (uc ul ur : Vec K) : Except PyErr (Vec K) :=
  match lm.limitMonomial (lm.L2M.dotVec uc) (lm.L2M.dotVec ul) (lm.L2M.dotVec ur) with
  | .error e => .error e
  | .ok t => .ok (lm.M2L.dotVec t)

/-- `A[:, c] = v`. limiting.py:85-89. -/
def _root_.Dg1d.Arr.setCol (A : Arr K) (c : ℕ) (v : Vec K) : Arr K :=
  { A with val := fun r j => if j = c then v.val r else A.val r j }

/-- limiting.py:85-89: `for f in range(0, N_F)`, the fields of cell `e`. -/
def limitFields (lm : HrLimiter K) (s : Sol K) (e : ℕ) (ulim : Arr K) : Except PyErr (Arr K) :=
  (List.range s.NF).foldlM (fun ulim f =>
    match lm.hr (s.u.col (e * s.NF + f)) (s.u.col ((e - 1) * s.NF + f)) (s.u.col ((e + 1) * s.NF + f)) with
    | .error err => .error err
    | .ok v => .ok (ulim.setCol (e * s.NF + f) v)) ulim

/-- limiting.py:72-92 `adaptive_hr(solution)`. Without sensors `solution.sensors` is an `AttributeError`. -/
def adaptiveHr (lm : HrLimiter K) (s : Sol K) : Except PyErr (Sol K) :=
  match s.sensors with
  | none => .error .attributeError
  | some sn =>
    match sn.sensing s with
    | .error e => .error e
    | .ok sn =>
      match (List.range' 1 s.NE).foldlM (fun ulim e =>
          if sn.sensors.val e ≠ 0 then lm.limitFields s e ulim else .ok ulim) s.u with
      | .error e => .error e
      | .ok ulim => .ok (Sol.applyBc { s with u := ulim, sensors := some sn })

end HrLimiter

/-- limiting.py:65-69 `limit(solution)`. -/
def Limiter.limit (lm : Limiter K) (s : Sol K) : Except PyErr (Sol K) :=
  match lm with
  | none => .ok s
  | some lm => lm.adaptiveHr s

end Dg1d
