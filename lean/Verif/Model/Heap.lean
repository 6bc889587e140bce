import Verif.Model.Dg
import Verif.Model.Limiter
import Verif.Model.Main
import Verif.Model.Rk

/-!
# The integrators with Python's references

The rest of the model passes solutions and arrays as values. Here the same code is modelled with the objects and arrays
in a store and the variables holding addresses: `+=`, slice assignments and `fill` change an array in place, `self.u = ...`
makes an attribute refer to another array, `np.copy` and arithmetic make new arrays, `copy.deepcopy` copies an object with
all arrays it refers to. `Props/Heap.lean` shows that both give the same results.

What is on the store: the `Solution` objects with the arrays `u`, `sensors.sensors`, `enhance.uf_tmp`; the array `Q` of the `DG`
object; the increments `K` / `du`; every array computed on the way. Attributes of a solution that are never changed
in place (`basis`, `x`, `scaled_minv`, the enhancement vectors, …) are kept as values; the attributes `ug`, `uf`, `q`, `F` of
the `DG` object and `ulim` of the limiter are set anew in each call before they are read, they are local variables here.
Memory is never reclaimed. An exception ends the run; the store at that moment is not described.
-/

namespace Dg1d

/-- A `Solution` object. `attrs` has the attributes that are not changed in place (its `u` and its sensor flags are not used);
`u`, `flags`, `ufTmp` are the addresses of the arrays `u`, `sensors.sensors` and `enhance.uf_tmp`; `bound` is the object to which the
method stored under `keywords['evaluate_face_solution']` is bound. solution.py:25-80, 83-118, sensor.py:27, enhance.py:44. -/
structure Obj (K : Type*) where
  attrs : Sol K
  u : ℕ
  flags : ℕ
  ufTmp : ℕ
  bound : ℕ

/-- The store: arrays of floats, arrays of integers, objects; addresses from `next` on are free. E.g. solution.py:546-559, rk.py:62-64. -/
structure Heap (K : Type*) where
  next : ℕ
  arr : ℕ → Arr K
  ints : ℕ → Vec ℕ
  obj : ℕ → Obj K

namespace Heap
variable {K : Type*}

/-- The solution an object stands for: what its attributes and the arrays they refer to hold. solution.py:25-80. -/
def view (h : Heap K) (o : ℕ) : Sol K :=
  let ob := h.obj o
  { ob.attrs with u := h.arr ob.u, sensors := ob.attrs.sensors.map fun sn => { sn with sensors := h.ints ob.flags } }

/-- Change the array at `a` in place. E.g. solution.py:531, 559. -/
def setArr (h : Heap K) (a : ℕ) (A : Arr K) : Heap K := { h with arr := Function.update h.arr a A }

/-- A new array, and its address. E.g. solution.py:553, rk.py:105. -/
def newArr (h : Heap K) (A : Arr K) : ℕ × Heap K :=
  (h.next, { h with next := h.next + 1, arr := Function.update h.arr h.next A })

/-- Change attributes of an object. E.g. solution.py:553, rk.py:97, 112-113. -/
def setObj (h : Heap K) (o : ℕ) (f : Obj K → Obj K) : Heap K := { h with obj := Function.update h.obj o (f (h.obj o)) }

/-- solution.py:546-548 `copy`, `copy.deepcopy(self)`: a new object with copies of its arrays. The methods in `keywords` are bound
to `self`, which deepcopy has already copied, so that the copied methods are bound to the copy. -/
def copy (h : Heap K) (o : ℕ) : ℕ × Heap K :=
  let ob := h.obj o
  let u := h.next
  let tmp := h.next + 1
  let flags := h.next + 2
  let o' := h.next + 3
  (o',
   { next := h.next + 4
     arr := Function.update (Function.update h.arr u (h.arr ob.u)) tmp (h.arr ob.ufTmp)
     ints := Function.update h.ints flags (h.ints ob.flags)
     obj := Function.update h.obj o'
       { ob with u := u, ufTmp := tmp, flags := flags, bound := if ob.bound = o then o' else ob.bound } })

/-- solution.py:551-553 `copy_data_only`: `self.u = np.copy(other.u)`. -/
def copyDataOnly (h : Heap K) (o other : ℕ) : Heap K :=
  let r := h.newArr (h.arr (h.obj other).u)
  r.2.setObj o fun ob => { ob with u := r.1 }

/-- solution.py:556-559 `smart_axpy`: `self.u += a * x`, in place; `x` is an address. -/
def smartAxpy [Field K] [LinearOrder K] (h : Heap K) (o : ℕ) (a : K) (x : ℕ) : Heap K :=
  if |a| > 1 / 10 ^ 15 then h.setArr (h.obj o).u ((h.arr (h.obj o).u).add ((h.arr x).smul a)) else h

/-- solution.py:526-543 `apply_bc`: one slice assignment, in place, for each side. -/
def applyBc (h : Heap K) (o : ℕ) : Heap K :=
  let h := h.setArr (h.obj o).u (h.view o).applyBcLeft.u
  h.setArr (h.obj o).u (h.view o).applyBcRight.u

/-- enhance.py:50-56: the two slice assignments to `uf_tmp`, whose other entries keep what they held. -/
def _root_.Dg1d.Enhance.fill [NonUnitalNonAssocSemiring K] (en : Enhance K) (tmp u : Arr K) (NF : ℕ) : Arr K :=
  let uL := u.colSlice 0 (-(NF : ℤ))
  let uR := u.colSlice NF u.cols
  let f0 := fun c => (en.betaL.dotArr uL).val c + (en.betaR.dotArr uR).val c
  let f1 := fun c => (en.alphaL.dotArr uL).val c + (en.alphaR.dotArr uR).val c
  let lo := pyIdx tmp.cols NF
  let hi := pyIdx tmp.cols (-(NF : ℤ))
  let row0 : Arr K := ⟨tmp.rows, tmp.cols, fun r c => if r = 0 ∧ lo ≤ c then f0 (c - lo) else tmp.val r c⟩
  ⟨tmp.rows, tmp.cols, fun r c => if r = 1 ∧ c < hi then f1 c else row0.val r c⟩

/-- solution.py:582-596 `evaluate_faces`, through the method stored in `keywords`: `collocate_faces` makes a new array,
`Enhance.face_value` (enhance.py:47-58) returns the array `uf_tmp` itself. Result: the address of the face values. -/
def evaluateFaces [NonUnitalNonAssocSemiring K] (h : Heap K) (o : ℕ) : Except PyErr (ℕ × Heap K) :=
  let self := (h.obj o).bound
  let u := h.arr (h.obj self).u
  match (h.obj self).attrs.enhance with
  | none => .ok (h.newArr ((h.obj self).attrs.basis.psi.dot u))
  | some en =>
    if en.alphaL.len = u.rows ∧ en.alphaR.len = u.rows ∧ en.betaL.len = u.rows ∧ en.betaR.len = u.rows then
      .ok ((h.obj self).ufTmp, h.setArr (h.obj self).ufTmp (en.fill (h.arr (h.obj self).ufTmp) u (h.obj self).attrs.NF))
    else .error .valueError

/-- dg.py:81-82: `Q[::2, ] = q[N_F:] - q[:-N_F]` and `Q[1::2, ] = q[:-N_F] + q[N_F:]`. -/
def fillQ [Field K] (Q : Arr K) (q : Vec K) (NF : ℕ) : Arr K :=
  let qr := q.slice NF q.len
  let ql := q.slice 0 (-(NF : ℤ))
  let Q : Arr K := { Q with val := fun r c => if r % 2 = 0 then qr.val c - ql.val c else Q.val r c }
  { Q with val := fun r c => if r % 2 = 1 then ql.val c + qr.val c else Q.val r c }

/-- dg.py:86: `F[:, N_F:-N_F] -= Q`. -/
def subtractQ [Field K] (F Q : Arr K) (NF : ℕ) : Arr K :=
  let lo := pyIdx F.cols NF
  let hi := pyIdx F.cols (-(NF : ℤ))
  { F with val := fun r c => if lo ≤ c ∧ c < hi then F.val r c - Q.val r (c - lo) else F.val r c }

/-- dg.py:31-66 `residual`; `Q` is the address of `self.Q`. The advection flux returns `ug` itself (advection_physics.py:31-33) where
this makes a copy, which is only read. Result: the address of the residual. -/
def residual [Field K] (Q : ℕ) (h : Heap K) (o : ℕ) : Except PyErr (ℕ × Heap K) :=
  let h := h.applyBc o
  let rug := h.newArr ((h.obj o).attrs.basis.phi.dot (h.arr (h.obj o).u))
  match rug.2.evaluateFaces o with
  | .error e => .error e
  | .ok (uf, h) =>
    let rF := h.newArr ((h.obj o).attrs.kw.interiorFlux (h.arr rug.1))
    let rF := rF.2.newArr (integrateInteriorFlux (h.obj o).attrs.basis.dphiW (rF.2.arr rF.1))
    let F := rF.1
    let h := rF.2
    match interfaceFluxes (h.obj o).attrs.kw (h.arr uf) (h.obj o).attrs.NF with
    | .error e => .error e
    | .ok q =>
      let h := h.setArr Q (fillQ (h.arr Q) q (h.obj o).attrs.NF)
      let h := h.setArr F (subtractQ (h.arr F) (h.arr Q) (h.obj o).attrs.NF)
      .ok (h.newArr (inverseMassMatrixMultiply (h.arr F) (h.obj o).attrs.scaledMinv))

variable [Field K] [LinearOrder K]

/-- sensor.py:30-37 `Sensor.sensing(solution)`: `fill(0)`, then the physics' sensor writes into the same array. -/
def sensing (h : Heap K) (o : ℕ) (thresholds : List K) : Except PyErr (Heap K) :=
  let h := { h with ints := Function.update h.ints (h.obj o).flags ⟨(h.ints (h.obj o).flags).len, fun _ => 0⟩ }
  match (h.obj o).attrs.kw.sensing thresholds (h.arr (h.obj o).u) (h.obj o).attrs.NF (h.ints (h.obj o).flags) with
  | .error e => .error e
  | .ok v => .ok { h with ints := Function.update h.ints (h.obj o).flags v }

/-- limiting.py:85-89: the fields of cell `e`; `ulim` is an address. -/
def limitFields (lm : HrLimiter K) (o ulim e : ℕ) (h : Heap K) : Except PyErr (Heap K) :=
  let NF := (h.obj o).attrs.NF
  (List.range NF).foldlM (fun h f =>
    let u := h.arr (h.obj o).u
    match lm.hr (u.col (e * NF + f)) (u.col ((e - 1) * NF + f)) (u.col ((e + 1) * NF + f)) with
    | .error err => .error err
    | .ok v => .ok (h.setArr ulim ((h.arr ulim).setCol (e * NF + f) v))) h

/-- limiting.py:72-92 `adaptive_hr(solution)`: `ulim` is a copy of `u`, written column by column; `u` becomes a copy of it. -/
def adaptiveHr (lm : HrLimiter K) (h : Heap K) (o : ℕ) : Except PyErr (Heap K) :=
  match (h.obj o).attrs.sensors with
  | none => .error .attributeError
  | some sn =>
    match h.sensing o sn.thresholds with
    | .error e => .error e
    | .ok h =>
      let r := h.newArr (h.arr (h.obj o).u)
      match (List.range' 1 (h.obj o).attrs.NE).foldlM (fun h e =>
          if (h.ints (h.obj o).flags).val e ≠ 0 then limitFields lm o r.1 e h else .ok h) r.2 with
      | .error e => .error e
      | .ok h =>
        let r := h.newArr (h.arr r.1)
        .ok ((r.2.setObj o fun ob => { ob with u := r.1 }).applyBc o)

/-- limiting.py:65-69 `limit(solution)`. -/
def limit (lm : Limiter K) (h : Heap K) (o : ℕ) : Except PyErr (Heap K) :=
  match lm with
  | none => .ok h
  | some lm => adaptiveHr lm h o

/-- `solution.t += dt`. rk.py:97, 112, 168, 182. -/
def addTime (h : Heap K) (o : ℕ) (dt : K) : Heap K := h.setObj o fun ob => { ob with attrs := { ob.attrs with t := ob.attrs.t + dt } }

/-- `solution.n += 1`. rk.py:113, 183. -/
def addStep (h : Heap K) (o : ℕ) : Heap K := h.setObj o fun ob => { ob with attrs := { ob.attrs with n := ob.attrs.n + 1 } }

end Heap

/-- The objects the integrators work with: `solution`, `us`, `uk` / `ustar`, and the array `Q` of the `DG` object. rk.py:58-63, 128-134, dg.py:28. -/
structure Refs where
  sol : ℕ
  us : ℕ
  work : ℕ
  Q : ℕ

variable {K : Type*} [Field K] [LinearOrder K]
open Heap

/-- rk.py:94-108: body of the RK inner loop of `classic_rk`, stage `k`; the second component is the list `K` of addresses. -/
def heapClassicStage (lm : Limiter K) (tab : Tableau K) (r : Refs) (dt : K) (k : ℕ) (c alpha : K)
    (st : Heap K × (ℕ → ℕ)) : Except PyErr (Heap K × (ℕ → ℕ)) :=
  let h := st.1.copyDataOnly r.work r.us
  let h := (List.range k).foldl (fun h j => h.smartAxpy r.work (tab.beta k j) (st.2 j)) h
  let h := h.addTime r.work (alpha * dt)
  match (if k > 0 then h.limit lm r.work else .ok h) with
  | .error e => .error e
  | .ok h =>
    match h.residual r.Q r.work with
    | .error e => .error e
    | .ok (F, h) =>
      let rK := h.newArr ((h.arr F).smul dt)
      let incr := Function.update st.2 k rK.1
      .ok (rK.2.smartAxpy r.sol c (incr k), incr)

/-- rk.py:89-108: the stages from `k` on. -/
def heapClassicStages (lm : Limiter K) (tab : Tableau K) (r : Refs) (dt : K) :
    ℕ → List (K × K) → Heap K × (ℕ → ℕ) → Except PyErr (Heap K × (ℕ → ℕ))
  | _, [], st => .ok st
  | k, (c, alpha) :: rest, st =>
    match heapClassicStage lm tab r dt k c alpha st with
    | .error e => .error e
    | .ok st => heapClassicStages lm tab r dt (k + 1) rest st

/-- rk.py:166-178: body of the inner loop of `low_storage_rk4`, stage `k`; entry 0 of the second component is `du`. -/
def heapLowStage (lm : Limiter K) (r : Refs) (dt : K) (k : ℕ) (beta gamma : K)
    (st : Heap K × (ℕ → ℕ)) : Except PyErr (Heap K × (ℕ → ℕ)) :=
  let h := st.1.copyDataOnly r.work r.us
  let h := h.smartAxpy r.work beta (st.2 0)
  let h := h.addTime r.work (beta * dt)
  match (if k > 0 then h.limit lm r.work else .ok h) with
  | .error e => .error e
  | .ok h =>
    match h.residual r.Q r.work with
    | .error e => .error e
    | .ok (F, h) =>
      let rdu := h.newArr ((h.arr F).smul dt)
      .ok (rdu.2.smartAxpy r.sol gamma rdu.1, Function.update st.2 0 rdu.1)

/-- rk.py:163-178: the stages from `k` on. -/
def heapLowStages (lm : Limiter K) (r : Refs) (dt : K) :
    ℕ → List (K × K) → Heap K × (ℕ → ℕ) → Except PyErr (Heap K × (ℕ → ℕ))
  | _, [], st => .ok st
  | k, (beta, gamma) :: rest, st =>
    match heapLowStage lm r dt k beta gamma st with
    | .error e => .error e
    | .ok st => heapLowStages lm r dt (k + 1) rest st

/-- The inner loop a scheme runs: rk.py:162-178 or rk.py:88-108. -/
def Scheme.heapInner (lm : Limiter K) (r : Refs) (dt : K) : Scheme K → Heap K × (ℕ → ℕ) → Except PyErr (Heap K × (ℕ → ℕ))
  | .low => heapLowStages lm r dt 0 (lowStorageBetas.zip lowStorageGammas)
  | .classic tab => heapClassicStages lm tab r dt 0 (tab.coeffs.zip tab.alphas)

/-- Number of increments allocated: `len(coeffs)` (rk.py:62), or the one array `du` (rk.py:134). -/
def Scheme.increments : Scheme K → ℕ
  | .low => 1
  | .classic tab => tab.coeffs.length

/-- The local variables of the integrators; the `printer` calls are recorded with what the object held at the time. rk.py:61-79, 133-150. -/
structure HeapLoop (K : Type*) where
  heap : Heap K
  refs : Refs
  incr : ℕ → ℕ
  nout : ℕ
  tout : K
  touts : List K
  status : Status
  log : List (OutRec K)

/-- rk.py:119-124 (= 189-194). -/
def heapOutputPhase (st : HeapLoop K) (dt : K) (output done : Bool) : HeapLoop K :=
  if output then
    let log := st.log ++ [⟨st.nout, dt, st.heap.view st.refs.sol⟩]
    if done then { st with log := log, status := .done }
    else
      match st.touts with
      | [] => { st with log := log, nout := st.nout + 1, status := .failed .stopIteration }
      | tout :: rest => { st with log := log, nout := st.nout + 1, tout := tout, touts := rest }
  else st

/-- rk.py:79-124 (= 153-194): one iteration of the main loop. -/
def heapLoopBody (lm : Limiter K) (deck : RkDeck K) (sch : Scheme K) (st : HeapLoop K) : HeapLoop K :=
  match st.status with
  | .running =>
    match getNextTimeStep (st.heap.view st.refs.sol) st.tout deck.cfl deck.finaltime with
    | .error e => { st with status := .failed e }
    | .ok (dt, output, done) =>
      let h := st.heap.copyDataOnly st.refs.us st.refs.sol
      match sch.heapInner lm st.refs dt (h, st.incr) with
      | .error e => { st with status := .failed e }
      | .ok (h, incr) =>
        let h := h.addTime st.refs.sol dt
        let h := h.addStep st.refs.sol
        let h := h.applyBc st.refs.sol
        match h.limit lm st.refs.sol with
        | .error e => { st with status := .failed e }
        | .ok h => heapOutputPhase { st with heap := h, incr := incr } dt output done
  | _ => st

/-- `[np.zeros(solution.u.shape) for _ in range(n)]`: `n` new arrays, the first at `next`. rk.py:62, 134. -/
def Heap.newZeros (h : Heap K) (n r c : ℕ) : Heap K :=
  { h with next := h.next + n, arr := fun a => if h.next ≤ a ∧ a < h.next + n then Arr.zeros r c else h.arr a }

/-- rk.py:61-76 (= 131-150): set-up before the loop (`low_storage_rk4` makes `du` after the copies). `sol` and `Q` are the addresses
of the solution and of the array `Q` of the `DG` object. -/
def heapInit (deck : RkDeck K) (sch : Scheme K) (h : Heap K) (sol Q : ℕ) : HeapLoop K :=
  let u := h.arr (h.obj sol).u
  let first := h.next
  let h := h.newZeros sch.increments u.rows u.cols
  let us := h.copy sol
  let uk := us.2.copy sol
  let h := uk.2
  let touts := ((List.range deck.nout).map (linspace (h.obj sol).attrs.t deck.finaltime deck.nout).val).tail
  let st : HeapLoop K :=
    { heap := h, refs := ⟨sol, us.1, uk.1, Q⟩, incr := fun i => first + i
      nout := 1, tout := (h.obj sol).attrs.t, touts := touts, status := .running, log := [⟨0, 0, h.view sol⟩] }
  match touts with
  | [] => { st with status := .failed .stopIteration }
  | tout :: rest => { st with tout := tout, touts := rest }

/-- rk.py:58-124 / 128-194: the state after `k` iterations of the main loop. -/
def Scheme.heapRun (sch : Scheme K) (lm : Limiter K) (deck : RkDeck K) (h : Heap K) (sol Q k : ℕ) : HeapLoop K :=
  (heapLoopBody lm deck sch)^[k] (heapInit deck sch h sol Q)

/-- A store with a new solution in it, at address 3: its arrays, the zero array `uf_tmp` (made only if there is an enhancement) and
the flags. What the unused addresses hold does not matter. solution.py:25-80, enhance.py:44, sensor.py:27. -/
def Heap.ofSol (s : Sol K) : Heap K :=
  { next := 4
    arr := fun a => if a = 0 then s.u else Arr.zeros 2 s.u.cols
    ints := fun _ => match s.sensors with | none => ⟨0, fun _ => 0⟩ | some sn => sn.sensors
    obj := fun _ => ⟨s, 0, 2, 1, 3⟩ }

/-- main.py:66-76: the solution, its boundary conditions, the DG solver with its array `Q` (dg.py:28), the limiter, the first limiting:
the store, the address of `Q` (the solution is at 3) and the limiter. -/
noncomputable def heapStart (lib : GaussLib ℝ) (ft : FloatText ℝ) (junk : ℕ → ℝ) (d : Deck ℝ) :
    Except PyErr (Heap ℝ × ℕ × Limiter ℝ) :=
  match construct lib ft junk d.ic d.system d.order d.riemann d.enhance d.sensorThresholds with
  | .error e => .error e
  | .ok s =>
    let h := (Heap.ofSol s.sol).applyBc 3
    match dgInit s with
    | .error e => .error e
    | .ok () =>
      let rQ := h.newArr (Arr.zeros (h.arr (h.obj 3).u).rows ((h.obj 3).attrs.NE * (h.obj 3).attrs.NF))
      match Limiter.init (String.ofList d.limiting) (rQ.2.view 3) with
      | .error e => .error e
      | .ok lm =>
        match rQ.2.limit lm 3 with
        | .error e => .error e
        | .ok h => .ok (h, rQ.1, lm)

/-- main.py:57-86 with references: the files and the status after `k` iterations of the main loop. -/
noncomputable def heapProgram (lib : GaussLib ℝ) (ft : FloatText ℝ) (junk : ℕ → ℝ) (fs : Files) (deckname : Text.Str) (k : ℕ) :
    Files × Status :=
  match Deck.init.parser ft fs deckname with
  | .error e => (fs, .failed e)
  | .ok d =>
    match heapStart lib ft junk d with
    | .error e => (fs, .failed e)
    | .ok (h, Q, lm) =>
      if d.nout < 0 then (fs, .failed .valueError)
      else
        let st := (schemeFor d.rkDeck.rk).heapRun lm d.rkDeck h 3 Q k
        match writeOutputs ft st.log fs with
        | (fs', some e) => (fs', .failed e)
        | (fs', none) => (fs', st.status)

end Dg1d
