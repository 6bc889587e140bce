import Verif.Model.Integrate
import Verif.Model.Euler

/-!
# dg1d — an Euler run that goes on with NaN

`Model/Euler.lean` stops with `notReal` where a Riemann solver computes NaN. Here numbers are reals or NaN and the run goes on,
as numpy does (a warning at most): `residual`, the integrators and the main loop for the Euler equations with the solvers
'rusanov' and 'roe', without enhancement, with any limiter. The arrays that can hold NaN are those of the solution; the tables of
the basis, the time and the time step are real (a NaN time step ends the run, rk.py:233-237).

Infinities: a division by zero gives NaN here. In the code it can give an infinity, but only where the next operations turn it into
NaN: `v = m/0` is multiplied by the density 0 in `p` (and in the fluxes), the sound speed `a` then is NaN; a zero Roe sound speed
makes `ws0_dV0` and `ws1_dV1` NaN or opposite infinities, which are added. Overflow is not modelled.
-/

namespace Dg1d.Nan

/-- A number of the solution arrays. solution.py:490, dg.py:24-28. -/
inductive Num where
  | num (x : ℝ)
  | nan

open Num

/-- `x + y` (numpy). E.g. dg.py:82. -/
noncomputable instance : Add Num := ⟨fun | num x, num y => num (x + y) | _, _ => nan⟩
/-- `x - y` (numpy). E.g. dg.py:81. -/
noncomputable instance : Sub Num := ⟨fun | num x, num y => num (x - y) | _, _ => nan⟩
/-- `x * y` (numpy); `0 * nan` is NaN. E.g. dg.py:94. -/
noncomputable instance : Mul Num := ⟨fun | num x, num y => num (x * y) | _, _ => nan⟩
open Classical in
/-- `x / y` (numpy), see the remark on infinities above. E.g. euler_physics.py:50. -/
noncomputable instance : Div Num := ⟨fun | num x, num y => if y = 0 then nan else num (x / y) | _, _ => nan⟩

/-- `np.sqrt`. euler_physics.py:29, 53, 279. -/
noncomputable def sqrt : Num → Num
  | num x => if x < 0 then nan else num √x
  | nan => nan

/-- `np.fabs`. euler_physics.py:31, 63, 287-289. -/
def abs : Num → Num
  | num x => num |x|
  | nan => nan

/-- `np.maximum` propagates NaN. euler_physics.py:63, 292, 295. -/
noncomputable def maximum : Num → Num → Num
  | num x, num y => num (max x y)
  | _, _ => nan

/-- One state or one flux vector. euler_physics.py:49-51 and alike. -/
structure St where
  rho : Num
  m : Num
  E : Num

/-- euler_physics.py:50 and alike. -/
noncomputable def St.v (s : St) : Num := s.m / s.rho

/-- euler_physics.py:52 and alike. -/
noncomputable def St.p (γ : ℝ) (s : St) : Num := num (γ - 1) * (s.E - num (1 / 2) * s.rho * s.v * s.v)

/-- euler_physics.py:53 and alike. -/
noncomputable def St.a (γ : ℝ) (s : St) : Num := sqrt (num γ * s.p γ / s.rho)

/-- euler_physics.py:269, 276. -/
noncomputable def St.H (γ : ℝ) (s : St) : Num := (s.E + s.p γ) / s.rho

/-- The `i`-th state of an interleaved array. euler_physics.py:23-25, 49-57, 264-273, 346-348. -/
def stateAt (v : ℕ → Num) (i : ℕ) : St := ⟨v (0 + 3 * i), v (1 + 3 * i), v (2 + 3 * i)⟩

/-- An interleaved array with the given states. euler_physics.py:46, 65-72, 261, 318-333, 343-354. -/
def ofStates (len : ℕ) (f : ℕ → St) : Vec Num :=
  ⟨len, interleave3 (fun i => (f i).rho) (fun i => (f i).m) (fun i => (f i).E)⟩

/-- euler_physics.py:29-31: `np.fabs(v) + a` of one cell. -/
noncomputable def waveSpeed (γ : ℝ) (s : St) : Num := abs s.v + s.a γ

/-- euler_physics.py:19-31 `max_wave_speed`; `np.max` propagates NaN and raises `ValueError` for an empty array. -/
noncomputable def maxWaveSpeed (γ : ℝ) (u : Arr Num) : Except PyErr (Wave ℝ) :=
  let N := (u.cols + 2) / 3
  let w := fun i => waveSpeed γ (stateAt (u.val 0) i)
  if N = 0 then .error .valueError
  else
    match (List.range N).foldl (fun m i => maximum m (w i)) (w 0) with
    | num x => .ok (.fin x)
    | nan => .ok .nan

/-- euler_physics.py:339-356 `interior_flux`, one point. The mass flux is the momentum itself. -/
noncomputable def flux1 (γ : ℝ) (s : St) : St :=
  ⟨s.m, s.rho * s.v * s.v + s.p γ, (s.E + s.p γ) * s.v⟩

/-- euler_physics.py:339-356 `interior_flux`. -/
noncomputable def interiorFlux (γ : ℝ) (ug : Arr Num) : Arr Num :=
  { ug with val := fun r => (ofStates ug.cols fun i => flux1 γ (stateAt (ug.val r) i)).val }

/-- euler_physics.py:36-74 `riemann_rusanov`, one interface. -/
noncomputable def rusanov1 (γ : ℝ) (L R : St) : St :=
  let maxvap := maximum (abs L.v + L.a γ) (abs R.v + R.a γ)
  { rho := num (1 / 2) * (L.rho * L.v + R.rho * R.v - maxvap * (R.rho - L.rho))
    m := num (1 / 2) * (L.rho * L.v * L.v + L.p γ + R.rho * R.v * R.v + R.p γ - maxvap * (R.rho * R.v - L.rho * L.v))
    E := num (1 / 2) * ((L.E + L.p γ) * L.v + (R.E + R.p γ) * R.v - maxvap * (R.E - L.E)) }

/-- euler_physics.py:292-297: the entropy fix of one wave speed; a comparison with NaN is false. -/
noncomputable def entropyFix (ws Da : Num) : Num :=
  match ws, Da with
  | num w, num D => if w < 1 / 2 * D then num w * num w / num D + num (1 / 4) * num D else num w
  | w, _ => w

/-- euler_physics.py:251-335 `riemann_roe`, one interface. -/
noncomputable def roe1 (γ : ℝ) (L R : St) : St :=
  let RT := sqrt (R.rho / L.rho)
  let rho := RT * L.rho
  let v := (L.v + RT * R.v) / (num 1 + RT)
  let H := (L.H γ + RT * R.H γ) / (num 1 + RT)
  let a := sqrt (num (γ - 1) * (H - num (1 / 2) * v * v))
  let dp := R.p γ - L.p γ
  let ws0 := entropyFix (abs (v - a)) (maximum (num 0) (num 4 * ((R.v - R.a γ) - (L.v - L.a γ))))
  let ws1 := abs v
  let ws2 := entropyFix (abs (v + a)) (maximum (num 0) (num 4 * ((R.v + R.a γ) - (L.v + L.a γ))))
  let dV0 := ws0 * (dp - rho * a * (R.v - L.v)) / (num 2 * a * a)
  let dV1 := ws1 * ((R.rho - L.rho) - dp / (a * a))
  let dV2 := ws2 * (dp + rho * a * (R.v - L.v)) / (num 2 * a * a)
  { rho := num (1 / 2) * (L.rho * L.v + R.rho * R.v) - num (1 / 2) * (dV0 * num 1 + dV1 * num 1 + dV2 * num 1)
    m := num (1 / 2) * (L.rho * L.v * L.v + L.p γ + R.rho * R.v * R.v + R.p γ)
      - num (1 / 2) * (dV0 * (v - a) + dV1 * v + dV2 * (v + a))
    E := num (1 / 2) * ((L.E + L.p γ) * L.v + (R.E + R.p γ) * R.v)
      - num (1 / 2) * (dV0 * (H - v * a) + dV1 * (num (1 / 2) * v * v) + dV2 * (H + v * a)) }

/-- solution.py:107-118: the solver by name, 'rusanov' or Roe ('godunov', euler_physics.py:78-205, is not modelled with NaN). -/
noncomputable def solver1 (γ : ℝ) (name : String) : St → St → St := if name = "rusanov" then rusanov1 γ else roe1 γ

/-- euler_physics.py:36-74, 251-335: the solver on all interfaces. -/
noncomputable def riemann (γ : ℝ) (name : String) (ul ur : Vec Num) : Vec Num :=
  ofStates ul.len fun i => solver1 γ name (stateAt ul.val i) (stateAt ur.val i)

/-- `np.dot(D, F)` for a table `D` of reals. solution.py:579, 591, dg.py:71. -/
noncomputable def mdot (D : Arr ℝ) (F : Arr Num) : Arr Num :=
  { rows := D.rows, cols := F.cols
    val := fun i j => (List.range D.cols).foldl (fun acc k => acc + num (D.val i k) * F.val k j) (num 0) }

/-- solution.py:529-535, the left half of `apply_bc`, on the array. -/
def bcLeft (s : Sol ℝ) (u : Arr Num) : Arr Num :=
  if s.bcl.isLit "periodic" then u.setColSlice 0 s.NF (u.colSlice (-2 * (s.NF : ℤ)) (-(s.NF : ℤ)))
  else if s.bcl.isLit "zerograd" then u.setColSlice 0 s.NF (u.colSlice s.NF (2 * (s.NF : ℤ)))
  else u

/-- solution.py:537-543, the right half of `apply_bc`, on the array. -/
def bcRight (s : Sol ℝ) (u : Arr Num) : Arr Num :=
  if s.bcr.isLit "periodic" then u.setColSlice (-(s.NF : ℤ)) u.cols (u.colSlice s.NF (2 * (s.NF : ℤ)))
  else if s.bcr.isLit "zerograd" then u.setColSlice (-(s.NF : ℤ)) u.cols (u.colSlice (-2 * (s.NF : ℤ)) (-(s.NF : ℤ)))
  else u

/-- solution.py:526-543 `apply_bc`, on the array. -/
def bc (s : Sol ℝ) (u : Arr Num) : Arr Num := bcRight s (bcLeft s u)

/-- dg.py:81-82: the edge flux matrix. -/
noncomputable def edgeFlux (q : Vec Num) (NF : ℕ) : ℕ → ℕ → Num :=
  let qr := q.slice NF q.len
  let ql := q.slice 0 (-(NF : ℤ))
  fun r c => if r % 2 = 0 then qr.val c - ql.val c else ql.val c + qr.val c

/-- dg.py:74-86 `add_interior_face_fluxes`. -/
noncomputable def addFaces (F : Arr Num) (q : Vec Num) (NF : ℕ) : Arr Num :=
  let lo := pyIdx F.cols NF
  let hi := pyIdx F.cols (-(NF : ℤ))
  { F with val := fun r c => if lo ≤ c ∧ c < hi then F.val r c - edgeFlux q NF r (c - lo) else F.val r c }

/-- dg.py:31-66 `residual`; `s` holds the tables and boundary names. -/
noncomputable def residual (γ : ℝ) (name : String) (s : Sol ℝ) (u : Arr Num) : Arr Num :=
  let u := bc s u
  let ug := mdot s.basis.phi u
  let uf := mdot s.basis.psi u
  let F := mdot s.basis.dphiW (interiorFlux γ ug)
  let q := riemann γ name ((uf.row 1).slice 0 (-(s.NF : ℤ))) ((uf.row 0).slice s.NF uf.cols)
  let F := addFaces F q s.NF
  { F with val := fun r c => F.val r c * num (s.scaledMinv.val r) }

/-- `a * A`. rk.py:105, 175, solution.py:559. -/
noncomputable def smul (a : ℝ) (A : Arr Num) : Arr Num := { A with val := fun r c => num a * A.val r c }

/-- solution.py:556-559 `smart_axpy`, on the array. -/
noncomputable def axpy (u : Arr Num) (a : ℝ) (x : Arr Num) : Arr Num :=
  if |a| > 1 / 10 ^ 15 then { u with val := fun r c => u.val r c + (smul a x).val r c } else u

/-- What the stage loop changes: the data of `solution` and the increments. rk.py:89-108, 163-178. -/
structure Stage where
  sol : Arr Num
  incr : ℕ → Arr Num

/-- rk.py:95-96. -/
noncomputable def accumulate (tab : Tableau ℝ) (k : ℕ) (incr : ℕ → Arr Num) (u : Arr Num) : Arr Num :=
  (List.range k).foldl (fun u j => axpy u (tab.beta k j) (incr j)) u

/-- rk.py:94-108: stage `k` of `classic_rk`; `us` is the previous solution, `lim` what the limiter makes of an array. -/
noncomputable def classicStage (res lim : Arr Num → Arr Num) (tab : Tableau ℝ) (us : Arr Num) (dt : ℝ) (k : ℕ) (c : ℝ) (st : Stage) : Stage :=
  let uk := accumulate tab k st.incr us
  let K := smul dt (res (if k > 0 then lim uk else uk))
  { sol := axpy st.sol c K, incr := Function.update st.incr k K }

/-- rk.py:89-108: the stages from `k` on. -/
noncomputable def classicStages (res lim : Arr Num → Arr Num) (tab : Tableau ℝ) (us : Arr Num) (dt : ℝ) : ℕ → List (ℝ × ℝ) → Stage → Stage
  | _, [], st => st
  | k, (c, _) :: rest, st => classicStages res lim tab us dt (k + 1) rest (classicStage res lim tab us dt k c st)

/-- rk.py:166-178: stage `k` of `low_storage_rk4`; `incr 0` is `du`. -/
noncomputable def lowStage (res lim : Arr Num → Arr Num) (us : Arr Num) (dt : ℝ) (k : ℕ) (beta gamma : ℝ) (st : Stage) : Stage :=
  let ustar := axpy us beta (st.incr 0)
  let du := smul dt (res (if k > 0 then lim ustar else ustar))
  { sol := axpy st.sol gamma du, incr := Function.update st.incr 0 du }

/-- rk.py:163-178: the stages of `low_storage_rk4` from `k` on. -/
noncomputable def lowStages (res lim : Arr Num → Arr Num) (us : Arr Num) (dt : ℝ) : ℕ → List (ℝ × ℝ) → Stage → Stage
  | _, [], st => st
  | k, (beta, gamma) :: rest, st => lowStages res lim us dt (k + 1) rest (lowStage res lim us dt k beta gamma st)

/-- rk.py:88-108 or 162-178: the stages of one step. -/
noncomputable def inner (res lim : Arr Num → Arr Num) (us : Arr Num) (dt : ℝ) (st : Stage) : Scheme ℝ → Stage
  | .low => lowStages res lim us dt 0 (lowStorageBetas.zip lowStorageGammas) st
  | .classic tab => classicStages res lim tab us dt 0 (tab.coeffs.zip tab.alphas) st

/-- One call of `solution.printer`. rk.py:74, 121, 148, 191. -/
structure OutRec where
  nout : ℕ
  dt : ℝ
  t : ℝ
  n : ℕ
  u : Arr Num

/-- Local variables of the integrators at the head of the main loop and the printed solutions. rk.py:61-79, 133-150. -/
structure Loop where
  u : Arr Num
  t : ℝ
  n : ℕ
  incr : ℕ → Arr Num
  nout : ℕ
  tout : ℝ
  touts : List ℝ
  status : Status
  log : List OutRec

/-- rk.py:198-208 `get_next_time_step`: as in `Model/Rk.lean`, with the wave speed of the data at hand. -/
noncomputable def nextStep (γ : ℝ) (s : Sol ℝ) (deck : RkDeck ℝ) (l : Loop) : Except PyErr (ℝ × Bool × Bool) :=
  getNextTimeStep { s with t := l.t, kw := { s.kw with maxWaveSpeed := fun _ => maxWaveSpeed γ l.u } } l.tout deck.cfl deck.finaltime

/-- rk.py:119-124 (= 189-194): print if an output is due and advance the output time. -/
def outputPhase (l : Loop) (dt : ℝ) (output done : Bool) : Loop :=
  if output then
    let log := l.log ++ [⟨l.nout, dt, l.t, l.n, l.u⟩]
    if done then { l with log := log, status := .done }
    else
      match l.touts with
      | [] => { l with log := log, nout := l.nout + 1, status := .failed .stopIteration }
      | tout :: rest => { l with log := log, nout := l.nout + 1, tout := tout, touts := rest }
  else l

/-- rk.py:79-124 (= 153-194): one iteration of the main loop. -/
noncomputable def loopBody (γ : ℝ) (name : String) (lim : Arr Num → Arr Num) (s : Sol ℝ) (deck : RkDeck ℝ) (l : Loop) : Loop :=
  match l.status with
  | .running =>
    match nextStep γ s deck l with
    | .error e => { l with status := .failed e }
    | .ok (dt, output, done) =>
      let st := inner (residual γ name s) lim l.u dt ⟨l.u, l.incr⟩ (schemeFor deck.rk)
      outputPhase { l with u := lim (bc s st.sol), t := l.t + dt, n := l.n + 1, incr := st.incr } dt output done
  | _ => l

/-- The array of a solution without NaN. solution.py:490. -/
def lift (u : Arr ℝ) : Arr Num := ⟨u.rows, u.cols, fun r c => num (u.val r c)⟩

/-- rk.py:61-76 (= 131-150): set-up before the loop. -/
noncomputable def initLoop (deck : RkDeck ℝ) (s : Sol ℝ) : Loop :=
  let touts := ((List.range deck.nout).map (linspace s.t deck.finaltime deck.nout).val).tail
  let l : Loop :=
    { u := lift s.u, t := s.t, n := s.n, incr := fun _ => lift (Arr.zeros s.u.rows s.u.cols)
      nout := 1, tout := s.t, touts := touts, status := .running, log := [⟨0, 0, s.t, s.n, lift s.u⟩] }
  match touts with
  | [] => { l with status := .failed .stopIteration }
  | tout :: rest => { l with tout := tout, touts := rest }

/-- rk.py:19-54: the run started from a solution without NaN, after `k` iterations of the main loop. Without limiter `lim` is the identity
(limiting.py:65-69), for the other see `Model/NanLimiter.lean`. -/
noncomputable def run (γ : ℝ) (name : String) (lim : Arr Num → Arr Num) (s : Sol ℝ) (deck : RkDeck ℝ) (k : ℕ) : Loop :=
  (loopBody γ name lim s deck)^[k] (initLoop deck s)

end Dg1d.Nan
