import Verif.Model.Solution

/-!
# dg1d/rk.py — time integration

The residual (`dgsolver.residual`) and the limiter (`limiter.limit`) are arguments, as in the code.
-/

namespace Dg1d

/-- The triple `coeffs, alphas, betas` returned by the functions of rk_coeffs.py:
bottom row, left column and matrix of a Butcher table. rk_coeffs.py:16-1502. -/
structure Tableau (K : Type*) where
  coeffs : List K
  alphas : List K
  beta : ℕ → ℕ → K

variable {K : Type*} [Field K] [LinearOrder K]

/-- The objects `dgsolver` and `limiter` handed to the integrators. rk.py:19, 58, 128. -/
structure Env (K : Type*) where
  residual : Sol K → Except PyErr (Sol K × Arr K)
  limit : Sol K → Except PyErr (Sol K)

/-- A time step as computed by the CFL formula: numpy division may give `±inf` or `nan`. rk.py:212-237. -/
inductive Fl (K : Type*) where
  | fin (x : K)
  | pinf
  | ninf
  | nan

/-- rk.py:212-221 `cfl_time_step`: `dx*cfl / (v*(2p+1))`, `v` a numpy scalar, so a zero denominator
gives `inf`/`nan` instead of raising. -/
def cflTimeStep (s : Sol K) (cfl : K) : Except PyErr (Fl K) :=
  match s.kw.maxWaveSpeed s.u with
  | .error e => .error e
  | .ok .nan => .ok .nan
  | .ok (.fin v) =>
    let den := v * (2 * (s.basis.p : K) + 1)
    let num := s.dx * cfl
    if den = 0 then
      .ok (if 0 < num then .pinf else if num < 0 then .ninf else .nan)
    else .ok (.fin (num / den))

/-- rk.py:226-237 `sanity_check_dt`. -/
def sanityCheckDt (dt : Fl K) : Except PyErr Unit :=
  match dt with
  | .fin x => if x < 1 / 10 ^ 14 then .error (.sysExit "Next time step is too small") else .ok ()
  | .ninf => .error (.sysExit "Next time step is too small")
  | .nan => .error (.sysExit "Time step is NaN")
  | .pinf => .ok ()

/-- rk.py:242-259 `adjust_for_output`: (time step, output flag, done flag). -/
def adjustForOutput (dt t tf tout : K) : K × Bool × Bool :=
  if dt > tf - t then (tf - t, true, true)
  else if dt > tout - t then (tout - t, true, false)
  else (dt, false, false)

/-- rk.py:198-208 `get_next_time_step`. An infinite step takes the first branch of
`adjust_for_output`; `-inf` and `nan` never get past the sanity check. -/
def getNextTimeStep (s : Sol K) (tout cfl tf : K) : Except PyErr (K × Bool × Bool) :=
  match cflTimeStep s cfl with
  | .error e => .error e
  | .ok dt =>
    match sanityCheckDt dt with
    | .error e => .error e
    | .ok () =>
      match dt with
      | .fin x => .ok (adjustForOutput x s.t tf tout)
      | _ => .ok (tf - s.t, true, true)

/-- One call of `solution.printer(nout, dt)`: the arguments and the solution it prints. rk.py:74, 121, 148, 191. -/
structure OutRec (K : Type*) where
  nout : ℕ
  dt : K
  sol : Sol K

/-- State of the `while (not done)` loop. rk.py:79-124. -/
inductive Status where
  | running
  | done
  | failed (e : PyErr)
  deriving DecidableEq

/-- Local variables of `classic_rk` / `low_storage_rk4` at the head of the loop, plus the history of
`printer` calls (oldest first). `work` is `uk` / `ustar`, `incr k` is `K[k]` (for the low storage
scheme only `incr 0` is used, it is `du`); `touts` is what is left in the iterator `tout_array`. rk.py:61-79, 133-150. -/
structure LoopState (K : Type*) where
  sol : Sol K
  us : Sol K
  work : Sol K
  incr : ℕ → Arr K
  nout : ℕ
  tout : K
  touts : List K
  status : Status
  log : List (OutRec K)

/-- The variables the inner stage loop changes: `uk`/`ustar`, `solution`, the increments. rk.py:89-108, 163-178. -/
structure StageState (K : Type*) where
  work : Sol K
  sol : Sol K
  incr : ℕ → Arr K

/-- rk.py:95-96: `for j, beta in enumerate(betas[k, :k]): uk.smart_axpy(beta, K[j])`. -/
def accumulate (tab : Tableau K) (k : ℕ) (incr : ℕ → Arr K) (uk : Sol K) : Sol K :=
  (List.range k).foldl (fun uk j => uk.smartAxpy (tab.beta k j) (incr j)) uk

/-- rk.py:94-108: body of the RK inner loop of `classic_rk`, stage `k`. -/
def classicStage (env : Env K) (tab : Tableau K) (us : Sol K) (dt : K) (k : ℕ) (c alpha : K)
    (st : StageState K) : Except PyErr (StageState K) :=
  let uk := st.work.copyDataOnly us
  let uk := accumulate tab k st.incr uk
  let uk := { uk with t := uk.t + alpha * dt }
  match (if k > 0 then env.limit uk else .ok uk) with
  | .error e => .error e
  | .ok uk =>
    match env.residual uk with
    | .error e => .error e
    | .ok (uk, F) =>
      let incr := Function.update st.incr k (F.smul dt)
      .ok { work := uk, sol := st.sol.smartAxpy c (incr k), incr := incr }

/-- rk.py:89-108: `for k, (c, alpha) in enumerate(zip(coeffs, alphas))`, from stage `k` on. -/
def classicStages (env : Env K) (tab : Tableau K) (us : Sol K) (dt : K) :
    ℕ → List (K × K) → StageState K → Except PyErr (StageState K)
  | _, [], st => .ok st
  | k, (c, alpha) :: rest, st =>
    match classicStage env tab us dt k c alpha st with
    | .error e => .error e
    | .ok st => classicStages env tab us dt (k + 1) rest st

/-- rk.py:166-178: body of the inner loop of `low_storage_rk4`, stage `k`; `incr 0` is `du`. -/
def lowStage (env : Env K) (us : Sol K) (dt : K) (k : ℕ) (beta gamma : K)
    (st : StageState K) : Except PyErr (StageState K) :=
  let ustar := st.work.copyDataOnly us
  let ustar := ustar.smartAxpy beta (st.incr 0)
  let ustar := { ustar with t := ustar.t + beta * dt }
  match (if k > 0 then env.limit ustar else .ok ustar) with
  | .error e => .error e
  | .ok ustar =>
    match env.residual ustar with
    | .error e => .error e
    | .ok (ustar, F) =>
      let du := F.smul dt
      .ok { work := ustar, sol := st.sol.smartAxpy gamma du, incr := Function.update st.incr 0 du }

/-- rk.py:163-178: the inner loop of `low_storage_rk4`, from stage `k` on. -/
def lowStages (env : Env K) (us : Sol K) (dt : K) :
    ℕ → List (K × K) → StageState K → Except PyErr (StageState K)
  | _, [], st => .ok st
  | k, (beta, gamma) :: rest, st =>
    match lowStage env us dt k beta gamma st with
    | .error e => .error e
    | .ok st => lowStages env us dt (k + 1) rest st

/-- The inner loop of an integrator: previous solution, time step, stage state. rk.py:88-108, 162-178. -/
abbrev Inner (K : Type*) := Sol K → K → StageState K → Except PyErr (StageState K)

/-- The part of the deck the integrators read. rk.py:22-54, 68, 82. -/
structure RkDeck (K : Type*) where
  rk : String
  finaltime : K
  nout : ℕ
  cfl : K

/-- rk.py:119-124 (= 189-194): print if an output is due and advance the output time. -/
def outputPhase (st : LoopState K) (sol : Sol K) (dt : K) (output done : Bool) : LoopState K :=
  if output then
    let log := st.log ++ [⟨st.nout, dt, sol⟩]
    if done then { st with sol := sol, log := log, status := .done }
    else
      match st.touts with
      | [] => { st with sol := sol, log := log, nout := st.nout + 1, status := .failed .stopIteration }
      | tout :: rest => { st with sol := sol, log := log, nout := st.nout + 1, tout := tout, touts := rest }
  else { st with sol := sol }

/-- rk.py:79-124 (= 153-194): one iteration of the main loop, for either inner loop. -/
def loopBody (env : Env K) (deck : RkDeck K) (inner : Inner K) (st : LoopState K) : LoopState K :=
  match st.status with
  | .running =>
    match getNextTimeStep st.sol st.tout deck.cfl deck.finaltime with
    | .error e => { st with status := .failed e }
    | .ok (dt, output, done) =>
      let us := st.us.copyDataOnly st.sol
      match inner us dt { work := st.work, sol := st.sol, incr := st.incr } with
      | .error e => { st with us := us, status := .failed e }
      | .ok ss =>
        let sol := { ss.sol with t := ss.sol.t + dt, n := ss.sol.n + 1 }
        let sol := sol.applyBc
        match env.limit sol with
        | .error e => { st with us := us, work := ss.work, incr := ss.incr, sol := sol, status := .failed e }
        | .ok sol =>
          outputPhase { st with us := us, work := ss.work, incr := ss.incr } sol dt output done
  | _ => st

/-- rk.py:61-76 (= 131-150): set-up before the loop. `np.linspace(t, tf, nout)[1:]`; the first
`next(tout_array)` raises `StopIteration` if there is none (after output 0 has been written). -/
def initLoop (deck : RkDeck K) (sol : Sol K) : LoopState K :=
  let touts := ((List.range deck.nout).map (linspace sol.t deck.finaltime deck.nout).val).tail
  let st : LoopState K :=
    { sol := sol, us := sol, work := sol, incr := fun _ => Arr.zeros sol.u.rows sol.u.cols
      nout := 1, tout := sol.t, touts := touts, status := .running, log := [⟨0, 0, sol⟩] }
  match touts with
  | [] => { st with status := .failed .stopIteration }
  | tout :: rest => { st with tout := tout, touts := rest }

/-- The state after `k` iterations of the main loop (a finished loop stays put). rk.py:79-124, 153-194. -/
def runLoop (env : Env K) (deck : RkDeck K) (inner : Inner K) (sol : Sol K) (k : ℕ) : LoopState K :=
  (loopBody env deck inner)^[k] (initLoop deck sol)

/-- rk.py:58-124 `classic_rk`, inner loop for a given table. -/
def classicInner (env : Env K) (tab : Tableau K) : Inner K := fun us dt st =>
  classicStages env tab us dt 0 (tab.coeffs.zip tab.alphas) st

/-- rk.py:144-145: the coefficients of `low_storage_rk4`. -/
def lowStorageBetas : List K := [0, 1 / 2, 1 / 2, 1]
/-- rk.py:145. -/
def lowStorageGammas : List K := [1 / 6, 1 / 3, 1 / 3, 1 / 6]

/-- rk.py:128-194 `low_storage_rk4`, inner loop. -/
def lowInner (env : Env K) : Inner K := fun us dt st =>
  lowStages env us dt 0 (lowStorageBetas.zip lowStorageGammas) st

/-- What `rk.integrate` chooses between (rk.py:22-54): the low storage code, or `classic_rk` with a
table. -/
inductive Scheme (K : Type*) where
  | low
  | classic (tab : Tableau K)

/-- The inner loop that a scheme runs: rk.py:162-178 or rk.py:88-108. -/
def Scheme.inner (env : Env K) : Scheme K → Inner K
  | .low => lowInner env
  | .classic tab => classicInner env tab

/-- rk.py:58-124 / 128-194: state of the integration after `k` iterations of the main loop. -/
def Scheme.run (sch : Scheme K) (env : Env K) (deck : RkDeck K) (sol : Sol K) (k : ℕ) : LoopState K :=
  runLoop env deck (sch.inner env) sol k

end Dg1d
