import Verif.Model.Rk

/-!
# dg1d/rk.py — the clock and the output control of the main loop, with rounding

The loop of `Model/Rk.lean` reduced to what decides about times and outputs, every arithmetic operation followed by
the rounding function `rnd`. The CFL steps are a parameter: whatever sequence of numbers, infinities and NaN the
solution produces. With `rnd = id` this is the loop of `Model/Rk.lean` (theorem `C81_refines`).
-/

namespace Dg1d.FloatClock

variable {K : Type*} [Field K] [LinearOrder K]

/-- rk.py:226-237 `sanity_check_dt`; the literal `1e-14` is rounded. -/
def sanityCheckDt (rnd : K → K) (dt : Fl K) : Except PyErr Unit :=
  match dt with
  | .fin x => if x < rnd (1 / 10 ^ 14) then .error (.sysExit "Next time step is too small") else .ok ()
  | .ninf => .error (.sysExit "Next time step is too small")
  | .nan => .error (.sysExit "Time step is NaN")
  | .pinf => .ok ()

/-- rk.py:242-259 `adjust_for_output`: (time step, output flag, done flag). An infinite step takes the first branch; `-inf` and
`nan` do not get past the sanity check. -/
def adjustForOutput (rnd : K → K) (dt : Fl K) (t tf tout : K) : K × Bool × Bool :=
  match dt with
  | .fin x =>
    if x > rnd (tf - t) then (rnd (tf - t), true, true)
    else if x > rnd (tout - t) then (rnd (tout - t), true, false)
    else (x, false, false)
  | _ => (rnd (tf - t), true, true)

/-- `np.linspace(a, b, num)[i]`, rk.py:68, 138: `step = (b-a)/(num-1)`, then `i*step + a` (numpy computes `i/(num-1)*(b-a) + a`
when `step` is zero); the last sample is `b`. -/
def linspace (rnd : K → K) (a b : K) (num i : ℕ) : K :=
  if i = num - 1 ∧ 1 < num then b
  else
    let delta := rnd (b - a)
    let step := rnd (delta / ((num - 1 : ℕ) : K))
    if step = 0 then rnd (rnd (rnd ((i : K) / ((num - 1 : ℕ) : K)) * delta) + a)
    else rnd (rnd ((i : K) * step) + a)

/-- The variables of rk.py:58-124 (= 128-194) that the clock and the outputs depend on: `solution.t`, `solution.n`, `nout`, `tout`,
what is left in `tout_array`, and the arguments (with the time) of the calls of `printer` so far. -/
structure State (K : Type*) where
  t : K
  n : ℕ
  nout : ℕ
  tout : K
  touts : List K
  status : Status
  log : List (ℕ × K × K)

/-- rk.py:66-76 (= 137-150): set-up before the loop. -/
def init (rnd : K → K) (tf : K) (nout : ℕ) (t : K) (n : ℕ) : State K :=
  match ((List.range nout).map (linspace rnd t tf nout)).tail with
  | [] => ⟨t, n, 1, t, [], .failed .stopIteration, [(0, 0, t)]⟩
  | tout :: rest => ⟨t, n, 1, tout, rest, .running, [(0, 0, t)]⟩

/-- rk.py:119-124 (= 189-194): print if an output is due and advance the output time. -/
def output (st : State K) (dt : K) (output done : Bool) : State K :=
  if output then
    let log := st.log ++ [(st.nout, dt, st.t)]
    if done then { st with log := log, status := .done }
    else
      match st.touts with
      | [] => { st with log := log, nout := st.nout + 1, status := .failed .stopIteration }
      | tout :: rest => { st with log := log, nout := st.nout + 1, tout := tout, touts := rest }
  else st

/-- rk.py:79-124 (= 153-194): one iteration, `cfl` being the CFL step (rk.py:202). -/
def body (rnd : K → K) (tf : K) (cfl : Fl K) (st : State K) : State K :=
  match st.status with
  | .running =>
    match sanityCheckDt rnd cfl with
    | .error e => { st with status := .failed e }
    | .ok () =>
      let r := adjustForOutput rnd cfl st.t tf st.tout
      output { st with t := rnd (st.t + r.1), n := st.n + 1 } r.1 r.2.1 r.2.2
  | _ => st

/-- rk.py:79-124 (= 153-194): the state after `k` iterations, iteration `j` finding the CFL step `cfl j`. -/
def run (rnd : K → K) (tf : K) (nout : ℕ) (t : K) (n : ℕ) (cfl : ℕ → Fl K) : ℕ → State K
  | 0 => init rnd tf nout t n
  | k + 1 => body rnd tf (cfl k) (run rnd tf nout t n cfl k)

end Dg1d.FloatClock
