import Verif.Proofs.Clock
import Verif.Props.Examples
import Mathlib.Data.Rat.Floor

/-!
# C01–C04, C12: clock, termination, outputs, CFL step

`Scheme.run sch env deck sol k` is the state after `k` iterations of the main loop of `classic_rk` (any
table) or `low_storage_rk4`; `env` holds arbitrary residual and limiter functions.
-/

set_option linter.unusedSectionVars false

namespace Dg1d.Props
variable {K : Type*} [Field K] [LinearOrder K] [IsStrictOrderedRing K]

/-- **C01** A run that finishes normally ends with `solution.t = deck.finaltime`; and from a start time
not after the final time, the time never decreases and never leaves `[t0, finaltime]`. -/
theorem C01_clock (sch : Scheme K) (env : Env K)
    (hlim : ∀ s s', env.limit s = .ok s' → s'.t = s.t ∧ s'.n = s.n)
    (deck : RkDeck K) (sol : Sol K) (k : ℕ) :
    ((sch.run env deck sol k).status = .done → (sch.run env deck sol k).sol.t = deck.finaltime) ∧
    (sol.t ≤ deck.finaltime →
      sol.t ≤ (sch.run env deck sol k).sol.t ∧
      (sch.run env deck sol k).sol.t ≤ (sch.run env deck sol (k + 1)).sol.t ∧
      (sch.run env deck sol k).sol.t ≤ deck.finaltime) := by
  refine ⟨?_, fun h0 => ⟨(timeInv_run hlim sch deck sol h0 k).lo, time_mono_run hlim sch deck sol h0 k,
    (timeInv_run hlim sch deck sol h0 k).hi⟩⟩
  induction k with
  | zero => exact fun h => absurd h (init_status_ne_done deck sol)
  | succ k ih =>
    unfold Scheme.run at *
    rw [runLoop_succ]
    exact done_time_step hlim (sch.inner_keepsClock env) ih

/-- Non-vacuity of C01: a two-cell advection run with rk4 reaches status `done` after 6 steps, and is
still running with `t = 1/8` after three. -/
example : (Scheme.run (.classic rk4) Ex.env Ex.deck Ex.sol2 6).status = .done ∧
    (Scheme.run (.classic rk4) Ex.env Ex.deck Ex.sol2 3).status = .running ∧
    (Scheme.run (.classic rk4) Ex.env Ex.deck Ex.sol2 3).sol.t = 1/8 ∧
    (∀ s s', Ex.env.limit s = .ok s' → s'.t = s.t ∧ s'.n = s.n) := by
  refine ⟨by decide +kernel, by decide +kernel, by decide +kernel, ?_⟩
  intro s s' h; cases h; exact ⟨rfl, rfl⟩

/-- **C02** Once the iteration count exceeds `(finaltime - t0)/1e-14 + nout` the loop has stopped
(finished or aborted), whatever wave speeds, residuals and limiter do; if the start time is after the
final time, one iteration is enough. -/
theorem C02_terminates (sch : Scheme K) (env : Env K)
    (hlim : ∀ s s', env.limit s = .ok s' → s'.t = s.t ∧ s'.n = s.n)
    (deck : RkDeck K) (sol : Sol K) (k : ℕ)
    (hk : max (deck.finaltime - sol.t) 0 * 10 ^ 14 + deck.nout < k) :
    (sch.run env deck sol k).status ≠ .running := by
  intro hr
  rcases le_or_gt sol.t deck.finaltime with h0 | h0
  · have hb := step_budget hlim sch deck sol h0 k hr
    have hinv := timeInv_run hlim sch deck sol h0 k
    obtain ⟨r1, r2, -⟩ := hinv.run hr
    have hhi := hinv.hi
    rw [max_eq_left (by linarith)] at hk
    have r2' : ((sch.run env deck sol k).nout : K) + 1 ≤ deck.nout := by exact_mod_cast r2
    have h14 : (0 : K) < 10 ^ 14 := by positivity
    have hb' : ((k : K) - ((sch.run env deck sol k).nout - 1)) ≤
        ((sch.run env deck sol k).sol.t - sol.t) * 10 ^ 14 := by
      have := mul_le_mul_of_nonneg_right hb h14.le
      rwa [mul_assoc, one_div, inv_mul_cancel₀ h14.ne', mul_one] at this
    nlinarith [mul_le_mul_of_nonneg_right (sub_le_sub_right hhi sol.t) h14.le]
  · -- the start time is after the final time: the first iteration finishes or aborts
    obtain ⟨m, rfl⟩ : ∃ m, k = m + 1 := by
      cases k with
      | zero =>
        exfalso
        have h1 : (0 : K) ≤ max (deck.finaltime - sol.t) 0 * 10 ^ 14 := by positivity
        have h2 : (0 : K) ≤ deck.nout := Nat.cast_nonneg _
        rw [Nat.cast_zero] at hk
        linarith
      | succ m => exact ⟨m, rfl⟩
    clear hk
    have hone : (sch.run env deck sol 1).status ≠ .running := by
      intro h1
      have hE : sch.run env deck sol 1 = loopBody env deck (sch.inner env) (initLoop deck sol) := rfl
      have hi : (initLoop deck sol).status = .running := by
        by_contra hc
        rw [hE, loopBody_stopped hc] at h1; exact hc h1
      have hsol : (initLoop deck sol).sol = sol := by
        unfold initLoop; simp only; split <;> rfl
      rcases loopBody_cases (deck := deck) hlim (sch.inner_keepsClock env) hi with
        ⟨e, hs, _⟩ | ⟨dt, o, d, st1, sol', hn, hsame, ht, hnn, heq⟩
      · rw [hE, hs] at h1; simp at h1
      · rw [hsol] at hn
        have h14 : (0 : K) < 1 / 10 ^ 14 := by positivity
        rcases getNext_cases hn with ⟨ho, hd, e⟩ | ⟨ho, hd, e, x, x1, x2, x3, _⟩ | ⟨ho, hd, a, b, c, _⟩
        · subst ho hd; rw [hE, heq] at h1; simp [outputPhase] at h1
        · linarith
        · linarith
    have hstay : ∀ m, (sch.run env deck sol (m + 1)).status ≠ .running := by
      intro m
      induction m with
      | zero => exact hone
      | succ m ih =>
        have : sch.run env deck sol (m + 1 + 1) = sch.run env deck sol (m + 1) := by
          unfold Scheme.run at *; rw [runLoop_succ, loopBody_stopped ih]
        rw [this]; exact ih
    exact hstay m hr

/-- Over an archimedean field (e.g. ℝ) some iteration count therefore always suffices. -/
theorem C02_terminates_exists [Archimedean K] (sch : Scheme K) (env : Env K)
    (hlim : ∀ s s', env.limit s = .ok s' → s'.t = s.t ∧ s'.n = s.n)
    (deck : RkDeck K) (sol : Sol K) : ∃ k, (sch.run env deck sol k).status ≠ .running := by
  obtain ⟨k, hk⟩ := exists_nat_gt (max (deck.finaltime - sol.t) 0 * 10 ^ 14 + deck.nout)
  exact ⟨k, C02_terminates sch env hlim deck sol k hk⟩

/-- Non-vacuity of C02: the loop does run for several iterations before stopping. -/
example : ∀ k ≤ 5, (Scheme.run (.low) Ex.env Ex.deck Ex.sol2 k).status = .running := by
  decide +kernel

/-- **C03** (true half) If no CFL step exceeds the output spacing, a run that finishes has written
exactly the sets `0, …, nout-1`, set `i` at time `t0 + i (tf-t0)/(nout-1)`. -/
theorem C03_outputs_partial (sch : Scheme K) (env : Env K)
    (hlim : ∀ s s', env.limit s = .ok s' → s'.t = s.t ∧ s'.n = s.n)
    (deck : RkDeck K) (sol : Sol K) (h0 : sol.t ≤ deck.finaltime)
    (hcfl : ∀ k, (sch.run env deck sol k).status = .running →
      ∀ x, cflTimeStep (sch.run env deck sol k).sol deck.cfl = .ok x →
        ∃ dt, x = .fin dt ∧ dt ≤ (deck.finaltime - sol.t) / ((deck.nout - 1 : ℕ) : K))
    (k : ℕ) (hdone : (sch.run env deck sol k).status = .done) :
    (sch.run env deck sol k).log.map (fun r => (r.nout, r.sol.t)) =
      (List.range deck.nout).map fun i : ℕ =>
        (i, sol.t + (i : K) * ((deck.finaltime - sol.t) / ((deck.nout - 1 : ℕ) : K))) := by
  -- when the run finishes, all `nout` sets are there
  have hlen : ∀ k, (sch.run env deck sol k).status = .done →
      (sch.run env deck sol k).log.length = deck.nout := by
    intro k
    induction k with
    | zero => exact fun h => absurd h (init_status_ne_done deck sol)
    | succ k ih =>
      intro hd
      have hE : sch.run env deck sol (k + 1) = loopBody env deck (sch.inner env) (sch.run env deck sol k) := by
        unfold Scheme.run; rw [runLoop_succ]
      by_cases hr : (sch.run env deck sol k).status = .running
      swap
      · rw [hE, loopBody_stopped hr] at hd ⊢; exact ih hd
      have hinv := timeInv_run hlim sch deck sol h0 k
      have hnum := numInv_run hlim sch deck sol k
      obtain ⟨r1, r2, r3, r4, r5, r6⟩ := hinv.run hr
      have hN : 2 ≤ deck.nout := by omega
      rcases loopBody_cases (deck := deck) hlim (sch.inner_keepsClock env) hr with
        ⟨e, hs, _⟩ | ⟨dt, o, d, st1, sol', hn, hsame, ht, hnn, heq⟩
      · rw [hE, hs] at hd; simp at hd
      · obtain ⟨h1, h2, h3, h4, h5⟩ := hsame
        have hstat : st1.status = .running := by rw [h4, hr]
        have hlast : d = true → (sch.run env deck sol k).nout = deck.nout - 1 := by
          intro hdt
          by_contra hc
          have hlt : (sch.run env deck sol k).nout + 1 ≤ deck.nout - 1 := by omega
          -- remaining time is at least one spacing
          have hN1 : (0 : K) < ((deck.nout - 1 : ℕ) : K) := by exact_mod_cast (by omega : 0 < deck.nout - 1)
          have hspace : (deck.finaltime - sol.t) / ((deck.nout - 1 : ℕ) : K) ≤
              deck.finaltime - (sch.run env deck sol k).sol.t := by
            have hA := outTime_mono deck.nout h0 hlt
            rw [outTime_last _ _ hN] at hA
            have hB : outTime sol.t deck.finaltime deck.nout ((sch.run env deck sol k).nout + 1) =
                outTime sol.t deck.finaltime deck.nout ((sch.run env deck sol k).nout) +
                  (deck.finaltime - sol.t) / ((deck.nout - 1 : ℕ) : K) := by
              unfold outTime; push_cast; ring
            rw [r3] at r5
            linarith
          unfold getNextTimeStep at hn
          split at hn
          · cases hn
          · rename_i x hx
            obtain ⟨y, rfl, hy⟩ := hcfl k hr _ hx
            split at hn
            · cases hn
            · simp only [adjustForOutput] at hn
              rw [if_neg (by rw [not_lt]; linarith)] at hn
              split_ifs at hn <;> (cases hn; simp at hdt)
        rw [hE, heq] at hd ⊢
        unfold outputPhase at hd ⊢
        split_ifs at hd ⊢ with ho hdd
        · simp only [List.length_append, h5, List.length_cons, List.length_nil, hnum.run hr, hlast hdd]
          omega
        · split at hd <;> simp [hstat] at hd
        · simp [hstat] at hd
  have hnum := numInv_run hlim sch deck sol k
  have hinv := timeInv_run hlim sch deck sol h0 k
  have hL := hlen k hdone
  have hN : 2 ≤ deck.nout := by
    by_contra hc
    have : deck.nout = 0 ∨ deck.nout = 1 := by omega
    have hfail : (initLoop deck sol).status = .failed .stopIteration := by
      unfold initLoop
      rcases this with h | h <;> simp [h, List.range_succ]
    have : ∀ k, sch.run env deck sol k = initLoop deck sol := by
      intro k
      induction k with
      | zero => rfl
      | succ k ih =>
        unfold Scheme.run at *
        rw [runLoop_succ, ih, loopBody_stopped]; rw [hfail]; simp
    rw [this, hfail] at hdone; simp at hdone
  have hall : ∀ r ∈ (sch.run env deck sol k).log,
      r.sol.t = outTime sol.t deck.finaltime deck.nout r.nout := by
    intro r hr
    rcases hinv.outT r hr with h | ⟨_, hl, ht⟩
    · exact h
    · have hlast : r.nout = deck.nout - 1 := by
        have h1 : ((sch.run env deck sol k).log.map (·.nout)).getLast? = some r.nout := by
          rw [List.getLast?_map, hl]; rfl
        rw [hnum.nums, hL] at h1
        obtain ⟨m, hm⟩ : ∃ m, deck.nout = m + 1 := ⟨deck.nout - 1, by omega⟩
        rw [hm, List.range_succ] at h1
        simp at h1
        omega
      rw [hlast, outTime_last _ _ hN, ht]
  have h1 : (sch.run env deck sol k).log.map (fun r => (r.nout, r.sol.t)) =
      (sch.run env deck sol k).log.map
        ((fun i => (i, outTime sol.t deck.finaltime deck.nout i)) ∘ fun r => r.nout) := by
    apply List.map_congr_left
    intro r hr
    simp only [Function.comp]
    rw [hall r hr]
  rw [h1, ← List.map_map, hnum.nums, hL]
  rfl

/-- Non-vacuity of C03: with CFL step 1/20 ≤ spacing 1/8 the three sets are at 0, 1/8, 1/4. -/
example : (Scheme.run (.classic rk4) Ex.env Ex.deck Ex.sol2 6).log.map (fun r => (r.nout, r.sol.t)) =
    [(0, 0), (1, 1/8), (2, 1/4)] := by decide +kernel

/-- **C03** (what holds without any hypothesis on the steps) Every set but possibly the last one of a
finished run holds the solution at its requested time; the exceptional one is at the final time. -/
theorem C03_outputs_general_partial (sch : Scheme K) (env : Env K)
    (hlim : ∀ s s', env.limit s = .ok s' → s'.t = s.t ∧ s'.n = s.n)
    (deck : RkDeck K) (sol : Sol K) (h0 : sol.t ≤ deck.finaltime) (k : ℕ) :
    ∀ r ∈ (sch.run env deck sol k).log,
      r.sol.t = sol.t + (r.nout : K) * ((deck.finaltime - sol.t) / ((deck.nout - 1 : ℕ) : K)) ∨
      ((sch.run env deck sol k).status = .done ∧ (sch.run env deck sol k).log.getLast? = some r ∧
        r.sol.t = deck.finaltime) :=
  (timeInv_run hlim sch deck sol h0 k).outT

/-- **C03** (the claim is false in general) Five outputs up to time 1/4 with a CFL step of 1/2: the run
finishes normally having written only the sets 0 and 1, and set 1 holds the solution at time 1/4
although time 1/16 was requested. -/
theorem C03_outputs_skipped : ∃ (deck : RkDeck ℚ) (sol : Sol ℚ) (k : ℕ),
    (Scheme.run (.classic rk4) Ex.env deck sol k).status = .done ∧ deck.nout = 5 ∧
    (Scheme.run (.classic rk4) Ex.env deck sol k).log.map (fun r => (r.nout, r.sol.t)) =
      [(0, 0), (1, 1/4)] :=
  ⟨⟨"rk4", 1/4, 5, 3⟩, Ex.sol2, 1, by decide +kernel, rfl, by decide +kernel⟩

/-- **C04** At every moment of every run, also one that has aborted or will abort: the sets written are
numbered 0,1,2,… without gap, the first is the initial solution with dt = 0, step counters (and, from a
start not after the final time, times) never decrease, and later iterations only append. -/
theorem C04_numbering (sch : Scheme K) (env : Env K)
    (hlim : ∀ s s', env.limit s = .ok s' → s'.t = s.t ∧ s'.n = s.n)
    (deck : RkDeck K) (sol : Sol K) (k : ℕ) :
    (sch.run env deck sol k).log.map (fun r => r.nout) =
      List.range (sch.run env deck sol k).log.length ∧
    (∃ l, (sch.run env deck sol k).log = ⟨0, 0, sol⟩ :: l) ∧
    ((sch.run env deck sol k).log.map (fun r => r.sol.n)).Pairwise (· ≤ ·) ∧
    (sol.t ≤ deck.finaltime →
      ((sch.run env deck sol k).log.map (fun r => r.sol.t)).Pairwise (· ≤ ·)) ∧
    (sch.run env deck sol k).log <+: (sch.run env deck sol (k + 1)).log := by
  have hnum := numInv_run hlim sch deck sol k
  refine ⟨hnum.nums, hnum.head, hnum.ns, fun h0 => (timeInv_run hlim sch deck sol h0 k).times, ?_⟩
  unfold Scheme.run
  rw [runLoop_succ]
  exact log_prefix_step _

/-- An environment whose limiter fails once the second step is reached (for the example below). -/
def failingEnv : Env ℚ := ⟨residual, fun s => if s.n = 4 then .error .valueError else .ok s⟩

/-- Non-vacuity of C04 on an aborted run: one intermediate output had been written, and is kept. -/
example : (Scheme.run (.classic rk4) failingEnv Ex.deck Ex.sol2 10).status = .failed .valueError ∧
    (Scheme.run (.classic rk4) failingEnv Ex.deck Ex.sol2 10).log.map (fun r => (r.nout, r.sol.t, r.sol.n)) =
      [(0, 0, 0), (1, 1/8, 3)] := by
  constructor <;> decide +kernel

/-- **C04 (last output)** A run that finishes has written its final state as the last set. -/
theorem C04_final_output (sch : Scheme K) (env : Env K) (deck : RkDeck K) (sol : Sol K) (k : ℕ)
    (hd : (sch.run env deck sol k).status = .done) :
    ∃ o, (sch.run env deck sol k).log.getLast? = some o ∧ o.sol = (sch.run env deck sol k).sol := by
  induction k with
  | zero => exact absurd hd (init_status_ne_done deck sol)
  | succ k ih =>
    have hE : sch.run env deck sol (k + 1) = loopBody env deck (sch.inner env) (sch.run env deck sol k) := by
      unfold Scheme.run; rw [runLoop_succ]
    rw [hE] at hd ⊢
    by_cases hr : (sch.run env deck sol k).status = .running
    swap
    · rw [loopBody_stopped hr] at hd ⊢; exact ih hd
    revert hd
    unfold loopBody
    rw [hr]
    simp only
    split
    · intro hd; cases hd
    · split
      · intro hd; cases hd
      · split
        · intro hd; cases hd
        · unfold outputPhase
          split_ifs with ho hdn
          · exact fun _ => ⟨_, List.getLast?_concat, rfl⟩
          · simp only
            split <;> (intro hd; cases hd)
          · intro hd; cases hd

/-- Fewer than two outputs: the run writes the initial condition and then dies of `StopIteration`. -/
theorem C04_one_output (sch : Scheme K) (env : Env K) (deck : RkDeck K) (sol : Sol K) (k : ℕ)
    (h : deck.nout ≤ 1) :
    (sch.run env deck sol k).status = .failed .stopIteration ∧
    (sch.run env deck sol k).log = [⟨0, 0, sol⟩] := by
  have hi : (initLoop deck sol).status = .failed .stopIteration ∧ (initLoop deck sol).log = [⟨0, 0, sol⟩] := by
    unfold initLoop
    have : deck.nout = 0 ∨ deck.nout = 1 := by omega
    rcases this with h | h <;> simp [h, List.range_succ]
  induction k with
  | zero => exact hi
  | succ k ih =>
    have : sch.run env deck sol (k + 1) = sch.run env deck sol k := by
      unfold Scheme.run at *
      rw [runLoop_succ, loopBody_stopped]; rw [ih.1]; simp
    rw [this]; exact ih

/-- **C12** (size) A CFL step `dt` computed from the wave speed `v` satisfies
`dt · v · (2p+1) = cfl · dx`. -/
theorem C12_cfl_size (s : Sol K) (cfl dt : K) (h : cflTimeStep s cfl = .ok (.fin dt)) :
    ∃ v, s.kw.maxWaveSpeed s.u = .ok (.fin v) ∧ dt * v * (2 * (s.basis.p : K) + 1) = cfl * s.dx := by
  unfold cflTimeStep at h
  split at h
  · cases h
  · cases h
  · rename_i v hv
    refine ⟨v, hv, ?_⟩
    simp only at h
    split_ifs at h with h1 h2 h3 <;> cases h
    obtain ⟨hv0, hp⟩ := mul_ne_zero_iff.mp h1
    field_simp

example : cflTimeStep Ex.sol2 (3/10) = .ok (.fin (1/20)) := by
  norm_num [cflTimeStep, Ex.sol2, Ex.basis1, Advection.physics, Advection.maxWaveSpeed]

/-- **C12** (abort) If the CFL step is below 1e-14, `-inf` or NaN, the very same iteration aborts:
the solution and the written outputs stay as they were, for good. -/
theorem C12_abort (sch : Scheme K) (env : Env K) (deck : RkDeck K) (sol : Sol K) (k : ℕ)
    (hr : (sch.run env deck sol k).status = .running)
    (h : (∃ dt, cflTimeStep (sch.run env deck sol k).sol deck.cfl = .ok (.fin dt) ∧ dt < 1 / 10 ^ 14) ∨
      cflTimeStep (sch.run env deck sol k).sol deck.cfl = .ok .ninf ∨
      cflTimeStep (sch.run env deck sol k).sol deck.cfl = .ok .nan) (m : ℕ) :
    (∃ msg, (sch.run env deck sol (k + 1 + m)).status = .failed (.sysExit msg)) ∧
    (sch.run env deck sol (k + 1 + m)).sol = (sch.run env deck sol k).sol ∧
    (sch.run env deck sol (k + 1 + m)).log = (sch.run env deck sol k).log := by
  have hstep : ∃ msg, sch.run env deck sol (k + 1) =
      { sch.run env deck sol k with status := .failed (.sysExit msg) } := by
    have hE : sch.run env deck sol (k + 1) = loopBody env deck (sch.inner env) (sch.run env deck sol k) := by
      unfold Scheme.run; rw [runLoop_succ]
    rw [hE]
    unfold loopBody
    rw [hr]
    rcases h with ⟨dt, h, hlt⟩ | h | h
    · refine ⟨"Next time step is too small", ?_⟩
      simp only [getNextTimeStep, h, sanityCheckDt, if_pos hlt]
    · refine ⟨"Next time step is too small", ?_⟩
      simp only [getNextTimeStep, h, sanityCheckDt]
    · refine ⟨"Time step is NaN", ?_⟩
      simp only [getNextTimeStep, h, sanityCheckDt]
  obtain ⟨msg, hstep⟩ := hstep
  have hstay : sch.run env deck sol (k + 1 + m) = sch.run env deck sol (k + 1) := by
    induction m with
    | zero => rfl
    | succ m ih =>
      have h1 : sch.run env deck sol (k + 1 + (m + 1)) =
          loopBody env deck (sch.inner env) (sch.run env deck sol (k + 1 + m)) := by
        unfold Scheme.run; rw [← runLoop_succ]; rfl
      rw [h1, ih, loopBody_stopped]
      rw [hstep]; simp
  rw [hstay, hstep]
  exact ⟨⟨msg, rfl⟩, rfl, rfl⟩

/-- Non-vacuity of C12: a CFL number of 1e-14 on the example mesh is below the limit. -/
example : (Scheme.run (.classic rk4) Ex.env { Ex.deck with cfl := 1 / 10 ^ 14 } Ex.sol2 0).status = .running ∧
    cflTimeStep Ex.sol2 (1 / 10 ^ 14) = .ok (.fin (1 / (6 * 10 ^ 14))) := by
  constructor
  · decide +kernel
  · norm_num [cflTimeStep, Ex.sol2, Ex.basis1, Advection.physics, Advection.maxWaveSpeed]

end Dg1d.Props
