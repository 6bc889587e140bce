import Verif.Proofs.Autonomy
import Verif.Props.Clock
import Verif.Props.ExamplesReal
import Verif.Model.Integrate
import Verif.Proofs.Construct
import Verif.Model.Main
import Verif.Model.Euler
import Verif.Model.Advection

/-!
# C96: the clock only places the outputs; a run can be taken up at any output

Two statements about the time loop of rk.py with the residual of dg.py and any limiter of limiting.py.
-/

namespace Dg1d.Props
open Dg1d Text
variable {K : Type*} [Field K] [LinearOrder K] [IsStrictOrderedRing K]

/-- **C96 (the clock).** Start the same data `c` later and end `c` later, with any number `d` already on the step counter:
after every number of iterations the run stands at the same coefficients, with the clock `c` later and the counter `d` higher; it
has written the same outputs under the same numbers with the same last steps, and stops (or fails) at the same moment. -/
theorem C96_clock (sch : Scheme K) (lm : Limiter K) (deck : RkDeck K) (sol : Sol K) (c : K) (d : ℕ) (k : ℕ) :
    let A := sch.run ⟨residual, lm.limit⟩ { deck with finaltime := deck.finaltime + c } { sol with t := sol.t + c, n := sol.n + d } k
    let B := sch.run ⟨residual, lm.limit⟩ deck sol k
    A.status = B.status ∧ A.sol = { B.sol with t := B.sol.t + c, n := B.sol.n + d } ∧
    A.log = B.log.map fun o => ⟨o.nout, o.dt, { o.sol with t := o.sol.t + c, n := o.sol.n + d }⟩ := by
  intro A B
  have h := iterate_sim lm sch (da := { deck with finaltime := deck.finaltime + c }) (db := deck) rfl rfl k (initLoop_lag deck sol c d)
  have hA : A = (loopBody (codeEnv lm) { deck with finaltime := deck.finaltime + c } (sch.inner (codeEnv lm)))^[k]
      (initLoop { deck with finaltime := deck.finaltime + c } (delayed c d sol)) := rfl
  have hB : B = (loopBody (codeEnv lm) deck (sch.inner (codeEnv lm)))^[k] (initLoop deck sol) := rfl
  rw [← hA, ← hB] at h
  refine ⟨h.status, h.sol, ?_⟩
  have hk : (codeEnv lm).KeepsClock := fun s s' hs => by
    have := limit_alike lm (a := s) (b := s) ⟨Frame.refl s, rfl⟩
    change lm.limit s = .ok s' at hs
    rw [hs] at this
    cases this with
    | ok h => exact ⟨h.ta, h.na⟩
  obtain ⟨l, hl⟩ := (numInv_run hk sch deck sol k).head
  change B.log = _ at hl
  rw [h.log, hl]
  rfl

omit [IsStrictOrderedRing K] in
/-- The sensors of the two systems of equations keep the length of the array they are handed. -/
lemma advection_sensing_len (th : List K) (u : Arr K) (NF : ℕ) (v v' : Vec ℕ) (h : (Advection.physics (K := K)).sensing th u NF v = .ok v') :
    v'.len = v.len := by
  change Advection.sensing th u NF v = .ok v' at h
  unfold Advection.sensing at h
  cases th with
  | nil => cases h
  | cons a l => cases h; rfl

lemma euler_sensing_len (γ : ℝ) (name : String) (th : List ℝ) (u : Arr ℝ) (NF : ℕ) (v v' : Vec ℕ)
    (h : (Euler.physics γ name).sensing th u NF v = .ok v') : v'.len = v.len := by
  change Euler.sensing γ th u NF v = .ok v' at h
  unfold Euler.sensing at h
  match th, h with
  | [], h => cases h
  | [_], h => cases h
  | _ :: _ :: _, h => cases h; rfl

/-- **C96 (continuation).** Stop a run right after one of its outputs, at a moment where it is not finished, and start a new run
from the solution in memory, asking for the outputs that are left: the new run goes through the same solutions step by step, ends
the same way, and its outputs after the first (which repeats the one it starts from) are the remaining outputs of the original run
with the numbers starting over. What the original run still holds in its other arrays (previous solution, stage solution, stage
increments) and in the sensor flags has no influence. -/
theorem C96_continue (sch : Scheme K) (lm : Limiter K) (deck : RkDeck K) (sol : Sol K) (h0 : sol.t ≤ deck.finaltime)
    (hlen : ∀ th u NF v v', sol.kw.sensing th u NF v = .ok v' → v'.len = v.len) (j : ℕ) {o : OutRec K}
    (hrun : (sch.run ⟨residual, lm.limit⟩ deck sol j).status = .running)
    (hlast : (sch.run ⟨residual, lm.limit⟩ deck sol j).log.getLast? = some o)
    (hout : o.sol = (sch.run ⟨residual, lm.limit⟩ deck sol j).sol) (k : ℕ) :
    let A := sch.run ⟨residual, lm.limit⟩ deck sol (j + k)
    let B := sch.run ⟨residual, lm.limit⟩ { deck with nout := deck.nout - o.nout } o.sol k
    B.status = A.status ∧ B.sol = A.sol ∧
    A.log = (sch.run ⟨residual, lm.limit⟩ deck sol j).log ++ B.log.tail.map fun r => ⟨r.nout + o.nout, r.dt, r.sol⟩ := by
  intro A B
  set st := sch.run ⟨residual, lm.limit⟩ deck sol j with hst
  have hk : (codeEnv lm).KeepsClock := fun s s' hs => by
    have := limit_alike lm (a := s) (b := s) ⟨Frame.refl s, rfl⟩
    change lm.limit s = .ok s' at hs
    rw [hs] at this
    cases this with
    | ok h => exact ⟨h.ta, h.na⟩
  have hnum : NumInv sol st := numInv_run hk sch deck sol j
  have htime : TimeInv sol deck.finaltime deck.nout st := timeInv_run hk sch deck sol h0 j
  have hfr : Frame st.work st.sol := run_frame lm sch deck hlen j
  obtain ⟨r1, r2, r3, r4, r5, r6⟩ := htime.run hrun
  -- the number of the last output
  have hno : o.nout + 1 = st.nout := by
    have hl := hnum.run hrun
    have hne : st.log ≠ [] := by intro hc; rw [hc] at hlast; cases hlast
    have h1 : (st.log.map (·.nout)).getLast? = some o.nout := by rw [List.getLast?_map, hlast]; rfl
    rw [hnum.nums, hl] at h1
    obtain ⟨q, hq⟩ : ∃ q, st.nout = q + 1 := ⟨st.nout - 1, by omega⟩
    rw [hq, List.range_succ, List.getLast?_append] at h1
    simp at h1
    omega
  have hot : st.sol.t = outTime sol.t deck.finaltime deck.nout o.nout := by
    have hmem : o ∈ st.log := List.mem_of_getLast? hlast
    rcases htime.outT o hmem with h | ⟨h, -⟩
    · rw [← hout, h]
    · rw [hrun] at h; cases h
  have hB0 : LoopLag 0 0 o.nout st.log st (initLoop { deck with nout := deck.nout - o.nout } st.sol) := by
    have ht : ((List.range (deck.nout - o.nout)).map (linspace st.sol.t deck.finaltime (deck.nout - o.nout)).val).tail = st.tout :: st.touts := by
      rw [touts_init _ _ (by omega), r3, r4, hot]
      have e : outTime (outTime sol.t deck.finaltime deck.nout o.nout) deck.finaltime (deck.nout - o.nout) =
          fun i => outTime sol.t deck.finaltime deck.nout (o.nout + i) := funext fun i => outTime_rest _ _ (by omega)
      obtain ⟨q, hq⟩ : ∃ q, deck.nout - o.nout - 1 = q + 1 := ⟨deck.nout - o.nout - 2, by omega⟩
      rw [e, hq, List.range'_succ, List.map_cons, hno, ← hno]
      have hq' : deck.nout - 1 - (o.nout + 1) = q := by omega
      rw [hq']
      congr 1
      apply List.ext_getElem
      · simp
      · intro i h1 h2
        simp only [List.getElem_map, List.getElem_range']
        congr 1
        omega
    unfold initLoop
    simp only
    rw [ht]
    refine ⟨(delayed_zero _).symm, hfr, ?_, fun _ => (add_zero _).symm, ?_, hrun, ?_, by simp⟩
    · simp only; omega
    · simp
    · simp
  have h := iterate_sim lm sch (da := deck) (db := { deck with nout := deck.nout - o.nout }) rfl (add_zero _).symm k hB0
  have hA : A = (loopBody (codeEnv lm) deck (sch.inner (codeEnv lm)))^[k] st := by
    show sch.run (codeEnv lm) deck sol (j + k) = _
    rw [hst]
    unfold Scheme.run runLoop
    rw [Nat.add_comm, Function.iterate_add_apply]
  have hB : B = (loopBody (codeEnv lm) { deck with nout := deck.nout - o.nout } (sch.inner (codeEnv lm)))^[k]
      (initLoop { deck with nout := deck.nout - o.nout } st.sol) := by
    show sch.run (codeEnv lm) { deck with nout := deck.nout - o.nout } o.sol k = _
    rw [hout]
    rfl
  rw [← hA, ← hB] at h
  refine ⟨h.status.symm, ?_, ?_⟩
  · rw [h.sol, delayed_zero]
  · rw [h.log]
    congr 1
    apply List.map_congr_left
    intro r _
    simp only [renumbered, delayed_zero]

/-- The physics of a constructed solution is one of the two systems. -/
lemma construct_physics {lib : GaussLib ℝ} {ft : FloatText ℝ} {junk : ℕ → ℝ} {icline system riemann enhLine : Str} {order : ℤ} {th : List ℝ}
    {s : Partial} (h : construct lib ft junk icline system order riemann enhLine th = .ok s) :
    ∃ γ, s.sol.kw = (manipulationFunctions γ system riemann).1 := by
  obtain ⟨-, name, params, -, hf⟩ := construct_form h
  obtain ⟨en, sn, rfl⟩ := finish_form hf
  set s0 := emptySolution lib junk system order.toNat riemann with hs0
  have h0 : s0.sol.kw = (manipulationFunctions gammaInit system riemann).1 := rfl
  have hrun : ∀ ps ic, ∃ γ, (runSetup system riemann s0 ps ic).1.sol.kw = (manipulationFunctions γ system riemann).1 := fun ps ic =>
    ⟨_, (setup_any _ _ _ _ _).2.1⟩
  show ∃ γ, (callKeyword ft system riemann s0 name params).1.sol.kw = _
  unfold callKeyword
  split_ifs
  · exact hrun _ _
  · exact hrun _ _
  · exact hrun _ _
  · exact hrun _ _
  · unfold runScktube
    split
    · exact ⟨_, h0⟩
    · split
      · exact hrun _ _
      · exact ⟨_, h0⟩
      · exact ⟨_, h0⟩
  · exact hrun _ _
  · exact hrun _ _
  · exact ⟨_, h0⟩
  · exact ⟨_, h0⟩
  · exact ⟨_, h0⟩

/-- **C96 (what the program starts).** Every solution main.py hands to the integrator, whatever the input deck, meets the
condition on the sensor of `C96_continue`. So a run of any deck, with any integrator, limiter, enhancement and sensors, can be taken up
at any of its outputs. -/
theorem C96_program {lib : GaussLib ℝ} {ft : FloatText ℝ} {junk : ℕ → ℝ} {d : Deck ℝ} {s : Sol ℝ} {lm : Limiter ℝ}
    (hs : start lib ft junk d = .ok (s, lm)) (h0 : s.t ≤ d.rkDeck.finaltime) (j : ℕ) {o : OutRec ℝ}
    (hrun : (integrate ⟨residual, lm.limit⟩ d.rkDeck s j).status = .running)
    (hlast : (integrate ⟨residual, lm.limit⟩ d.rkDeck s j).log.getLast? = some o)
    (hout : o.sol = (integrate ⟨residual, lm.limit⟩ d.rkDeck s j).sol) (k : ℕ) :
    let A := integrate ⟨residual, lm.limit⟩ d.rkDeck s (j + k)
    let B := integrate ⟨residual, lm.limit⟩ { d.rkDeck with nout := d.rkDeck.nout - o.nout } o.sol k
    B.status = A.status ∧ B.sol = A.sol ∧
    A.log = (integrate ⟨residual, lm.limit⟩ d.rkDeck s j).log ++ B.log.tail.map fun r => ⟨r.nout + o.nout, r.dt, r.sol⟩ := by
  have hlen : ∀ th u NF v v', s.kw.sensing th u NF v = .ok v' → v'.len = v.len := by
    unfold start at hs
    split at hs
    · cases hs
    · rename_i q hq
      obtain ⟨γ, hγ⟩ := construct_physics hq
      have hq' : ∀ th u NF v v', q.sol.applyBc.kw.sensing th u NF v = .ok v' → v'.len = v.len := by
        intro th u NF v v' hv
        rw [(applyBc_setup q.sol).kw, hγ] at hv
        unfold manipulationFunctions at hv
        split at hv
        · exact euler_sensing_len _ _ _ _ _ _ _ hv
        · exact advection_sensing_len _ _ _ _ _ hv
      simp only at hs
      split at hs
      · cases hs
      · split at hs
        · cases hs
        · split at hs
          · cases hs
          · rename_i w hw
            cases hs
            have hfr := (frame_invariant lm hq').headLimit q.sol.applyBc s (Frame.refl _) hw
            rw [hfr.kw]
            exact hq'
  exact C96_continue (schemeFor d.rkDeck.rk) lm d.rkDeck s h0 hlen j hrun hlast hout k

omit [IsStrictOrderedRing K] in
/-- A step that lengthens the log has just written the solution it arrived at. -/
lemma fresh_output (sch : Scheme K) (env : Env K) (deck : RkDeck K) (sol : Sol K) (j : ℕ)
    (h : (sch.run env deck sol (j + 1)).log.length ≠ (sch.run env deck sol j).log.length) :
    ∃ o, (sch.run env deck sol (j + 1)).log.getLast? = some o ∧ o.sol = (sch.run env deck sol (j + 1)).sol := by
  have hE : sch.run env deck sol (j + 1) = loopBody env deck (sch.inner env) (sch.run env deck sol j) := by
    unfold Scheme.run; rw [runLoop_succ]
  rw [hE] at h ⊢
  revert h
  unfold loopBody
  split
  · split
    · intro h; exact absurd rfl h
    · simp only
      split
      · intro h; exact absurd rfl h
      · split
        · intro h; exact absurd rfl h
        · unfold outputPhase
          split_ifs
          · intro _; exact ⟨_, List.getLast?_concat .., rfl⟩
          · simp only
            split
            · intro _; exact ⟨_, List.getLast?_concat .., rfl⟩
            · intro _; exact ⟨_, List.getLast?_concat .., rfl⟩
          · intro h; exact absurd rfl h
  · intro h; exact absurd rfl h

/-! Concrete cases. -/

/-- Output 1 of the run of `Ex.deck` on `Ex.sol2` (three outputs up to 1/4) is written after three steps, and the run goes on; so the
hypotheses of `C96_continue` hold there. -/
example : ∃ o : OutRec ℚ, o.nout = 1 ∧ ∀ k,
    (Scheme.run (.classic rk4) ⟨residual, Limiter.limit none⟩ { Ex.deck with nout := Ex.deck.nout - 1 } o.sol k).sol =
      (Scheme.run (.classic rk4) ⟨residual, Limiter.limit none⟩ Ex.deck Ex.sol2 (3 + k)).sol := by
  have hlast : ∃ o, (Scheme.run (.classic rk4) ⟨residual, Limiter.limit none⟩ Ex.deck Ex.sol2 3).log.getLast? = some o ∧
      o.nout = 1 ∧ o.sol = (Scheme.run (.classic rk4) ⟨residual, Limiter.limit none⟩ Ex.deck Ex.sol2 3).sol := by
    obtain ⟨o, h1, h2⟩ := fresh_output (.classic rk4) ⟨residual, Limiter.limit none⟩ Ex.deck Ex.sol2 2 (by decide +kernel)
    have h3 : (Scheme.run (.classic rk4) ⟨residual, Limiter.limit none⟩ Ex.deck Ex.sol2 3).log.getLast?.map (·.nout) = some 1 := by decide +kernel
    rw [h1] at h3
    exact ⟨o, h1, Option.some.inj h3, h2⟩
  obtain ⟨o, h1, h2, h3⟩ := hlast
  refine ⟨o, h2, fun k => ?_⟩
  have := (C96_continue (.classic rk4) none Ex.deck Ex.sol2 (by decide +kernel) (fun th u NF v v' h => advection_sensing_len th u NF v v' h) 3
    (by decide +kernel) h1 h3 k).2.1
  rwa [h2] at this

/-- A late start with the limiter of any order: no hypothesis to meet. -/
example (p : ℕ) (lm : Limiter ℝ) (deck : RkDeck ℝ) (k : ℕ) :
    (Scheme.run .low ⟨residual, lm.limit⟩ { deck with finaltime := deck.finaltime + 5 } { Ex.solR p with t := (Ex.solR p).t + 5, n := (Ex.solR p).n + 7 } k).status =
      (Scheme.run .low ⟨residual, lm.limit⟩ deck (Ex.solR p) k).status :=
  (C96_clock .low lm deck (Ex.solR p) 5 7 k).1

end Dg1d.Props
