import Verif.Props.Main
import Verif.Proofs.Clock
import Verif.Proofs.RkRun
import Verif.Props.Regressions
import Mathlib.Algebra.Order.Floor.Semiring

/-!
# C113 — the steps of an advection run, counted
-/

open Dg1d.Spec

namespace Dg1d.Props
open Text

variable {lib : GaussLib ℝ} {p N : ℕ} {ft : FloatText ℝ} {d : Deck ℝ} {ic : IC.Setup} {env : Env ℝ} {sch : Scheme ℝ} {deck : RkDeck ℝ} {s : Sol ℝ} {δ : ℝ}

/-- The run never raises and its CFL step is always `δ`. -/
structure SteadySteps (sch : Scheme ℝ) (env : Env ℝ) (deck : RkDeck ℝ) (s : Sol ℝ) (δ : ℝ) : Prop where
  clock : env.KeepsClock
  start : s.t ≤ deck.finaltime
  outs : 2 ≤ deck.nout
  big : 1 / 10 ^ 14 ≤ δ
  cfl : ∀ k, (sch.run env deck s k).status = .running → cflTimeStep (sch.run env deck s k).sol deck.cfl = .ok (.fin δ)
  fine : ∀ k e, (sch.run env deck s k).status ≠ .failed e

lemma SteadySteps.next (h : SteadySteps sch env deck s δ) {k : ℕ} (hr : (sch.run env deck s k).status = .running) :
    getNextTimeStep (sch.run env deck s k).sol (sch.run env deck s k).tout deck.cfl deck.finaltime =
      .ok (adjustForOutput δ (sch.run env deck s k).sol.t deck.finaltime (sch.run env deck s k).tout) := by
  unfold getNextTimeStep
  rw [h.cfl k hr]
  simp only [sanityCheckDt]
  rw [if_neg (not_lt.mpr h.big)]

/-- One iteration: the time step is `adjustForOutput`'s, the rest is `outputPhase`. -/
lemma SteadySteps.body (h : SteadySteps sch env deck s δ) {k : ℕ} (hr : (sch.run env deck s k).status = .running) :
    ∃ st sol', SameSchedule st (sch.run env deck s k) ∧
      sol'.t = (sch.run env deck s k).sol.t + (adjustForOutput δ (sch.run env deck s k).sol.t deck.finaltime (sch.run env deck s k).tout).1 ∧
      sol'.n = (sch.run env deck s k).sol.n + 1 ∧
      sch.run env deck s (k + 1) = outputPhase st sol' (adjustForOutput δ (sch.run env deck s k).sol.t deck.finaltime (sch.run env deck s k).tout).1
        (adjustForOutput δ (sch.run env deck s k).sol.t deck.finaltime (sch.run env deck s k).tout).2.1
        (adjustForOutput δ (sch.run env deck s k).sol.t deck.finaltime (sch.run env deck s k).tout).2.2 := by
  have hE : sch.run env deck s (k + 1) = loopBody env deck (sch.inner env) (sch.run env deck s k) := by
    unfold Scheme.run; rw [runLoop_succ]
  rcases loopBody_cases (deck := deck) h.clock (sch.inner_keepsClock env) hr with ⟨e, he, -⟩ | ⟨dt, o, dn, st1, sol', h1, h2, h3, h4, h5⟩
  · rw [← hE] at he
    exact absurd he (h.fine _ _)
  · rw [h.next hr] at h1
    have h1 := Except.ok.inj h1
    refine ⟨st1, sol', h2, ?_, h4, ?_⟩
    · rw [h1]; exact h3
    · rw [h1, hE]; exact h5

/-- A step without output. -/
lemma SteadySteps.plain (h : SteadySteps sch env deck s δ) {k : ℕ} (hr : (sch.run env deck s k).status = .running)
    (h1 : δ ≤ deck.finaltime - (sch.run env deck s k).sol.t) (h2 : δ ≤ (sch.run env deck s k).tout - (sch.run env deck s k).sol.t) :
    (sch.run env deck s (k + 1)).status = .running ∧ (sch.run env deck s (k + 1)).sol.t = (sch.run env deck s k).sol.t + δ ∧
    (sch.run env deck s (k + 1)).sol.n = (sch.run env deck s k).sol.n + 1 ∧ (sch.run env deck s (k + 1)).nout = (sch.run env deck s k).nout ∧
    (sch.run env deck s (k + 1)).log = (sch.run env deck s k).log := by
  obtain ⟨st, sol', g1, g2, g3, g4⟩ := h.body hr
  have ha : adjustForOutput δ (sch.run env deck s k).sol.t deck.finaltime (sch.run env deck s k).tout = (δ, false, false) := by
    unfold adjustForOutput
    rw [if_neg (not_lt.mpr h1), if_neg (not_lt.mpr h2)]
  rw [ha] at g2 g4
  simp only [outputPhase, Bool.false_eq_true, if_false] at g4
  rw [g4]
  exact ⟨g1.2.2.2.1.trans hr, g2, g3, g1.1, g1.2.2.2.2⟩

/-- A step to an output that is not the last. -/
lemma SteadySteps.output (h : SteadySteps sch env deck s δ) {k : ℕ} (hr : (sch.run env deck s k).status = .running)
    (h1 : δ ≤ deck.finaltime - (sch.run env deck s k).sol.t) (h2 : (sch.run env deck s k).tout - (sch.run env deck s k).sol.t < δ) :
    (sch.run env deck s (k + 1)).status = .running ∧ (sch.run env deck s (k + 1)).sol.t = (sch.run env deck s k).tout ∧
    (sch.run env deck s (k + 1)).sol.n = (sch.run env deck s k).sol.n + 1 ∧ (sch.run env deck s (k + 1)).nout = (sch.run env deck s k).nout + 1 ∧
    (sch.run env deck s (k + 1)).log = (sch.run env deck s k).log ++
      [⟨(sch.run env deck s k).nout, (sch.run env deck s k).tout - (sch.run env deck s k).sol.t, (sch.run env deck s (k + 1)).sol⟩] := by
  obtain ⟨st, sol', g1, g2, g3, g4⟩ := h.body hr
  have ha : adjustForOutput δ (sch.run env deck s k).sol.t deck.finaltime (sch.run env deck s k).tout =
      ((sch.run env deck s k).tout - (sch.run env deck s k).sol.t, true, false) := by
    unfold adjustForOutput
    rw [if_neg (not_lt.mpr h1), if_pos h2]
  rw [ha] at g2 g4
  have hf := h.fine (k + 1)
  simp only [outputPhase, if_true, Bool.false_eq_true, if_false] at g4
  obtain ⟨e1, e2, e3, e4, e5⟩ := g1
  rcases ht : st.touts with _ | ⟨t1, rest⟩
  · rw [ht] at g4
    exact absurd (by rw [g4]) (hf .stopIteration)
  · rw [ht] at g4
    rw [g4]
    refine ⟨e4.trans hr, by rw [g2]; ring, g3, by rw [← e1], by rw [← e1, ← e5]⟩

/-- The last step. -/
lemma SteadySteps.last (h : SteadySteps sch env deck s δ) {k : ℕ} (hr : (sch.run env deck s k).status = .running)
    (h1 : deck.finaltime - (sch.run env deck s k).sol.t < δ) :
    (sch.run env deck s (k + 1)).status = .done ∧ (sch.run env deck s (k + 1)).sol.t = deck.finaltime ∧
    (sch.run env deck s (k + 1)).sol.n = (sch.run env deck s k).sol.n + 1 ∧
    (sch.run env deck s (k + 1)).log = (sch.run env deck s k).log ++
      [⟨(sch.run env deck s k).nout, deck.finaltime - (sch.run env deck s k).sol.t, (sch.run env deck s (k + 1)).sol⟩] := by
  obtain ⟨st, sol', g1, g2, g3, g4⟩ := h.body hr
  have ha : adjustForOutput δ (sch.run env deck s k).sol.t deck.finaltime (sch.run env deck s k).tout =
      (deck.finaltime - (sch.run env deck s k).sol.t, true, true) := by
    unfold adjustForOutput
    rw [if_pos h1]
  rw [ha] at g2 g4
  simp only [outputPhase, if_true] at g4
  obtain ⟨e1, e2, e3, e4, e5⟩ := g1
  rw [g4]
  exact ⟨rfl, by rw [g2]; ring, g3, by rw [← e1, ← e5]⟩

lemma SteadySteps.tout (h : SteadySteps sch env deck s δ) {k : ℕ} (hr : (sch.run env deck s k).status = .running) :
    (sch.run env deck s k).tout = s.t + (sch.run env deck s k).nout * ((deck.finaltime - s.t) / ((deck.nout - 1 : ℕ) : ℝ)) :=
  ((timeInv_run h.clock sch deck s h.start k).run hr).2.2.1

lemma SteadySteps.init (h : SteadySteps sch env deck s δ) : (sch.run env deck s 0).status = .running ∧ (sch.run env deck s 0).sol = s ∧
    (sch.run env deck s 0).nout = 1 ∧ (sch.run env deck s 0).log = [⟨0, 0, s⟩] := by
  have h1 : (sch.run env deck s 0).sol = s ∧ (sch.run env deck s 0).nout = 1 ∧ (sch.run env deck s 0).log = [⟨0, 0, s⟩] := by
    show (initLoop deck s).sol = s ∧ (initLoop deck s).nout = 1 ∧ (initLoop deck s).log = _
    unfold initLoop
    dsimp only
    split <;> exact ⟨rfl, rfl, rfl⟩
  refine ⟨?_, h1⟩
  have hf := h.fine 0
  have hd : (sch.run env deck s 0).status ≠ .done := init_status_ne_done deck s
  cases hs : (sch.run env deck s 0).status with
  | running => rfl
  | done => exact absurd hs hd
  | failed e => exact absurd hs (hf e)

lemma SteadySteps.stays {k₀ k : ℕ} (h : (sch.run env deck s k₀).status ≠ .running) (hk : k₀ ≤ k) : sch.run env deck s k = sch.run env deck s k₀ := by
  induction k, hk using Nat.le_induction with
  | base => rfl
  | succ k _ ih =>
    have hE : sch.run env deck s (k + 1) = loopBody env deck (sch.inner env) (sch.run env deck s k) := by
      unfold Scheme.run; rw [runLoop_succ]
    rw [hE, ih, loopBody_stopped h]

/-- What is printed with the outputs: number, step counter, time, time step. -/
def printout (log : List (OutRec ℝ)) : List (ℕ × ℕ × ℝ × ℝ) := log.map fun o => (o.nout, o.sol.n, o.sol.t, o.dt)

/-- **C113 (steps that fit).** CFL steps `δ` not longer than the interval `τ` between outputs: every interval takes `⌊τ/δ⌋ + 1` iterations, all of length `δ` but the last,
which takes the rest; the run ends after all intervals. -/
theorem C113_counts (h : SteadySteps sch env deck s δ) (M m : ℕ) (τ : ℝ) (hM : deck.nout = M + 1) (hτ : τ = (deck.finaltime - s.t) / M)
    (hfit : δ ≤ τ) (hm : m = ⌊τ / δ⌋₊ + 1) (k : ℕ) :
    (k < M * m → (sch.run env deck s k).status = .running ∧ (sch.run env deck s k).sol.t = s.t + (k / m : ℕ) * τ + (k % m : ℕ) * δ ∧
      (sch.run env deck s k).sol.n = s.n + k) ∧
    (M * m ≤ k → (sch.run env deck s k).status = .done ∧ (sch.run env deck s k).sol.t = deck.finaltime ∧ (sch.run env deck s k).sol.n = s.n + M * m) ∧
    printout (sch.run env deck s k).log =
      (List.range (min (k / m) M + 1)).map fun q => (q, s.n + q * m, s.t + q * τ, if q = 0 then 0 else τ - (m - 1 : ℕ) * δ) := by
  have hδ : 0 < δ := lt_of_lt_of_le (by norm_num) h.big
  have hM0 : 0 < M := by have := h.outs; omega
  have hMr : (0 : ℝ) < M := by exact_mod_cast hM0
  have hm0 : 0 < m := by omega
  have hend : deck.finaltime = s.t + M * τ := by rw [hτ]; field_simp; ring
  have hlo : ((m - 1 : ℕ) : ℝ) * δ ≤ τ := by
    have := Nat.floor_le (show 0 ≤ τ / δ from div_nonneg (hδ.le.trans hfit) hδ.le)
    rw [hm, Nat.add_sub_cancel]
    exact (le_div_iff₀ hδ).mp this
  have hhi : τ < ((m - 1 : ℕ) : ℝ) * δ + δ := by
    have := Nat.lt_floor_add_one (τ / δ)
    rw [hm, Nat.add_sub_cancel]
    rw [div_lt_iff₀ hδ] at this
    linarith
  -- while it runs
  have key : ∀ k, k < M * m → (sch.run env deck s k).status = .running ∧ (sch.run env deck s k).sol.t = s.t + (k / m : ℕ) * τ + (k % m : ℕ) * δ ∧
      (sch.run env deck s k).sol.n = s.n + k ∧ (sch.run env deck s k).nout = k / m + 1 ∧ printout (sch.run env deck s k).log =
      (List.range (k / m + 1)).map fun q => (q, s.n + q * m, s.t + q * τ, if q = 0 then 0 else τ - (m - 1 : ℕ) * δ) := by
    intro k
    induction k with
    | zero =>
      intro _
      obtain ⟨i1, i2, i3, i4⟩ := h.init
      refine ⟨i1, by rw [i2]; simp, by rw [i2]; rfl, by rw [i3]; simp, ?_⟩
      rw [i4]
      simp [printout]
    | succ k ih =>
      intro hk
      obtain ⟨a1, a2, a3, a4, a5⟩ := ih (by omega)
      have hj : k / m < M := Nat.div_lt_of_lt_mul (by rw [mul_comm]; omega)
      have hi : k % m < m := Nat.mod_lt _ hm0
      have htout := h.tout a1
      have hsub : deck.nout - 1 = M := by omega
      rw [a4, hsub, ← hτ] at htout
      push_cast at htout
      have hjr : ((k / m : ℕ) : ℝ) + 1 ≤ M := by exact_mod_cast hj
      have hi0 : 0 ≤ ((k % m : ℕ) : ℝ) * δ := by positivity
      by_cases hlast : k % m + 1 < m
      · have hq : (k + 1) / m = k / m ∧ (k + 1) % m = k % m + 1 := by
          have := Nat.div_add_mod k m
          rw [← this]
          constructor
          · rw [add_assoc, Nat.mul_add_div hm0, Nat.div_eq_of_lt hlast, this]
            simp
          · rw [add_assoc, Nat.mul_add_mod, Nat.mod_eq_of_lt hlast, this]
        have hb : (((k % m : ℕ) : ℝ) + 1) * δ ≤ τ := by
          have : ((k % m : ℕ) : ℝ) + 1 ≤ ((m - 1 : ℕ) : ℝ) := by exact_mod_cast (by omega : k % m + 1 ≤ m - 1)
          nlinarith
        obtain ⟨b1, b2, b3, b4, b5⟩ := h.plain a1 (by rw [a2, hend]; nlinarith [hδ.le.trans hfit]) (by rw [a2, htout]; nlinarith)
        refine ⟨b1, ?_, by rw [b3, a3]; ring, by rw [b4, a4, hq.1], by rw [b5, a5, hq.1]⟩
        rw [b2, a2, hq.1, hq.2]
        push_cast
        ring
      · have him : k % m = m - 1 := by omega
        have hq : (k + 1) / m = k / m + 1 ∧ (k + 1) % m = 0 ∧ k + 1 = (k / m + 1) * m := by
          have h1 := Nat.div_add_mod k m
          have h2 : k + 1 = (k / m + 1) * m := by
            rw [him] at h1
            have : (k / m + 1) * m = m * (k / m) + m := by ring
            omega
          refine ⟨?_, ?_, h2⟩
          · conv_lhs => rw [h2]
            exact Nat.mul_div_cancel _ hm0
          · conv_lhs => rw [h2]
            exact Nat.mul_mod_left _ _
        have hjM : k / m + 1 < M := by
          rw [hq.2.2] at hk
          exact lt_of_mul_lt_mul_right hk (Nat.zero_le m)
        have hjr : ((k / m : ℕ) : ℝ) + 1 + 1 ≤ M := by exact_mod_cast hjM
        obtain ⟨b1, b2, b3, b4, b5⟩ := h.output a1 (by rw [a2, hend, him]; nlinarith [hδ.le.trans hfit]) (by rw [a2, htout, him]; linarith)
        refine ⟨b1, ?_, by rw [b3, a3]; ring, by rw [b4, a4, hq.1], ?_⟩
        · rw [b2, htout, hq.1, hq.2.1]
          push_cast
          ring
        · rw [b5, hq.1, List.range_succ, List.map_append, ← a5]
          unfold printout
          rw [List.map_append]
          congr 1
          simp only [List.map_cons, List.map_nil, List.cons.injEq, Prod.mk.injEq, and_true]
          refine ⟨a4, ?_, ?_, ?_⟩
          · rw [b3, a3, ← hq.2.2]; ring
          · rw [b2, htout]; push_cast; ring
          · rw [if_neg (Nat.succ_ne_zero _), htout, a2, him]; ring
  have hpred : M * m - 1 < M * m := Nat.sub_lt (Nat.mul_pos hM0 hm0) one_pos
  obtain ⟨a1, a2, a3, a4, a5⟩ := key (M * m - 1) hpred
  have hpos : 0 < M * m := Nat.mul_pos hM0 hm0
  have hq : (M * m - 1) / m = M - 1 ∧ (M * m - 1) % m = m - 1 := by
    have e : M * m - 1 = m * (M - 1) + (m - 1) := by
      obtain ⟨M', rfl⟩ : ∃ M', M = M' + 1 := ⟨M - 1, by omega⟩
      rw [Nat.add_sub_cancel, Nat.add_mul, one_mul, mul_comm]
      omega
    rw [e]
    constructor
    · rw [Nat.mul_add_div hm0, Nat.div_eq_of_lt (by omega)]; rfl
    · rw [Nat.mul_add_mod, Nat.mod_eq_of_lt (by omega)]
  rw [hq.1, hq.2] at a2
  have hM1 : ((M - 1 : ℕ) : ℝ) = M - 1 := by push_cast [Nat.one_le_iff_ne_zero.mpr hM0.ne']; ring
  obtain ⟨b1, b2, b3, b4⟩ := h.last a1 (by rw [a2, hend, hM1]; linarith)
  have hpm : M * m - 1 + 1 = M * m := by omega
  rw [hpm] at b1 b2 b3 b4
  have blog : printout (sch.run env deck s (M * m)).log =
      (List.range (M + 1)).map fun q => (q, s.n + q * m, s.t + q * τ, if q = 0 then 0 else τ - (m - 1 : ℕ) * δ) := by
    rw [b4, List.range_succ, List.map_append]
    rw [hq.1, Nat.sub_add_cancel hM0] at a5
    rw [← a5]
    unfold printout
    rw [List.map_append]
    congr 1
    simp only [List.map_cons, List.map_nil, List.cons.injEq, Prod.mk.injEq, and_true]
    refine ⟨by rw [a4, hq.1]; omega, by rw [b3, a3]; omega, by rw [b2, hend], ?_⟩
    rw [if_neg hM0.ne', a2, hend, hM1]
    ring
  refine ⟨fun hk => ⟨(key k hk).1, (key k hk).2.1, (key k hk).2.2.1⟩, fun hk => ?_, ?_⟩
  · rw [SteadySteps.stays (by rw [b1]; simp) hk]
    exact ⟨b1, b2, by rw [b3, a3]; omega⟩
  · rcases lt_or_ge k (M * m) with hk | hk
    · have : k / m < M := Nat.div_lt_of_lt_mul (by rw [mul_comm]; exact hk)
      rw [(key k hk).2.2.2.2, min_eq_left this.le]
    · have : M ≤ k / m := (Nat.le_div_iff_mul_le hm0).mpr hk
      rw [SteadySteps.stays (by rw [b1]; simp) hk, blog, min_eq_right this]

/-- **C113 (steps that do not fit).** CFL steps longer than the interval `τ`: as long as a CFL step fits before the final time, each iteration is one interval with its output; with the first
that does not, `J` intervals after the start, one step goes to the final time and the run ends. `J + 2` outputs are written, the last one under the number `J + 1`. -/
theorem C113_skips (h : SteadySteps sch env deck s δ) (M J : ℕ) (τ : ℝ) (hM : deck.nout = M + 1) (hτ : τ = (deck.finaltime - s.t) / M)
    (hlong : τ < δ) (hJ : (M - J : ℝ) * τ < δ) (hbefore : ∀ j : ℕ, j < J → δ ≤ (M - j : ℝ) * τ) (k : ℕ) :
    (k ≤ J → (sch.run env deck s k).status = .running ∧ (sch.run env deck s k).sol.t = s.t + k * τ ∧ (sch.run env deck s k).sol.n = s.n + k ∧
      printout (sch.run env deck s k).log = (List.range (k + 1)).map fun q => (q, s.n + q, s.t + q * τ, if q = 0 then 0 else τ)) ∧
    (J < k → (sch.run env deck s k).status = .done ∧ (sch.run env deck s k).sol.t = deck.finaltime ∧ (sch.run env deck s k).sol.n = s.n + J + 1 ∧
      printout (sch.run env deck s k).log = ((List.range (J + 1)).map fun q => (q, s.n + q, s.t + q * τ, if q = 0 then 0 else τ)) ++
        [(J + 1, s.n + J + 1, deck.finaltime, (M - J) * τ)]) := by
  have hM0 : 0 < M := by have := h.outs; omega
  have hMr : (0 : ℝ) < M := by exact_mod_cast hM0
  have hend : deck.finaltime = s.t + M * τ := by rw [hτ]; field_simp; ring
  have hsub : deck.nout - 1 = M := by omega
  have key : ∀ k, k ≤ J → (sch.run env deck s k).status = .running ∧ (sch.run env deck s k).sol.t = s.t + k * τ ∧ (sch.run env deck s k).sol.n = s.n + k ∧
      (sch.run env deck s k).nout = k + 1 ∧
      printout (sch.run env deck s k).log = (List.range (k + 1)).map fun q => (q, s.n + q, s.t + q * τ, if q = 0 then 0 else τ) := by
    intro k
    induction k with
    | zero =>
      intro _
      obtain ⟨i1, i2, i3, i4⟩ := h.init
      refine ⟨i1, by rw [i2]; simp, by rw [i2]; rfl, i3, ?_⟩
      rw [i4]
      simp [printout]
    | succ k ih =>
      intro hk
      obtain ⟨a1, a2, a3, a4, a5⟩ := ih (by omega)
      have htout := h.tout a1
      rw [a4, hsub, ← hτ] at htout
      push_cast at htout
      have hb := hbefore k (by omega)
      obtain ⟨b1, b2, b3, b4, b5⟩ := h.output a1 (by rw [a2, hend]; linarith) (by rw [a2, htout]; linarith)
      refine ⟨b1, by rw [b2, htout]; push_cast; ring, by rw [b3, a3]; ring, by rw [b4, a4], ?_⟩
      rw [b5, List.range_succ, List.map_append, ← a5]
      unfold printout
      rw [List.map_append]
      congr 1
      simp only [List.map_cons, List.map_nil, List.cons.injEq, Prod.mk.injEq, and_true]
      refine ⟨a4, by rw [b3, a3]; ring, by rw [b2, htout]; push_cast; ring, ?_⟩
      rw [if_neg (Nat.succ_ne_zero _), htout, a2]
      ring
  obtain ⟨a1, a2, a3, a4, a5⟩ := key J le_rfl
  obtain ⟨b1, b2, b3, b4⟩ := h.last a1 (by rw [a2, hend]; linarith)
  refine ⟨fun hk => ⟨(key k hk).1, (key k hk).2.1, (key k hk).2.2.1, (key k hk).2.2.2.2⟩, fun hk => ?_⟩
  rw [SteadySteps.stays (k₀ := J + 1) (by rw [b1]; simp) hk]
  refine ⟨b1, b2, by rw [b3, a3], ?_⟩
  rw [b4, ← a5]
  unfold printout
  rw [List.map_append]
  congr 1
  simp only [List.map_cons, List.map_nil, List.cons.injEq, Prod.mk.injEq, and_true]
  exact ⟨a4, by rw [b3, a3], b2, by rw [a2, hend]; ring⟩

/-- **C113 (steps of length zero).** The step printed with an output is at least zero and less than the CFL step; it is zero exactly if the interval is a multiple of the CFL step. -/
theorem C113_rest {τ : ℝ} (hδ : 0 < δ) (hτ : 0 ≤ τ) : let rest := τ - (⌊τ / δ⌋₊ + 1 - 1 : ℕ) * δ
    0 ≤ rest ∧ rest < δ ∧ (rest = 0 ↔ ∃ i : ℕ, τ = i * δ) := by
  intro rest
  have hrest : rest = τ - (⌊τ / δ⌋₊ : ℝ) * δ := by show τ - (⌊τ / δ⌋₊ + 1 - 1 : ℕ) * δ = _; rw [Nat.add_sub_cancel]
  have h1 := (le_div_iff₀ hδ).mp (Nat.floor_le (div_nonneg hτ hδ.le))
  have h2 := (div_lt_iff₀ hδ).mp (Nat.lt_floor_add_one (τ / δ))
  refine ⟨by rw [hrest]; linarith, by rw [hrest]; linarith, fun h => ⟨⌊τ / δ⌋₊, by rw [hrest] at h; linarith⟩, ?_⟩
  rintro ⟨i, hi⟩
  rw [hrest, hi, mul_div_cancel_right₀ _ hδ.ne', Nat.floor_natCast, sub_self]

lemma smartAxpy_nothing (a : Sol ℝ) (c : ℝ) (A : Arr ℝ) : a.smartAxpy c (A.smul 0) = a := by
  unfold Sol.smartAxpy
  split_ifs
  · have : a.u.add ((A.smul 0).smul c) = a.u := by
      unfold Arr.add Arr.smul
      simp
    rw [this]
  · rfl

lemma classic_nothing {tab : Tableau ℝ} {us : Sol ℝ} : ∀ {l : List (ℝ × ℝ)} {k : ℕ} {st st' : StageState ℝ},
    classicStages env tab us 0 k l st = .ok st' → st'.sol = st.sol
  | [], _, _, _, e => by cases e; rfl
  | (c, alpha) :: l, k, st, st', e => by
    unfold classicStages at e
    rcases h1 : classicStage env tab us 0 k c alpha st with err | st1
    · rw [h1] at e; cases e
    rw [h1] at e
    rw [classic_nothing (l := l) e]
    unfold classicStage at h1
    simp only at h1
    split at h1
    · cases h1
    · split at h1
      · cases h1
      · cases h1
        simp only [Function.update_self]
        exact smartAxpy_nothing _ _ _

lemma low_nothing {us : Sol ℝ} : ∀ {l : List (ℝ × ℝ)} {k : ℕ} {st st' : StageState ℝ}, lowStages env us 0 k l st = .ok st' → st'.sol = st.sol
  | [], _, _, _, e => by cases e; rfl
  | (c, alpha) :: l, k, st, st', e => by
    unfold lowStages at e
    rcases h1 : lowStage env us 0 k c alpha st with err | st1
    · rw [h1] at e; cases e
    rw [h1] at e
    rw [low_nothing (l := l) e]
    unfold lowStage at h1
    simp only at h1
    split at h1
    · cases h1
    · split at h1
      · cases h1
      · cases h1
        exact smartAxpy_nothing _ _ _

/-- **C113 (what such a step does).** A step of length zero counts, fills the ghost cells and limits once more, and does nothing else. -/
theorem C113_idle {st : LoopState ℝ} {o dn : Bool} (hr : st.status = .running) (hn : getNextTimeStep st.sol st.tout deck.cfl deck.finaltime = .ok (0, o, dn))
    (hf : ∀ e, (loopBody env deck (sch.inner env) st).status ≠ .failed e) :
    env.limit (Sol.applyBc { st.sol with n := st.sol.n + 1 }) = .ok (loopBody env deck (sch.inner env) st).sol := by
  unfold loopBody at hf ⊢
  rw [hr] at hf ⊢
  simp only at hf ⊢
  rw [hn] at hf ⊢
  simp only at hf ⊢
  rcases hin : sch.inner env (st.us.copyDataOnly st.sol) 0 ⟨st.work, st.sol, st.incr⟩ with e | ss
  · exact absurd (by rw [hin]) (hf e)
  have hss : ss.sol = st.sol := by
    cases sch with
    | low => exact low_nothing hin
    | classic tab => exact classic_nothing hin
  rw [hin] at hf
  simp only at hf ⊢
  rw [hss, add_zero] at hf ⊢
  rcases hl : env.limit (Sol.applyBc { st.sol with n := st.sol.n + 1 }) with e | v
  · exact absurd (by rw [hl]) (hf e)
  · simp only [outputPhase_sol]

/-! ### Decks -/

lemma steady_deck (hlib : lib.Ok) (junk : ℕ → ℝ) (hd : ValidDeck lib ft d p N ic) (hsys : d.system ≠ "euler".toList)
    (hn : 2 ≤ d.nout) (hT : 0 ≤ d.finaltime) (hδ : δ = (ic.B - ic.A) / N * d.cfl / (2 * p + 1)) (hbig : 1 / 10 ^ 14 ≤ δ) :
    ∃ s lm, start lib ft junk d = .ok (s, lm) ∧ s.t = 0 ∧ s.n = 0 ∧ SteadySteps (schemeFor d.rkDeck.rk) ⟨residual, lm.limit⟩ d.rkDeck s δ ∧
      s.Built lib p ∧ s.NE = N ∧ s.NF = 1 ∧ (d.limiting ≠ "adaptive_hr".toList → lm = none) ∧
      ∀ k, Like (integrate ⟨residual, lm.limit⟩ d.rkDeck s k).sol s := by
  obtain ⟨c, s, lm, -, hst, S⟩ := C69_starts hlib junk hd
  have hcfl : ∀ a, Kin a s → cflTimeStep a d.cfl = .ok (.fin δ) := fun a ha => by
    have hb := ha.like.built S.built
    have hden : (1 : ℝ) * (2 * (a.basis.p : ℝ) + 1) ≠ 0 := by positivity
    unfold cflTimeStep
    rw [((ha.physics S.physics).advection hsys).1]
    show (if _ then _ else _) = _
    rw [if_neg hden, ha.like.setup.dx, hb.basis, S.mesh.width, one_mul, hδ]
    rfl
  have hprog : Progress (K := ℝ) ⟨residual, lm.limit⟩ d.cfl (Kin · s) (Kin · s) (fun _ => True) :=
    { kin_invariant S.built S.physics S.limiter with
      limOk := fun a ha => limit_ok S.built S.physics S.limiter S.works ha
      resOk := fun a ha => by
        have hb := ha.like.built S.built
        have hps : a.kw.Pointwise (Advection.spec a.NF) := by
          rw [((ha.physics S.physics).advection hsys).1]
          exact Advection.pointwise a.NF
        obtain ⟨F, hF, -⟩ := (residual_eq hb.wf hps).2 (fun _ _ h => h)
        exact ⟨_, _, hF⟩
      dtOk := fun a ha => ⟨.fin δ, hcfl a ha, by
        unfold sanityCheckDt
        simp only
        rw [if_neg (not_lt.mpr hbig)]⟩ }
  have ht : s.t ≤ d.rkDeck.finaltime := by rw [S.clock.1]; exact hT
  have hN : 2 ≤ d.rkDeck.nout := by show 2 ≤ d.nout.toNat; omega
  have hkin : ∀ k, Kin ((schemeFor d.rkDeck.rk).run ⟨residual, lm.limit⟩ d.rkDeck s k).sol s := fun k =>
    (hprog.toInvariant.sim.run d.rkDeck (schemeFor d.rkDeck.rk) ⟨rfl, Kin.refl s⟩ rfl rfl k).sol.2
  refine ⟨s, lm, hst, S.clock.1, S.clock.2, ⟨limit_clock, ht, hN, hbig, fun k _ => hcfl _ (hkin k), ?_⟩, S.built, S.NE, ?_, ?_, fun k => (hkin k).like⟩
  · exact fun k e => hprog.never_fails (deck := d.rkDeck) limit_clock (schemeFor d.rkDeck.rk) (show Kin s s from Kin.refl s) ht hN k e
  · exact (S.physics.advection hsys).2
  · intro hlim
    have h := S.limiter
    unfold Limiter.init at h
    rw [if_neg (by
      intro h'
      exact hlim (by rw [← h', String.toList_ofList]))] at h
    exact (Except.ok.inj h).symm

/-- **C113 (decks).** A run of a valid advection deck with `M + 1` outputs, CFL step `δ` and output interval `τ`, with or without limiter and enhancement, any scheme. If `δ ≤ τ` it ends after
exactly `M (⌊τ/δ⌋ + 1)` iterations, and output `q` is written at step `q (⌊τ/δ⌋ + 1)` and time `q τ`. If `δ > τ` it ends after `J + 1` iterations with `J + 2` outputs, `J` the
number of intervals after which no CFL step fits before the end. -/
theorem C113_deck (hlib : lib.Ok) (junk : ℕ → ℝ) (hd : ValidDeck lib ft d p N ic) (hsys : d.system ≠ "euler".toList) {M : ℕ} (hM : 1 ≤ M)
    (hn : d.nout = M + 1) (hT : 0 ≤ d.finaltime) (hδ : δ = (ic.B - ic.A) / N * d.cfl / (2 * p + 1)) (hbig : 1 / 10 ^ 14 ≤ δ)
    {τ : ℝ} (hτ : τ = d.finaltime / M) :
    ∃ s lm, start lib ft junk d = .ok (s, lm) ∧
      (∀ m : ℕ, m = ⌊τ / δ⌋₊ + 1 → δ ≤ τ → ∀ k, ((integrate ⟨residual, lm.limit⟩ d.rkDeck s k).status = .done ↔ M * m ≤ k) ∧
        printout (integrate ⟨residual, lm.limit⟩ d.rkDeck s k).log =
          (List.range (min (k / m) M + 1)).map fun q => (q, q * m, q * τ, if q = 0 then 0 else τ - (m - 1 : ℕ) * δ)) ∧
      (∀ J : ℕ, τ < δ → (M - J : ℝ) * τ < δ → (∀ j : ℕ, j < J → δ ≤ (M - j : ℝ) * τ) → ∀ k, J < k →
        (integrate ⟨residual, lm.limit⟩ d.rkDeck s k).status = .done ∧
        printout (integrate ⟨residual, lm.limit⟩ d.rkDeck s k).log = ((List.range (J + 1)).map fun q : ℕ => (q, q, q * τ, if q = 0 then 0 else τ)) ++
          [(J + 1, J + 1, d.finaltime, (M - J) * τ)]) := by
  obtain ⟨s, lm, hst, h0, h1, h, -⟩ := steady_deck hlib junk hd hsys (by omega) hT hδ hbig
  have hnout : d.rkDeck.nout = M + 1 := by show d.nout.toNat = _; omega
  have hτ' : τ = (d.rkDeck.finaltime - s.t) / M := by rw [h0, sub_zero]; exact hτ
  refine ⟨s, lm, hst, fun m hm hfit k => ?_, fun J hlong hJ hbef k hk => ?_⟩
  · obtain ⟨g1, g2, g3⟩ := C113_counts h M m τ hnout hτ' hfit hm k
    refine ⟨⟨fun hs => ?_, fun hk => (g2 hk).1⟩, ?_⟩
    · by_contra hc
      have := (g1 (not_le.mp hc)).1
      rw [show (integrate ⟨residual, lm.limit⟩ d.rkDeck s k).status = _ from this] at hs
      cases hs
    · refine g3.trans ?_
      simp only [h0, h1, zero_add]
  · obtain ⟨g1, g2, -, g3⟩ := (C113_skips h M J τ hnout hτ' hlong hJ hbef k).2 hk
    refine ⟨g1, g3.trans ?_⟩
    simp only [h0, h1, zero_add]
    rfl

/-- **C113 (wasted steps).** If the output interval is a multiple `i δ` of the CFL step, a deck without limiter computes every output `q ≥ 1` twice: the iteration before the output already
has its time and its coefficients, and `M` of the `M (i + 1)` iterations change nothing. -/
theorem C113_wasted (hlib : lib.Ok) (junk : ℕ → ℝ) (hd : ValidDeck lib ft d p N ic) (hsys : d.system ≠ "euler".toList) (hlim : d.limiting ≠ "adaptive_hr".toList)
    {M i : ℕ} (hM : 1 ≤ M) (hi : 1 ≤ i) (hn : d.nout = M + 1) (hT : 0 ≤ d.finaltime) (hδ : δ = (ic.B - ic.A) / N * d.cfl / (2 * p + 1)) (hbig : 1 / 10 ^ 14 ≤ δ)
    (hτ : d.finaltime / M = i * δ) :
    ∃ s lm, start lib ft junk d = .ok (s, lm) ∧ ∀ q, 1 ≤ q → q ≤ M →
      let a := (integrate ⟨residual, lm.limit⟩ d.rkDeck s (q * (i + 1) - 1)).sol
      let b := (integrate ⟨residual, lm.limit⟩ d.rkDeck s (q * (i + 1))).sol
      b.n = a.n + 1 ∧ b.t = a.t ∧ b.t = q * (d.finaltime / M) ∧ ∀ e, 1 ≤ e → e ≤ N → ∀ r, b.u.val r e = a.u.val r e := by
  obtain ⟨s, lm, hst, h0, h1, h, hb, hNE, hNF, hnone, hlike⟩ := steady_deck hlib junk hd hsys (by omega) hT hδ hbig
  obtain rfl := hnone hlim
  have hnout : d.rkDeck.nout = M + 1 := by show d.nout.toNat = _; omega
  have hδ0 : 0 < δ := lt_of_lt_of_le (by norm_num) hbig
  set τ := d.finaltime / M with hτd
  have hτ' : τ = (d.rkDeck.finaltime - s.t) / M := by rw [h0, sub_zero]; rfl
  have hm : i + 1 = ⌊τ / δ⌋₊ + 1 := by rw [hτ, mul_div_cancel_right₀ _ hδ0.ne', Nat.floor_natCast]
  have hi1 : (1 : ℝ) ≤ i := by exact_mod_cast hi
  have hfit : δ ≤ τ := by rw [hτ]; nlinarith
  have hM0 : (0 : ℝ) < M := by exact_mod_cast hM
  have hend : d.finaltime = M * τ := by rw [hτd]; field_simp
  have hcount := C113_counts h M (i + 1) τ hnout hτ' hfit hm
  refine ⟨s, none, hst, fun q hq1 hq2 => ?_⟩
  have hpos : 0 < q * (i + 1) := by positivity
  have hlt : q * (i + 1) - 1 < M * (i + 1) := lt_of_lt_of_le (Nat.sub_lt hpos one_pos) (Nat.mul_le_mul_right _ hq2)
  obtain ⟨a1, a2, a3⟩ := (hcount (q * (i + 1) - 1)).1 hlt
  have hdm : (q * (i + 1) - 1) / (i + 1) = q - 1 ∧ (q * (i + 1) - 1) % (i + 1) = i := by
    have e : q * (i + 1) - 1 = (i + 1) * (q - 1) + i := by
      obtain ⟨q', rfl⟩ : ∃ q', q = q' + 1 := ⟨q - 1, by omega⟩
      rw [Nat.add_sub_cancel, Nat.add_mul, one_mul, mul_comm]
      omega
    rw [e]
    constructor
    · rw [Nat.mul_add_div (by omega), Nat.div_eq_of_lt (by omega)]; rfl
    · rw [Nat.mul_add_mod, Nat.mod_eq_of_lt (by omega)]
  rw [hdm.1, hdm.2, h0, zero_add, ← hτ] at a2
  have hq1r : ((q - 1 : ℕ) : ℝ) = q - 1 := by push_cast [hq1]; ring
  have at_ : ((schemeFor d.rkDeck.rk).run ⟨residual, Limiter.limit none⟩ d.rkDeck s (q * (i + 1) - 1)).sol.t = q * τ := by rw [a2, hq1r]; ring
  -- the step that follows has length zero
  have hnext := h.next a1
  set st := (schemeFor d.rkDeck.rk).run ⟨residual, Limiter.limit none⟩ d.rkDeck s (q * (i + 1) - 1) with hstd
  have hout : st.nout = q := by
    have hlog := (hcount (q * (i + 1) - 1)).2.2
    have hlen := (numInv_run h.clock (schemeFor d.rkDeck.rk) d.rkDeck s (q * (i + 1) - 1)).run a1
    have := congrArg List.length hlog
    rw [hdm.1] at this
    simp only [printout, List.length_map, List.length_range] at this
    rw [← hlen, this, min_eq_left (by omega)]
    omega
  have htout : st.tout = q * τ := by
    have := h.tout a1
    rw [← hstd, hout, hnout, Nat.add_sub_cancel, ← hτ', h0, zero_add] at this
    exact this
  obtain ⟨o, dn, hz⟩ : ∃ o dn, adjustForOutput δ st.sol.t d.rkDeck.finaltime st.tout = (0, o, dn) := by
    unfold adjustForOutput
    split_ifs with g1 g2
    · refine ⟨true, true, ?_⟩
      rw [at_] at g1 ⊢
      have hfin : d.rkDeck.finaltime = M * τ := hend
      rw [hfin] at g1 ⊢
      have : q = M := by
        by_contra hc
        have : ((q : ℝ)) + 1 ≤ M := by exact_mod_cast (by omega : q + 1 ≤ M)
        nlinarith
      rw [this, sub_self]
    · exact ⟨true, false, by rw [htout, at_, sub_self]⟩
    · rw [htout, at_, sub_self] at g2
      exact absurd hδ0 g2
  rw [hz] at hnext
  have hE : (schemeFor d.rkDeck.rk).run ⟨residual, Limiter.limit none⟩ d.rkDeck s (q * (i + 1)) =
      loopBody ⟨residual, Limiter.limit none⟩ d.rkDeck ((schemeFor d.rkDeck.rk).inner ⟨residual, Limiter.limit none⟩) st := by
    conv_lhs => rw [show q * (i + 1) = q * (i + 1) - 1 + 1 by omega]
    rw [hstd]
    unfold Scheme.run
    rw [runLoop_succ]
  have hidle := C113_idle (env := ⟨residual, Limiter.limit none⟩) (sch := schemeFor d.rkDeck.rk) a1 hnext (fun e => by rw [← hE]; exact h.fine _ e)
  rw [← hE] at hidle
  have hsol : ((schemeFor d.rkDeck.rk).run ⟨residual, Limiter.limit none⟩ d.rkDeck s (q * (i + 1))).sol = Sol.applyBc { st.sol with n := st.sol.n + 1 } :=
    (Except.ok.inj hidle).symm
  intro a b
  have ha : a = st.sol := rfl
  have hbb : b = Sol.applyBc { st.sol with n := st.sol.n + 1 } := hsol
  have hl : Like st.sol s := hlike (q * (i + 1) - 1)
  have hB := hl.built hb
  refine ⟨by rw [hbb, applyBc_n]; rfl, by rw [hbb, applyBc_t]; rfl, by rw [hbb, applyBc_t]; exact at_, fun e he1 he2 r => ?_⟩
  have hNF1 : st.sol.NF = 1 := by rw [hl.setup.NF]; exact hNF
  have hcol := bcCol_interior ({ st.sol with n := st.sol.n + 1 } : Sol ℝ) he1 (show e ≤ st.sol.NE by rw [hl.setup.NE, hNE]; exact he2) (f := 0) hB.NF
  rw [show ({ st.sol with n := st.sol.n + 1 } : Sol ℝ).NF = 1 from hNF1, mul_one, add_zero] at hcol
  rw [hbb, applyBc_eq ({ st.sol with n := st.sol.n + 1 } : Sol ℝ) hB.NF hB.NE hB.cols]
  show st.sol.u.val r (Sol.bcCol { st.sol with n := st.sol.n + 1 } e) = a.u.val r e
  rw [hcol, ha]

/-! ### Cases -/

/-- `C113_deck`, `C113_counts`: the sine wave to time 1 with 10 outputs: 27 iterations, output 1 at step 3 and time 1/9 with a last step of 1/36. -/
example : ∃ s lm, start realGauss Ex.decReal (fun _ => 0) Ex.sineDeck = .ok (s, lm) ∧
    ∀ k, ((integrate ⟨residual, lm.limit⟩ Ex.sineDeck.rkDeck s k).status = .done ↔ 27 ≤ k) ∧
      printout (integrate ⟨residual, lm.limit⟩ Ex.sineDeck.rkDeck s 5).log = [(0, 0, 0, 0), (1, 3, 1 / 9, 1 / 36)] := by
  obtain ⟨s, lm, hst, h, -⟩ := C113_deck (M := 9) (δ := 1 / 24) (τ := 1 / 9) realGauss_ok (fun _ => 0) Ex.sine_valid
    (show "advection".toList ≠ "euler".toList by decide) (by norm_num) (show (10 : ℤ) = (9 : ℕ) + 1 by norm_num) (show (0 : ℝ) ≤ 1 by norm_num)
    (show (1 / 24 : ℝ) = ((1 : ℝ) - -1) / (8 : ℕ) * (1 / 2) / (2 * (1 : ℕ) + 1) by norm_num) (by norm_num) (show (1 / 9 : ℝ) = 1 / (9 : ℕ) by norm_num)
  have hm : 3 = ⌊(1 / 9 : ℝ) / (1 / 24)⌋₊ + 1 := by
    have : ⌊(1 / 9 : ℝ) / (1 / 24)⌋₊ = 2 := by
      rw [Nat.floor_eq_iff (by norm_num)]
      norm_num
    rw [this]
  have h := h 3 hm (by norm_num)
  refine ⟨s, lm, hst, fun k => ⟨(h k).1, (h 5).2.trans ?_⟩⟩
  simp [List.range_succ]
  norm_num

/-- `C113_wasted`: to time 3/4 the output interval 1/12 is two CFL steps; the third iteration has length zero. -/
example : ∃ s lm, start realGauss Ex.decReal (fun _ => 0) { Ex.sineDeck with finaltime := 3 / 4 } = .ok (s, lm) ∧
    ∀ e, 1 ≤ e → e ≤ 8 → ∀ r, (integrate ⟨residual, lm.limit⟩ ({ Ex.sineDeck with finaltime := 3 / 4 } : Deck ℝ).rkDeck s 3).sol.u.val r e =
      (integrate ⟨residual, lm.limit⟩ ({ Ex.sineDeck with finaltime := 3 / 4 } : Deck ℝ).rkDeck s 2).sol.u.val r e := by
  have hd : ValidDeck realGauss Ex.decReal ({ Ex.sineDeck with finaltime := 3 / 4 } : Deck ℝ) 1 8 IC.sinewave :=
    ⟨Ex.sine_valid.order, Ex.sine_valid.cells, Ex.sine_valid.line, Ex.sine_valid.enhance, Ex.sine_valid.limiter⟩
  obtain ⟨s, lm, hst, h⟩ := C113_wasted (M := 9) (i := 2) (δ := 1 / 24) realGauss_ok (fun _ => 0) hd
    (show "advection".toList ≠ "euler".toList by decide) (show ([] : Str) ≠ "adaptive_hr".toList by decide) (by norm_num) (by norm_num)
    (show (10 : ℤ) = (9 : ℕ) + 1 by norm_num) (show (0 : ℝ) ≤ 3 / 4 by norm_num)
    (show (1 / 24 : ℝ) = ((1 : ℝ) - -1) / (8 : ℕ) * (1 / 2) / (2 * (1 : ℕ) + 1) by norm_num) (by norm_num)
    (show (3 / 4 : ℝ) / (9 : ℕ) = (2 : ℕ) * (1 / 24) by norm_num)
  exact ⟨s, lm, hst, (h 1 le_rfl (by norm_num)).2.2.2⟩

/-- `C113_skips`: to time 1/10 the CFL step 1/24 is longer than the interval 1/90: 8 outputs instead of 10 are written, number 7 with the final time. -/
example : ∃ s lm, start realGauss Ex.decReal (fun _ => 0) { Ex.sineDeck with finaltime := 1 / 10 } = .ok (s, lm) ∧
    (integrate ⟨residual, lm.limit⟩ ({ Ex.sineDeck with finaltime := 1 / 10 } : Deck ℝ).rkDeck s 7).status = .done ∧
    (printout (integrate ⟨residual, lm.limit⟩ ({ Ex.sineDeck with finaltime := 1 / 10 } : Deck ℝ).rkDeck s 7).log).getLast? = some (7, 7, 1 / 10, 1 / 30) := by
  have hd : ValidDeck realGauss Ex.decReal ({ Ex.sineDeck with finaltime := 1 / 10 } : Deck ℝ) 1 8 IC.sinewave :=
    ⟨Ex.sine_valid.order, Ex.sine_valid.cells, Ex.sine_valid.line, Ex.sine_valid.enhance, Ex.sine_valid.limiter⟩
  obtain ⟨s, lm, hst, -, h⟩ := C113_deck (M := 9) (δ := 1 / 24) (τ := 1 / 90) realGauss_ok (fun _ => 0) hd
    (show "advection".toList ≠ "euler".toList by decide) (by norm_num) (show (10 : ℤ) = (9 : ℕ) + 1 by norm_num) (show (0 : ℝ) ≤ 1 / 10 by norm_num)
    (show (1 / 24 : ℝ) = ((1 : ℝ) - -1) / (8 : ℕ) * (1 / 2) / (2 * (1 : ℕ) + 1) by norm_num) (by norm_num) (show (1 / 90 : ℝ) = 1 / 10 / (9 : ℕ) by norm_num)
  obtain ⟨h1, h2⟩ := h 6 (by norm_num) (by norm_num) (fun j hj => by
    have : (j : ℝ) ≤ 5 := by exact_mod_cast (by omega : j ≤ 5)
    push_cast
    linarith) 7 (by norm_num)
  refine ⟨s, lm, hst, h1, ?_⟩
  rw [h2, List.getLast?_append]
  simp
  norm_num

/-- `C113_rest`: 1/9 is no multiple of 1/24, 1/12 is. -/
example : (1 / 12 : ℝ) - (⌊(1 / 12 : ℝ) / (1 / 24)⌋₊ + 1 - 1 : ℕ) * (1 / 24) = 0 :=
  (C113_rest (δ := 1 / 24) (τ := 1 / 12) (by norm_num) (by norm_num)).2.2.mpr ⟨2, by norm_num⟩

end Dg1d.Props
