import Verif.Proofs.FloatTimes
import Verif.Props.Examples
import Verif.Model.RkCoeffs

/-!
# C81–C83: the clock with rounding

`FloatClock.run rnd tf nout t n cfl k` is the state of the clock after `k` iterations of the main loop when every operation
on times is rounded by `rnd` and iteration `j` finds the CFL step `cfl j` (any sequence, including infinities and NaN).
-/

set_option linter.unusedSectionVars false

namespace Dg1d.Props

open FloatClock Spec

section anyRounding
variable {K : Type*} [Field K] [LinearOrder K] [IsStrictOrderedRing K]

/-- **C81** (the clock is the clock of the program) As long as a run has not failed, its times, counters, output times and the
arguments of its `printer` calls are those of the clock without rounding, fed with the CFL steps of the run. -/
theorem C81_refines (sch : Scheme K) (env : Env K) (hlim : ∀ s s', env.limit s = .ok s' → s'.t = s.t ∧ s'.n = s.n)
    (deck : RkDeck K) (sol : Sol K) (cfl : ℕ → Fl K)
    (hcfl : ∀ j x, cflTimeStep (sch.run env deck sol j).sol deck.cfl = .ok x → cfl j = x) (k : ℕ)
    (hk : ∀ e, (sch.run env deck sol k).status ≠ .failed e) :
    FloatClock.run id deck.finaltime deck.nout sol.t sol.n cfl k =
      ⟨(sch.run env deck sol k).sol.t, (sch.run env deck sol k).sol.n, (sch.run env deck sol k).nout,
        (sch.run env deck sol k).tout, (sch.run env deck sol k).touts, (sch.run env deck sol k).status,
        (sch.run env deck sol k).log.map fun o => (o.nout, o.dt, o.sol.t)⟩ := by
  show _ = view (sch.run env deck sol k)
  induction k with
  | zero => exact (view_init deck sol).symm
  | succ k ih =>
    have hE : sch.run env deck sol (k + 1) = loopBody env deck (sch.inner env) (sch.run env deck sol k) := by
      unfold Scheme.run; rw [runLoop_succ]
    have hk' : ∀ e, (sch.run env deck sol k).status ≠ .failed e := by
      intro e he
      rw [hE, loopBody_stopped (by rw [he]; simp)] at hk
      exact hk e he
    show body id deck.finaltime (cfl k) _ = _
    rw [ih hk', hE]
    rw [hE] at hk
    rw [view_body hlim (Scheme.inner_keepsClock env sch) _ hk]
    by_cases hr : (sch.run env deck sol k).status = .running
    swap
    · rw [body_stopped (st := view _) hr, body_stopped (st := view _) hr]
    congr 1
    unfold cflOf
    rcases hc : cflTimeStep (sch.run env deck sol k).sol deck.cfl with e | x
    · exfalso
      apply hk e
      unfold loopBody getNextTimeStep
      rw [hr, hc]
    · exact hcfl k x hc

/-- Non-vacuity of C81: the run of the C01 example (six iterations, CFL step 1/20, three outputs) seen by the clock. -/
example : (FloatClock.run id (1 / 4 : ℚ) 3 0 0 (fun _ => .fin (1 / 20)) 6).status = .done ∧
    (FloatClock.run id (1 / 4 : ℚ) 3 0 0 (fun _ => .fin (1 / 20)) 6).log.map (fun o => (o.1, o.2.2)) =
      (Scheme.run (.classic rk4) Ex.env Ex.deck Ex.sol2 6).log.map (fun r => (r.nout, r.sol.t)) ∧
    (Scheme.run (.classic rk4) Ex.env Ex.deck Ex.sol2 6).status = .done := by
  decide +kernel

/-- **C81** Whatever rounding does, at every moment of every run asked for at least two outputs: the sets are numbered 0, 1, 2, …
starting from the initial solution, there are at most `nout` of them, later iterations only append, the counter counts the
iterations, a finished run has written its last state, and the only way to fail is a CFL step that is NaN, `-inf` or below the
threshold: the iterator of output times never runs dry. -/
theorem C81_outputs (rnd : K → K) (tf t : K) (nout n : ℕ) (hN : 2 ≤ nout) (cfl : ℕ → Fl K) (k : ℕ) :
    (FloatClock.run rnd tf nout t n cfl k).log.map (fun o => o.1) =
      List.range (FloatClock.run rnd tf nout t n cfl k).log.length ∧
    (∃ l, (FloatClock.run rnd tf nout t n cfl k).log = (0, 0, t) :: l) ∧
    (FloatClock.run rnd tf nout t n cfl k).log.length ≤ nout ∧
    (FloatClock.run rnd tf nout t n cfl k).log <+: (FloatClock.run rnd tf nout t n cfl (k + 1)).log ∧
    ((FloatClock.run rnd tf nout t n cfl k).status = .running → (FloatClock.run rnd tf nout t n cfl k).n = n + k) ∧
    ((FloatClock.run rnd tf nout t n cfl k).status = .done →
      ∃ o, (FloatClock.run rnd tf nout t n cfl k).log.getLast? = some o ∧
        o.2.2 = (FloatClock.run rnd tf nout t n cfl k).t) ∧
    (∀ e, (FloatClock.run rnd tf nout t n cfl k).status = .running →
      (FloatClock.run rnd tf nout t n cfl (k + 1)).status = .failed e →
      e ≠ .stopIteration ∧ (cfl k = .nan ∨ cfl k = .ninf ∨ ∃ x, cfl k = .fin x ∧ x < rnd (1 / 10 ^ 14))) := by
  have h := outInv_run rnd tf t n cfl hN k
  refine ⟨h.nums, h.head, h.len, (h.step hN).2, ?_, h.last, ?_⟩
  · clear h
    induction k with
    | zero =>
      intro _
      rw [show FloatClock.run rnd tf nout t n cfl 0 = init rnd tf nout t n from rfl, init_eq _ _ _ _ _ hN]; rfl
    | succ k ih =>
      intro hr
      have hr0 := running_prev hr
      have ih := ih hr0
      have hE : FloatClock.run rnd tf nout t n cfl (k + 1) = body rnd tf (cfl k) (FloatClock.run rnd tf nout t n cfl k) := rfl
      rw [hE] at hr ⊢
      rcases body_cases (rnd := rnd) (tf := tf) (cfl := cfl k) hr0 with
        ⟨e, he, -, -⟩ | ⟨hc, he⟩ | ⟨x, hx, h0, h1, h2, he⟩ | ⟨x, hx, h0, h1, h2, he⟩
      · rw [he] at hr; simp at hr
      · rw [he] at hr; simp at hr
      · rw [he, ((outInv_run rnd tf t n cfl hN k).output hN hr0 h1 h2 _ _ _).2]
        simp only; omega
      · rw [he]; simp only; omega
  · intro e hr0 hf
    have hE : FloatClock.run rnd tf nout t n cfl (k + 1) = body rnd tf (cfl k) (FloatClock.run rnd tf nout t n cfl k) := rfl
    rw [hE] at hf
    rcases body_cases (rnd := rnd) (tf := tf) (cfl := cfl k) hr0 with
      ⟨e', he, hne, hc⟩ | ⟨hc, he⟩ | ⟨x, hx, h0, h1, h2, he⟩ | ⟨x, hx, h0, h1, h2, he⟩
    · rw [he] at hf
      cases hf
      exact ⟨hne, hc⟩
    · rw [he] at hf; simp at hf
    · rw [he, (h.output hN hr0 h1 h2 _ _ _).2] at hf
      simp at hf
    · rw [he] at hf; simp [hr0] at hf

/-- **C81** (fewer than two outputs asked for) The run fails at once with `StopIteration`, whatever rounding does. -/
theorem C81_one_output (rnd : K → K) (tf t : K) (nout n : ℕ) (hN : nout ≤ 1) (cfl : ℕ → Fl K) (k : ℕ) :
    (FloatClock.run rnd tf nout t n cfl k).status = .failed .stopIteration ∧
    (FloatClock.run rnd tf nout t n cfl k).log = [(0, 0, t)] :=
  run_one rnd tf t n cfl hN k

/-- Non-vacuity of C81: a crude rounding (to quarters, downwards) with four outputs up to time 1. -/
example : (FloatClock.run (fun x : ℚ => ⌊4 * x⌋ / 4) 1 4 0 0 (fun _ => .fin (1 / 2)) 5).log.map (fun o => (o.1, o.2.2)) =
    [(0, 0), (1, 1 / 4), (2, 1 / 2), (3, 1)] ∧
    (FloatClock.run (fun x : ℚ => ⌊4 * x⌋ / 4) 1 4 0 0 (fun _ => .fin (1 / 2)) 5).status = .done := by
  decide +kernel

end anyRounding

/-- **C82** In double precision the final time is hit exactly if every CFL step is at most half of it. -/
theorem C82_final_time (rnd : ℝ → ℝ) (h : RoundsToNearest rnd) (tf t : ℝ) (ht : Binary64 t) (htf : Binary64 tf) (h0 : 0 ≤ t)
    (h1 : t ≤ tf) (nout n : ℕ) (hN : 2 ≤ nout) (cfl : ℕ → Fl ℝ)
    (hc : ∀ j, ∃ x, cfl j = .fin x ∧ Binary64 x ∧ 2 * x ≤ tf) (k : ℕ)
    (hd : (FloatClock.run rnd tf nout t n cfl k).status = .done) : (FloatClock.run rnd tf nout t n cfl k).t = tf := by
  obtain ⟨j, -, hr, hx, he⟩ := done_step hN hd
  obtain ⟨x, hxj, hxb, hx2⟩ := hc j
  have hlt : rnd (tf - (FloatClock.run rnd tf nout t n cfl j).t) < x := by
    rcases hx with hx | ⟨y, hy, -, hy2⟩
    · rw [hxj] at hx; cases hx
    · rw [hxj] at hy; cases hy; exact hy2
  have hgt := h.lt_of_lt hxb hlt
  have hle := run_le_two h htf h0 h1 hN n cfl (fun j x hj => by
    obtain ⟨y, hy, -, hy2⟩ := hc j
    rw [hj] at hy; cases hy; exact hy2) j hr
  rw [he]
  exact land h (run_b64 h ht n cfl j) htf (Or.inr ⟨by linarith, hle⟩)

/-- **C82** Whatever the CFL steps: up to a final time `2^p` the time is a double precision number, stays in `[0, tf + 2^(p-52)]`
while the run goes on and ends within `2^(p-52)` of the final time. -/
theorem C82_final_time_near (rnd : ℝ → ℝ) (h : RoundsToNearest rnd) (tf t : ℝ) (ht : Binary64 t) (h0 : 0 ≤ t) (h1 : t ≤ tf)
    (p : ℤ) (hp : -1021 ≤ p) (h2 : tf ≤ 2 ^ p) (nout n : ℕ) (hN : 2 ≤ nout) (cfl : ℕ → Fl ℝ) (k : ℕ) :
    Binary64 (FloatClock.run rnd tf nout t n cfl k).t ∧
    ((FloatClock.run rnd tf nout t n cfl k).status = .running →
      0 ≤ (FloatClock.run rnd tf nout t n cfl k).t ∧ (FloatClock.run rnd tf nout t n cfl k).t ≤ tf + 2 ^ (p - 52)) ∧
    ((FloatClock.run rnd tf nout t n cfl k).status = .done →
      |(FloatClock.run rnd tf nout t n cfl k).t - tf| ≤ 2 ^ (p - 52)) :=
  ⟨run_b64 h ht n cfl k, run_range h ht h0 h1 hN p hp h2 n cfl k, done_close h ht h0 h1 hN p hp h2 n cfl k⟩

/-- **C82** (exact in general? no) With IEEE rounding a first CFL step of `1/4 + 2^-53` and a second step of 2 take a run with final
time `5/4 + 3·2^-52` to `5/4 + 2·2^-52`: it ends with the last digit of the time wrong. -/
theorem C82_final_time_missed (rnd : ℝ → ℝ) (h : RoundsToNearest rnd) (he : TiesToEven rnd) :
    let tf : ℝ := 5 / 4 + 3 * 2 ^ (-52 : ℤ)
    let cfl : ℕ → Fl ℝ := fun j => if j = 0 then .fin (1 / 4 + 2 ^ (-53 : ℤ)) else .fin 2
    Binary64 tf ∧ (∀ j, ∃ x, cfl j = .fin x ∧ Binary64 x) ∧
    (FloatClock.run rnd tf 2 0 0 cfl 2).status = .done ∧
    (FloatClock.run rnd tf 2 0 0 cfl 2).t = 5 / 4 + 2 * 2 ^ (-52 : ℤ) ∧ (FloatClock.run rnd tf 2 0 0 cfl 2).t ≠ tf := by
  intro tf cfl
  have hbtf : Binary64 tf := ⟨5 * 2 ^ 50 + 3, -52, by norm_num, by norm_num, by norm_num [tf]⟩
  have hbx : Binary64 (1 / 4 + 2 ^ (-53 : ℤ)) := ⟨2 ^ 51 + 1, -53, by norm_num, by norm_num, by norm_num⟩
  have hb2 : Binary64 2 := ⟨2, 0, by norm_num, by norm_num, by norm_num⟩
  have hbq : Binary64 (1 / 4) := ⟨1, -2, by norm_num, by norm_num, by norm_num⟩
  have htiny : rnd (1 / 10 ^ 14) ≤ 1 / 4 := h.le_of_le hbq (by norm_num)
  -- the first iteration
  have e0 : FloatClock.run rnd tf 2 0 0 cfl 0 =
      ⟨0, 0, 1, tf, (times rnd 0 tf 2).drop 1, .running, [(0, 0, 0)]⟩ := by
    rw [show FloatClock.run rnd tf 2 0 0 cfl 0 = init rnd tf 2 0 0 from rfl, init_eq _ _ _ _ _ le_rfl,
      linspace_last rnd 0 tf (le_refl 2)]
  have e1 : FloatClock.run rnd tf 2 0 0 cfl 1 =
      ⟨1 / 4 + 2 ^ (-53 : ℤ), 1, 1, tf, (times rnd 0 tf 2).drop 1, .running, [(0, 0, 0)]⟩ := by
    have hle : (1 / 4 + 2 ^ (-53 : ℤ) : ℝ) ≤ tf := by norm_num [tf]
    show body rnd tf (cfl 0) (FloatClock.run rnd tf 2 0 0 cfl 0) = _
    rw [e0]
    simp only [cfl, if_true, body, FloatClock.sanityCheckDt, FloatClock.adjustForOutput, sub_zero, h.self hbtf, gt_iff_lt]
    rw [if_neg (by push Not; refine htiny.trans ?_; norm_num)]
    simp only [if_neg (not_lt.2 hle), output, zero_add, h.self hbx]
    simp
  have r1 : rnd (tf - (1 / 4 + 2 ^ (-53 : ℤ))) = 1 + 2 * 2 ^ (-52 : ℤ) := by
    have := h.tie_down he (a := 2 ^ 52 + 2) (f := -52) (by norm_num) (by norm_num) ⟨2 ^ 51 + 1, by norm_num⟩ (by norm_num)
    rw [show tf - (1 / 4 + 2 ^ (-53 : ℤ)) = (((2 ^ 52 + 2 : ℤ) : ℝ) + 1 / 2) * 2 ^ (-52 : ℤ) by norm_num [tf], this]
    norm_num
  have r2 : rnd (1 / 4 + 2 ^ (-53 : ℤ) + (1 + 2 * 2 ^ (-52 : ℤ))) = 5 / 4 + 2 * 2 ^ (-52 : ℤ) := by
    have := h.tie_down he (a := 5 * 2 ^ 50 + 2) (f := -52) (by norm_num) (by norm_num) ⟨5 * 2 ^ 49 + 1, by norm_num⟩ (by norm_num)
    rw [show (1 / 4 + 2 ^ (-53 : ℤ) + (1 + 2 * 2 ^ (-52 : ℤ)) : ℝ) =
      (((5 * 2 ^ 50 + 2 : ℤ) : ℝ) + 1 / 2) * 2 ^ (-52 : ℤ) by norm_num, this]
    norm_num
  have e2 : (FloatClock.run rnd tf 2 0 0 cfl 2).status = .done ∧
      (FloatClock.run rnd tf 2 0 0 cfl 2).t = 5 / 4 + 2 * 2 ^ (-52 : ℤ) := by
    have hE : FloatClock.run rnd tf 2 0 0 cfl 2 = body rnd tf (cfl 1) (FloatClock.run rnd tf 2 0 0 cfl 1) := rfl
    rw [hE, e1]
    simp only [cfl, one_ne_zero, if_false, body, FloatClock.sanityCheckDt, FloatClock.adjustForOutput, r1, gt_iff_lt]
    rw [if_neg (by push Not; refine htiny.trans ?_; norm_num)]
    rw [if_pos (by norm_num)]
    simp only [output, if_true, r2]
    simp
  refine ⟨hbtf, fun j => ?_, e2.1, e2.2, ?_⟩
  · by_cases hj : j = 0
    · exact ⟨_, by simp only [cfl, if_pos hj], hbx⟩
    · exact ⟨_, by simp only [cfl, if_neg hj], hb2⟩
  · rw [e2.2]; norm_num [tf]

/-- Non-vacuity of C82: IEEE rounding exists. -/
example : ∃ rnd, RoundsToNearest rnd ∧ TiesToEven rnd := exists_ieee

/-- **C82** If the CFL steps are at most half the first output time and leave room between the last two output times, every set is
written exactly at its time on the (rounded) output grid, none is skipped, the time never decreases and never passes the next
output time. -/
theorem C82_output_times (rnd : ℝ → ℝ) (h : RoundsToNearest rnd) (tf t : ℝ) (ht : Binary64 t) (htf : Binary64 tf) (h0 : 0 ≤ t)
    (h1 : t ≤ tf) (nout n : ℕ) (hN : 2 ≤ nout) (cfl : ℕ → Fl ℝ)
    (hc : ∀ j, ∃ x, cfl j = .fin x ∧ Binary64 x ∧ 2 * x ≤ FloatClock.linspace rnd t tf nout 1 ∧
      FloatClock.linspace rnd t tf nout (nout - 2) + x ≤ tf) (k : ℕ) :
    (FloatClock.run rnd tf nout t n cfl k).log.map (fun o => (o.1, o.2.2)) =
      (List.range (FloatClock.run rnd tf nout t n cfl k).log.length).map
        (fun i => (i, FloatClock.linspace rnd t tf nout i)) ∧
    (FloatClock.run rnd tf nout t n cfl k).t ≤ (FloatClock.run rnd tf nout t n cfl (k + 1)).t ∧
    ((FloatClock.run rnd tf nout t n cfl k).status = .running →
      (FloatClock.run rnd tf nout t n cfl k).t ≤ (FloatClock.run rnd tf nout t n cfl k).tout) ∧
    ((FloatClock.run rnd tf nout t n cfl k).status = .done →
      (FloatClock.run rnd tf nout t n cfl k).log.length = nout ∧ (FloatClock.run rnd tf nout t n cfl k).t = tf) := by
  obtain ⟨hE, hm⟩ := exact_run h ht htf h0 h1 hN n cfl hc k
  exact ⟨hE.outs, hm, hE.le, hE.full⟩

/-- **C83** In double precision, up to time 128, every run ends: after `2^49·129·nout` iterations at the latest. -/
theorem C83_terminates (rnd : ℝ → ℝ) (h : RoundsToNearest rnd) (tf t : ℝ) (ht : Binary64 t) (h0 : 0 ≤ t)
    (h1 : t ≤ tf) (h2 : tf ≤ 128) (nout n : ℕ) (cfl : ℕ → Fl ℝ) (k : ℕ) (hk : 2 ^ 49 * 129 * nout < k) :
    (FloatClock.run rnd tf nout t n cfl k).status ≠ .running := by
  intro hr
  by_cases hN : 2 ≤ nout
  swap
  · rw [(run_one rnd tf t n cfl (by omega) k).1] at hr; cases hr
  obtain ⟨m, rfl⟩ := Nat.exists_eq_succ_of_ne_zero (show k ≠ 0 by omega)
  have hr0 := running_prev hr
  obtain ⟨x, hx, hs⟩ := running_step hN hr
  have hlt := before h hs.lo hs.hi
  have hp := (run_potential h ht h0 h1 h2 hN n cfl m hr0).2 hlt
  obtain ⟨-, r2, -, -⟩ := (outInv_run rnd tf t n cfl hN m).run hr0
  have r2' : ((FloatClock.run rnd tf nout t n cfl m).nout : ℝ) + 1 ≤ nout := by exact_mod_cast r2
  have hm : (2 : ℝ) ^ 49 * 129 * nout ≤ m := by exact_mod_cast Nat.lt_succ_iff.1 hk
  have e : (m : ℝ) * (2 : ℝ) ^ (-49 : ℤ) ≥ 129 * nout := by
    have : (2 : ℝ) ^ (-49 : ℤ) = 1 / 2 ^ 49 := by norm_num
    rw [this]
    rw [ge_iff_le, mul_one_div, le_div_iff₀ (by positivity)]
    linarith
  generalize (m : ℝ) * (2 : ℝ) ^ (-49 : ℤ) = w at *
  linarith

/-- Non-vacuity of C82 and C83: with IEEE rounding, three outputs up to time 1 and CFL steps of 1/4 the run gets done (so by C82 it
has written the times 0, 1/2, 1). -/
example (rnd : ℝ → ℝ) (h : RoundsToNearest rnd) :
    ∃ k, (FloatClock.run rnd 1 3 0 0 (fun _ => .fin (1 / 4)) k).status = .done ∧
      (FloatClock.run rnd 1 3 0 0 (fun _ => .fin (1 / 4)) k).log.map (fun o => (o.1, o.2.2)) = [(0, 0), (1, 1 / 2), (2, 1)] := by
  have hb1 : Binary64 1 := ⟨1, 0, by norm_num, by norm_num, by norm_num⟩
  have hbh : Binary64 (1 / 2) := ⟨1, -1, by norm_num, by norm_num, by norm_num⟩
  have hbq : Binary64 (1 / 4) := ⟨1, -2, by norm_num, by norm_num, by norm_num⟩
  have l1 : FloatClock.linspace rnd 0 1 3 1 = 1 / 2 := by
    unfold FloatClock.linspace
    rw [if_neg (by omega)]
    have : rnd (rnd (1 - 0) / ((3 - 1 : ℕ) : ℝ)) = 1 / 2 := by
      rw [sub_zero, h.self hb1]; norm_num; rw [h.self hbh]
    simp only [this]
    rw [if_neg (by norm_num)]
    norm_num
    rw [h.self hbh, h.self hbh]
  have l0 : FloatClock.linspace rnd 0 1 3 0 = 0 := linspace_zero h b64_zero (by omega)
  have l2 : FloatClock.linspace rnd 0 1 3 2 = 1 := linspace_last rnd 0 1 (N := 3) (by omega)
  have hc : ∀ _ : ℕ, ∃ x : ℝ, (Fl.fin (1 / 4) : Fl ℝ) = .fin x ∧ Binary64 x ∧ 2 * x ≤ FloatClock.linspace rnd 0 1 3 1 ∧
      FloatClock.linspace rnd 0 1 3 (3 - 2) + x ≤ 1 := fun _ => ⟨1 / 4, rfl, hbq, by rw [l1]; norm_num, by
        rw [show 3 - 2 = 1 by rfl, l1]; norm_num⟩
  have hnf : ∀ k e, (FloatClock.run rnd 1 3 0 0 (fun _ => .fin (1 / 4)) k).status ≠ .failed e := by
    intro k
    induction k with
    | zero =>
      intro e he
      rw [show FloatClock.run rnd 1 3 0 0 (fun _ => .fin (1 / 4)) 0 = init rnd 1 3 0 0 from rfl, init_eq _ _ _ _ _ (by omega)] at he
      cases he
    | succ k ih =>
      intro e he
      by_cases hr : (FloatClock.run rnd 1 3 0 0 (fun _ => .fin (1 / 4)) k).status = .running
      · obtain ⟨-, hf | hf | ⟨x, hx, hf⟩⟩ := (C81_outputs rnd 1 0 3 0 (by omega) (fun _ => .fin (1 / 4)) k).2.2.2.2.2.2 e hr he
        · cases hf
        · cases hf
        · cases hx
          exact absurd (h.le_of_le hbq (by norm_num : (1 : ℝ) / 10 ^ 14 ≤ 1 / 4)) (not_le.2 hf)
      · have hE : FloatClock.run rnd 1 3 0 0 (fun _ => .fin (1 / 4)) (k + 1) =
          FloatClock.run rnd 1 3 0 0 (fun _ => .fin (1 / 4)) k := body_stopped hr
        rw [hE] at he
        exact ih e he
  obtain ⟨k, hk⟩ : ∃ k, k = 2 ^ 49 * 129 * 3 + 1 := ⟨_, rfl⟩
  have hnr := C83_terminates rnd h 1 0 b64_zero le_rfl zero_le_one (by norm_num) 3 0 (fun _ => .fin (1 / 4)) k (by omega)
  have hd : (FloatClock.run rnd 1 3 0 0 (fun _ => .fin (1 / 4)) k).status = .done := by
    rcases hs : (FloatClock.run rnd 1 3 0 0 (fun _ => .fin (1 / 4)) k).status with _ | _ | e
    · exact absurd hs hnr
    · rfl
    · exact absurd hs (hnf k e)
  obtain ⟨o1, -, -, o2⟩ := C82_output_times rnd h 1 0 b64_zero hb1 le_rfl zero_le_one 3 0 (by omega) _ hc k
  refine ⟨k, hd, ?_⟩
  rw [o1, (o2 hd).1]
  simp [List.range_succ, l0, l1, l2]

/-- **C83** (128 is the limit) With final time 129, a first CFL step of 128 and then steps of the size of the threshold `1e-14`, which
pass the sanity check, the time stays at 128 and the loop never ends. -/
theorem C83_stuck (rnd : ℝ → ℝ) (h : RoundsToNearest rnd) (k : ℕ) :
    let cfl : ℕ → Fl ℝ := fun j => if j = 0 then .fin 128 else .fin (rnd (1 / 10 ^ 14))
    (FloatClock.run rnd 129 2 0 0 cfl (k + 1)).status = .running ∧ (FloatClock.run rnd 129 2 0 0 cfl (k + 1)).t = 128 := by
  intro cfl
  have hb128 : Binary64 128 := ⟨128, 0, by norm_num, by norm_num, by norm_num⟩
  have hb129 : Binary64 129 := ⟨129, 0, by norm_num, by norm_num, by norm_num⟩
  have hb1 : Binary64 1 := ⟨1, 0, by norm_num, by norm_num, by norm_num⟩
  have hb6 : Binary64 (6 * 2 ^ (-49 : ℤ)) := by
    have := b64_mk 6 (-49) (by norm_num) (by norm_num); simpa using this
  have htiny : rnd (1 / 10 ^ 14) ≤ 6 * 2 ^ (-49 : ℤ) := h.le_of_le hb6 (by norm_num)
  have hpos := tiny_pos h
  have hstay : rnd (128 + rnd (1 / 10 ^ 14)) = 128 := by
    have hge : 128 ≤ rnd (128 + rnd (1 / 10 ^ 14)) := h.ge_of_ge hb128 (by linarith)
    have hn := (h (128 + rnd (1 / 10 ^ 14))).2 _ hb128
    rw [add_sub_cancel_left, abs_of_pos hpos] at hn
    obtain ⟨i, hi⟩ := b64_grid (h (128 + rnd (1 / 10 ^ 14))).1 7 (by
      rw [abs_of_nonneg (by linarith)]; refine le_trans ?_ hge; norm_num)
    have hup := (abs_le.1 hn).1
    rw [hi] at hge hup ⊢
    have e45 : (2 : ℝ) ^ (7 - 52 : ℤ) = 1 / 35184372088832 := by norm_num
    have e49 : (2 : ℝ) ^ (-49 : ℤ) = 1 / 562949953421312 := by norm_num
    rw [e45] at hge hup ⊢
    rw [e49] at htiny
    have i1 : (4503599627370496 : ℤ) ≤ i := by
      have : ((4503599627370496 : ℤ) : ℝ) ≤ i := by push_cast; linarith
      exact_mod_cast this
    have i2 : i < (4503599627370497 : ℤ) := by
      have : (i : ℝ) < ((4503599627370497 : ℤ) : ℝ) := by push_cast; linarith
      exact_mod_cast this
    obtain rfl : i = 4503599627370496 := by omega
    norm_num
  have e0 : FloatClock.run rnd 129 2 0 0 cfl 0 =
      ⟨0, 0, 1, 129, (times rnd 0 129 2).drop 1, .running, [(0, 0, 0)]⟩ := by
    rw [show FloatClock.run rnd 129 2 0 0 cfl 0 = init rnd 129 2 0 0 from rfl, init_eq _ _ _ _ _ le_rfl,
      linspace_last rnd 0 129 (le_refl 2)]
  suffices hs : ∀ k, ∃ n, FloatClock.run rnd 129 2 0 0 cfl (k + 1) =
      ⟨128, n, 1, 129, (times rnd 0 129 2).drop 1, .running, [(0, 0, 0)]⟩ by
    obtain ⟨n, hn⟩ := hs k
    rw [hn]; exact ⟨rfl, rfl⟩
  intro k
  induction k with
  | zero =>
    refine ⟨1, ?_⟩
    show body rnd 129 (cfl 0) (FloatClock.run rnd 129 2 0 0 cfl 0) = _
    rw [e0]
    simp only [cfl, if_true, body, FloatClock.sanityCheckDt, FloatClock.adjustForOutput, sub_zero, h.self hb129, gt_iff_lt]
    rw [if_neg (by push Not; refine htiny.trans ?_; norm_num)]
    norm_num [output, h.self hb128]
  | succ k ih =>
    obtain ⟨n, hn⟩ := ih
    refine ⟨n + 1, ?_⟩
    show body rnd 129 (cfl (k + 1)) (FloatClock.run rnd 129 2 0 0 cfl (k + 1)) = _
    rw [hn]
    have h1 : rnd (129 - 128 : ℝ) = 1 := by rw [show (129 - 128 : ℝ) = 1 by norm_num, h.self hb1]
    simp only [cfl, Nat.add_one_ne_zero, if_false, body, FloatClock.sanityCheckDt, FloatClock.adjustForOutput, gt_iff_lt, lt_irrefl, h1,
      if_neg (not_lt.2 (htiny.trans (by norm_num : (6 * 2 ^ (-49 : ℤ) : ℝ) ≤ 1))), hstay, output]
    simp

end Dg1d.Props
