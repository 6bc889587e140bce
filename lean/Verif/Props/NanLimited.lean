import Verif.Proofs.NanSensor
import Verif.Props.NanLimiter

/-!
# C111 — limited runs of a gas that leaves the states with real sound speed

As C106, with the limiter 'adaptive_hr' and the sensor of the Euler equations.
-/

open Dg1d.Spec

namespace Dg1d.Props
open Text Nan.Num

variable {γ : ℝ} {riemann : Str} {s : Sol ℝ} {lib : GaussLib ℝ} {p : ℕ} {lm : HrLimiter ℝ}

/-- A start as in C106 with a limiter that works: order at least 1 and two thresholds. -/
structure LimitedGas (γ : ℝ) (riemann : Str) (lib : GaussLib ℝ) (p : ℕ) (lm : HrLimiter ℝ) (s : Sol ℝ) : Prop extends GasStart γ riemann lib p s where
  order : 1 ≤ p
  limiter : Limiter.init "adaptive_hr" s = .ok (some lm)
  sensors : ∃ th0 th1 rest v, s.sensors = some ⟨th0 :: th1 :: rest, v⟩

lemma numbers_same {u : Arr Nan.Num} {v : Arr ℝ} (h : SameNumbers u v) : Nan.Same u v :=
  ⟨h.1, h.2.1, fun r hr c hc => h.2.2 r (by rw [h.1]; exact hr) c (by rw [h.2.1]; exact hc)⟩

/-- **C111 (no exception).** On every array of the right shape, NaN or not, the sensor and the limiter run through; the shape is kept. -/
theorem C111_total (h : LimitedGas γ riemann lib p lm s) {u : Arr Nan.Num} (hr : u.rows = p + 1) (hc : u.cols = (s.NE + 2) * 3) :
    ∃ u', Nan.limitGas lm γ s u = .ok u' ∧ u'.rows = u.rows ∧ u'.cols = u.cols := by
  obtain ⟨th0, th1, rest, v, hsn⟩ := h.sensors
  have hN := h.ready.NF
  unfold Nan.limitGas
  simp only [hsn, hN]
  rw [Nan.sensing_eq hc]
  obtain ⟨u', h1, h2, h3, -⟩ := C109_array h.built h.limiter h.order h.built (Vec.val _) hr (by rw [hN]; exact hc)
  exact ⟨u', h1, h2, h3⟩

/-- **C111 (a NaN is not seen).** The sensor compares with NaN, and no such comparison holds: a cell with NaN among its averages is not flagged,
and the limiter leaves all its coefficients. -/
theorem C111_blind (h : LimitedGas γ riemann lib p lm s) {u : Arr Nan.Num} (hr : u.rows = p + 1) (hc : u.cols = (s.NE + 2) * 3)
    {e f : ℕ} (h1 : 1 ≤ e) (h2 : e ≤ s.NE) (hf : f < 3) (hn : u.val 0 (e * 3 + f) = nan) :
    (∀ th0 th1 rest len, ∃ fl, Nan.sensing γ (th0 :: th1 :: rest) u 3 len = .ok fl ∧ fl.val e = 0) ∧
    ∃ u', Nan.limitGas lm γ s u = .ok u' ∧ ∀ r, ∀ g < 3, u'.val r (e * 3 + g) = u.val r (e * 3 + g) := by
  have hbad : (Nan.stateAt (u.val 0) e).Bad := by
    unfold Nan.St.Bad Nan.stateAt
    simp only
    interval_cases f
    · exact .inl (by rw [← hn]; congr 1; omega)
    · exact .inr (.inr (.inl (by rw [← hn]; congr 1; omega)))
    · exact .inr (.inr (.inr (by rw [← hn]; congr 1; omega)))
  refine ⟨fun th0 th1 rest len => ?_, ?_⟩
  · obtain ⟨fl, g1, -, g2⟩ := Nan.sensing_blind (γ := γ) hc th0 th1 rest len hbad
    exact ⟨fl, g1, g2⟩
  · obtain ⟨th0, th1, rest, v, hsn⟩ := h.sensors
    have hN := h.ready.NF
    obtain ⟨fl, g1, -, g2⟩ := Nan.sensing_blind (γ := γ) hc th0 th1 rest v.len hbad
    obtain ⟨u', k1, -, -, k4⟩ := C109_array h.built h.limiter h.order h.built fl.val hr (by rw [hN]; exact hc)
    refine ⟨u', ?_, fun r g hg => ?_⟩
    · unfold Nan.limitGas
      simp only [hsn, hN]
      rw [g1]
      exact k1
    · rw [hN] at k4
      exact (k4 e h1 h2 g hg).2.2.1 g2 r

lemma bc_like {x : Sol ℝ} (hx : Like x s) (u : Arr Nan.Num) : Nan.bc x u = Nan.bc s u := by
  unfold Nan.bc Nan.bcRight Nan.bcLeft
  rw [hx.setup.bcl, hx.setup.bcr, hx.setup.NF]

lemma hr_like {x : Sol ℝ} (hx : Like x s) (flag : ℕ → ℕ) (u : Arr Nan.Num) : Nan.adaptiveHr lm x flag u = Nan.adaptiveHr lm s flag u := by
  unfold Nan.adaptiveHr
  rw [hx.setup.NF, hx.setup.NE]
  cases List.foldlM (fun ulim e => if flag e ≠ 0 then Nan.limitFields lm s.NF u e ulim else Except.ok ulim) u (List.range' 1 s.NE) with
  | error e => rfl
  | ok U => simp only [bc_like hx]

lemma limit_same (h : LimitedGas γ riemann lib p lm s) {u : Arr Nan.Num} {x : Sol ℝ} (hx : Like x s) (hsh : sensorShape x = sensorShape s) (hu : Nan.Same u x.u) :
    ∃ x', Limiter.limit (some lm) x = .ok x' ∧ Like x' s ∧ sensorShape x' = sensorShape s ∧ x'.t = x.t ∧ x'.n = x.n ∧
      ∃ u', Nan.limitGas lm γ s u = .ok u' ∧ Nan.Same u' x'.u := by
  obtain ⟨th0, th1, rest, v, hsn⟩ := h.sensors
  have hN := h.ready.NF
  have hb := hx.built h.built
  have hrow : 0 < x.u.rows := by rw [hb.rows]; omega
  have hcol : x.u.cols = (s.NE + 2) * 3 := by rw [hx.cols, h.built.cols, hN]
  obtain ⟨v', hxs, hlen⟩ : ∃ v', x.sensors = some ⟨th0 :: th1 :: rest, v'⟩ ∧ v'.len = v.len := by
    unfold sensorShape at hsh
    rw [hsn] at hsh
    rcases hx0 : x.sensors with _ | ⟨th, v'⟩
    · rw [hx0] at hsh; cases hsh
    · rw [hx0] at hsh
      simp only [Option.map_some, Option.some.injEq, Prod.mk.injEq] at hsh
      exact ⟨v', by rw [hsh.1], hsh.2⟩
  obtain ⟨fl, hfl⟩ : ∃ fl, Nan.sensing γ (th0 :: th1 :: rest) u 3 v.len = .ok fl := ⟨_, Nan.sensing_eq (hu.cols.trans hcol) _ _ _ _⟩
  have hfl' := hfl
  rw [Nan.sensing_same hu hrow hcol] at hfl'
  have hsens : (⟨th0 :: th1 :: rest, v'⟩ : Sensor ℝ).sensing x = .ok ⟨th0 :: th1 :: rest, fl⟩ := by
    have hk : x.kw.sensing (th0 :: th1 :: rest) x.u x.NF ⟨v'.len, fun _ => 0⟩ = .ok fl := by
      rw [hx.setup.kw, h.ready.kw, hx.setup.NF, hN, hlen]
      exact hfl'
    unfold Sensor.sensing
    simp only [hk]
  obtain ⟨x', hx'⟩ := C60_works_partial h.built h.limiter hb hxs hsens (.inl h.order)
  obtain ⟨sn, sn', w, U, k1, k2, k3, k4, k5, -, -⟩ := limit_form (ok_of_init h.built h.limiter) hb hx'
  rw [hxs] at k1
  cases k1
  rw [hsens] at k2
  cases k2
  have hs' : x'.sensors = some ⟨th0 :: th1 :: rest, fl⟩ := by rw [k3, applyBc_sensors]
  obtain ⟨u', g1, g2⟩ := C109_model h.built h.limiter h.order hb hx' hs' (same_numbers hu)
  refine ⟨x', hx', ?_, ?_, ?_, ?_, u', ?_, numbers_same g2⟩
  · rw [k3]; exact (limited_like k4 k5).trans hx
  · unfold sensorShape
    rw [hs', hsn]
    have := (Nan.sensing_len hfl)
    simp [this]
  · rw [k3]; exact applyBc_t _
  · rw [k3]; exact applyBc_n _
  · unfold Nan.limitGas
    simp only [hsn, hN]
    rw [hfl]
    simp only
    rw [← hr_like hx]
    exact g1

/-- **C111 (no NaN).** On a solution of the model the sensor and the limiter are those of the model. -/
theorem C111_model (h : LimitedGas γ riemann lib p lm s) {u : Arr Nan.Num} (hu : SameNumbers u s.u) :
    ∃ s' u', Limiter.limit (some lm) s = .ok s' ∧ Nan.limitGas lm γ s u = .ok u' ∧ SameNumbers u' s'.u := by
  obtain ⟨x', h1, -, -, -, -, u', h2, h3⟩ := limit_same h (Like.refl s) rfl (numbers_same hu)
  exact ⟨x', u', h1, h2, same_numbers h3⟩

lemma limOk_hr (h : LimitedGas γ riemann lib p lm s) : Nan.LimOk s (Nan.limitOf lm γ s) (Limiter.limit (some lm)) where
  same := by
    intro u x hx hsh hu
    obtain ⟨x', h1, h2, h3, h4, h5, u', h6, h7⟩ := limit_same h hx hsh hu
    refine ⟨x', h1, h2, h3, h4, h5, ?_⟩
    unfold Nan.limitOf
    rw [h6]
    exact h7
  rows := by
    intro u hr hc
    obtain ⟨u', h1, h2, -⟩ := C111_total h (hr.trans h.built.rows) hc
    unfold Nan.limitOf
    rw [h1, ← hr]
    exact h2
  cols := by
    intro u hr hc
    obtain ⟨u', h1, -, h2⟩ := C111_total h (hr.trans h.built.rows) hc
    unfold Nan.limitOf
    rw [h1, ← hc]
    exact h2
  bad := by
    rintro u e hr hc ⟨h1, h2, f, hf, hn⟩
    obtain ⟨-, u', h3, h4⟩ := C111_blind h (hr.trans h.built.rows) hc h1 h2 hf hn
    unfold Nan.limitOf
    rw [h3]
    exact ⟨h1, h2, f, hf, by rw [h4 0 f hf, hn]⟩

/-- The limited run of the model, stopped with `notReal` where numpy computes NaN. -/
noncomputable abbrev modelLim (lm : HrLimiter ℝ) (s : Sol ℝ) (deck : RkDeck ℝ) (k : ℕ) : LoopState ℝ := modelRunWith (Limiter.limit (some lm)) s deck k

/-- The limited run with NaN. -/
noncomputable abbrev nanLim (γ : ℝ) (riemann : Str) (lm : HrLimiter ℝ) (s : Sol ℝ) (deck : RkDeck ℝ) (k : ℕ) : Nan.Loop :=
  nanRunWith γ riemann (Nan.limitOf lm γ s) s deck k

/-- **C111 (real).** As long as the limited run of the model does not stop with `notReal`, the run with NaN is its run: same numbers, outputs and status. -/
theorem C111_real (h : LimitedGas γ riemann lib p lm s) (deck : RkDeck ℝ) (k : ℕ) (hk : (modelLim lm s deck k).status ≠ .failed .notReal) :
    (nanLim γ riemann lm s deck k).status = (modelLim lm s deck k).status ∧
    (nanLim γ riemann lm s deck k).t = (modelLim lm s deck k).sol.t ∧
    SameNumbers (nanLim γ riemann lm s deck k).u (modelLim lm s deck k).sol.u ∧
    List.Forall₂ (fun a b => a.nout = b.nout ∧ a.dt = b.dt ∧ a.t = b.sol.t ∧ a.n = b.sol.n ∧ SameNumbers a.u b.sol.u)
      (nanLim γ riemann lm s deck k).log (modelLim lm s deck k).log :=
  run_real h.toGasStart (limOk_hr h) deck k hk

/-- **C111 (stops).** Where the limited run of the model stops with `notReal`, the run with NaN ends the step with NaN in the average of some cell:
the limiter does not remove it. If this was not the last step, the next one stops with the message on the time step and prints nothing. -/
theorem C111_stops (h : LimitedGas γ riemann lib p lm s) (deck : RkDeck ℝ) (k : ℕ) (hk : (modelLim lm s deck k).status = .running)
    (hk' : (modelLim lm s deck (k + 1)).status = .failed .notReal) :
    NanAverage s (nanLim γ riemann lm s deck (k + 1)).u ∧
    ((nanLim γ riemann lm s deck (k + 1)).log = (nanLim γ riemann lm s deck k).log ∨
      ∃ o : Nan.OutRec, (nanLim γ riemann lm s deck (k + 1)).log = (nanLim γ riemann lm s deck k).log ++ [o] ∧
        o.u = (nanLim γ riemann lm s deck (k + 1)).u) ∧
    ((nanLim γ riemann lm s deck (k + 1)).status = .running → ∀ j, k + 2 ≤ j →
      (nanLim γ riemann lm s deck j).status = .failed (.sysExit "Time step is NaN") ∧
      (nanLim γ riemann lm s deck j).log = (nanLim γ riemann lm s deck (k + 1)).log) :=
  run_stops h.toGasStart (limOk_hr h) deck k hk hk'

/-- **C111 (outputs).** Of all outputs of a limited run only the last can hold NaN. -/
theorem C111_outputs (h : LimitedGas γ riemann lib p lm s) (deck : RkDeck ℝ) (k : ℕ) : ∀ o ∈ (nanLim γ riemann lm s deck k).log.dropLast, NanFree o.u :=
  run_outputs h.toGasStart (limOk_hr h) deck k

/-- **C111 (detection).** If no average of an interior cell is NaN at some point of a limited run, no NaN has occurred up to there. -/
theorem C111_detect (h : LimitedGas γ riemann lib p lm s) (deck : RkDeck ℝ) (k : ℕ) (hk : ¬ NanAverage s (nanLim γ riemann lm s deck k).u) :
    (modelLim lm s deck k).status ≠ .failed .notReal ∧ NanFree (nanLim γ riemann lm s deck k).u ∧
      ∀ o ∈ (nanLim γ riemann lm s deck k).log, NanFree o.u :=
  run_detect h.toGasStart (limOk_hr h) deck k hk

/-- **C111 (decks).** Every valid Euler deck with the limiter, without enhancement and with another solver than 'godunov' starts from such a solution. -/
theorem C111_deck {ft : FloatText ℝ} {d : Deck ℝ} {N : ℕ} {ic : IC.Setup} (hlib : lib.Ok) (junk : ℕ → ℝ) (hd : ValidDeck lib ft d p N ic)
    (hsys : d.system = "euler".toList) (hg : d.riemann ≠ "godunov".toList) (hen : d.enhance = []) (hlim : d.limiting = "adaptive_hr".toList) :
    ∃ s lm, start lib ft junk d = .ok (s, some lm) ∧ LimitedGas (ic.gamma.getD (7 / 5)) d.riemann lib p lm s := by
  obtain ⟨c, s, lm, -, hst, S⟩ := C69_starts hlib junk hd
  obtain ⟨s', lm', hst', G⟩ := C106_deck hlib junk hd hsys hg hen
  rw [hst] at hst'
  cases hst'
  have hl := S.limiter
  rw [hlim, show String.ofList "adaptive_hr".toList = "adaptive_hr" by simp] at hl
  obtain ⟨hp, hth⟩ := hd.limiter hlim
  rw [if_pos hsys] at hth
  obtain ⟨lm', hi, -⟩ := limiter_init S.built.basis S.built.gauss
  rw [hi] at hl
  cases hl
  refine ⟨s, lm', hst, G, hp, hi, ?_⟩
  rcases hd' : d.sensorThresholds with _ | ⟨a, _ | ⟨b, l⟩⟩
  · rw [hd'] at hth; simp at hth
  · rw [hd'] at hth; simp at hth
  · obtain ⟨v, hv, -⟩ := S.sensors (by rw [hd']; simp)
    exact ⟨a, b, l, v, by rw [hv, hd']⟩

/-! ### The gas of C106 with a limiter -/

/-- `Ex.rough` with the thresholds 0.01 and 0.02. -/
noncomputable def Ex.roughS : Sol ℝ := { Ex.rough with sensors := some ⟨[1 / 100, 1 / 50], ⟨5, fun _ => 0⟩⟩ }

lemma Ex.roughS_like : Like Ex.roughS Ex.rough := ⟨by constructor <;> rfl, rfl, rfl⟩

lemma Ex.roughS_start : GasStart (7 / 5) "rusanov".toList realGauss 1 Ex.roughS where
  built := Ex.roughS_like.built Ex.rough_start.built
  physics := ⟨Ex.rough_start.physics.1, Ex.rough_start.physics.2⟩
  solver := Ex.rough_start.solver
  enh := rfl
  bc := Ex.rough_start.bc

lemma Ex.roughS_limited : ∃ lm, LimitedGas (7 / 5) "rusanov".toList realGauss 1 lm Ex.roughS := by
  obtain ⟨lm, h, -⟩ := limiter_init Ex.roughS_start.built.basis Ex.roughS_start.built.gauss
  exact ⟨lm, Ex.roughS_start, le_rfl, h, 1 / 100, 1 / 50, [], _, rfl⟩

lemma Ex.roughS_next {tf : ℝ} : getNextTimeStep (initLoop (Ex.roughDeck tf) Ex.roughS).sol (initLoop (Ex.roughDeck tf) Ex.roughS).tout 1 tf =
    .ok (adjustForOutput (1 / 2 / (√(14 / 25) * 3)) 0 tf (initLoop (Ex.roughDeck tf) Ex.roughS).tout) := Ex.rough_next

lemma Ex.roughS_stops (lm : HrLimiter ℝ) (tf : ℝ) : (modelLim lm Ex.roughS (Ex.roughDeck tf) 0).status = .running ∧
    (modelLim lm Ex.roughS (Ex.roughDeck tf) 1).status = .failed .notReal := by
  have h0 : modelLim lm Ex.roughS (Ex.roughDeck tf) 0 = initLoop (Ex.roughDeck tf) Ex.roughS := rfl
  refine ⟨by rw [h0]; rfl, ?_⟩
  rw [show modelLim lm Ex.roughS (Ex.roughDeck tf) 1 = _ from modelRunWith_succ _ Ex.roughS (Ex.roughDeck tf) 0,
    show modelRunWith (Limiter.limit (some lm)) Ex.roughS (Ex.roughDeck tf) 0 = initLoop (Ex.roughDeck tf) Ex.roughS from rfl]
  unfold loopBody
  rw [show (initLoop (Ex.roughDeck tf) Ex.roughS).status = .running from rfl]
  simp only
  rw [show (Ex.roughDeck tf).cfl = 1 from rfl, show (Ex.roughDeck tf).finaltime = tf from rfl, Ex.roughS_next]
  obtain ⟨dt, output, done⟩ := adjustForOutput (1 / 2 / (√(14 / 25) * 3)) 0 tf (initLoop (Ex.roughDeck tf) Ex.roughS).tout
  simp only
  have hin : (schemeFor (Ex.roughDeck tf).rk).inner (Nan.env (Limiter.limit (some lm))) ((initLoop (Ex.roughDeck tf) Ex.roughS).us.copyDataOnly (initLoop (Ex.roughDeck tf) Ex.roughS).sol) dt
      ⟨(initLoop (Ex.roughDeck tf) Ex.roughS).work, (initLoop (Ex.roughDeck tf) Ex.roughS).sol, (initLoop (Ex.roughDeck tf) Ex.roughS).incr⟩ = .error .notReal := by
    have hsch : schemeFor (Ex.roughDeck tf).rk = .low := if_pos rfl
    rw [hsch]
    show lowStages (Nan.env (Limiter.limit (some lm))) _ dt 0 ((0, 1 / 6) :: _) _ = _
    unfold lowStages lowStage
    have hz : ¬ |(0 : ℝ)| > 1 / 10 ^ 15 := by rw [abs_zero]; norm_num
    simp only [Sol.smartAxpy, if_neg hz, gt_iff_lt, lt_irrefl, if_false]
    rw [Ex.rough_residual]
    · refine Like.trans (Like.clock (s := Ex.roughS) (a := (Sol.copyDataOnly _ _)) ?_ _ _) Ex.roughS_like
      exact Like.copy (Like.refl _) (Like.copy (Like.refl _) (Like.refl _))
    · rfl
  rw [hin]

/-- **C111 (the other side).** With the limiter too a run may end normally with NaN in its last output. -/
theorem C111_silent : ∃ (s : Sol ℝ) (lm : HrLimiter ℝ) (deck : RkDeck ℝ), LimitedGas (7 / 5) "rusanov".toList realGauss 1 lm s ∧
    (∀ e ≤ s.NE + 1, 0 < (Euler.stateAt (s.u.val 0) e).rho ∧ 0 < (Euler.stateAt (s.u.val 0) e).p (7 / 5)) ∧
    (nanLim (7 / 5) "rusanov".toList lm s deck 1).status = .done ∧
    ∃ o, (nanLim (7 / 5) "rusanov".toList lm s deck 1).log.getLast? = some o ∧ NanAverage s o.u := by
  obtain ⟨lm, hlm⟩ := Ex.roughS_limited
  refine ⟨Ex.roughS, lm, Ex.roughDeck (1 / 1000), hlm, ?_, ?_⟩
  · intro e _
    rw [show Ex.roughS.u = Ex.rough.u from rfl, Ex.rough_state]
    unfold Euler.St.p Euler.St.v
    norm_num
  · have hs := Ex.roughS_stops lm (1 / 1000)
    have hb := (C111_stops hlm (Ex.roughDeck (1 / 1000)) 0 hs.1 hs.2).1
    have h1 : √(14 / 25) ≤ (1 : ℝ) := Real.sqrt_le_one.2 (by norm_num)
    have h0 : (0 : ℝ) < √(14 / 25) := Real.sqrt_pos.2 (by norm_num)
    have hd : (1 / 1000 - 0 : ℝ) < 1 / 2 / (√(14 / 25) * 3) := by
      rw [lt_div_iff₀ (by positivity)]
      nlinarith
    have hn : Nan.nextStep (7 / 5) Ex.roughS (Ex.roughDeck (1 / 1000)) (Nan.initLoop (Ex.roughDeck (1 / 1000)) Ex.roughS) = .ok (1 / 1000 - 0, true, true) := by
      rw [Nan.nextStep_same Ex.roughS_start.ready _ (Nan.init_same _ _)]
      rw [show (Ex.roughDeck (1 / 1000)).cfl = 1 from rfl, show (Ex.roughDeck (1 / 1000)).finaltime = 1 / 1000 from rfl, Ex.roughS_next]
      unfold adjustForOutput
      rw [if_pos hd]
    have hz : nanLim (7 / 5) "rusanov".toList lm Ex.roughS (Ex.roughDeck (1 / 1000)) 1 =
        Nan.loopBody (7 / 5) (String.ofList "rusanov".toList) (Nan.limitOf lm (7 / 5) Ex.roughS) Ex.roughS (Ex.roughDeck (1 / 1000)) (Nan.initLoop (Ex.roughDeck (1 / 1000)) Ex.roughS) :=
      nanRunWith_succ (7 / 5) "rusanov".toList _ Ex.roughS (Ex.roughDeck (1 / 1000)) 0
    rw [zero_add] at hb
    rw [hz] at hb ⊢
    unfold Nan.loopBody at hb ⊢
    rw [show (Nan.initLoop (Ex.roughDeck (1 / 1000)) Ex.roughS).status = .running from rfl] at hb ⊢
    simp only at hb ⊢
    rw [hn] at hb ⊢
    simp only [Nan.outputPhase, if_true] at hb ⊢
    exact ⟨trivial, _, by rw [List.getLast?_append]; rfl, hb⟩

/-- The deck of the entropy wave with the limiter and the thresholds 0.01 and 0.02. -/
noncomputable def Ex.waveLim (N : ℕ) : Deck ℝ := { Ex.waveDeck N with limiting := "adaptive_hr".toList, sensorThresholds := [1 / 100, 1 / 50] }

/-- `C111_deck`: this deck. -/
example {N : ℕ} (hN : 0 < N) : ∃ s lm, start realGauss Ex.decReal (fun _ => 0) (Ex.waveLim N) = .ok (s, some lm) ∧
    LimitedGas (7 / 5) "roe".toList realGauss 1 lm s :=
  have hd : ValidDeck realGauss Ex.decReal (Ex.waveLim N) 1 N IC.entrpyw :=
    ⟨(Ex.wave_valid hN).order, (Ex.wave_valid hN).cells, (Ex.wave_valid hN).line, (Ex.wave_valid hN).enhance,
      fun _ => ⟨le_rfl, by rw [if_pos (show (Ex.waveLim N).system = "euler".toList from rfl)]; exact le_rfl⟩⟩
  C111_deck realGauss_ok _ hd rfl (show "roe".toList ≠ "godunov".toList by decide) rfl rfl

/-- `C111_blind` and `C111_total`: the density of the second cell is NaN. -/
example : ∃ lm, ∃ u', Nan.limitGas lm (7 / 5) Ex.roughS ⟨2, 15, fun r c => if c = 6 then nan else num (Ex.rough.u.val r c)⟩ = .ok u' ∧
    u'.val 0 6 = nan ∧ u'.val 1 8 = num 2 := by
  obtain ⟨lm, hlm⟩ := Ex.roughS_limited
  obtain ⟨-, u', h1, h2⟩ := C111_blind hlm (u := ⟨2, 15, fun r c => if c = 6 then nan else num (Ex.rough.u.val r c)⟩) rfl rfl
    (e := 2) (f := 0) (by norm_num) (show 2 ≤ 3 by norm_num) (by norm_num) (by norm_num)
  refine ⟨lm, u', h1, ?_, ?_⟩
  · have := h2 0 0 (by norm_num); simpa using this
  · have := h2 1 2 (by norm_num)
    simp only [Nat.reduceMul, Nat.reduceAdd, Nat.reduceEqDiff, if_false] at this
    rw [this]
    unfold Ex.rough
    norm_num

/-- `C111_model`, `C111_real`, `C111_outputs` and `C111_detect` with the same gas: the sensor and the limiter agree on the start, the run agrees
before the first step, and afterwards some average is NaN. -/
example (tf : ℝ) : ∃ lm, (∃ s' u', Limiter.limit (some lm) Ex.roughS = .ok s' ∧ Nan.limitGas lm (7 / 5) Ex.roughS (Nan.lift Ex.roughS.u) = .ok u' ∧ SameNumbers u' s'.u) ∧
    (nanLim (7 / 5) "rusanov".toList lm Ex.roughS (Ex.roughDeck tf) 0).status = .running ∧
    (∀ k, ∀ o ∈ (nanLim (7 / 5) "rusanov".toList lm Ex.roughS (Ex.roughDeck tf) k).log.dropLast, NanFree o.u) ∧
    NanAverage Ex.roughS (nanLim (7 / 5) "rusanov".toList lm Ex.roughS (Ex.roughDeck tf) 1).u := by
  obtain ⟨lm, hlm⟩ := Ex.roughS_limited
  have hs := Ex.roughS_stops lm tf
  refine ⟨lm, C111_model hlm (same_numbers (Nan.same_lift _)), ?_, fun k => C111_outputs hlm _ k, ?_⟩
  · rw [(C111_real hlm (Ex.roughDeck tf) 0 (by rw [hs.1]; simp)).1, hs.1]
  · by_contra hk
    exact (C111_detect hlm (Ex.roughDeck tf) 1 hk).1 hs.2

end Dg1d.Props
