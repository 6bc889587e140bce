import Verif.Proofs.UnitsRun

/-! Helper lemmas: the time loop in other units. -/

open Dg1d.Spec

namespace Dg1d
variable {γ : ℝ} {name : String} (U : Units)

/-- The exit of rk.py:230-233. -/
def tooSmall : PyErr := .sysExit "Next time step is too small"

/-- A time step in the new units. -/
noncomputable def Spec.Units.fl (U : Units) : Fl ℝ → Fl ℝ
  | .fin x => .fin (U.time * x)
  | .pinf => .pinf
  | .ninf => .ninf
  | .nan => .nan

lemma unit_cfl {s : Sol ℝ} (h : EulerShape γ name s) (c : ℝ) : cflTimeStep (U.sol s) c = (cflTimeStep s c).map U.fl := by
  have hv := Units_vel_pos U
  have hl := U.len_pos
  have ht := U.time_pos
  unfold cflTimeStep
  rw [show (U.sol s).kw = s.kw from rfl, h.kw, show (Euler.physics γ name).maxWaveSpeed = Euler.maxWaveSpeed γ from rfl, sol_u,
    Euler.unit_wave, show (U.sol s).basis = s.basis from rfl, show (U.sol s).dx = U.len * s.dx from rfl]
  cases Euler.maxWaveSpeed γ s.u with
  | error e => rfl
  | ok w =>
    cases w with
    | nan => rfl
    | fin v =>
      simp only [Except.map, Spec.Units.wave]
      have hden : U.vel * v * (2 * (s.basis.p : ℝ) + 1) = U.vel * (v * (2 * (s.basis.p : ℝ) + 1)) := by ring
      have hnum : U.len * s.dx * c = U.len * (s.dx * c) := by ring
      rw [hden, hnum]
      generalize v * (2 * (s.basis.p : ℝ) + 1) = den
      generalize s.dx * c = num
      have h0 : U.vel * den = 0 ↔ den = 0 := by rw [mul_eq_zero]; exact ⟨fun h => h.resolve_left hv.ne', .inr⟩
      simp only [h0]
      split
      · congr 1
        have h1 : 0 < U.len * num ↔ 0 < num := mul_pos_iff_of_pos_left hl
        have h2 : U.len * num < 0 ↔ num < 0 := by
          constructor
          · intro h; by_contra h'; exact absurd h (not_lt.mpr (mul_nonneg hl.le (not_lt.mp h')))
          · intro h; exact mul_neg_of_pos_of_neg hl h
        simp only [h1, h2]
        split
        · rfl
        · split <;> rfl
      · rename_i hd
        simp only [Spec.Units.fl, Except.ok.injEq, Fl.fin.injEq]
        unfold Spec.Units.vel
        field_simp

lemma unit_adjust (dt t tf tout : ℝ) : adjustForOutput (U.time * dt) (U.time * t) (U.time * tf) (U.time * tout) =
    (U.time * (adjustForOutput dt t tf tout).1, (adjustForOutput dt t tf tout).2) := by
  have ht := U.time_pos
  unfold adjustForOutput
  simp only [← mul_sub, gt_iff_lt, mul_lt_mul_iff_right₀ ht]
  split
  · rfl
  · split <;> rfl

lemma unit_next {s : Sol ℝ} (h : EulerShape γ name s) (tout c tf : ℝ)
    (hdt : U.time = 1 ∨ 1 ≤ U.time ∧ getNextTimeStep s tout c tf ≠ .error tooSmall) :
    getNextTimeStep (U.sol s) (U.time * tout) c (U.time * tf) =
      (getNextTimeStep s tout c tf).map fun r => (U.time * r.1, r.2) := by
  unfold getNextTimeStep at hdt ⊢
  rw [unit_cfl U h]
  cases hc : cflTimeStep s c with
  | error e => rfl
  | ok dt =>
    rw [hc] at hdt
    simp only [Except.map]
    cases dt with
    | nan => rfl
    | ninf => rfl
    | pinf =>
      simp only [Spec.Units.fl, sanityCheckDt]
      rw [show (U.sol s).t = U.time * s.t from rfl, ← mul_sub]
    | fin x =>
      simp only [Spec.Units.fl, sanityCheckDt] at hdt ⊢
      rw [show (U.sol s).t = U.time * s.t from rfl]
      rcases hdt with h1 | ⟨h1, h2⟩
      · rw [h1, one_mul]
        split
        · rename_i e he
          split at he
          · obtain rfl := Except.error.inj he; rfl
          · exact absurd he (by simp)
        · rename_i he
          simp only [Except.ok.injEq]
          have := unit_adjust U x s.t tf tout
          rw [h1] at this
          simp
      · have hx : ¬ x < 1 / 10 ^ 14 := by
          intro hx
          rw [if_pos hx] at h2
          exact h2 rfl
        have hx' : ¬ U.time * x < 1 / 10 ^ 14 := by
          have h3 : (1 : ℝ) / 10 ^ 14 ≤ x := not_lt.mp hx
          have h4 : (0 : ℝ) ≤ x := le_trans (by positivity) h3
          have : 1 * x ≤ U.time * x := mul_le_mul_of_nonneg_right h1 h4
          rw [not_lt]; linarith
        rw [if_neg hx, if_neg hx']
        simp only [unit_adjust]

/-- Stage state, loop state in the new units. -/
noncomputable def Spec.Units.stage (U : Units) (st : StageState ℝ) : StageState ℝ := ⟨U.sol st.work, U.sol st.sol, fun j => U.arr (st.incr j)⟩
noncomputable def Spec.Units.loop (U : Units) (st : LoopState ℝ) : LoopState ℝ :=
  { sol := U.sol st.sol, us := U.sol st.us, work := U.sol st.work, incr := fun j => U.arr (st.incr j), nout := st.nout
    tout := U.time * st.tout, touts := st.touts.map (U.time * ·), status := st.status, log := st.log.map U.out }

/-- The residual and the limiter work in any units. -/
structure UnitFree (U : Units) (γ : ℝ) (name : String) (env : Env ℝ) : Prop where
  residual : ∀ s, EulerShape γ name s → env.residual (U.sol s) = (env.residual s).map fun r => (U.sol r.1, U.rarr r.2)
  residualShape : ∀ s r, EulerShape γ name s → env.residual s = .ok r → EulerShape γ name r.1
  limit : ∀ s, EulerShape γ name s → env.limit (U.sol s) = (env.limit s).map U.sol
  limitShape : ∀ s r, EulerShape γ name s → env.limit s = .ok r → EulerShape γ name r

lemma unitFree_code (hn : name ≠ "godunov") (lm : Limiter ℝ) : UnitFree U γ name ⟨residual, lm.limit⟩ where
  residual := fun _ h => unit_residual U hn h
  residualShape := fun _ _ h hr => residual_shape h hr
  limit := fun _ h => unit_limit U lm h
  limitShape := fun _ _ h hr => limit_shape lm h hr

variable {env : Env ℝ}

lemma unit_axpy (s : Sol ℝ) (a : ℝ) (F : Arr ℝ) : (U.sol s).smartAxpy a (U.arr F) = U.sol (s.smartAxpy a F) := by
  unfold Sol.smartAxpy
  rw [sol_u, arr_smul, arr_add]
  split <;> rfl

lemma axpy_shape {s : Sol ℝ} (h : EulerShape γ name s) (a : ℝ) (F : Arr ℝ) : EulerShape γ name (s.smartAxpy a F) := by
  unfold Sol.smartAxpy
  split
  · exact ⟨h.kw, h.NF, h.cols⟩
  · exact h

lemma copy_shape {w s : Sol ℝ} (hw : EulerShape γ name w) (hs : EulerShape γ name s) : EulerShape γ name (w.copyDataOnly s) :=
  ⟨hw.kw, hw.NF, hs.cols⟩

lemma unit_accumulate (tab : Tableau ℝ) (k : ℕ) (incr : ℕ → Arr ℝ) (s : Sol ℝ) :
    accumulate tab k (fun j => U.arr (incr j)) (U.sol s) = U.sol (accumulate tab k incr s) := by
  unfold accumulate
  generalize List.range k = l
  induction l generalizing s with
  | nil => rfl
  | cons j l ih => simp only [List.foldl_cons]; rw [unit_axpy, ih]

lemma accumulate_shape (tab : Tableau ℝ) (k : ℕ) (incr : ℕ → Arr ℝ) {s : Sol ℝ} (h : EulerShape γ name s) :
    EulerShape γ name (accumulate tab k incr s) := by
  unfold accumulate
  generalize List.range k = l
  induction l generalizing s with
  | nil => exact h
  | cons j l ih => exact ih (axpy_shape h _ _)

lemma unit_time (s : Sol ℝ) (a dt : ℝ) : ({ U.sol s with t := (U.sol s).t + a * (U.time * dt) } : Sol ℝ) = U.sol { s with t := s.t + a * dt } := by
  have : U.time * s.t + a * (U.time * dt) = U.time * (s.t + a * dt) := by ring
  unfold Spec.Units.sol
  simp only [this]

lemma unit_incr (F : Arr ℝ) (dt : ℝ) : (U.rarr F).smul (U.time * dt) = U.arr (F.smul dt) := by
  have ht := U.time_pos
  unfold Spec.Units.rarr Spec.Units.arr Arr.smul
  simp only [Arr.mk.injEq, true_and]
  funext r c
  field_simp

lemma unit_update (incr : ℕ → Arr ℝ) (k : ℕ) (A : Arr ℝ) :
    Function.update (fun j => U.arr (incr j)) k (U.arr A) = fun j => U.arr (Function.update incr k A j) := by
  funext j
  unfold Function.update
  simp only [eq_rec_constant, dite_eq_ite]
  split <;> rfl

/-- The solutions of a stage state are Euler solutions. -/
def StageShape (γ : ℝ) (name : String) (st : StageState ℝ) : Prop := EulerShape γ name st.work ∧ EulerShape γ name st.sol

lemma unit_limitIf (he : UnitFree U γ name env) (k : ℕ) {v : Sol ℝ} (h : EulerShape γ name v) :
    (if k > 0 then env.limit (U.sol v) else .ok (U.sol v)) = (if k > 0 then env.limit v else .ok v).map U.sol := by
  split
  · exact he.limit v h
  · rfl

lemma limitIf_shape (he : UnitFree U γ name env) (k : ℕ) {v r : Sol ℝ} (h : EulerShape γ name v)
    (hr : (if k > 0 then env.limit v else .ok v) = .ok r) : EulerShape γ name r := by
  split at hr
  · exact he.limitShape v r h hr
  · obtain rfl := Except.ok.inj hr; exact h

lemma unit_classicStage (he : UnitFree U γ name env) (tab : Tableau ℝ) {us : Sol ℝ} (hu : EulerShape γ name us) (dt : ℝ) (k : ℕ) (c alpha : ℝ)
    {st : StageState ℝ} (h : StageShape γ name st) :
    classicStage env tab (U.sol us) (U.time * dt) k c alpha (U.stage st) = (classicStage env tab us dt k c alpha st).map U.stage ∧
      ∀ r, classicStage env tab us dt k c alpha st = .ok r → StageShape γ name r := by
  have hsh := (accumulate_shape tab k st.incr (copy_shape h.1 hu)).withT
    ((accumulate tab k st.incr (st.work.copyDataOnly us)).t + alpha * dt) (accumulate tab k st.incr (st.work.copyDataOnly us)).n
  unfold classicStage
  simp only
  rw [show (U.stage st).work.copyDataOnly (U.sol us) = U.sol (st.work.copyDataOnly us) from rfl,
    show (U.stage st).incr = fun j => U.arr (st.incr j) from rfl, unit_accumulate, unit_time]
  change EulerShape γ name { accumulate tab k st.incr (st.work.copyDataOnly us) with t := (accumulate tab k st.incr (st.work.copyDataOnly us)).t + alpha * dt } at hsh
  generalize ({ accumulate tab k st.incr (st.work.copyDataOnly us) with t := (accumulate tab k st.incr (st.work.copyDataOnly us)).t + alpha * dt } : Sol ℝ) = v at hsh ⊢
  rw [unit_limitIf U he k hsh]
  cases hl : (if k > 0 then env.limit v else .ok v) with
  | error e => exact ⟨rfl, fun r hr => absurd hr (by simp)⟩
  | ok v1 =>
    have h1 := limitIf_shape U he k hsh hl
    simp only [Except.map]
    rw [he.residual v1 h1]
    cases hres : env.residual v1 with
    | error e => exact ⟨rfl, fun r hr => absurd hr (by simp)⟩
    | ok r =>
      obtain ⟨v2, F⟩ := r
      have h2 : EulerShape γ name v2 := he.residualShape v1 _ h1 hres
      simp only [Except.map, unit_incr, unit_update, Except.ok.injEq]
      refine ⟨?_, ?_⟩
      · rw [show (U.stage st).sol = U.sol st.sol from rfl, unit_axpy]; rfl
      · rintro r rfl
        exact ⟨h2, axpy_shape h.2 _ _⟩

lemma unit_classicStages (he : UnitFree U γ name env) (tab : Tableau ℝ) {us : Sol ℝ} (hu : EulerShape γ name us) (dt : ℝ) (l : List (ℝ × ℝ)) (k : ℕ)
    {st : StageState ℝ} (h : StageShape γ name st) :
    classicStages env tab (U.sol us) (U.time * dt) k l (U.stage st) = (classicStages env tab us dt k l st).map U.stage ∧
      ∀ r, classicStages env tab us dt k l st = .ok r → StageShape γ name r := by
  induction l generalizing k st with
  | nil =>
    refine ⟨rfl, fun r hr => ?_⟩
    obtain rfl := Except.ok.inj hr; exact h
  | cons x l ih =>
    obtain ⟨c, alpha⟩ := x
    unfold classicStages
    obtain ⟨h1, h2⟩ := unit_classicStage U he tab hu dt k c alpha h
    rw [h1]
    cases hs : classicStage env tab us dt k c alpha st with
    | error e => exact ⟨rfl, fun r hr => absurd hr (by simp)⟩
    | ok r => exact ih (k + 1) (h2 r hs)

lemma unit_lowStage (he : UnitFree U γ name env) {us : Sol ℝ} (hu : EulerShape γ name us) (dt : ℝ) (k : ℕ) (beta gamma : ℝ)
    {st : StageState ℝ} (h : StageShape γ name st) :
    lowStage env (U.sol us) (U.time * dt) k beta gamma (U.stage st) = (lowStage env us dt k beta gamma st).map U.stage ∧
      ∀ r, lowStage env us dt k beta gamma st = .ok r → StageShape γ name r := by
  have hsh := (axpy_shape (copy_shape h.1 hu) beta (st.incr 0)).withT
    (((st.work.copyDataOnly us).smartAxpy beta (st.incr 0)).t + beta * dt) ((st.work.copyDataOnly us).smartAxpy beta (st.incr 0)).n
  unfold lowStage
  simp only
  rw [show (U.stage st).work.copyDataOnly (U.sol us) = U.sol (st.work.copyDataOnly us) from rfl,
    show (U.stage st).incr = fun j => U.arr (st.incr j) from rfl, unit_axpy, unit_time]
  change EulerShape γ name { (st.work.copyDataOnly us).smartAxpy beta (st.incr 0) with t := ((st.work.copyDataOnly us).smartAxpy beta (st.incr 0)).t + beta * dt } at hsh
  generalize ({ (st.work.copyDataOnly us).smartAxpy beta (st.incr 0) with t := ((st.work.copyDataOnly us).smartAxpy beta (st.incr 0)).t + beta * dt } : Sol ℝ) = v at hsh ⊢
  rw [unit_limitIf U he k hsh]
  cases hl : (if k > 0 then env.limit v else .ok v) with
  | error e => exact ⟨rfl, fun r hr => absurd hr (by simp)⟩
  | ok v1 =>
    have h1 := limitIf_shape U he k hsh hl
    simp only [Except.map]
    rw [he.residual v1 h1]
    cases hres : env.residual v1 with
    | error e => exact ⟨rfl, fun r hr => absurd hr (by simp)⟩
    | ok r =>
      obtain ⟨v2, F⟩ := r
      have h2 : EulerShape γ name v2 := he.residualShape v1 _ h1 hres
      simp only [Except.map, unit_incr, unit_update, Except.ok.injEq]
      refine ⟨?_, ?_⟩
      · rw [show (U.stage st).sol = U.sol st.sol from rfl, unit_axpy]; rfl
      · rintro r rfl
        exact ⟨h2, axpy_shape h.2 _ _⟩

lemma unit_lowStages (he : UnitFree U γ name env) {us : Sol ℝ} (hu : EulerShape γ name us) (dt : ℝ) (l : List (ℝ × ℝ)) (k : ℕ)
    {st : StageState ℝ} (h : StageShape γ name st) :
    lowStages env (U.sol us) (U.time * dt) k l (U.stage st) = (lowStages env us dt k l st).map U.stage ∧
      ∀ r, lowStages env us dt k l st = .ok r → StageShape γ name r := by
  induction l generalizing k st with
  | nil =>
    refine ⟨rfl, fun r hr => ?_⟩
    obtain rfl := Except.ok.inj hr; exact h
  | cons x l ih =>
    obtain ⟨c, alpha⟩ := x
    unfold lowStages
    obtain ⟨h1, h2⟩ := unit_lowStage U he hu dt k c alpha h
    rw [h1]
    cases hs : lowStage env us dt k c alpha st with
    | error e => exact ⟨rfl, fun r hr => absurd hr (by simp)⟩
    | ok r => exact ih (k + 1) (h2 r hs)

lemma unit_inner (he : UnitFree U γ name env) (sch : Scheme ℝ) {us : Sol ℝ} (hu : EulerShape γ name us) (dt : ℝ)
    {st : StageState ℝ} (h : StageShape γ name st) :
    sch.inner env (U.sol us) (U.time * dt) (U.stage st) = (sch.inner env us dt st).map U.stage ∧
      ∀ r, sch.inner env us dt st = .ok r → StageShape γ name r := by
  cases sch with
  | low => exact unit_lowStages U he hu dt _ 0 h
  | classic tab => exact unit_classicStages U he tab hu dt _ 0 h

/-- The solutions of a loop state are Euler solutions. -/
structure LoopShape (γ : ℝ) (name : String) (st : LoopState ℝ) : Prop where
  sol : EulerShape γ name st.sol
  us : EulerShape γ name st.us
  work : EulerShape γ name st.work

lemma unit_output (st : LoopState ℝ) (sol : Sol ℝ) (dt : ℝ) (o d : Bool) :
    outputPhase (U.loop st) (U.sol sol) (U.time * dt) o d = U.loop (outputPhase st sol dt o d) := by
  unfold outputPhase
  cases o
  · rfl
  · simp only [if_true]
    have hlog : (U.loop st).log ++ [⟨(U.loop st).nout, U.time * dt, U.sol sol⟩] = (st.log ++ [(⟨st.nout, dt, sol⟩ : OutRec ℝ)]).map U.out := by
      rw [List.map_append]; rfl
    rw [hlog]
    cases d
    · simp only [Bool.false_eq_true, if_false]
      rw [show (U.loop st).touts = st.touts.map (U.time * ·) from rfl]
      cases st.touts <;> rfl
    · rfl

lemma output_shape {st : LoopState ℝ} {sol : Sol ℝ} (h1 : EulerShape γ name sol) (h2 : EulerShape γ name st.us) (h3 : EulerShape γ name st.work)
    (dt : ℝ) (o d : Bool) : LoopShape γ name (outputPhase st sol dt o d) := by
  unfold outputPhase
  cases o
  · exact ⟨h1, h2, h3⟩
  · cases d
    · simp only [if_true, Bool.false_eq_true, if_false]
      cases st.touts <;> exact ⟨h1, h2, h3⟩
    · exact ⟨h1, h2, h3⟩

lemma unit_body (he : UnitFree U γ name env) (deck : RkDeck ℝ) (sch : Scheme ℝ) {st : LoopState ℝ} (h : LoopShape γ name st)
    (hdt : U.time = 1 ∨ 1 ≤ U.time ∧ (loopBody env deck (sch.inner env) st).status ≠ .failed tooSmall) :
    loopBody env (U.deck deck) (sch.inner env) (U.loop st) = U.loop (loopBody env deck (sch.inner env) st) ∧
      LoopShape γ name (loopBody env deck (sch.inner env) st) := by
  unfold loopBody at hdt ⊢
  rw [show (U.loop st).status = st.status from rfl]
  cases hst : st.status with
  | done => exact ⟨rfl, h⟩
  | failed e => exact ⟨rfl, h⟩
  | running =>
    rw [hst] at hdt
    simp only at hdt ⊢
    have hnext := unit_next U h.sol st.tout deck.cfl deck.finaltime (hdt.imp id fun hh => ⟨hh.1, fun he' => by
      have h2 := hh.2
      rw [he'] at h2
      exact h2 rfl⟩)
    rw [show (U.loop st).sol = U.sol st.sol from rfl, show (U.loop st).tout = U.time * st.tout from rfl,
      show (U.deck deck).cfl = deck.cfl from rfl, show (U.deck deck).finaltime = U.time * deck.finaltime from rfl, hnext]
    cases getNextTimeStep st.sol st.tout deck.cfl deck.finaltime with
    | error e => exact ⟨rfl, ⟨h.sol, h.us, h.work⟩⟩
    | ok r =>
      obtain ⟨dt, o, d⟩ := r
      simp only [Except.map]
      have hus := copy_shape h.us h.sol
      rw [show (U.loop st).us.copyDataOnly (U.sol st.sol) = U.sol (st.us.copyDataOnly st.sol) from rfl]
      generalize st.us.copyDataOnly st.sol = us at hus ⊢
      have hss : StageShape γ name { work := st.work, sol := st.sol, incr := st.incr } := ⟨h.work, h.sol⟩
      obtain ⟨hi1, hi2⟩ := unit_inner U he sch hus dt hss
      rw [show ({ work := (U.loop st).work, sol := U.sol st.sol, incr := (U.loop st).incr } : StageState ℝ) = U.stage { work := st.work, sol := st.sol, incr := st.incr } from rfl, hi1]
      cases hin : sch.inner env us dt { work := st.work, sol := st.sol, incr := st.incr } with
      | error e => exact ⟨rfl, ⟨h.sol, hus, h.work⟩⟩
      | ok ss =>
        simp only [Except.map]
        obtain ⟨hw, hsl⟩ := hi2 ss hin
        have hclock : ({ (U.stage ss).sol with t := (U.stage ss).sol.t + U.time * dt, n := (U.stage ss).sol.n + 1 } : Sol ℝ) =
            U.sol { ss.sol with t := ss.sol.t + dt, n := ss.sol.n + 1 } := by
          have : U.time * ss.sol.t + U.time * dt = U.time * (ss.sol.t + dt) := by ring
          show ({ U.sol ss.sol with t := U.time * ss.sol.t + U.time * dt, n := ss.sol.n + 1 } : Sol ℝ) = _
          rw [this]; rfl
        rw [hclock]
        have hsl2 := hsl.withT (ss.sol.t + dt) (ss.sol.n + 1)
        generalize ({ ss.sol with t := ss.sol.t + dt, n := ss.sol.n + 1 } : Sol ℝ) = v at hsl2 ⊢
        rw [unit_applyBc U hsl2]
        have hv := hsl2.applyBc
        generalize v.applyBc = v1 at hv ⊢
        rw [he.limit v1 hv]
        cases hl : env.limit v1 with
        | error e => exact ⟨rfl, ⟨hv, hus, hw⟩⟩
        | ok v2 =>
          have hv2 := he.limitShape v1 v2 hv hl
          simp only [Except.map]
          refine ⟨?_, output_shape hv2 hus hw _ _ _⟩
          rw [← unit_output]
          rfl

lemma unit_linspace (a b : ℝ) (n i : ℕ) : (linspace (U.time * a) (U.time * b) n).val i = U.time * (linspace a b n).val i := by
  unfold linspace
  simp only
  split
  · rfl
  · ring

lemma unit_init (deck : RkDeck ℝ) (s : Sol ℝ) : initLoop (U.deck deck) (U.sol s) = U.loop (initLoop deck s) := by
  unfold initLoop
  have htouts : ((List.range (U.deck deck).nout).map (linspace (U.sol s).t (U.deck deck).finaltime (U.deck deck).nout).val).tail =
      (((List.range deck.nout).map (linspace s.t deck.finaltime deck.nout).val).tail).map (U.time * ·) := by
    rw [← List.map_tail, ← List.map_tail, List.map_map]
    refine List.map_congr_left fun i _ => ?_
    exact unit_linspace U s.t deck.finaltime deck.nout i
  simp only
  rw [htouts]
  generalize ((List.range deck.nout).map (linspace s.t deck.finaltime deck.nout).val).tail = l
  have hlog : ([⟨0, 0, U.sol s⟩] : List (OutRec ℝ)) = [(⟨0, 0, s⟩ : OutRec ℝ)].map U.out := by
    simp only [List.map_cons, List.map_nil, Spec.Units.out, mul_zero]
  rw [hlog]
  rw [show (U.sol s).u.rows = s.u.rows from rfl, show (U.sol s).u.cols = s.u.cols from rfl]
  cases l <;> (unfold Spec.Units.loop; simp only [← arr_zeros]; rfl)

lemma init_shape (deck : RkDeck ℝ) {s : Sol ℝ} (h : EulerShape γ name s) : LoopShape γ name (initLoop deck s) := by
  unfold initLoop
  simp only
  cases ((List.range deck.nout).map (linspace s.t deck.finaltime deck.nout).val).tail <;> exact ⟨h, h, h⟩

lemma body_keeps_failure (deck : RkDeck ℝ) (inner : Inner ℝ) {st : LoopState ℝ} {e : PyErr} (h : st.status = .failed e) :
    (loopBody env deck inner st).status = .failed e := by
  unfold loopBody; rw [h]; exact h

lemma unit_run (he : UnitFree U γ name env) (deck : RkDeck ℝ) (sch : Scheme ℝ) {s : Sol ℝ} (h : EulerShape γ name s) (k : ℕ)
    (hdt : U.time = 1 ∨ 1 ≤ U.time ∧ (sch.run env deck s k).status ≠ .failed tooSmall) :
    sch.run env (U.deck deck) (U.sol s) k = U.loop (sch.run env deck s k) ∧ LoopShape γ name (sch.run env deck s k) := by
  unfold Scheme.run runLoop at hdt ⊢
  induction k with
  | zero => exact ⟨unit_init U deck s, init_shape deck h⟩
  | succ k ih =>
    rw [Function.iterate_succ_apply', Function.iterate_succ_apply']
    rw [Function.iterate_succ_apply'] at hdt
    obtain ⟨h1, h2⟩ := ih (hdt.imp id fun hh => ⟨hh.1, fun hf => hh.2 (body_keeps_failure deck _ hf)⟩)
    rw [h1]
    exact unit_body U he deck sch h2 hdt

end Dg1d
