import Verif.Model.Dg
import Verif.Model.Rk

/-! Helper lemmas: two runs whose residuals and limiters respect a relation stay related (a simulation).
With both runs equal and a relation `a = b ∧ Inv a` this is the invariant rule for runs. -/

set_option linter.unusedSectionVars false

namespace Dg1d
variable {K : Type*} [Field K] [LinearOrder K]

/-- Two results: errors related by `E`, or values related by `R`. -/
def ExRel (E : PyErr → PyErr → Prop) {α β : Type*} (R : α → β → Prop) : Except PyErr α → Except PyErr β → Prop
  | .error e, .error e' => E e e'
  | .ok a, .ok b => R a b
  | _, _ => False

lemma ExRel.cases {E : PyErr → PyErr → Prop} {α β : Type*} {R : α → β → Prop} {x : Except PyErr α} {y : Except PyErr β}
    (h : ExRel E R x y) :
    (∃ e e', x = .error e ∧ y = .error e' ∧ E e e') ∨ ∃ a b, x = .ok a ∧ y = .ok b ∧ R a b := by
  cases x <;> cases y <;> simp_all [ExRel]

lemma ExRel.of_eq {E : PyErr → PyErr → Prop} (hE : ∀ e, E e e) {α : Type*} {R : α → α → Prop} {x y : Except PyErr α}
    (h : x = y) (hR : ∀ a, x = .ok a → R a a) : ExRel E R x y := by
  subst h
  cases x with
  | error e => exact hE e
  | ok a => exact hR a rfl

/-- Conditions on relations between working solutions (`RS`), between solutions at the head of the time loop
(`RH`) and between residual arrays (`RF`) that make them a simulation between two runs. -/
structure Simulates (E : PyErr → PyErr → Prop) (env env' : Env K) (RS RH : Sol K → Sol K → Prop) (RF : Arr K → Arr K → Prop) : Prop where
  errRefl : ∀ e, E e e
  zero : ∀ s s', RS s s' → RF (Arr.zeros s.u.rows s.u.cols) (Arr.zeros s'.u.rows s'.u.cols)
  smul : ∀ a F F', RF F F' → RF (F.smul a) (F'.smul a)
  axpy : ∀ a s s' F F', RS s s' → RF F F' → RS { s with u := s.u.add (F.smul a) } { s' with u := s'.u.add (F'.smul a) }
  copy : ∀ w w' s s', RS w w' → RS s s' → RS (w.copyDataOnly s) (w'.copyDataOnly s')
  clock : ∀ s s' a m, RS s s' → RS { s with t := s.t + a, n := s.n + m } { s' with t := s'.t + a, n := s'.n + m }
  head : ∀ s s', RH s s' → RS s s'
  bc : ∀ s s', RS s s' → RH s.applyBc s'.applyBc
  cfl : ∀ s s' c, RH s s' → cflTimeStep s c = cflTimeStep s' c
  headLimit : ∀ s s', RH s s' → s.t = s'.t → s.n = s'.n →
    ExRel E (fun v v' => RH v v' ∧ v.t = v'.t ∧ v.n = v'.n) (env.limit s) (env'.limit s')
  stageLimit : ∀ s s', RS s s' → ExRel E RS (env.limit s) (env'.limit s')
  res : ∀ s s', RS s s' → ExRel E (fun p q => RS p.1 q.1 ∧ RF p.2 q.2) (env.residual s) (env'.residual s')

section
variable {E : PyErr → PyErr → Prop} {env env' : Env K} {RS RH : Sol K → Sol K → Prop} {RF : Arr K → Arr K → Prop}

lemma Simulates.smart (h : Simulates E env env' RS RH RF) (a : K) {s s' : Sol K} {F F' : Arr K} (hs : RS s s') (hF : RF F F') :
    RS (s.smartAxpy a F) (s'.smartAxpy a F') := by
  unfold Sol.smartAxpy
  split
  · exact h.axpy a _ _ _ _ hs hF
  · exact hs

/-- `smart_axpy` leaves the clock alone. -/
lemma smartAxpy_clock (s : Sol K) (a : K) (F : Arr K) : (s.smartAxpy a F).t = s.t ∧ (s.smartAxpy a F).n = s.n := by
  unfold Sol.smartAxpy; split <;> exact ⟨rfl, rfl⟩

lemma Simulates.time (h : Simulates E env env' RS RH RF) (a : K) {s s' : Sol K} (hs : RS s s') :
    RS { s with t := s.t + a } { s' with t := s'.t + a } := h.clock s s' a 0 hs

lemma Simulates.acc (h : Simulates E env env' RS RH RF) (tab : Tableau K) (k : ℕ) {i i' : ℕ → Arr K} {s s' : Sol K}
    (hi : ∀ j, RF (i j) (i' j)) (hs : RS s s') : RS (accumulate tab k i s) (accumulate tab k i' s') := by
  unfold accumulate
  generalize List.range k = l
  induction l generalizing s s' with
  | nil => exact hs
  | cons j l ih => exact ih (h.smart _ hs (hi j))

/-- Related stage states. -/
structure StageSim (RS : Sol K → Sol K → Prop) (RF : Arr K → Arr K → Prop) (x y : StageState K) : Prop where
  work : RS x.work y.work
  sol : RS x.sol y.sol
  incr : ∀ j, RF (x.incr j) (y.incr j)

/-- The stage relation used along the inner loop: related, and both clocks stay where they were. -/
def StageSimC (RS : Sol K → Sol K → Prop) (RF : Arr K → Arr K → Prop) (x0 y0 x y : StageState K) : Prop :=
  StageSim RS RF x y ∧ x.sol.t = x0.sol.t ∧ x.sol.n = x0.sol.n ∧ y.sol.t = y0.sol.t ∧ y.sol.n = y0.sol.n

lemma Simulates.classicStage (h : Simulates E env env' RS RH RF) (tab : Tableau K) {us us' : Sol K} (hu : RS us us')
    (dt : K) (k : ℕ) (c alpha : K) {x y : StageState K} (hx : StageSim RS RF x y) :
    ExRel E (StageSimC RS RF x y) (classicStage env tab us dt k c alpha x) (classicStage env' tab us' dt k c alpha y) := by
  unfold Dg1d.classicStage
  simp only
  have h1 := h.acc tab k hx.incr (h.copy _ _ _ _ hx.work hu)
  have h2 := h.time (alpha * dt) h1
  generalize ({ accumulate tab k x.incr (x.work.copyDataOnly us) with t := (accumulate tab k x.incr (x.work.copyDataOnly us)).t + alpha * dt } : Sol K) = v at h2 ⊢
  generalize ({ accumulate tab k y.incr (y.work.copyDataOnly us') with t := (accumulate tab k y.incr (y.work.copyDataOnly us')).t + alpha * dt } : Sol K) = v' at h2 ⊢
  have h3 : ExRel E RS (if k > 0 then env.limit v else .ok v) (if k > 0 then env'.limit v' else .ok v') := by
    split
    · exact h.stageLimit _ _ h2
    · exact h2
  rcases h3.cases with ⟨e, e', ha, hb, hE⟩ | ⟨w, w', ha, hb, hw⟩
  · rw [ha, hb]; exact hE
  · rw [ha, hb]
    simp only
    rcases (h.res w w' hw).cases with ⟨e, e', hc, hd, hE⟩ | ⟨⟨z, F⟩, ⟨z', F'⟩, hc, hd, hz, hF⟩
    · rw [hc, hd]; exact hE
    · rw [hc, hd]
      simp only at hz hF ⊢
      have hF2 := h.smul dt _ _ hF
      refine ⟨⟨hz, ?_, ?_⟩, ?_⟩
      · simp only [Function.update_self]; exact h.smart _ hx.sol hF2
      · intro j
        by_cases hj : j = k
        · subst hj; simp only [Function.update_self]; exact hF2
        · simp only [Function.update_of_ne hj]; exact hx.incr j
      · exact ⟨(smartAxpy_clock _ _ _).1, (smartAxpy_clock _ _ _).2, (smartAxpy_clock _ _ _).1, (smartAxpy_clock _ _ _).2⟩

lemma Simulates.lowStage (h : Simulates E env env' RS RH RF) {us us' : Sol K} (hu : RS us us')
    (dt : K) (k : ℕ) (beta gamma : K) {x y : StageState K} (hx : StageSim RS RF x y) :
    ExRel E (StageSimC RS RF x y) (lowStage env us dt k beta gamma x) (lowStage env' us' dt k beta gamma y) := by
  unfold Dg1d.lowStage
  simp only
  have h1 := h.smart beta (h.copy _ _ _ _ hx.work hu) (hx.incr 0)
  have h2 := h.time (beta * dt) h1
  generalize ({ (x.work.copyDataOnly us).smartAxpy beta (x.incr 0) with t := ((x.work.copyDataOnly us).smartAxpy beta (x.incr 0)).t + beta * dt } : Sol K) = v at h2 ⊢
  generalize ({ (y.work.copyDataOnly us').smartAxpy beta (y.incr 0) with t := ((y.work.copyDataOnly us').smartAxpy beta (y.incr 0)).t + beta * dt } : Sol K) = v' at h2 ⊢
  have h3 : ExRel E RS (if k > 0 then env.limit v else .ok v) (if k > 0 then env'.limit v' else .ok v') := by
    split
    · exact h.stageLimit _ _ h2
    · exact h2
  rcases h3.cases with ⟨e, e', ha, hb, hE⟩ | ⟨w, w', ha, hb, hw⟩
  · rw [ha, hb]; exact hE
  · rw [ha, hb]
    simp only
    rcases (h.res w w' hw).cases with ⟨e, e', hc, hd, hE⟩ | ⟨⟨z, F⟩, ⟨z', F'⟩, hc, hd, hz, hF⟩
    · rw [hc, hd]; exact hE
    · rw [hc, hd]
      simp only at hz hF ⊢
      have hF2 := h.smul dt _ _ hF
      refine ⟨⟨hz, h.smart _ hx.sol hF2, ?_⟩, ?_⟩
      · intro j
        by_cases hj : j = 0
        · subst hj; simp only [Function.update_self]; exact hF2
        · simp only [Function.update_of_ne hj]; exact hx.incr j
      · exact ⟨(smartAxpy_clock _ _ _).1, (smartAxpy_clock _ _ _).2, (smartAxpy_clock _ _ _).1, (smartAxpy_clock _ _ _).2⟩

lemma StageSimC.trans {x0 y0 x1 y1 x2 y2 : StageState K} (h1 : StageSimC RS RF x0 y0 x1 y1)
    (h2 : StageSimC RS RF x1 y1 x2 y2) : StageSimC RS RF x0 y0 x2 y2 := by
  obtain ⟨_, a, b, c, d⟩ := h1
  obtain ⟨e, f, g, i, j⟩ := h2
  exact ⟨e, f.trans a, g.trans b, i.trans c, j.trans d⟩

lemma Simulates.classicStages (h : Simulates E env env' RS RH RF) (tab : Tableau K) {us us' : Sol K} (hu : RS us us')
    (dt : K) (l : List (K × K)) : ∀ (k : ℕ) (x y : StageState K), StageSim RS RF x y →
    ExRel E (StageSimC RS RF x y) (classicStages env tab us dt k l x) (classicStages env' tab us' dt k l y) := by
  induction l with
  | nil => intro k x y hx; exact ⟨hx, rfl, rfl, rfl, rfl⟩
  | cons a l ih =>
    obtain ⟨c, alpha⟩ := a
    intro k x y hx
    unfold Dg1d.classicStages
    rcases (h.classicStage tab hu dt k c alpha hx).cases with ⟨e, e', ha, hb, hE⟩ | ⟨x1, y1, ha, hb, h1⟩
    · rw [ha, hb]; exact hE
    · rw [ha, hb]
      simp only
      rcases (ih (k + 1) x1 y1 h1.1).cases with ⟨e, e', hc, hd, hE⟩ | ⟨x2, y2, hc, hd, h2⟩
      · rw [hc, hd]; exact hE
      · rw [hc, hd]; exact h1.trans h2

lemma Simulates.lowStages (h : Simulates E env env' RS RH RF) {us us' : Sol K} (hu : RS us us')
    (dt : K) (l : List (K × K)) : ∀ (k : ℕ) (x y : StageState K), StageSim RS RF x y →
    ExRel E (StageSimC RS RF x y) (lowStages env us dt k l x) (lowStages env' us' dt k l y) := by
  induction l with
  | nil => intro k x y hx; exact ⟨hx, rfl, rfl, rfl, rfl⟩
  | cons a l ih =>
    obtain ⟨c, alpha⟩ := a
    intro k x y hx
    unfold Dg1d.lowStages
    rcases (h.lowStage hu dt k c alpha hx).cases with ⟨e, e', ha, hb, hE⟩ | ⟨x1, y1, ha, hb, h1⟩
    · rw [ha, hb]; exact hE
    · rw [ha, hb]
      simp only
      rcases (ih (k + 1) x1 y1 h1.1).cases with ⟨e, e', hc, hd, hE⟩ | ⟨x2, y2, hc, hd, h2⟩
      · rw [hc, hd]; exact hE
      · rw [hc, hd]; exact h1.trans h2

lemma Simulates.inner (h : Simulates E env env' RS RH RF) (sch : Scheme K) {us us' : Sol K} (hu : RS us us')
    (dt : K) {x y : StageState K} (hx : StageSim RS RF x y) :
    ExRel E (StageSimC RS RF x y) (sch.inner env us dt x) (sch.inner env' us' dt y) := by
  cases sch with
  | low => exact h.lowStages hu dt _ 0 x y hx
  | classic tab => exact h.classicStages tab hu dt _ 0 x y hx

/-- Related outputs: same number, step and clock, solutions related by `RH`. -/
structure OutSim (RH : Sol K → Sol K → Prop) (a b : OutRec K) : Prop where
  nout : a.nout = b.nout
  dt : a.dt = b.dt
  sol : RH a.sol b.sol
  t : a.sol.t = b.sol.t
  n : a.sol.n = b.sol.n

/-- Related ends of a run: the same, or failed with related errors. -/
def EndSim (E : PyErr → PyErr → Prop) (x y : Status) : Prop := x = y ∨ ∃ e e', x = .failed e ∧ y = .failed e' ∧ E e e'

/-- Related loop states. -/
structure LoopSim (E : PyErr → PyErr → Prop) (RS RH : Sol K → Sol K → Prop) (RF : Arr K → Arr K → Prop) (x y : LoopState K) : Prop where
  sol : RH x.sol y.sol
  t : x.sol.t = y.sol.t
  n : x.sol.n = y.sol.n
  us : RS x.us y.us
  work : RS x.work y.work
  incr : ∀ j, RF (x.incr j) (y.incr j)
  nout : x.nout = y.nout
  tout : x.tout = y.tout
  touts : x.touts = y.touts
  status : EndSim E x.status y.status
  log : List.Forall₂ (OutSim RH) x.log y.log

lemma getNextTimeStep_congr {s s' : Sol K} (tout cfl tf : K) (hc : cflTimeStep s cfl = cflTimeStep s' cfl)
    (ht : s.t = s'.t) : getNextTimeStep s tout cfl tf = getNextTimeStep s' tout cfl tf := by
  unfold getNextTimeStep; rw [hc, ht]

lemma LoopSim.output {x y : LoopState K} (h : LoopSim E RS RH RF x y) {s s' : Sol K} (hs : RH s s') (ht : s.t = s'.t)
    (hn : s.n = s'.n) (dt : K) (o d : Bool) : LoopSim E RS RH RF (outputPhase x s dt o d) (outputPhase y s' dt o d) := by
  unfold outputPhase
  have hlog : List.Forall₂ (OutSim RH) (x.log ++ [⟨x.nout, dt, s⟩]) (y.log ++ [⟨y.nout, dt, s'⟩]) :=
    List.rel_append h.log (.cons ⟨h.nout, rfl, hs, ht, hn⟩ .nil)
  split
  · simp only
    split
    · exact ⟨hs, ht, hn, h.us, h.work, h.incr, h.nout, h.tout, h.touts, .inl rfl, hlog⟩
    · rw [h.touts]
      split
      · exact ⟨hs, ht, hn, h.us, h.work, h.incr, by simp [h.nout], h.tout, rfl, .inl rfl, hlog⟩
      · exact ⟨hs, ht, hn, h.us, h.work, h.incr, by simp [h.nout], rfl, rfl, h.status, hlog⟩
  · exact ⟨hs, ht, hn, h.us, h.work, h.incr, h.nout, h.tout, h.touts, h.status, h.log⟩

lemma applyBc_clock (s : Sol K) : s.applyBc.t = s.t ∧ s.applyBc.n = s.n := by
  unfold Sol.applyBc Sol.applyBcRight Sol.applyBcLeft
  split_ifs <;> exact ⟨rfl, rfl⟩

lemma Simulates.body (h : Simulates E env env' RS RH RF) (deck : RkDeck K) (sch : Scheme K) {x y : LoopState K}
    (hx : LoopSim E RS RH RF x y) :
    LoopSim E RS RH RF (loopBody env deck (sch.inner env) x) (loopBody env' deck (sch.inner env') y) := by
  unfold loopBody
  rcases hx.status with hst | ⟨e, e', h1, h2, hE⟩
  case inr => rw [h1, h2]; exact hx
  rw [← hst]
  split
  case h_2 => exact hx
  rw [← getNextTimeStep_congr _ _ _ (h.cfl _ _ deck.cfl hx.sol) hx.t, ← hx.tout]
  cases hg : getNextTimeStep x.sol x.tout deck.cfl deck.finaltime with
  | error e => exact ⟨hx.sol, hx.t, hx.n, hx.us, hx.work, hx.incr, hx.nout, rfl, hx.touts, .inl rfl, hx.log⟩
  | ok v =>
    obtain ⟨dt, o, d⟩ := v
    simp only
    have hsol := h.head _ _ hx.sol
    have hus := h.copy _ _ _ _ hx.us hsol
    rcases (h.inner sch hus dt (x := ⟨x.work, x.sol, x.incr⟩) (y := ⟨y.work, y.sol, y.incr⟩)
      ⟨hx.work, hsol, hx.incr⟩).cases with ⟨e, e', ha, hb, hE⟩ | ⟨ss, ss', ha, hb, hs, h1, h2, h3, h4⟩
    · rw [ha, hb]
      exact ⟨hx.sol, hx.t, hx.n, hus, hx.work, hx.incr, hx.nout, rfl, hx.touts, .inr ⟨e, e', rfl, rfl, hE⟩, hx.log⟩
    · rw [ha, hb]
      simp only at h1 h2 h3 h4 ⊢
      have hc := h.bc _ _ (h.clock _ _ dt 1 hs.sol)
      have ht : ({ ss.sol with t := ss.sol.t + dt, n := ss.sol.n + 1 } : Sol K).applyBc.t =
          ({ ss'.sol with t := ss'.sol.t + dt, n := ss'.sol.n + 1 } : Sol K).applyBc.t := by
        rw [(applyBc_clock _).1, (applyBc_clock _).1]
        simp only [h1, h3, hx.t]
      have hn : ({ ss.sol with t := ss.sol.t + dt, n := ss.sol.n + 1 } : Sol K).applyBc.n =
          ({ ss'.sol with t := ss'.sol.t + dt, n := ss'.sol.n + 1 } : Sol K).applyBc.n := by
        rw [(applyBc_clock _).2, (applyBc_clock _).2]
        simp only [h2, h4, hx.n]
      rcases (h.headLimit _ _ hc ht hn).cases with ⟨e, e', hp, hq, hE⟩ | ⟨v, v', hp, hq, hv, hvt, hvn⟩
      · rw [hp, hq]
        exact ⟨hc, ht, hn, hus, hs.work, hs.incr, hx.nout, rfl, hx.touts, .inr ⟨e, e', rfl, rfl, hE⟩, hx.log⟩
      · rw [hp, hq]
        refine LoopSim.output ?_ hv hvt hvn dt o d
        exact ⟨hx.sol, hx.t, hx.n, hus, hs.work, hs.incr, hx.nout, rfl, hx.touts, .inl rfl, hx.log⟩

lemma Simulates.init (h : Simulates E env env' RS RH RF) (deck : RkDeck K) {s s' : Sol K} (hs : RH s s') (ht : s.t = s'.t)
    (hn : s.n = s'.n) : LoopSim E RS RH RF (initLoop deck s) (initLoop deck s') := by
  unfold initLoop
  have h0 := h.head _ _ hs
  have hl : List.Forall₂ (OutSim RH) [⟨0, 0, s⟩] [⟨0, 0, s'⟩] := .cons ⟨rfl, rfl, hs, ht, hn⟩ .nil
  rw [← ht]
  simp only
  split
  · exact ⟨hs, ht, hn, h0, h0, fun _ => h.zero _ _ h0, rfl, rfl, rfl, .inl rfl, hl⟩
  · exact ⟨hs, ht, hn, h0, h0, fun _ => h.zero _ _ h0, rfl, rfl, rfl, .inl rfl, hl⟩

/-- Runs that start related stay related. -/
lemma Simulates.run (h : Simulates E env env' RS RH RF) (deck : RkDeck K) (sch : Scheme K) {s s' : Sol K} (hs : RH s s')
    (ht : s.t = s'.t) (hn : s.n = s'.n) (k : ℕ) : LoopSim E RS RH RF (sch.run env deck s k) (sch.run env' deck s' k) := by
  unfold Scheme.run runLoop
  induction k with
  | zero => exact h.init deck hs ht hn
  | succ k ih =>
    rw [Function.iterate_succ_apply', Function.iterate_succ_apply']
    exact h.body deck sch ih

end

/-- The invariant rule: properties of working solutions (`S`), loop-head solutions (`H`) and residual arrays (`F`)
that the residual, the limiter and the array operations keep. -/
structure Invariant (env : Env K) (S H : Sol K → Prop) (F : Arr K → Prop) : Prop where
  zero : ∀ s, S s → F (Arr.zeros s.u.rows s.u.cols)
  smul : ∀ a A, F A → F (A.smul a)
  axpy : ∀ a s A, S s → F A → S { s with u := s.u.add (A.smul a) }
  copy : ∀ w s, S w → S s → S (w.copyDataOnly s)
  clock : ∀ s a m, S s → S { s with t := s.t + a, n := s.n + m }
  head : ∀ s, H s → S s
  bc : ∀ s, S s → H s.applyBc
  headLimit : ∀ s v, H s → env.limit s = .ok v → H v
  stageLimit : ∀ s v, S s → env.limit s = .ok v → S v
  res : ∀ s v A, S s → env.residual s = .ok (v, A) → S v ∧ F A

lemma Invariant.run {env : Env K} {S H : Sol K → Prop} {F : Arr K → Prop} (h : Invariant env S H F)
    (deck : RkDeck K) (sch : Scheme K) {s : Sol K} (hs : H s) (k : ℕ) :
    H (sch.run env deck s k).sol ∧ ∀ o ∈ (sch.run env deck s k).log, H o.sol := by
  have sim : Simulates Eq env env (fun a b => a = b ∧ S a) (fun a b => a = b ∧ H a) (fun A B => A = B ∧ F A) :=
    { errRefl := fun _ => rfl
      zero := by rintro a _ ⟨rfl, ha⟩; exact ⟨rfl, h.zero a ha⟩
      smul := by rintro a A _ ⟨rfl, hA⟩; exact ⟨rfl, h.smul a A hA⟩
      axpy := by rintro a s _ A _ ⟨rfl, hs⟩ ⟨rfl, hA⟩; exact ⟨rfl, h.axpy a s A hs hA⟩
      copy := by rintro w _ s _ ⟨rfl, hw⟩ ⟨rfl, hs⟩; exact ⟨rfl, h.copy w s hw hs⟩
      clock := by rintro s _ a m ⟨rfl, hs⟩; exact ⟨rfl, h.clock s a m hs⟩
      head := by rintro s _ ⟨rfl, hs⟩; exact ⟨rfl, h.head s hs⟩
      bc := by rintro s _ ⟨rfl, hs⟩; exact ⟨rfl, h.bc s hs⟩
      cfl := by rintro s _ c ⟨rfl, hs⟩; rfl
      headLimit := by
        rintro s _ ⟨rfl, hs⟩ _ _
        exact ExRel.of_eq (fun _ => rfl) rfl fun v hv => ⟨⟨rfl, h.headLimit s v hs hv⟩, rfl, rfl⟩
      stageLimit := by
        rintro s _ ⟨rfl, hs⟩
        exact ExRel.of_eq (fun _ => rfl) rfl fun v hv => ⟨rfl, h.stageLimit s v hs hv⟩
      res := by
        rintro s _ ⟨rfl, hs⟩
        exact ExRel.of_eq (fun _ => rfl) rfl fun v hv => ⟨⟨rfl, (h.res s v.1 v.2 hs hv).1⟩, rfl, (h.res s v.1 v.2 hs hv).2⟩ }
  have := sim.run deck sch ⟨rfl, hs⟩ rfl rfl k
  refine ⟨this.sol.2, fun o ho => ?_⟩
  have hl := this.log
  rw [List.forall₂_same] at hl
  exact (hl o ho).sol.2

end Dg1d
