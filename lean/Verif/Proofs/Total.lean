import Verif.Proofs.RkRun

/-! Helper lemmas: a run that does not fail is also a run with any extension of the residual and the limiter. -/

set_option linter.unusedSectionVars false

namespace Dg1d
variable {K : Type*} [Field K] [LinearOrder K] [IsStrictOrderedRing K]

/-- Wherever `env` returns, `env'` returns the same. -/
structure Env.Extends (env env' : Env K) : Prop where
  residual : ∀ s x, env.residual s = .ok x → env'.residual s = .ok x
  limit : ∀ s x, env.limit s = .ok x → env'.limit s = .ok x

variable {env env' : Env K}

lemma Env.Extends.limitIf (h : env.Extends env') {b : Prop} [Decidable b] {s x : Sol K} (hs : (if b then env.limit s else .ok s) = .ok x) :
    (if b then env'.limit s else .ok s) = .ok x := by
  by_cases hb : b
  · rw [if_pos hb] at hs ⊢; exact h.limit _ _ hs
  · rw [if_neg hb] at hs ⊢; exact hs

lemma Env.Extends.classicStages (h : env.Extends env') {tab : Tableau K} {us : Sol K} {dt : K} (l : List (K × K)) :
    ∀ {k : ℕ} {st st' : StageState K}, Dg1d.classicStages env tab us dt k l st = .ok st' → Dg1d.classicStages env' tab us dt k l st = .ok st' := by
  induction l with
  | nil => intro k st st' hs; exact hs
  | cons a l ih =>
    intro k st st' hs
    obtain ⟨c, al⟩ := a
    unfold Dg1d.classicStages at hs ⊢
    unfold classicStage at hs ⊢
    simp only at hs ⊢
    generalize hl : (if k > 0 then env.limit { accumulate tab k st.incr (st.work.copyDataOnly us) with t := (accumulate tab k st.incr (st.work.copyDataOnly us)).t + al * dt } else .ok { accumulate tab k st.incr (st.work.copyDataOnly us) with t := (accumulate tab k st.incr (st.work.copyDataOnly us)).t + al * dt }) = r at hs
    cases r with
    | error e => cases hs
    | ok uk =>
      rw [h.limitIf hl]
      simp only at hs ⊢
      cases hr : env.residual uk with
      | error e => rw [hr] at hs; cases hs
      | ok x =>
        obtain ⟨u', F⟩ := x
        rw [hr] at hs
        rw [h.residual _ _ hr]
        exact ih hs

lemma Env.Extends.lowStages (h : env.Extends env') {us : Sol K} {dt : K} (l : List (K × K)) :
    ∀ {k : ℕ} {st st' : StageState K}, Dg1d.lowStages env us dt k l st = .ok st' → Dg1d.lowStages env' us dt k l st = .ok st' := by
  induction l with
  | nil => intro k st st' hs; exact hs
  | cons a l ih =>
    intro k st st' hs
    obtain ⟨be, ga⟩ := a
    unfold Dg1d.lowStages at hs ⊢
    unfold lowStage at hs ⊢
    simp only at hs ⊢
    generalize hl : (if k > 0 then env.limit { (st.work.copyDataOnly us).smartAxpy be (st.incr 0) with t := ((st.work.copyDataOnly us).smartAxpy be (st.incr 0)).t + be * dt } else .ok { (st.work.copyDataOnly us).smartAxpy be (st.incr 0) with t := ((st.work.copyDataOnly us).smartAxpy be (st.incr 0)).t + be * dt }) = r at hs
    cases r with
    | error e => cases hs
    | ok uk =>
      rw [h.limitIf hl]
      simp only at hs ⊢
      cases hr : env.residual uk with
      | error e => rw [hr] at hs; cases hs
      | ok x =>
        obtain ⟨u', F⟩ := x
        rw [hr] at hs
        rw [h.residual _ _ hr]
        exact ih hs

lemma Env.Extends.inner (h : env.Extends env') (sch : Scheme K) {us : Sol K} {dt : K} {st st' : StageState K}
    (hs : sch.inner env us dt st = .ok st') : sch.inner env' us dt st = .ok st' := by
  cases sch with
  | low => exact h.lowStages _ hs
  | classic tab => exact h.classicStages _ hs

lemma Env.Extends.loopBody (h : env.Extends env') (deck : RkDeck K) (sch : Scheme K) (st : LoopState K)
    (hs : ∀ e, (loopBody env deck (sch.inner env) st).status ≠ .failed e ∨ st.status = .failed e) :
    Dg1d.loopBody env' deck (sch.inner env') st = Dg1d.loopBody env deck (sch.inner env) st := by
  unfold Dg1d.loopBody at hs ⊢
  cases hst : st.status with
  | done => rfl
  | failed e => rfl
  | running =>
    simp only [hst] at hs ⊢
    cases hg : getNextTimeStep st.sol st.tout deck.cfl deck.finaltime with
    | error e => rfl
    | ok r =>
      obtain ⟨dt, o, d⟩ := r
      simp only [hg] at hs ⊢
      cases hi : sch.inner env (st.us.copyDataOnly st.sol) dt { work := st.work, sol := st.sol, incr := st.incr } with
      | error e =>
        rw [hi] at hs
        have := hs e
        simp at this
      | ok ss =>
        rw [h.inner sch hi]
        rw [hi] at hs
        simp only at hs ⊢
        cases hl : env.limit ({ ss.sol with t := ss.sol.t + dt, n := ss.sol.n + 1 } : Sol K).applyBc with
        | error e =>
          rw [hl] at hs
          have := hs e
          simp at this
        | ok sol =>
          rw [h.limit _ _ hl]

/-- A run of `env` that has not failed is the run of `env'`. -/
lemma Env.Extends.run (h : env.Extends env') (deck : RkDeck K) (sch : Scheme K) (sol : Sol K) (k : ℕ)
    (hs : ∀ e, (sch.run env deck sol k).status ≠ .failed e) : sch.run env' deck sol k = sch.run env deck sol k := by
  induction k with
  | zero => rfl
  | succ k ih =>
    unfold Scheme.run at ih hs ⊢
    rw [runLoop_succ, runLoop_succ]
    rw [runLoop_succ] at hs
    have hk : ∀ e, (runLoop env deck (sch.inner env) sol k).status ≠ .failed e := by
      intro e he
      apply hs e
      rw [loopBody_stopped (by rw [he]; simp), he]
    rw [ih hk]
    exact h.loopBody deck sch _ fun e => .inl (hs e)

end Dg1d
