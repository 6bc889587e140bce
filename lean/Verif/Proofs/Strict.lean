import Verif.Proofs.Progress

/-! Helper lemmas: a residual that stops more often gives the same run until it stops. -/

namespace Dg1d

variable {K : Type*} [Field K] [LinearOrder K]

/-- Same limiter; where the residual of `env'` succeeds, so does that of `env`, with the same result. -/
structure Env.Stricter (env' env : Env K) : Prop where
  limit : env'.limit = env.limit
  residual : ∀ s x, env'.residual s = .ok x → env.residual s = .ok x

variable {env' env : Env K}

lemma classicStage_strict (h : env'.Stricter env) {tab : Tableau K} {us : Sol K} {dt : K} {k : ℕ} {c al : K} {st st' : StageState K}
    (he : classicStage env' tab us dt k c al st = .ok st') : classicStage env tab us dt k c al st = .ok st' := by
  unfold classicStage at he ⊢
  rw [h.limit] at he
  dsimp only at he ⊢
  generalize (if k > 0 then env.limit _ else _) = l at he ⊢
  cases l with
  | error e => cases he
  | ok uk =>
    dsimp only at he ⊢
    cases hr : env'.residual uk with
    | error e => rw [hr] at he; cases he
    | ok x => rw [hr] at he; rw [h.residual _ _ hr]; exact he

lemma classicStages_strict (h : env'.Stricter env) {tab : Tableau K} {us : Sol K} {dt : K} {l : List (K × K)} {k : ℕ} {st st' : StageState K}
    (he : classicStages env' tab us dt k l st = .ok st') : classicStages env tab us dt k l st = .ok st' := by
  induction l generalizing k st with
  | nil => exact he
  | cons x l ih =>
    obtain ⟨c, al⟩ := x
    unfold classicStages at he ⊢
    cases hs : classicStage env' tab us dt k c al st with
    | error e => rw [hs] at he; cases he
    | ok s1 =>
      rw [hs] at he
      rw [classicStage_strict h hs]
      exact ih he

lemma lowStage_strict (h : env'.Stricter env) {us : Sol K} {dt : K} {k : ℕ} {be ga : K} {st st' : StageState K}
    (he : lowStage env' us dt k be ga st = .ok st') : lowStage env us dt k be ga st = .ok st' := by
  unfold lowStage at he ⊢
  rw [h.limit] at he
  dsimp only at he ⊢
  generalize (if k > 0 then env.limit _ else _) = l at he ⊢
  cases l with
  | error e => cases he
  | ok uk =>
    dsimp only at he ⊢
    cases hr : env'.residual uk with
    | error e => rw [hr] at he; cases he
    | ok x => rw [hr] at he; rw [h.residual _ _ hr]; exact he

lemma lowStages_strict (h : env'.Stricter env) {us : Sol K} {dt : K} {l : List (K × K)} {k : ℕ} {st st' : StageState K}
    (he : lowStages env' us dt k l st = .ok st') : lowStages env us dt k l st = .ok st' := by
  induction l generalizing k st with
  | nil => exact he
  | cons x l ih =>
    obtain ⟨c, al⟩ := x
    unfold lowStages at he ⊢
    cases hs : lowStage env' us dt k c al st with
    | error e => rw [hs] at he; cases he
    | ok s1 =>
      rw [hs] at he
      rw [lowStage_strict h hs]
      exact ih he

lemma inner_strict (h : env'.Stricter env) (sch : Scheme K) {us : Sol K} {dt : K} {st st' : StageState K}
    (he : sch.inner env' us dt st = .ok st') : sch.inner env us dt st = .ok st' := by
  cases sch with
  | low => exact lowStages_strict h he
  | classic tab => exact classicStages_strict h he

/-- One iteration: the same, or the stricter one stops before it has changed the solution or written anything. -/
lemma loopBody_strict (h : env'.Stricter env) (sch : Scheme K) (deck : RkDeck K) (st : LoopState K) :
    loopBody env' deck (sch.inner env') st = loopBody env deck (sch.inner env) st ∨
    (∃ e, (loopBody env' deck (sch.inner env') st).status = .failed e) ∧ (loopBody env' deck (sch.inner env') st).sol = st.sol ∧
      (loopBody env' deck (sch.inner env') st).log = st.log := by
  unfold loopBody
  cases hs : st.status with
  | done => exact .inl rfl
  | failed e => exact .inl rfl
  | running =>
    dsimp only
    cases hg : getNextTimeStep st.sol st.tout deck.cfl deck.finaltime with
    | error e => exact .inl rfl
    | ok x =>
      obtain ⟨dt, o, d⟩ := x
      dsimp only
      cases hi : sch.inner env' (st.us.copyDataOnly st.sol) dt ⟨st.work, st.sol, st.incr⟩ with
      | error e => exact .inr ⟨⟨e, rfl⟩, rfl, rfl⟩
      | ok ss => rw [inner_strict h sch hi, h.limit]; exact .inl rfl

/-- The stricter run is the other one, or has failed and shows the state and the outputs the other one had after some `j ≤ k`
iterations. -/
lemma run_strict (h : env'.Stricter env) (sch : Scheme K) (deck : RkDeck K) (s : Sol K) (k : ℕ) :
    sch.run env' deck s k = sch.run env deck s k ∨
    (∃ e, (sch.run env' deck s k).status = .failed e) ∧ ∃ j ≤ k, (sch.run env' deck s k).sol = (sch.run env deck s j).sol ∧
      (sch.run env' deck s k).log = (sch.run env deck s j).log := by
  unfold Scheme.run
  induction k with
  | zero => exact .inl rfl
  | succ k ih =>
    rw [runLoop_succ, runLoop_succ]
    rcases ih with ih | ⟨⟨e, he⟩, j, hj, h1, h2⟩
    · rw [ih]
      rcases loopBody_strict h sch deck (runLoop env deck (sch.inner env) s k) with h1 | ⟨h1, h2, h3⟩
      · exact .inl h1
      · exact .inr ⟨h1, k, by omega, h2, h3⟩
    · right
      rw [loopBody_stopped (by rw [he]; intro h; cases h)]
      exact ⟨⟨e, he⟩, j, by omega, h1, h2⟩

end Dg1d
