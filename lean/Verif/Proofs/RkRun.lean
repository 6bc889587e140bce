import Verif.Proofs.RkLinear

/-! Helper lemmas: one main-loop iteration in terms of the textbook step; counting residual calls. -/

set_option linter.unusedSectionVars false

namespace Dg1d
variable {K : Type*} [Field K] [LinearOrder K] [IsStrictOrderedRing K]

lemma outputPhase_sol (st : LoopState K) (sol : Sol K) (dt : K) (o d : Bool) :
    (outputPhase st sol dt o d).sol = sol ∧ (outputPhase st sol dt o d).work = st.work := by
  unfold outputPhase
  split
  · simp only
    split
    · exact ⟨rfl, rfl⟩
    · split <;> exact ⟨rfl, rfl⟩
  · exact ⟨rfl, rfl⟩

lemma classic_loopBody {env : Env K} {tab : Tableau K} {R : Arr K → Arr K} {w0 : Sol K}
    (hf : tab.Fine) (hlim : ∀ s, env.limit s = .ok s)
    (hR : ∀ s, SameSetup s w0 → ∃ s', env.residual s = .ok (s', R s.u) ∧ SameSetup s' w0)
    (deck : RkDeck K) (st : LoopState K) (hw : SameSetup st.work w0) :
    SameSetup (loopBody env deck (classicInner env tab) st).work w0 ∧
    ∀ dt o d, st.status = .running → getNextTimeStep st.sol st.tout deck.cfl deck.finaltime = .ok (dt, o, d) →
      (loopBody env deck (classicInner env tab) st).sol =
        ({ st.sol with u := stepArr tab R dt st.sol.u, t := st.sol.t + dt, n := st.sol.n + 1 } : Sol K).applyBc := by
  unfold loopBody
  cases hst : st.status with
  | done => exact ⟨hw, fun _ _ _ h => by simp at h⟩
  | failed e => exact ⟨hw, fun _ _ _ h => by simp at h⟩
  | running =>
    simp only
    cases hg : getNextTimeStep st.sol st.tout deck.cfl deck.finaltime with
    | error e => exact ⟨hw, fun _ _ _ _ h => by simp at h⟩
    | ok r =>
      obtain ⟨dt, o, d⟩ := r
      obtain ⟨ss, h1, h2, h3⟩ := classicInner_spec hf hlim hR (st.us.copyDataOnly st.sol) dt
        { work := st.work, sol := st.sol, incr := st.incr } hw rfl
      simp only [h1, hlim]
      refine ⟨?_, ?_⟩
      · rw [(outputPhase_sol _ _ _ _ _).2]; exact h2
      · intro dt' o' d' _ h
        simp only [Except.ok.injEq, Prod.mk.injEq] at h
        obtain ⟨rfl, rfl, rfl⟩ := h
        rw [(outputPhase_sol _ _ _ _ _).1, h3]
        rfl

lemma initLoop_work (deck : RkDeck K) (sol : Sol K) : (initLoop deck sol).work = sol := by
  unfold initLoop
  simp only
  split <;> rfl

lemma classic_run_work {env : Env K} {tab : Tableau K} {R : Arr K → Arr K} {sol : Sol K}
    (hf : tab.Fine) (hlim : ∀ s, env.limit s = .ok s)
    (hR : ∀ s, SameSetup s sol → ∃ s', env.residual s = .ok (s', R s.u) ∧ SameSetup s' sol)
    (deck : RkDeck K) (k : ℕ) : SameSetup (Scheme.run (.classic tab) env deck sol k).work sol := by
  induction k with
  | zero =>
    show SameSetup (initLoop deck sol).work sol
    rw [initLoop_work]; exact SameSetup.refl _
  | succ k ih =>
    unfold Scheme.run at *
    rw [runLoop_succ]
    exact (classic_loopBody hf hlim hR deck _ ih).1

lemma classic_run_step {env : Env K} {tab : Tableau K} {R : Arr K → Arr K} {sol : Sol K}
    (hf : tab.Fine) (hlim : ∀ s, env.limit s = .ok s)
    (hR : ∀ s, SameSetup s sol → ∃ s', env.residual s = .ok (s', R s.u) ∧ SameSetup s' sol)
    (deck : RkDeck K) (k : ℕ) (dt : K) (o d : Bool)
    (hrun : (Scheme.run (.classic tab) env deck sol k).status = .running)
    (hdt : getNextTimeStep (Scheme.run (.classic tab) env deck sol k).sol
      (Scheme.run (.classic tab) env deck sol k).tout deck.cfl deck.finaltime = .ok (dt, o, d)) :
    (Scheme.run (.classic tab) env deck sol (k + 1)).sol =
      ({ (Scheme.run (.classic tab) env deck sol k).sol with
          u := stepArr tab R dt (Scheme.run (.classic tab) env deck sol k).sol.u,
          t := (Scheme.run (.classic tab) env deck sol k).sol.t + dt,
          n := (Scheme.run (.classic tab) env deck sol k).sol.n + 1 } : Sol K).applyBc := by
  have hw := classic_run_work hf hlim hR deck k
  have := (classic_loopBody hf hlim hR deck _ hw).2 dt o d hrun hdt
  rw [← this]
  unfold Scheme.run
  rw [runLoop_succ]
  rfl

/-! ### The shipped tables -/

lemma tables_fine : (rk3.map (fun q : ℚ => (q : K))).Fine ∧ (rk4.map (fun q : ℚ => (q : K))).Fine ∧
    (rk5.map (fun q : ℚ => (q : K))).Fine ∧ (rk8.map (fun q : ℚ => (q : K))).Fine ∧
    (rk10.map (fun q : ℚ => (q : K))).Fine ∧ (rk12.map (fun q : ℚ => (q : K))).Fine ∧
    (rk14.map (fun q : ℚ => (q : K))).Fine := by
  refine ⟨?_, ?_, ?_, ?_, ?_, ?_, ?_⟩ <;> apply fine_of_check <;> decide +kernel

/-- The table a scheme name stands for (`low_storage_rk4` is rk4, see C05). -/
noncomputable def tableOf (rk : String) : Tableau ℝ :=
  match schemeFor rk with
  | .low => rk4.map (↑)
  | .classic tab => tab

lemma tableOf_fine (rk : String) : (tableOf rk).Fine := by
  obtain ⟨h3, h4, h5, h8, h10, h12, h14⟩ := tables_fine (K := ℝ)
  unfold tableOf schemeFor
  split
  · exact h4
  · rename_i heq
    split_ifs at heq <;> cases heq <;> first | assumption | exact rk6_fine

lemma schemeFor_run (rk : String) (env : Env ℝ) (deck : RkDeck ℝ) (sol : Sol ℝ) (k : ℕ) :
    SameLoop (Scheme.run (.classic (tableOf rk)) env deck sol k) ((schemeFor rk).run env deck sol k) := by
  unfold tableOf
  cases h : schemeFor rk with
  | low => exact sameLoop_run env deck deck ⟨rfl, rfl, rfl⟩ sol k
  | classic tab => rfl

/-! ### Counting residual calls -/

/-- Number of stages of a scheme: length of the lists its inner loop runs over. -/
def Scheme.stages : Scheme K → ℕ
  | .low => 4
  | .classic tab => tab.coeffs.length

lemma classicStages_count {env : Env K} (hres : ∀ s s' F, env.residual s = .ok (s', F) → s'.n = s.n + 1)
    (hlim : ∀ s s', env.limit s = .ok s' → s'.n = s.n) (tab : Tableau K) (us : Sol K) (dt : K)
    (l : List (K × K)) : ∀ (k : ℕ) (st st' : StageState K),
      classicStages env tab us dt k l st = .ok st' → st'.work.n = st.work.n + l.length := by
  have acc : ∀ k incr (uk : Sol K), (accumulate tab k incr uk).n = uk.n := by
    intro k incr uk
    unfold accumulate
    generalize List.range k = L
    induction L generalizing uk with
    | nil => rfl
    | cons a L ih =>
      rw [List.foldl_cons, ih]
      unfold Sol.smartAxpy; split <;> rfl
  induction l with
  | nil => intro k st st' h; simp [classicStages] at h; subst h; simp
  | cons a l ih =>
    intro k st st' h
    obtain ⟨c, al⟩ := a
    rw [classicStages] at h
    cases hs : classicStage env tab us dt k c al st with
    | error e => simp [hs] at h
    | ok st1 =>
      simp only [hs] at h
      rw [ih _ _ _ h, List.length_cons]
      suffices st1.work.n = st.work.n + 1 by omega
      unfold classicStage at hs
      simp only at hs
      have hukn := acc k st.incr (st.work.copyDataOnly us)
      have hl : ∀ w w' : Sol K, (if k > 0 then env.limit w else .ok w) = .ok w' → w.n = st.work.n → w'.n = st.work.n := by
        intro w w' hw' hn
        split at hw'
        · rw [hlim _ _ hw', hn]
        · cases hw'; exact hn
      split at hs
      · cases hs
      · rename_i w' hw'
        have h1 := hl _ _ hw' hukn
        cases hr : env.residual w' with
        | error e => simp [hr] at hs
        | ok r =>
          obtain ⟨s', F⟩ := r
          have h2 := hres _ _ _ hr
          simp only [hr, Except.ok.injEq] at hs
          subst hs
          simp only
          omega

lemma lowStages_count {env : Env K} (hres : ∀ s s' F, env.residual s = .ok (s', F) → s'.n = s.n + 1)
    (hlim : ∀ s s', env.limit s = .ok s' → s'.n = s.n) (us : Sol K) (dt : K)
    (l : List (K × K)) : ∀ (k : ℕ) (st st' : StageState K),
      lowStages env us dt k l st = .ok st' → st'.work.n = st.work.n + l.length := by
  induction l with
  | nil => intro k st st' h; simp [lowStages] at h; subst h; simp
  | cons a l ih =>
    intro k st st' h
    obtain ⟨c, al⟩ := a
    rw [lowStages] at h
    cases hs : lowStage env us dt k c al st with
    | error e => simp [hs] at h
    | ok st1 =>
      simp only [hs] at h
      rw [ih _ _ _ h, List.length_cons]
      suffices st1.work.n = st.work.n + 1 by omega
      unfold lowStage at hs
      simp only at hs
      have hukn : ((st.work.copyDataOnly us).smartAxpy c (st.incr 0)).n = st.work.n := by
        unfold Sol.smartAxpy; split <;> rfl
      have hl : ∀ w w' : Sol K, (if k > 0 then env.limit w else .ok w) = .ok w' → w.n = st.work.n → w'.n = st.work.n := by
        intro w w' hw' hn
        split at hw'
        · rw [hlim _ _ hw', hn]
        · cases hw'; exact hn
      split at hs
      · cases hs
      · rename_i w' hw'
        have h1 := hl _ _ hw' hukn
        cases hr : env.residual w' with
        | error e => simp [hr] at hs
        | ok r =>
          obtain ⟨s', F⟩ := r
          have h2 := hres _ _ _ hr
          simp only [hr, Except.ok.injEq] at hs
          subst hs
          simp only
          omega

lemma inner_count (sch : Scheme K) (hsch : ∀ tab, sch = .classic tab → tab.alphas.length = tab.coeffs.length)
    {env : Env K} (hres : ∀ s s' F, env.residual s = .ok (s', F) → s'.n = s.n + 1)
    (hlim : ∀ s s', env.limit s = .ok s' → s'.n = s.n) (us : Sol K) (dt : K) (st st' : StageState K)
    (h : sch.inner env us dt st = .ok st') : st'.work.n = st.work.n + sch.stages := by
  cases sch with
  | low => exact lowStages_count hres hlim us dt _ 0 st st' h
  | classic tab =>
    have := classicStages_count hres hlim tab us dt _ 0 st st' h
    rw [this, List.length_zip, hsch tab rfl, min_self]
    rfl

lemma run_count (sch : Scheme K) (hsch : ∀ tab, sch = .classic tab → tab.alphas.length = tab.coeffs.length)
    {env : Env K} (hres : ∀ s s' F, env.residual s = .ok (s', F) → s'.n = s.n + 1)
    (hlim : ∀ s s', env.limit s = .ok s' → s'.n = s.n) (deck : RkDeck K) (sol : Sol K) (k : ℕ)
    (hrun : (sch.run env deck sol k).status = .running) :
    (sch.run env deck sol k).work.n = sol.n + k * sch.stages := by
  induction k with
  | zero =>
    show (initLoop deck sol).work.n = _
    rw [initLoop_work]; simp
  | succ k ih =>
    unfold Scheme.run at *
    rw [runLoop_succ] at hrun ⊢
    set st := runLoop env deck (sch.inner env) sol k
    have hst : st.status = .running := by
      by_contra h
      rw [loopBody_stopped h] at hrun
      exact h hrun
    have ih := ih hst
    unfold loopBody at hrun ⊢
    simp only [hst] at hrun ⊢
    cases hg : getNextTimeStep st.sol st.tout deck.cfl deck.finaltime with
    | error e => simp [hg] at hrun
    | ok r =>
      obtain ⟨dt, o, d⟩ := r
      simp only [hg] at hrun ⊢
      cases hi : sch.inner env (st.us.copyDataOnly st.sol) dt { work := st.work, sol := st.sol, incr := st.incr } with
      | error e => simp [hi] at hrun
      | ok ss =>
        simp only [hi] at hrun ⊢
        have hc := inner_count sch hsch hres hlim _ _ _ _ hi
        revert hrun
        split
        · simp
        · intro _
          rw [(outputPhase_sol _ _ _ _ _).2, hc, ih]
          ring

end Dg1d
