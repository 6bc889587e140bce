import Verif.Proofs.Progress
import Verif.Proofs.RkStep

/-! Helper lemmas: two residuals that agree at the stages of a step make the same step; when an iteration cannot fail. -/

set_option linter.unusedSectionVars false

namespace Dg1d
variable {K : Type*} [Field K] [LinearOrder K] [IsStrictOrderedRing K]
variable {env env' : Env K} {tab : Tableau K} {R : Arr K → Arr K} {w0 : Sol K}

lemma classicStage_agree (hlim : ∀ s, env.limit s = .ok s) (hlim' : ∀ s, env'.limit s = .ok s)
    (us : Sol K) (dt : K) (k : ℕ) (c alpha : K) (st : StageState K) (hb : ∀ j < k, NotTiny (tab.beta k j)) (hw : SameSetup st.work w0)
    (hi : ∀ j < k, st.incr j = (R (stageArr tab R dt us.u j)).smul dt)
    (hag : ∀ a, SameSetup a w0 → a.u = stageArr tab R dt us.u k → env'.residual a = env.residual a) :
    classicStage env' tab us dt k c alpha st = classicStage env tab us dt k c alpha st := by
  unfold classicStage
  simp only
  rw [accumulate_spec _ _ _ _ hb]
  have hU : ({ (st.work.copyDataOnly us).u with val := fun r c => (st.work.copyDataOnly us).u.val r c + ∑ j ∈ Finset.range k, tab.beta k j * (st.incr j).val r c } : Arr K)
      = stageArr tab R dt us.u k := by
    have h2 := stageArr_val tab R dt us.u k
    have h3 : stageArr tab R dt us.u k = { us.u with val := (stageArr tab R dt us.u k).val } := rfl
    rw [h3, h2]
    simp only [Sol.copyDataOnly]
    congr 1
    funext r c
    congr 1
    apply Finset.sum_congr rfl
    intro j hj
    rw [hi j (Finset.mem_range.mp hj)]
    rfl
  rw [hU]
  set uk : Sol K := { (st.work.copyDataOnly us) with u := stageArr tab R dt us.u k, t := (st.work.copyDataOnly us).t + alpha * dt } with huk
  have hsame : SameSetup uk w0 := by
    constructor <;> simp [huk, Sol.copyDataOnly, hw.basis, hw.kw, hw.NE, hw.NF, hw.x, hw.xc, hw.dx, hw.scaledMinv, hw.bcl, hw.bcr, hw.enhance]
  have hl : (if k > 0 then env.limit uk else .ok uk) = .ok uk := by
    split
    · exact hlim uk
    · rfl
  have hl' : (if k > 0 then env'.limit uk else .ok uk) = .ok uk := by
    split
    · exact hlim' uk
    · rfl
  simp only [hl, hl']
  rw [hag uk hsame rfl]

lemma classicStages_agree (hlim : ∀ s, env.limit s = .ok s) (hlim' : ∀ s, env'.limit s = .ok s)
    (hR : ∀ s, SameSetup s w0 → ∃ s', env.residual s = .ok (s', R s.u) ∧ SameSetup s' w0)
    (us : Sol K) (dt : K) (l : List (K × K)) :
    ∀ (k : ℕ) (st : StageState K),
    (∀ i < l.length, ∀ j < k + i, NotTiny (tab.beta (k + i) j)) →
    (∀ i < l.length, NotTiny (l.getD i (0, 0)).1) →
    SameSetup st.work w0 →
    (∀ j < k, st.incr j = (R (stageArr tab R dt us.u j)).smul dt) →
    (∀ i < l.length, ∀ a, SameSetup a w0 → a.u = stageArr tab R dt us.u (k + i) → env'.residual a = env.residual a) →
    classicStages env' tab us dt k l st = classicStages env tab us dt k l st := by
  induction l with
  | nil => intro k st _ _ _ _ _; rfl
  | cons a l ih =>
    obtain ⟨c, alpha⟩ := a
    intro k st hb hc hw hi hag
    have hb0 := hb 0 (by simp)
    simp only [add_zero] at hb0
    have hc0 := hc 0 (by simp)
    simp only [List.getD_cons_zero] at hc0
    have hag0 := hag 0 (by simp)
    rw [add_zero] at hag0
    obtain ⟨st1, h1, hw1, hi1, -⟩ := classicStage_spec hlim hR us dt k c alpha st hb0 hc0 hw hi
    unfold classicStages
    rw [classicStage_agree hlim hlim' us dt k c alpha st hb0 hw hi hag0, h1]
    simp only
    refine ih (k + 1) st1 ?_ ?_ hw1 hi1 ?_
    · intro i hil j hj
      have := hb (i + 1) (by simpa using hil) j (by omega)
      rwa [show k + (i + 1) = k + 1 + i by omega] at this
    · intro i hil
      have := hc (i + 1) (by simpa using hil)
      simpa using this
    · intro i hil a ha hau
      exact hag (i + 1) (by simpa using hil) a ha (by rw [hau, show k + (i + 1) = k + 1 + i by omega])

lemma classicInner_agree (hf : tab.Fine) (hlim : ∀ s, env.limit s = .ok s) (hlim' : ∀ s, env'.limit s = .ok s)
    (hR : ∀ s, SameSetup s w0 → ∃ s', env.residual s = .ok (s', R s.u) ∧ SameSetup s' w0)
    (us : Sol K) (dt : K) (st : StageState K) (hw : SameSetup st.work w0)
    (hag : ∀ i < tab.coeffs.length, ∀ a, SameSetup a w0 → a.u = stageArr tab R dt us.u i → env'.residual a = env.residual a) :
    classicInner env' tab us dt st = classicInner env tab us dt st := by
  have hlen : (tab.coeffs.zip tab.alphas).length = tab.coeffs.length := by
    rw [List.length_zip, hf.len, min_self]
  refine classicStages_agree hlim hlim' hR us dt _ 0 st ?_ ?_ hw (by simp) ?_
  · intro i hi j hj; rw [hlen] at hi; rw [zero_add] at hj ⊢; exact hf.beta i hi j hj
  · intro i hi; rw [hlen] at hi
    rw [zip_getD_fst _ _ hf.len _ hi]; exact hf.coeff i hi
  · intro i hi a ha hau
    rw [hlen] at hi
    exact hag i hi a ha (by rw [hau, zero_add])

/-- The first state is not a failure. -/
lemma init_ok {deck : RkDeck K} {s : Sol K} (hN : 2 ≤ deck.nout) (e : PyErr) : (initLoop deck s).status ≠ .failed e := by
  unfold initLoop
  simp only
  rw [touts_init _ _ hN]
  obtain ⟨m, hm⟩ : ∃ m, deck.nout - 1 = m + 1 := ⟨deck.nout - 2, by omega⟩
  rw [hm, List.range'_succ]
  simp

/-- An iteration whose time step, stages and limiter succeed does not fail. -/
lemma iteration_ok (hk : env.KeepsClock) (sch : Scheme K) {deck : RkDeck K} {s : Sol K} (h0 : s.t ≤ deck.finaltime) (hN : 2 ≤ deck.nout) {k : ℕ}
    (hr : (sch.run env deck s k).status = .running) {x : K} {o d : Bool}
    (hnext : getNextTimeStep (sch.run env deck s k).sol (sch.run env deck s k).tout deck.cfl deck.finaltime = .ok (x, o, d)) {ss : StageState K}
    (hin : sch.inner env ((sch.run env deck s k).us.copyDataOnly (sch.run env deck s k).sol) x ⟨(sch.run env deck s k).work, (sch.run env deck s k).sol, (sch.run env deck s k).incr⟩ = .ok ss)
    (hlim : ∀ a, env.limit a = .ok a) (e : PyErr) : (sch.run env deck s (k + 1)).status ≠ .failed e := by
  have hE : sch.run env deck s (k + 1) = loopBody env deck (sch.inner env) (sch.run env deck s k) := by
    unfold Scheme.run; rw [runLoop_succ]
  rw [hE]
  have htime := timeInv_run hk sch deck s h0 k
  obtain ⟨r1, r2, r3, r4, r5, r6⟩ := htime.run hr
  set st := sch.run env deck s k with hst
  unfold loopBody
  rw [hr]
  simp only
  rw [hnext]
  simp only
  rw [hin]
  simp only
  rw [hlim]
  simp only
  unfold outputPhase
  simp only
  split
  · split
    · simp
    · rename_i ho hd
      have htout : st.tout < deck.finaltime := by
        rcases getNext_cases hnext with ⟨_, h2, _⟩ | ⟨_, _, _, y, _, h1, h2, _⟩ | ⟨h1, _⟩
        · exact absurd h2 hd
        · linarith
        · rw [h1] at ho; simp at ho
      rw [r4]
      have hlt : st.nout < deck.nout - 1 := by
        by_contra hc
        have : st.nout = deck.nout - 1 := by omega
        rw [r3, this, outTime_last _ _ hN] at htout
        exact lt_irrefl _ htout
      obtain ⟨m, hm⟩ : ∃ m, deck.nout - 1 - st.nout = m + 1 := ⟨deck.nout - 1 - st.nout - 1, by omega⟩
      rw [hm, List.range'_succ]
      simp
  · simp

end Dg1d
