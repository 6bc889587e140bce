import Verif.Proofs.RkRun
import Verif.Proofs.RoundedRun

/-! Helper lemmas: with exact arithmetic the rounded solver is the solver of `Model/Dg.lean` and `Model/Rk.lean`. -/

namespace Dg1d.Rounded

section
variable {s : Sol ℝ}

lemma residual_arr {a : Sol ℝ} (h : SameSetup a s) : residual exact a = advArr s (bcArr s a.u) := by
  have h2 := (applyBc_setup a).trans h
  rw [← bcArr_eq h]
  unfold residual advArr
  simp only [h2.basis, h2.NF, h2.scaledMinv]
  rfl

lemma axpy_exact (a : Sol ℝ) (c : ℝ) (x : Arr ℝ) : a.smartAxpy c x = { a with u := axpy exact a.u c x } := by
  have hx : axpy exact a.u c x = if |c| > 1 / 10 ^ 15 then a.u.add (x.smul c) else a.u := rfl
  rw [hx]
  unfold Sol.smartAxpy
  by_cases h : |c| > 1 / 10 ^ 15
  · rw [if_pos h, if_pos h]
  · rw [if_neg h, if_neg h]

lemma accumulate_exact (tab : Tableau ℝ) (k : ℕ) {incr incr' : ℕ → Arr ℝ} (h : ∀ j < k, incr j = incr' j) (a : Sol ℝ) :
    Dg1d.accumulate tab k incr a = { a with u := accumulate exact tab k incr' a.u } := by
  unfold Dg1d.accumulate accumulate
  have : ∀ l : List ℕ, (∀ j ∈ l, j < k) → ∀ a : Sol ℝ, l.foldl (fun uk j => uk.smartAxpy (tab.beta k j) (incr j)) a =
      { a with u := l.foldl (fun u j => axpy exact u (tab.beta k j) (incr' j)) a.u } := by
    intro l
    induction l with
    | nil => intro _ a; rfl
    | cons j l ih =>
      intro hl a
      rw [List.foldl_cons, ih (fun i hi => hl i (List.mem_cons_of_mem _ hi)), List.foldl_cons, h j (hl j List.mem_cons_self), axpy_exact]
  exact this _ (fun j hj => List.mem_range.mp hj) a

lemma smul_exact (F : Arr ℝ) (dt : ℝ) : F.smul dt = { F with val := fun r c => exact.rnd (dt * F.val r c) } := rfl

lemma stages_exact (hk : s.kw = Advection.physics) (hen : s.enhance = none) {lim : Sol ℝ → Except PyErr (Sol ℝ)} (hlim : ∀ a, lim a = .ok a)
    (tab : Tableau ℝ) {us b : Sol ℝ} (hb : SameSetup b s) (hu : b.u = us.u) (dt : ℝ) (l : List (ℝ × ℝ)) :
    ∀ (k : ℕ) (st : StageState ℝ) (incr' : ℕ → Arr ℝ), SameSetup st.work s → (∀ j < k, st.incr j = incr' j) →
      ∃ st', classicStages ⟨Dg1d.residual, lim⟩ tab us dt k l st = .ok st' ∧ SameSetup st'.work s ∧
        st'.sol = { st.sol with u := stages exact tab b dt k l st.sol.u incr' } := by
  induction l with
  | nil => intro k st incr' hw _; exact ⟨st, rfl, hw, rfl⟩
  | cons a l ih =>
    obtain ⟨c, alpha⟩ := a
    intro k st incr' hw hi
    unfold classicStages classicStage stages
    simp only
    rw [accumulate_exact tab k hi]
    set uk : Sol ℝ := { (st.work.copyDataOnly us) with u := accumulate exact tab k incr' (st.work.copyDataOnly us).u, t := (st.work.copyDataOnly us).t + alpha * dt } with huk
    have hsame : SameSetup uk s := by
      constructor <;> simp [huk, Sol.copyDataOnly, hw.basis, hw.kw, hw.NE, hw.NF, hw.x, hw.xc, hw.dx, hw.scaledMinv, hw.bcl, hw.bcr, hw.enhance]
    have hl : (if k > 0 then lim uk else .ok uk) = .ok uk := by
      split
      · exact hlim uk
      · rfl
    simp only [hl, advArr_residual hk hen hsame]
    have hinc : (advArr s (bcArr s uk.u)).smul dt = increment exact tab b dt k incr' := by
      unfold increment
      have hb' : SameSetup ({ b with u := accumulate exact tab k incr' b.u } : Sol ℝ) s := by
        constructor <;> simp [hb.basis, hb.kw, hb.NE, hb.NF, hb.x, hb.xc, hb.dx, hb.scaledMinv, hb.bcl, hb.bcr, hb.enhance]
      rw [residual_arr hb', smul_exact, hu]
      rfl
    rw [hinc]
    have hstep := ih (k + 1) { work := uk.applyBc, sol := st.sol.smartAxpy c (Function.update st.incr k (increment exact tab b dt k incr') k), incr := Function.update st.incr k (increment exact tab b dt k incr') } (Function.update incr' k (increment exact tab b dt k incr'))
      ((applyBc_setup uk).trans hsame) (by
        intro j hj
        by_cases hjk : j = k
        · subst hjk; simp
        · show Function.update st.incr k _ j = _
          rw [Function.update_of_ne hjk, Function.update_of_ne hjk]
          exact hi j (by omega))
    obtain ⟨st', h1, h2, h3⟩ := hstep
    refine ⟨st', h1, h2, ?_⟩
    rw [h3, axpy_exact]
    simp only [Function.update_self]

lemma applyBc_clock (a : Sol ℝ) (t : ℝ) (n : ℕ) : ({ a with t := t, n := n } : Sol ℝ).applyBc = { a.applyBc with t := t, n := n } := by
  unfold Sol.applyBc Sol.applyBcRight Sol.applyBcLeft
  simp only
  split_ifs <;> rfl

/-- One iteration of the main loop. -/
lemma loopBody_exact (hk : s.kw = Advection.physics) (hen : s.enhance = none) {lim : Sol ℝ → Except PyErr (Sol ℝ)} (hlim : ∀ a, lim a = .ok a)
    (tab : Tableau ℝ) (deck : RkDeck ℝ) (st : LoopState ℝ) (hw : SameSetup st.work s) (hsol : SameSetup st.sol s) :
    SameSetup (loopBody ⟨Dg1d.residual, lim⟩ deck (classicInner ⟨Dg1d.residual, lim⟩ tab) st).work s ∧
    SameSetup (loopBody ⟨Dg1d.residual, lim⟩ deck (classicInner ⟨Dg1d.residual, lim⟩ tab) st).sol s ∧
    ∀ dt o d, st.status = .running → getNextTimeStep st.sol st.tout deck.cfl deck.finaltime = .ok (dt, o, d) →
      (loopBody ⟨Dg1d.residual, lim⟩ deck (classicInner ⟨Dg1d.residual, lim⟩ tab) st).sol = { step exact tab dt st.sol with t := st.sol.t + dt, n := st.sol.n + 1 } := by
  unfold loopBody
  cases hst : st.status with
  | done => exact ⟨hw, hsol, fun _ _ _ h => by simp at h⟩
  | failed e => exact ⟨hw, hsol, fun _ _ _ h => by simp at h⟩
  | running =>
    simp only
    cases hg : getNextTimeStep st.sol st.tout deck.cfl deck.finaltime with
    | error e => exact ⟨hw, hsol, fun _ _ _ _ h => by simp at h⟩
    | ok r =>
      obtain ⟨dt, o, d⟩ := r
      obtain ⟨ss, h1, h2, h3⟩ := stages_exact hk hen hlim tab (us := st.us.copyDataOnly st.sol) (b := st.sol) hsol rfl dt (tab.coeffs.zip tab.alphas) 0
        { work := st.work, sol := st.sol, incr := st.incr } (fun _ => Arr.zeros st.sol.u.rows st.sol.u.cols) hw (fun j hj => absurd hj (by omega))
      have hin : classicInner ⟨Dg1d.residual, lim⟩ tab (st.us.copyDataOnly st.sol) dt { work := st.work, sol := st.sol, incr := st.incr } = .ok ss := h1
      have hval : ({ ss.sol with t := ss.sol.t + dt, n := ss.sol.n + 1 } : Sol ℝ).applyBc = { step exact tab dt st.sol with t := st.sol.t + dt, n := st.sol.n + 1 } := by
        rw [applyBc_clock, h3]
        rfl
      simp only [hin, hlim, hval]
      rw [(outputPhase_sol _ _ _ _ _).1, (outputPhase_sol _ _ _ _ _).2]
      refine ⟨h2, ?_, ?_⟩
      · have : SameSetup (step exact tab dt st.sol) st.sol := (applyBc_setup _).trans (by constructor <;> rfl)
        have := this.trans hsol
        constructor <;> simp [this.basis, this.kw, this.NE, this.NF, this.x, this.xc, this.dx, this.scaledMinv, this.bcl, this.bcr, this.enhance]
      · intro dt' o' d' _ h
        simp only [Except.ok.injEq, Prod.mk.injEq] at h
        obtain ⟨rfl, rfl, rfl⟩ := h
        rfl

lemma scheme_setup (hk : s.kw = Advection.physics) (hen : s.enhance = none) {lim : Sol ℝ → Except PyErr (Sol ℝ)} (hlim : ∀ a, lim a = .ok a)
    (tab : Tableau ℝ) (deck : RkDeck ℝ) (k : ℕ) :
    SameSetup (Scheme.run (.classic tab) ⟨Dg1d.residual, lim⟩ deck s k).work s ∧ SameSetup (Scheme.run (.classic tab) ⟨Dg1d.residual, lim⟩ deck s k).sol s := by
  induction k with
  | zero =>
    have h0 : (initLoop deck s).sol = s := by
      unfold initLoop
      simp only
      split <;> rfl
    show SameSetup (initLoop deck s).work s ∧ SameSetup (initLoop deck s).sol s
    rw [initLoop_work, h0]
    exact ⟨SameSetup.refl _, SameSetup.refl _⟩
  | succ k ih =>
    unfold Scheme.run at *
    rw [runLoop_succ]
    have := loopBody_exact hk hen hlim tab deck _ ih.1 ih.2
    exact ⟨this.1, this.2.1⟩

lemma exact_setting {A : Arith} {ε η : ℝ} {lib : GaussLib ℝ} {p f : ℕ} (c : Setting A ε η s lib p f) : Setting exact 0 0 s lib p f :=
  { eps0 := le_rfl
    eps1 := by norm_num
    eta0 := le_rfl
    eta1 := by norm_num
    rnd := fun x => by simp [exact]
    dot := fun n _ a b => by simp [exact]
    built := c.built
    kw := c.kw
    enhance := c.enhance
    bcl := c.bcl
    bcr := c.bcr
    dx := c.dx
    field := c.field }

lemma SameSetup.withU {a : Sol ℝ} (h : SameSetup a s) (v : Arr ℝ) : SameSetup ({ a with u := v } : Sol ℝ) s := by
  constructor <;> simp [h.basis, h.kw, h.NE, h.NF, h.x, h.xc, h.dx, h.scaledMinv, h.bcl, h.bcr, h.enhance]

lemma increment_congr (tab : Tableau ℝ) (dt : ℝ) {a b : Sol ℝ} (ha : SameSetup a s) (hb : SameSetup b s) (hu : a.u = b.u) (k : ℕ) (incr : ℕ → Arr ℝ) :
    increment exact tab a dt k incr = increment exact tab b dt k incr := by
  unfold increment
  rw [residual_arr (SameSetup.withU ha _), residual_arr (SameSetup.withU hb _), hu]

/-- The exact step depends on the set-up and the coefficients only. -/
lemma step_congr (tab : Tableau ℝ) (dt : ℝ) {a b : Sol ℝ} (ha : SameSetup a s) (hb : SameSetup b s) (hu : a.u = b.u) :
    (step exact tab dt a).u = (step exact tab dt b).u := by
  have hst : ∀ (l : List (ℝ × ℝ)) (k : ℕ) (u : Arr ℝ) (incr : ℕ → Arr ℝ), stages exact tab a dt k l u incr = stages exact tab b dt k l u incr := by
    intro l
    induction l with
    | nil => intro k u incr; rfl
    | cons c l ih =>
      intro k u incr
      unfold stages
      simp only
      rw [increment_congr tab dt ha hb hu, ih]
  unfold step
  rw [bcArr_eq (SameSetup.withU ha _), bcArr_eq (SameSetup.withU hb _), hst, hu]

lemma step_setup (A : Arith) (tab : Tableau ℝ) (dt : ℝ) (a : Sol ℝ) : SameSetup (step A tab dt a) a :=
  (applyBc_setup _).trans (by constructor <;> rfl)

lemma run_setup (A : Arith) (tab : Tableau ℝ) (dt : ℕ → ℝ) (a : Sol ℝ) (k : ℕ) : SameSetup (run A tab dt a k) a := by
  induction k with
  | zero => exact SameSetup.refl _
  | succ k ih => exact (step_setup A tab (dt k) _).trans ih

end

end Dg1d.Rounded
