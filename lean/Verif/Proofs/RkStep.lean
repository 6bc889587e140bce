import Verif.Proofs.Clock
import Verif.Spec.RungeKutta
import Mathlib.Tactic.NormNum
import Mathlib.Algebra.Module.Pi

/-! Helper lemmas: one Runge–Kutta step of the code is the textbook formula; `low_storage_rk4` = `rk4`. -/

set_option linter.unusedSectionVars false

namespace Dg1d
variable {K : Type*} [Field K] [LinearOrder K] [IsStrictOrderedRing K]

/-- Same discretisation: everything but `u`, `t`, `n` and the sensor array agrees. -/
structure SameSetup (a b : Sol K) : Prop where
  basis : a.basis = b.basis
  kw : a.kw = b.kw
  NE : a.NE = b.NE
  NF : a.NF = b.NF
  x : a.x = b.x
  xc : a.xc = b.xc
  dx : a.dx = b.dx
  scaledMinv : a.scaledMinv = b.scaledMinv
  bcl : a.bcl = b.bcl
  bcr : a.bcr = b.bcr
  enhance : a.enhance = b.enhance

omit [Field K] [LinearOrder K] [IsStrictOrderedRing K] in
lemma SameSetup.refl (a : Sol K) : SameSetup a a := by constructor <;> rfl

omit [Field K] [LinearOrder K] [IsStrictOrderedRing K] in
lemma SameSetup.symm {a b : Sol K} (h : SameSetup a b) : SameSetup b a := by
  constructor <;> simp [h.basis, h.kw, h.NE, h.NF, h.x, h.xc, h.dx, h.scaledMinv, h.bcl, h.bcr, h.enhance]

omit [Field K] [LinearOrder K] [IsStrictOrderedRing K] in
lemma SameSetup.trans {a b c : Sol K} (h : SameSetup a b) (g : SameSetup b c) : SameSetup a c := by
  constructor <;> simp [h.basis, h.kw, h.NE, h.NF, h.x, h.xc, h.dx, h.scaledMinv, h.bcl, h.bcr, h.enhance,
    g.basis, g.kw, g.NE, g.NF, g.x, g.xc, g.dx, g.scaledMinv, g.bcl, g.bcr, g.enhance]

lemma smartAxpy_setup (s : Sol K) (a : K) (x : Arr K) : SameSetup (s.smartAxpy a x) s := by
  unfold Sol.smartAxpy; split <;> constructor <;> rfl

omit [Field K] [LinearOrder K] [IsStrictOrderedRing K] in
lemma applyBc_setup (s : Sol K) : SameSetup s.applyBc s := by
  unfold Sol.applyBc Sol.applyBcRight Sol.applyBcLeft
  split_ifs <;> constructor <;> rfl

/-- A coefficient that the `|a| > 1e-15` shortcut treats correctly. -/
def NotTiny (a : K) : Prop := a = 0 ∨ |a| > 1 / 10 ^ 15

/-- All coefficients a run with this table uses are zero or larger than 1e-15. -/
structure Tableau.Fine (tab : Tableau K) : Prop where
  len : tab.alphas.length = tab.coeffs.length
  coeff : ∀ k < tab.coeffs.length, NotTiny (tab.coeffs.getD k 0)
  beta : ∀ k < tab.coeffs.length, ∀ j < k, NotTiny (tab.beta k j)

lemma smartAxpy_fine (s : Sol K) {a : K} (ha : NotTiny a) (x : Arr K) :
    s.smartAxpy a x = { s with u := s.u.add (x.smul a) } := by
  unfold Sol.smartAxpy
  rcases ha with rfl | ha
  · have : ¬ |(0 : K)| > 1 / 10 ^ 15 := by rw [abs_zero, gt_iff_lt, not_lt]; positivity
    rw [if_neg this]
    simp [Arr.add, Arr.smul]
  · rw [if_pos ha]

lemma accumulate_spec (tab : Tableau K) (k : ℕ) (incr : ℕ → Arr K) (uk : Sol K)
    (hb : ∀ j < k, NotTiny (tab.beta k j)) :
    accumulate tab k incr uk =
      { uk with u := { uk.u with val := fun r c => uk.u.val r c + ∑ j ∈ Finset.range k, tab.beta k j * (incr j).val r c } } := by
  unfold accumulate
  have : ∀ m ≤ k, (List.range m).foldl (fun uk j => uk.smartAxpy (tab.beta k j) (incr j)) uk =
      { uk with u := { uk.u with val := fun r c => uk.u.val r c + ∑ j ∈ Finset.range m, tab.beta k j * (incr j).val r c } } := by
    intro m
    induction m with
    | zero => intro _; simp
    | succ m ih =>
      intro hm
      rw [List.range_succ, List.foldl_append, ih (by omega)]
      simp only [List.foldl_cons, List.foldl_nil]
      rw [smartAxpy_fine _ (hb m (by omega))]
      simp only [Arr.add, Arr.smul, Finset.sum_range_succ, add_assoc]
  exact this k le_rfl

/-- The residual as a function of the entries of `u`, for a fixed array shape. -/
def onVal (shape : Arr K) (R : Arr K → Arr K) : (ℕ → ℕ → K) → (ℕ → ℕ → K) :=
  fun v => (R { shape with val := v }).val

section Step
variable {env : Env K} {tab : Tableau K} {R : Arr K → Arr K} {w0 : Sol K}

/-- Stage array `U_k`. -/
def stageArr (tab : Tableau K) (R : Arr K → Arr K) (dt : K) (u : Arr K) (k : ℕ) : Arr K :=
  { u with val := Spec.stageValue tab.beta (onVal u R) dt u.val k }

lemma stageArr_val (tab : Tableau K) (R : Arr K → Arr K) (dt : K) (u : Arr K) (k : ℕ) :
    (stageArr tab R dt u k).val = fun r c =>
      u.val r c + ∑ j ∈ Finset.range k, tab.beta k j * (dt * (R (stageArr tab R dt u j)).val r c) := by
  funext r c
  unfold stageArr
  simp only
  rw [Spec.stageValue]
  simp only [Pi.add_apply, Pi.smul_apply, smul_eq_mul, Finset.sum_apply]
  rw [Finset.mul_sum, Finset.sum_range]
  congr 1
  apply Finset.sum_congr rfl
  intro j _
  unfold onVal
  ring

lemma classicStage_spec
    (hlim : ∀ s, env.limit s = .ok s)
    (hR : ∀ s, SameSetup s w0 → ∃ s', env.residual s = .ok (s', R s.u) ∧ SameSetup s' w0)
    (us : Sol K) (dt : K) (k : ℕ) (c alpha : K) (st : StageState K)
    (hb : ∀ j < k, NotTiny (tab.beta k j)) (hc : NotTiny c)
    (hw : SameSetup st.work w0)
    (hi : ∀ j < k, st.incr j = (R (stageArr tab R dt us.u j)).smul dt) :
    ∃ st', classicStage env tab us dt k c alpha st = .ok st' ∧ SameSetup st'.work w0 ∧
      (∀ j < k + 1, st'.incr j = (R (stageArr tab R dt us.u j)).smul dt) ∧
      st'.sol = { st.sol with u := st.sol.u.add (((R (stageArr tab R dt us.u k)).smul dt).smul c) } := by
  unfold classicStage
  simp only
  rw [accumulate_spec _ _ _ _ hb]
  have hU : ({ (st.work.copyDataOnly us).u with val := fun r c => (st.work.copyDataOnly us).u.val r c + ∑ j ∈ Finset.range k, tab.beta k j * (st.incr j).val r c } : Arr K)
      = stageArr tab R dt us.u k := by
    have h2 := stageArr_val tab R dt us.u k
    have h3 : stageArr tab R dt us.u k = { us.u with val := (stageArr tab R dt us.u k).val } := rfl
    rw [h3, h2]
    simp only [Sol.copyDataOnly]
    congr 1
    funext r c
    congr 1
    apply Finset.sum_congr rfl
    intro j hj
    rw [hi j (Finset.mem_range.mp hj)]
    rfl
  rw [hU]
  set uk : Sol K := { (st.work.copyDataOnly us) with u := stageArr tab R dt us.u k, t := (st.work.copyDataOnly us).t + alpha * dt } with huk
  have hsame : SameSetup uk w0 := by
    constructor <;> simp [huk, Sol.copyDataOnly, hw.basis, hw.kw, hw.NE, hw.NF, hw.x, hw.xc, hw.dx, hw.scaledMinv, hw.bcl, hw.bcr, hw.enhance]
  have hl : (if k > 0 then env.limit uk else .ok uk) = .ok uk := by
    split
    · exact hlim uk
    · rfl
  simp only [hl]
  obtain ⟨s', hs', hset⟩ := hR uk hsame
  simp only [hs']
  refine ⟨_, rfl, hset, ?_, ?_⟩
  · intro j hj
    simp only
    by_cases hjk : j = k
    · subst hjk; simp [huk]
    · rw [Function.update_of_ne hjk]; exact hi j (by omega)
  · simp only [Function.update_self]
    rw [smartAxpy_fine _ hc]

lemma classicStages_spec
    (hlim : ∀ s, env.limit s = .ok s)
    (hR : ∀ s, SameSetup s w0 → ∃ s', env.residual s = .ok (s', R s.u) ∧ SameSetup s' w0)
    (us : Sol K) (dt : K) (l : List (K × K)) :
    ∀ (k : ℕ) (st : StageState K),
    (∀ i < l.length, ∀ j < k + i, NotTiny (tab.beta (k + i) j)) →
    (∀ i < l.length, NotTiny (l.getD i (0, 0)).1) →
    SameSetup st.work w0 →
    (∀ j < k, st.incr j = (R (stageArr tab R dt us.u j)).smul dt) →
    ∃ st', classicStages env tab us dt k l st = .ok st' ∧ SameSetup st'.work w0 ∧
      st'.sol = { st.sol with u := { st.sol.u with val := fun r c => st.sol.u.val r c + ∑ i ∈ Finset.range l.length, (l.getD i (0, 0)).1 * (dt * (R (stageArr tab R dt us.u (k + i))).val r c) } } := by
  induction l with
  | nil => intro k st _ _ hw _; exact ⟨st, rfl, hw, by simp⟩
  | cons a l ih =>
    obtain ⟨c, alpha⟩ := a
    intro k st hb hc hw hi
    have hb0 := hb 0 (by simp)
    simp only [add_zero] at hb0
    have hc0 := hc 0 (by simp)
    simp only [List.getD_cons_zero] at hc0
    obtain ⟨st1, h1, hw1, hi1, hs1⟩ :=
      classicStage_spec hlim hR us dt k c alpha st hb0 hc0 hw hi
    obtain ⟨st2, h2, hw2, hs2⟩ := ih (k + 1) st1
      (by
        intro i hil j hj
        have := hb (i + 1) (by simpa using hil) j (by omega)
        rwa [show k + (i + 1) = k + 1 + i by omega] at this)
      (by
        intro i hil
        have := hc (i + 1) (by simpa using hil)
        simpa using this) hw1 hi1
    refine ⟨st2, ?_, hw2, ?_⟩
    · unfold classicStages
      rw [h1]
      exact h2
    · rw [hs2, hs1]
      simp only [Arr.add, Arr.smul]
      congr 2
      funext r c'
      rw [List.length_cons, Finset.sum_range_succ']
      simp only [List.getD_cons_zero, List.getD_cons_succ, add_zero]
      rw [add_assoc]
      congr 1
      rw [add_comm]
      congr 1
      apply Finset.sum_congr rfl
      intro i _
      rw [show k + 1 + i = k + (i + 1) by omega]

end Step

/-- The array after one textbook step. -/
def stepArr (tab : Tableau K) (R : Arr K → Arr K) (dt : K) (u : Arr K) : Arr K :=
  { u with val := Spec.rkStep tab.coeffs tab.beta (onVal u R) dt u.val }

lemma zip_getD_fst (a b : List K) (h : b.length = a.length) (i : ℕ) (hi : i < a.length) :
    ((a.zip b).getD i (0, 0)).1 = a.getD i 0 := by
  rw [List.getD_eq_getElem?_getD, List.getD_eq_getElem?_getD, List.getElem?_eq_getElem (by simp [h, hi]),
    List.getElem?_eq_getElem hi]
  simp

lemma classicInner_spec {env : Env K} {tab : Tableau K} {R : Arr K → Arr K} {w0 : Sol K}
    (hf : tab.Fine) (hlim : ∀ s, env.limit s = .ok s)
    (hR : ∀ s, SameSetup s w0 → ∃ s', env.residual s = .ok (s', R s.u) ∧ SameSetup s' w0)
    (us : Sol K) (dt : K) (st : StageState K) (hw : SameSetup st.work w0) (hus : st.sol.u = us.u) :
    ∃ st', classicInner env tab us dt st = .ok st' ∧ SameSetup st'.work w0 ∧
      st'.sol = { st.sol with u := stepArr tab R dt us.u } := by
  have hlen : (tab.coeffs.zip tab.alphas).length = tab.coeffs.length := by
    rw [List.length_zip, hf.len, min_self]
  obtain ⟨st', h1, h2, h3⟩ := classicStages_spec (tab := tab) hlim hR us dt (tab.coeffs.zip tab.alphas) 0 st
    (by intro i hi j hj; rw [hlen] at hi; rw [zero_add] at hj ⊢; exact hf.beta i hi j hj)
    (by
      intro i hi; rw [hlen] at hi
      rw [zip_getD_fst _ _ hf.len _ hi]; exact hf.coeff i hi) hw (by simp)
  refine ⟨st', h1, h2, ?_⟩
  rw [h3, hlen, hus]
  unfold stepArr
  simp only
  congr 2
  funext r c
  unfold Spec.rkStep
  simp only [Pi.add_apply, Pi.smul_apply, smul_eq_mul, Finset.sum_apply]
  rw [Finset.mul_sum]
  congr 1
  apply Finset.sum_congr rfl
  intro i hi
  rw [zip_getD_fst _ _ hf.len _ (Finset.mem_range.mp hi), zero_add]
  simp only [stageArr, onVal]
  ring

/-! ### low storage -/

/-- Results of an inner loop that agree up to the stored increments. -/
def SameInner (a b : Except PyErr (StageState K)) : Prop :=
  match a, b with
  | .error e, .error e' => e = e'
  | .ok x, .ok y => x.work = y.work ∧ x.sol = y.sol
  | _, _ => False

/-- The stage relation between `classic_rk` with rk4 and `low_storage_rk4` before stage `k`. -/
def StageRel (k : ℕ) (x y : StageState K) : Prop :=
  x.work = y.work ∧ x.sol = y.sol ∧ (0 < k → x.incr (k - 1) = y.incr 0)

lemma stage_rel {env : Env K} {tab : Tableau K} (us : Sol K) (dt : K) (k : ℕ) (c a b g : K)
    (hc : c = g) (ha : a = b)
    (hacc : ∀ (incr : ℕ → Arr K) (x : Arr K) (uk : Sol K), (0 < k → incr (k - 1) = x) →
      accumulate tab k incr uk = uk.smartAxpy b x)
    {x y : StageState K} (h : StageRel k x y) :
    (∃ e, classicStage env tab us dt k c a x = .error e ∧ lowStage env us dt k b g y = .error e) ∨
    (∃ x' y', classicStage env tab us dt k c a x = .ok x' ∧ lowStage env us dt k b g y = .ok y' ∧
      StageRel (k + 1) x' y') := by
  obtain ⟨hw, hs, hi⟩ := h
  subst hc ha
  unfold classicStage lowStage
  simp only
  rw [hacc x.incr (y.incr 0) _ hi, hw]
  split
  · rename_i e he
    left; exact ⟨e, rfl, rfl⟩
  · rename_i uk huk
    split
    · rename_i e he
      left; exact ⟨e, rfl, rfl⟩
    · rename_i uk2 F hF
      right
      refine ⟨_, _, rfl, rfl, rfl, ?_, ?_⟩
      · simp [hs]
      · intro _; simp

lemma smartAxpy_zero (s : Sol K) (x : Arr K) : s.smartAxpy 0 x = s := by
  rw [smartAxpy_fine _ (Or.inl rfl)]; simp [Arr.add, Arr.smul]

/-- rk4's table read in `K`. -/
abbrev rk4K (K : Type*) [Field K] : Tableau K := rk4.map (fun q : ℚ => (q : K))

lemma rk4_acc0 (incr : ℕ → Arr K) (x : Arr K) (uk : Sol K) (_ : 0 < 0 → incr (0 - 1) = x) :
    accumulate (rk4K K) 0 incr uk = uk.smartAxpy 0 x := by
  simp [accumulate, smartAxpy_zero]

lemma rk4_acc1 (incr : ℕ → Arr K) (x : Arr K) (uk : Sol K) (h : 0 < 1 → incr (1 - 1) = x) :
    accumulate (rk4K K) 1 incr uk = uk.smartAxpy (1 / 2) x := by
  have h := h (by norm_num)
  simp only [Nat.sub_self] at h
  have e : (rk4K K).beta 1 0 = 1 / 2 := by
    show ((rk4.beta 1 0 : ℚ) : K) = 1 / 2
    rw [show rk4.beta 1 0 = 1 / 2 by decide +kernel]; norm_num
  simp [accumulate, List.range_succ, h, e]

lemma rk4_acc2 (incr : ℕ → Arr K) (x : Arr K) (uk : Sol K) (h : 0 < 2 → incr (2 - 1) = x) :
    accumulate (rk4K K) 2 incr uk = uk.smartAxpy (1 / 2) x := by
  have h := h (by norm_num)
  have e0 : (rk4K K).beta 2 0 = 0 := by
    show ((rk4.beta 2 0 : ℚ) : K) = 0
    rw [show rk4.beta 2 0 = 0 by decide +kernel]; norm_num
  have e1 : (rk4K K).beta 2 1 = 1 / 2 := by
    show ((rk4.beta 2 1 : ℚ) : K) = 1 / 2
    rw [show rk4.beta 2 1 = 1 / 2 by decide +kernel]; norm_num
  norm_num at h
  simp [accumulate, List.range_succ, h, e0, e1, smartAxpy_zero]

lemma rk4_acc3 (incr : ℕ → Arr K) (x : Arr K) (uk : Sol K) (h : 0 < 3 → incr (3 - 1) = x) :
    accumulate (rk4K K) 3 incr uk = uk.smartAxpy 1 x := by
  have h := h (by norm_num)
  have e0 : (rk4K K).beta 3 0 = 0 := by
    show ((rk4.beta 3 0 : ℚ) : K) = 0
    rw [show rk4.beta 3 0 = 0 by decide +kernel]; norm_num
  have e1 : (rk4K K).beta 3 1 = 0 := by
    show ((rk4.beta 3 1 : ℚ) : K) = 0
    rw [show rk4.beta 3 1 = 0 by decide +kernel]; norm_num
  have e2 : (rk4K K).beta 3 2 = 1 := by
    show ((rk4.beta 3 2 : ℚ) : K) = 1
    rw [show rk4.beta 3 2 = 1 by decide +kernel]; norm_num
  norm_num at h
  simp [accumulate, List.range_succ, h, e0, e1, e2, smartAxpy_zero]

lemma rk4K_zip : (rk4K K).coeffs.zip (rk4K K).alphas =
    [(1 / 6, 0), (1 / 3, 1 / 2), (1 / 3, 1 / 2), (1 / 6, 1)] := by
  have hc : rk4.coeffs = [1 / 6, 1 / 3, 1 / 3, 1 / 6] := by decide +kernel
  have ha : rk4.alphas = [0, 1 / 2, 1 / 2, 1] := by decide +kernel
  simp [Tableau.map, hc, ha]

lemma low_inner_rk4 (env : Env K) (us : Sol K) (dt : K) (w s : Sol K) (i j : ℕ → Arr K) :
    SameInner (classicInner env (rk4K K) us dt ⟨w, s, i⟩) (lowInner env us dt ⟨w, s, j⟩) := by
  unfold classicInner lowInner
  rw [rk4K_zip]
  simp only [lowStorageBetas, lowStorageGammas, List.zip_cons_cons, List.zip_nil_right]
  have h0 : StageRel 0 (⟨w, s, i⟩ : StageState K) ⟨w, s, j⟩ := ⟨rfl, rfl, by simp⟩
  rcases stage_rel (env := env) us dt 0 (1 / 6) 0 0 (1 / 6) rfl rfl rk4_acc0 h0 with
    ⟨e, h1, h2⟩ | ⟨x1, y1, h1, h2, r1⟩
  · simp only [classicStages, lowStages, h1, h2, SameInner]
  rcases stage_rel (env := env) us dt 1 (1 / 3) (1 / 2) (1 / 2) (1 / 3) rfl rfl rk4_acc1 r1 with
    ⟨e, h3, h4⟩ | ⟨x2, y2, h3, h4, r2⟩
  · simp only [classicStages, lowStages, h1, h2, SameInner, zero_add, h3, h4]
  rcases stage_rel (env := env) us dt 2 (1 / 3) (1 / 2) (1 / 2) (1 / 3) rfl rfl rk4_acc2 r2 with
    ⟨e, h5, h6⟩ | ⟨x3, y3, h5, h6, r3⟩
  · simp only [classicStages, lowStages, h1, h2, SameInner, zero_add, h3, h4, Nat.reduceAdd, h5, h6]
  rcases stage_rel (env := env) us dt 3 (1 / 6) 1 1 (1 / 6) rfl rfl rk4_acc3 r3 with
    ⟨e, h7, h8⟩ | ⟨x4, y4, h7, h8, r4⟩
  · simp only [classicStages, lowStages, h1, h2, SameInner, zero_add, h3, h4, Nat.reduceAdd, h5, h6, h7, h8]
  · simp only [classicStages, lowStages, h1, h2, SameInner, zero_add, h3, h4, Nat.reduceAdd, h5, h6, h7, h8]
    exact ⟨r4.1, r4.2.1⟩

/-- Loop states that agree in everything but the stored stage increments. -/
def SameLoop (a b : LoopState K) : Prop := a = { b with incr := a.incr }

lemma sameLoop_step (env : Env K) (deck : RkDeck K) {a b : LoopState K} (h : SameLoop a b) :
    SameLoop (loopBody env deck (classicInner env (rk4K K)) a) (loopBody env deck (lowInner env) b) := by
  unfold SameLoop at h
  obtain ⟨sol, us, work, incr, nout, tout, touts, status, log⟩ := a
  obtain ⟨sol', us', work', incr', nout', tout', touts', status', log'⟩ := b
  simp only [LoopState.mk.injEq] at h
  obtain ⟨rfl, rfl, rfl, -, rfl, rfl, rfl, rfl, rfl⟩ := h
  unfold loopBody
  cases status with
  | done => rfl
  | failed e => rfl
  | running =>
    simp only
    cases hg : getNextTimeStep sol tout deck.cfl deck.finaltime with
    | error e => rfl
    | ok v =>
      obtain ⟨dt, o, d⟩ := v
      simp only
      have hin := low_inner_rk4 env (us.copyDataOnly sol) dt work sol incr incr'
      cases h1 : classicInner env (rk4K K) (us.copyDataOnly sol) dt ⟨work, sol, incr⟩ with
      | error e =>
        cases h2 : lowInner env (us.copyDataOnly sol) dt ⟨work, sol, incr'⟩ with
        | error e' =>
          rw [h1, h2] at hin
          simp only [SameInner] at hin
          subst hin; rfl
        | ok y => rw [h1, h2] at hin; simp [SameInner] at hin
      | ok x =>
        cases h2 : lowInner env (us.copyDataOnly sol) dt ⟨work, sol, incr'⟩ with
        | error e' => rw [h1, h2] at hin; simp [SameInner] at hin
        | ok y =>
          rw [h1, h2] at hin
          obtain ⟨hw, hs⟩ := hin
          simp only [hs, hw]
          cases hl : env.limit (Sol.applyBc { y.sol with t := y.sol.t + dt, n := y.sol.n + 1 }) with
          | error e => rfl
          | ok s2 =>
            simp only
            unfold outputPhase
            cases o with
            | false => rfl
            | true =>
              cases d with
              | true => rfl
              | false =>
                simp only [if_true, Bool.false_eq_true, if_false]
                cases touts with
                | nil => rfl
                | cons t ts => rfl

lemma sameLoop_run (env : Env K) (deck deck' : RkDeck K)
    (hd : deck'.finaltime = deck.finaltime ∧ deck'.nout = deck.nout ∧ deck'.cfl = deck.cfl)
    (sol : Sol K) (k : ℕ) :
    SameLoop (Scheme.run (.classic (rk4K K)) env deck sol k) (Scheme.run .low env deck' sol k) := by
  have hbody : ∀ inner st, loopBody env deck' inner st = loopBody env deck inner st := by
    intro inner st; unfold loopBody; rw [hd.1, hd.2.2]
  induction k with
  | zero =>
    unfold Scheme.run runLoop SameLoop
    simp only [Function.iterate_zero, id]
    have : initLoop deck' sol = initLoop deck sol := by unfold initLoop; rw [hd.1, hd.2.1]
    rw [this]
  | succ k ih =>
    unfold Scheme.run at *
    rw [runLoop_succ, runLoop_succ, hbody]
    exact sameLoop_step env deck ih

end Dg1d
