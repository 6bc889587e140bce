import Verif.Proofs.NanResidual
import Verif.Proofs.RkRun
import Verif.Proofs.Clock
import Verif.Model.Checked
import Verif.Model.Limiter
import Verif.Proofs.Autonomy

/-! # The stages, the main loop and whole runs with NaN -/

namespace Dg1d.Nan

open Num

variable {γ : ℝ} {name : String} {s x : Sol ℝ}

/-! ### The maximum wave speed -/

lemma fold_max_nan {w : ℕ → Num} {l : List ℕ} {a : Num} (h : a = nan ∨ ∃ i ∈ l, w i = nan) :
    l.foldl (fun m i => maximum m (w i)) a = nan := by
  induction l generalizing a with
  | nil => simpa using h
  | cons b l ih =>
    refine ih ?_
    rcases h with rfl | ⟨i, hi, hw⟩
    · left; rfl
    · rcases List.mem_cons.1 hi with rfl | hi
      · left; show maximum a (w i) = nan; rw [hw]; cases a <;> rfl
      · right; exact ⟨i, hi, hw⟩

lemma fold_max_num {w : ℕ → Num} {g : ℕ → ℝ} {l : List ℕ} {a : ℝ} (h : ∀ i ∈ l, w i = num (g i)) :
    l.foldl (fun m i => maximum m (w i)) (num a) = num (l.foldl (fun m i => max m (g i)) a) := by
  induction l generalizing a with
  | nil => rfl
  | cons b l ih =>
    simp only [List.foldl_cons]
    rw [h b (by simp)]
    exact ih fun i hi => h i (List.mem_cons_of_mem _ hi)

lemma waveSpeed_nan {t : St} (h : t.a γ = nan) : waveSpeed γ t = nan := by
  unfold waveSpeed; rw [h]; simp

lemma waveSpeed_num {r : Euler.St} (h : r.IsReal γ) : waveSpeed γ (liftSt r) = num (|r.v| + r.a γ) := by
  unfold waveSpeed
  rw [a_lift h, v_lift h.1]
  rfl

lemma maxWaveSpeed_same {u : Arr Num} {b : Arr ℝ} (hu : Same u b) (hr : 0 < b.rows) {N : ℕ} (hc : b.cols = N * 3) :
    maxWaveSpeed γ u = Euler.maxWaveSpeed γ b := by
  have hN : (b.cols + 2) / 3 = N := by omega
  have hst : ∀ i < N, stateAt (u.val 0) i = liftSt (Euler.stateAt (b.val 0) i) := fun i hi =>
    stateAt_lift hi fun c hc' => hu.val 0 hr c (by omega)
  unfold maxWaveSpeed Euler.maxWaveSpeed
  simp only [hu.cols, hN]
  by_cases h0 : N = 0
  · rw [if_pos h0, if_pos h0]
  · rw [if_neg h0, if_neg h0]
    split_ifs with hb
    · obtain ⟨i, hi, hbad⟩ := hb
      rw [fold_max_nan (w := fun i => waveSpeed γ (stateAt (u.val 0) i)) (.inr ⟨i, by simpa using hi, ?_⟩)]
      rw [hst i hi]
      refine waveSpeed_nan ?_
      by_cases hz : (Euler.stateAt (b.val 0) i).rho = 0
      · exact bad_a (.inr (.inl (by rw [liftSt, hz])))
      · exact nonreal_a hz fun hh => absurd hh.2 (not_le.2 (hbad.resolve_left hz))
    · push Not at hb
      have hw : ∀ i < N, waveSpeed γ (stateAt (u.val 0) i) = num (|(Euler.stateAt (b.val 0) i).v| + (Euler.stateAt (b.val 0) i).a γ) := by
        intro i hi
        rw [hst i hi]
        exact waveSpeed_num (hb i hi)
      rw [hw 0 (by omega), fold_max_num fun i hi => hw i (by simpa using hi)]

lemma maxWaveSpeed_bad {u : Arr Num} (hc : u.cols = (s.NE + 2) * 3) {e : ℕ} (hb : BadCell s u e) : maxWaveSpeed γ u = .ok .nan := by
  obtain ⟨h1, h2, f, hf, hn⟩ := hb
  have hN : (u.cols + 2) / 3 = s.NE + 2 := by omega
  unfold maxWaveSpeed
  simp only [hN]
  rw [if_neg (by omega), fold_max_nan (w := fun i => waveSpeed γ (stateAt (u.val 0) i)) (.inr ⟨e, by simp; omega, ?_⟩)]
  refine waveSpeed_nan (bad_a ?_)
  unfold St.Bad stateAt
  interval_cases f
  · left; simpa [mul_comm] using hn
  · right; right; left; show u.val 0 (1 + 3 * e) = nan; rw [show 1 + 3 * e = e * 3 + 1 by ring]; exact hn
  · right; right; right; show u.val 0 (2 + 3 * e) = nan; rw [show 2 + 3 * e = e * 3 + 2 by ring]; exact hn

/-! ### Arrays -/

lemma smul_same {a : ℝ} {u : Arr Num} {b : Arr ℝ} (h : Same u b) : Same (smul a u) (b.smul a) where
  rows := h.rows
  cols := h.cols
  val := fun r hr c hc => by
    show num a * u.val r c = _
    rw [h.val r hr c hc]; rfl

/-- The shape of the data of `s`. -/
def Shaped (s : Sol ℝ) (b : Arr ℝ) : Prop := b.rows = s.u.rows ∧ b.cols = s.u.cols

lemma axpy_same {a : ℝ} {u x' : Arr Num} {w : Sol ℝ} {b : Arr ℝ} (hu : Same u w.u) (hx : Same x' b) (hr : b.rows = w.u.rows) (hc : b.cols = w.u.cols) :
    Same (axpy u a x') (w.smartAxpy a b).u := by
  unfold axpy Sol.smartAxpy
  split_ifs
  · refine ⟨hu.rows, hu.cols, fun r hr' c hc' => ?_⟩
    change r < w.u.rows at hr'
    change c < w.u.cols at hc'
    show u.val r c + num a * x'.val r c = num (w.u.val r c + _)
    rw [hu.val r hr' c hc', hx.val r (by omega) c (by omega)]
    rfl
  · exact hu

lemma axpy_cols (u : Arr Num) (a : ℝ) (x' : Arr Num) : (axpy u a x').cols = u.cols := by
  unfold axpy; split_ifs <;> rfl

lemma axpy_keeps {u : Arr Num} {e : ℕ} (h : BadCell s u e) (a : ℝ) (x' : Arr Num) : BadCell s (axpy u a x') e := by
  obtain ⟨h1, h2, f, hf, hn⟩ := h
  refine ⟨h1, h2, f, hf, ?_⟩
  unfold axpy
  split_ifs
  · show u.val 0 (e * 3 + f) + _ = nan
    rw [hn]; simp
  · exact hn

lemma axpy_brings {x' : Arr Num} {e : ℕ} (h : BadCell s x' e) (u : Arr Num) {a : ℝ} (ha : |a| > 1 / 10 ^ 15) : BadCell s (axpy u a x') e := by
  obtain ⟨h1, h2, f, hf, hn⟩ := h
  refine ⟨h1, h2, f, hf, ?_⟩
  unfold axpy
  rw [if_pos ha]
  show u.val 0 (e * 3 + f) + num a * x'.val 0 (e * 3 + f) = nan
  rw [hn]; simp

lemma smul_bad {x' : Arr Num} {e : ℕ} (h : BadCell s x' e) (a : ℝ) : BadCell s (smul a x') e := by
  obtain ⟨h1, h2, f, hf, hn⟩ := h
  exact ⟨h1, h2, f, hf, by show num a * _ = nan; rw [hn]; simp⟩

lemma accumulate_cols (tab : Tableau ℝ) (k : ℕ) (incr : ℕ → Arr Num) (u : Arr Num) : (accumulate tab k incr u).cols = u.cols := by
  unfold accumulate
  generalize List.range k = l
  induction l generalizing u with
  | nil => rfl
  | cons j l ih => rw [List.foldl_cons, ih, axpy_cols]

lemma fold_brings (tab : Tableau ℝ) (k : ℕ) {incr : ℕ → Arr Num} {j e : ℕ} (hb : BadCell s (incr j) e) (ha : |tab.beta k j| > 1 / 10 ^ 15)
    (u : Arr Num) {m : ℕ} (hj : j < m) : BadCell s ((List.range m).foldl (fun u j => axpy u (tab.beta k j) (incr j)) u) e := by
  induction m with
  | zero => omega
  | succ m ih =>
    rw [List.range_succ, List.foldl_append]
    simp only [List.foldl_cons, List.foldl_nil]
    by_cases he : j = m
    · subst he; exact axpy_brings hb _ ha
    · exact axpy_keeps (ih (by omega)) _ _

lemma bc_keeps (h : Ready γ name s) {u : Arr Num} (hc : u.cols = (s.NE + 2) * 3) {e : ℕ} (hb : BadCell s u e) : BadCell s (bc s u) e := by
  obtain ⟨h1, h2, f, hf, hn⟩ := hb
  refine ⟨h1, h2, f, hf, ?_⟩
  rw [bc_val s u h.wf.NF h.wf.NE (by rw [hc, h.NF])]
  show u.val 0 (s.bcCol (e * 3 + f)) = nan
  rw [bcCol_inside s (by rw [h.NF]; omega) (by rw [h.NF]; omega)]
  exact hn

lemma bc_rows (s : Sol ℝ) (u : Arr Num) : (bc s u).rows = u.rows := by
  unfold bc bcRight bcLeft
  split_ifs <;> rfl

lemma bc_cols (h : Ready γ name s) {u : Arr Num} (hc : u.cols = (s.NE + 2) * 3) : (bc s u).cols = (s.NE + 2) * 3 := by
  rw [bc_val s u h.wf.NF h.wf.NE (by rw [hc, h.NF])]; exact hc

/-! ### Stages -/

/-- Every stage of the table reaches the solution: directly or through a later stage. -/
def Used (tab : Tableau ℝ) : Prop :=
  ∀ j < (tab.coeffs.zip tab.alphas).length, |tab.coeffs.getD j 0| > 1 / 10 ^ 15 ∨
    ∃ i < (tab.coeffs.zip tab.alphas).length, j < i ∧ |tab.beta i j| > 1 / 10 ^ 15

/-- The stage variables with NaN and those of the model hold the same numbers. -/
structure StageSame (s : Sol ℝ) (st : Stage) (ss : StageState ℝ) : Prop where
  work : Like ss.work s
  like : Like ss.sol s
  sol : Same st.sol ss.sol.u
  incr : ∀ k, Same (st.incr k) (ss.incr k)
  shape : ∀ k, Shaped s (ss.incr k)
  wsens : sensorShape ss.work = sensorShape s
  ssens : sensorShape ss.sol = sensorShape s

/-- NaN in cell `e`: in the solution, or in an increment that a stage from `k` on uses. -/
structure StageBad (s : Sol ℝ) (tab : Tableau ℝ) (n k e : ℕ) (st : Stage) : Prop where
  rows : st.sol.rows = s.u.rows
  cols : st.sol.cols = (s.NE + 2) * 3
  bad : BadCell s st.sol e ∨ ∃ j < k, BadCell s (st.incr j) e ∧ ∃ i < n, k ≤ i ∧ |tab.beta i j| > 1 / 10 ^ 15

/-- The residual and limiter of the model these runs are compared with. -/
noncomputable abbrev env (limM : Sol ℝ → Except PyErr (Sol ℝ)) : Env ℝ := ⟨Euler.checkedResidual, limM⟩

/-- A limiter with NaN and one of the model: the same on numbers, and a NaN average stays. -/
structure LimOk (s : Sol ℝ) (lim : Arr Num → Arr Num) (limM : Sol ℝ → Except PyErr (Sol ℝ)) : Prop where
  same : ∀ u x, Like x s → sensorShape x = sensorShape s → Same u x.u → ∃ x', limM x = .ok x' ∧ Like x' s ∧ sensorShape x' = sensorShape s ∧
    x'.t = x.t ∧ x'.n = x.n ∧ Same (lim u) x'.u
  rows : ∀ u, u.rows = s.u.rows → u.cols = (s.NE + 2) * 3 → (lim u).rows = s.u.rows
  cols : ∀ u, u.rows = s.u.rows → u.cols = (s.NE + 2) * 3 → (lim u).cols = (s.NE + 2) * 3
  bad : ∀ u e, u.rows = s.u.rows → u.cols = (s.NE + 2) * 3 → BadCell s u e → BadCell s (lim u) e

/-- No limiter. -/
lemma limOk_none (s : Sol ℝ) : LimOk s id (Limiter.limit none) where
  same := fun _ x h1 h2 h3 => ⟨x, rfl, h1, h2, rfl, rfl, h3⟩
  rows := fun _ h _ => h
  cols := fun _ _ h => h
  bad := fun _ _ _ _ h => h

variable {lim : Arr Num → Arr Num} {limM : Sol ℝ → Except PyErr (Sol ℝ)}

lemma smartAxpy_shape (x : Sol ℝ) (a : ℝ) (A : Arr ℝ) : sensorShape (x.smartAxpy a A) = sensorShape x := by
  unfold sensorShape; rw [smartAxpy_sensors]

lemma accumulate_shape (tab : Tableau ℝ) (k : ℕ) (incr : ℕ → Arr ℝ) (w : Sol ℝ) : sensorShape (Dg1d.accumulate tab k incr w) = sensorShape w := by
  unfold Dg1d.accumulate
  generalize List.range k = l
  induction l generalizing w with
  | nil => rfl
  | cons j l ih => rw [List.foldl_cons, ih, smartAxpy_shape]

lemma applyBc_sens (x : Sol ℝ) : sensorShape x.applyBc = sensorShape x := by
  unfold sensorShape; rw [applyBc_sensors]

lemma axpy_rows (u : Arr Num) (a : ℝ) (x' : Arr Num) : (axpy u a x').rows = u.rows := by
  unfold axpy; split_ifs <;> rfl

lemma accumulate_rows (tab : Tableau ℝ) (k : ℕ) (incr : ℕ → Arr Num) (u : Arr Num) : (accumulate tab k incr u).rows = u.rows := by
  unfold accumulate
  generalize List.range k = l
  induction l generalizing u with
  | nil => rfl
  | cons j l ih => rw [List.foldl_cons, ih, axpy_rows]

/-- The limiter of a stage, called from the second stage on. -/
lemma stage_limit (H : LimOk s lim limM) (k : ℕ) {u : Arr Num} {w : Sol ℝ} (hw : Like w s) (hs : sensorShape w = sensorShape s) (hu : Same u w.u) :
    ∃ x', (if k > 0 then (env limM).limit w else .ok w) = .ok x' ∧ Like x' s ∧ sensorShape x' = sensorShape s ∧ Same (if k > 0 then lim u else u) x'.u := by
  by_cases hk : k > 0
  · obtain ⟨x', h1, h2, h3, -, -, h4⟩ := H.same u w hw hs hu
    exact ⟨x', by rw [if_pos hk]; exact h1, h2, h3, by rw [if_pos hk]; exact h4⟩
  · exact ⟨w, by rw [if_neg hk], hw, hs, by rw [if_neg hk]; exact hu⟩

lemma stage_limit_bad (H : LimOk s lim limM) (k : ℕ) {u : Arr Num} {e : ℕ} (hr : u.rows = s.u.rows) (hc : u.cols = (s.NE + 2) * 3) (hb : BadCell s u e) :
    (if k > 0 then lim u else u).cols = (s.NE + 2) * 3 ∧ BadCell s (if k > 0 then lim u else u) e := by
  by_cases hk : k > 0
  · rw [if_pos hk]; exact ⟨H.cols u hr hc, H.bad u e hr hc hb⟩
  · rw [if_neg hk]; exact ⟨hc, hb⟩

lemma Like.smartAxpy {a s : Sol ℝ} (h : Like a s) (c : ℝ) (A : Arr ℝ) : Like (a.smartAxpy c A) s := by
  unfold Sol.smartAxpy
  split_ifs
  · exact h.axpy c A
  · exact h

lemma accumulate_same {tab : Tableau ℝ} {k : ℕ} {incr : ℕ → Arr Num} {incr' : ℕ → Arr ℝ} {u : Arr Num} {w : Sol ℝ}
    (hi : ∀ k, Same (incr k) (incr' k)) (hs : ∀ k, Shaped s (incr' k)) (hw : Like w s) (hu : Same u w.u) :
    Like (Dg1d.accumulate tab k incr' w) s ∧ Same (accumulate tab k incr u) (Dg1d.accumulate tab k incr' w).u := by
  unfold accumulate Dg1d.accumulate
  generalize List.range k = l
  induction l generalizing u w with
  | nil => exact ⟨hw, hu⟩
  | cons j l ih =>
    simp only [List.foldl_cons]
    exact ih (Like.smartAxpy hw _ _) (axpy_same hu (hi j) (by rw [(hs j).1, hw.rows]) (by rw [(hs j).2, hw.cols]))

/-- One evaluation of the residual in a stage: the numbers agree, or NaN appears. -/
lemma stage_residual (h : Ready γ name s) (hx : Like x s) {u : Arr Num} (hu : Same u x.u) (dt : ℝ) :
    (∃ y : Sol ℝ × Arr ℝ, Euler.checkedResidual x = .ok y ∧ Like y.1 s ∧ sensorShape y.1 = sensorShape x ∧ Same (smul dt (residual γ name s u)) (y.2.smul dt) ∧ Shaped s (y.2.smul dt)) ∨
      Euler.checkedResidual x = .error .notReal ∧ ∃ e, BadCell s (smul dt (residual γ name s u)) e := by
  cases hy : Euler.checkedResidual x with
  | error err =>
    obtain ⟨rfl, e, he⟩ := residual_nan h hx hu hy
    exact .inr ⟨rfl, e, smul_bad he dt⟩
  | ok y =>
    obtain ⟨h1, h2⟩ := residual_same h hx hu hy
    refine .inl ⟨y, rfl, by rw [h1]; exact hx.applyBc, by rw [h1, applyBc_sens], smul_same h2, ?_, ?_⟩
    · show y.2.rows = _
      rw [← h2.rows, (residual_shape u).1, h.wf.dphi.1, h.wf.rows]
    · show y.2.cols = _
      have huc : u.cols = (s.NE + 2) * 3 := by rw [hu.cols, hx.cols, h.wf.cols, h.NF]
      rw [← h2.cols, (residual_shape u).2, bc_cols h huc, h.wf.cols, h.NF]

lemma classicStage_same (h : Ready γ name s) (H : LimOk s lim limM) {tab : Tableau ℝ} {us : Arr Num} {us' : Sol ℝ} (hlu : Like us' s) (hu : Same us us'.u) (dt : ℝ)
    (k : ℕ) (c alpha : ℝ) {st : Stage} {ss : StageState ℝ} (hs : StageSame s st ss) :
    (∃ ss', Dg1d.classicStage (env limM) tab us' dt k c alpha ss = .ok ss' ∧ StageSame s (classicStage (residual γ name s) lim tab us dt k c st) ss') ∨
      (Dg1d.classicStage (env limM) tab us' dt k c alpha ss = .error .notReal ∧
        ∃ e, BadCell s ((classicStage (residual γ name s) lim tab us dt k c st).incr k) e ∧
          (|c| > 1 / 10 ^ 15 → BadCell s (classicStage (residual γ name s) lim tab us dt k c st).sol e)) := by
  obtain ⟨a1, a2⟩ := accumulate_same (tab := tab) (k := k) hs.incr hs.shape (hs.work.copy hlu) (u := us) hu
  unfold Dg1d.classicStage classicStage
  simp only
  obtain ⟨w, w1, w2, w3, w4⟩ := stage_limit H k (a1.clock _ _) (w := { Dg1d.accumulate tab k ss.incr (ss.work.copyDataOnly us') with
      t := (Dg1d.accumulate tab k ss.incr (ss.work.copyDataOnly us')).t + alpha * dt }) ((accumulate_shape tab k ss.incr (ss.work.copyDataOnly us')).trans hs.wsens) a2
  rw [w1]
  simp only
  rcases stage_residual h w2 w4 dt with ⟨y, h1, h2, h2', h3, h4⟩ | ⟨h1, e, he⟩
  · left
    rw [h1]
    refine ⟨_, rfl, h2, Like.smartAxpy hs.like _ _, ?_, ?_, ?_, h2'.trans w3, (smartAxpy_shape _ _ _).trans hs.ssens⟩
    · simp only [Function.update_self]
      exact axpy_same hs.sol h3 (by rw [h4.1, hs.like.rows]) (by rw [h4.2, hs.like.cols])
    · intro i
      by_cases hi : i = k
      · subst hi; simp only [Function.update_self]; exact h3
      · simp only [Function.update_of_ne hi]; exact hs.incr i
    · intro i
      by_cases hi : i = k
      · subst hi; simp only [Function.update_self]; exact h4
      · simp only [Function.update_of_ne hi]; exact hs.shape i
  · right
    rw [h1]
    refine ⟨rfl, e, ?_, fun hc => axpy_brings he _ hc⟩
    simp only [Function.update_self]
    exact he

lemma classicStage_bad (h : Ready γ name s) (H : LimOk s lim limM) {tab : Tableau ℝ} (hused : Used tab) {us : Arr Num} (hr : us.rows = s.u.rows) (hc : us.cols = (s.NE + 2) * 3) (dt : ℝ)
    {k e : ℕ} (hk : k < (tab.coeffs.zip tab.alphas).length) {st : Stage} (hs : StageBad s tab (tab.coeffs.zip tab.alphas).length k e st) :
    StageBad s tab (tab.coeffs.zip tab.alphas).length (k + 1) e (classicStage (residual γ name s) lim tab us dt k (tab.coeffs.getD k 0) st) := by
  obtain ⟨h0, h1, h2⟩ := hs
  unfold classicStage
  refine ⟨by simp only; rw [axpy_rows]; exact h0, by simp only; rw [axpy_cols]; exact h1, ?_⟩
  rcases h2 with h2 | ⟨j, hj, hb, i, hi, hki, hbeta⟩
  · exact .inl (axpy_keeps h2 _ _)
  · by_cases he : i = k
    · subst he
      obtain ⟨b1, b2⟩ := stage_limit_bad H i (u := accumulate tab i st.incr us) (by rw [accumulate_rows, hr]) (by rw [accumulate_cols, hc])
        (fold_brings tab i hb hbeta us hj)
      have hK := smul_bad (residual_keeps h b1 b2) dt
      rcases hused i hi with hcf | ⟨i', hi', hlt, hb'⟩
      · exact .inl (axpy_brings hK _ hcf)
      · exact .inr ⟨i, by omega, by simpa using hK, i', hi', hlt, hb'⟩
    · refine .inr ⟨j, by omega, ?_, i, hi, by omega, hbeta⟩
      simp only [Function.update_of_ne (show j ≠ k by omega)]
      exact hb

lemma classicStages_bad (h : Ready γ name s) (H : LimOk s lim limM) {tab : Tableau ℝ} (hused : Used tab) {us : Arr Num} (hr : us.rows = s.u.rows) (hc : us.cols = (s.NE + 2) * 3) (dt : ℝ) {e : ℕ} :
    ∀ (l pre : List (ℝ × ℝ)) (st : Stage), pre ++ l = tab.coeffs.zip tab.alphas →
      StageBad s tab (tab.coeffs.zip tab.alphas).length pre.length e st →
      StageBad s tab (tab.coeffs.zip tab.alphas).length (tab.coeffs.zip tab.alphas).length e (classicStages (residual γ name s) lim tab us dt pre.length l st)
  | [], pre, st, hp, hs => by rw [List.append_nil] at hp; rw [← hp] at hs ⊢; exact hs
  | (c, a) :: rest, pre, st, hp, hs => by
    unfold classicStages
    have hk : pre.length < (tab.coeffs.zip tab.alphas).length := by rw [← hp]; simp
    have hcf : tab.coeffs.getD pre.length 0 = c := by
      have h1 : (tab.coeffs.zip tab.alphas)[pre.length]? = some (c, a) := by rw [← hp]; simp
      rw [List.getElem?_zip_eq_some] at h1
      rw [List.getD_eq_getElem?_getD, h1.1]; rfl
    have := classicStages_bad h H hused hr hc dt rest (pre ++ [(c, a)]) (classicStage (residual γ name s) lim tab us dt pre.length c st) (by simpa using hp)
      (by have := classicStage_bad h H hused hr hc dt hk hs; rw [hcf] at this; simpa using this)
    simpa using this

lemma classicStages_same (h : Ready γ name s) (H : LimOk s lim limM) {tab : Tableau ℝ} (hused : Used tab) {us : Arr Num} {us' : Sol ℝ} (hlu : Like us' s) (hu : Same us us'.u) (dt : ℝ) :
    ∀ (l pre : List (ℝ × ℝ)) (st : Stage) (ss : StageState ℝ), pre ++ l = tab.coeffs.zip tab.alphas → StageSame s st ss →
      (∃ ss', Dg1d.classicStages (env limM) tab us' dt pre.length l ss = .ok ss' ∧
        StageSame s (classicStages (residual γ name s) lim tab us dt pre.length l st) ss') ∨
      (Dg1d.classicStages (env limM) tab us' dt pre.length l ss = .error .notReal ∧
        (classicStages (residual γ name s) lim tab us dt pre.length l st).sol.rows = s.u.rows ∧
        (classicStages (residual γ name s) lim tab us dt pre.length l st).sol.cols = (s.NE + 2) * 3 ∧
        ∃ e, BadCell s (classicStages (residual γ name s) lim tab us dt pre.length l st).sol e)
  | [], pre, st, ss, hp, hs => .inl ⟨ss, rfl, hs⟩
  | (c, a) :: rest, pre, st, ss, hp, hs => by
    have huc : us.cols = (s.NE + 2) * 3 := by rw [hu.cols, hlu.cols, h.wf.cols, h.NF]
    have hk : pre.length < (tab.coeffs.zip tab.alphas).length := by rw [← hp]; simp
    have hcf : tab.coeffs.getD pre.length 0 = c := by
      have h1 : (tab.coeffs.zip tab.alphas)[pre.length]? = some (c, a) := by rw [← hp]; simp
      rw [List.getElem?_zip_eq_some] at h1
      rw [List.getD_eq_getElem?_getD, h1.1]; rfl
    unfold classicStages Dg1d.classicStages
    rcases classicStage_same h H hlu hu dt pre.length c a hs (tab := tab) with ⟨ss', h1, h2⟩ | ⟨h1, e, he, hce⟩
    · rw [h1]
      have := classicStages_same h H hused hlu hu dt rest (pre ++ [(c, a)]) _ ss' (by simpa using hp) h2
      simpa using this
    · right
      rw [h1]
      have hcols : (classicStage (residual γ name s) lim tab us dt pre.length c st).sol.cols = (s.NE + 2) * 3 := by
        show (axpy st.sol c _).cols = _
        rw [axpy_cols, hs.sol.cols, hs.like.cols, h.wf.cols, h.NF]
      have hrows : (classicStage (residual γ name s) lim tab us dt pre.length c st).sol.rows = s.u.rows := by
        show (axpy st.sol c _).rows = _
        rw [axpy_rows, hs.sol.rows, hs.like.rows]
      have hbad : StageBad s tab (tab.coeffs.zip tab.alphas).length (pre.length + 1) e (classicStage (residual γ name s) lim tab us dt pre.length c st) := by
        refine ⟨hrows, hcols, ?_⟩
        rcases hused _ hk with hu' | ⟨i, hi, hlt, hb⟩
        · left; rw [hcf] at hu'; exact hce hu'
        · right; exact ⟨pre.length, by omega, he, i, hi, hlt, hb⟩
      have := classicStages_bad h H hused (hu.rows.trans hlu.rows) huc dt (e := e) rest (pre ++ [(c, a)]) _ (by simpa using hp) (by simpa using hbad)
      simp only [List.length_append, List.length_cons, List.length_nil, zero_add] at this
      refine ⟨rfl, this.rows, this.cols, e, ?_⟩
      rcases this.bad with hb | ⟨j, -, -, i, hi, hle, -⟩
      · exact hb
      · omega

lemma lowStage_same (h : Ready γ name s) (H : LimOk s lim limM) {us : Arr Num} {us' : Sol ℝ} (hlu : Like us' s) (hu : Same us us'.u) (dt : ℝ)
    (k : ℕ) (beta gamma : ℝ) {st : Stage} {ss : StageState ℝ} (hs : StageSame s st ss) :
    (∃ ss', Dg1d.lowStage (env limM) us' dt k beta gamma ss = .ok ss' ∧ StageSame s (lowStage (residual γ name s) lim us dt k beta gamma st) ss') ∨
      (Dg1d.lowStage (env limM) us' dt k beta gamma ss = .error .notReal ∧
        ∃ e, |gamma| > 1 / 10 ^ 15 → BadCell s (lowStage (residual γ name s) lim us dt k beta gamma st).sol e) := by
  have hw := hs.work.copy hlu
  have a1 : Like ((ss.work.copyDataOnly us').smartAxpy beta (ss.incr 0)) s := Like.smartAxpy hw _ _
  have a2 : Same (axpy us beta (st.incr 0)) ((ss.work.copyDataOnly us').smartAxpy beta (ss.incr 0)).u :=
    axpy_same (w := ss.work.copyDataOnly us') hu (hs.incr 0) (by rw [(hs.shape 0).1, hw.rows]) (by rw [(hs.shape 0).2, hw.cols])
  unfold Dg1d.lowStage lowStage
  simp only
  obtain ⟨w, w1, w2, w3, w4⟩ := stage_limit H k (a1.clock _ _) (w := { (ss.work.copyDataOnly us').smartAxpy beta (ss.incr 0) with
      t := ((ss.work.copyDataOnly us').smartAxpy beta (ss.incr 0)).t + beta * dt }) ((smartAxpy_shape _ beta (ss.incr 0)).trans hs.wsens) a2
  rw [w1]
  simp only
  rcases stage_residual h w2 w4 dt with ⟨y, h1, h2, h2', h3, h4⟩ | ⟨h1, e, he⟩
  · left
    rw [h1]
    refine ⟨_, rfl, h2, Like.smartAxpy hs.like _ _, ?_, ?_, ?_, h2'.trans w3, (smartAxpy_shape _ _ _).trans hs.ssens⟩
    · exact axpy_same hs.sol h3 (by rw [h4.1, hs.like.rows]) (by rw [h4.2, hs.like.cols])
    · intro i
      by_cases hi : i = 0
      · subst hi; simp only [Function.update_self]; exact h3
      · simp only [Function.update_of_ne hi]; exact hs.incr i
    · intro i
      by_cases hi : i = 0
      · subst hi; simp only [Function.update_self]; exact h4
      · simp only [Function.update_of_ne hi]; exact hs.shape i
  · right
    rw [h1]
    exact ⟨rfl, e, fun hc => axpy_brings he _ hc⟩

lemma lowStages_keeps {us : Arr Num} (res : Arr Num → Arr Num) (dt : ℝ) {e : ℕ} :
    ∀ (k : ℕ) (l : List (ℝ × ℝ)) (st : Stage), BadCell s st.sol e → BadCell s (lowStages res lim us dt k l st).sol e
  | _, [], _, hs => hs
  | k, (_, _) :: rest, _, hs => lowStages_keeps res dt (k + 1) rest _ (axpy_keeps hs _ _)

lemma lowStages_cols {us : Arr Num} (res : Arr Num → Arr Num) (dt : ℝ) :
    ∀ (k : ℕ) (l : List (ℝ × ℝ)) (st : Stage), (lowStages res lim us dt k l st).sol.cols = st.sol.cols
  | _, [], _ => rfl
  | k, (_, _) :: rest, _ => (lowStages_cols res dt (k + 1) rest _).trans (axpy_cols _ _ _)

lemma lowStages_rows {us : Arr Num} (res : Arr Num → Arr Num) (dt : ℝ) :
    ∀ (k : ℕ) (l : List (ℝ × ℝ)) (st : Stage), (lowStages res lim us dt k l st).sol.rows = st.sol.rows
  | _, [], _ => rfl
  | k, (_, _) :: rest, _ => (lowStages_rows res dt (k + 1) rest _).trans (axpy_rows _ _ _)

lemma lowStages_same (h : Ready γ name s) (H : LimOk s lim limM) {us : Arr Num} {us' : Sol ℝ} (hlu : Like us' s) (hu : Same us us'.u) (dt : ℝ) :
    ∀ (l : List (ℝ × ℝ)) (k : ℕ) (st : Stage) (ss : StageState ℝ), (∀ q ∈ l, |q.2| > 1 / 10 ^ 15) → StageSame s st ss →
      (∃ ss', Dg1d.lowStages (env limM) us' dt k l ss = .ok ss' ∧ StageSame s (lowStages (residual γ name s) lim us dt k l st) ss') ∨
      (Dg1d.lowStages (env limM) us' dt k l ss = .error .notReal ∧
        (lowStages (residual γ name s) lim us dt k l st).sol.rows = s.u.rows ∧
        (lowStages (residual γ name s) lim us dt k l st).sol.cols = (s.NE + 2) * 3 ∧
        ∃ e, BadCell s (lowStages (residual γ name s) lim us dt k l st).sol e)
  | [], _, _, ss, _, hs => .inl ⟨ss, rfl, hs⟩
  | (b, g) :: rest, k, st, ss, hl, hs => by
    unfold lowStages Dg1d.lowStages
    rcases lowStage_same h H hlu hu dt k b g hs with ⟨ss', h1, h2⟩ | ⟨h1, e, he⟩
    · rw [h1]
      exact lowStages_same h H hlu hu dt rest (k + 1) _ ss' (fun q hq => hl q (List.mem_cons_of_mem _ hq)) h2
    · right
      rw [h1]
      refine ⟨rfl, ?_, ?_, e, lowStages_keeps _ _ _ _ _ (he (hl (b, g) (by simp)))⟩
      · rw [lowStages_rows]
        show (axpy st.sol g _).rows = _
        rw [axpy_rows, hs.sol.rows, hs.like.rows]
      · rw [lowStages_cols]
        show (axpy st.sol g _).cols = _
        rw [axpy_cols, hs.sol.cols, hs.like.cols, h.wf.cols, h.NF]

/-! ### The tables -/

/-- `Used` for a table of fractions. -/
def usedCheck (tab : Tableau ℚ) : Prop :=
  ∀ j < (tab.coeffs.zip tab.alphas).length, |tab.coeffs.getD j 0| > 1 / 10 ^ 15 ∨
    ∃ i < (tab.coeffs.zip tab.alphas).length, j < i ∧ |tab.beta i j| > 1 / 10 ^ 15

instance (tab : Tableau ℚ) : Decidable (usedCheck tab) := by unfold usedCheck; infer_instance

lemma big_cast {a : ℚ} (h : |a| > 1 / 10 ^ 15) : |(a : ℝ)| > 1 / 10 ^ 15 := by
  have : ((1 / 10 ^ 15 : ℚ) : ℝ) < ((|a| : ℚ) : ℝ) := by exact_mod_cast h
  push_cast at this
  exact this

lemma used_of_check {tab : Tableau ℚ} (h : usedCheck tab) : Used (tab.map (fun q : ℚ => (q : ℝ))) := by
  intro j hj
  simp only [Tableau.map, List.length_zip, List.length_map] at hj ⊢
  have hg := getD_map (Rat.castHom ℝ) tab.coeffs j
  simp only [Rat.coe_castHom] at hg
  rw [hg]
  rcases h j (by simpa using hj) with h1 | ⟨i, hi, hlt, hb⟩
  · exact .inl (big_cast h1)
  · exact .inr ⟨i, by simpa using hi, hlt, big_cast hb⟩

lemma tables_used : (usedCheck rk3 ∧ usedCheck rk4 ∧ usedCheck rk5) ∧ usedCheck rk8 ∧ usedCheck rk10 ∧ usedCheck rk12 ∧ usedCheck rk14 := by
  refine ⟨⟨?_, ?_, ?_⟩, ?_, ?_, ?_, ?_⟩ <;> decide +kernel

lemma rk6_used : Used rk6 := by
  intro j hj
  have hl : (rk6.coeffs.zip rk6.alphas).length = 7 := rfl
  rw [hl] at hj ⊢
  have big : ∀ {a : ℝ}, 1 / 10 ^ 15 < a → |a| > 1 / 10 ^ 15 := fun h => lt_of_lt_of_le h (le_abs_self _)
  have small : ∀ {a : ℝ}, 1 / 10 ^ 15 < -a → |a| > 1 / 10 ^ 15 := fun h => lt_of_lt_of_le h (neg_le_abs _)
  interval_cases j
  · left; refine big ?_; show (1 / 10 ^ 15 : ℝ) < 1 / 12; norm_num
  · right; refine ⟨2, by norm_num, by norm_num, small ?_⟩; show (1 / 10 ^ 15 : ℝ) < -(-5 / 16); norm_num
  · right; refine ⟨3, by norm_num, by norm_num, small ?_⟩; show (1 / 10 ^ 15 : ℝ) < -(-16 / 45); norm_num
  · right
    refine ⟨4, by norm_num, by norm_num, small ?_⟩
    show (1 / 10 ^ 15 : ℝ) < -(-3 / 100 * √5)
    have : (2 : ℝ) < √5 := by rw [Real.lt_sqrt (by norm_num)]; norm_num
    norm_num
    linarith
  · left; refine big ?_; show (1 / 10 ^ 15 : ℝ) < 5 / 12; norm_num
  · left; refine big ?_; show (1 / 10 ^ 15 : ℝ) < 5 / 12; norm_num
  · left; refine big ?_; show (1 / 10 ^ 15 : ℝ) < 1 / 12; norm_num

lemma schemeFor_used (rk : String) {tab : Tableau ℝ} (h : schemeFor rk = .classic tab) : Used tab := by
  obtain ⟨⟨h3, h4, h5⟩, h8, h10, h12, h14⟩ := tables_used
  unfold schemeFor at h
  split_ifs at h <;> cases h <;> first | exact rk6_used | (apply used_of_check; assumption)

/-- The stages of a whole step. -/
lemma inner_same (h : Ready γ name s) (H : LimOk s lim limM) (rk : String) {us : Arr Num} {us' : Sol ℝ} (hlu : Like us' s) (hu : Same us us'.u) (dt : ℝ)
    {st : Stage} {ss : StageState ℝ} (hs : StageSame s st ss) :
    (∃ ss', (schemeFor rk).inner (env limM) us' dt ss = .ok ss' ∧ StageSame s (inner (residual γ name s) lim us dt st (schemeFor rk)) ss') ∨
    ((schemeFor rk).inner (env limM) us' dt ss = .error .notReal ∧
      (inner (residual γ name s) lim us dt st (schemeFor rk)).sol.rows = s.u.rows ∧
      (inner (residual γ name s) lim us dt st (schemeFor rk)).sol.cols = (s.NE + 2) * 3 ∧
      ∃ e, BadCell s (inner (residual γ name s) lim us dt st (schemeFor rk)).sol e) := by
  cases hsch : schemeFor rk with
  | low =>
    refine lowStages_same h H hlu hu dt _ 0 st ss ?_ hs
    intro q hq
    simp only [lowStorageBetas, lowStorageGammas, List.zip_cons_cons, List.zip_nil_right, List.mem_cons, List.not_mem_nil, or_false] at hq
    rcases hq with rfl | rfl | rfl | rfl <;> simp only <;> rw [abs_of_pos (by norm_num)] <;> norm_num
  | classic tab => exact classicStages_same h H (schemeFor_used rk hsch) hlu hu dt _ [] st ss rfl hs

/-! ### The main loop -/

/-- A printed solution with NaN allowed and one of the model hold the same numbers. -/
structure SameOut (a : OutRec) (b : Dg1d.OutRec ℝ) : Prop where
  nout : a.nout = b.nout
  dt : a.dt = b.dt
  t : a.t = b.sol.t
  n : a.n = b.sol.n
  u : Same a.u b.sol.u

/-- The variables of the main loop hold the same numbers. -/
structure LoopSame (s : Sol ℝ) (l : Loop) (L : LoopState ℝ) : Prop where
  like : Like L.sol s
  us : Like L.us s
  work : Like L.work s
  u : Same l.u L.sol.u
  t : l.t = L.sol.t
  n : l.n = L.sol.n
  incr : ∀ k, Same (l.incr k) (L.incr k)
  shape : ∀ k, Shaped s (L.incr k)
  wsens : sensorShape L.work = sensorShape s
  ssens : sensorShape L.sol = sensorShape s
  nout : l.nout = L.nout
  tout : l.tout = L.tout
  touts : l.touts = L.touts
  status : l.status = L.status
  log : List.Forall₂ SameOut l.log L.log

lemma nextStep_same (h : Ready γ name s) (deck : RkDeck ℝ) {l : Loop} {L : LoopState ℝ} (hl : LoopSame s l L) :
    nextStep γ s deck l = getNextTimeStep L.sol L.tout deck.cfl deck.finaltime := by
  have hr := h.like hl.like
  have hw : maxWaveSpeed γ l.u = Euler.maxWaveSpeed γ L.sol.u := by
    refine maxWaveSpeed_same hl.u ?_ (N := s.NE + 2) ?_
    · rw [hl.like.rows, h.wf.rows]; exact h.ns
    · rw [hl.like.cols, h.wf.cols, h.NF]
  have hcfl : cflTimeStep { s with t := l.t, kw := { s.kw with maxWaveSpeed := fun _ => maxWaveSpeed γ l.u } } deck.cfl = cflTimeStep L.sol deck.cfl := by
    unfold cflTimeStep
    simp only [hw]
    rw [hr.kw, hl.like.setup.dx, hl.like.setup.basis]
    rfl
  unfold nextStep getNextTimeStep
  rw [hcfl, hl.tout]
  simp only [hl.t]

lemma nextStep_bad {deck : RkDeck ℝ} {l : Loop} (hc : l.u.cols = (s.NE + 2) * 3) {e : ℕ} (hb : BadCell s l.u e) :
    nextStep γ s deck l = .error (.sysExit "Time step is NaN") := by
  unfold nextStep getNextTimeStep cflTimeStep
  simp only [maxWaveSpeed_bad hc hb]
  rfl

lemma next_error (h : Ready γ name s) (hx : Like x s) {tout cfl tf : ℝ} {e : PyErr} (he : getNextTimeStep x tout cfl tf = .error e) : e ≠ .notReal := by
  have hr := h.like hx
  rintro rfl
  unfold getNextTimeStep cflTimeStep at he
  rw [hr.kw] at he
  simp only [Euler.physics, Euler.maxWaveSpeed] at he
  revert he
  split
  · rename_i heq
    split_ifs at heq <;> first | (cases heq; intro h; cases h) | (simp at heq; done) | (revert heq; simp only; split_ifs <;> simp)
  · split
    · rename_i e' heq
      intro h; cases h
      revert heq
      unfold sanityCheckDt
      split <;> (try split_ifs) <;> simp
    · split <;> simp

lemma init_same (deck : RkDeck ℝ) (s : Sol ℝ) : LoopSame s (initLoop deck s) (Dg1d.initLoop deck s) := by
  have hlog : List.Forall₂ SameOut [⟨0, 0, s.t, s.n, lift s.u⟩] [⟨0, 0, s⟩] := by
    refine .cons ⟨rfl, rfl, rfl, rfl, same_lift _⟩ .nil
  unfold initLoop Dg1d.initLoop
  simp only
  cases ((List.range deck.nout).map (linspace s.t deck.finaltime deck.nout).val).tail with
  | nil => exact ⟨Like.refl s, Like.refl s, Like.refl s, same_lift _, rfl, rfl, fun _ => same_lift _, fun _ => ⟨rfl, rfl⟩, rfl, rfl, rfl, rfl, rfl, rfl, hlog⟩
  | cons a l => exact ⟨Like.refl s, Like.refl s, Like.refl s, same_lift _, rfl, rfl, fun _ => same_lift _, fun _ => ⟨rfl, rfl⟩, rfl, rfl, rfl, rfl, rfl, rfl, hlog⟩

lemma forall₂_snoc {α β : Type*} {R : α → β → Prop} {l : List α} {m : List β} (h : List.Forall₂ R l m) {a : α} {b : β} (hab : R a b) :
    List.Forall₂ R (l ++ [a]) (m ++ [b]) := List.rel_append h (.cons hab .nil)

lemma output_same {l : Loop} {L : LoopState ℝ} {sol : Sol ℝ} (hl : LoopSame s l { L with sol := sol }) (dt : ℝ) (output done : Bool) :
    LoopSame s (outputPhase l dt output done) (Dg1d.outputPhase L sol dt output done) := by
  obtain ⟨h1, h2, h3, h4, h5, h6, h7, h8, w1, w2, h9, h10, h11, h12, h13⟩ := hl
  have hlog : List.Forall₂ SameOut (l.log ++ [⟨l.nout, dt, l.t, l.n, l.u⟩]) (L.log ++ [⟨L.nout, dt, sol⟩]) :=
    forall₂_snoc h13 ⟨h9, rfl, h5, h6, h4⟩
  unfold outputPhase Dg1d.outputPhase
  cases output
  · exact ⟨h1, h2, h3, h4, h5, h6, h7, h8, w1, w2, h9, h10, h11, h12, h13⟩
  · cases done
    · simp only [if_true]
      change l.touts = L.touts at h11
      rw [h11]
      cases L.touts with
      | nil => exact ⟨h1, h2, h3, h4, h5, h6, h7, h8, w1, w2, congrArg (· + 1) h9, h10, rfl, rfl, hlog⟩
      | cons a r => exact ⟨h1, h2, h3, h4, h5, h6, h7, h8, w1, w2, congrArg (· + 1) h9, rfl, rfl, h12, hlog⟩
    · exact ⟨h1, h2, h3, h4, h5, h6, h7, h8, w1, w2, h9, h10, h11, rfl, hlog⟩

lemma output_status (L : LoopState ℝ) (sol : Sol ℝ) (dt : ℝ) (output done : Bool) (h : L.status ≠ .failed .notReal) :
    (Dg1d.outputPhase L sol dt output done).status ≠ .failed .notReal := by
  unfold Dg1d.outputPhase
  cases output
  · exact h
  · cases done
    · simp only [if_true]
      cases L.touts with
      | nil => simp
      | cons a r => exact h
    · simp

/-- What one iteration does to a run that holds NaN: it prints at most once and its data are those of the print. -/
structure Prints (a b : Loop) : Prop where
  log : b.log = a.log ∨ ∃ nout dt, b.log = a.log ++ [⟨nout, dt, b.t, b.n, b.u⟩]

lemma output_prints (l : Loop) (dt : ℝ) (output done : Bool) :
    Prints l (outputPhase l dt output done) ∧ (outputPhase l dt output done).u = l.u := by
  unfold outputPhase
  cases output
  · exact ⟨⟨.inl rfl⟩, rfl⟩
  · cases done
    · simp only [if_true]
      cases l.touts with
      | nil => exact ⟨⟨.inr ⟨_, _, rfl⟩⟩, rfl⟩
      | cons a r => exact ⟨⟨.inr ⟨_, _, rfl⟩⟩, rfl⟩
    · exact ⟨⟨.inr ⟨_, _, rfl⟩⟩, rfl⟩

/-- One iteration: the numbers agree afterwards, or the model stops with `notReal` and the run with NaN holds NaN in a cell average. -/
lemma body_same (h : Ready γ name s) (H : LimOk s lim limM) (deck : RkDeck ℝ) {l : Loop} {L : LoopState ℝ} (hl : LoopSame s l L) :
    (LoopSame s (loopBody γ name lim s deck l) (Dg1d.loopBody (env limM) deck ((schemeFor deck.rk).inner (env limM)) L) ∧
      (L.status = .running → (Dg1d.loopBody (env limM) deck ((schemeFor deck.rk).inner (env limM)) L).status ≠ .failed .notReal)) ∨
    (L.status = .running ∧ (Dg1d.loopBody (env limM) deck ((schemeFor deck.rk).inner (env limM)) L).status = .failed .notReal ∧
      (Dg1d.loopBody (env limM) deck ((schemeFor deck.rk).inner (env limM)) L).log = L.log ∧
      (loopBody γ name lim s deck l).u.cols = (s.NE + 2) * 3 ∧
      (∃ e, BadCell s (loopBody γ name lim s deck l).u e) ∧ Prints l (loopBody γ name lim s deck l)) := by
  have hn := nextStep_same h deck hl
  unfold loopBody Dg1d.loopBody
  rw [hl.status]
  cases hst : L.status with
  | done => exact .inl ⟨hl, by simp⟩
  | failed e => exact .inl ⟨hl, by simp⟩
  | running =>
    simp only
    rw [hn]
    cases hnx : getNextTimeStep L.sol L.tout deck.cfl deck.finaltime with
    | error e =>
      left
      refine ⟨?_, fun _ hh => next_error h hl.like hnx (by simpa using hh)⟩
      obtain ⟨h1, h2, h3, h4, h5, h6, h7, h8, w1, w2, h9, h10, h11, h12, h13⟩ := hl
      exact ⟨h1, h2, h3, h4, h5, h6, h7, h8, w1, w2, h9, h10, h11, rfl, h13⟩
    | ok r =>
      obtain ⟨dt, output, done⟩ := r
      simp only
      have hus : Like (L.us.copyDataOnly L.sol) s := hl.us.copy hl.like
      rcases inner_same h H deck.rk hus (us := l.u) hl.u dt (st := ⟨l.u, l.incr⟩) (ss := ⟨L.work, L.sol, L.incr⟩)
          ⟨hl.work, hl.like, hl.u, hl.incr, hl.shape, hl.wsens, hl.ssens⟩ with ⟨ss', h1, h2⟩ | ⟨h1, h2r, h2, e, he⟩
      · left
        rw [h1]
        obtain ⟨ht, hnn⟩ := Scheme.inner_keepsClock (env limM) (schemeFor deck.rk) _ _ _ _ h1
        simp only at ht hnn
        have hls : Like { ss'.sol with t := ss'.sol.t + dt, n := ss'.sol.n + 1 } s := h2.like.clock _ _
        obtain ⟨x', x1, x2, x3, x4, x5, x6⟩ := H.same _ _ hls.applyBc ((applyBc_sens { ss'.sol with t := ss'.sol.t + dt, n := ss'.sol.n + 1 }).trans h2.ssens) (bc_same h hls h2.sol)
        simp only [x1]
        refine ⟨?_, fun _ => output_status _ _ dt output done (by simp)⟩
        refine output_same (L := { L with us := L.us.copyDataOnly L.sol, work := ss'.work, incr := ss'.incr, status := .running }) ?_ dt output done
        refine ⟨x2, hus, h2.work, x6, ?_, ?_, h2.incr, h2.shape, h2.wsens, x3, hl.nout, hl.tout, hl.touts, rfl, hl.log⟩
        · rw [x4]; simp only [applyBc_t]; rw [ht, hl.t]
        · rw [x5]; simp only [applyBc_n]; rw [hnn, hl.n]
      · right
        rw [h1]
        refine ⟨trivial, rfl, rfl, ?_⟩
        obtain ⟨p1, p2⟩ := output_prints { l with u := lim (bc s (inner (residual γ name s) lim l.u dt ⟨l.u, l.incr⟩ (schemeFor deck.rk)).sol), t := l.t + dt, n := l.n + 1
                                                  incr := (inner (residual γ name s) lim l.u dt ⟨l.u, l.incr⟩ (schemeFor deck.rk)).incr
                                                  status := .running } dt output done
        refine ⟨?_, ⟨e, ?_⟩, ⟨p1.log⟩⟩
        · rw [p2]; exact H.cols _ ((bc_rows s _).trans h2r) (bc_cols h h2)
        · rw [p2]; exact H.bad _ _ ((bc_rows s _).trans h2r) (bc_cols h h2) (bc_keeps h h2 he)

end Dg1d.Nan
