import Verif.Model.NanLimiter
import Verif.Proofs.NanResidual
import Verif.Proofs.LimiterSol

/-! Helper lemmas: hierarchical reconstruction of data with NaN. -/

namespace Dg1d.Nan
open Num

/-! ### Sums and products -/

lemma foldl_nan_start (l : List ℕ) (f : ℕ → Num) : l.foldl (fun acc n => acc + f n) nan = nan := by
  induction l with
  | nil => rfl
  | cons a l ih => simpa using ih

lemma sumOver_nan {l : List ℕ} {f : ℕ → Num} {n : ℕ} (hn : n ∈ l) (hf : f n = nan) : sumOver l f = nan := by
  unfold sumOver
  generalize num 0 = a
  induction l generalizing a with
  | nil => cases hn
  | cons b l ih =>
    simp only [List.foldl_cons]
    rcases List.mem_cons.mp hn with rfl | hn
    · rw [hf, add_nan, foldl_nan_start]
    · exact ih hn _

lemma sumOver_num {l : List ℕ} {f : ℕ → Num} {g : ℕ → ℝ} (h : ∀ n ∈ l, f n = num (g n)) : sumOver l f = num (l.map g).sum := by
  have key : ∀ (l : List ℕ) (a : ℝ), (∀ n ∈ l, f n = num (g n)) → l.foldl (fun acc n => acc + f n) (num a) = num (a + (l.map g).sum) := by
    intro l
    induction l with
    | nil => intro a _; simp
    | cons b l ih =>
      intro a h
      simp only [List.foldl_cons, List.map_cons, List.sum_cons]
      rw [h b (by simp), num_add, ih _ fun n hn => h n (List.mem_cons_of_mem _ hn), add_assoc]
  unfold sumOver
  rw [key l 0 h, zero_add]

lemma sumOver_Ico {a b : ℕ} {f : ℕ → Num} {g : ℕ → ℝ} (h : ∀ n, a ≤ n → n < b → f n = num (g n)) :
    sumOver (List.range' a (b - a)) f = num (∑ n ∈ Finset.Ico a b, g n) := by
  rw [sumOver_num (g := g) fun n hn => by
    rw [List.mem_range'_1] at hn
    exact h n (by omega) (by omega)]
  rfl

lemma vdot_num {A : Arr ℝ} {v : Vec Num} {w : Vec ℝ} (h : ∀ k < A.cols, v.val k = num (w.val k)) (i : ℕ) :
    (vdot A v).val i = num ((A.dotVec w).val i) := by
  show sumOver _ _ = num (∑ k ∈ Finset.range A.cols, A.val i k * w.val k)
  have := sumOver_Ico (a := 0) (b := A.cols) (f := fun k => num (A.val i k) * v.val k) (g := fun k => A.val i k * w.val k)
    (fun n _ hn => by rw [h n hn, num_mul])
  rw [Nat.sub_zero, ← List.range_eq_range'] at this
  rw [this, Finset.range_eq_Ico]

lemma vdot_nan {A : Arr ℝ} {v : Vec Num} {k : ℕ} (hk : k < A.cols) (hv : v.val k = nan) (i : ℕ) : (vdot A v).val i = nan :=
  sumOver_nan (List.mem_range.mpr hk) (by rw [hv, mul_nan])

/-! ### minmod -/

lemma lt_num (x y : ℝ) : lt (num x) (num y) = true ↔ x < y := by simp [lt]
@[simp] lemma lt_nan_left (x : Num) : lt nan x = false := by cases x <;> rfl
@[simp] lemma lt_nan_right (x : Num) : lt x nan = false := by cases x <;> rfl

lemma minmod_num (x y : ℝ) : scalarMinmod (num x) (num y) = num (Dg1d.scalarMinmod x y) := by
  rw [scalarMinmod_eq]
  unfold scalarMinmod sorted3 Spec.minmod
  simp only [lt_num]
  split_ifs <;> simp <;> grind

lemma minmod_right_nan (a : Num) : scalarMinmod a nan = nan := by
  unfold scalarMinmod sorted3
  simp

lemma minmod_left_nan (y : ℝ) : scalarMinmod nan (num y) = num (min y 0) := by
  unfold scalarMinmod sorted3
  simp only [lt_nan_right, lt_num]
  by_cases h : 0 < y
  · simp [h, min_eq_right h.le]
  · simp [h, min_eq_left (not_lt.mp h)]

lemma minmod_far {x y : ℝ} (h : x ≤ min y 0) : Dg1d.scalarMinmod x y = min y 0 := by
  rw [scalarMinmod_eq]
  unfold Spec.minmod
  obtain ⟨h1, h2⟩ := le_min_iff.mp h
  split_ifs with a b
  · exact absurd a.1 (not_lt.mpr h2)
  · rw [max_eq_right h1, min_eq_left b.2.le]
  · by_cases hy : 0 ≤ y
    · rw [min_eq_right hy]
    · exact absurd ⟨lt_of_le_of_lt h1 (not_le.mp hy), not_le.mp hy⟩ b

/-! ### One pass of the loop -/

section step
variable {lm : HrLimiter ℝ} {N m : ℕ} {ac al ar x : ℕ → Num} {ac' al' ar' x' : ℕ → ℝ}

/-- The candidate from the right neighbour (limiting.py:162), real data. -/
noncomputable def cRight (lm : HrLimiter ℝ) (N : ℕ) (ac ar x : ℕ → ℝ) (m : ℕ) : ℝ :=
  1 / 2 * (1 / 2 * (∑ n ∈ Finset.Ico (m - 1) (N + 1), ar n * lm.integral.val (m - 1) n -
      ∑ n ∈ Finset.Ico (m + 1) (N + 1), x n * lm.bounds13.val (m - 1) n) -
    1 / 2 * (∑ n ∈ Finset.Ico (m - 1) (N + 1), ac n * lm.integral.val (m - 1) n -
      ∑ n ∈ Finset.Ico (m + 1) (N + 1), x n * lm.integral.val (m - 1) n))

/-- The candidate from the left neighbour (limiting.py:161), real data. -/
noncomputable def cLeft (lm : HrLimiter ℝ) (N : ℕ) (ac al x : ℕ → ℝ) (m : ℕ) : ℝ :=
  1 / 2 * (1 / 2 * (∑ n ∈ Finset.Ico (m - 1) (N + 1), ac n * lm.integral.val (m - 1) n -
      ∑ n ∈ Finset.Ico (m + 1) (N + 1), x n * lm.integral.val (m - 1) n) -
    1 / 2 * (∑ n ∈ Finset.Ico (m - 1) (N + 1), al n * lm.integral.val (m - 1) n -
      ∑ n ∈ Finset.Ico (m + 1) (N + 1), x n * lm.bounds31.val (m - 1) n))

lemma step_real (ac al ar x : ℕ → ℝ) (m : ℕ) : lm.limitStep N ac al ar x m =
    (1 / 2 * (∑ n ∈ Finset.Ico (m - 1) (N + 1), ac n * lm.integral.val (m - 1) n -
      ∑ n ∈ Finset.Ico (m + 1) (N + 1), x n * lm.integral.val (m - 1) n),
     Dg1d.scalarMinmod (cLeft lm N ac al x m) (cRight lm N ac ar x m)) := rfl

lemma avg_num {a : ℕ → Num} {a' : ℕ → ℝ} (h : ∀ n ≤ N, a n = num (a' n)) (T : Arr ℝ) (i j : ℕ) :
    sumOver (List.range' j (N + 1 - j)) (fun n => a n * num (T.val i n)) = num (∑ n ∈ Finset.Ico j (N + 1), a' n * T.val i n) :=
  sumOver_Ico fun n _ hn => by rw [h n (by omega), num_mul]

lemma avg_nan {a : ℕ → Num} (T : Arr ℝ) (i : ℕ) {j : ℕ} (hj : j ≤ N) (h : a j = nan) :
    sumOver (List.range' j (N + 1 - j)) (fun n => a n * num (T.val i n)) = nan :=
  sumOver_nan (n := j) (List.mem_range'_1.mpr (by omega)) (by rw [h, nan_mul])

lemma step_num (hc : ∀ n ≤ N, ac n = num (ac' n)) (hl : ∀ n ≤ N, al n = num (al' n)) (hr : ∀ n ≤ N, ar n = num (ar' n))
    (hx : ∀ n ≤ N, x n = num (x' n)) :
    limitStep lm N ac al ar x m = (num (lm.limitStep N ac' al' ar' x' m).1, num (lm.limitStep N ac' al' ar' x' m).2) := by
  unfold limitStep
  simp only [avg_num hc, avg_num hl, avg_num hr, avg_num hx, num_sub, num_mul, minmod_num, step_real]
  rfl

lemma step_own (hm : m - 1 ≤ N) (hc : ac (m - 1) = nan) : (limitStep lm N ac al ar x m).1 = nan := by
  unfold limitStep
  simp only [avg_nan _ _ hm hc, nan_sub, mul_nan]

lemma step_right (hm : m - 1 ≤ N) (hr : ar (m - 1) = nan) : (limitStep lm N ac al ar x m).2 = nan := by
  unfold limitStep
  simp only [avg_nan _ _ hm hr, nan_sub, mul_nan, minmod_right_nan]

/-- A NaN on the left counts as a derivative that falls without bound: any real left neighbour whose derivative of order
`m - 1` has a large enough average gives the same result. -/
lemma step_left (h1 : 1 ≤ m) (hm : m ≤ N) (hI : 0 < lm.integral.val (m - 1) (m - 1)) (hc : ∀ n ≤ N, ac n = num (ac' n)) (hl : al (m - 1) = nan)
    (hr : ∀ n ≤ N, ar n = num (ar' n)) (hx : ∀ n ≤ N, x n = num (x' n)) (a0 : ℕ → ℝ) :
    ∃ b : ℝ, ∀ al' : ℕ → ℝ, (∀ n, m ≤ n → al' n = a0 n) → al' (m - 1) = b →
      limitStep lm N ac al ar x m = (num (lm.limitStep N ac' al' ar' x' m).1, num (lm.limitStep N ac' al' ar' x' m).2) := by
  let LC := 1 / 2 * (∑ n ∈ Finset.Ico (m - 1) (N + 1), ac' n * lm.integral.val (m - 1) n -
      ∑ n ∈ Finset.Ico (m + 1) (N + 1), x' n * lm.integral.val (m - 1) n)
  let rest := ∑ n ∈ Finset.Ico m (N + 1), a0 n * lm.integral.val (m - 1) n
  let R := ∑ n ∈ Finset.Ico (m + 1) (N + 1), x' n * lm.bounds31.val (m - 1) n
  let M := min (cRight lm N ac' ar' x' m) 0
  refine ⟨(2 * (LC - 2 * M) - rest + R) / lm.integral.val (m - 1) (m - 1), fun al' h2 h3 => ?_⟩
  have hsum : ∑ n ∈ Finset.Ico (m - 1) (N + 1), al' n * lm.integral.val (m - 1) n = 2 * (LC - 2 * M) + R := by
    rw [Finset.sum_eq_sum_Ico_succ_bot (by omega), h3, div_mul_cancel₀ _ hI.ne', show m - 1 + 1 = m by omega,
      Finset.sum_congr rfl fun n hn => by rw [h2 n (Finset.mem_Ico.mp hn).1]]
    show 2 * (LC - 2 * M) - rest + R + rest = _
    ring
  have hfar : cLeft lm N ac' al' x' m = M := by
    unfold cLeft
    rw [hsum]
    show 1 / 2 * (LC - 1 / 2 * (2 * (LC - 2 * M) + R - R)) = M
    ring
  rw [step_real, minmod_far (le_of_eq hfar)]
  unfold limitStep
  simp only [avg_num hc, avg_nan _ _ (by omega : m - 1 ≤ N) hl, avg_num hr, avg_num hx, num_sub, num_mul, sub_nan, nan_sub, mul_nan, minmod_left_nan]
  rfl

end step

/-! ### The loop -/

section loop
variable {lm : HrLimiter ℝ} {N : ℕ} {ac al ar : ℕ → Num} {ac' al' ar' : ℕ → ℝ}

/-- The loop variables agree and are real. -/
structure LoopReal (N : ℕ) (st : (ℕ → Num) × Option Num) (st' : (ℕ → ℝ) × Option ℝ) : Prop where
  alim : ∀ n ≤ N, st.1 n = num (st'.1 n)
  avg : st.2 = st'.2.map num

lemma LoopReal.next {st : (ℕ → Num) × Option Num} {st' : (ℕ → ℝ) × Option ℝ} (h : LoopReal N st st') (k : ℕ) (a b : ℝ) :
    LoopReal N (Function.update st.1 k (num b), some (num a)) (Function.update st'.1 k b, some a) where
  alim := fun n hn => by
    by_cases hk : n = k
    · subst hk; simp
    · simp only [Function.update_of_ne hk]; exact h.alim n hn
  avg := rfl

lemma loop_num (hc : ∀ n ≤ N, ac n = num (ac' n)) (hl : ∀ n ≤ N, al n = num (al' n)) (hr : ∀ n ≤ N, ar n = num (ar' n)) (m : ℕ) :
    ∀ st st', LoopReal N st st' → LoopReal N (limitLoop lm N ac al ar m st) (lm.limitLoop N ac' al' ar' m st') := by
  induction m with
  | zero => exact fun st st' h => h
  | succ m ih =>
    intro st st' h
    show LoopReal N (limitLoop lm N ac al ar m _) (lm.limitLoop N ac' al' ar' m _)
    apply ih
    rw [step_num hc hl hr h.alim]
    exact h.next _ _ _

lemma loop_left (hI : ∀ k < N, 0 < lm.integral.val k k) (hc : ∀ n ≤ N, ac n = num (ac' n)) (hl : ∀ n ≤ N, al n = nan) (hr : ∀ n ≤ N, ar n = num (ar' n)) (m : ℕ)
    (hm : m ≤ N) : ∀ st st' (a0 : ℕ → ℝ), LoopReal N st st' →
      ∃ al' : ℕ → ℝ, (∀ n, m ≤ n → al' n = a0 n) ∧ LoopReal N (limitLoop lm N ac al ar m st) (lm.limitLoop N ac' al' ar' m st') := by
  induction m with
  | zero => exact fun st st' a0 h => ⟨a0, fun _ _ => rfl, h⟩
  | succ m ih =>
    intro st st' a0 h
    obtain ⟨b, hb⟩ := step_left (m := m + 1) (by omega) hm (hI m (by omega)) hc (hl _ (by omega)) hr h.alim a0
    have key : ∀ al', (∀ n, m + 1 ≤ n → al' n = a0 n) → al' m = b →
        limitStep lm N ac al ar st.1 (m + 1) =
          (num (lm.limitStep N ac' (Function.update a0 m b) ar' st'.1 (m + 1)).1, num (lm.limitStep N ac' (Function.update a0 m b) ar' st'.1 (m + 1)).2) ∧
        lm.limitStep N ac' al' ar' st'.1 (m + 1) = lm.limitStep N ac' (Function.update a0 m b) ar' st'.1 (m + 1) := by
      intro al' h1 h2
      refine ⟨hb _ (fun n hn => Function.update_of_ne (by omega) _ _) (by simp), ?_⟩
      rw [step_real, step_real]
      have : cLeft lm N ac' al' st'.1 (m + 1) = cLeft lm N ac' (Function.update a0 m b) st'.1 (m + 1) := by
        unfold cLeft
        rw [Finset.sum_congr (g := fun n => Function.update a0 m b n * lm.integral.val (m + 1 - 1) n) rfl (f := fun n => al' n * _) fun n hn => by
          rw [Finset.mem_Ico] at hn
          by_cases he : n = m
          · subst he; simp [h2]
          · rw [Function.update_of_ne he, h1 n (by omega)]]
      rw [this]
    obtain ⟨al', g1, g2⟩ := ih (by omega) _ _ (Function.update a0 m b) (h.next (m + 1) (lm.limitStep N ac' (Function.update a0 m b) ar' st'.1 (m + 1)).1
      (lm.limitStep N ac' (Function.update a0 m b) ar' st'.1 (m + 1)).2)
    have g3 : ∀ n, m + 1 ≤ n → al' n = a0 n := fun n hn => (g1 n (by omega)).trans (Function.update_of_ne (by omega) _ _)
    have g4 : al' m = b := (g1 m le_rfl).trans (by simp)
    obtain ⟨k1, k2⟩ := key al' g3 g4
    refine ⟨al', g3, ?_⟩
    show LoopReal N (limitLoop lm N ac al ar m _) (lm.limitLoop N ac' al' ar' m _)
    rw [k1, k2]
    exact g2

lemma loop_own (hc : ∀ n ≤ N, ac n = nan) (m : ℕ) (hm : m ≤ N) : ∀ st, (1 ≤ m ∨ st.2 = some nan) → (limitLoop lm N ac al ar m st).2 = some nan := by
  induction m with
  | zero =>
    intro st h
    exact h.resolve_left (by omega)
  | succ m ih =>
    intro st _
    exact ih (by omega) _ (.inr (by simp only; rw [step_own (by omega) (hc _ (by omega))]))

lemma loop_some (m : ℕ) : ∀ st : (ℕ → Num) × Option Num, (1 ≤ m ∨ st.2.isSome) → (limitLoop lm N ac al ar m st).2.isSome := by
  induction m with
  | zero =>
    intro st h
    exact h.resolve_left (by omega)
  | succ m ih =>
    intro st _
    exact ih _ (.inr rfl)

lemma loop_right (hr : ∀ n ≤ N, ar n = nan) (m : ℕ) (hm : m ≤ N) : ∀ st : (ℕ → Num) × Option Num, (1 ≤ m ∨ st.1 1 = nan) →
    (limitLoop lm N ac al ar m st).1 1 = nan := by
  induction m with
  | zero =>
    intro st h
    exact h.resolve_left (by omega)
  | succ m ih =>
    intro st _
    by_cases h0 : m = 0
    · subst h0
      show Function.update st.1 1 (limitStep lm N ac al ar st.1 1).2 1 = nan
      rw [Function.update_self, step_right (by omega) (hr _ (by omega))]
    · exact ih (by omega) _ (.inl (by omega))

end loop

/-! ### The reconstruction of one column -/

section hr
variable {lm : HrLimiter ℝ} {p : ℕ} {uc ul ur : Vec Num} {uc' ul' ur' : Vec ℝ}

lemma monomial_num (h : LimiterOk lm p) (hc : ∀ k < p + 1, uc.val k = num (uc'.val k)) (n : ℕ) :
    (vdot lm.L2M uc).val n = num ((lm.L2M.dotVec uc').val n) := vdot_num (fun k hk => hc k (by rw [h.colsL] at hk; exact hk)) n

lemma monomial_nan (h : LimiterOk lm p) (hc : ∃ k < p + 1, uc.val k = nan) (n : ℕ) : (vdot lm.L2M uc).val n = nan := by
  obtain ⟨k, hk, hv⟩ := hc
  exact vdot_nan (by rw [h.colsL]; exact hk) hv n

/-- What `hr` makes of the result of the loop. -/
lemma hr_form (h : LimiterOk lm p) {avg : Num}
    (ha : (limitLoop lm p (vdot lm.L2M uc).val (vdot lm.L2M ul).val (vdot lm.L2M ur).val p (fun _ => num 0, none)).2 = some avg) :
    hr lm uc ul ur = .ok (vdot lm.M2L ⟨p + 1, Function.update
      (limitLoop lm p (vdot lm.L2M uc).val (vdot lm.L2M ul).val (vdot lm.L2M ur).val p (fun _ => num 0, none)).1 0 avg⟩) := by
  have hlen : (vdot lm.L2M uc).len = p + 1 := h.rowsL
  unfold hr limitMonomial
  simp only [hlen, Nat.add_sub_cancel]
  generalize limitLoop lm p (vdot lm.L2M uc).val (vdot lm.L2M ul).val (vdot lm.L2M ur).val p (fun _ => num 0, none) = r at ha ⊢
  obtain ⟨r1, r2⟩ := r
  simp only at ha
  subst ha
  rfl

lemma hr_form_real (h : LimiterOk lm p) {avg : ℝ}
    (ha : (lm.limitLoop p (lm.L2M.dotVec uc').val (lm.L2M.dotVec ul').val (lm.L2M.dotVec ur').val p (fun _ => 0, none)).2 = some avg) :
    lm.hr uc' ul' ur' = .ok (lm.M2L.dotVec ⟨p + 1, Function.update
      (lm.limitLoop p (lm.L2M.dotVec uc').val (lm.L2M.dotVec ul').val (lm.L2M.dotVec ur').val p (fun _ => 0, none)).1 0 avg⟩) := by
  have hlen : (lm.L2M.dotVec uc').len = p + 1 := h.rowsL
  unfold HrLimiter.hr HrLimiter.limitMonomial
  simp only [hlen, Nat.add_sub_cancel]
  generalize lm.limitLoop p (lm.L2M.dotVec uc').val (lm.L2M.dotVec ul').val (lm.L2M.dotVec ur').val p (fun _ => 0, none) = r at ha ⊢
  obtain ⟨r1, r2⟩ := r
  simp only at ha
  subst ha
  rfl

lemma start_real (N : ℕ) : LoopReal N (fun _ => num 0, none) (fun _ => 0, none) := ⟨fun _ _ => rfl, rfl⟩

lemma real_some (hp : 1 ≤ p) (a b c : ℕ → ℝ) : ∃ avg, (lm.limitLoop p a b c p (fun _ => 0, none)).2 = some avg := by
  have := (limitLoop_spec lm p a b c p (fun _ => 0, none)).2.2.2
  rw [if_neg (by omega)] at this
  exact ⟨_, this⟩

lemma hr_of_loop (h : LimiterOk lm p) (hp : 1 ≤ p)
    (hL : LoopReal p (limitLoop lm p (vdot lm.L2M uc).val (vdot lm.L2M ul).val (vdot lm.L2M ur).val p (fun _ => num 0, none))
      (lm.limitLoop p (lm.L2M.dotVec uc').val (lm.L2M.dotVec ul').val (lm.L2M.dotVec ur').val p (fun _ => 0, none))) :
    ∃ v v', lm.hr uc' ul' ur' = .ok v' ∧ hr lm uc ul ur = .ok v ∧ v.len = p + 1 ∧ ∀ i, v.val i = num (v'.val i) := by
  obtain ⟨avg, ha⟩ := real_some hp (lm.L2M.dotVec uc').val (lm.L2M.dotVec ul').val (lm.L2M.dotVec ur').val
  have hb := hL.avg
  rw [ha] at hb
  refine ⟨_, _, hr_form_real h ha, hr_form h hb, h.rowsM, fun i => vdot_num (fun k hk => ?_) i⟩
  rw [h.colsM] at hk
  by_cases h0 : k = 0
  · subst h0; simp
  · simp only [Function.update_of_ne h0]
    exact hL.alim k (by omega)

lemma hr_num (h : LimiterOk lm p) (hp : 1 ≤ p) (hc : ∀ k < p + 1, uc.val k = num (uc'.val k)) (hl : ∀ k < p + 1, ul.val k = num (ul'.val k))
    (hr : ∀ k < p + 1, ur.val k = num (ur'.val k)) :
    ∃ v v', lm.hr uc' ul' ur' = .ok v' ∧ Nan.hr lm uc ul ur = .ok v ∧ v.len = p + 1 ∧ ∀ i, v.val i = num (v'.val i) :=
  hr_of_loop h hp (loop_num (fun n _ => monomial_num h hc n) (fun n _ => monomial_num h hl n) (fun n _ => monomial_num h hr n) p _ _ (start_real p))

lemma hr_own (h : LimiterOk lm p) (hp : 1 ≤ p) (hc : ∃ k < p + 1, uc.val k = nan) :
    ∃ v, Nan.hr lm uc ul ur = .ok v ∧ v.len = p + 1 ∧ ∀ i, v.val i = nan :=
  ⟨_, hr_form h (loop_own (fun n _ => monomial_nan h hc n) p le_rfl _ (.inl hp)), h.rowsM,
    fun i => vdot_nan (k := 0) (by rw [h.colsM]; omega) (by simp) i⟩

lemma hr_right (h : LimiterOk lm p) (hp : 1 ≤ p) (hr : ∃ k < p + 1, ur.val k = nan) :
    ∃ v, Nan.hr lm uc ul ur = .ok v ∧ v.len = p + 1 ∧ ∀ i, v.val i = nan := by
  obtain ⟨avg, ha⟩ := Option.isSome_iff_exists.mp (loop_some (lm := lm) (N := p) (ac := (vdot lm.L2M uc).val) (al := (vdot lm.L2M ul).val)
    (ar := (vdot lm.L2M ur).val) p (fun _ => num 0, none) (.inl hp))
  refine ⟨_, hr_form h ha, h.rowsM, fun i => vdot_nan (k := 1) (by rw [h.colsM]; omega) ?_ i⟩
  simp only [Function.update_of_ne (one_ne_zero)]
  exact loop_right (fun n _ => monomial_nan h hr n) p le_rfl _ (.inl hp)

lemma mono_back (h : LimiterOk lm p) (t : ℕ → ℝ) {n : ℕ} (hn : n ≤ p) : (lm.L2M.dotVec (lm.M2L.dotVec ⟨p + 1, t⟩)).val n = t n := by
  have h1 := h.toMono (fun i => ∑ k ∈ Finset.range (p + 1), lm.M2L.val i k * t k)
  rw [h.toLeg] at h1
  have h2 := congrArg (fun P => Polynomial.coeff P n) h1
  simp only [taylorPoly_coeff] at h2
  rw [if_pos (by omega), if_pos (by omega)] at h2
  have h3 := (div_left_inj' (fact_ne n)).mp h2
  simpa [Arr.dotVec, h.colsL, h.colsM] using h3

lemma real_loop_congr {a b c a2 : ℕ → ℝ} {N : ℕ} (hab : ∀ n ≤ N, b n = a2 n) (m : ℕ) : ∀ st, lm.limitLoop N a b c m st = lm.limitLoop N a a2 c m st := by
  induction m with
  | zero => exact fun _ => rfl
  | succ m ih =>
    intro st
    have : lm.limitStep N a b c st.1 (m + 1) = lm.limitStep N a a2 c st.1 (m + 1) := by
      rw [step_real, step_real]
      have : cLeft lm N a b st.1 (m + 1) = cLeft lm N a a2 st.1 (m + 1) := by
        unfold cLeft
        rw [Finset.sum_congr (g := fun n => a2 n * lm.integral.val (m + 1 - 1) n) rfl (f := fun n => b n * _) fun n hn => by
          rw [Finset.mem_Ico] at hn
          rw [hab n (by omega)]]
      rw [this]
    show lm.limitLoop N a b c m _ = lm.limitLoop N a a2 c m _
    rw [this, ih]

lemma hr_left (h : LimiterOk lm p) (hp : 1 ≤ p) (hc : ∀ k < p + 1, uc.val k = num (uc'.val k)) (hl : ∃ k < p + 1, ul.val k = nan)
    (hr : ∀ k < p + 1, ur.val k = num (ur'.val k)) :
    ∃ ul' v v', lm.hr uc' ul' ur' = .ok v' ∧ Nan.hr lm uc ul ur = .ok v ∧ v.len = p + 1 ∧ ∀ i, v.val i = num (v'.val i) := by
  have hI : ∀ k < p, 0 < lm.integral.val k k := by
    intro k hk
    rw [h.integral k k hk le_rfl hk.le]
    unfold integrateMonomialDerivativeBounds
    norm_num
  obtain ⟨al', -, hL⟩ := loop_left hI (fun n _ => monomial_num h hc n) (fun n _ => monomial_nan h hl n) (fun n _ => monomial_num h hr n) p le_rfl
    _ _ (fun _ => 0) (start_real p)
  refine ⟨lm.M2L.dotVec ⟨p + 1, al'⟩, hr_of_loop h hp ?_⟩
  rw [real_loop_congr (fun n hn => mono_back h al' hn)]
  exact hL

end hr

/-! ### The whole array -/

section array
variable {lm : HrLimiter ℝ} {p : ℕ}

lemma hr_total (h : LimiterOk lm p) (hp : 1 ≤ p) (uc ul ur : Vec Num) : ∃ v, hr lm uc ul ur = .ok v := by
  obtain ⟨avg, ha⟩ := Option.isSome_iff_exists.mp (loop_some (lm := lm) (N := p) (ac := (vdot lm.L2M uc).val) (al := (vdot lm.L2M ul).val)
    (ar := (vdot lm.L2M ur).val) p (fun _ => num 0, none) (.inl hp))
  exact ⟨_, hr_form h ha⟩

lemma fields_spec {NF : ℕ} {u : Arr Num} (v : ℕ → Vec Num) (e : ℕ) (ulim : Arr Num)
    (hv : ∀ f < NF, hr lm (u.col (e * NF + f)) (u.col ((e - 1) * NF + f)) (u.col ((e + 1) * NF + f)) = .ok (v (e * NF + f))) :
    ∃ B, limitFields lm NF u e ulim = .ok B ∧ B.rows = ulim.rows ∧ B.cols = ulim.cols ∧
      ∀ r c, B.val r c = if e * NF ≤ c ∧ c < e * NF + NF then (v c).val r else ulim.val r c := by
  unfold limitFields
  set g : Arr Num → ℕ → Except PyErr (Arr Num) := fun ulim f =>
      match hr lm (u.col (e * NF + f)) (u.col ((e - 1) * NF + f)) (u.col ((e + 1) * NF + f)) with
      | .error err => .error err
      | .ok v => .ok (setCol ulim (e * NF + f) v) with hg
  have key : ∀ n ≤ NF, ∃ B, (List.range n).foldlM g ulim = .ok B ∧ B.rows = ulim.rows ∧ B.cols = ulim.cols ∧
      ∀ r c, B.val r c = if e * NF ≤ c ∧ c < e * NF + n then (v c).val r else ulim.val r c := by
    intro n
    induction n with
    | zero => intro _; exact ⟨ulim, rfl, rfl, rfl, fun r c => by rw [if_neg (by omega)]⟩
    | succ n ih =>
      intro hn
      obtain ⟨B, h1, h2, h3, h4⟩ := ih (by omega)
      rw [List.range_succ, List.foldlM_append, h1]
      have hgB : g B n = .ok (setCol B (e * NF + n) (v (e * NF + n))) := by
        simp only [hg]
        rw [hv n (by omega)]
      refine ⟨setCol B (e * NF + n) (v (e * NF + n)), ?_, h2, h3, ?_⟩
      · show List.foldlM g B [n] = _
        rw [List.foldlM_cons, hgB]
        rfl
      · intro r c
        simp only [setCol]
        by_cases hc : c = e * NF + n
        · subst hc
          rw [if_pos rfl, if_pos (by omega)]
        · rw [if_neg hc, h4]
          by_cases hcc : e * NF ≤ c ∧ c < e * NF + n
          · rw [if_pos hcc, if_pos (by omega)]
          · rw [if_neg hcc, if_neg (by omega)]
  exact key NF le_rfl

/-- Closed form of `adaptiveHr`. -/
lemma adaptive_spec {s : Sol ℝ} {flag : ℕ → ℕ} {u : Arr Num} (hF : 0 < s.NF) (v : ℕ → Vec Num)
    (hv : ∀ e, 1 ≤ e → e ≤ s.NE → flag e ≠ 0 → ∀ f < s.NF,
      hr lm (u.col (e * s.NF + f)) (u.col ((e - 1) * s.NF + f)) (u.col ((e + 1) * s.NF + f)) = .ok (v (e * s.NF + f))) :
    ∃ U : Arr Num, adaptiveHr lm s flag u = .ok (bc s U) ∧ U.rows = u.rows ∧ U.cols = u.cols ∧
      ∀ r c, U.val r c = if 1 ≤ c / s.NF ∧ c / s.NF ≤ s.NE ∧ flag (c / s.NF) ≠ 0 then (v c).val r else u.val r c := by
  unfold adaptiveHr
  set g : Arr Num → ℕ → Except PyErr (Arr Num) := fun ulim e => if flag e ≠ 0 then limitFields lm s.NF u e ulim else .ok ulim with hg
  have key : ∀ n ≤ s.NE, ∃ B, (List.range' 1 n).foldlM g u = .ok B ∧ B.rows = u.rows ∧ B.cols = u.cols ∧
      ∀ r c, B.val r c = if 1 ≤ c / s.NF ∧ c / s.NF ≤ n ∧ flag (c / s.NF) ≠ 0 then (v c).val r else u.val r c := by
    intro n
    induction n with
    | zero => intro _; exact ⟨u, rfl, rfl, rfl, fun r c => by rw [if_neg (by omega)]⟩
    | succ n ih =>
      intro hn
      obtain ⟨B, h1, h2, h3, h4⟩ := ih (by omega)
      rw [List.range'_1_concat, List.foldlM_append, h1]
      by_cases hs : flag (1 + n) ≠ 0
      · obtain ⟨B', g1, g2, g3, g4⟩ := fields_spec v (1 + n) B (hv (1 + n) (by omega) (by omega) hs)
        refine ⟨B', ?_, g2.trans h2, g3.trans h3, ?_⟩
        · show List.foldlM g B [1 + n] = _
          have : g B (1 + n) = .ok B' := by simp only [hg]; rw [if_pos hs, g1]
          rw [List.foldlM_cons, this]
          rfl
        · intro r c
          rw [g4, h4]
          by_cases hc : c / s.NF = 1 + n
          · rw [if_pos (div_mem.mpr ⟨hF, hc⟩), if_pos ⟨by omega, by omega, by rw [hc]; exact hs⟩]
          · rw [if_neg (fun h => hc (div_mem.mp h).2)]
            congr 1
            apply propext
            constructor
            · rintro ⟨a, b, d⟩; exact ⟨a, by omega, d⟩
            · rintro ⟨a, b, d⟩; exact ⟨a, by omega, d⟩
      · refine ⟨B, ?_, h2, h3, ?_⟩
        · show List.foldlM g B [1 + n] = _
          have : g B (1 + n) = .ok B := by simp only [hg]; rw [if_neg hs]
          rw [List.foldlM_cons, this]
          rfl
        · intro r c
          rw [h4]
          congr 1
          apply propext
          constructor
          · rintro ⟨a, b, d⟩; exact ⟨a, by omega, d⟩
          · rintro ⟨a, b, d⟩
            refine ⟨a, ?_, d⟩
            by_contra hc
            have : c / s.NF = 1 + n := by omega
            rw [this] at d
            exact hs d
  obtain ⟨B, h1, h2, h3, h4⟩ := key s.NE le_rfl
  exact ⟨B, by rw [h1], h2, h3, h4⟩

/-- What `adaptiveHr` leaves in an interior column. -/
lemma adaptive_cols {s : Sol ℝ} (hF : 0 < s.NF) (hE : 0 < s.NE) (h : LimiterOk lm p) (hp : 1 ≤ p) (flag : ℕ → ℕ) {u : Arr Num} (hc : u.cols = (s.NE + 2) * s.NF) :
    ∃ u', adaptiveHr lm s flag u = .ok u' ∧ u'.rows = u.rows ∧ u'.cols = u.cols ∧
      (∀ c < u'.cols, ∀ r, u'.val r c = u'.val r (s.bcCol c)) ∧
      ∀ e, 1 ≤ e → e ≤ s.NE → ∀ f < s.NF, ∃ v, hr lm (u.col (e * s.NF + f)) (u.col ((e - 1) * s.NF + f)) (u.col ((e + 1) * s.NF + f)) = .ok v ∧
        ∀ r, u'.val r (e * s.NF + f) = if flag e ≠ 0 then v.val r else u.val r (e * s.NF + f) := by
  choose w hw using fun c : ℕ => hr_total h hp (u.col c) (u.col (c - s.NF)) (u.col (c + s.NF))
  have hv : ∀ e, 1 ≤ e → e ≤ s.NE → ∀ f < s.NF,
      hr lm (u.col (e * s.NF + f)) (u.col ((e - 1) * s.NF + f)) (u.col ((e + 1) * s.NF + f)) = .ok (w (e * s.NF + f)) := by
    intro e h1 _ f _
    have e1 : (e - 1) * s.NF + f = e * s.NF + f - s.NF := by
      obtain ⟨k, rfl⟩ : ∃ k, e = k + 1 := ⟨e - 1, by omega⟩
      rw [Nat.add_sub_cancel, Nat.succ_mul]; omega
    have e2 : (e + 1) * s.NF + f = e * s.NF + f + s.NF := by ring
    rw [e1, e2]
    exact hw _
  obtain ⟨U, h1, h2, h3, h4⟩ := adaptive_spec (lm := lm) (flag := flag) hF w fun e g1 g2 _ => hv e g1 g2
  have hb := bc_val s U hF hE (h3.trans hc)
  have hin : ∀ e, 1 ≤ e → e ≤ s.NE → ∀ f < s.NF, s.bcCol (e * s.NF + f) = e * s.NF + f := by
    intro e g1 g2 f g3
    refine bcCol_inside s ?_ ?_
    · have := Nat.mul_le_mul_right s.NF g1; omega
    · have := Nat.mul_le_mul_right s.NF g2
      rw [Nat.add_mul]; omega
  refine ⟨_, h1, by rw [hb]; exact h2, by rw [hb]; exact h3, ?_, fun e g1 g2 f g3 => ⟨w (e * s.NF + f), hv e g1 g2 f g3, fun r => ?_⟩⟩
  · intro c hcc r
    rw [hb] at hcc ⊢
    show U.val r (s.bcCol c) = U.val r (s.bcCol (s.bcCol c))
    rw [bcCol_idem s hE]
  · rw [hb]
    show U.val r (s.bcCol (e * s.NF + f)) = _
    have hd : (e * s.NF + f) / s.NF = e := by
      rw [mul_comm, Nat.mul_add_div hF, Nat.div_eq_of_lt g3, add_zero]
    rw [hin e g1 g2 f g3, h4, hd]
    simp only [g1, g2, true_and]

end array

end Dg1d.Nan
