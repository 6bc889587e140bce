import Verif.Proofs.Binary64
import Verif.Proofs.FloatClock

/-!
# The clock in double precision: bounds, exact final and output times, termination
-/

namespace Dg1d.FloatClock

open Spec

variable {rnd : ℝ → ℝ} {tf t0 : ℝ} {N : ℕ}

/-- The smallest time step the sanity check lets pass. -/
lemma tiny_ge (h : RoundsToNearest rnd) : 5 * (2 : ℝ) ^ (-49 : ℤ) ≤ rnd (1 / 10 ^ 14) := by
  have hb : Binary64 (5 * (2 : ℝ) ^ (-49 : ℤ)) := by
    have := b64_mk 5 (-49) (by norm_num) (by norm_num)
    simpa using this
  apply h.ge_of_ge hb
  norm_num

lemma tiny_pos (h : RoundsToNearest rnd) : 0 < rnd (1 / 10 ^ 14) :=
  lt_of_lt_of_le (by positivity) (tiny_ge h)

lemma before (h : RoundsToNearest rnd) {x t : ℝ} (h1 : rnd (1 / 10 ^ 14) ≤ x) (h2 : x ≤ rnd (tf - t)) : t < tf := by
  have := tiny_pos h
  have h3 := h.gt_of_gt b64_zero (lt_of_lt_of_le (lt_of_lt_of_le this h1) h2)
  linarith

lemma step_nonneg (h : RoundsToNearest rnd) (h0 : t0 ≤ tf) (N : ℕ) :
    0 ≤ rnd (rnd (tf - t0) / ((N - 1 : ℕ) : ℝ)) :=
  h.ge_of_ge b64_zero (div_nonneg (h.ge_of_ge b64_zero (by linarith)) (Nat.cast_nonneg _))

lemma linspace_ge (h : RoundsToNearest rnd) (hb : Binary64 t0) (h0 : t0 ≤ tf) (i : ℕ) : t0 ≤ linspace rnd t0 tf N i := by
  unfold linspace
  split_ifs with h1
  · exact h0
  · simp only
    split_ifs with h2
    · apply h.ge_of_ge hb
      have : 0 ≤ rnd (rnd ((i : ℝ) / ((N - 1 : ℕ) : ℝ)) * rnd (tf - t0)) := by
        apply h.ge_of_ge b64_zero
        apply mul_nonneg
        · exact h.ge_of_ge b64_zero (by positivity)
        · exact h.ge_of_ge b64_zero (by linarith)
      linarith
    · apply h.ge_of_ge hb
      have : 0 ≤ rnd ((i : ℝ) * rnd (rnd (tf - t0) / ((N - 1 : ℕ) : ℝ))) :=
        h.ge_of_ge b64_zero (mul_nonneg (Nat.cast_nonneg _) (step_nonneg h h0 N))
      linarith

lemma linspace_b64 (h : RoundsToNearest rnd) (hb : Binary64 tf) (i : ℕ) : Binary64 (linspace rnd t0 tf N i) := by
  unfold linspace
  simp only
  split_ifs
  · exact hb
  · exact (h _).1
  · exact (h _).1

lemma linspace_zero (h : RoundsToNearest rnd) (hb : Binary64 t0) (hN : 2 ≤ N) : linspace rnd t0 tf N 0 = t0 := by
  unfold linspace
  rw [if_neg (by omega)]
  simp [h.zero, h.self hb]

lemma linspace_mono (h : RoundsToNearest rnd) (h0 : t0 ≤ tf) {i j : ℕ} (hij : i ≤ j) (hj : j + 2 ≤ N) :
    linspace rnd t0 tf N i ≤ linspace rnd t0 tf N j := by
  have hc : (i : ℝ) ≤ j := by exact_mod_cast hij
  have hi' : ¬ (i = N - 1 ∧ 1 < N) := by omega
  have hj' : ¬ (j = N - 1 ∧ 1 < N) := by omega
  unfold linspace
  rw [if_neg hi', if_neg hj']
  simp only
  split_ifs with h2
  · apply h.mono
    have : rnd (rnd ((i : ℝ) / ((N - 1 : ℕ) : ℝ)) * rnd (tf - t0)) ≤ rnd (rnd ((j : ℝ) / ((N - 1 : ℕ) : ℝ)) * rnd (tf - t0)) := by
      apply h.mono
      apply mul_le_mul_of_nonneg_right _ (h.ge_of_ge b64_zero (by linarith))
      apply h.mono
      exact div_le_div_of_nonneg_right hc (Nat.cast_nonneg _)
    linarith
  · apply h.mono
    have := h.mono (mul_le_mul_of_nonneg_right hc (step_nonneg h h0 N))
    linarith

/-- Going to `y` from within a factor of two, or from zero, is exact. -/
lemma land (h : RoundsToNearest rnd) {t y : ℝ} (ht : Binary64 t) (hy : Binary64 y)
    (hc : t = 0 ∨ (y ≤ 2 * t ∧ t ≤ 2 * y)) : rnd (t + rnd (y - t)) = y := by
  rcases hc with rfl | ⟨h1, h2⟩
  · rw [sub_zero, h.self hy, zero_add, h.self hy]
  · rw [h.self (b64_sub hy ht h2 h1), add_sub_cancel, h.self hy]

lemma run_b64 (h : RoundsToNearest rnd) (hb : Binary64 t0) (n : ℕ) (cfl : ℕ → Fl ℝ) (k : ℕ) :
    Binary64 (run rnd tf N t0 n cfl k).t := by
  induction k with
  | zero =>
    show Binary64 (init rnd tf N t0 n).t
    unfold init
    split <;> exact hb
  | succ k ih =>
    show Binary64 (body rnd tf (cfl k) (run rnd tf N t0 n cfl k)).t
    by_cases hr : (run rnd tf N t0 n cfl k).status = .running
    swap
    · rw [body_stopped hr]; exact ih
    rcases body_cases (rnd := rnd) (tf := tf) (cfl := cfl k) hr with
      ⟨e, he, -, -⟩ | ⟨-, he⟩ | ⟨x, -, -, h1, h2, he⟩ | ⟨x, -, -, h1, h2, he⟩
    · rw [he]; exact ih
    · rw [he]; exact (h _).1
    · rw [he]
      unfold output
      simp only [if_true]
      rcases (run rnd tf N t0 n cfl k).touts with _ | ⟨a, l⟩ <;> exact (h _).1
    · rw [he]; exact (h _).1

/-- How a run gets done. -/
lemma done_step (hN : 2 ≤ N) {n : ℕ} {cfl : ℕ → Fl ℝ} {k : ℕ} (hd : (run rnd tf N t0 n cfl k).status = .done) :
    ∃ j < k, (run rnd tf N t0 n cfl j).status = .running ∧
      (cfl j = .pinf ∨ ∃ x, cfl j = .fin x ∧ rnd (1 / 10 ^ 14) ≤ x ∧ rnd (tf - (run rnd tf N t0 n cfl j).t) < x) ∧
      (run rnd tf N t0 n cfl k).t = rnd ((run rnd tf N t0 n cfl j).t + rnd (tf - (run rnd tf N t0 n cfl j).t)) := by
  induction k with
  | zero =>
    exfalso
    rw [show run rnd tf N t0 n cfl 0 = init rnd tf N t0 n from rfl, init_eq _ _ _ _ _ hN] at hd
    simp at hd
  | succ k ih =>
    have hE : run rnd tf N t0 n cfl (k + 1) = body rnd tf (cfl k) (run rnd tf N t0 n cfl k) := rfl
    rw [hE] at hd ⊢
    by_cases hr : (run rnd tf N t0 n cfl k).status = .running
    swap
    · rw [body_stopped hr] at hd ⊢
      obtain ⟨j, hj, hrest⟩ := ih hd
      exact ⟨j, by omega, hrest⟩
    rcases body_cases (rnd := rnd) (tf := tf) (cfl := cfl k) hr with
      ⟨e, he, -, -⟩ | ⟨hc, he⟩ | ⟨x, -, -, h1, h2, he⟩ | ⟨x, -, -, h1, h2, he⟩
    · rw [he] at hd; simp at hd
    · exact ⟨k, by omega, hr, hc, by rw [he]⟩
    · rw [he, ((outInv_run rnd tf t0 n cfl hN k).output hN hr h1 h2 _ _ _).2] at hd
      simp at hd
    · rw [he] at hd; simp [hr] at hd

/-- One iteration that neither ends the run nor fails, from `t` to `t'`, towards the output time `tout`. -/
structure Step (rnd : ℝ → ℝ) (tf : ℝ) (st st' : State ℝ) (x : ℝ) : Prop where
  lo : rnd (1 / 10 ^ 14) ≤ x
  hi : x ≤ rnd (tf - st.t)
  cases : (rnd (st.tout - st.t) < x ∧ st'.t = rnd (st.t + rnd (st.tout - st.t)) ∧ st'.nout = st.nout + 1 ∧
      st'.log = st.log ++ [(st.nout, rnd (st.tout - st.t), st'.t)]) ∨
    (x ≤ rnd (st.tout - st.t) ∧ st'.t = rnd (st.t + x) ∧ st'.nout = st.nout ∧ st'.log = st.log)

lemma running_step (hN : 2 ≤ N) {n : ℕ} {cfl : ℕ → Fl ℝ} {k : ℕ} (hr' : (run rnd tf N t0 n cfl (k + 1)).status = .running) :
    ∃ x, cfl k = .fin x ∧ Step rnd tf (run rnd tf N t0 n cfl k) (run rnd tf N t0 n cfl (k + 1)) x := by
  have hr := running_prev hr'
  have hE : run rnd tf N t0 n cfl (k + 1) = body rnd tf (cfl k) (run rnd tf N t0 n cfl k) := rfl
  rw [hE] at hr' ⊢
  rcases body_cases (rnd := rnd) (tf := tf) (cfl := cfl k) hr with
    ⟨e, he, -, -⟩ | ⟨hc, he⟩ | ⟨x, hx, h0, h1, h2, he⟩ | ⟨x, hx, h0, h1, h2, he⟩
  · rw [he] at hr'; simp at hr'
  · rw [he] at hr'; simp at hr'
  · refine ⟨x, hx, h0, h1, Or.inl ?_⟩
    rw [he, ((outInv_run rnd tf t0 n cfl hN k).output hN hr h1 h2 _ _ _).2]
    exact ⟨h2, rfl, rfl, rfl⟩
  · refine ⟨x, hx, h0, h1, Or.inr ?_⟩
    rw [he]
    exact ⟨h2, rfl, rfl, rfl⟩

lemma run_zero_eq (hN : 2 ≤ N) (n : ℕ) (cfl : ℕ → Fl ℝ) : (run rnd tf N t0 n cfl 0).t = t0 ∧
    (run rnd tf N t0 n cfl 0).nout = 1 := by
  rw [show run rnd tf N t0 n cfl 0 = init rnd tf N t0 n from rfl, init_eq _ _ _ _ _ hN]
  exact ⟨rfl, rfl⟩

/-- While running, the time stays in `[0, tf]` up to rounding. -/
lemma run_range (h : RoundsToNearest rnd) (hb : Binary64 t0) (hp : 0 ≤ t0) (h0 : t0 ≤ tf) (hN : 2 ≤ N) (p : ℤ)
    (hpp : -1021 ≤ p) (hu : tf ≤ 2 ^ p) (n : ℕ) (cfl : ℕ → Fl ℝ) (k : ℕ)
    (hr : (run rnd tf N t0 n cfl k).status = .running) :
    0 ≤ (run rnd tf N t0 n cfl k).t ∧ (run rnd tf N t0 n cfl k).t ≤ tf + 2 ^ (p - 52) := by
  have hpw : (0 : ℝ) < 2 ^ (p - 52) := zpow_pos (by norm_num) _
  induction k with
  | zero =>
    rw [(run_zero_eq hN n cfl).1]; exact ⟨hp, by linarith⟩
  | succ k ih =>
    have hr0 := running_prev hr
    obtain ⟨i1, i2⟩ := ih hr0
    obtain ⟨r1, r2, r3, r4⟩ := (outInv_run rnd tf t0 n cfl hN k).run hr0
    obtain ⟨x, hx, hs⟩ := running_step hN hr
    have hlt := before h hs.lo hs.hi
    have ht := run_b64 (tf := tf) (N := N) h hb n cfl k
    generalize run rnd tf N t0 n cfl k = st at *
    generalize run rnd tf N t0 n cfl (k + 1) = st' at *
    have hxp := lt_of_lt_of_le (tiny_pos h) hs.lo
    have e53 : (2 : ℝ) ^ (p + 1 - 54) = 2 ^ (p - 52) / 2 := by
      rw [show p + 1 - 54 = (p - 52) - 1 by ring, zpow_sub_one₀ (by norm_num)]; ring
    have ep1 : (2 : ℝ) ^ (p + 1) = 2 * 2 ^ p := by rw [zpow_add_one₀ (by norm_num)]; ring
    have e1 := h.err (x := tf - st.t) (p + 1) (by omega) (by rw [abs_of_pos (by linarith), ep1]; linarith)
    rw [e53] at e1
    have e1' := neg_abs_le (tf - st.t - rnd (tf - st.t))
    -- the step actually taken
    have hkey : ∀ d : ℝ, 0 ≤ st.t + d → d ≤ rnd (tf - st.t) →
        0 ≤ rnd (st.t + d) ∧ rnd (st.t + d) ≤ tf + 2 ^ (p - 52) := by
      intro d hd1 hd2
      refine ⟨h.ge_of_ge b64_zero hd1, ?_⟩
      have hsmall : (2 : ℝ) ^ (p - 52) ≤ 2 ^ p := zpow_le_zpow_right₀ (by norm_num) (by omega)
      have e2 := h.err (x := st.t + d) (p + 1) (by omega) (by rw [abs_of_nonneg hd1, ep1]; linarith)
      rw [e53] at e2
      have e2' := neg_abs_le (st.t + d - rnd (st.t + d))
      linarith
    rcases hs.cases with ⟨c1, c2, -, -⟩ | ⟨c1, c2, -, -⟩
    · rw [c2]
      apply hkey
      · have hto : 0 ≤ st.tout := by rw [r3]; exact hp.trans (linspace_ge h hb h0 _)
        have := h.ge_of_ge (b64_neg ht) (show -st.t ≤ st.tout - st.t by linarith)
        linarith
      · exact (c1.le.trans hs.hi)
    · rw [c2]
      exact hkey x (by linarith) hs.hi

/-- The end of a run is at the final time up to rounding. -/
lemma done_close (h : RoundsToNearest rnd) (hb : Binary64 t0) (hp : 0 ≤ t0) (h0 : t0 ≤ tf) (hN : 2 ≤ N) (p : ℤ)
    (hpp : -1021 ≤ p) (hu : tf ≤ 2 ^ p) (n : ℕ) (cfl : ℕ → Fl ℝ) (k : ℕ)
    (hd : (run rnd tf N t0 n cfl k).status = .done) : |(run rnd tf N t0 n cfl k).t - tf| ≤ 2 ^ (p - 52) := by
  obtain ⟨j, -, hr, -, he⟩ := done_step hN hd
  obtain ⟨i1, i2⟩ := run_range h hb hp h0 hN p hpp hu n cfl j hr
  rw [he]
  generalize (run rnd tf N t0 n cfl j).t = t at *
  have hpw : (0 : ℝ) < 2 ^ (p - 52) := zpow_pos (by norm_num) _
  have hsmall : (2 : ℝ) ^ (p - 52) ≤ 2 ^ p := zpow_le_zpow_right₀ (by norm_num) (by omega)
  have hsmall' : (2 : ℝ) ^ (p - 52) / 2 ≤ 2 ^ p := by linarith
  have e53 : (2 : ℝ) ^ (p + 1 - 54) = 2 ^ (p - 52) / 2 := by
    rw [show p + 1 - 54 = (p - 52) - 1 by ring, zpow_sub_one₀ (by norm_num)]; ring
  have ep1 : (2 : ℝ) ^ (p + 1) = 2 * 2 ^ p := by rw [zpow_add_one₀ (by norm_num)]; ring
  have e1 := h.err (x := tf - t) (p + 1) (by omega) (by rw [abs_le, ep1]; constructor <;> linarith)
  rw [e53] at e1
  have e1' := abs_le.1 e1
  have e2 := h.err (x := t + rnd (tf - t)) (p + 1) (by omega) (by rw [abs_le, ep1]; constructor <;> linarith [e1'.1, e1'.2])
  rw [e53] at e2
  have e2' := abs_le.1 e2
  rw [abs_le]
  constructor <;> linarith [e1'.1, e1'.2, e2'.1, e2'.2]

/-- With CFL steps up to half the final time the run does not overshoot by more than a factor of two. -/
lemma run_le_two (h : RoundsToNearest rnd) (htf : Binary64 tf) (hp : 0 ≤ t0) (h0 : t0 ≤ tf) (hN : 2 ≤ N) (n : ℕ)
    (cfl : ℕ → Fl ℝ) (hc : ∀ j x, cfl j = .fin x → 2 * x ≤ tf) (k : ℕ)
    (hr : (run rnd tf N t0 n cfl k).status = .running) : (run rnd tf N t0 n cfl k).t ≤ 2 * tf := by
  induction k with
  | zero => rw [(run_zero_eq hN n cfl).1]; linarith
  | succ k ih =>
    have hr0 := running_prev hr
    obtain ⟨x, hx, hs⟩ := running_step hN hr
    have hlt := before h hs.lo hs.hi
    have h2 := hc k x hx
    rcases hs.cases with ⟨c1, c2, -, -⟩ | ⟨c1, c2, -, -⟩
    · rw [c2]; exact h.le_of_le (b64_double htf) (by linarith)
    · rw [c2]; exact h.le_of_le (b64_double htf) (by linarith)

/-! ### Output times -/

/-- While running: not past the next output time, and the outputs so far at the output times. -/
structure ExactInv (rnd : ℝ → ℝ) (t0 tf : ℝ) (N : ℕ) (st : State ℝ) : Prop where
  lo : 0 ≤ st.t
  le : st.status = .running → st.t ≤ st.tout
  outs : st.log.map (fun o => (o.1, o.2.2)) = (List.range st.log.length).map fun i => (i, linspace rnd t0 tf N i)
  full : st.status = .done → st.log.length = N ∧ st.t = tf

lemma exact_run (h : RoundsToNearest rnd) (hb : Binary64 t0) (htf : Binary64 tf) (hp : 0 ≤ t0) (h0 : t0 ≤ tf) (hN : 2 ≤ N)
    (n : ℕ) (cfl : ℕ → Fl ℝ) (hc : ∀ j, ∃ x, cfl j = .fin x ∧ Binary64 x ∧ 2 * x ≤ linspace rnd t0 tf N 1 ∧
      linspace rnd t0 tf N (N - 2) + x ≤ tf) (k : ℕ) :
    ExactInv rnd t0 tf N (run rnd tf N t0 n cfl k) ∧
      ((run rnd tf N t0 n cfl k).t ≤ (run rnd tf N t0 n cfl (k + 1)).t) := by
  suffices hmain : ∀ k, ExactInv rnd t0 tf N (run rnd tf N t0 n cfl k) ∧
      ∀ j, k = j + 1 → (run rnd tf N t0 n cfl j).t ≤ (run rnd tf N t0 n cfl k).t from
    ⟨(hmain k).1, (hmain (k + 1)).2 k rfl⟩
  intro k
  induction k with
  | zero =>
    refine ⟨?_, fun j hj => by omega⟩
    rw [show run rnd tf N t0 n cfl 0 = init rnd tf N t0 n from rfl, init_eq _ _ _ _ _ hN]
    refine ⟨hp, fun _ => linspace_ge h hb h0 1, ?_, by simp⟩
    simp [linspace_zero h hb hN]
  | succ k ih =>
    have ih := ih.1
    have hinv := outInv_run rnd tf t0 n cfl hN k
    have ht := run_b64 (tf := tf) (N := N) h hb n cfl k
    have hE : run rnd tf N t0 n cfl (k + 1) = body rnd tf (cfl k) (run rnd tf N t0 n cfl k) := rfl
    suffices hs : ExactInv rnd t0 tf N (run rnd tf N t0 n cfl (k + 1)) ∧
        (run rnd tf N t0 n cfl k).t ≤ (run rnd tf N t0 n cfl (k + 1)).t by
      refine ⟨hs.1, fun j hj => ?_⟩
      obtain rfl : j = k := by omega
      exact hs.2
    rw [hE]
    obtain ⟨x, hx, hxb, hx1, hx2⟩ := hc k
    generalize run rnd tf N t0 n cfl k = st at *
    by_cases hr : st.status = .running
    swap
    · rw [body_stopped hr]; exact ⟨ih, le_rfl⟩
    obtain ⟨r1, r2, r3, r4⟩ := hinv.run hr
    have hle := ih.le hr
    have hlo := ih.lo
    -- the output times are in order
    have h1le : ∀ i, 1 ≤ i → i + 2 ≤ N → linspace rnd t0 tf N 1 ≤ linspace rnd t0 tf N i :=
      fun i hi hi' => linspace_mono h h0 hi hi'
    have hlast : ∀ i, i + 2 ≤ N → linspace rnd t0 tf N i ≤ linspace rnd t0 tf N (N - 2) :=
      fun i hi => linspace_mono h h0 (by omega) (by omega)
    have htb : Binary64 st.tout := by rw [r3]; exact linspace_b64 h htf _
    have hnout : 1 ≤ st.nout := by
      rw [← r1]; obtain ⟨l, hl⟩ := hinv.head; rw [hl]; simp
    have happ : ∀ d t', t' = linspace rnd t0 tf N st.nout →
        (st.log ++ [(st.nout, d, t')]).map (fun o => (o.1, o.2.2)) =
          (List.range (st.log ++ [(st.nout, d, t')]).length).map fun i => (i, linspace rnd t0 tf N i) := by
      intro d t' e
      rw [List.map_append, ih.outs, List.length_append, List.length_singleton, List.range_succ, List.map_append, r1, e]
      rfl
    rcases body_cases (rnd := rnd) (tf := tf) (cfl := cfl k) hr with
      ⟨e, he, -, -⟩ | ⟨hd, he⟩ | ⟨y, hy, hy0, h1, h2, he⟩ | ⟨y, hy, hy0, h1, h2, he⟩
    · rw [he]
      exact ⟨⟨ih.lo, by simp, ih.outs, by simp⟩, le_rfl⟩
    · obtain ⟨hy0, hylt⟩ : rnd (1 / 10 ^ 14) ≤ x ∧ rnd (tf - st.t) < x := by
        rcases hd with hd | ⟨y, hy, hy0, hylt⟩
        · rw [hd] at hx; cases hx
        · rw [hx] at hy; cases hy; exact ⟨hy0, hylt⟩
      have hxp := lt_of_lt_of_le (tiny_pos h) hy0
      have hgt := h.lt_of_lt hxb hylt
      have hn : st.nout = N - 1 := by
        by_contra hne
        have := hlast st.nout (by omega)
        rw [r3] at hle
        linarith
      have hto : st.tout = tf := by rw [r3, hn, linspace_last _ _ _ hN]
      have h1tf : linspace rnd t0 tf N 1 ≤ tf := by
        by_cases hN2 : N = 2
        · subst hN2; exact (linspace_last rnd t0 tf hN).le
        · have := hlast 1 (by omega); linarith
      have hl : rnd (st.t + rnd (tf - st.t)) = tf := land h ht htf (Or.inr ⟨by linarith, by linarith⟩)
      rw [he]
      refine ⟨⟨?_, by simp, ?_, fun _ => ⟨?_, hl⟩⟩, ?_⟩
      · simp only [hl]; linarith
      · refine happ _ _ ?_
        rw [hl, ← r3, hto]
      · simp only [List.length_append, List.length_singleton]; omega
      · simp only [hl]; linarith
    · obtain rfl : x = y := by rw [hx] at hy; cases hy; rfl
      obtain ⟨hlt, ho⟩ := hinv.output hN hr h1 h2 (rnd (st.t + rnd (st.tout - st.t))) (rnd (st.tout - st.t)) (st.n + 1)
      have hxp := lt_of_lt_of_le (tiny_pos h) hy0
      have hgt := h.lt_of_lt hxb h2
      have h1to : linspace rnd t0 tf N 1 ≤ st.tout := by rw [r3]; exact h1le _ hnout hlt
      have hl : rnd (st.t + rnd (st.tout - st.t)) = st.tout := land h ht htb (Or.inr ⟨by linarith, by linarith⟩)
      rw [he, ho]
      refine ⟨⟨?_, fun _ => ?_, happ _ _ (by rw [hl, r3]), by simp⟩, ?_⟩
      · simp only [hl]; linarith
      · simp only [hl]
        rw [r3]
        by_cases hN2 : st.nout + 3 ≤ N
        · exact linspace_mono h h0 (by omega) (by omega)
        · have e : st.nout + 1 = N - 1 := by omega
          rw [e, linspace_last _ _ _ hN]
          have := hlast st.nout hlt
          linarith
      · simp only [hl]; exact hle
    · obtain rfl : x = y := by rw [hx] at hy; cases hy; rfl
      have hxp := lt_of_lt_of_le (tiny_pos h) hy0
      have h1to : linspace rnd t0 tf N 1 ≤ st.tout := by
        rw [r3]
        by_cases hN2 : st.nout + 2 ≤ N
        · exact h1le _ hnout hN2
        · have e : st.nout = N - 1 := by omega
          rw [e, linspace_last _ _ _ hN]
          by_cases hN3 : N = 2
          · subst hN3; exact (linspace_last rnd t0 tf hN).le
          · have := hlast 1 (by omega); linarith
      have hsum : st.t + x ≤ st.tout := by
        by_cases hhalf : st.tout ≤ 2 * st.t
        · rw [h.self (b64_sub htb ht (by linarith) (by linarith))] at h2
          linarith
        · linarith
      have hge : st.t ≤ rnd (st.t + x) := h.ge_of_ge ht (by linarith)
      rw [he]
      exact ⟨⟨hlo.trans hge, fun _ => h.le_of_le htb hsum, ih.outs, by simp [hr]⟩, hge⟩

/-! ### Termination -/

/-- Every running step but an output advances the clock by at least `2^-49`, up to time 128. -/
lemma run_potential (h : RoundsToNearest rnd) (hb : Binary64 t0) (hp : 0 ≤ t0) (h0 : t0 ≤ tf) (hu : tf ≤ 128) (hN : 2 ≤ N)
    (n : ℕ) (cfl : ℕ → Fl ℝ) (k : ℕ) (hr : (run rnd tf N t0 n cfl k).status = .running) :
    0 ≤ (run rnd tf N t0 n cfl k).t ∧ ((run rnd tf N t0 n cfl k).t < tf →
      t0 + 129 + k * (2 : ℝ) ^ (-49 : ℤ) ≤ (run rnd tf N t0 n cfl k).t + 129 * (run rnd tf N t0 n cfl k).nout) := by
  induction k with
  | zero =>
    obtain ⟨a, b⟩ := run_zero_eq (rnd := rnd) (tf := tf) (t0 := t0) hN n cfl
    rw [a, b]; exact ⟨hp, fun _ => by simp⟩
  | succ k ih =>
    have hr0 := running_prev hr
    obtain ⟨i1, i2⟩ := ih hr0
    obtain ⟨r1, r2, r3, r4⟩ := (outInv_run rnd tf t0 n cfl hN k).run hr0
    obtain ⟨x, hx, hs⟩ := running_step hN hr
    have hlt := before h hs.lo hs.hi
    have i2 := i2 hlt
    have ht := run_b64 (tf := tf) (N := N) h hb n cfl k
    generalize run rnd tf N t0 n cfl k = st at *
    generalize run rnd tf N t0 n cfl (k + 1) = st' at *
    have hxlo := (tiny_ge h).trans hs.lo
    have hxp := lt_of_lt_of_le (tiny_pos h) hs.lo
    have hb128 : Binary64 128 := by
      have := b64_two_pow 7 (by norm_num); norm_num at this; exact this
    push_cast
    rcases hs.cases with ⟨c1, c2, c3, -⟩ | ⟨c1, c2, c3, -⟩
    · have hto : 0 ≤ st.tout := by rw [r3]; exact hp.trans (linspace_ge h hb h0 _)
      have hlow := h.ge_of_ge (b64_neg ht) (show -st.t ≤ st.tout - st.t by linarith)
      have hlow' := h.ge_of_ge b64_zero (show 0 ≤ st.t + rnd (st.tout - st.t) by linarith)
      rw [c2, c3]
      refine ⟨hlow', fun _ => ?_⟩
      push_cast
      have he : (2 : ℝ) ^ (-49 : ℤ) ≤ 1 := by norm_num
      generalize (2 : ℝ) ^ (-49 : ℤ) = w at *
      linarith
    · rw [c2, c3]
      have hge : st.t ≤ rnd (st.t + x) := h.ge_of_ge ht (by linarith)
      refine ⟨i1.trans hge, fun hlt' => ?_⟩
      by_cases hbig : st.t + x ≤ 128
      · have e := h.err (x := st.t + x) 7 (by norm_num) (by
          rw [abs_le]; norm_num; constructor <;> linarith)
        have e' := (abs_le.1 e).2
        have e47 : (2 : ℝ) ^ (7 - 54 : ℤ) = 4 * 2 ^ (-49 : ℤ) := by norm_num
        rw [e47] at e'
        generalize (2 : ℝ) ^ (-49 : ℤ) = w at *
        linarith
      · have := h.ge_of_ge hb128 (not_le.1 hbig).le
        linarith

end Dg1d.FloatClock
