import Verif.Proofs.NanLimiter
import Verif.Proofs.NanRun

/-! # The sensor of the Euler equations with NaN -/

namespace Dg1d.Nan

open Num

variable {γ : ℝ} {L R : Euler.St}

/-- A face beside a state with NaN or zero density is never flagged. -/
lemma disc_bad {l r : St} (h : l.Bad ∨ r.Bad) (th : ℝ) : isDiscontinuity γ th l r = false := by
  unfold isDiscontinuity
  rcases h with h | h <;> simp [bad_p h]

lemma shock_bad {l r : St} (h : l.Bad ∨ r.Bad) (th : ℝ) : isShock γ th l r = false := by
  unfold isShock
  rcases h with h | h <;> simp [bad_p h]

lemma bad_zero {s : Euler.St} (h : s.rho = 0) : (liftSt s).Bad := .inr (.inl (by show num s.rho = num 0; rw [h]))

lemma disc_lift (th : ℝ) : isDiscontinuity γ th (liftSt L) (liftSt R) = true ↔ Euler.isDiscontinuity γ th L R := by
  by_cases h1 : L.rho = 0
  · exact iff_of_false (by rw [disc_bad (.inl (bad_zero h1))]; simp) (fun h => h.1.1 h1)
  by_cases h2 : R.rho = 0
  · exact iff_of_false (by rw [disc_bad (.inr (bad_zero h2))]; simp) (fun h => h.1.2.1 h2)
  have hq : (liftSt R).rho / (liftSt L).rho = num (R.rho / L.rho) := num_div _ h1
  by_cases h3 : 0 ≤ R.rho / L.rho
  swap
  · refine iff_of_false ?_ (fun h => h3 h.1.2.2.1)
    unfold isDiscontinuity
    rw [hq, sqrt_neg (not_le.mp h3)]
    simp
  have hT : (1 : ℝ) + √(R.rho / L.rho) ≠ 0 := by positivity
  have hsum : L.rho + R.rho ≠ 0 := by
    intro h0
    have : R.rho = -L.rho := by linarith
    rw [this, neg_div, div_self h1] at h3
    linarith
  unfold isDiscontinuity
  rw [hq, sqrt_num h3, v_lift h1, v_lift h2, H_lift h1, H_lift h2, p_lift h1, p_lift h2]
  simp only [num_add, num_mul, num_sub, num_div _ hT]
  unfold Euler.isDiscontinuity Euler.roeAverages
  simp only
  generalize (L.v + √(R.rho / L.rho) * R.v) / (1 + √(R.rho / L.rho)) = v
  generalize (L.H γ + √(R.rho / L.rho) * R.H γ) / (1 + √(R.rho / L.rho)) = H
  generalize (γ - 1) * (H - 1 / 2 * v * v) = c
  by_cases h4 : 0 < c
  swap
  · refine iff_of_false ?_ (fun h => h4 h.1.2.2.2.1)
    rcases lt_or_eq_of_le (not_lt.mp h4) with h5 | h5
    · rw [sqrt_neg h5]; simp
    · rw [h5, sqrt_num le_rfl, Real.sqrt_zero]; simp
  have ha : √c * √c ≠ 0 := (mul_pos (Real.sqrt_pos.mpr h4) (Real.sqrt_pos.mpr h4)).ne'
  rw [sqrt_num h4.le]
  simp only [num_mul, num_div _ ha, num_sub, abs_num, liftSt, num_add, num_div _ hsum]
  generalize |R.rho - L.rho - (R.p γ - L.p γ) / (√c * √c)| / (L.rho + R.rho) = xsi
  by_cases h6 : 1 + xsi = 0
  · refine iff_of_false ?_ (fun h => h.1.2.2.2.2 h6)
    rw [h6]
    simp
  · rw [num_div _ (mul_ne_zero h6 h6), lt_num]
    exact ⟨fun h => ⟨⟨h1, h2, h3, h4, h6⟩, h⟩, fun h => h.2⟩

lemma shock_lift (th : ℝ) : isShock γ th (liftSt L) (liftSt R) = true ↔ Euler.isShock γ th L R := by
  by_cases h1 : L.rho = 0
  · exact iff_of_false (by rw [shock_bad (.inl (bad_zero h1))]; simp) (fun h => h.1.1.1 h1)
  by_cases h2 : R.rho = 0
  · exact iff_of_false (by rw [shock_bad (.inr (bad_zero h2))]; simp) (fun h => h.1.2.1.1 h2)
  have hq : (liftSt R).rho / (liftSt L).rho = num (R.rho / L.rho) := num_div _ h1
  by_cases h3 : 0 ≤ R.rho / L.rho
  swap
  · refine iff_of_false ?_ (fun h => h3 h.1.2.2.1)
    unfold isShock
    rw [hq, sqrt_neg (not_le.mp h3)]
    simp
  by_cases hL : L.IsReal γ
  swap
  · refine iff_of_false ?_ (fun h => hL h.1.1)
    unfold isShock
    simp [nonreal_a h1 hL]
  by_cases hR : R.IsReal γ
  swap
  · refine iff_of_false ?_ (fun h => hR h.1.2.1)
    unfold isShock
    simp [nonreal_a h2 hR]
  have hT : (1 : ℝ) + √(R.rho / L.rho) ≠ 0 := by positivity
  unfold isShock
  rw [hq, sqrt_num h3, v_lift h1, v_lift h2, H_lift h1, H_lift h2, p_lift h1, p_lift h2, a_lift hL, a_lift hR]
  simp only [num_add, num_mul, num_sub, num_div _ hT]
  unfold Euler.isShock Euler.roeAverages
  simp only
  generalize (L.v + √(R.rho / L.rho) * R.v) / (1 + √(R.rho / L.rho)) = v
  generalize (L.H γ + √(R.rho / L.rho) * R.H γ) / (1 + √(R.rho / L.rho)) = H
  generalize (γ - 1) * (H - 1 / 2 * v * v) = c
  by_cases h4 : 0 ≤ c
  swap
  · refine iff_of_false ?_ (fun h => h4 h.1.2.2.2.1)
    rw [sqrt_neg (not_le.mp h4)]
    simp
  rw [sqrt_num h4]
  by_cases h5 : L.p γ + R.p γ = 0
  · refine iff_of_false ?_ (fun h => h.1.2.2.2.2.1 h5)
    rw [h5]
    simp
  simp only [num_mul, num_sub, abs_num, num_div _ h5, num_add]
  generalize |R.p γ - L.p γ| / (L.p γ + R.p γ) = phi
  by_cases h6 : 1 + phi = 0
  · refine iff_of_false ?_ (fun h => h.1.2.2.2.2.2 h6)
    rw [h6]
    simp
  · rw [num_div _ (mul_ne_zero h6 h6), Bool.and_eq_true, Bool.and_eq_true, lt_num, lt_num, lt_num]
    exact ⟨fun h => ⟨⟨hL, hR, h3, h4, h5, h6⟩, h.1.1, h.1.2, h.2⟩, fun h => ⟨⟨h.2.1, h.2.2.1⟩, h.2.2.2⟩⟩

lemma raise_congr {f g : ℕ → Bool} {m : ℕ} (h : ∀ i < m, f i = g i) (v : ℕ) (a : Vec ℕ) : raiseSensors f m v a = raiseSensors g m v a := by
  unfold raiseSensors
  congr 1
  funext i
  refine if_congr (or_congr ?_ ?_) rfl rfl
  · exact and_congr_right fun hi => by rw [h i hi]
  · exact and_congr_right fun _ => and_congr_right fun hi => by rw [h _ hi]

lemma slice_left {K : Type*} {u : Arr K} {N : ℕ} (hc : u.cols = (N + 2) * 3) :
    (u.row 0).slice 0 (-((3 : ℕ) : ℤ)) = ⟨(N + 1) * 3, fun c => u.val 0 c⟩ := by
  unfold Vec.slice Arr.row
  simp only
  have e3 : pyIdx u.cols 0 = 0 := by simpa using pyIdx_nat u.cols 0 (by omega)
  have e4 : pyIdx u.cols (-((3 : ℕ) : ℤ)) = (N + 1) * 3 := by rw [pyIdx_neg _ 3 (by norm_num) (by omega)]; omega
  rw [e3, e4]
  simp

lemma slice_right {K : Type*} {u : Arr K} {N : ℕ} (hc : u.cols = (N + 2) * 3) :
    ((u.row 0).slice ((3 : ℕ) : ℤ) u.cols).val = fun c => u.val 0 (3 + c) := by
  unfold Vec.slice Arr.row
  simp only
  have e3 : pyIdx u.cols ((3 : ℕ) : ℤ) = 3 := pyIdx_nat _ 3 (by omega)
  rw [e3]

/-- The flags in terms of cells: face `i` lies between cells `i` and `i+1`. -/
lemma sensing_eq {u : Arr Num} {N : ℕ} (hc : u.cols = (N + 2) * 3) (th0 th1 : ℝ) (rest : List ℝ) (len : ℕ) :
    sensing γ (th0 :: th1 :: rest) u 3 len =
      .ok (raiseSensors (fun i => isShock γ th1 (stateAt (u.val 0) i) (stateAt (u.val 0) (i + 1))) (N + 1) 2
        (raiseSensors (fun i => isDiscontinuity γ th0 (stateAt (u.val 0) i) (stateAt (u.val 0) (i + 1))) (N + 1) 1 ⟨len, fun _ => 0⟩)) := by
  unfold sensing
  have e : ∀ i, stateAt (fun c => u.val 0 (3 + c)) i = stateAt (u.val 0) (i + 1) := fun i => by
    unfold stateAt
    simp only [St.mk.injEq]
    refine ⟨?_, ?_, ?_⟩ <;> congr 1 <;> ring
  simp only [slice_left hc, slice_right hc, e]
  rw [show ((N + 1) * 3 + 2) / 3 = N + 1 by omega]

open Classical in
lemma real_sensing {u : Arr ℝ} {N : ℕ} (hc : u.cols = (N + 2) * 3) (th0 th1 : ℝ) (rest : List ℝ) (v : Vec ℕ) :
    Euler.sensing γ (th0 :: th1 :: rest) u 3 v =
      .ok (raiseSensors (fun i => decide (Euler.isShock γ th1 (Euler.stateAt (u.val 0) i) (Euler.stateAt (u.val 0) (i + 1)))) (N + 1) 2
        (raiseSensors (fun i => decide (Euler.isDiscontinuity γ th0 (Euler.stateAt (u.val 0) i) (Euler.stateAt (u.val 0) (i + 1)))) (N + 1) 1 v)) := by
  unfold Euler.sensing Euler.faceStates
  have e : ∀ i, Euler.stateAt (fun c => u.val 0 (3 + c)) i = Euler.stateAt (u.val 0) (i + 1) := fun i => by
    unfold Euler.stateAt
    simp only [Euler.St.mk.injEq]
    refine ⟨?_, ?_, ?_⟩ <;> congr 1 <;> ring
  simp only [slice_left hc, slice_right hc, e]
  rw [show ((N + 1) * 3 + 2) / 3 = N + 1 by omega]

open Classical in
/-- On numbers the flags are those of the model. -/
lemma sensing_same {u : Arr Num} {x : Arr ℝ} {N : ℕ} (h : Same u x) (hr : 0 < x.rows) (hc : x.cols = (N + 2) * 3) (th0 th1 : ℝ) (rest : List ℝ) (len : ℕ) :
    sensing γ (th0 :: th1 :: rest) u 3 len = Euler.sensing γ (th0 :: th1 :: rest) x 3 ⟨len, fun _ => 0⟩ := by
  rw [sensing_eq (h.cols.trans hc), real_sensing hc]
  have hs : ∀ i < N + 2, stateAt (u.val 0) i = liftSt (Euler.stateAt (x.val 0) i) := fun i hi =>
    stateAt_lift hi fun c hcc => h.val 0 hr c (by rw [hc]; exact hcc)
  congr 1
  have h1 := raise_congr (f := fun i => isDiscontinuity γ th0 (stateAt (u.val 0) i) (stateAt (u.val 0) (i + 1))) (m := N + 1)
    (g := fun i => decide (Euler.isDiscontinuity γ th0 (Euler.stateAt (x.val 0) i) (Euler.stateAt (x.val 0) (i + 1)))) (fun i hi => by
      rw [hs i (by omega), hs (i + 1) (by omega), Bool.eq_iff_iff, disc_lift, decide_eq_true_iff])
  have h2 := raise_congr (f := fun i => isShock γ th1 (stateAt (u.val 0) i) (stateAt (u.val 0) (i + 1))) (m := N + 1)
    (g := fun i => decide (Euler.isShock γ th1 (Euler.stateAt (x.val 0) i) (Euler.stateAt (x.val 0) (i + 1)))) (fun i hi => by
      rw [hs i (by omega), hs (i + 1) (by omega), Bool.eq_iff_iff, shock_lift, decide_eq_true_iff])
  rw [h1, h2]

/-- A cell with a NaN average is never flagged. -/
lemma sensing_blind {u : Arr Num} {N : ℕ} (hc : u.cols = (N + 2) * 3) (th0 th1 : ℝ) (rest : List ℝ) (len : ℕ) {e : ℕ} (he : (stateAt (u.val 0) e).Bad) :
    ∃ fl, sensing γ (th0 :: th1 :: rest) u 3 len = .ok fl ∧ fl.len = len ∧ fl.val e = 0 := by
  refine ⟨_, sensing_eq hc th0 th1 rest len, rfl, ?_⟩
  have h1 : 1 ≤ e → stateAt (u.val 0) (e - 1 + 1) = stateAt (u.val 0) e := fun h => by rw [Nat.sub_add_cancel h]
  show (if _ then 2 else if _ then 1 else 0) = 0
  rw [if_neg, if_neg]
  · rintro (⟨-, h⟩ | ⟨h, -, h'⟩)
    · beta_reduce at h; rw [disc_bad (.inl he)] at h; cases h
    · simp only [h1 h] at h'
      rw [disc_bad (.inr he)] at h'; cases h'
  · rintro (⟨-, h⟩ | ⟨h, -, h'⟩)
    · beta_reduce at h; rw [shock_bad (.inl he)] at h; cases h
    · simp only [h1 h] at h'
      rw [shock_bad (.inr he)] at h'; cases h'

lemma sensing_len {th : List ℝ} {u : Arr Num} {NF len : ℕ} {fl : Vec ℕ} (h : sensing γ th u NF len = .ok fl) : fl.len = len := by
  unfold sensing at h
  rcases th with _ | ⟨a, _ | ⟨b, l⟩⟩
  · cases h
  · cases h
  · cases h; rfl

end Dg1d.Nan
