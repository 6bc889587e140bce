import Verif.Spec.Shock
import Verif.Proofs.Sensor

/-! Helper lemmas on the sensor at discontinuities that move as one wave. -/

open Dg1d.Spec

namespace Dg1d

/-- The speed of sound is positive. -/
lemma sound_pos {γ : ℝ} (hγ : 1 < γ) {w : Prim} (h : w.Phys) : 0 < w.c γ :=
  Real.sqrt_pos.mpr (div_pos (mul_pos (by linarith) h.2) h.1)

section Frame
variable {γ s : ℝ} {wL wR : Prim}

/-- The Rankine-Hugoniot conditions in the frame of the wave. -/
lemma rh_frame (hγ : 1 < γ) (hL : wL.Phys) (hR : wR.Phys) (h : RankineHugoniot γ s wL wR) :
    wR.rho * (wR.v - s) = wL.rho * (wL.v - s) ∧
    wR.rho * (wR.v - s) ^ 2 + wR.p = wL.rho * (wL.v - s) ^ 2 + wL.p ∧
    wL.rho * (wL.v - s) * (γ / (γ - 1) * (wR.p / wR.rho) + (wR.v - s) ^ 2 / 2) =
      wL.rho * (wL.v - s) * (γ / (γ - 1) * (wL.p / wL.rho) + (wL.v - s) ^ 2 / 2) := by
  have h0 := h 0
  have h1 := h 1
  have h2 := h 2
  simp [Prim.flux, Prim.cons, Prim.energy] at h0 h1 h2
  have hg : γ - 1 ≠ 0 := by linarith
  have e0 : wR.rho * (wR.v - s) = wL.rho * (wL.v - s) := by linear_combination h0
  have e1 : wR.rho * (wR.v - s) ^ 2 + wR.p = wL.rho * (wL.v - s) ^ 2 + wL.p := by linear_combination h1 - s * h0
  refine ⟨e0, e1, ?_⟩
  have r1 := hL.1.ne'
  have r2 := hR.1.ne'
  have a1 : wL.rho * (wL.v - s) * (γ / (γ - 1) * (wR.p / wR.rho) + (wR.v - s) ^ 2 / 2) =
      (wR.v - s) * (γ / (γ - 1) * wR.p) + wR.rho * (wR.v - s) * ((wR.v - s) ^ 2 / 2) := by
    rw [← e0]; field_simp
  have a2 : wL.rho * (wL.v - s) * (γ / (γ - 1) * (wL.p / wL.rho) + (wL.v - s) ^ 2 / 2) =
      (wL.v - s) * (γ / (γ - 1) * wL.p) + wL.rho * (wL.v - s) * ((wL.v - s) ^ 2 / 2) := by
    field_simp
  rw [a1, a2]
  have e : γ / (γ - 1) = 1 / (γ - 1) + 1 := by field_simp; ring
  rw [e]
  have d1 : wR.p / (γ - 1) = 1 / (γ - 1) * wR.p := by ring
  have d2 : wL.p / (γ - 1) = 1 / (γ - 1) * wL.p := by ring
  rw [d1, d2] at h2
  generalize 1 / (γ - 1) = k at h2 ⊢
  linear_combination h2 - s * h1 + s ^ 2 / 2 * h0

/-- The algebra of `roe_wave`: `a`, `b` are the roots of the densities, `x`, `y` the velocities relative to the wave, `P`, `Q`
the ratios of pressure and density. -/
lemma roe_alg {γ a b x y P Q : ℝ} (hγ : 1 < γ) (ha : 0 < a) (hb : 0 < b) (e0 : b * b * y = a * a * x)
    (e1 : b * b * y ^ 2 + b * b * Q = a * a * x ^ 2 + a * a * P)
    (e3 : γ / (γ - 1) * Q + y ^ 2 / 2 = γ / (γ - 1) * P + x ^ 2 / 2) (hxy : x ≠ y) :
    ∃ W, W = a * x / b ∧ x = W * b / a ∧ y = W * a / b ∧ γ / (γ - 1) * P + x ^ 2 / 2 = (γ + 1) / (2 * (γ - 1)) * W ^ 2 := by
  have hg : γ - 1 ≠ 0 := by linarith
  have hy : y = a * x / b * a / b := by
    field_simp
    linear_combination e0
  have hx : x = a * x / b * b / a := by field_simp
  refine ⟨_, rfl, hx, hy, ?_⟩
  obtain ⟨W, hW⟩ : ∃ W, W = a * x / b := ⟨_, rfl⟩
  rw [← hW] at hx hy ⊢
  have hab : b ^ 2 - a ^ 2 ≠ 0 := by
    intro hh
    apply hxy
    have : (b - a) * (b + a) = 0 := by linear_combination hh
    rcases mul_eq_zero.mp this with h | h
    · have : b = a := by linarith
      rw [hx, hy, this]
    · linarith
  have f1 : b * b * y ^ 2 = W ^ 2 * a ^ 2 := by rw [hy]; field_simp
  have f2 : a * a * x ^ 2 = W ^ 2 * b ^ 2 := by rw [hx]; field_simp
  have e : γ / (γ - 1) = 1 / (γ - 1) + 1 := by field_simp; ring
  have key : (b ^ 2 - a ^ 2) * (γ / (γ - 1) * P + x ^ 2 / 2) = (b ^ 2 - a ^ 2) * ((γ / (γ - 1) - 1 / 2) * W ^ 2) := by
    generalize γ / (γ - 1) = k at *
    linear_combination k * e1 - b ^ 2 * e3 + (1 / 2 - k) * f1 + (k - 1 / 2) * f2
  rw [mul_left_cancel₀ hab key]
  field_simp
  ring

/-- The Roe averages of a discontinuity that the gas crosses: relative to the wave the averaged velocity is `W` with
`W² = (v_L - s)(v_R - s)`, and the averaged sound speed is `|W|`. -/
lemma roe_wave (hγ : 1 < γ) (hL : wL.Phys) (hR : wR.Phys) (h : RankineHugoniot γ s wL wR) (hm : wL.v - s ≠ 0) (hne : wL.v ≠ wR.v) :
    ∃ W : ℝ, roeV wL wR = s + W ∧ roeC γ wL wR = |W| ∧ W ^ 2 = (wL.v - s) * (wR.v - s) ∧
      (0 < W ↔ 0 < wL.v - s) ∧ (0 < W ↔ 0 < wR.v - s) ∧ W ≠ 0 ∧
      wL.c γ ^ 2 = (γ + 1) / 2 * W ^ 2 - (γ - 1) / 2 * (wL.v - s) ^ 2 ∧
      wR.c γ ^ 2 = (γ + 1) / 2 * W ^ 2 - (γ - 1) / 2 * (wR.v - s) ^ 2 := by
  obtain ⟨e0, e1, e2⟩ := rh_frame hγ hL hR h
  have hg : γ - 1 ≠ 0 := by linarith
  have r1 := hL.1
  have r2 := hR.1
  have ha := Real.sqrt_pos.mpr r1
  have hb := Real.sqrt_pos.mpr r2
  have hcL : wL.c γ ^ 2 = γ * (wL.p / wL.rho) := by
    unfold Prim.c
    rw [Real.sq_sqrt (by have := hL.2; positivity)]; ring
  have hcR : wR.c γ ^ 2 = γ * (wR.p / wR.rho) := by
    unfold Prim.c
    rw [Real.sq_sqrt (by have := hR.2; positivity)]; ring
  have haa : √wL.rho * √wL.rho = wL.rho := Real.mul_self_sqrt r1.le
  have hbb : √wR.rho * √wR.rho = wR.rho := Real.mul_self_sqrt r2.le
  have hV : roeV wL wR = (√wL.rho * wL.v + √wR.rho * wR.v) / (√wL.rho + √wR.rho) := rfl
  have hC : roeC γ wL wR = √((γ - 1) * ((√wL.rho * wL.enthalpy γ + √wR.rho * wR.enthalpy γ) / (√wL.rho + √wR.rho) - roeV wL wR ^ 2 / 2)) := rfl
  have hEL : wL.enthalpy γ = γ / (γ - 1) * (wL.p / wL.rho) + wL.v ^ 2 / 2 := rfl
  have hER : wR.enthalpy γ = γ / (γ - 1) * (wR.p / wR.rho) + wR.v ^ 2 / 2 := rfl
  have e3 := mul_left_cancel₀ (mul_ne_zero r1.ne' hm) e2
  obtain ⟨x, hx⟩ : ∃ x, x = wL.v - s := ⟨_, rfl⟩
  obtain ⟨y, hy⟩ : ∃ y, y = wR.v - s := ⟨_, rfl⟩
  have hvL : wL.v = s + x := by rw [hx]; ring
  have hvR : wR.v = s + y := by rw [hy]; ring
  rw [hvL, hvR] at hV hne
  rw [hvL] at hEL hm
  rw [hvR] at hER
  rw [← hx, ← hy] at e0 e1 e3
  rw [← hx, ← hy]
  have hxy : x ≠ y := fun hh => hne (by rw [hh])
  have hx0 : x ≠ 0 := by simpa using hm
  have hpL : wL.p = wL.rho * (wL.p / wL.rho) := by field_simp
  have hpR : wR.p = wR.rho * (wR.p / wR.rho) := by field_simp
  rw [hpL, hpR] at e1
  obtain ⟨P, hP⟩ : ∃ P, P = wL.p / wL.rho := ⟨_, rfl⟩
  obtain ⟨Q, hQ⟩ : ∃ Q, Q = wR.p / wR.rho := ⟨_, rfl⟩
  rw [← hP] at e1 e3 hEL hcL
  rw [← hQ] at e1 e3 hER hcR
  rw [← haa, ← hbb] at e0 e1
  obtain ⟨W, hW, wx, wy, hH⟩ := roe_alg hγ ha hb e0 e1 e3 hxy
  have hWV : roeV wL wR = s + W := by
    rw [hV, div_eq_iff (by positivity), wx, wy]
    field_simp
    ring
  have hWx : 0 < W ↔ 0 < x := by
    rw [hW, div_pos_iff_of_pos_right hb, mul_pos_iff_of_pos_left ha]
  have hWy : 0 < W ↔ 0 < y := by
    rw [wy, div_pos_iff_of_pos_right hb, mul_pos_iff_of_pos_right ha]
  have hCC : (γ - 1) * ((√wL.rho * wL.enthalpy γ + √wR.rho * wR.enthalpy γ) / (√wL.rho + √wR.rho) - roeV wL wR ^ 2 / 2) = W ^ 2 := by
    rw [hWV, hEL, hER]
    have g1 : γ / (γ - 1) * P = (γ + 1) / (2 * (γ - 1)) * W ^ 2 - x ^ 2 / 2 := by linear_combination hH
    have g2 : γ / (γ - 1) * Q = (γ + 1) / (2 * (γ - 1)) * W ^ 2 - y ^ 2 / 2 := by linear_combination hH + e3
    rw [g1, g2, wx, wy]
    field_simp
    ring
  refine ⟨W, hWV, ?_, ?_, hWx, hWy, ?_, ?_, ?_⟩
  · rw [hC, hCC, Real.sqrt_sq_eq_abs]
  · rw [wx, wy]; field_simp
  · rw [hW]; positivity
  · rw [hcL]
    have := congrArg (fun z => (γ - 1) * z) hH
    field_simp at this ⊢
    linear_combination this
  · rw [hcR]
    have := congrArg (fun z => (γ - 1) * z) (e3.trans hH)
    field_simp at this ⊢
    linear_combination this

lemma lt_of_sq {x y : ℝ} (hy : 0 ≤ y) (h : x ^ 2 < y ^ 2) : x < y := by
  by_contra hx
  have := not_lt.mp hx
  nlinarith

/-- The sensor's condition in the frame of the wave, gas crossing from left to right. -/
lemma compress_right {γ x y W cL cR : ℝ} (hγ : 1 < γ) (hx : 0 < x) (hy : 0 < y) (hxy : W ^ 2 = x * y)
    (hL : 0 < cL) (hR : 0 < cR) (eL : cL ^ 2 = (γ + 1) / 2 * W ^ 2 - (γ - 1) / 2 * x ^ 2)
    (eR : cR ^ 2 = (γ + 1) / 2 * W ^ 2 - (γ - 1) / 2 * y ^ 2) :
    (cL < x ↔ y < x) ∧ (y < cR ↔ y < x) := by
  have kL : cL ^ 2 - x ^ 2 = (γ + 1) / 2 * x * (y - x) := by rw [eL, hxy]; ring
  have kR : cR ^ 2 - y ^ 2 = (γ + 1) / 2 * y * (x - y) := by rw [eR, hxy]; ring
  have pL : 0 < (γ + 1) / 2 * x := by positivity
  have pR : 0 < (γ + 1) / 2 * y := by positivity
  constructor
  · constructor
    · intro h
      by_contra hh
      have : 0 ≤ (γ + 1) / 2 * x * (y - x) := mul_nonneg pL.le (by linarith)
      nlinarith
    · intro h
      apply lt_of_sq hx.le
      have : (γ + 1) / 2 * x * (y - x) < 0 := mul_neg_of_pos_of_neg pL (by linarith)
      linarith
  · constructor
    · intro h
      by_contra hh
      have : (γ + 1) / 2 * y * (x - y) ≤ 0 := mul_nonpos_of_nonneg_of_nonpos pR.le (by linarith)
      nlinarith
    · intro h
      apply lt_of_sq hR.le
      have : 0 < (γ + 1) / 2 * y * (x - y) := mul_pos pR (by linarith)
      linarith

/-- The geometric mean lies between. -/
lemma mean_between {X Y C : ℝ} (hX : 0 < X) (hY : 0 < Y) (hC : 0 < C) (h : C ^ 2 = X * Y) (hXY : X < Y) : X < C ∧ C < Y :=
  ⟨lt_of_sq hC.le (by rw [h]; nlinarith), lt_of_sq hY.le (by rw [h]; nlinarith)⟩

/-- The sensor's condition in the frame of the wave, gas crossing from right to left (`X`, `Y`, `C` the absolute values). -/
lemma compress_left {γ X Y C cL cR : ℝ} (hγ : 1 < γ) (hγ' : γ ≤ 5 / 3) (hC : 0 < C) (hX : 0 < X) (hY : 0 < Y) (hXY : C ^ 2 = X * Y)
    (hne : X ≠ Y) (hR : 0 < cR) (eL : cL ^ 2 = (γ + 1) / 2 * C ^ 2 - (γ - 1) / 2 * X ^ 2)
    (eR : cR ^ 2 = (γ + 1) / 2 * C ^ 2 - (γ - 1) / 2 * Y ^ 2) :
    (X + cL < 2 * C ∧ 2 * C < Y + cR) ↔ X < Y := by
  have kL : (2 * C - X) ^ 2 - cL ^ 2 = (C - X) * ((7 - γ) * C - (γ + 1) * X) / 2 := by rw [eL]; ring
  have kR : cR ^ 2 - (2 * C - Y) ^ 2 = (Y - C) * ((7 - γ) * C - (γ + 1) * Y) / 2 := by rw [eR]; ring
  constructor
  · rintro ⟨-, h⟩
    by_contra hh
    obtain ⟨h1, -⟩ := mean_between hY hX hC (by rw [hXY]; ring) (lt_of_le_of_ne (not_lt.mp hh) (Ne.symm hne))
    have f : 0 < (7 - γ) * C - (γ + 1) * Y := by nlinarith
    have : (Y - C) * ((7 - γ) * C - (γ + 1) * Y) < 0 := mul_neg_of_neg_of_pos (by linarith) f
    nlinarith
  · intro h
    obtain ⟨h1, h2⟩ := mean_between hX hY hC hXY h
    constructor
    · have f : 0 < (7 - γ) * C - (γ + 1) * X := by nlinarith
      have : 0 < (C - X) * ((7 - γ) * C - (γ + 1) * X) := mul_pos (by linarith) f
      have := lt_of_sq (x := cL) (y := 2 * C - X) (by linarith) (by linarith)
      linarith
    · by_cases h3 : 2 * C ≤ Y
      · linarith
      · have f : 0 < (7 - γ) * C - (γ + 1) * Y := by nlinarith
        have : 0 < (Y - C) * ((7 - γ) * C - (γ + 1) * Y) := mul_pos (by linarith) f
        have := lt_of_sq (x := 2 * C - Y) (y := cR) hR.le (by linarith)
        linarith

/-- A discontinuity the gas crosses passes the sensor's test on the characteristics exactly if the velocity drops across it. -/
lemma compressive_iff (hγ : 1 < γ) (hγ' : γ ≤ 5 / 3) (hL : wL.Phys) (hR : wR.Phys) (h : RankineHugoniot γ s wL wR) (hm : wL.v - s ≠ 0)
    (hne : wL.v ≠ wR.v) : Compressive γ wL wR ↔ wR.v < wL.v := by
  obtain ⟨W, hV, hC, hW2, hx, hy, hW0, eL, eR⟩ := roe_wave hγ hL hR h hm hne
  have cL := sound_pos hγ hL
  have cR := sound_pos hγ hR
  unfold Compressive
  rw [hV, hC]
  rcases lt_or_gt_of_ne hW0 with hW | hW
  · have hx' : wL.v - s < 0 := lt_of_le_of_ne (not_lt.mp fun h => absurd (hx.mpr h) (not_lt.mpr hW.le)) hm
    have hy' : wR.v - s < 0 := by
      by_contra hh
      have : (wL.v - s) * (wR.v - s) ≤ 0 := mul_nonpos_of_nonpos_of_nonneg hx'.le (not_lt.mp hh)
      have : 0 < W ^ 2 := by positivity
      linarith
    have := compress_left (X := -(wL.v - s)) (Y := -(wR.v - s)) (C := -W) (cL := wL.c γ) hγ hγ' (by linarith) (by linarith) (by linarith)
      (by rw [neg_sq, hW2]; ring) (fun hh => hne (by linarith)) cR (by rw [neg_sq, neg_sq, eL]) (by rw [neg_sq, neg_sq, eR])
    rw [abs_of_neg hW]
    constructor
    · rintro ⟨h1, h2⟩
      linarith [this.mp ⟨by linarith, by linarith⟩]
    · intro h1
      obtain ⟨h2, h3⟩ := this.mpr (by linarith)
      exact ⟨by linarith, by linarith⟩
  · have := compress_right hγ (hx.mp hW) (hy.mp hW) hW2 cL cR eL eR
    rw [abs_of_pos hW]
    constructor
    · rintro ⟨h1, h2⟩
      linarith [this.1.mp (by linarith)]
    · intro h1
      exact ⟨by linarith [this.1.mpr (by linarith)], by linarith [this.2.mpr (by linarith)]⟩

/-- Lax's condition likewise. -/
lemma lax_iff (hγ : 1 < γ) (hL : wL.Phys) (hR : wR.Phys) (h : RankineHugoniot γ s wL wR) (hm : wL.v - s ≠ 0)
    (hne : wL.v ≠ wR.v) : LaxShock γ s wL wR ↔ wR.v < wL.v := by
  obtain ⟨W, hV, hC, hW2, hx, hy, hW0, eL, eR⟩ := roe_wave hγ hL hR h hm hne
  have cL := sound_pos hγ hL
  have cR := sound_pos hγ hR
  unfold LaxShock
  rcases lt_or_gt_of_ne hW0 with hW | hW
  · have hx' : wL.v - s < 0 := lt_of_le_of_ne (not_lt.mp fun h => absurd (hx.mpr h) (not_lt.mpr hW.le)) hm
    have hy' : wR.v - s < 0 := by
      by_contra hh
      have : (wL.v - s) * (wR.v - s) ≤ 0 := mul_nonpos_of_nonpos_of_nonneg hx'.le (not_lt.mp hh)
      have : 0 < W ^ 2 := by positivity
      linarith
    have := compress_right (x := -(wR.v - s)) (y := -(wL.v - s)) (W := -W) (cL := wR.c γ) hγ (by linarith) (by linarith)
      (by rw [neg_sq, hW2]; ring) cR cL (by rw [neg_sq, neg_sq, eR]) (by rw [neg_sq, neg_sq, eL])
    constructor
    · rintro ⟨-, ⟨h1, h2⟩ | ⟨h1, h2⟩⟩
      · linarith
      · linarith [this.1.mp (by linarith)]
    · intro h1
      exact ⟨h, .inr ⟨by linarith [this.2.mpr (by linarith)], by linarith [this.1.mpr (by linarith)]⟩⟩
  · have := compress_right hγ (hx.mp hW) (hy.mp hW) hW2 cL cR eL eR
    have hy' := hy.mp hW
    constructor
    · rintro ⟨-, ⟨h1, h2⟩ | ⟨h1, h2⟩⟩
      · linarith [this.1.mp (by linarith)]
      · linarith
    · intro h1
      exact ⟨h, .inl ⟨by linarith [this.1.mpr (by linarith)], by linarith [this.2.mpr (by linarith)]⟩⟩

/-- Where the velocity does not change, or the gas does not cross the wave, neither does the pressure, and there is no shock. -/
lemma still_wave (hγ : 1 < γ) (hL : wL.Phys) (hR : wR.Phys) (h : RankineHugoniot γ s wL wR) (hm : wL.v - s = 0 ∨ wL.v = wR.v) :
    wL.p = wR.p ∧ wL.v = wR.v ∧ ¬ LaxShock γ s wL wR := by
  obtain ⟨e0, e1, e2⟩ := rh_frame hγ hL hR h
  have hv : wL.v = wR.v := by
    rcases hm with hm | hm
    · rw [hm, mul_zero] at e0
      rcases mul_eq_zero.mp e0 with h' | h'
      · exact absurd h' hR.1.ne'
      · linarith
    · exact hm
  have hp : wL.p = wR.p := by
    rw [← hv] at e0 e1
    linear_combination -e1 + (wL.v - s) * e0
  refine ⟨hp, hv, ?_⟩
  have cL := sound_pos hγ hL
  have cR := sound_pos hγ hR
  rintro ⟨-, ⟨h1, h2⟩ | ⟨h1, h2⟩⟩
  · rw [← hv] at e0 h2
    have hr : wR.rho = wL.rho := mul_right_cancel₀ (by linarith : wL.v - s ≠ 0) e0
    have : wR.c γ = wL.c γ := by unfold Prim.c; rw [hr, hp]
    linarith
  · rw [← hv] at e0 h2
    have hr : wR.rho = wL.rho := mul_right_cancel₀ (by linarith : wL.v - s ≠ 0) e0
    have : wR.c γ = wL.c γ := by unfold Prim.c; rw [hr, hp]
    linarith

end Frame

/-- The indicator of a pressure jump is `(1 - r²)/2`, `r` the ratio of the lower to the higher pressure. -/
lemma psi_pressure {wL wR : Prim} (hL : wL.Phys) (hR : wR.Phys) :
    psi (pressureJump wL wR) = (1 - (min wL.p wR.p / max wL.p wR.p) ^ 2) / 2 := by
  have h1 := hL.2
  have h2 := hR.2
  unfold psi pressureJump
  rcases le_total wL.p wR.p with h | h
  · rw [min_eq_left h, max_eq_right h, abs_of_nonneg (by linarith)]
    field_simp
    ring
  · have e : 1 + -(wR.p - wL.p) / (wL.p + wR.p) = 2 * wL.p / (wL.p + wR.p) := by field_simp; ring
    rw [min_eq_right h, max_eq_left h, abs_of_nonpos (by linarith), e]
    field_simp
    ring

lemma psi_pressure_gt {wL wR : Prim} (hL : wL.Phys) (hR : wR.Phys) (th : ℝ) :
    psi (pressureJump wL wR) > th ↔ StrongerThan (√(1 - 2 * th)) wL wR := by
  have h1 : 0 < min wL.p wR.p := lt_min hL.2 hR.2
  have h2 : 0 < max wL.p wR.p := lt_max_of_lt_left hL.2
  rw [psi_pressure hL hR]
  unfold StrongerThan
  rw [← div_lt_iff₀ h2, Real.lt_sqrt (by positivity)]
  constructor <;> intro h <;> linarith

end Dg1d
