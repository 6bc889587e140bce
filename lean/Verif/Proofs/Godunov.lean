import Verif.Proofs.Euler
import Verif.Spec.Godunov
import Mathlib.Analysis.Convex.SpecificFunctions.Basic
import Mathlib.Analysis.Convex.SpecificFunctions.Pow

/-! Helper lemmas: the Godunov solver in primitive variables. -/

set_option linter.unusedSectionVars false

namespace Dg1d.Euler
open Spec

section curve
variable {γ : ℝ} (hγ : 1 < γ)

include hγ in
lemma isoExp_pos : 0 < isoExp γ := by
  unfold isoExp
  have : 0 < γ - 1 := by linarith
  have : 0 < γ := by linarith
  positivity

include hγ in
lemma isoExp_lt : isoExp γ < 1 / 2 := by
  unfold isoExp
  have : 0 < γ := by linarith
  rw [div_lt_iff₀ (by positivity)]
  linarith

/-- The mass flux divided by `ρ c`, as a function of the pressure ratio. -/
noncomputable def ratioFlux (γ z : ℝ) : ℝ :=
  if z < 1 - 1 / 10 ^ 15 then isoExp γ * (1 - z) / (1 - z ^ isoExp γ) else √(1 + (γ + 1) / (2 * γ) * (z - 1))

include hγ in
lemma rpow_lt_one' {z : ℝ} (h0 : 0 ≤ z) (h1 : z < 1) : z ^ isoExp γ < 1 := Real.rpow_lt_one h0 h1 (isoExp_pos hγ)

include hγ in
lemma gam1_bounds : 1 / 2 < (γ + 1) / (2 * γ) ∧ (γ + 1) / (2 * γ) < 1 := by
  have : 0 < γ := by linarith
  constructor
  · rw [div_lt_div_iff₀ (by norm_num) (by positivity)]; linarith
  · rw [div_lt_one (by positivity)]; linarith

include hγ in
lemma shockArg_pos {z : ℝ} (h0 : 0 ≤ z) : 0 < 1 + (γ + 1) / (2 * γ) * (z - 1) := by
  obtain ⟨h1, h2⟩ := gam1_bounds hγ
  nlinarith

include hγ in
lemma ratioFlux_pos {z : ℝ} (h0 : 0 ≤ z) : 0 < ratioFlux γ z := by
  unfold ratioFlux
  split_ifs with h
  · have h1 : z < 1 := by linarith [show (0 : ℝ) < 1 / 10 ^ 15 by positivity]
    have := rpow_lt_one' hγ h0 h1
    have := isoExp_pos hγ
    exact div_pos (mul_pos this (by linarith)) (by linarith)
  · exact Real.sqrt_pos.mpr (shockArg_pos hγ h0)

include hγ in
/-- The rarefaction branch lies below `(1 + √z)/2` (Bernoulli). -/
lemma rar_le {z : ℝ} (h0 : 0 ≤ z) (h1 : z < 1) : isoExp γ * (1 - z) / (1 - z ^ isoExp γ) ≤ (1 + √z) / 2 := by
  have hg := isoExp_pos hγ
  have hg2 := isoExp_lt hγ
  have hlt := rpow_lt_one' hγ h0 h1
  have ht0 := Real.sqrt_nonneg z
  have ht1 : √z < 1 := by rw [Real.sqrt_lt' one_pos]; simpa using h1
  have hz : z ^ isoExp γ = (√z) ^ (2 * isoExp γ) := by
    rw [Real.sqrt_eq_rpow, ← Real.rpow_mul h0]; congr 1; ring
  have hb : (√z) ^ (2 * isoExp γ) ≤ 1 + 2 * isoExp γ * (√z - 1) := by
    have := rpow_one_add_le_one_add_mul_self (s := √z - 1) (by linarith) (p := 2 * isoExp γ) (by linarith) (by linarith)
    simpa using this
  rw [div_le_iff₀ (by linarith)]
  rw [← hz] at hb
  have hzz : z = √z * √z := (Real.mul_self_sqrt h0).symm
  have e : isoExp γ * (1 - z) = (1 + √z) / 2 * (2 * isoExp γ * (1 - √z)) := by
    rw [hzz, Real.sqrt_mul_self ht0]; ring
  rw [e]
  exact mul_le_mul_of_nonneg_left (by linarith) (by positivity)

include hγ in
/-- More than doubling the pressure increases the mass flux. -/
lemma ratioFlux_lt {x w : ℝ} (h0 : 0 ≤ x) (hw : 2 * x < w) : ratioFlux γ x < ratioFlux γ w := by
  have hg := isoExp_pos hγ
  have hg2 := isoExp_lt hγ
  obtain ⟨g1, g2⟩ := gam1_bounds hγ
  have heps : (0 : ℝ) < 1 / 10 ^ 15 := by positivity
  have heps1 : (1 : ℝ) / 10 ^ 15 ≤ 1 / 100 := by norm_num
  unfold ratioFlux
  by_cases hx : x < 1 - 1 / 10 ^ 15
  · by_cases hww : w < 1 - 1 / 10 ^ 15
    · rw [if_pos hx, if_pos hww]
      have hs := (Real.strictConcaveOn_rpow hg (by linarith)).secant_strict_mono (a := 1) (x := x) (y := w)
        (by simp) h0 (by simp; linarith) (by linarith) (by linarith) (by linarith)
      simp only [Real.one_rpow] at hs
      have hx1 := rpow_lt_one' hγ h0 (by linarith)
      have hw1 := rpow_lt_one' hγ (z := w) (by linarith) (by linarith)
      rw [← neg_div_neg_eq, ← neg_div_neg_eq (x ^ isoExp γ - 1), div_lt_div_iff₀ (by linarith) (by linarith)] at hs
      rw [div_lt_div_iff₀ (by linarith) (by linarith)]
      nlinarith
    · rw [if_pos hx, if_neg hww]
      refine lt_of_le_of_lt (rar_le hγ h0 (by linarith)) ?_
      apply Real.lt_sqrt_of_sq_lt
      by_cases hw1 : 1 ≤ w
      · have ht1 : √x < 1 := by rw [Real.sqrt_lt' one_pos]; linarith
        have ht0 := Real.sqrt_nonneg x
        nlinarith
      · have ht1 : √x < 3 / 4 := by rw [Real.sqrt_lt' (by norm_num)]; linarith
        have ht0 := Real.sqrt_nonneg x
        nlinarith
  · rw [if_neg hx, if_neg (by linarith)]
    exact Real.sqrt_lt_sqrt (shockArg_pos hγ h0).le (by nlinarith)

variable {w : Prim} (hw : w.Phys)

include hγ hw

lemma waveFlux_eq_ratio (P : ℝ) : waveFlux γ w P = w.rho * w.c γ * ratioFlux γ (P / w.p) := by
  have h1 := hw.1; have h2 := hw.2
  have hc := c_pos hγ hw
  have hc2 := c_sq hγ hw
  have hg : 0 < γ := by linarith
  have hg1 : 0 < γ - 1 := by linarith
  unfold waveFlux ratioFlux
  have hiff : P / w.p < 1 - 1 / 10 ^ 15 ↔ P < (1 - 1 / 10 ^ 15) * w.p := by rw [div_lt_iff₀ h2]
  by_cases h : P < (1 - 1 / 10 ^ 15) * w.p
  · rw [if_pos h, if_pos (hiff.mpr h)]
    unfold expansionJump
    rw [← div_div, ← mul_div_assoc]
    congr 1
    unfold isoExp
    have hc2' : w.rho * w.c γ ^ 2 = γ * w.p := by rw [hc2]; field_simp
    field_simp
    linear_combination (-(w.p - P)) * hc2'
  · rw [if_neg h, if_neg (by rw [hiff]; exact h)]
    unfold shockFlux
    rw [show w.rho * ((γ + 1) * P + (γ - 1) * w.p) / 2 = (w.rho * w.c γ) ^ 2 * (1 + (γ + 1) / (2 * γ) * (P / w.p - 1)) by
      rw [mul_pow, hc2]; field_simp; ring]
    rw [Real.sqrt_mul (by positivity), Real.sqrt_sq (by positivity)]

lemma massflux_eq (P : ℝ) : massflux γ w.rho (w.c γ) w.p P = waveFlux γ w P := by
  rw [waveFlux_eq_ratio hγ hw]
  unfold massflux ratioFlux
  have hg : γ ≠ 0 := by linarith
  simp only [ge_iff_le]
  have e1 : 1 / 2 * (γ + 1) / γ = (γ + 1) / (2 * γ) := by field_simp
  have e2 : 1 / 2 * (γ - 1) / γ = isoExp γ := by unfold isoExp; field_simp
  rw [e1, e2]
  by_cases h : P / w.p < 1 - 1 / 10 ^ 15
  · rw [if_pos h, if_neg (by linarith)]; ring
  · rw [if_neg h, if_pos (by linarith)]

lemma waveFlux_pos {P : ℝ} (hP : 0 ≤ P) : 0 < waveFlux γ w P := by
  rw [waveFlux_eq_ratio hγ hw]
  have := c_pos hγ hw
  have := hw.1
  have := ratioFlux_pos hγ (div_nonneg hP hw.2.le)
  positivity

lemma waveFlux_lt {x y : ℝ} (hx : 0 ≤ x) (hy : 2 * x < y) : waveFlux γ w x < waveFlux γ w y := by
  rw [waveFlux_eq_ratio hγ hw, waveFlux_eq_ratio hγ hw]
  have := c_pos hγ hw
  have h1 := hw.1
  have h2 := hw.2
  refine mul_lt_mul_of_pos_left (ratioFlux_lt hγ (div_nonneg hx h2.le) ?_) (by positivity)
  rw [← mul_div_assoc]
  exact div_lt_div_of_pos_right hy h2

/-- Pressure over mass flux at vacuum. -/
lemma waveFlux_zero : w.p / waveFlux γ w 0 = 2 * w.c γ / (γ - 1) := by
  have h2 := hw.2
  have hc := c_pos hγ hw
  have hg := isoExp_pos hγ
  unfold waveFlux
  rw [if_pos (by have : (0 : ℝ) < 1 - 1 / 10 ^ 15 := by norm_num
                 positivity)]
  unfold expansionJump
  rw [zero_div, Real.zero_rpow hg.ne']
  have hg1 : γ - 1 ≠ 0 := by linarith
  rw [sub_zero, sub_zero, mul_one]
  field_simp

/-- The expansion jump stays below pressure over mass flux. -/
lemma jump_lt {P : ℝ} (hP : 0 < P) : expansionJump γ w P < w.p / waveFlux γ w P := by
  have h1 := hw.1; have h2 := hw.2
  have hc := c_pos hγ hw
  have hc2 := c_sq hγ hw
  have hg := isoExp_pos hγ
  have hγ0 : 0 < γ := by linarith
  have hγ1 : 0 < γ - 1 := by linarith
  have hz : 0 < P / w.p := by positivity
  by_cases h : P < (1 - 1 / 10 ^ 15) * w.p
  · unfold waveFlux
    rw [if_pos h]
    have hP1 : P < w.p := by nlinarith [show (0 : ℝ) < 1 / 10 ^ 15 by positivity]
    have hz1 : P / w.p < 1 := by rw [div_lt_one h2]; exact hP1
    have hJ : 0 < expansionJump γ w P := by
      unfold expansionJump
      have := rpow_lt_one' hγ hz.le hz1
      exact mul_pos (by positivity) (by linarith)
    rw [div_div_eq_mul_div, lt_div_iff₀ (by linarith)]
    nlinarith
  · by_cases h3 : w.p ≤ P
    · refine lt_of_le_of_lt ?_ (div_pos h2 (waveFlux_pos hγ hw hP.le))
      unfold expansionJump
      have : 1 ≤ (P / w.p) ^ isoExp γ := Real.one_le_rpow (by rw [le_div_iff₀ h2]; linarith) hg.le
      exact mul_nonpos_of_nonneg_of_nonpos (by positivity) (by linarith)
    · have hz1 : P / w.p < 1 := by rw [div_lt_one h2]; linarith
      have hz2 : 1 - 1 / 10 ^ 15 ≤ P / w.p := by rw [le_div_iff₀ h2]; linarith
      have hM : waveFlux γ w P ≤ w.rho * w.c γ := by
        rw [waveFlux_eq_ratio hγ hw]
        unfold ratioFlux
        rw [if_neg (by linarith)]
        have : √(1 + (γ + 1) / (2 * γ) * (P / w.p - 1)) ≤ 1 := by
          rw [Real.sqrt_le_one]
          obtain ⟨g1, _⟩ := gam1_bounds hγ
          nlinarith
        nlinarith [mul_pos h1 hc]
      have hlow : w.c γ / γ ≤ w.p / waveFlux γ w P := by
        rw [div_le_div_iff₀ hγ0 (waveFlux_pos hγ hw hP.le)]
        have : w.c γ * (w.rho * w.c γ) = w.p * γ := by
          rw [show w.c γ * (w.rho * w.c γ) = w.rho * w.c γ ^ 2 by ring, hc2]; field_simp
        nlinarith
      refine lt_of_lt_of_le ?_ hlow
      have hlog : 1 - (P / w.p) ^ isoExp γ ≤ isoExp γ * ((P / w.p)⁻¹ - 1) := by
        rw [Real.rpow_def_of_pos hz]
        have a1 := Real.add_one_le_exp (Real.log (P / w.p) * isoExp γ)
        have a2 := Real.one_sub_inv_le_log_of_pos hz
        nlinarith
      have hinv : (P / w.p)⁻¹ - 1 ≤ 1 / 2 := by
        have : (P / w.p)⁻¹ ≤ 3 / 2 := by
          rw [inv_le_comm₀ hz (by norm_num)]
          refine le_trans ?_ hz2
          norm_num
        linarith
      unfold expansionJump
      calc 2 * w.c γ / (γ - 1) * (1 - (P / w.p) ^ isoExp γ) ≤ 2 * w.c γ / (γ - 1) * (isoExp γ * (1 / 2)) := by
            apply mul_le_mul_of_nonneg_left _ (by positivity)
            exact hlog.trans (mul_le_mul_of_nonneg_left hinv hg.le)
        _ = w.c γ / γ / 2 := by unfold isoExp; field_simp
        _ < w.c γ / γ := by have : 0 < w.c γ / γ := by positivity
                            linarith

lemma waveRho_pos {P : ℝ} (hP : 0 < P) : 0 < waveRho γ w P := by
  have h1 := hw.1; have h2 := hw.2
  have hγ0 : 0 < γ := by linarith
  have hγ1 : 0 < γ - 1 := by linarith
  unfold waveRho
  split_ifs
  · positivity
  · have := Real.rpow_pos_of_pos (div_pos hP h2) (1 / γ)
    positivity

lemma starDensity_eq (P : ℝ) (hP : 0 < P) : starDensity γ w.rho w.p P = waveRho γ w P := by
  have h1 := hw.1; have h2 := hw.2
  have hγ0 : 0 < γ := by linarith
  have hγ1 : 0 < γ - 1 := by linarith
  unfold starDensity waveRho
  simp only
  by_cases h : w.p ≤ P
  · rw [if_pos h, if_pos (by rw [ge_iff_le, le_div_iff₀ h2]; linarith)]
    have : 0 < (γ + 1) / (γ - 1) + P / w.p := by positivity
    rw [div_eq_div_iff this.ne' (by positivity)]
    field_simp
    ring
  · rw [if_neg h, if_neg (by rw [ge_iff_le, le_div_iff₀ h2]; linarith)]

end curve

/-! ### The pressure iteration -/

section iteration
variable {γ : ℝ} (hγ : 1 < γ) {wL wR : Prim} (hL : wL.Phys) (hR : wR.Phys)

/-- The left or right state in the variables of the code. -/
local notation "Lc" => stOf (Prim.cons γ wL)
local notation "Rc" => stOf (Prim.cons γ wR)

include hγ hL hR

lemma pmNext_cons {P : ℝ} (hP : 0 ≤ P) : pmNext γ Lc Rc P = some (pressureMap γ wL wR P) := by
  unfold pmNext
  rw [if_neg (not_lt.mpr hP), v_cons γ hL.1.ne', v_cons γ hR.1.ne', p_cons hγ hL.1.ne', p_cons hγ hR.1.ne',
    a_cons hγ hL.1.ne', a_cons hγ hR.1.ne']
  show some ((massflux γ wL.rho (wL.c γ) wL.p P * _ + massflux γ wR.rho (wR.c γ) wR.p P * _ -
    massflux γ wL.rho (wL.c γ) wL.p P * massflux γ wR.rho (wR.c γ) wR.p P * _) /
    (massflux γ wL.rho (wL.c γ) wL.p P + massflux γ wR.rho (wR.c γ) wR.p P)) = _
  rw [massflux_eq hγ hL, massflux_eq hγ hR]
  rfl

omit hγ hL hR in
lemma pmNext_neg {L R : St} {P : ℝ} (hP : P < 0) : pmNext γ L R P = none := by
  unfold pmNext
  rw [if_pos hP]

/-- The sign of the next pressure. -/
lemma pressureMap_eq {P : ℝ} (hP : 0 ≤ P) : pressureMap γ wL wR P =
    waveFlux γ wL P * waveFlux γ wR P / (waveFlux γ wL P + waveFlux γ wR P) *
      (wL.p / waveFlux γ wL P + wR.p / waveFlux γ wR P - (wR.v - wL.v)) := by
  have h1 := waveFlux_pos hγ hL hP
  have h2 := waveFlux_pos hγ hR hP
  unfold pressureMap
  field_simp
  ring

lemma pressureMap_pos {P : ℝ} (hP : 0 ≤ P) :
    0 < pressureMap γ wL wR P ↔ wR.v - wL.v < wL.p / waveFlux γ wL P + wR.p / waveFlux γ wR P := by
  have h1 := waveFlux_pos hγ hL hP
  have h2 := waveFlux_pos hγ hR hP
  rw [pressureMap_eq hγ hL hR hP, mul_pos_iff_of_pos_left (by positivity), sub_pos]

lemma pressureMap_nonneg {P : ℝ} (hP : 0 ≤ P) :
    0 ≤ pressureMap γ wL wR P ↔ wR.v - wL.v ≤ wL.p / waveFlux γ wL P + wR.p / waveFlux γ wR P := by
  have h1 := waveFlux_pos hγ hL hP
  have h2 := waveFlux_pos hγ hR hP
  rw [pressureMap_eq hγ hL hR hP, mul_nonneg_iff_of_pos_left (by positivity), sub_nonneg]

omit hL hR in
lemma quot_lt {w : Prim} (hw : w.Phys) {x y : ℝ} (hx : 0 ≤ x) (hy : 2 * x < y) : w.p / waveFlux γ w y < w.p / waveFlux γ w x :=
  div_lt_div_of_pos_left hw.2 (waveFlux_pos hγ hw hx) (waveFlux_lt hγ hw hx hy)

/-- The base of the first pressure. -/
noncomputable def startBase (γ : ℝ) (wL wR : Prim) : ℝ :=
  (wL.c γ + wR.c γ - (γ - 1) / 2 * (wR.v - wL.v)) / (wL.c γ / wL.p ^ isoExp γ + wR.c γ / wR.p ^ isoExp γ)

omit hL hR in
lemma inv_isoExp : 1 / isoExp γ = 2 * γ / (γ - 1) := by
  unfold isoExp
  rw [one_div_div]

open Classical in
lemma pmStart_cons : pmStart γ Lc Rc =
    if startBase γ wL wR < 0 ∧ ¬ ∃ n : ℤ, 1 / isoExp γ = n then none else some (twoExpansionPressure γ wL wR) := by
  unfold pmStart
  rw [v_cons γ hL.1.ne', v_cons γ hR.1.ne', p_cons hγ hL.1.ne', p_cons hγ hR.1.ne',
    a_cons hγ hL.1.ne', a_cons hγ hR.1.ne']
  have hγ0 : 0 < γ := by linarith
  have e : (1 - γ) / γ * (1 / 2) = -isoExp γ := by unfold isoExp; field_simp; ring
  have hb : (1 / 2 * (wL.v - wR.v) * (γ - 1) + wL.c γ + wR.c γ) /
      (wL.c γ * wL.p ^ ((1 - γ) / γ * (1 / 2)) + wR.c γ * wR.p ^ ((1 - γ) / γ * (1 / 2))) = startBase γ wL wR := by
    unfold startBase
    rw [e, Real.rpow_neg hL.2.le, Real.rpow_neg hR.2.le, ← div_eq_mul_inv, ← div_eq_mul_inv]
    congr 1
    ring
  simp only [hb, ← inv_isoExp hγ]
  rfl

lemma startDen_pos : 0 < wL.c γ / wL.p ^ isoExp γ + wR.c γ / wR.p ^ isoExp γ := by
  have h1 := c_pos hγ hL
  have h2 := c_pos hγ hR
  have h3 := Real.rpow_pos_of_pos hL.2 (isoExp γ)
  have h4 := Real.rpow_pos_of_pos hR.2 (isoExp γ)
  positivity

/-- The jump of velocity at which vacuum appears. -/
noncomputable def vacuumJump (γ : ℝ) (wL wR : Prim) : ℝ := 2 / (γ - 1) * (wL.c γ + wR.c γ)

lemma startBase_pos : 0 < startBase γ wL wR ↔ wR.v - wL.v < vacuumJump γ wL wR := by
  have hγ1 : 0 < γ - 1 := by linarith
  unfold startBase vacuumJump
  rw [div_pos_iff_of_pos_right (startDen_pos hγ hL hR), div_mul_eq_mul_div 2, lt_div_iff₀ hγ1]
  constructor <;> intro h <;> linarith

lemma startBase_neg : startBase γ wL wR < 0 ↔ vacuumJump γ wL wR < wR.v - wL.v := by
  have hγ1 : 0 < γ - 1 := by linarith
  have hd := startDen_pos hγ hL hR
  unfold startBase vacuumJump
  rw [div_lt_iff₀ hd, zero_mul, div_mul_eq_mul_div 2, div_lt_iff₀ hγ1]
  constructor <;> intro h <;> linarith

lemma quot_zero : wL.p / waveFlux γ wL 0 + wR.p / waveFlux γ wR 0 = vacuumJump γ wL wR := by
  rw [waveFlux_zero hγ hL, waveFlux_zero hγ hR]
  unfold vacuumJump
  ring

/-- At the two-expansion pressure the two expansion jumps add up to the jump of velocity. -/
lemma jump_sum (h : wR.v - wL.v < vacuumJump γ wL wR) : 0 < twoExpansionPressure γ wL wR ∧
    expansionJump γ wL (twoExpansionPressure γ wL wR) + expansionJump γ wR (twoExpansionPressure γ wL wR) = wR.v - wL.v := by
  have hb := (startBase_pos hγ hL hR).mpr h
  have hg := isoExp_pos hγ
  have hp : twoExpansionPressure γ wL wR = startBase γ wL wR ^ (1 / isoExp γ) := rfl
  have hpos : 0 < twoExpansionPressure γ wL wR := by rw [hp]; exact Real.rpow_pos_of_pos hb _
  refine ⟨hpos, ?_⟩
  have hpow : twoExpansionPressure γ wL wR ^ isoExp γ = startBase γ wL wR := by
    rw [hp, ← Real.rpow_mul hb.le, one_div_mul_cancel hg.ne', Real.rpow_one]
  have h3 := Real.rpow_pos_of_pos hL.2 (isoExp γ)
  have h4 := Real.rpow_pos_of_pos hR.2 (isoExp γ)
  have hd := startDen_pos hγ hL hR
  have hγ1 : γ - 1 ≠ 0 := by linarith
  unfold expansionJump
  rw [Real.div_rpow hpos.le hL.2.le, Real.div_rpow hpos.le hR.2.le, hpow]
  have hb2 : startBase γ wL wR * (wL.c γ / wL.p ^ isoExp γ + wR.c γ / wR.p ^ isoExp γ) =
      wL.c γ + wR.c γ - (γ - 1) / 2 * (wR.v - wL.v) := by
    unfold startBase
    rw [div_mul_cancel₀ _ hd.ne']
  generalize wL.p ^ isoExp γ = a at *
  generalize wR.p ^ isoExp γ = b at *
  generalize startBase γ wL wR = B at *
  have : 2 * wL.c γ / (γ - 1) * (1 - B / a) + 2 * wR.c γ / (γ - 1) * (1 - B / b) =
      2 / (γ - 1) * (wL.c γ + wR.c γ - B * (wL.c γ / a + wR.c γ / b)) := by
    field_simp
    ring
  rw [this, hb2]
  field_simp
  ring

/-- The iterates from any start. -/
noncomputable def iter (γ : ℝ) (wL wR : Prim) (x : ℝ) (j : ℕ) : ℝ := (pressureMap γ wL wR)^[j] x

omit hγ hL hR in
lemma iter_succ (x : ℝ) (j : ℕ) : iter γ wL wR x (j + 1) = pressureMap γ wL wR (iter γ wL wR x j) :=
  Function.iterate_succ_apply' _ _ _

omit hγ hL hR in
lemma iter_shift (x : ℝ) (j : ℕ) : iter γ wL wR (pressureMap γ wL wR x) j = iter γ wL wR x (j + 1) := rfl

omit hγ hL hR in
lemma pressureIter_eq (j : ℕ) : pressureIter γ wL wR j = iter γ wL wR (twoExpansionPressure γ wL wR) j := by
  induction j with
  | zero => rfl
  | succ j ih => rw [iter_succ, ← ih]; rfl

/-- Below the onset of vacuum every converged pressure is positive. -/
lemma iter_pos (h : wR.v - wL.v < vacuumJump γ wL wR) (j : ℕ) (h0 : ∀ i ≤ j, 0 ≤ pressureIter γ wL wR i)
    (h1 : |pressureIter γ wL wR (j + 1) - pressureIter γ wL wR j| < 1 / 10 ^ 6)
    (h2 : ∀ i < j, 1 / 10 ^ 6 ≤ |pressureIter γ wL wR (i + 1) - pressureIter γ wL wR i|) :
    0 < pressureIter γ wL wR (j + 1) := by
  cases j with
  | zero =>
    obtain ⟨hp, hs⟩ := jump_sum hγ hL hR h
    show 0 < pressureMap γ wL wR (twoExpansionPressure γ wL wR)
    rw [pressureMap_pos hγ hL hR hp.le, ← hs]
    exact add_lt_add (jump_lt hγ hL hp) (jump_lt hγ hR hp)
  | succ j =>
    by_contra hy
    push Not at hy
    have hw0 := h0 j (by omega)
    have hx0 := h0 (j + 1) le_rfl
    have hd := h2 j (by omega)
    have hxe : pressureIter γ wL wR (j + 1) = pressureMap γ wL wR (pressureIter γ wL wR j) := rfl
    have hye : pressureIter γ wL wR (j + 1 + 1) = pressureMap γ wL wR (pressureIter γ wL wR (j + 1)) := rfl
    generalize pressureIter γ wL wR (j + 1 + 1) = y at *
    generalize pressureIter γ wL wR (j + 1) = x at *
    generalize pressureIter γ wL wR j = w at *
    rw [abs_lt] at h1
    have hxs : x < 1 / 10 ^ 6 := by linarith
    have hw : 2 * x < w := by
      rcases le_abs.mp hd with hd | hd <;> linarith
    have a1 : wL.p / waveFlux γ wL x + wR.p / waveFlux γ wR x ≤ wR.v - wL.v := by
      by_contra hc
      push Not at hc
      have := (pressureMap_pos hγ hL hR hx0).mpr hc
      linarith
    have a2 := (pressureMap_nonneg hγ hL hR hw0).mp (by rw [← hxe]; exact hx0)
    have b1 := quot_lt hγ hL hx0 hw
    have b2 := quot_lt hγ hR hx0 hw
    linarith

/-- The loop on a NaN. -/
lemma pmLoop_none (n k : ℕ) (hn : n + k = 102) (hk : k ≤ 100) : pmLoop γ Lc Rc n k none = .error noConvergence := by
  induction n generalizing k with
  | zero => omega
  | succ n ih =>
    unfold pmLoop
    simp only [Option.bind_none]
    rw [if_neg (show ¬ Converged none none from id)]
    split_ifs with h
    · rfl
    · exact ih (k + 1) (by omega) (by omega)

/-- The loop on a number: either the first pair of iterates closer than the tolerance, or the exit. -/
lemma pmLoop_some (n k : ℕ) (hn : n + k = 102) (hk : k ≤ 100) (x : ℝ) :
    (∃ j, k + j ≤ 100 ∧ (∀ i ≤ j, 0 ≤ iter γ wL wR x i) ∧ |iter γ wL wR x (j + 1) - iter γ wL wR x j| < 1 / 10 ^ 6 ∧
      (∀ i < j, 1 / 10 ^ 6 ≤ |iter γ wL wR x (i + 1) - iter γ wL wR x i|) ∧
      pmLoop γ Lc Rc n k (some x) = .ok (some (iter γ wL wR x (j + 1)))) ∨
    ((∀ j, k + j ≤ 100 → (∀ i ≤ j, 0 ≤ iter γ wL wR x i) → 1 / 10 ^ 6 ≤ |iter γ wL wR x (j + 1) - iter γ wL wR x j|) ∧
      pmLoop γ Lc Rc n k (some x) = .error noConvergence) := by
  induction n generalizing k x with
  | zero => omega
  | succ n ih =>
    unfold pmLoop
    by_cases hx : x < 0
    · rw [show (some x).bind (pmNext γ Lc Rc) = none from pmNext_neg hx]
      simp only
      rw [if_neg (show ¬ Converged (some x) none from id)]
      right
      refine ⟨fun j _ hj => ?_, ?_⟩
      · have := hj 0 (by omega)
        exact absurd hx (not_lt.mpr this)
      · split_ifs with h
        · rfl
        · exact pmLoop_none hγ hL hR n (k + 1) (by omega) (by omega)
    · push Not at hx
      rw [show (some x).bind (pmNext γ Lc Rc) = some (pressureMap γ wL wR x) from pmNext_cons hγ hL hR hx]
      simp only
      by_cases hc : Converged (some x) (some (pressureMap γ wL wR x))
      · rw [if_pos hc]
        left
        refine ⟨0, by omega, fun i hi => ?_, hc, fun i hi => by omega, rfl⟩
        obtain rfl : i = 0 := by omega
        exact hx
      · rw [if_neg hc]
        by_cases hk1 : k + 1 > 100
        · rw [if_pos hk1]
          right
          refine ⟨fun j hj _ => ?_, rfl⟩
          obtain rfl : j = 0 := by omega
          exact not_lt.mp hc
        · rw [if_neg hk1]
          rcases ih (k + 1) (by omega) (by omega) (pressureMap γ wL wR x) with ⟨j, j1, j2, j3, j4, j5⟩ | ⟨j1, j2⟩
          · left
            refine ⟨j + 1, by omega, fun i hi => ?_, j3, fun i hi => ?_, j5⟩
            · cases i with
              | zero => exact hx
              | succ i => exact j2 i (by omega)
            · cases i with
              | zero => exact not_lt.mp hc
              | succ i => exact j4 i (by omega)
          · right
            refine ⟨fun j hj h0 => ?_, j2⟩
            cases j with
            | zero => exact not_lt.mp hc
            | succ j => exact j1 j (by omega) fun i hi => h0 (i + 1) (by omega)

/-! ### Sampling -/

omit hγ hL hR in
lemma godunovFlux_eq {r : ℝ} (hr : r ≠ 0) (hγ1 : γ - 1 ≠ 0) (v P : ℝ) :
    vecOf (godunovFlux γ r (r * v) (P / (γ - 1) + 1 / 2 * r * v * v)) = Prim.flux γ ⟨r, v, P⟩ := by
  have hp : (γ - 1) * (P / (γ - 1) + 1 / 2 * r * v * v - 1 / 2 * (r * v) * (r * v) / r) = P := by field_simp; ring
  unfold godunovFlux Prim.flux Prim.energy
  rw [hp]
  simp only [vecOf]
  funext k
  fin_cases k
  · simp
  · simp; field_simp
  · simp; field_simp

lemma starVelocity_cons {P : ℝ} : starVelocity γ Lc Rc P = starV γ wL wR P := by
  unfold starVelocity starV
  rw [v_cons γ hL.1.ne', v_cons γ hR.1.ne', p_cons hγ hL.1.ne', p_cons hγ hR.1.ne',
    a_cons hγ hL.1.ne', a_cons hγ hR.1.ne']
  show ((massflux γ wL.rho (wL.c γ) wL.p P * _ + massflux γ wR.rho (wR.c γ) wR.p P * _ - _) /
    (massflux γ wL.rho (wL.c γ) wL.p P + massflux γ wR.rho (wR.c γ) wR.p P)) = _
  rw [massflux_eq hγ hL, massflux_eq hγ hR]

omit hL hR in
/-- The sonic state of the code is the sonic point of the specification. -/
lemma sonic_eq {w s : Prim} (σ : ℝ) (hne : s.v + σ * s.c γ ≠ w.v + σ * w.c γ) :
    sonic γ w.v (w.c γ) w.p s.v (s.c γ) (w.v + σ * w.c γ) (s.v + σ * s.c γ) =
      ((sonicPoint γ σ w s).rho, (sonicPoint γ σ w s).rho * (sonicPoint γ σ w s).v,
        (sonicPoint γ σ w s).p / (γ - 1) + 1 / 2 * (sonicPoint γ σ w s).rho * (sonicPoint γ σ w s).v * (sonicPoint γ σ w s).v) := by
  have hd : s.v + σ * s.c γ - (w.v + σ * w.c γ) ≠ 0 := sub_ne_zero.mpr hne
  unfold sonic sonicPoint
  simp only
  have hc : (s.v + σ * s.c γ) / (s.v + σ * s.c γ - (w.v + σ * w.c γ)) * w.c γ +
      -(w.v + σ * w.c γ) / (s.v + σ * s.c γ - (w.v + σ * w.c γ)) * s.c γ =
      ((s.v + σ * s.c γ) * w.c γ - (w.v + σ * w.c γ) * s.c γ) / (s.v + σ * s.c γ - (w.v + σ * w.c γ)) := by
    field_simp; ring
  have hv : (s.v + σ * s.c γ) / (s.v + σ * s.c γ - (w.v + σ * w.c γ)) * w.v +
      -(w.v + σ * w.c γ) / (s.v + σ * s.c γ - (w.v + σ * w.c γ)) * s.v =
      -σ * (((s.v + σ * s.c γ) * w.c γ - (w.v + σ * w.c γ) * s.c γ) / (s.v + σ * s.c γ - (w.v + σ * w.c γ))) := by
    field_simp; ring
  rw [hc, hv, ← inv_isoExp hγ]
  generalize ((s.v + σ * s.c γ) * w.c γ - (w.v + σ * w.c γ) * s.c γ) / (s.v + σ * s.c γ - (w.v + σ * w.c γ)) = c
  rw [mul_comm w.p, sq]

omit hL hR in
lemma sonicPoint_pos {w s : Prim} (hw : w.Phys) (hs : s.Phys) (σ : ℝ)
    (h : (w.v + σ * w.c γ < 0 ∧ 0 < s.v + σ * s.c γ) ∨ (0 < w.v + σ * w.c γ ∧ s.v + σ * s.c γ < 0)) :
    0 < ((s.v + σ * s.c γ) * w.c γ - (w.v + σ * w.c γ) * s.c γ) / (s.v + σ * s.c γ - (w.v + σ * w.c γ)) ∧
    0 < (sonicPoint γ σ w s).rho ∧ 0 < (sonicPoint γ σ w s).p := by
  have h1 := c_pos hγ hw
  have h2 := c_pos hγ hs
  have hγ0 : 0 < γ := by linarith
  have hp := hw.2
  have hc : 0 < ((s.v + σ * s.c γ) * w.c γ - (w.v + σ * w.c γ) * s.c γ) / (s.v + σ * s.c γ - (w.v + σ * w.c γ)) := by
    rcases h with ⟨a, b⟩ | ⟨a, b⟩
    · exact div_pos (by nlinarith [mul_pos b h1, mul_pos (neg_pos.mpr a) h2]) (by linarith)
    · exact div_pos_of_neg_of_neg (by nlinarith [mul_pos (neg_pos.mpr b) h1, mul_pos a h2]) (by linarith)
  refine ⟨hc, ?_⟩
  unfold sonicPoint
  simp only
  generalize ((s.v + σ * s.c γ) * w.c γ - (w.v + σ * w.c γ) * s.c γ) / (s.v + σ * s.c γ - (w.v + σ * w.c γ)) = c at *
  have := Real.rpow_pos_of_pos (div_pos hc h1) (1 / isoExp γ)
  constructor <;> positivity

/-- The state the code samples gives the flux of the specified interface state. -/
lemma godunovState_cons (h1 : wL.v < wL.c γ) (h2 : -wR.c γ < wR.v) {P : ℝ} (hP : 0 < P) :
    ∃ r U2 U3, godunovState γ Lc Rc P = (r, some (U2, U3)) ∧ vecOf (godunovFlux γ r U2 U3) = (interfaceState γ wL wR P).flux γ := by
  have hγ1 : γ - 1 ≠ 0 := by linarith
  have hsL : (behind γ wL (starV γ wL wR P) P).Phys := ⟨waveRho_pos hγ hL hP, hP⟩
  have hsR : (behind γ wR (starV γ wL wR P) P).Phys := ⟨waveRho_pos hγ hR hP, hP⟩
  unfold godunovState
  rw [starVelocity_cons hγ hL hR, p_cons hγ hL.1.ne', p_cons hγ hR.1.ne']
  rw [show starDensity γ (Lc).rho wL.p P = waveRho γ wL P from starDensity_eq hγ hL P hP,
    show starDensity γ (Rc).rho wR.p P = waveRho γ wR P from starDensity_eq hγ hR P hP]
  unfold sampleStar interfaceState
  rw [v_cons γ hL.1.ne', v_cons γ hR.1.ne', p_cons hγ hL.1.ne', p_cons hγ hR.1.ne', a_cons hγ hL.1.ne', a_cons hγ hR.1.ne']
  have eL : √(γ * P / waveRho γ wL P) = (behind γ wL (starV γ wL wR P) P).c γ := rfl
  have eR : √(γ * P / waveRho γ wR P) = (behind γ wR (starV γ wL wR P) P).c γ := rfl
  have cL := c_pos hγ hsL
  have cR := c_pos hγ hsR
  simp only [eL, eR]
  have vL : (behind γ wL (starV γ wL wR P) P).v = starV γ wL wR P := rfl
  have vR : (behind γ wR (starV γ wL wR P) P).v = starV γ wL wR P := rfl
  have rL : (behind γ wL (starV γ wL wR P) P).rho = waveRho γ wL P := rfl
  have rR : (behind γ wR (starV γ wL wR P) P).rho = waveRho γ wR P := rfl
  by_cases g1 : 0 < starV γ wL wR P - (behind γ wL (starV γ wL wR P) P).c γ
  · rw [if_pos g1, if_neg (fun h => absurd h.1 (not_le.mpr g1)), if_pos ⟨g1, by linarith⟩]
    have e := sonic_eq hγ (w := wL) (s := behind γ wL (starV γ wL wR P) P) (-1)
      (by rw [vL]; exact ne_of_gt (by linarith))
    rw [vL, show wL.v + -1 * wL.c γ = wL.v - wL.c γ by ring,
      show starV γ wL wR P + -1 * (behind γ wL (starV γ wL wR P) P).c γ =
        starV γ wL wR P - (behind γ wL (starV γ wL wR P) P).c γ by ring] at e
    rw [e]
    obtain ⟨_, hr, _⟩ := sonicPoint_pos hγ hL hsL (-1) (.inl ⟨by linarith, by rw [vL]; linarith⟩)
    exact ⟨_, _, _, rfl, godunovFlux_eq hr.ne' hγ1 _ _⟩
  rw [if_neg g1]
  by_cases g2 : starV γ wL wR P + (behind γ wR (starV γ wL wR P) P).c γ < 0
  · rw [if_pos g2, if_neg (fun h => absurd h.2 (not_le.mpr g2)), if_neg (fun h => g1 h.1), if_pos ⟨g2, by linarith⟩]
    have e := sonic_eq hγ (w := wR) (s := behind γ wR (starV γ wL wR P) P) 1
      (by rw [vR]; exact ne_of_lt (by linarith))
    rw [vR, one_mul, one_mul] at e
    rw [e]
    obtain ⟨_, hr, _⟩ := sonicPoint_pos hγ hR hsR 1 (.inr ⟨by linarith, by rw [vR]; linarith⟩)
    exact ⟨_, _, _, rfl, godunovFlux_eq hr.ne' hγ1 _ _⟩
  rw [if_neg g2, if_pos ⟨not_lt.mp g1, not_lt.mp g2⟩]
  refine ⟨_, _, _, rfl, ?_⟩
  by_cases g3 : 0 ≤ starV γ wL wR P
  · rw [if_pos g3, if_pos g3, godunovFlux_eq (by rw [← rL]; exact hsL.1.ne') hγ1]
    rfl
  · rw [if_neg g3, if_neg g3, godunovFlux_eq (by rw [← rR]; exact hsR.1.ne') hγ1]
    rfl

/-! ### One interface -/

lemma godunov1_guard : ¬ ¬ (0 < (Lc).rho ∧ 0 < (Lc).p γ ∧ 0 < (Rc).rho ∧ 0 < (Rc).p γ) := by
  rw [p_cons hγ hL.1.ne', p_cons hγ hR.1.ne']
  exact not_not.mpr ⟨hL.1, hL.2, hR.1, hR.2⟩

lemma superL_iff : (Lc).v / (Lc).a γ ≥ 1 ↔ wL.c γ ≤ wL.v := by
  rw [v_cons γ hL.1.ne', a_cons hγ hL.1.ne', ge_iff_le, le_div_iff₀ (c_pos hγ hL), one_mul]

lemma superR_iff : (Rc).v / (Rc).a γ ≤ -1 ↔ wR.v ≤ -wR.c γ := by
  rw [v_cons γ hR.1.ne', a_cons hγ hR.1.ne', div_le_iff₀ (c_pos hγ hR), neg_one_mul]

lemma godunov1_left (h : wL.c γ ≤ wL.v) (last : Option (ℝ × ℝ)) : ∃ f, godunov1 γ Lc Rc last = .ok (f, last) ∧ vecOf f = wL.flux γ := by
  unfold godunov1
  rw [if_neg (godunov1_guard hγ hL hR), if_pos ((superL_iff hγ hL hR).mpr h)]
  refine ⟨_, rfl, ?_⟩
  rw [← flux_cons hγ hL.1.ne']
  unfold flux1
  rw [v_cons γ hL.1.ne']
  rfl

lemma godunov1_right (h0 : wL.v < wL.c γ) (h : wR.v ≤ -wR.c γ) (last : Option (ℝ × ℝ)) :
    ∃ f, godunov1 γ Lc Rc last = .ok (f, last) ∧ vecOf f = wR.flux γ := by
  unfold godunov1
  rw [if_neg (godunov1_guard hγ hL hR), if_neg (by rw [superL_iff hγ hL hR]; exact not_le.mpr h0),
    if_pos ((superR_iff hγ hL hR).mpr h)]
  refine ⟨_, rfl, ?_⟩
  rw [← flux_cons hγ hR.1.ne']
  unfold flux1
  rw [v_cons γ hR.1.ne']
  rfl

lemma godunov1_middle (h1 : wL.v < wL.c γ) (h2 : -wR.c γ < wR.v) (last : Option (ℝ × ℝ)) :
    (∀ P, pmLoop γ Lc Rc 102 0 (pmStart γ Lc Rc) = .ok (some P) → 0 < P →
      ∃ f U, godunov1 γ Lc Rc last = .ok (f, U) ∧ vecOf f = (interfaceState γ wL wR P).flux γ) ∧
    (∀ P, pmLoop γ Lc Rc 102 0 (pmStart γ Lc Rc) = .ok (some P) → P ≤ 0 →
      godunov1 γ Lc Rc last = .error (if last = none then .unboundLocal else .notReal)) ∧
    (∀ e, pmLoop γ Lc Rc 102 0 (pmStart γ Lc Rc) = .error e → godunov1 γ Lc Rc last = .error e) := by
  unfold godunov1
  rw [if_neg (godunov1_guard hγ hL hR), if_neg (by rw [superL_iff hγ hL hR]; exact not_le.mpr h1),
    if_neg (by rw [superR_iff hγ hL hR]; exact not_le.mpr h2)]
  refine ⟨fun P hP hpos => ?_, fun P hP hneg => ?_, fun er hP => ?_⟩
  · rw [hP]
    simp only
    rw [if_neg (not_le.mpr hpos)]
    obtain ⟨r, U2, U3, hs, hf⟩ := godunovState_cons hγ hL hR h1 h2 hpos
    rw [hs]
    exact ⟨_, _, rfl, hf⟩
  · rw [hP]
    simp only
    rw [if_pos hneg]
    cases last <;> simp
  · rw [hP]

end iteration

end Dg1d.Euler
