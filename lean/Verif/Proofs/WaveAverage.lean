import Verif.Proofs.WaveMode

/-! Helper lemmas for C103: sizes of the integrals of the wave for small eigenvalues. -/

open Polynomial

namespace Dg1d.Spec

lemma rampDefect_bound (p : ℕ) : ∃ K : ℝ, 0 ≤ K ∧ ∀ μ : ℂ, ‖μ‖ ≤ 1 → ‖rampDefect p μ‖ ≤ K * ‖μ‖ ^ p := by
  have hcR := cont_poly (leftEnd p)
  obtain ⟨B, hB⟩ : ∃ B : ℝ, ∀ ξ ∈ Set.Icc (-1 : ℝ) 1, ‖(leftEnd p).eval (ξ : ℂ)‖ ≤ B := isCompact_Icc.exists_bound_of_continuousOn hcR.continuousOn
  have hB0 : 0 ≤ B := (norm_nonneg _).trans (hB 0 (by norm_num))
  refine ⟨4 * (Real.exp 1 * B), by positivity, fun μ hμ => ?_⟩
  set T : ℂ[X] := ∑ m ∈ Finset.range p, C (μ ^ m / (m.factorial : ℂ)) * X ^ m with hT
  set tail : ℝ → ℂ := fun ξ => Complex.exp (μ * ξ) - T.eval (ξ : ℂ) with htail
  have hTe : ∀ ξ : ℝ, T.eval (ξ : ℂ) = ∑ m ∈ Finset.range p, (μ * ξ) ^ m / (m.factorial : ℂ) := by
    intro ξ
    rw [hT, eval_finsetSum]
    refine Finset.sum_congr rfl fun m _ => ?_
    rw [eval_mul, eval_C, eval_pow, eval_X, mul_pow]
    ring
  have htb : ∀ ξ ∈ Set.Icc (-1 : ℝ) 1, ‖tail ξ‖ ≤ ‖μ‖ ^ p * Real.exp 1 := by
    intro ξ hξ
    have hx : ‖μ * ξ‖ ≤ ‖μ‖ := by
      rw [norm_mul, Complex.norm_real, Real.norm_eq_abs]
      exact mul_le_of_le_one_right (norm_nonneg _) (abs_le.mpr hξ)
    simp only [htail]
    rw [hTe]
    refine (Complex.norm_exp_sub_sum_le_norm_mul_exp _ p).trans ?_
    exact mul_le_mul (pow_le_pow_left₀ (norm_nonneg _) hx _) (Real.exp_le_exp.mpr (hx.trans hμ)) (Real.exp_pos _).le (by positivity)
  have cT := cont_poly T
  have ctail : Continuous tail := by
    simp only [htail]
    fun_prop
  have hdeg : ((X + 1) * T).degree < ((p + 1 : ℕ) : WithBot ℕ) := by
    rcases Nat.eq_zero_or_pos p with rfl | hp
    · simp [hT]
    have h1 : T.natDegree ≤ p - 1 := by
      rw [hT]
      refine natDegree_sum_le_of_forall_le _ _ fun m hm => (natDegree_C_mul_X_pow_le _ _).trans ?_
      have := Finset.mem_range.mp hm
      omega
    have h2 : ((X + 1) * T).natDegree ≤ p := by
      have h3 : (X + 1 : ℂ[X]).natDegree ≤ 1 := by
        have := natDegree_X_add_C (1 : ℂ)
        rw [C_1] at this
        exact this.le
      exact natDegree_mul_le.trans (by omega)
    exact lt_of_le_of_lt degree_le_natDegree (by exact_mod_cast Nat.lt_succ_of_le h2)
  have hz : ∫ ξ in (-1 : ℝ)..1, ((ξ : ℂ) + 1) * (T.eval (ξ : ℂ) * (leftEnd p).eval (ξ : ℂ)) = 0 := by
    have h1 := leftEnd_eval ((X + 1) * T) hdeg
    rw [← integral_poly, eval_mul, eval_add, eval_X, eval_one, neg_add_cancel, zero_mul] at h1
    rw [← h1]
    refine intervalIntegral.integral_congr fun ξ _ => ?_
    simp only [eval_mul, eval_add, eval_X, eval_one]
    ring
  have hsplit : rampDefect p μ = ∫ ξ in (-1 : ℝ)..1, ((ξ : ℂ) + 1) * (tail ξ * (leftEnd p).eval (ξ : ℂ)) := by
    unfold rampDefect
    rw [← sub_zero (∫ ξ in (-1 : ℝ)..1, ((ξ : ℂ) + 1) * (Complex.exp (μ * ξ) * (leftEnd p).eval (ξ : ℂ))), ← hz, ← intervalIntegral.integral_sub]
    · refine intervalIntegral.integral_congr fun ξ _ => ?_
      simp only [htail]
      ring
    · exact Continuous.intervalIntegrable (by fun_prop) _ _
    · exact Continuous.intervalIntegrable (by fun_prop) _ _
  rw [hsplit]
  have hint : ‖∫ ξ in (-1 : ℝ)..1, ((ξ : ℂ) + 1) * (tail ξ * (leftEnd p).eval (ξ : ℂ))‖ ≤ 2 * (‖μ‖ ^ p * Real.exp 1 * B) * |1 - (-1 : ℝ)| := by
    refine intervalIntegral.norm_integral_le_of_norm_le_const fun ξ hξ => ?_
    rw [Set.uIoc_of_le (by norm_num)] at hξ
    have hξ' : ξ ∈ Set.Icc (-1 : ℝ) 1 := ⟨hξ.1.le, hξ.2⟩
    rw [norm_mul, norm_mul]
    have h1 : ‖(ξ : ℂ) + 1‖ ≤ 2 := by
      have : (ξ : ℂ) + 1 = ((ξ + 1 : ℝ) : ℂ) := by push_cast; ring
      rw [this, Complex.norm_real, Real.norm_of_nonneg (by linarith [hξ'.1])]
      linarith [hξ'.2]
    have h2 := htb ξ hξ'
    have h3 := hB ξ hξ'
    gcongr
  refine hint.trans (le_of_eq ?_)
  rw [show |1 - (-1 : ℝ)| = 2 by norm_num]
  ring

lemma expMode_near (p : ℕ) : ∃ K : ℝ, 0 ≤ K ∧ ∀ μ : ℂ, ‖μ‖ ≤ 1 → ∀ ξ ∈ Set.Icc (-1 : ℝ) 1, ‖expMode p μ ξ - Complex.exp μ * jumpDen p μ‖ ≤ K * ‖μ‖ ^ (p + 1) := by
  have hcR := cont_poly (leftEnd p)
  obtain ⟨B, hB⟩ : ∃ B : ℝ, ∀ ξ ∈ Set.Icc (-1 : ℝ) 1, ‖(leftEnd p).eval (ξ : ℂ)‖ ≤ B := isCompact_Icc.exists_bound_of_continuousOn hcR.continuousOn
  have hB0 : 0 ≤ B := (norm_nonneg _).trans (hB 0 (by norm_num))
  refine ⟨2 * (Real.exp 1 * B), by positivity, fun μ hμ ξ hξ => ?_⟩
  have e1 : expMode p μ 1 = Complex.exp μ * jumpDen p μ := by
    unfold expMode
    rw [Complex.ofReal_one, mul_one, modePoly_eval_one]
  rw [← e1]
  have h := Convex.norm_image_sub_le_of_norm_hasDerivWithin_le (f := expMode p μ) (s := Set.Icc (-1 : ℝ) 1) (C := ‖μ‖ ^ (p + 1) * (Real.exp 1 * B))
    (fun x _ => (hasDerivAt_expMode p μ x).hasDerivWithinAt) (fun x hx => ?_) (convex_Icc _ _) (show (1 : ℝ) ∈ Set.Icc (-1 : ℝ) 1 by norm_num) hξ
  · refine h.trans ?_
    have h2 : ‖ξ - 1‖ ≤ 2 := by
      rw [Real.norm_eq_abs, abs_le]
      constructor <;> linarith [hξ.1, hξ.2]
    calc ‖μ‖ ^ (p + 1) * (Real.exp 1 * B) * ‖ξ - 1‖ ≤ ‖μ‖ ^ (p + 1) * (Real.exp 1 * B) * 2 := by gcongr
      _ = _ := by ring
  · rw [norm_mul, norm_neg, norm_pow, norm_neg, norm_mul]
    have h1 : ‖Complex.exp (μ * x)‖ ≤ Real.exp 1 := by
      rw [Complex.norm_exp]
      refine Real.exp_le_exp.mpr ((Complex.re_le_norm _).trans ?_)
      rw [norm_mul, Complex.norm_real, Real.norm_eq_abs]
      exact (mul_le_of_le_one_right (norm_nonneg _) (abs_le.mpr hx)).trans hμ
    have h2 := hB x hx
    gcongr

lemma integral_flip_mode (p : ℕ) (μ : ℂ) : intPoly ((modePoly p μ).comp (-X) * modePoly p μ) = ∫ ξ in (-1 : ℝ)..1, expMode p μ (-ξ) * expMode p μ ξ := by
  rw [← integral_poly]
  refine intervalIntegral.integral_congr fun ξ _ => ?_
  simp only [eval_mul, eval_comp, eval_neg, eval_X]
  unfold expMode
  have h4 : Complex.exp (μ * ((-ξ : ℝ) : ℂ)) * Complex.exp (μ * ξ) = 1 := by
    rw [← Complex.exp_add]
    push_cast
    rw [mul_neg, neg_add_cancel, Complex.exp_zero]
  push_cast at h4 ⊢
  linear_combination -((modePoly p μ).eval (-(ξ : ℂ)) * (modePoly p μ).eval (ξ : ℂ)) * h4

/-- `c(μ)`: the wave is close to `c e^{-μ ξ}`. -/
noncomputable def modeScale (p : ℕ) (μ : ℂ) : ℂ := Complex.exp μ * jumpDen p μ

lemma modeScale_continuous (p : ℕ) : Continuous (modeScale p) := by
  have := jumpDen_continuous p
  unfold modeScale
  fun_prop

/-- The three integrals for small `μ`. -/
lemma mode_integrals (p : ℕ) : ∃ K : ℝ, 0 ≤ K ∧ ∀ μ : ℂ, ‖μ‖ ≤ 1 → μ ≠ 0 →
    ‖intPoly (modePoly p μ) - modeScale p μ * ((Complex.exp μ - Complex.exp (-μ)) / μ)‖ ≤ K * ‖μ‖ ^ (2 * p + 1) ∧
    ‖(∫ ξ in (-1 : ℝ)..1, expMode p μ ξ) - 2 * modeScale p μ‖ ≤ K * ‖μ‖ ^ (2 * p + 1) ∧
    ‖intPoly ((modePoly p μ).comp (-X) * modePoly p μ) - 2 * modeScale p μ ^ 2‖ ≤ K * ‖μ‖ ^ (2 * p + 1) ∧
    ‖modeScale p μ‖ ≤ K := by
  obtain ⟨a, -, K₁, hK₁, hdef⟩ := expDefect_leading p
  obtain ⟨K₂, hK₂, hramp⟩ := rampDefect_bound p
  obtain ⟨K₃, hK₃, hnear⟩ := expMode_near p
  obtain ⟨Kc, hKc⟩ := (isCompact_closedBall (0 : ℂ) 1).exists_bound_of_continuousOn (modeScale_continuous p).continuousOn
  have hKc' : ∀ μ : ℂ, ‖μ‖ ≤ 1 → ‖modeScale p μ‖ ≤ Kc := fun μ hμ => hKc μ (by simpa using hμ)
  have hKc0 : 0 ≤ Kc := (norm_nonneg _).trans (hKc' 0 (by simp))
  refine ⟨Real.exp 1 * (‖a‖ + K₁) + K₂ + (2 * Kc * K₂ + 2 * K₃ ^ 2) + Kc, by positivity, fun μ hμ hμ0 => ?_⟩
  have hexp : ‖Complex.exp μ‖ ≤ Real.exp 1 := by
    rw [Complex.norm_exp]
    exact Real.exp_le_exp.mpr ((Complex.re_le_norm _).trans hμ)
  have hp0 : 0 ≤ ‖μ‖ ^ (2 * p + 1) := by positivity
  have hexp1 : 0 ≤ Real.exp 1 * (‖a‖ + K₁) := by positivity
  have hs3 : 0 ≤ 2 * Kc * K₂ + 2 * K₃ ^ 2 := by positivity
  have hA : ‖(∫ ξ in (-1 : ℝ)..1, expMode p μ ξ) - 2 * modeScale p μ‖ ≤ K₂ * ‖μ‖ ^ (2 * p + 1) := by
    rw [integral_expMode, show 2 * (Complex.exp μ * jumpDen p μ) + (-μ) ^ (p + 1) * rampDefect p μ - 2 * modeScale p μ = (-μ) ^ (p + 1) * rampDefect p μ by
      unfold modeScale; ring, norm_mul, norm_pow, norm_neg]
    calc ‖μ‖ ^ (p + 1) * ‖rampDefect p μ‖ ≤ ‖μ‖ ^ (p + 1) * (K₂ * ‖μ‖ ^ p) := by gcongr; exact hramp μ hμ
      _ = K₂ * ‖μ‖ ^ (2 * p + 1) := by ring
  have up : ∀ x : ℝ, ∀ k : ℝ, x ≤ k * ‖μ‖ ^ (2 * p + 1) → k ≤ Real.exp 1 * (‖a‖ + K₁) + K₂ + (2 * Kc * K₂ + 2 * K₃ ^ 2) + Kc →
      x ≤ (Real.exp 1 * (‖a‖ + K₁) + K₂ + (2 * Kc * K₂ + 2 * K₃ ^ 2) + Kc) * ‖μ‖ ^ (2 * p + 1) :=
    fun x k h1 h2 => h1.trans (mul_le_mul_of_nonneg_right h2 hp0)
  refine ⟨up _ (Real.exp 1 * (‖a‖ + K₁)) ?_ (by linarith), up _ K₂ hA (by linarith), up _ (2 * Kc * K₂ + 2 * K₃ ^ 2) ?_ (by linarith), (hKc' μ hμ).trans (by linarith)⟩
  · have h1 : intPoly (modePoly p μ) - modeScale p μ * ((Complex.exp μ - Complex.exp (-μ)) / μ) = (-μ) ^ p * (Complex.exp μ * expDefect p μ) := by
      have h2 := integral_mode p μ
      have h3 : μ * (intPoly (modePoly p μ) - modeScale p μ * ((Complex.exp μ - Complex.exp (-μ)) / μ)) = μ * ((-μ) ^ p * (Complex.exp μ * expDefect p μ)) := by
        rw [mul_sub, h2]
        unfold modeScale
        rw [pow_succ]
        field_simp
        ring
      exact mul_left_cancel₀ hμ0 h3
    have h4 : ‖expDefect p μ‖ ≤ (‖a‖ + K₁) * ‖μ‖ ^ (p + 1) := by
      have h5 := hdef μ hμ
      have h6 := norm_add_le (expDefect p μ - a * μ ^ (p + 1)) (a * μ ^ (p + 1))
      rw [sub_add_cancel, norm_mul a, norm_pow] at h6
      have h7 : K₁ * ‖μ‖ ^ (p + 2) ≤ K₁ * ‖μ‖ ^ (p + 1) := mul_le_mul_of_nonneg_left (pow_le_pow_of_le_one (norm_nonneg _) hμ (by omega)) hK₁
      linarith
    rw [h1, norm_mul, norm_pow, norm_neg, norm_mul]
    calc ‖μ‖ ^ p * (‖Complex.exp μ‖ * ‖expDefect p μ‖) ≤ ‖μ‖ ^ p * (Real.exp 1 * ((‖a‖ + K₁) * ‖μ‖ ^ (p + 1))) := by gcongr
      _ = _ := by ring
  · rw [integral_flip_mode]
    set c := modeScale p μ with hc
    set y := expMode p μ with hy
    have cy : Continuous y := expMode_continuous p μ
    have cyn : Continuous fun ξ : ℝ => y (-ξ) := cy.comp continuous_neg
    have e1 : ∀ ξ : ℝ, y (-ξ) * y ξ = (c * y ξ + c * y (-ξ) - c ^ 2) + (y ξ - c) * (y (-ξ) - c) := fun ξ => by ring
    have hrem : ‖∫ ξ in (-1 : ℝ)..1, (y ξ - c) * (y (-ξ) - c)‖ ≤ (K₃ * ‖μ‖ ^ (p + 1)) * (K₃ * ‖μ‖ ^ (p + 1)) * |1 - (-1 : ℝ)| := by
      refine intervalIntegral.norm_integral_le_of_norm_le_const fun ξ hξ => ?_
      rw [Set.uIoc_of_le (by norm_num)] at hξ
      rw [norm_mul]
      refine mul_le_mul (hnear μ hμ ξ ⟨hξ.1.le, hξ.2⟩) (hnear μ hμ (-ξ) ⟨by linarith [hξ.2], by linarith [hξ.1]⟩) (norm_nonneg _) (by positivity)
    have hmain : (∫ ξ in (-1 : ℝ)..1, y (-ξ) * y ξ) - 2 * c ^ 2 = 2 * c * ((∫ ξ in (-1 : ℝ)..1, y ξ) - 2 * c) + ∫ ξ in (-1 : ℝ)..1, (y ξ - c) * (y (-ξ) - c) := by
      rw [intervalIntegral.integral_congr (g := fun ξ => (c * y ξ + c * y (-ξ) - c ^ 2) + (y ξ - c) * (y (-ξ) - c)) fun ξ _ => e1 ξ,
        intervalIntegral.integral_add (Continuous.intervalIntegrable (by fun_prop) _ _) (Continuous.intervalIntegrable (by fun_prop) _ _),
        intervalIntegral.integral_sub (Continuous.intervalIntegrable (by fun_prop) _ _) (Continuous.intervalIntegrable (by fun_prop) _ _),
        intervalIntegral.integral_add (Continuous.intervalIntegrable (by fun_prop) _ _) (Continuous.intervalIntegrable (by fun_prop) _ _),
        intervalIntegral.integral_const_mul, intervalIntegral.integral_const_mul, intervalIntegral.integral_comp_neg, intervalIntegral.integral_const, neg_neg]
      rw [show ((1 : ℝ) - -1) • c ^ 2 = 2 * c ^ 2 by rw [Complex.real_smul]; norm_num]
      ring
    rw [hmain]
    refine (norm_add_le _ _).trans ?_
    rw [norm_mul, norm_mul]
    have h2 : ‖(2 : ℂ)‖ = 2 := by norm_num
    rw [h2]
    have hc1 := hKc' μ hμ
    have hpow : ‖μ‖ ^ (p + 1) * ‖μ‖ ^ (p + 1) ≤ ‖μ‖ ^ (2 * p + 1) := by
      rw [← pow_add]
      exact pow_le_pow_of_le_one (norm_nonneg _) hμ (by omega)
    have h3 : 2 * ‖c‖ * ‖(∫ ξ in (-1 : ℝ)..1, y ξ) - 2 * c‖ ≤ 2 * Kc * (K₂ * ‖μ‖ ^ (2 * p + 1)) := by gcongr
    rw [show |1 - (-1 : ℝ)| = 2 by norm_num] at hrem
    have h4 : K₃ ^ 2 * (‖μ‖ ^ (p + 1) * ‖μ‖ ^ (p + 1)) ≤ K₃ ^ 2 * ‖μ‖ ^ (2 * p + 1) := mul_le_mul_of_nonneg_left hpow (by positivity)
    linarith

/-- **The part of the exact wave along the wave of the scheme has the exact average up to order `2p+1`.** -/
lemma mode_average (p : ℕ) : ∃ K r s₀ : ℝ, 0 ≤ K ∧ 0 < r ∧ r ≤ 1 ∧ 0 < s₀ ∧ ∀ μ : ℂ, ‖μ‖ ≤ r → μ ≠ 0 →
    s₀ ≤ ‖intPoly ((modePoly p μ).comp (-X) * modePoly p μ)‖ ∧
    ‖intPoly (modePoly p μ) * (∫ ξ in (-1 : ℝ)..1, expMode p μ ξ) - (Complex.exp μ - Complex.exp (-μ)) / μ * intPoly ((modePoly p μ).comp (-X) * modePoly p μ)‖ ≤
      K * ‖μ‖ ^ (2 * p + 1) := by
  obtain ⟨K, hK, hb⟩ := mode_integrals p
  have hc0 : 0 < ‖modeScale p 0‖ := by
    rw [norm_pos_iff]
    unfold modeScale
    exact mul_ne_zero (Complex.exp_ne_zero _) (jumpDen_zero p)
  set d := ‖modeScale p 0‖ with hd
  obtain ⟨r₀, hr₀, hcont⟩ := Metric.continuousAt_iff.mp (modeScale_continuous p).continuousAt (d / 2) (by positivity)
  refine ⟨K * (4 * Real.exp 1) * K + K * (2 * K + K) + 4 * Real.exp 1 * K, min (min (r₀ / 2) 1) (d ^ 2 / (4 * (K + 1))), d ^ 2 / 4, by positivity, by positivity, (min_le_left _ _).trans (min_le_right _ _), by positivity, fun μ hμ hμ0 => ?_⟩
  have hμ1 : ‖μ‖ ≤ 1 := hμ.trans ((min_le_left _ _).trans (min_le_right _ _))
  have hμ2 : ‖μ‖ < r₀ := lt_of_le_of_lt (hμ.trans ((min_le_left _ _).trans (min_le_left _ _))) (by linarith)
  obtain ⟨h1, h2, h3, h4⟩ := hb μ hμ1 hμ0
  have hlow : d / 2 ≤ ‖modeScale p μ‖ := by
    have hc := hcont (x := μ) (by rwa [dist_zero_right])
    rw [dist_eq_norm] at hc
    have := norm_sub_norm_le (modeScale p 0) (modeScale p μ)
    rw [norm_sub_rev] at this
    linarith
  have hpow : ‖μ‖ ^ (2 * p + 1) ≤ ‖μ‖ := by
    calc ‖μ‖ ^ (2 * p + 1) ≤ ‖μ‖ ^ 1 := pow_le_pow_of_le_one (norm_nonneg _) hμ1 (by omega)
      _ = ‖μ‖ := pow_one _
  set c := modeScale p μ with hc
  set S := intPoly ((modePoly p μ).comp (-X) * modePoly p μ) with hS
  set A := ∫ ξ in (-1 : ℝ)..1, expMode p μ ξ with hA
  set M := intPoly (modePoly p μ) with hM
  set σ := (Complex.exp μ - Complex.exp (-μ)) / μ with hσ
  constructor
  · have h5 : K * ‖μ‖ ^ (2 * p + 1) ≤ d ^ 2 / 4 := by
      have := hμ.trans (min_le_right _ _)
      rw [le_div_iff₀ (by positivity)] at this
      nlinarith [norm_nonneg μ]
    have h6 := norm_sub_norm_le (2 * c ^ 2) S
    rw [norm_sub_rev, norm_mul, norm_pow, show ‖(2 : ℂ)‖ = 2 by norm_num] at h6
    have h7 : (d / 2) ^ 2 ≤ ‖c‖ ^ 2 := pow_le_pow_left₀ (by positivity) hlow 2
    nlinarith
  · have hσb : ‖σ‖ ≤ 4 * Real.exp 1 := by
      have e1 : ∀ x : ℂ, ‖x‖ ≤ 1 → ‖Complex.exp x - 1‖ ≤ 2 * ‖x‖ := by
        intro x hx
        have := Complex.norm_exp_sub_one_sub_id_le hx
        have h8 := norm_add_le (Complex.exp x - 1 - x) x
        rw [sub_add_cancel] at h8
        nlinarith [norm_nonneg x]
      have h9 : ‖Complex.exp μ - Complex.exp (-μ)‖ ≤ 4 * ‖μ‖ := by
        have := norm_sub_le (Complex.exp μ - 1) (Complex.exp (-μ) - 1)
        rw [sub_sub_sub_cancel_right] at this
        have a1 := e1 μ hμ1
        have a2 := e1 (-μ) (by rwa [norm_neg])
        rw [norm_neg] at a2
        linarith
      rw [hσ, norm_div]
      have h10 : ‖Complex.exp μ - Complex.exp (-μ)‖ / ‖μ‖ ≤ 4 := by
        rw [div_le_iff₀ (norm_pos_iff.mpr hμ0)]
        exact h9
      have : (1 : ℝ) ≤ Real.exp 1 := Real.one_le_exp (by norm_num)
      linarith
    have hid : M * A - σ * S = c * σ * (A - 2 * c) + (M - c * σ) * A - σ * (S - 2 * c ^ 2) := by ring
    have hAb : ‖A‖ ≤ 2 * K + K := by
      have := norm_add_le (A - 2 * c) (2 * c)
      rw [sub_add_cancel, norm_mul, show ‖(2 : ℂ)‖ = 2 by norm_num] at this
      have h11 : K * ‖μ‖ ^ (2 * p + 1) ≤ K * 1 := mul_le_mul_of_nonneg_left (hpow.trans hμ1) hK
      linarith
    have hP : 0 ≤ ‖μ‖ ^ (2 * p + 1) := by positivity
    rw [hid]
    refine (norm_sub_le _ _).trans ((add_le_add (norm_add_le _ _) le_rfl).trans ?_)
    rw [norm_mul, norm_mul, norm_mul, norm_mul]
    have b1 : ‖c‖ * ‖σ‖ * ‖A - 2 * c‖ ≤ K * (4 * Real.exp 1) * (K * ‖μ‖ ^ (2 * p + 1)) := by gcongr
    have b2 : ‖M - c * σ‖ * ‖A‖ ≤ (K * ‖μ‖ ^ (2 * p + 1)) * (2 * K + K) := by gcongr
    have b3 : ‖σ‖ * ‖S - 2 * c ^ 2‖ ≤ 4 * Real.exp 1 * (K * ‖μ‖ ^ (2 * p + 1)) := by gcongr
    linarith

end Dg1d.Spec
