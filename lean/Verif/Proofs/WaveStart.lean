import Verif.Proofs.WaveAverage
import Verif.Proofs.AdvConv

/-! Helper lemmas for C103: the projected initial wave. -/

open Polynomial

namespace Dg1d.Spec

lemma gauss_complex {n : ℕ} {x w : ℕ → ℝ} (hG : IsGaussRule n x w) (f : ℂ[X]) (hf : f.natDegree < 2 * n) :
    ∑ i ∈ Finset.range n, (w i : ℂ) * f.eval (x i : ℂ) = intPoly f := by
  have hmono : ∀ k < 2 * n, ∑ i ∈ Finset.range n, (w i : ℂ) * (x i : ℂ) ^ k = intPoly (X ^ k : ℂ[X]) := by
    intro k hk
    have h := hG.exact (X ^ k) (by rw [degree_X_pow]; exact_mod_cast hk)
    have h2 := intPoly_map (X ^ k : ℝ[X])
    rw [Polynomial.map_pow, map_X] at h2
    rw [h2, ← h]
    push_cast
    exact Finset.sum_congr rfl fun i _ => by simp
  have e : ∀ y : ℂ, f.eval y = ∑ k ∈ Finset.range (f.natDegree + 1), f.coeff k * y ^ k := fun y => eval_eq_sum_range y
  simp only [e, Finset.mul_sum]
  rw [Finset.sum_comm]
  conv_rhs => rw [f.as_sum_range_C_mul_X_pow]
  rw [intPoly_sum]
  refine Finset.sum_congr rfl fun k hk => ?_
  rw [intPoly_C_mul, ← hmono k (by have := Finset.mem_range.mp hk; omega), Finset.mul_sum]
  exact Finset.sum_congr rfl fun i _ => by ring

/-- Gauss quadrature of a polynomial times an exponential. -/
lemma quad_exp {p : ℕ} {x w : ℕ → ℝ} (hG : IsGaussRule (p + 1) x w) (q : ℂ[X]) {k : ℕ} (hq : q.natDegree ≤ k) (hk : k ≤ 2 * p + 1) :
    ∃ K : ℝ, 0 ≤ K ∧ ∀ a : ℂ, ‖a‖ ≤ 1 → ‖(∑ i ∈ Finset.range (p + 1), (w i : ℂ) * (q.eval (x i : ℂ) * Complex.exp (a * x i))) -
      ∫ ξ in (-1 : ℝ)..1, q.eval (ξ : ℂ) * Complex.exp (a * ξ)‖ ≤ K * ‖a‖ ^ (2 * p + 2 - k) := by
  have hcq := cont_poly q
  obtain ⟨B, hB⟩ : ∃ B : ℝ, ∀ ξ ∈ Set.Icc (-1 : ℝ) 1, ‖q.eval (ξ : ℂ)‖ ≤ B := isCompact_Icc.exists_bound_of_continuousOn hcq.continuousOn
  have hB0 : 0 ≤ B := (norm_nonneg _).trans (hB 0 (by norm_num))
  set L := 2 * p + 2 - k with hL
  set W := ∑ i ∈ Finset.range (p + 1), |w i| with hW
  have hW0 : 0 ≤ W := Finset.sum_nonneg fun i _ => abs_nonneg _
  refine ⟨(W + 2) * (B * Real.exp 1), by positivity, fun a ha => ?_⟩
  set T : ℂ[X] := ∑ m ∈ Finset.range L, C (a ^ m / (m.factorial : ℂ)) * X ^ m with hT
  set tail : ℝ → ℂ := fun ξ => Complex.exp (a * ξ) - T.eval (ξ : ℂ) with htail
  have hTe : ∀ ξ : ℝ, T.eval (ξ : ℂ) = ∑ m ∈ Finset.range L, (a * ξ) ^ m / (m.factorial : ℂ) := by
    intro ξ
    rw [hT, eval_finsetSum]
    refine Finset.sum_congr rfl fun m _ => ?_
    rw [eval_mul, eval_C, eval_pow, eval_X, mul_pow]
    ring
  have htb : ∀ ξ ∈ Set.Icc (-1 : ℝ) 1, ‖q.eval (ξ : ℂ) * tail ξ‖ ≤ B * Real.exp 1 * ‖a‖ ^ L := by
    intro ξ hξ
    have hx : ‖a * ξ‖ ≤ ‖a‖ := by
      rw [norm_mul, Complex.norm_real, Real.norm_eq_abs]
      exact mul_le_of_le_one_right (norm_nonneg _) (abs_le.mpr hξ)
    have h1 : ‖tail ξ‖ ≤ ‖a‖ ^ L * Real.exp 1 := by
      simp only [htail]
      rw [hTe]
      refine (Complex.norm_exp_sub_sum_le_norm_mul_exp _ L).trans ?_
      exact mul_le_mul (pow_le_pow_left₀ (norm_nonneg _) hx _) (Real.exp_le_exp.mpr (hx.trans ha)) (Real.exp_pos _).le (by positivity)
    rw [norm_mul]
    calc ‖q.eval (ξ : ℂ)‖ * ‖tail ξ‖ ≤ B * (‖a‖ ^ L * Real.exp 1) := mul_le_mul (hB ξ hξ) h1 (norm_nonneg _) hB0
      _ = _ := by ring
  have cT := cont_poly T
  have ctail : Continuous tail := by
    simp only [htail]
    fun_prop
  have hdeg : (q * T).natDegree < 2 * (p + 1) := by
    have h1 : T.natDegree ≤ L - 1 := by
      rw [hT]
      refine natDegree_sum_le_of_forall_le _ _ fun m hm => (natDegree_C_mul_X_pow_le _ _).trans ?_
      have := Finset.mem_range.mp hm
      omega
    exact lt_of_le_of_lt (natDegree_mul_le) (by omega)
  have hex := gauss_complex hG (q * T) hdeg
  rw [← integral_poly] at hex
  have e1 : ∑ i ∈ Finset.range (p + 1), (w i : ℂ) * (q.eval (x i : ℂ) * Complex.exp (a * x i)) =
      (∑ i ∈ Finset.range (p + 1), (w i : ℂ) * (q * T).eval (x i : ℂ)) + ∑ i ∈ Finset.range (p + 1), (w i : ℂ) * (q.eval (x i : ℂ) * tail (x i)) := by
    rw [← Finset.sum_add_distrib]
    refine Finset.sum_congr rfl fun i _ => ?_
    simp only [htail, eval_mul]
    ring
  have e2 : ∫ ξ in (-1 : ℝ)..1, q.eval (ξ : ℂ) * Complex.exp (a * ξ) = (∫ ξ in (-1 : ℝ)..1, (q * T).eval (ξ : ℂ)) + ∫ ξ in (-1 : ℝ)..1, q.eval (ξ : ℂ) * tail ξ := by
    rw [← intervalIntegral.integral_add ((cont_poly _).intervalIntegrable _ _) (Continuous.intervalIntegrable (by fun_prop) _ _)]
    refine intervalIntegral.integral_congr fun ξ _ => ?_
    simp only [htail, eval_mul]
    ring
  rw [e1, e2, hex, add_sub_add_left_eq_sub]
  have b1 : ‖∑ i ∈ Finset.range (p + 1), (w i : ℂ) * (q.eval (x i : ℂ) * tail (x i))‖ ≤ W * (B * Real.exp 1 * ‖a‖ ^ L) := by
    refine (norm_sum_le _ _).trans ?_
    rw [hW, Finset.sum_mul]
    refine Finset.sum_le_sum fun i hi => ?_
    rw [norm_mul, Complex.norm_real, Real.norm_eq_abs]
    have := Approx.gauss_nodes hG (Finset.mem_range.mp hi)
    exact mul_le_mul_of_nonneg_left (htb _ ⟨this.1.le, this.2.le⟩) (abs_nonneg _)
  have b2 : ‖∫ ξ in (-1 : ℝ)..1, q.eval (ξ : ℂ) * tail ξ‖ ≤ B * Real.exp 1 * ‖a‖ ^ L * |1 - (-1 : ℝ)| := by
    refine intervalIntegral.norm_integral_le_of_norm_le_const fun ξ hξ => ?_
    rw [Set.uIoc_of_le (by norm_num)] at hξ
    exact htb ξ ⟨hξ.1.le, hξ.2⟩
  rw [show |1 - (-1 : ℝ)| = 2 by norm_num] at b2
  refine (norm_sub_le _ _).trans ((add_le_add b1 b2).trans (le_of_eq ?_))
  ring

lemma flip_mode (p : ℕ) (μ : ℂ) : (modePoly p μ).comp (-X) = ∑ k ∈ Finset.range (p + 1), C ((-μ) ^ (p - k)) * (derivative^[k] (leftEnd p)).comp (-X) := by
  unfold modePoly
  rw [Polynomial.sum_comp]
  exact Finset.sum_congr rfl fun k _ => by rw [mul_comp, C_comp]

/-- Gauss quadrature of the flipped wave times an exponential. -/
lemma quad_mode {p : ℕ} {x w : ℕ → ℝ} (hG : IsGaussRule (p + 1) x w) : ∃ K : ℝ, 0 ≤ K ∧ ∀ (a μ : ℂ) (b : ℝ), ‖a‖ ≤ b → ‖μ‖ ≤ b → b ≤ 1 →
    ‖(∑ i ∈ Finset.range (p + 1), (w i : ℂ) * (((modePoly p μ).comp (-X)).eval (x i : ℂ) * Complex.exp (a * x i))) -
      ∫ ξ in (-1 : ℝ)..1, ((modePoly p μ).comp (-X)).eval (ξ : ℂ) * Complex.exp (a * ξ)‖ ≤ K * b ^ (2 * p + 2) := by
  have hq : ∀ k, ((derivative^[k] (leftEnd p)).comp (-X)).natDegree ≤ p - k := by
    intro k
    rw [natDegree_comp, natDegree_neg, natDegree_X, mul_one]
    exact leftEnd_deriv_degree p k
  choose K hK0 hK using fun k => quad_exp hG _ (hq k) (show p - k ≤ 2 * p + 1 by omega)
  refine ⟨∑ k ∈ Finset.range (p + 1), K k, Finset.sum_nonneg fun k _ => hK0 k, fun a μ b ha hμ hb => ?_⟩
  set q : ℕ → ℂ[X] := fun k => (derivative^[k] (leftEnd p)).comp (-X) with hqd
  have hb0 : 0 ≤ b := (norm_nonneg _).trans ha
  have e1 : ∑ i ∈ Finset.range (p + 1), (w i : ℂ) * (((modePoly p μ).comp (-X)).eval (x i : ℂ) * Complex.exp (a * x i)) =
      ∑ k ∈ Finset.range (p + 1), (-μ) ^ (p - k) * ∑ i ∈ Finset.range (p + 1), (w i : ℂ) * ((q k).eval (x i : ℂ) * Complex.exp (a * x i)) := by
    simp only [Finset.mul_sum]
    rw [Finset.sum_comm]
    refine Finset.sum_congr rfl fun i _ => ?_
    rw [flip_mode, eval_finsetSum, Finset.sum_mul, Finset.mul_sum]
    refine Finset.sum_congr rfl fun k _ => ?_
    rw [eval_mul, eval_C]
    ring
  have e2 : ∫ ξ in (-1 : ℝ)..1, ((modePoly p μ).comp (-X)).eval (ξ : ℂ) * Complex.exp (a * ξ) =
      ∑ k ∈ Finset.range (p + 1), (-μ) ^ (p - k) * ∫ ξ in (-1 : ℝ)..1, (q k).eval (ξ : ℂ) * Complex.exp (a * ξ) := by
    have hc : ∀ k, Continuous fun ξ : ℝ => (-μ) ^ (p - k) * ((q k).eval (ξ : ℂ) * Complex.exp (a * ξ)) := fun k => by
      have := cont_poly (q k)
      fun_prop
    rw [← Finset.sum_congr rfl fun k _ => intervalIntegral.integral_const_mul _ _, ← intervalIntegral.integral_finsetSum fun k _ => (hc k).intervalIntegrable _ _]
    refine intervalIntegral.integral_congr fun ξ _ => ?_
    rw [flip_mode, eval_finsetSum, Finset.sum_mul]
    refine Finset.sum_congr rfl fun k _ => ?_
    rw [eval_mul, eval_C]
    ring
  rw [e1, e2, ← Finset.sum_sub_distrib, Finset.sum_mul]
  refine (norm_sum_le _ _).trans (Finset.sum_le_sum fun k hk => ?_)
  have hkp := Finset.mem_range.mp hk
  rw [← mul_sub, norm_mul, norm_pow, norm_neg]
  calc ‖μ‖ ^ (p - k) * _ ≤ b ^ (p - k) * (K k * b ^ (2 * p + 2 - (p - k))) :=
        mul_le_mul (pow_le_pow_left₀ (norm_nonneg _) hμ _) ((hK k a (ha.trans hb)).trans (mul_le_mul_of_nonneg_left (pow_le_pow_left₀ (norm_nonneg _) ha _) (hK0 k)))
          (norm_nonneg _) (by positivity)
    _ = K k * (b ^ (p - k) * b ^ (2 * p + 2 - (p - k))) := by ring
    _ = K k * b ^ (2 * p + 2) := by rw [← pow_add]; congr 2; omega

lemma exp_near {a c : ℂ} (ha : ‖a‖ ≤ 1) (hc : ‖c‖ ≤ 1) : ‖Complex.exp a - Complex.exp c‖ ≤ Real.exp 1 * (‖a - c‖ * Real.exp 2) := by
  have h : Complex.exp a - Complex.exp c = Complex.exp c * (Complex.exp (a - c) - 1) := by
    rw [mul_sub, ← Complex.exp_add, mul_one]
    congr 2
    ring
  have h1 : ‖Complex.exp c‖ ≤ Real.exp 1 := by
    rw [Complex.norm_exp]
    exact Real.exp_le_exp.mpr ((Complex.re_le_norm _).trans hc)
  have h2 : ‖Complex.exp (a - c) - 1‖ ≤ ‖a - c‖ * Real.exp 2 := by
    have := Complex.norm_exp_sub_sum_le_norm_mul_exp (a - c) 1
    rw [Finset.sum_range_one, pow_zero, pow_one, Nat.factorial_zero, Nat.cast_one, div_one] at this
    refine this.trans (mul_le_mul_of_nonneg_left (Real.exp_le_exp.mpr ?_) (norm_nonneg _))
    have := norm_sub_le a c
    linarith
  rw [h, norm_mul]
  exact mul_le_mul h1 h2 (norm_nonneg _) (Real.exp_pos _).le

/-- **Start.** The average of the part of the projected exact wave along the wave of the scheme. -/
lemma start_average {p : ℕ} {x w : ℕ → ℝ} (hG : IsGaussRule (p + 1) x w) (c₂ : ℝ) (hc₂ : 0 ≤ c₂) : ∃ K r : ℝ, 0 ≤ K ∧ 0 < r ∧ r ≤ 1 ∧
    ∀ (a μ : ℂ) (b : ℝ), ‖a‖ ≤ b → ‖μ‖ ≤ b → b ≤ r → μ ≠ 0 → ‖a + μ‖ ≤ c₂ * b ^ (2 * p + 2) →
    intPoly ((modePoly p μ).comp (-X) * modePoly p μ) ≠ 0 ∧
    ‖1 / 2 * intPoly (modePoly p μ) * (∑ i ∈ Finset.range (p + 1), (w i : ℂ) * (((modePoly p μ).comp (-X)).eval (x i : ℂ) * Complex.exp (a * x i))) /
        intPoly ((modePoly p μ).comp (-X) * modePoly p μ) - 1 / 2 * ∫ ξ in (-1 : ℝ)..1, Complex.exp (a * ξ)‖ ≤ K * b ^ (2 * p + 1) := by
  obtain ⟨K₁, r, s₀, hK₁, hr, hr1, hs₀, hmode⟩ := mode_average p
  obtain ⟨K₂, hK₂, hquad⟩ := quad_mode hG
  -- bounds of the wave and of its integral on the unit ball
  have hcont : Continuous fun v : ℂ × ℝ => ((modePoly p v.1).comp (-X)).eval (v.2 : ℂ) := by
    have : (fun v : ℂ × ℝ => ((modePoly p v.1).comp (-X)).eval (v.2 : ℂ)) =
        fun v => ∑ k ∈ Finset.range (p + 1), (-v.1) ^ (p - k) * ((derivative^[k] (leftEnd p)).comp (-X)).eval (v.2 : ℂ) := by
      funext v
      rw [flip_mode, eval_finsetSum]
      exact Finset.sum_congr rfl fun k _ => by rw [eval_mul, eval_C]
    rw [this]
    have h2 : ∀ f : ℂ[X], Continuous fun v : ℂ × ℝ => f.eval (v.2 : ℂ) := fun f => f.continuous.comp (Complex.continuous_ofReal.comp continuous_snd)
    refine continuous_finsetSum _ fun k _ => ?_
    have := h2 ((derivative^[k] (leftEnd p)).comp (-X))
    fun_prop
  obtain ⟨B, hB⟩ := ((isCompact_closedBall (0 : ℂ) 1).prod (isCompact_Icc (a := (-1 : ℝ)) (b := 1))).exists_bound_of_continuousOn hcont.continuousOn
  have hB' : ∀ μ : ℂ, ‖μ‖ ≤ 1 → ∀ ξ ∈ Set.Icc (-1 : ℝ) 1, ‖((modePoly p μ).comp (-X)).eval (ξ : ℂ)‖ ≤ B := fun μ hμ ξ hξ => hB (μ, ξ) ⟨by simpa using hμ, hξ⟩
  have hB0 : 0 ≤ B := (norm_nonneg _).trans (hB' 0 (by simp) 0 (by norm_num))
  set X2 := Real.exp 1 * Real.exp 2 with hX2
  have hX20 : 0 ≤ X2 := by positivity
  refine ⟨(2 * B) * (K₂ + 2 * (B * (X2 * c₂))) / s₀ + K₁ / s₀ + 2 * (X2 * c₂), r, by positivity, hr, hr1, fun a μ b ha hμ hbr hμ0 hc => ?_⟩
  have hb0 : 0 ≤ b := (norm_nonneg _).trans ha
  have hb1 : b ≤ 1 := hbr.trans hr1
  have ha1 := ha.trans hb1
  have hμ1 := hμ.trans hb1
  obtain ⟨hS, hmain⟩ := hmode μ (hμ.trans hbr) hμ0
  set S := intPoly ((modePoly p μ).comp (-X) * modePoly p μ) with hSd
  have hS0 : S ≠ 0 := norm_pos_iff.mp (hs₀.trans_le hS)
  refine ⟨hS0, ?_⟩
  set F : ℂ[X] := (modePoly p μ).comp (-X) with hF
  set M := intPoly (modePoly p μ) with hM
  set q := ∑ i ∈ Finset.range (p + 1), (w i : ℂ) * (F.eval (x i : ℂ) * Complex.exp (a * x i)) with hqd
  set A := ∫ ξ in (-1 : ℝ)..1, expMode p μ ξ with hA
  set σ := (Complex.exp μ - Complex.exp (-μ)) / μ with hσ
  have cF := cont_poly F
  have hMF : M = ∫ ξ in (-1 : ℝ)..1, F.eval (ξ : ℂ) := by rw [integral_poly, hF, intPoly_flip]
  have hMb : ‖M‖ ≤ 2 * B := by
    rw [hMF]
    refine (intervalIntegral.norm_integral_le_of_norm_le_const (C := B) fun ξ hξ => ?_).trans (le_of_eq ?_)
    · rw [Set.uIoc_of_le (by norm_num)] at hξ
      exact hB' μ hμ1 ξ ⟨hξ.1.le, hξ.2⟩
    · norm_num
      ring
  have hAF : A = ∫ ξ in (-1 : ℝ)..1, F.eval (ξ : ℂ) * Complex.exp (-μ * ξ) := by
    have := intervalIntegral.integral_comp_neg (a := (-1 : ℝ)) (b := 1) (expMode p μ)
    rw [neg_neg] at this
    rw [hA, ← this]
    refine intervalIntegral.integral_congr fun ξ _ => ?_
    simp only [hF, eval_comp, eval_neg, eval_X]
    unfold expMode
    push_cast
    rw [mul_comm]
    congr 2
    ring
  have hE : ∀ ξ ∈ Set.Icc (-1 : ℝ) 1, ‖Complex.exp (a * ξ) - Complex.exp (-μ * ξ)‖ ≤ X2 * (c₂ * b ^ (2 * p + 2)) := by
    intro ξ hξ
    have hξ1 : |ξ| ≤ 1 := abs_le.mpr hξ
    have h1 : ∀ y : ℂ, ‖y * (ξ : ℂ)‖ ≤ ‖y‖ := fun y => by
      rw [norm_mul, Complex.norm_real, Real.norm_eq_abs]
      exact mul_le_of_le_one_right (norm_nonneg _) hξ1
    refine (exp_near ((h1 a).trans ha1) ((h1 (-μ)).trans (by rwa [norm_neg]))).trans ?_
    have h2 : ‖a * ξ - -μ * ξ‖ ≤ c₂ * b ^ (2 * p + 2) := by
      rw [show a * ξ - -μ * ξ = (a + μ) * ξ by ring]
      exact (h1 _).trans hc
    calc Real.exp 1 * (‖a * ξ - -μ * ξ‖ * Real.exp 2) ≤ Real.exp 1 * (c₂ * b ^ (2 * p + 2) * Real.exp 2) := by gcongr
      _ = _ := by rw [hX2]; ring
  have hq1 : ‖q - A‖ ≤ (K₂ + 2 * (B * (X2 * c₂))) * b ^ (2 * p + 2) := by
    have h1 := hquad a μ b ha hμ hb1
    rw [← hF, ← hqd] at h1
    have h2 : ‖(∫ ξ in (-1 : ℝ)..1, F.eval (ξ : ℂ) * Complex.exp (a * ξ)) - A‖ ≤ B * (X2 * (c₂ * b ^ (2 * p + 2))) * |1 - (-1 : ℝ)| := by
      rw [hAF, ← intervalIntegral.integral_sub (Continuous.intervalIntegrable (by fun_prop) _ _) (Continuous.intervalIntegrable (by fun_prop) _ _)]
      refine intervalIntegral.norm_integral_le_of_norm_le_const fun ξ hξ => ?_
      rw [Set.uIoc_of_le (by norm_num)] at hξ
      rw [← mul_sub, norm_mul]
      exact mul_le_mul (hB' μ hμ1 ξ ⟨hξ.1.le, hξ.2⟩) (hE ξ ⟨hξ.1.le, hξ.2⟩) (norm_nonneg _) hB0
    rw [show |1 - (-1 : ℝ)| = 2 by norm_num] at h2
    have h3 := norm_add_le (q - ∫ ξ in (-1 : ℝ)..1, F.eval (ξ : ℂ) * Complex.exp (a * ξ)) ((∫ ξ in (-1 : ℝ)..1, F.eval (ξ : ℂ) * Complex.exp (a * ξ)) - A)
    rw [sub_add_sub_cancel] at h3
    linarith
  have hσi : σ = ∫ ξ in (-1 : ℝ)..1, Complex.exp (-μ * ξ) := by
    rw [integral_exp_mul_complex (neg_ne_zero.mpr hμ0), hσ]
    push_cast
    rw [show -μ * 1 = -μ by ring, show -μ * -1 = μ by ring, div_neg, neg_div' , neg_sub]
  have hσ1 : ‖σ - ∫ ξ in (-1 : ℝ)..1, Complex.exp (a * ξ)‖ ≤ 2 * (X2 * c₂) * b ^ (2 * p + 2) := by
    rw [hσi, ← intervalIntegral.integral_sub (Continuous.intervalIntegrable (by fun_prop) _ _) (Continuous.intervalIntegrable (by fun_prop) _ _)]
    refine (intervalIntegral.norm_integral_le_of_norm_le_const (C := X2 * (c₂ * b ^ (2 * p + 2))) fun ξ hξ => ?_).trans (le_of_eq ?_)
    · rw [Set.uIoc_of_le (by norm_num)] at hξ
      rw [norm_sub_rev]
      exact hE ξ ⟨hξ.1.le, hξ.2⟩
    · rw [show |1 - (-1 : ℝ)| = 2 by norm_num]
      ring
  have hid : 1 / 2 * M * q / S - 1 / 2 * ∫ ξ in (-1 : ℝ)..1, Complex.exp (a * ξ) =
      1 / 2 * (M * (q - A) / S) + 1 / 2 * ((M * A - σ * S) / S) + 1 / 2 * (σ - ∫ ξ in (-1 : ℝ)..1, Complex.exp (a * ξ)) := by
    field_simp
    ring
  have hpow : b ^ (2 * p + 2) ≤ b ^ (2 * p + 1) := pow_le_pow_of_le_one hb0 hb1 (by omega)
  have hpμ : ‖μ‖ ^ (2 * p + 1) ≤ b ^ (2 * p + 1) := pow_le_pow_left₀ (norm_nonneg _) hμ _
  have hdiv : ∀ y : ℂ, ∀ k : ℝ, ‖y‖ ≤ k → ‖y / S‖ ≤ k / s₀ := fun y k hy => by
    rw [norm_div]
    exact div_le_div₀ ((norm_nonneg _).trans hy) hy hs₀ hS
  have d1 : ‖M * (q - A) / S‖ ≤ (2 * B) * (K₂ + 2 * (B * (X2 * c₂))) / s₀ * b ^ (2 * p + 1) := by
    refine (hdiv _ ((2 * B) * ((K₂ + 2 * (B * (X2 * c₂))) * b ^ (2 * p + 1))) ?_).trans (le_of_eq (by ring))
    rw [norm_mul]
    refine mul_le_mul hMb (hq1.trans (mul_le_mul_of_nonneg_left hpow (by positivity))) (norm_nonneg _) (by positivity)
  have d2 : ‖(M * A - σ * S) / S‖ ≤ K₁ / s₀ * b ^ (2 * p + 1) :=
    (hdiv _ (K₁ * b ^ (2 * p + 1)) (hmain.trans (mul_le_mul_of_nonneg_left hpμ hK₁))).trans (le_of_eq (by ring))
  have d3 : ‖σ - ∫ ξ in (-1 : ℝ)..1, Complex.exp (a * ξ)‖ ≤ 2 * (X2 * c₂) * b ^ (2 * p + 1) := hσ1.trans (mul_le_mul_of_nonneg_left hpow (by positivity))
  rw [hid]
  have h12 : ∀ y : ℂ, ‖1 / 2 * y‖ ≤ ‖y‖ := fun y => by
    rw [norm_mul]
    have : ‖(1 / 2 : ℂ)‖ = 1 / 2 := by norm_num
    rw [this]
    linarith [norm_nonneg y]
  refine (norm_add_le _ _).trans ((add_le_add ((norm_add_le _ _).trans (add_le_add ((h12 _).trans d1) ((h12 _).trans d2))) ((h12 _).trans d3)).trans (le_of_eq ?_))
  ring

end Dg1d.Spec
