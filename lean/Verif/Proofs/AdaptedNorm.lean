import Mathlib.Analysis.Normed.Algebra.GelfandFormula
import Mathlib.Analysis.Normed.Operator.Banach
import Mathlib.LinearAlgebra.Eigenspace.Basic
import Mathlib.Topology.Algebra.Module.FiniteDimension

/-! Helper lemmas for C103: an operator whose eigenvalues are all to the left of the imaginary axis is contractive in a suitable norm, and so
are the Runge–Kutta steps of all operators close to it. -/

open Filter Topology

namespace Dg1d.Decay

variable {E : Type*} [NormedAddCommGroup E] [NormedSpace ℂ E] [FiniteDimensional ℂ E] [Nontrivial E]

/-- A function with the properties of a norm equivalent to the given one. -/
structure IsSize (N : E → ℝ) (K : ℝ) : Prop where
  lower : ∀ x, ‖x‖ ≤ N x
  upper : ∀ x, N x ≤ K * ‖x‖
  add : ∀ x y, N (x + y) ≤ N x + N y
  smul : ∀ (c : ℂ) x, N (c • x) = ‖c‖ * N x

lemma exists_power (A : E →L[ℂ] E) (h : ∀ μ ∈ spectrum ℂ A, ‖μ‖ < 1) : ∃ (q : ℝ) (n : ℕ), 0 < q ∧ q < 1 ∧ 0 < n ∧ ‖A ^ n‖ ≤ q ^ n := by
  have : CompleteSpace E := FiniteDimensional.complete ℂ E
  have : Nontrivial (E →L[ℂ] E) := by infer_instance
  have h1 : spectralRadius ℂ A < ((1 : NNReal) : ENNReal) := spectrum.spectralRadius_lt_of_forall_lt A fun z hz => by
    have := h z hz
    exact_mod_cast this
  obtain ⟨q, hq1, hq2⟩ := ENNReal.lt_iff_exists_nnreal_btwn.mp h1
  have hq2 : q < 1 := by exact_mod_cast hq2
  have h2 := ((spectrum.pow_nnnorm_pow_one_div_tendsto_nhds_spectralRadius A).eventually_lt_const hq1).and (eventually_gt_atTop 0)
  obtain ⟨n, hn, hn0⟩ := h2.exists
  have hq0 : 0 < q := by
    have := lt_of_le_of_lt zero_le hq1
    exact_mod_cast this
  refine ⟨q, n, by exact_mod_cast hq0, by exact_mod_cast hq2, hn0, ?_⟩
  have h3 := ENNReal.rpow_lt_rpow hn (show (0 : ℝ) < n by exact_mod_cast hn0)
  rw [← ENNReal.rpow_mul, one_div, inv_mul_cancel₀ (by exact_mod_cast hn0.ne'), ENNReal.rpow_one, ENNReal.rpow_natCast] at h3
  have h4 : ‖A ^ n‖₊ < q ^ n := by exact_mod_cast h3
  exact_mod_cast h4.le

lemma exists_size (A : E →L[ℂ] E) (h : ∀ μ ∈ spectrum ℂ A, ‖μ‖ < 1) : ∃ (N : E → ℝ) (K q : ℝ), IsSize N K ∧ 0 < K ∧ 0 < q ∧ q < 1 ∧ ∀ x, N (A x) ≤ q * N x := by
  obtain ⟨q, n, hq0, hq1, hn, hA⟩ := exists_power A h
  refine ⟨fun x => ∑ j ∈ Finset.range n, (q ^ j)⁻¹ * ‖(A ^ j) x‖, ∑ j ∈ Finset.range n, (q ^ j)⁻¹ * ‖A ^ j‖ + 1, q, ?_, ?_, hq0, hq1, ?_⟩
  · refine ⟨fun x => ?_, fun x => ?_, fun x y => ?_, fun c x => ?_⟩
    · have := Finset.single_le_sum (f := fun j => (q ^ j)⁻¹ * ‖(A ^ j) x‖) (fun j _ => by positivity) (Finset.mem_range.mpr hn)
      simpa using this
    · rw [add_mul, Finset.sum_mul]
      have : ∑ j ∈ Finset.range n, (q ^ j)⁻¹ * ‖(A ^ j) x‖ ≤ ∑ j ∈ Finset.range n, (q ^ j)⁻¹ * ‖A ^ j‖ * ‖x‖ := by
        refine Finset.sum_le_sum fun j _ => ?_
        rw [mul_assoc]
        exact mul_le_mul_of_nonneg_left ((A ^ j).le_opNorm x) (by positivity)
      linarith [norm_nonneg x]
    · rw [← Finset.sum_add_distrib]
      refine Finset.sum_le_sum fun j _ => ?_
      rw [map_add, ← mul_add]
      exact mul_le_mul_of_nonneg_left (norm_add_le _ _) (by positivity)
    · rw [Finset.mul_sum]
      refine Finset.sum_congr rfl fun j _ => ?_
      rw [map_smul, norm_smul]
      ring
  · have : 0 ≤ ∑ j ∈ Finset.range n, (q ^ j)⁻¹ * ‖A ^ j‖ := Finset.sum_nonneg fun j _ => by positivity
    linarith
  · intro x
    simp only
    have hstep : ∀ j, (q ^ j)⁻¹ * ‖(A ^ j) (A x)‖ = q * ((q ^ (j + 1))⁻¹ * ‖(A ^ (j + 1)) x‖) := by
      intro j
      have : (A ^ (j + 1)) x = (A ^ j) (A x) := by rw [pow_succ]; rfl
      rw [this, pow_succ]
      field_simp
    rw [Finset.sum_congr rfl fun j _ => hstep j, ← Finset.mul_sum]
    refine mul_le_mul_of_nonneg_left ?_ hq0.le
    have h1 := Finset.sum_range_succ (fun j => (q ^ j)⁻¹ * ‖(A ^ j) x‖) n
    have h2 := Finset.sum_range_succ' (fun j => (q ^ j)⁻¹ * ‖(A ^ j) x‖) n
    have h3 : (q ^ n)⁻¹ * ‖(A ^ n) x‖ ≤ ‖x‖ := by
      rw [inv_mul_le_iff₀ (by positivity)]
      exact ((A ^ n).le_opNorm x).trans (mul_le_mul_of_nonneg_right hA (norm_nonneg _))
    have h4 : (q ^ 0)⁻¹ * ‖(A ^ 0) x‖ = ‖x‖ := by simp
    linarith

/-- Small explicit Euler steps of an operator with all eigenvalues to the left contract. -/
lemma exists_contraction (B : E →L[ℂ] E) (h : ∀ (μ : ℂ) (x : E), x ≠ 0 → B x = μ • x → μ.re < 0) :
    ∃ (N : E → ℝ) (K δ k₀ : ℝ), IsSize N K ∧ 0 < K ∧ 0 < δ ∧ 0 < k₀ ∧ ∀ k : ℝ, 0 ≤ k → k ≤ k₀ → ∀ x, N (x + (k : ℂ) • B x) ≤ (1 - δ * k) * N x := by
  have : CompleteSpace E := FiniteDimensional.complete ℂ E
  have hspec : ∀ μ ∈ spectrum ℂ B, μ.re < 0 := by
    intro μ hμ
    rw [ContinuousLinearMap.spectrum_eq, ← Module.End.hasEigenvalue_iff_mem_spectrum] at hμ
    obtain ⟨x, hx⟩ := hμ.exists_hasEigenvector
    exact h μ x hx.2 hx.apply_eq_smul
  have hcomp := spectrum.isCompact (𝕜 := ℂ) B
  obtain ⟨μ₀, hμ₀, hmax⟩ := hcomp.exists_isMaxOn (spectrum.nonempty B) Complex.continuous_re.continuousOn
  set a := -μ₀.re with ha
  have ha0 : 0 < a := by rw [ha]; linarith [hspec μ₀ hμ₀]
  set b := ‖B‖ + 1 with hb
  have hb0 : 0 < b := by positivity
  set ε := a / b ^ 2 with hε
  have hε0 : 0 < ε := by positivity
  have hA : ∀ ν ∈ spectrum ℂ (1 + (ε : ℂ) • B), ‖ν‖ < 1 := by
    intro ν hν
    rw [ContinuousLinearMap.spectrum_eq, ← Module.End.hasEigenvalue_iff_mem_spectrum] at hν
    obtain ⟨x, hx⟩ := hν.exists_hasEigenvector
    have hx1 : x + (ε : ℂ) • B x = ν • x := hx.apply_eq_smul
    set μ : ℂ := (ν - 1) / ε with hμ
    have hεc : (ε : ℂ) ≠ 0 := by exact_mod_cast hε0.ne'
    have hBx : B x = μ • x := by
      have : (ε : ℂ) • B x = (ν - 1) • x := by rw [sub_smul, one_smul, ← hx1]; abel
      rw [hμ, div_eq_inv_mul, mul_smul, ← this, smul_smul, inv_mul_cancel₀ hεc, one_smul]
    have hν' : ν = 1 + ε * μ := by rw [hμ]; field_simp; ring
    have hmem : μ ∈ spectrum ℂ B := by
      rw [ContinuousLinearMap.spectrum_eq, ← Module.End.hasEigenvalue_iff_mem_spectrum]
      exact Module.End.hasEigenvalue_of_hasEigenvector (Module.End.hasEigenvector_iff.mpr ⟨Module.End.mem_eigenspace_iff.mpr hBx, hx.2⟩)
    have hre : μ.re ≤ -a := by
      have := hmax hmem
      simp only [Set.mem_ofPred_eq] at this
      rw [ha]; linarith
    have hnorm : ‖μ‖ ≤ b := by
      have h1 : ‖B x‖ ≤ ‖B‖ * ‖x‖ := B.le_opNorm x
      rw [hBx, norm_smul] at h1
      have := le_of_mul_le_mul_right h1 (norm_pos_iff.mpr hx.2)
      rw [hb]; linarith
    have hsq : ‖ν‖ ^ 2 < 1 := by
      have hsm : μ.re ^ 2 + μ.im ^ 2 ≤ b ^ 2 := by
        have h1 := Complex.sq_norm μ
        rw [Complex.normSq_apply] at h1
        nlinarith [norm_nonneg μ]
      rw [Complex.sq_norm, Complex.normSq_apply, hν']
      have e1 : (1 + (ε : ℂ) * μ).re = 1 + ε * μ.re := by simp
      have e2 : (1 + (ε : ℂ) * μ).im = ε * μ.im := by simp
      rw [e1, e2]
      have h2 : ε ^ 2 * (μ.re ^ 2 + μ.im ^ 2) ≤ ε * a := by
        calc ε ^ 2 * (μ.re ^ 2 + μ.im ^ 2) ≤ ε ^ 2 * b ^ 2 := by gcongr
          _ = ε * a := by rw [hε]; field_simp
      have h3 : 0 < ε * a := by positivity
      nlinarith
    nlinarith [norm_nonneg ν]
  obtain ⟨N, K, q, hN, hK, hq0, hq1, hc⟩ := exists_size _ hA
  refine ⟨N, K, (1 - q) / ε, ε, hN, hK, div_pos (by linarith) hε0, hε0, fun k hk0 hk1 x => ?_⟩
  have hdec : x + (k : ℂ) • B x = ((1 - k / ε : ℝ) : ℂ) • x + ((k / ε : ℝ) : ℂ) • ((1 + (ε : ℂ) • B) x) := by
    have hεc : (ε : ℂ) ≠ 0 := by exact_mod_cast hε0.ne'
    have e : (1 + (ε : ℂ) • B) x = x + (ε : ℂ) • B x := rfl
    rw [e, smul_add, smul_smul, ← add_assoc, ← add_smul]
    push_cast
    rw [div_mul_cancel₀ _ hεc, sub_add_cancel, one_smul]
  have hk' : k / ε ≤ 1 := by rw [div_le_one hε0]; exact hk1
  have hN0 : 0 ≤ N x := (norm_nonneg x).trans (hN.lower x)
  rw [hdec]
  refine (hN.add _ _).trans ?_
  rw [hN.smul, hN.smul, Complex.norm_real, Complex.norm_real, Real.norm_of_nonneg (by linarith), Real.norm_of_nonneg (by positivity)]
  have h1 : k / ε * N ((1 + (ε : ℂ) • B) x) ≤ k / ε * (q * N x) := mul_le_mul_of_nonneg_left (hc x) (by positivity)
  have e2 : (1 - (1 - q) / ε * k) * N x = (1 - k / ε) * N x + k / ε * (q * N x) := by field_simp; ring
  linarith

/-- A Runge–Kutta step on a linear problem: a polynomial of the operator. -/
noncomputable def polyStep (n : ℕ) (w : ℕ → ℝ) (k : ℝ) (B : E →L[ℂ] E) (x : E) : E := ∑ m ∈ Finset.range n, ((k ^ m * w m : ℝ) : ℂ) • (B ^ m) x

/-- **Decay.** All operators close to `B` contract under Runge–Kutta steps of bounded size, with the same constants for all coefficients up to `W`. -/
lemma exists_decay (B : E →L[ℂ] E) (h : ∀ (μ : ℂ) (x : E), x ≠ 0 → B x = μ • x → μ.re < 0) (n : ℕ) (hn : 2 ≤ n) (W₀ : ℝ) (hW₀ : 0 ≤ W₀) :
    ∃ (N : E → ℝ) (K δ k₀ ε : ℝ), IsSize N K ∧ 0 < K ∧ 0 < δ ∧ 0 < k₀ ∧ 0 < ε ∧ ∀ w : ℕ → ℝ, w 0 = 1 → |w 1 - 1| ≤ 1 / 2 → (∀ m < n, |w m| ≤ W₀) →
      ∀ B' : E →L[ℂ] E, ‖B' - B‖ ≤ ε → ∀ k : ℝ, 0 ≤ k → k ≤ k₀ → ∀ x, N (polyStep n w k B' x) ≤ (1 - δ * k) * N x := by
  obtain ⟨N, K, δ, k₁, hN, hK, hδ, hk₁, hc⟩ := exists_contraction B h
  set b := ‖B‖ + 1 with hb
  have hb0 : 0 ≤ b := by positivity
  obtain ⟨n', rfl⟩ : ∃ n', n = n' + 2 := ⟨n - 2, by omega⟩
  set W := ∑ m ∈ Finset.range n', W₀ * b ^ (m + 2) with hW
  have hW0 : 0 ≤ W := Finset.sum_nonneg fun m _ => by positivity
  refine ⟨N, K, δ / 4, min (min (k₁ / 2) 1) (δ / (8 * (K * W + 1))), min 1 (δ / (16 * K)), hN, hK, by positivity, by positivity, by positivity, ?_⟩
  intro w w0 w1 hw B' hB' k hk0 hk x
  obtain ⟨w1a, w1b⟩ := abs_le.mp w1
  have hk1 : k * w 1 ≤ k₁ := by
    have := hk.trans ((min_le_left _ _).trans (min_le_left _ _))
    nlinarith
  have hkw0 : 0 ≤ k * w 1 := mul_nonneg hk0 (by linarith)
  have hk2 : k ≤ 1 := hk.trans ((min_le_left _ _).trans (min_le_right _ _))
  have hk3 : k * (8 * (K * W + 1)) ≤ δ := by
    have := hk.trans (min_le_right _ _)
    rwa [le_div_iff₀ (by positivity)] at this
  have hBb : ‖B'‖ ≤ b := by
    have := norm_add_le (B' - B) B
    rw [sub_add_cancel] at this
    have := hB'.trans (min_le_left _ _)
    linarith
  have hBd : K * ‖B' - B‖ ≤ δ / 16 := by
    have := hB'.trans (min_le_right _ _)
    rw [le_div_iff₀ (by positivity)] at this
    linarith
  have hN0 : 0 ≤ N x := (norm_nonneg x).trans (hN.lower x)
  have hsplit : polyStep (n' + 2) w k B' x = (x + ((k * w 1 : ℝ) : ℂ) • B x) +
      (((k * w 1 : ℝ) : ℂ) • (B' - B) x + ∑ m ∈ Finset.range n', ((k ^ (m + 2) * w (m + 2) : ℝ) : ℂ) • (B' ^ (m + 2)) x) := by
    unfold polyStep
    rw [Finset.sum_range_succ', Finset.sum_range_succ']
    simp only [zero_add, w0, pow_zero, pow_one, mul_one, Complex.ofReal_one, one_smul, one_apply_eq_self, sub_apply, smul_sub, show ∀ m, m + 1 + 1 = m + 2 from fun _ => rfl]
    abel
  have h1 := hc (k * w 1) hkw0 hk1 x
  have h2 : N (((k * w 1 : ℝ) : ℂ) • (B' - B) x) ≤ k * w 1 * (δ / 16) * N x := by
    rw [hN.smul, Complex.norm_real, Real.norm_of_nonneg hkw0, mul_assoc (k * w 1) (δ / 16)]
    refine mul_le_mul_of_nonneg_left ?_ hkw0
    calc N ((B' - B) x) ≤ K * ‖(B' - B) x‖ := hN.upper _
      _ ≤ K * (‖B' - B‖ * ‖x‖) := mul_le_mul_of_nonneg_left ((B' - B).le_opNorm x) hK.le
      _ = K * ‖B' - B‖ * ‖x‖ := by ring
      _ ≤ δ / 16 * N x := mul_le_mul hBd (hN.lower x) (norm_nonneg _) (by positivity)
  have h3 : N (∑ m ∈ Finset.range n', ((k ^ (m + 2) * w (m + 2) : ℝ) : ℂ) • (B' ^ (m + 2)) x) ≤ k ^ 2 * (K * W) * N x := by
    have hnorm : ‖∑ m ∈ Finset.range n', ((k ^ (m + 2) * w (m + 2) : ℝ) : ℂ) • (B' ^ (m + 2)) x‖ ≤ k ^ 2 * W * ‖x‖ := by
      refine (norm_sum_le _ _).trans ?_
      rw [hW, Finset.mul_sum, Finset.sum_mul]
      refine Finset.sum_le_sum fun m hm => ?_
      rw [norm_smul, Complex.norm_real, Real.norm_eq_abs, abs_mul, abs_of_nonneg (by positivity)]
      have e1 : k ^ (m + 2) ≤ k ^ 2 := pow_le_pow_of_le_one hk0 hk2 (by omega)
      have e2 : ‖(B' ^ (m + 2)) x‖ ≤ b ^ (m + 2) * ‖x‖ :=
        ((B' ^ (m + 2)).le_opNorm x).trans (mul_le_mul_of_nonneg_right ((norm_pow_le' B' (by omega)).trans (pow_le_pow_left₀ (norm_nonneg _) hBb _)) (norm_nonneg _))
      have e3 := hw (m + 2) (by have := Finset.mem_range.mp hm; omega)
      calc k ^ (m + 2) * |w (m + 2)| * ‖(B' ^ (m + 2)) x‖ ≤ k ^ 2 * W₀ * (b ^ (m + 2) * ‖x‖) := by gcongr
        _ = k ^ 2 * (W₀ * b ^ (m + 2)) * ‖x‖ := by ring
    calc _ ≤ K * _ := hN.upper _
      _ ≤ K * (k ^ 2 * W * ‖x‖) := mul_le_mul_of_nonneg_left hnorm hK.le
      _ = k ^ 2 * (K * W) * ‖x‖ := by ring
      _ ≤ _ := mul_le_mul_of_nonneg_left (hN.lower x) (by positivity)
  rw [hsplit]
  refine (hN.add _ _).trans ((add_le_add h1 ((hN.add _ _).trans (add_le_add h2 h3))).trans ?_)
  have h4 : k ^ 2 * (K * W) ≤ k * (δ / 8) := by
    have : k * (K * W) ≤ δ / 8 := by nlinarith [mul_nonneg hK.le hW0]
    nlinarith
  have h5 : (1 - δ * (k * w 1)) + (k * w 1 * (δ / 16) + k ^ 2 * (K * W)) ≤ 1 - δ / 4 * k := by
    have : k / 2 ≤ k * w 1 := by nlinarith
    have : δ * (k / 2) ≤ δ * (k * w 1) := mul_le_mul_of_nonneg_left this hδ.le
    nlinarith
  have h6 := mul_le_mul_of_nonneg_right h5 hN0
  linarith

end Dg1d.Decay
