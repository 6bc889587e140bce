import Verif.Proofs.WaveRun

/-! Helper lemmas for C103: averages after any number of steps. -/

open Polynomial

namespace Dg1d.Props
open Spec Stability Decay

lemma prod_near (R u : ℕ → ℂ) (ε : ℕ → ℝ) (J : ℕ) (hu : ∀ j < J, ‖u j‖ = 1) (h : ∀ j < J, ‖R j - u j‖ ≤ ε j) :
    ‖∏ j ∈ Finset.range J, R j - ∏ j ∈ Finset.range J, u j‖ ≤ Real.exp (∑ j ∈ Finset.range J, ε j) - 1 := by
  induction J with
  | zero => simp
  | succ J ih =>
    have ih := ih (fun j hj => hu j (by omega)) fun j hj => h j (by omega)
    have hJ := h J (by omega)
    have hε : 0 ≤ ε J := (norm_nonneg _).trans hJ
    have hun : ‖∏ j ∈ Finset.range J, u j‖ = 1 := by
      rw [norm_prod]
      exact Finset.prod_eq_one fun j hj => hu j (by have := Finset.mem_range.mp hj; omega)
    rw [Finset.prod_range_succ, Finset.prod_range_succ, Finset.sum_range_succ, Real.exp_add]
    set A := ∏ j ∈ Finset.range J, R j
    set B := ∏ j ∈ Finset.range J, u j
    set S := Real.exp (∑ j ∈ Finset.range J, ε j)
    have hR : ‖R J‖ ≤ 1 + ε J := by
      have := norm_add_le (R J - u J) (u J)
      rw [sub_add_cancel, hu J (by omega)] at this
      linarith
    have he : 1 + ε J ≤ Real.exp (ε J) := by have := Real.add_one_le_exp (ε J); linarith
    have hS : 0 ≤ S := Real.exp_nonneg _
    calc ‖A * R J - B * u J‖ = ‖(A - B) * R J + B * (R J - u J)‖ := by congr 1; ring
      _ ≤ ‖A - B‖ * ‖R J‖ + ‖B‖ * ‖R J - u J‖ := by
        refine (norm_add_le _ _).trans ?_
        rw [norm_mul, norm_mul]
      _ ≤ (S - 1) * (1 + ε J) + 1 * ε J := by
        rw [hun]
        exact add_le_add (mul_le_mul ih hR (norm_nonneg _) ((norm_nonneg _).trans ih)) (mul_le_mul_of_nonneg_left hJ zero_le_one)
      _ = S * (1 + ε J) - 1 := by ring
      _ ≤ _ := by gcongr

/-- Consistency of a step on a multiple. -/
lemma factor_near {n q : ℕ} (hqn : q < n) (W : ℝ) (hW : 0 ≤ W) : ∃ K : ℝ, 0 ≤ K ∧ ∀ (wt : ℕ → ℝ) (eps : ℝ), wt 0 = 1 → 0 ≤ eps →
    (∀ m, 1 ≤ m → m ≤ q → |wt m - 1 / (m.factorial : ℝ)| ≤ eps) → (∀ m < n, |wt m| ≤ W) →
    ∀ x : ℂ, ‖x‖ ≤ 1 → ‖∑ m ∈ Finset.range n, (wt m : ℂ) * x ^ m - Complex.exp x‖ ≤ K * (‖x‖ ^ (q + 1) + eps * ‖x‖) := by
  set c := ((q + 1).succ * ((q + 1).factorial * (q + 1 : ℕ) : ℝ)⁻¹) with hc
  have hc0 : 0 ≤ c := by positivity
  refine ⟨n * W + c + q, by positivity, fun wt eps w0 he hwt hb x hx => ?_⟩
  have h1 := Complex.exp_bound hx (n := q + 1) (by omega)
  have h2 : ∑ m ∈ Finset.range n, (wt m : ℂ) * x ^ m = ∑ m ∈ Finset.range (q + 1), x ^ m / (m.factorial : ℂ) +
      (∑ m ∈ Finset.range q, ((wt (m + 1) - 1 / ((m + 1).factorial : ℝ) : ℝ) : ℂ) * x ^ (m + 1) + ∑ m ∈ Finset.Ico (q + 1) n, (wt m : ℂ) * x ^ m) := by
    rw [← Finset.sum_range_add_sum_Ico _ (show q + 1 ≤ n by omega), ← add_assoc]
    congr 1
    rw [Finset.sum_range_succ' _ q, Finset.sum_range_succ' _ q, w0, add_right_comm, ← Finset.sum_add_distrib]
    congr 1
    · refine Finset.sum_congr rfl fun m hm => ?_
      push_cast
      ring
    · simp
  have h3 : ‖∑ m ∈ Finset.Ico (q + 1) n, (wt m : ℂ) * x ^ m‖ ≤ n * W * ‖x‖ ^ (q + 1) := by
    refine (norm_sum_le _ _).trans ((Finset.sum_le_sum (g := fun _ => W * ‖x‖ ^ (q + 1)) fun m hm => ?_).trans ?_)
    · have hm' := Finset.mem_Ico.mp hm
      rw [norm_mul, norm_pow, Complex.norm_real, Real.norm_eq_abs]
      exact mul_le_mul (hb m hm'.2) (pow_le_pow_of_le_one (norm_nonneg _) hx hm'.1) (by positivity) hW
    · rw [Finset.sum_const, Nat.card_Ico, nsmul_eq_mul, mul_assoc]
      refine mul_le_mul_of_nonneg_right ?_ (by positivity)
      exact_mod_cast Nat.sub_le _ _
  have h4 : ‖∑ m ∈ Finset.range q, ((wt (m + 1) - 1 / ((m + 1).factorial : ℝ) : ℝ) : ℂ) * x ^ (m + 1)‖ ≤ q * (eps * ‖x‖) := by
    refine (norm_sum_le _ _).trans ((Finset.sum_le_sum (g := fun _ => eps * ‖x‖) fun m hm => ?_).trans ?_)
    · have hm' := Finset.mem_range.mp hm
      rw [norm_mul, norm_pow, Complex.norm_real, Real.norm_eq_abs]
      refine mul_le_mul (hwt (m + 1) (by omega) (by omega)) ?_ (by positivity) he
      calc ‖x‖ ^ (m + 1) ≤ ‖x‖ ^ 1 := pow_le_pow_of_le_one (norm_nonneg _) hx (by omega)
        _ = _ := pow_one _
    · rw [Finset.sum_const, Finset.card_range, nsmul_eq_mul]
  rw [h2]
  set E := ∑ m ∈ Finset.range (q + 1), x ^ m / (m.factorial : ℂ)
  set T := ∑ m ∈ Finset.Ico (q + 1) n, (wt m : ℂ) * x ^ m
  set D := ∑ m ∈ Finset.range q, ((wt (m + 1) - 1 / ((m + 1).factorial : ℝ) : ℝ) : ℂ) * x ^ (m + 1)
  have h5 : ‖E + (D + T) - Complex.exp x‖ ≤ ‖D‖ + ‖T‖ + ‖Complex.exp x - E‖ := by
    calc ‖E + (D + T) - Complex.exp x‖ = ‖D + T - (Complex.exp x - E)‖ := by congr 1; ring
      _ ≤ ‖D + T‖ + ‖Complex.exp x - E‖ := norm_sub_le _ _
      _ ≤ _ := add_le_add (norm_add_le _ _) le_rfl
  have h1' : ‖Complex.exp x - E‖ ≤ ‖x‖ ^ (q + 1) * c := h1
  have x1 : 0 ≤ ‖x‖ ^ (q + 1) := by positivity
  have x2 : 0 ≤ eps * ‖x‖ := by positivity
  generalize ‖x‖ ^ (q + 1) = X at *
  generalize eps * ‖x‖ = Z at *
  have y1 : 0 ≤ (n : ℝ) * W * Z := by positivity
  have y2 : 0 ≤ c * Z := by positivity
  have y3 : 0 ≤ (q : ℝ) * X := by positivity
  nlinarith

lemma waveOp_bound (p : ℕ) : ∃ A : ℝ, 0 ≤ A ∧ ∀ (θ : ℝ) (v : Fin (p + 1) → ℂ), ‖waveOp p θ v‖ ≤ A * ‖v‖ := by
  set A : Fin (p + 1) → Fin (p + 1) → ℝ := fun i j => ‖(2 * ((i : ℕ) : ℂ) + 1) / 2‖ * (2 + ‖intPoly (derivative (legendre ℂ i) * legendre ℂ j)‖) with hA
  refine ⟨∑ i, ∑ j, A i j, by positivity, fun θ v => ?_⟩
  refine (pi_norm_le_iff_of_nonneg (by positivity)).mpr fun i => ?_
  rw [waveOp_apply]
  have h1 : ∀ j, ‖angleMatrix p θ i j‖ ≤ A i j := by
    intro j
    show ‖(2 * ((i : ℕ) : ℂ) + 1) / 2 * (-(1 - (-1) ^ (i : ℕ) * (Complex.exp (θ * Complex.I))⁻¹) + intPoly (derivative (legendre ℂ i) * legendre ℂ j))‖ ≤ _
    rw [norm_mul]
    refine mul_le_mul_of_nonneg_left ((norm_add_le _ _).trans ?_) (norm_nonneg _)
    rw [norm_neg]
    have : ‖1 - (-1) ^ (i : ℕ) * (Complex.exp (θ * Complex.I))⁻¹‖ ≤ 2 := by
      refine (norm_sub_le _ _).trans ?_
      rw [norm_one, norm_mul, norm_pow, norm_neg, norm_one, one_pow, norm_inv, Complex.norm_exp_ofReal_mul_I]
      norm_num
    linarith
  calc ‖∑ j, angleMatrix p θ i j * v j‖ ≤ ∑ j, A i j * ‖v‖ := (norm_sum_le _ _).trans (Finset.sum_le_sum fun j _ => by
        rw [norm_mul]
        exact mul_le_mul (h1 j) (norm_le_pi_norm v j) (norm_nonneg _) ((norm_nonneg _).trans (h1 j)))
    _ = (∑ j, A i j) * ‖v‖ := (Finset.sum_mul ..).symm
    _ ≤ _ := by
      refine mul_le_mul_of_nonneg_right ?_ (norm_nonneg _)
      exact Finset.single_le_sum (f := fun i => ∑ j, A i j) (fun i _ => Finset.sum_nonneg fun j _ => by positivity) (Finset.mem_univ i)

/-- The coefficients of an exponential by Gauss quadrature. -/
noncomputable def startVec (p : ℕ) (x w : ℕ → ℝ) (a : ℂ) : Fin (p + 1) → ℂ := fun i =>
  (2 * ((i : ℕ) : ℂ) + 1) / 2 * ∑ g ∈ Finset.range (p + 1), (w g : ℂ) * (Complex.exp (a * x g) * (legendre ℂ i).eval (x g : ℂ))

lemma dual_start (p : ℕ) (x w : ℕ → ℝ) (a μ : ℂ) :
    dual p μ (startVec p x w a) = ∑ g ∈ Finset.range (p + 1), (w g : ℂ) * (((modePoly p μ).comp (-X)).eval (x g : ℂ) * Complex.exp (a * x g)) := by
  have h := coeffs_of_poly (flip_degree (modePoly_degree p μ))
  have h2 : ∀ y : ℂ, ((modePoly p μ).comp (-X)).eval y = ∑ i : Fin (p + 1), dualVec p μ i * ((2 * ((i : ℕ) : ℂ) + 1) / 2 * (legendre ℂ i).eval y) := by
    intro y
    conv_lhs => rw [← h]
    unfold waveSeries dualVec
    rw [eval_finsetSum]
    refine Finset.sum_congr rfl fun i _ => ?_
    rw [eval_mul, eval_C]
    ring
  unfold dual startVec
  simp only [h2]
  simp only [Finset.mul_sum, Finset.sum_mul]
  rw [Finset.sum_comm]
  refine Finset.sum_congr rfl fun g _ => Finset.sum_congr rfl fun i _ => ?_
  ring

lemma start_bound (p : ℕ) (x w : ℕ → ℝ) : ∃ A : ℝ, 0 ≤ A ∧ ∀ θ : ℝ, ‖startVec p x w ((θ / 2 : ℝ) * Complex.I)‖ ≤ A := by
  set A : Fin (p + 1) → ℝ := fun i => ‖(2 * ((i : ℕ) : ℂ) + 1) / 2‖ * ∑ g ∈ Finset.range (p + 1), ‖(w g : ℂ)‖ * ‖(legendre ℂ i).eval (x g : ℂ)‖ with hA
  refine ⟨∑ i, A i, by positivity, fun θ => ?_⟩
  refine (pi_norm_le_iff_of_nonneg (by positivity)).mpr fun i => ?_
  refine le_trans ?_ (Finset.single_le_sum (f := A) (fun i _ => by positivity) (Finset.mem_univ i))
  unfold startVec
  rw [norm_mul]
  refine mul_le_mul_of_nonneg_left ((norm_sum_le _ _).trans (Finset.sum_le_sum fun g _ => ?_)) (norm_nonneg _)
  rw [norm_mul, norm_mul, show ((θ / 2 : ℝ) : ℂ) * Complex.I * (x g : ℂ) = ((θ / 2 * x g : ℝ) : ℂ) * Complex.I by push_cast; ring, Complex.norm_exp_ofReal_mul_I, one_mul]

/-- What is known about the wave of the scheme for small angles. -/
lemma wave_facts {p : ℕ} {x w : ℕ → ℝ} (hG : IsGaussRule (p + 1) x w) {ε : ℝ} (hε : 0 < ε) : ∃ K η : ℝ, 0 ≤ K ∧ 0 < η ∧ η ≤ 1 ∧ ∀ θ : ℝ, 0 < |θ| → |θ| < η →
    ∃ μ : ℂ, ‖μ‖ ≤ |θ| ∧ ‖μ + (θ / 2 : ℝ) * Complex.I‖ ≤ K * |θ| ^ (2 * p + 2) ∧ cellOp p (Complex.exp (θ * Complex.I))⁻¹ (modePoly p μ) = C μ * modePoly p μ ∧
    ‖restOp p θ μ - restOp p 0 0‖ ≤ ε ∧ waveNorm p μ ≠ 0 ∧
    ‖dual p μ (startVec p x w ((θ / 2 : ℝ) * Complex.I)) / waveNorm p μ * waveVec p μ 0 - 1 / 2 * ∫ ξ in (-1 : ℝ)..1, Complex.exp ((θ / 2 : ℝ) * Complex.I * ξ)‖ ≤ K * |θ| ^ (2 * p + 1) := by
  obtain ⟨r, η₁, c₁, c₂, hr, hη₁, hc₁, hc₂, horder⟩ := C101_order p
  obtain ⟨K, r₂, hK, hr₂, hr₂1, hstart⟩ := start_average hG c₂ hc₂.le
  obtain ⟨η₂, hη₂, hnear⟩ := rest_near p hε
  refine ⟨max K c₂, min (min η₁ r₂) (min η₂ (1 / (2 * c₂ + 2))), by positivity, by positivity, (min_le_left _ _).trans ((min_le_right _ _).trans hr₂1), fun θ h0 hθ => ?_⟩
  obtain ⟨hθ1, hθ2⟩ := lt_min_iff.mp hθ
  obtain ⟨hθη, hθr⟩ := lt_min_iff.mp hθ1
  obtain ⟨hθ2, hθc⟩ := lt_min_iff.mp hθ2
  rw [lt_div_iff₀ (by positivity)] at hθc
  obtain ⟨⟨μ, v, hm, hμ⟩, hall⟩ := horder realGauss θ hθη
  have hup := (hall μ v hm hμ).2
  have hsum : ‖(θ / 2 : ℝ) * Complex.I + μ‖ ≤ c₂ * |θ| ^ (2 * p + 2) := by
    have : ((θ / 2 : ℝ) : ℂ) * Complex.I + μ = (1 / 2 : ℂ) * (2 * μ + θ * Complex.I) := by push_cast; ring
    rw [this, norm_mul]
    have hp : 0 ≤ c₂ * |θ| ^ (2 * p + 2) := by positivity
    norm_num
    linarith
  have hsmall : c₂ * |θ| ^ (2 * p + 2) ≤ |θ| * (1 / 2) - |θ| * |θ| := by
    have h1 : |θ| ^ (2 * p + 2) ≤ |θ| * |θ| := by
      calc |θ| ^ (2 * p + 2) ≤ |θ| ^ 2 := pow_le_pow_of_le_one (abs_nonneg _) (by linarith) (by omega)
        _ = _ := by ring
    nlinarith
  have ha : ‖((θ / 2 : ℝ) : ℂ) * Complex.I‖ = |θ| / 2 := by
    rw [norm_mul, Complex.norm_I, mul_one, Complex.norm_real, Real.norm_eq_abs, abs_div, abs_of_pos (by norm_num : (0 : ℝ) < 2)]
  have hsq : 0 < |θ| * |θ| := mul_pos h0 h0
  have hμθ : ‖μ‖ ≤ |θ| := by
    have := norm_sub_le ((θ / 2 : ℝ) * Complex.I + μ) ((θ / 2 : ℝ) * Complex.I)
    rw [add_sub_cancel_left, ha] at this
    linarith
  have hμ0 : μ ≠ 0 := by
    rintro rfl
    rw [add_zero, ha] at hsum
    linarith
  obtain ⟨hS, hav⟩ := hstart ((θ / 2 : ℝ) * Complex.I) μ |θ| (by rw [ha]; linarith) hμθ hθr.le hμ0 hsum
  refine ⟨μ, hμθ, ?_, modePoly_mode hm hμ0, hnear θ μ hθ2 (hμθ.trans_lt hθ2), hS, ?_⟩
  · rw [add_comm]
    exact hsum.trans (mul_le_mul_of_nonneg_right (le_max_right _ _) (by positivity))
  · rw [dual_start]
    have h0' : waveVec p μ 0 = 1 / 2 * intPoly (modePoly p μ) := by
      unfold waveVec
      rw [Fin.val_zero, legendre_zero, mul_one]
      push_cast
      ring
    rw [h0']
    refine le_trans (le_of_eq ?_) (hav.trans (mul_le_mul_of_nonneg_right (le_max_left _ _) (by positivity)))
    congr 2
    unfold waveNorm
    ring

lemma collect {a b c e x y z : ℝ} (ha : 0 ≤ a) (hb : 0 ≤ b) (hc : 0 ≤ c) (he : 0 ≤ e) (hx : 0 ≤ x) (hy : 0 ≤ y) (hz : 0 ≤ z) :
    a * e + (b * (x + y + z) * (1 + c) + 1 * (c * x)) ≤ (b * (1 + c) + c + a) * (x + y + e + z) := by
  have h1 : 0 ≤ b * e := mul_nonneg hb he
  have h2 : 0 ≤ b * c * e := mul_nonneg (mul_nonneg hb hc) he
  have h3 : 0 ≤ c * y := mul_nonneg hc hy
  have h4 : 0 ≤ c * e := mul_nonneg hc he
  have h5 : 0 ≤ a * x := mul_nonneg ha hx
  have h6 : 0 ≤ a * y := mul_nonneg ha hy
  have h7 : 0 ≤ c * z := mul_nonneg hc hz
  have h8 : 0 ≤ a * z := mul_nonneg ha hz
  linarith

lemma collect_two {a b x y z : ℝ} (ha : 0 ≤ a) (hb : 0 ≤ b) (hx : 0 ≤ x) (hy : 0 ≤ y) (hz : 0 ≤ z) : a * (y + z) + b * x ≤ (a + b) * (x + y + z) := by
  have h1 := mul_nonneg ha hx
  have h2 := mul_nonneg hb hy
  have h3 := mul_nonneg hb hz
  linarith

set_option maxHeartbeats 1000000 in
/-- The average of a wave after any number of steps. -/
lemma wave_bound {p : ℕ} {x w : ℕ → ℝ} (hG : IsGaussRule (p + 1) x w) {n q : ℕ} (hq : 1 ≤ q) (hqn : q < n) (W : ℝ) (hW : 0 ≤ W) :
    ∃ k₀ η δ : ℝ, 0 < k₀ ∧ 0 < η ∧ 0 < δ ∧ ∀ Y : ℝ, 0 ≤ Y → ∃ K : ℝ, 0 ≤ K ∧ ∀ (wt : ℕ → ℝ) (eps : ℝ), wt 0 = 1 → 0 ≤ eps → eps ≤ 1 / 2 →
    (∀ m, 1 ≤ m → m ≤ q → |wt m - 1 / (m.factorial : ℝ)| ≤ eps) → (∀ m < n, |wt m| ≤ W) → ∀ θ : ℝ, 0 < |θ| → |θ| < η → ∀ (h : ℝ) (κ : ℕ → ℝ) (J : ℕ) (v : ℕ → Fin (p + 1) → ℂ),
    0 ≤ h → h ≤ k₀ → (∀ j < J, 0 ≤ κ j ∧ κ j ≤ h) → v 0 = startVec p x w ((θ / 2 : ℝ) * Complex.I) →
    (∀ j < J, v (j + 1) = polyStep n wt (κ j) (waveOp p θ) (v j)) → |θ| * ∑ j ∈ Finset.range J, κ j ≤ Y →
    ‖v J 0 - Complex.exp ((-(θ / 2 * ∑ j ∈ Finset.range J, κ j) : ℝ) * Complex.I) * (1 / 2 * ∫ ξ in (-1 : ℝ)..1, Complex.exp ((θ / 2 : ℝ) * Complex.I * ξ))‖ ≤
      K * (|θ| ^ (2 * p + 1) + (h * |θ|) ^ q + Real.exp (-(δ * ∑ j ∈ Finset.range J, κ j)) + eps) := by
  obtain ⟨N, Kn, δ, k₁, ε, hN, hKn, hδ, hk₁, hε, hdecay⟩ := exists_decay (restOp p 0 0) (rest_spectrum p) n (by omega) W hW
  obtain ⟨K₁, η, hK₁, hη, hη1, hfacts⟩ := wave_facts hG hε
  obtain ⟨K₂, hK₂, hfac⟩ := factor_near hqn W hW
  obtain ⟨A, hA, hop⟩ := waveOp_bound p
  obtain ⟨B, hB, hst⟩ := start_bound p x w
  set K₃ := K₂ + K₁ * Real.exp 2 * Real.exp 1 with hK₃
  have hK₃0 : 0 ≤ K₃ := by positivity
  set K₄ := Kn * (B + (A + (‖restOp p 0 0‖ + ε)) * B) with hK₄
  refine ⟨min k₁ 1, η, δ, by positivity, hη, hδ, fun Y hY => ?_⟩
  set K₅ := Y * K₃ * Real.exp (Y * (K₃ * 3)) with hK₅
  refine ⟨K₅ * (1 + K₁) + K₁ + K₄, by positivity, ?_⟩
  intro wt eps w0 he0 he1 hwt hwb θ hθ0 hθη h κ J v hh0 hhk hκ hv0 hv hτ
  have w1 : |wt 1 - 1| ≤ 1 / 2 := by
    have := hwt 1 le_rfl hq
    rw [Nat.factorial_one, Nat.cast_one, div_one] at this
    exact this.trans he1
  obtain ⟨μ, hμθ, hμa, hm, hrest, hS, hav⟩ := hfacts θ hθ0 hθη
  have hhk1 : h ≤ 1 := hhk.trans (min_le_right _ _)
  have hθ1 : |θ| ≤ 1 := hθη.le.trans hη1
  set τ := ∑ j ∈ Finset.range J, κ j with hτd
  have hτ0 : 0 ≤ τ := Finset.sum_nonneg fun j hj => (hκ j (Finset.mem_range.mp hj)).1
  set R : ℕ → ℂ := fun j => ∑ m ∈ Finset.range n, (wt m : ℂ) * ((κ j : ℂ) * μ) ^ m with hR
  -- the part along the wave
  have hdual : ∀ j ≤ J, dual p μ (v j) = (∏ i ∈ Finset.range j, R i) * dual p μ (v 0) := by
    intro j
    induction j with
    | zero => intro _; simp
    | succ j ih =>
      intro hj
      rw [hv j (by omega), dual_step hm, ih (by omega), Finset.prod_range_succ]
      ring
  -- the rest
  set rest : ℕ → Fin (p + 1) → ℂ := fun j => v j - (dual p μ (v j) / waveNorm p μ) • waveVec p μ with hrestd
  have hrest0 : ∀ j, dual p μ (rest j) = 0 := by
    intro j
    simp only [hrestd]
    rw [sub_eq_add_neg, ← neg_smul, dual_add, dual_smul, dual_waveVec]
    field_simp
    ring
  have hstep_lin : ∀ (k : ℝ) (c : ℂ) (a b : Fin (p + 1) → ℂ), polyStep n wt k (waveOp p θ) (a - c • b) = polyStep n wt k (waveOp p θ) a - c • polyStep n wt k (waveOp p θ) b := by
    intro k c a b
    unfold polyStep
    rw [Finset.smul_sum, ← Finset.sum_sub_distrib]
    refine Finset.sum_congr rfl fun m _ => ?_
    rw [map_sub, map_smul, smul_sub, smul_comm]
  have hrstep : ∀ j < J, N (rest (j + 1)) ≤ (1 - δ * κ j) * N (rest j) := by
    intro j hj
    have h1 : rest (j + 1) = polyStep n wt (κ j) (restOp p θ μ) (rest j) := by
      rw [rest_step hm (hrest0 j)]
      simp only [hrestd]
      rw [hstep_lin, step_waveVec hm, ← hv j hj, smul_smul, hv j hj, dual_step hm]
      congr 2
      ring
    rw [h1]
    exact hdecay wt w0 w1 hwb _ hrest (κ j) (hκ j hj).1 ((hκ j hj).2.trans (hhk.trans (min_le_left _ _))) _
  have hNnn : ∀ y, 0 ≤ N y := fun y => (norm_nonneg y).trans (hN.lower y)
  have hrall : ∀ j ≤ J, N (rest j) ≤ Real.exp (-(δ * ∑ i ∈ Finset.range j, κ i)) * N (rest 0) := by
    intro j
    induction j with
    | zero => intro _; simp
    | succ j ih =>
      intro hj
      refine (hrstep j (by omega)).trans ?_
      have he : 1 - δ * κ j ≤ Real.exp (-(δ * κ j)) := by have := Real.add_one_le_exp (-(δ * κ j)); linarith
      calc (1 - δ * κ j) * N (rest j) ≤ Real.exp (-(δ * κ j)) * N (rest j) := mul_le_mul_of_nonneg_right he (hNnn _)
        _ ≤ Real.exp (-(δ * κ j)) * (Real.exp (-(δ * ∑ i ∈ Finset.range j, κ i)) * N (rest 0)) := mul_le_mul_of_nonneg_left (ih (by omega)) (Real.exp_nonneg _)
        _ = _ := by rw [← mul_assoc, ← Real.exp_add, Finset.sum_range_succ]; congr 2; ring
  have hinit : N (rest 0) ≤ K₄ := by
    refine (hN.upper _).trans (mul_le_mul_of_nonneg_left ?_ hKn.le)
    have hB' : ‖v 0‖ ≤ B := by rw [hv0]; exact hst θ
    have hw : (dual p μ (v 0) / waveNorm p μ) • waveVec p μ = waveOp p θ (v 0) - restOp p θ μ (v 0) := by
      rw [restOp_apply, sub_sub_cancel, mul_comm, div_eq_mul_inv]
    have h1 : ‖restOp p θ μ (v 0)‖ ≤ (‖restOp p 0 0‖ + ε) * B := by
      refine ((restOp p θ μ).le_opNorm _).trans (mul_le_mul ?_ hB' (norm_nonneg _) (by positivity))
      have := norm_add_le (restOp p θ μ - restOp p 0 0) (restOp p 0 0)
      rw [sub_add_cancel] at this
      linarith
    have h2 : ‖waveOp p θ (v 0)‖ ≤ A * B := (hop θ _).trans (mul_le_mul_of_nonneg_left hB' hA)
    simp only [hrestd]
    rw [hw]
    refine (norm_sub_le _ _).trans ?_
    have := norm_sub_le (waveOp p θ (v 0)) (restOp p θ μ (v 0))
    linarith
  have hrJ : ‖rest J 0‖ ≤ K₄ * Real.exp (-(δ * τ)) := by
    refine (norm_le_pi_norm (rest J) 0).trans ((hN.lower _).trans ((hrall J le_rfl).trans ?_))
    rw [mul_comm]
    exact mul_le_mul_of_nonneg_right hinit (Real.exp_nonneg _)
  -- the factors
  set D := |θ| ^ (2 * p + 1) + (h * |θ|) ^ q + eps with hD
  have hD0 : 0 ≤ D := by positivity
  have hD2 : D ≤ 3 := by
    have h1 : |θ| ^ (2 * p + 1) ≤ 1 := pow_le_one₀ (abs_nonneg _) hθ1
    have h2 : (h * |θ|) ^ q ≤ 1 := pow_le_one₀ (by positivity) (mul_le_one₀ hhk1 (abs_nonneg _) hθ1)
    linarith
  set u : ℕ → ℂ := fun j => Complex.exp ((-(θ / 2 * κ j) : ℝ) * Complex.I) with hu
  have hRu : ∀ j < J, ‖R j - u j‖ ≤ κ j * |θ| * (K₃ * D) := by
    intro j hj
    obtain ⟨hk0, hkh⟩ := hκ j hj
    have hk1 : κ j ≤ 1 := hkh.trans hhk1
    have hkn : ‖(κ j : ℂ)‖ = κ j := by rw [Complex.norm_real, Real.norm_of_nonneg hk0]
    have hkμ : ‖(κ j : ℂ) * μ‖ ≤ κ j * |θ| := by rw [norm_mul, hkn]; exact mul_le_mul_of_nonneg_left hμθ hk0
    have hkθ : κ j * |θ| ≤ 1 := mul_le_one₀ hk1 (abs_nonneg _) hθ1
    have h1 : ‖R j - Complex.exp ((κ j : ℂ) * μ)‖ ≤ K₂ * (κ j * |θ| * ((h * |θ|) ^ q + eps)) := by
      refine (hfac wt eps w0 he0 hwt hwb _ (hkμ.trans hkθ)).trans (mul_le_mul_of_nonneg_left ?_ hK₂)
      have hke : eps * ‖(κ j : ℂ) * μ‖ ≤ κ j * |θ| * eps := by rw [mul_comm]; exact mul_le_mul_of_nonneg_right hkμ he0
      rw [mul_add]
      refine add_le_add ?_ hke
      calc ‖(κ j : ℂ) * μ‖ ^ (q + 1) ≤ (κ j * |θ|) ^ (q + 1) := pow_le_pow_left₀ (norm_nonneg _) hkμ _
        _ = κ j * |θ| * (κ j * |θ|) ^ q := by ring
        _ ≤ _ := by gcongr
    have h2 : ‖Complex.exp ((κ j : ℂ) * μ) - u j‖ ≤ Real.exp 1 * (κ j * (K₁ * |θ| ^ (2 * p + 2)) * Real.exp 2) := by
      have hun : ‖((-(θ / 2 * κ j) : ℝ) : ℂ) * Complex.I‖ ≤ 1 := by
        rw [norm_mul, Complex.norm_I, mul_one, Complex.norm_real, Real.norm_eq_abs, abs_neg, abs_mul, abs_div, abs_of_pos (by norm_num : (0 : ℝ) < 2), abs_of_nonneg hk0]
        nlinarith [abs_nonneg θ]
      refine (exp_near (hkμ.trans hkθ) hun).trans ?_
      gcongr
      have : (κ j : ℂ) * μ - ((-(θ / 2 * κ j) : ℝ) : ℂ) * Complex.I = (κ j : ℂ) * (μ + (θ / 2 : ℝ) * Complex.I) := by push_cast; ring
      rw [this, norm_mul, hkn]
      exact mul_le_mul_of_nonneg_left hμa hk0
    have h3 := norm_add_le (R j - Complex.exp ((κ j : ℂ) * μ)) (Complex.exp ((κ j : ℂ) * μ) - u j)
    rw [sub_add_sub_cancel] at h3
    refine h3.trans ((add_le_add h1 h2).trans ?_)
    have e1 : Real.exp 1 * (κ j * (K₁ * |θ| ^ (2 * p + 2)) * Real.exp 2) = κ j * |θ| * (K₁ * Real.exp 2 * Real.exp 1 * |θ| ^ (2 * p + 1)) := by ring
    have e2 : K₂ * (κ j * |θ| * ((h * |θ|) ^ q + eps)) = κ j * |θ| * (K₂ * ((h * |θ|) ^ q + eps)) := by ring
    rw [e1, e2, ← mul_add]
    refine mul_le_mul_of_nonneg_left ?_ (by positivity)
    rw [hK₃, hD]
    exact collect_two hK₂ (by positivity) (by positivity) (by positivity) he0
  have hprod : ‖∏ j ∈ Finset.range J, R j - ∏ j ∈ Finset.range J, u j‖ ≤ K₅ * D := by
    have h1 := prod_near R u (fun j => κ j * |θ| * (K₃ * D)) J (fun j _ => Complex.norm_exp_ofReal_mul_I _) hRu
    rw [← Finset.sum_mul, ← Finset.sum_mul, ← hτd] at h1
    refine h1.trans ?_
    set y := τ * |θ| * (K₃ * D) with hy
    have hy0 : 0 ≤ y := by positivity
    have hyY : y ≤ Y * (K₃ * D) := mul_le_mul_of_nonneg_right (by linarith [mul_comm τ |θ|]) (by positivity)
    have h2 : Real.exp y - 1 ≤ y * Real.exp y := by
      have := Real.add_one_le_exp (-y)
      have he : Real.exp y * Real.exp (-y) = 1 := by rw [← Real.exp_add, add_neg_cancel, Real.exp_zero]
      nlinarith [Real.exp_pos y]
    calc Real.exp y - 1 ≤ y * Real.exp y := h2
      _ ≤ Y * (K₃ * D) * Real.exp (Y * (K₃ * 3)) := by
        refine mul_le_mul hyY (Real.exp_le_exp.mpr (hyY.trans ?_)) (Real.exp_nonneg _) (by positivity)
        gcongr
      _ = _ := by rw [hK₅]; ring
  have hprodu : ∏ j ∈ Finset.range J, u j = Complex.exp ((-(θ / 2 * τ) : ℝ) * Complex.I) := by
    simp only [hu]
    rw [← Complex.exp_sum, ← Finset.sum_mul, hτd, Finset.mul_sum, ← Finset.sum_neg_distrib, Complex.ofReal_sum]
  rw [← hprodu]
  set P := ∏ j ∈ Finset.range J, R j with hP
  set U := ∏ j ∈ Finset.range J, u j with hU
  set m₀ := dual p μ (v 0) / waveNorm p μ * waveVec p μ 0 with hm₀
  set I₀ := 1 / 2 * ∫ ξ in (-1 : ℝ)..1, Complex.exp ((θ / 2 : ℝ) * Complex.I * ξ) with hI₀
  have hUn : ‖U‖ = 1 := by rw [hprodu, Complex.norm_exp_ofReal_mul_I]
  have hI : ‖I₀‖ ≤ 1 := by
    rw [hI₀, norm_mul]
    have : ‖∫ ξ in (-1 : ℝ)..1, Complex.exp ((θ / 2 : ℝ) * Complex.I * ξ)‖ ≤ 1 * |1 - (-1 : ℝ)| := by
      refine intervalIntegral.norm_integral_le_of_norm_le_const fun ξ _ => ?_
      rw [show ((θ / 2 : ℝ) : ℂ) * Complex.I * (ξ : ℂ) = ((θ / 2 * ξ : ℝ) : ℂ) * Complex.I by push_cast; ring, Complex.norm_exp_ofReal_mul_I]
    norm_num at this ⊢
    linarith
  rw [← hv0] at hav
  have hm₀I : ‖m₀ - I₀‖ ≤ K₁ * |θ| ^ (2 * p + 1) := hav
  have hm₀n : ‖m₀‖ ≤ 1 + K₁ := by
    have h1 := norm_add_le (m₀ - I₀) I₀
    rw [sub_add_cancel] at h1
    have h2 : K₁ * |θ| ^ (2 * p + 1) ≤ K₁ * 1 := mul_le_mul_of_nonneg_left (pow_le_one₀ (abs_nonneg _) hθ1) hK₁
    linarith
  have hvJ : v J 0 = rest J 0 + P * m₀ := by
    simp only [hrestd]
    rw [Pi.sub_apply, Pi.smul_apply, smul_eq_mul, hdual J le_rfl, hm₀]
    ring
  rw [hvJ]
  calc ‖rest J 0 + P * m₀ - U * I₀‖ = ‖rest J 0 + ((P - U) * m₀ + U * (m₀ - I₀))‖ := by congr 1; ring
    _ ≤ ‖rest J 0‖ + (‖P - U‖ * ‖m₀‖ + ‖U‖ * ‖m₀ - I₀‖) := by
      refine (norm_add_le _ _).trans (add_le_add le_rfl ((norm_add_le _ _).trans ?_))
      rw [norm_mul (P - U) m₀, norm_mul U]
    _ ≤ K₄ * Real.exp (-(δ * τ)) + (K₅ * D * (1 + K₁) + 1 * (K₁ * |θ| ^ (2 * p + 1))) := by
      rw [hUn]
      gcongr
    _ ≤ _ := by
      exact collect (by positivity) (by positivity) hK₁ (Real.exp_nonneg _) (by positivity) (by positivity) he0

end Dg1d.Props
