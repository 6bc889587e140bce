import Verif.Proofs.WaveStart
import Verif.Proofs.AdaptedNorm
import Verif.Props.Dispersion

/-! Helper lemmas for C103: steps of the operator on waves, split into the wave of the scheme and the rest. -/

open Polynomial

namespace Dg1d.Props
open Spec Stability Decay

/-! ### The operator -/

/-- The polynomial with the coefficients `v`. -/
noncomputable def waveSeries {p : ℕ} (v : Fin (p + 1) → ℂ) : ℂ[X] := ∑ i, C (v i) * legendre ℂ i

noncomputable def extend {p : ℕ} (v : Fin (p + 1) → ℂ) (n : ℕ) : ℂ := if h : n < p + 1 then v ⟨n, h⟩ else 0

lemma extend_fin {p : ℕ} (v : Fin (p + 1) → ℂ) (i : Fin (p + 1)) : extend v i = v i := by
  unfold extend
  rw [dif_pos i.2]

lemma waveSeries_eq {p : ℕ} (v : Fin (p + 1) → ℂ) : waveSeries v = legSeries (p + 1) (extend v) := by
  unfold waveSeries legSeries
  rw [Finset.sum_range]
  exact Finset.sum_congr rfl fun i _ => by rw [extend_fin]

lemma waveSeries_degree {p : ℕ} (v : Fin (p + 1) → ℂ) : (waveSeries v).degree < ((p + 1 : ℕ) : WithBot ℕ) := by
  rw [waveSeries_eq]
  exact legSeries_degree _ _

noncomputable def waveOp (p : ℕ) (θ : ℝ) : (Fin (p + 1) → ℂ) →L[ℂ] (Fin (p + 1) → ℂ) := LinearMap.toContinuousLinearMap (Matrix.toLin' (angleMatrix p θ))

lemma waveOp_apply (p : ℕ) (θ : ℝ) (v : Fin (p + 1) → ℂ) (i : Fin (p + 1)) : waveOp p θ v i = ∑ j, angleMatrix p θ i j * v j := rfl

lemma waveOp_series (p : ℕ) (θ : ℝ) (v : Fin (p + 1) → ℂ) : waveSeries (waveOp p θ v) = cellOp p (Complex.exp (θ * Complex.I))⁻¹ (waveSeries v) := by
  rw [waveSeries_eq, waveSeries_eq]
  refine weak_cellOp fun n hn => ?_
  have h0 := norm_ne_zero (K := ℂ) n
  have h1 : extend (waveOp p θ v) n = ∑ j ∈ Finset.range (p + 1), (2 * (n : ℂ) + 1) / 2 * (-(1 - (-1) ^ n * (Complex.exp (θ * Complex.I))⁻¹) +
      intPoly (derivative (legendre ℂ n) * legendre ℂ j)) * extend v j := by
    rw [show extend (waveOp p θ v) n = waveOp p θ v ⟨n, hn⟩ by unfold extend; rw [dif_pos hn], waveOp_apply, Finset.sum_range]
    exact Finset.sum_congr rfl fun j _ => by rw [extend_fin]; rfl
  have h2 : (legSeries (p + 1) (extend v)).eval 1 = ∑ j ∈ Finset.range (p + 1), extend v j := by
    rw [legSeries_eval]
    exact Finset.sum_congr rfl fun j _ => by rw [legendre_eval_one, mul_one]
  rw [h1, h2, Finset.mul_sum, Finset.mul_sum, ← Finset.sum_sub_distrib, ← Finset.sum_add_distrib]
  refine Finset.sum_congr rfl fun j _ => ?_
  field_simp
  ring

lemma cellOp_C_mul (p : ℕ) (t c : ℂ) (V : ℂ[X]) : cellOp p t (C c * V) = C c * cellOp p t V := by
  unfold cellOp
  rw [derivative_C_mul, eval_mul, eval_mul, eval_C, eval_C, show c * V.eval (-1) - t * (c * V.eval 1) = c * (V.eval (-1) - t * V.eval 1) by ring, C_mul]
  ring

/-- The written out wave is a wave. -/
lemma modePoly_mode {lib : GaussLib ℝ} {p : ℕ} {z μ : ℂ} {v : ℕ → ℂ} (h : IsMode lib p z μ v) (hμ : μ ≠ 0) : cellOp p z⁻¹ (modePoly p μ) = C μ * modePoly p μ := by
  obtain ⟨hne, hs⟩ := h.strong
  set Q := legSeries (p + 1) v with hQ
  set J := Q.eval (-1) - z⁻¹ * Q.eval 1 with hJ
  have hQop : cellOp p z⁻¹ Q = C μ * Q := by
    unfold cellOp
    linear_combination -hs
  have hid : C ((-μ) ^ (p + 1)) * Q = C J * modePoly p μ := (jump_identity (legSeries_degree _ _) hs).2
  have hJ0 : J ≠ 0 := by
    intro h0
    rw [h0, C_0, zero_mul] at hid
    exact hne ((mul_eq_zero.mp hid).resolve_left fun hc => pow_ne_zero _ (neg_ne_zero.mpr hμ) (C_eq_zero.mp hc))
  have hr : modePoly p μ = C (J⁻¹ * (-μ) ^ (p + 1)) * Q := by
    rw [C_mul, mul_assoc, hid, ← mul_assoc, ← C_mul, inv_mul_cancel₀ hJ0, C_1, one_mul]
  rw [hr, cellOp_C_mul, hQop]
  ring

/-! ### The wave and its adjoint as vectors -/

noncomputable def waveVec (p : ℕ) (μ : ℂ) : Fin (p + 1) → ℂ := fun i => (2 * ((i : ℕ) : ℂ) + 1) / 2 * intPoly (modePoly p μ * legendre ℂ i)
noncomputable def dualVec (p : ℕ) (μ : ℂ) : Fin (p + 1) → ℂ := fun i => intPoly ((modePoly p μ).comp (-X) * legendre ℂ i)
noncomputable def waveNorm (p : ℕ) (μ : ℂ) : ℂ := intPoly ((modePoly p μ).comp (-X) * modePoly p μ)
noncomputable def dual (p : ℕ) (μ : ℂ) (v : Fin (p + 1) → ℂ) : ℂ := ∑ i, dualVec p μ i * v i

lemma dual_add (p : ℕ) (μ : ℂ) (v w : Fin (p + 1) → ℂ) : dual p μ (v + w) = dual p μ v + dual p μ w := by
  unfold dual
  rw [← Finset.sum_add_distrib]
  exact Finset.sum_congr rfl fun i _ => by rw [Pi.add_apply]; ring

lemma dual_smul (p : ℕ) (μ c : ℂ) (v : Fin (p + 1) → ℂ) : dual p μ (c • v) = c * dual p μ v := by
  unfold dual
  rw [Finset.mul_sum]
  exact Finset.sum_congr rfl fun i _ => by rw [Pi.smul_apply, smul_eq_mul]; ring

lemma dual_eq (p : ℕ) (μ : ℂ) (v : Fin (p + 1) → ℂ) : dual p μ v = intPoly ((modePoly p μ).comp (-X) * waveSeries v) := by
  unfold dual waveSeries dualVec
  rw [Finset.mul_sum, intPoly_sum]
  exact Finset.sum_congr rfl fun i _ => by rw [mul_left_comm, intPoly_C_mul, mul_comm]

lemma coeffs_of_poly {p : ℕ} {f : ℂ[X]} (hf : f.degree < ((p + 1 : ℕ) : WithBot ℕ)) : waveSeries (fun i : Fin (p + 1) => (2 * ((i : ℕ) : ℂ) + 1) / 2 * intPoly (f * legendre ℂ i)) = f := by
  obtain ⟨c, hc⟩ := exists_legSeries (p + 1) f hf
  have h : ∀ i : Fin (p + 1), (2 * ((i : ℕ) : ℂ) + 1) / 2 * intPoly (f * legendre ℂ i) = c i := by
    intro i
    have h0 := norm_ne_zero (K := ℂ) (i : ℕ)
    rw [hc, intPoly_legSeries (p + 1) c i i.2]
    field_simp
  conv_rhs => rw [hc]
  unfold waveSeries legSeries
  rw [Finset.sum_range]
  exact Finset.sum_congr rfl fun i _ => by beta_reduce; rw [h]

lemma waveSeries_waveVec (p : ℕ) (μ : ℂ) : waveSeries (waveVec p μ) = modePoly p μ := coeffs_of_poly (modePoly_degree p μ)

lemma dual_waveVec (p : ℕ) (μ : ℂ) : dual p μ (waveVec p μ) = waveNorm p μ := by rw [dual_eq, waveSeries_waveVec]; rfl

lemma waveSeries_injective {p : ℕ} {v w : Fin (p + 1) → ℂ} (h : waveSeries v = waveSeries w) : v = w := by
  rw [waveSeries_eq, waveSeries_eq] at h
  funext i
  have := legSeries_injective (p + 1) _ _ h i i.2
  rwa [extend_fin, extend_fin] at this

section
variable {p : ℕ} {θ : ℝ} {μ : ℂ} (hm : cellOp p (Complex.exp (θ * Complex.I))⁻¹ (modePoly p μ) = C μ * modePoly p μ)
include hm

lemma waveOp_waveVec : waveOp p θ (waveVec p μ) = μ • waveVec p μ := by
  apply waveSeries_injective
  rw [waveOp_series, waveSeries_waveVec, hm, ← waveSeries_waveVec]
  unfold waveSeries
  rw [Finset.mul_sum]
  exact Finset.sum_congr rfl fun i _ => by rw [Pi.smul_apply, smul_eq_mul, C_mul, mul_assoc]

lemma dual_waveOp (v : Fin (p + 1) → ℂ) : dual p μ (waveOp p θ v) = μ * dual p μ v := by
  rw [dual_eq, waveOp_series, adjoint_mode (modePoly_degree p μ) hm (waveSeries_degree v), ← dual_eq]

lemma waveOp_pow (v : Fin (p + 1) → ℂ) (m : ℕ) : dual p μ ((waveOp p θ ^ m) v) = μ ^ m * dual p μ v := by
  induction m with
  | zero => simp
  | succ m ih =>
    rw [pow_succ', show (waveOp p θ * waveOp p θ ^ m) v = waveOp p θ ((waveOp p θ ^ m) v) from rfl, dual_waveOp hm, ih]
    ring

/-- One step multiplies the part along the wave. -/
lemma dual_step (n : ℕ) (w : ℕ → ℝ) (k : ℝ) (v : Fin (p + 1) → ℂ) :
    dual p μ (polyStep n w k (waveOp p θ) v) = (∑ m ∈ Finset.range n, (w m : ℂ) * (k * μ) ^ m) * dual p μ v := by
  unfold polyStep
  have hs : ∀ (s : Finset ℕ) (f : ℕ → Fin (p + 1) → ℂ), dual p μ (∑ m ∈ s, f m) = ∑ m ∈ s, dual p μ (f m) := by
    intro s f
    induction s using Finset.cons_induction with
    | empty => unfold dual; simp
    | cons a s ha ih => rw [Finset.sum_cons, Finset.sum_cons, dual_add, ih]
  rw [hs, Finset.sum_mul]
  refine Finset.sum_congr rfl fun m _ => ?_
  rw [dual_smul, waveOp_pow hm, mul_pow]
  push_cast
  ring

lemma waveOp_pow_waveVec (m : ℕ) : (waveOp p θ ^ m) (waveVec p μ) = μ ^ m • waveVec p μ := by
  induction m with
  | zero => simp
  | succ m ih =>
    rw [pow_succ', show (waveOp p θ * waveOp p θ ^ m) (waveVec p μ) = waveOp p θ ((waveOp p θ ^ m) (waveVec p μ)) from rfl, ih, map_smul, waveOp_waveVec hm, smul_smul]
    rw [pow_succ]

lemma step_waveVec (n : ℕ) (w : ℕ → ℝ) (k : ℝ) : polyStep n w k (waveOp p θ) (waveVec p μ) = (∑ m ∈ Finset.range n, (w m : ℂ) * (k * μ) ^ m) • waveVec p μ := by
  unfold polyStep
  rw [Finset.sum_smul]
  refine Finset.sum_congr rfl fun m _ => ?_
  rw [waveOp_pow_waveVec hm, smul_smul, mul_pow]
  congr 1
  push_cast
  ring

end

/-! ### Without the wave -/

/-- The operator with the eigenvalue of the wave moved by `-1`. -/
noncomputable def restMatrix (p : ℕ) (θ : ℝ) (μ : ℂ) : Matrix (Fin (p + 1)) (Fin (p + 1)) ℂ := Matrix.of fun i j => angleMatrix p θ i j - (waveNorm p μ)⁻¹ * (waveVec p μ i * dualVec p μ j)
noncomputable def restOp (p : ℕ) (θ : ℝ) (μ : ℂ) : (Fin (p + 1) → ℂ) →L[ℂ] (Fin (p + 1) → ℂ) := LinearMap.toContinuousLinearMap (Matrix.toLin' (restMatrix p θ μ))

lemma restOp_apply (p : ℕ) (θ : ℝ) (μ : ℂ) (v : Fin (p + 1) → ℂ) : restOp p θ μ v = waveOp p θ v - ((waveNorm p μ)⁻¹ * dual p μ v) • waveVec p μ := by
  funext i
  rw [Pi.sub_apply, Pi.smul_apply, smul_eq_mul, waveOp_apply]
  show ∑ j, restMatrix p θ μ i j * v j = _
  unfold dual
  rw [Finset.mul_sum, Finset.sum_mul, ← Finset.sum_sub_distrib]
  refine Finset.sum_congr rfl fun j _ => ?_
  show (angleMatrix p θ i j - _) * v j = _
  ring

lemma rest_pow {p : ℕ} {θ : ℝ} {μ : ℂ} (hm : cellOp p (Complex.exp (θ * Complex.I))⁻¹ (modePoly p μ) = C μ * modePoly p μ) {v : Fin (p + 1) → ℂ} (hv : dual p μ v = 0) (m : ℕ) :
    (restOp p θ μ ^ m) v = (waveOp p θ ^ m) v := by
  induction m with
  | zero => rfl
  | succ m ih =>
    rw [pow_succ', pow_succ', show (restOp p θ μ * restOp p θ μ ^ m) v = restOp p θ μ ((restOp p θ μ ^ m) v) from rfl, ih, restOp_apply, waveOp_pow hm, hv, mul_zero, mul_zero, zero_smul, sub_zero]
    rfl

lemma rest_step {p : ℕ} {θ : ℝ} {μ : ℂ} (hm : cellOp p (Complex.exp (θ * Complex.I))⁻¹ (modePoly p μ) = C μ * modePoly p μ) {v : Fin (p + 1) → ℂ} (hv : dual p μ v = 0)
    (n : ℕ) (w : ℕ → ℝ) (k : ℝ) : polyStep n w k (restOp p θ μ) v = polyStep n w k (waveOp p θ) v := by
  unfold polyStep
  exact Finset.sum_congr rfl fun m _ => by rw [rest_pow hm hv]

/-! ### The limit of long waves -/

lemma waveNorm_zero (p : ℕ) : waveNorm p 0 = 2 * jumpDen p 0 ^ 2 := by
  unfold waveNorm
  rw [modePoly_zero, C_comp, intPoly_C_mul, ← mul_one (C (jumpDen p 0)), intPoly_C_mul, intPoly_one]
  ring

lemma waveVec_zero (p : ℕ) (i : Fin (p + 1)) : waveVec p 0 i = if (i : ℕ) = 0 then jumpDen p 0 else 0 := by
  unfold waveVec
  rw [modePoly_zero, intPoly_C_mul]
  split_ifs with h
  · rw [h, legendre_zero, intPoly_one]
    push_cast
    ring
  · have := legendre_orthogonal (K := ℂ) h
    rw [legendre_zero, mul_one] at this
    rw [this]
    ring

lemma dualVec_zero (p : ℕ) (i : Fin (p + 1)) : dualVec p 0 i = if (i : ℕ) = 0 then 2 * jumpDen p 0 else 0 := by
  unfold dualVec
  rw [modePoly_zero, C_comp, intPoly_C_mul]
  split_ifs with h
  · rw [h, legendre_zero, intPoly_one]
    ring
  · have := legendre_orthogonal (K := ℂ) h
    rw [legendre_zero, mul_one] at this
    rw [this, mul_zero]

/-- In the limit all other eigenvalues are to the left. -/
lemma rest_spectrum (p : ℕ) (lam : ℂ) (x : Fin (p + 1) → ℂ) (hx : x ≠ 0) (h : restOp p 0 0 x = lam • x) : lam.re < 0 := by
  have hj := jumpDen_zero p
  have hdual : (waveNorm p 0)⁻¹ * dual p 0 x = x 0 / jumpDen p 0 := by
    unfold dual
    rw [waveNorm_zero, Finset.sum_eq_single (0 : Fin (p + 1)) (fun i _ hi => by rw [dualVec_zero, if_neg (by rwa [← Fin.val_ne_zero_iff] at hi), zero_mul]) (by simp), dualVec_zero, if_pos (by simp)]
    field_simp
  rw [restOp_apply, hdual] at h
  have h0 : (waveOp p 0 x) 0 = 0 := by
    rw [waveOp_apply]
    refine Finset.sum_eq_zero fun j _ => ?_
    unfold angleMatrix
    rw [Matrix.of_apply]
    simp [legendre_zero, intPoly, intBetween, antideriv]
  have h1 := congrFun h 0
  rw [Pi.sub_apply, Pi.smul_apply, Pi.smul_apply, h0, waveVec_zero, if_pos (by simp), smul_eq_mul, smul_eq_mul, div_mul_cancel₀ _ hj] at h1
  by_cases hx0 : x 0 = 0
  · rw [hx0, zero_div, zero_smul, sub_zero] at h
    have hmode : IsMode realGauss p (Complex.exp ((0 : ℝ) * Complex.I)) lam (extend x) := by
      refine ⟨?_, fun n hn => ?_⟩
      · by_contra hc
        push Not at hc
        exact hx (funext fun i => by rw [← extend_fin x]; exact hc i i.2)
      · have := congrFun h ⟨n, hn⟩
        rw [Pi.smul_apply, smul_eq_mul, waveOp_apply] at this
        rw [Finset.sum_range, show extend x n = x ⟨n, hn⟩ by unfold extend; rw [dif_pos hn], ← this]
        exact Finset.sum_congr rfl fun j _ => by rw [extend_fin, dg_entry _ _ _ hn]; rfl
    have hle : lam.re ≤ 0 := C68_spectrum realGauss p (by simp) hmode.1 hmode.2
    refine lt_of_le_of_ne hle fun heq => ?_
    obtain ⟨hne, hs⟩ := hmode.strong
    set Q := legSeries (p + 1) (extend x) with hQ
    have hz : (Complex.exp (((0 : ℝ) : ℂ) * Complex.I)) = 1 := by simp
    rw [hz, inv_one, one_mul] at hs
    -- no jump
    have hJ : Q.eval (-1) - Q.eval 1 = 0 := by
      have key := C68_energy realGauss p (z := 1) (by simp) (extend x)
      simp only at key
      rw [hz] at hmode
      rw [Finset.sum_congr rfl fun n hn => by rw [hmode.2 n (Finset.mem_range.mp hn)]] at key
      have hE : ∑ n ∈ Finset.range (p + 1), ((2 / (2 * (n : ℝ) + 1) : ℝ) : ℂ) * ((starRingEnd ℂ) (extend x n) * (lam * extend x n)) =
          ((∑ n ∈ Finset.range (p + 1), 2 / (2 * (n : ℝ) + 1) * ‖extend x n‖ ^ 2 : ℝ) : ℂ) * lam := by
        rw [Complex.ofReal_sum, Finset.sum_mul]
        refine Finset.sum_congr rfl fun n _ => ?_
        have := Complex.conj_mul' (extend x n)
        rw [Complex.ofReal_mul, Complex.ofReal_pow]
        linear_combination ((2 / (2 * (n : ℝ) + 1) : ℝ) : ℂ) * lam * this
      rw [hE, Complex.re_ofReal_mul, heq, mul_zero] at key
      have hn : ‖∑ j ∈ Finset.range (p + 1), (((legendre ℝ j).eval (-1) : ℝ) : ℂ) * extend x j - (1 : ℂ)⁻¹ * ∑ j ∈ Finset.range (p + 1), (((legendre ℝ j).eval 1 : ℝ) : ℂ) * extend x j‖ ^ 2 = 0 := by
        linarith
      have hn := norm_eq_zero.mp (pow_eq_zero_iff (two_ne_zero) |>.mp hn)
      rw [inv_one, one_mul] at hn
      rw [hQ, legSeries_eval, legSeries_eval, ← hn]
      refine congrArg₂ _ (Finset.sum_congr rfl fun j _ => ?_) (Finset.sum_congr rfl fun j _ => ?_)
      · rw [legendre_eval_neg_one, legendre_eval_neg_one]
        push_cast
        ring
      · rw [legendre_eval_one, legendre_eval_one]
        push_cast
        ring
    have hid := (jump_identity (legSeries_degree _ _) hs).2
    rw [hJ, C_0, zero_mul] at hid hs
    have hlam : lam = 0 := by
      by_contra hl
      exact hne ((mul_eq_zero.mp hid).resolve_left fun hc => pow_ne_zero _ (neg_ne_zero.mpr hl) (C_eq_zero.mp hc))
    rw [hlam, C_0, zero_mul, zero_add, neg_zero] at hs
    have hconst := eq_C_of_natDegree_eq_zero (derivative_eq_zero.mp hs)
    apply hx
    have hv : waveSeries x = waveSeries (fun i : Fin (p + 1) => if (i : ℕ) = 0 then Q.coeff 0 else 0) := by
      rw [waveSeries_eq, ← hQ, hconst, coeff_C_zero]
      unfold waveSeries
      rw [Finset.sum_eq_single (0 : Fin (p + 1)) (fun i _ hi => by beta_reduce; rw [if_neg (by rwa [← Fin.val_ne_zero_iff] at hi), C_0, zero_mul]) (by simp)]
      simp [legendre_zero]
    have hv := waveSeries_injective hv
    have hc0 : Q.coeff 0 = 0 := by
      have := congrFun hv 0
      rw [hx0, if_pos (by simp)] at this
      exact this.symm
    rw [hv, hc0]
    funext i
    simp
  · have : lam = -1 := by
      have h2 : lam * x 0 = -1 * x 0 := by linear_combination -h1
      exact mul_right_cancel₀ hx0 h2
    rw [this]
    norm_num

/-- The operator without the wave depends continuously on angle and eigenvalue. -/
lemma rest_near (p : ℕ) {ε : ℝ} (hε : 0 < ε) : ∃ η > 0, ∀ (θ : ℝ) (μ : ℂ), |θ| < η → ‖μ‖ < η → ‖restOp p θ μ - restOp p 0 0‖ ≤ ε := by
  have hpoly : ∀ f : ℂ[X], Continuous fun μ : ℂ => intPoly (modePoly p μ * f) := by
    intro f
    have : (fun μ : ℂ => intPoly (modePoly p μ * f)) = fun μ => ∑ k ∈ Finset.range (p + 1), (-μ) ^ (p - k) * intPoly (derivative^[k] (leftEnd p) * f) := by
      funext μ
      unfold modePoly
      rw [Finset.sum_mul, intPoly_sum]
      exact Finset.sum_congr rfl fun k _ => by rw [mul_assoc, intPoly_C_mul]
    rw [this]
    fun_prop
  have hflip : ∀ f : ℂ[X], Continuous fun μ : ℂ => intPoly ((modePoly p μ).comp (-X) * f) := by
    intro f
    have : (fun μ : ℂ => intPoly ((modePoly p μ).comp (-X) * f)) = fun μ => intPoly (modePoly p μ * f.comp (-X)) := by
      funext μ
      rw [← intPoly_flip, mul_comp, comp_assoc]
      simp
    rw [this]
    exact hpoly _
  have hnorm : Continuous fun μ : ℂ => waveNorm p μ := by
    have : (fun μ : ℂ => waveNorm p μ) = fun μ => ∑ k ∈ Finset.range (p + 1), (-μ) ^ (p - k) * intPoly ((modePoly p μ).comp (-X) * derivative^[k] (leftEnd p)) := by
      funext μ
      unfold waveNorm
      conv_lhs => rw [show modePoly p μ = ∑ k ∈ Finset.range (p + 1), C ((-μ) ^ (p - k)) * derivative^[k] (leftEnd p) from rfl]
      rw [Finset.mul_sum, intPoly_sum]
      refine Finset.sum_congr rfl fun k _ => ?_
      rw [mul_left_comm, intPoly_C_mul]
      rfl
    rw [this]
    exact continuous_finsetSum _ fun k _ => (Continuous.pow continuous_neg _).mul (hflip _)
  have hcont : ContinuousAt (fun v : ℝ × ℂ => restMatrix p v.1 v.2) (0, 0) := by
    refine continuousAt_pi.mpr fun i => continuousAt_pi.mpr fun j => ?_
    show ContinuousAt (fun v : ℝ × ℂ => angleMatrix p v.1 i j - (waveNorm p v.2)⁻¹ * (waveVec p v.2 i * dualVec p v.2 j)) (0, 0)
    have c1 : Continuous fun v : ℝ × ℂ => angleMatrix p v.1 i j := by
      have : Continuous fun θ : ℝ => (Complex.exp (θ * Complex.I))⁻¹ := Continuous.inv₀ (by fun_prop) fun θ => Complex.exp_ne_zero _
      have h2 : Continuous fun θ : ℝ => (2 * ((i : ℕ) : ℂ) + 1) / 2 * (-(1 - (-1) ^ (i : ℕ) * (Complex.exp (θ * Complex.I))⁻¹) + intPoly (derivative (legendre ℂ i) * legendre ℂ j)) := by
        fun_prop
      exact h2.comp continuous_fst
    have c2 : Continuous fun v : ℝ × ℂ => waveNorm p v.2 := hnorm.comp continuous_snd
    have c3 : Continuous fun v : ℝ × ℂ => waveVec p v.2 i := (continuous_const.mul (hpoly _)).comp continuous_snd
    have c4 : Continuous fun v : ℝ × ℂ => dualVec p v.2 j := (hflip _).comp continuous_snd
    have hn0 : waveNorm p ((0 : ℝ), (0 : ℂ)).2 ≠ 0 := by
      show waveNorm p 0 ≠ 0
      rw [waveNorm_zero]
      exact mul_ne_zero two_ne_zero (pow_ne_zero _ (jumpDen_zero p))
    exact c1.continuousAt.sub ((c2.continuousAt.inv₀ hn0).mul (c3.mul c4).continuousAt)
  set L : Matrix (Fin (p + 1)) (Fin (p + 1)) ℂ →ₗ[ℂ] ((Fin (p + 1) → ℂ) →L[ℂ] (Fin (p + 1) → ℂ)) :=
    LinearMap.toContinuousLinearMap.toLinearMap ∘ₗ (Matrix.toLin' : Matrix (Fin (p + 1)) (Fin (p + 1)) ℂ ≃ₗ[ℂ] _).toLinearMap with hL
  have hLc : Continuous L := L.continuous_of_finiteDimensional
  have hc2 : ContinuousAt (fun v : ℝ × ℂ => restOp p v.1 v.2) (0, 0) := hLc.continuousAt.comp hcont
  obtain ⟨η, hη, hb⟩ := Metric.continuousAt_iff.mp hc2 ε hε
  refine ⟨η, hη, fun θ μ hθ hμ => ?_⟩
  have := hb (x := (θ, μ)) (by rw [Prod.dist_eq, max_lt_iff]; exact ⟨by simpa using hθ, by simpa using hμ⟩)
  rw [dist_eq_norm] at this
  exact this.le

end Dg1d.Props
