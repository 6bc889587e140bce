import Mathlib.Analysis.SpecialFunctions.Exponential
import Mathlib.Analysis.Calculus.MeanValue
import Mathlib.Analysis.Normed.Operator.NormedSpace
import Mathlib.Analysis.Normed.Algebra.Exponential
import Verif.Proofs.Convergence
import Verif.Proofs.LocalError
import Verif.Proofs.RkLinear

/-! Helper lemmas: convergence of Runge–Kutta methods for linear differential equations, for steps of any size. -/

set_option linter.unusedSectionVars false

open Dg1d.Spec Filter Topology Asymptotics

namespace Dg1d.Converge

section
variable {E : Type*} [NormedAddCommGroup E] [NormedSpace ℝ E]

lemma stageValue_continuous {f : E → E} (hf : Continuous f) (beta : ℕ → ℕ → ℝ) (u : E) (k : ℕ) : Continuous fun h : ℝ => stageValue beta f h u k := by
  induction k using Nat.strong_induction_on with
  | _ k ih =>
    have : (fun h : ℝ => stageValue beta f h u k) = fun h : ℝ => u + h • ∑ j : Fin k, beta k j • f (stageValue beta f h u j) := by
      funext h
      rw [stageValue]
    rw [this]
    exact continuous_const.add (continuous_id.smul (continuous_finsetSum _ fun j _ => (hf.comp (ih j j.2)).const_smul _))

lemma rkStep_continuous {f : E → E} (hf : Continuous f) (b : List ℝ) (beta : ℕ → ℕ → ℝ) (u : E) : Continuous fun h : ℝ => rkStep b beta f h u := by
  unfold rkStep
  exact continuous_const.add (continuous_id.smul (continuous_finsetSum _ fun j _ => (hf.comp (stageValue_continuous hf beta u j)).const_smul _))

/-- A continuous function that is `O(h^m)` at zero is bounded by `C h^m` on `[0, H]`. -/
lemma bound_on {g : ℝ → E} (hg : Continuous g) {m : ℕ} (hO : g =O[𝓝 0] fun h => h ^ m) (H : ℝ) :
    ∃ C, 0 ≤ C ∧ ∀ h, 0 ≤ h → h ≤ H → ‖g h‖ ≤ C * h ^ m := by
  obtain ⟨c, hc⟩ := hO.bound
  obtain ⟨δ, hδ, hball⟩ := Metric.eventually_nhds_iff.mp hc
  obtain ⟨B, hB⟩ := (isCompact_Icc (a := (0 : ℝ)) (b := H)).exists_bound_of_continuousOn hg.continuousOn
  refine ⟨max (max c 0) (|B| / δ ^ m), le_max_of_le_left (le_max_right _ _), ?_⟩
  intro h h0 h1
  by_cases hh : h < δ
  · have := hball (y := h) (by rw [Real.dist_eq, sub_zero, abs_of_nonneg h0]; exact hh)
    rw [norm_pow, Real.norm_eq_abs, abs_of_nonneg h0] at this
    exact this.trans (mul_le_mul_of_nonneg_right (le_max_of_le_left (le_max_left _ _)) (by positivity))
  · push Not at hh
    have h2 := hB h ⟨h0, h1⟩
    have h3 : |B| / δ ^ m * h ^ m ≥ |B| := by
      rw [div_mul_eq_mul_div, ge_iff_le, le_div_iff₀ (by positivity)]
      exact mul_le_mul_of_nonneg_left (pow_le_pow_left₀ hδ.le hh m) (abs_nonneg _)
    calc ‖g h‖ ≤ |B| := h2.trans (le_abs_self _)
      _ ≤ |B| / δ ^ m * h ^ m := h3
      _ ≤ _ := mul_le_mul_of_nonneg_right (le_max_right _ _) (by positivity)

variable [CompleteSpace E] (A : E →L[ℝ] E)

/-- The flow of a linear differential equation. -/
lemma linear_flow {T : ℝ} {y : ℝ → E} (hy : ∀ t, 0 ≤ t → t ≤ T → HasDerivAt y (A (y t)) t) {t h : ℝ} (ht : 0 ≤ t) (hh : 0 ≤ h) (hT : t + h ≤ T) :
    y (t + h) = NormedSpace.exp (h • A) (y t) := by
  have hd : ∀ τ, 0 ≤ τ → τ ≤ h → HasDerivAt (fun τ => NormedSpace.exp ((-τ) • A) (y (t + τ))) 0 τ := by
    intro τ h0 h1
    have h1 : HasDerivAt (fun τ : ℝ => NormedSpace.exp ((-τ) • A)) (-(NormedSpace.exp ((-τ) • A) * A)) τ := by
      have := (hasDerivAt_exp_smul_const (𝕂 := ℝ) A (-τ)).scomp τ (hasDerivAt_neg τ)
      simpa [Function.comp_def] using this
    have h2 : HasDerivAt (fun τ => y (t + τ)) (A (y (t + τ))) τ := (hy (t + τ) (by linarith) (by linarith)).comp_const_add t τ
    have h3 := h1.clm_apply h2
    convert h3 using 1
    simp
  have hconst := constant_of_has_deriv_right_zero (a := 0) (b := h) (fun τ hτ => (hd τ hτ.1 hτ.2).continuousAt.continuousWithinAt)
    (fun τ hτ => (hd τ hτ.1 hτ.2.le).hasDerivWithinAt) h ⟨hh, le_rfl⟩
  simp only [neg_zero, zero_smul, NormedSpace.exp_zero, add_zero] at hconst
  have hinv : NormedSpace.exp (h • A) * NormedSpace.exp ((-h) • A) = 1 := by
    let +nondep : NormedAlgebra ℚ (E →L[ℝ] E) := .restrictScalars ℚ ℝ _
    rw [← NormedSpace.exp_add_of_commute (((Commute.refl A).smul_left h).smul_right (-h)), ← add_smul, add_neg_cancel, zero_smul, NormedSpace.exp_zero]
  have h5 : NormedSpace.exp (h • A) (NormedSpace.exp ((-h) • A) (y (t + h))) = y (t + h) := by
    have := congrArg (fun B : E →L[ℝ] E => B (y (t + h))) hinv
    simpa using this
  rw [← h5, hconst]
  simp

lemma exp_continuous : Continuous fun h : ℝ => NormedSpace.exp (h • A) :=
  continuous_iff_continuousAt.mpr fun t => (hasDerivAt_exp_smul_const (𝕂 := ℝ) A t).continuousAt

lemma exp_bound (H : ℝ) : ∃ N, 0 ≤ N ∧ ∀ h, 0 ≤ h → h ≤ H → ‖NormedSpace.exp (h • A)‖ ≤ 1 + N * h := by
  have hO : (fun h : ℝ => NormedSpace.exp (h • A) - 1) =O[𝓝 0] fun h => h ^ 1 := by
    have := (hasDerivAt_exp_smul_const (𝕂 := ℝ) A 0).differentiableAt.isBigO_sub
    simpa using this
  obtain ⟨N, hN0, hN⟩ := bound_on ((exp_continuous A).sub continuous_const) hO H
  refine ⟨N, hN0, fun h h0 h1 => ?_⟩
  have h2 : ‖NormedSpace.exp (h • A) - 1‖ ≤ N * h ^ 1 := hN h h0 h1
  have h3 := norm_add_le (NormedSpace.exp (h • A) - 1) (1 : E →L[ℝ] E)
  have h4 : ‖(1 : E →L[ℝ] E)‖ ≤ 1 := ContinuousLinearMap.norm_id_le
  rw [sub_add_cancel] at h3
  rw [pow_one] at h2
  linarith

/-- One step against the flow, uniformly in the starting point. -/
lemma linear_local {b : List ℝ} {beta : ℕ → ℕ → ℝ} (he : ∀ k < b.length, ∀ j < b.length, k ≤ j → beta k j = 0) {q : ℕ}
    (hq : HasOrder b beta q) (H : ℝ) :
    ∃ C, 0 ≤ C ∧ ∀ h, 0 ≤ h → h ≤ H → ∀ u, ‖rkStep b beta A h u - NormedSpace.exp (h • A) u‖ ≤ C * h ^ (q + 1) * ‖u‖ := by
  set L : (E →L[ℝ] E) →L[ℝ] (E →L[ℝ] E) := ContinuousLinearMap.mul ℝ (E →L[ℝ] E) A
  have hL : ∀ B, L B = A * B := fun B => ContinuousLinearMap.mul_apply' ℝ _ A B
  have hO := Butcher.local_error (u := (1 : E →L[ℝ] E)) (f := fun B => L B) (y := fun t => NormedSpace.exp (t • A)) beta b he hq (L.analyticAt _)
    (by simp) (Eventually.of_forall fun t => by rw [hL]; exact hasDerivAt_exp_smul_const' (𝕂 := ℝ) A t)
  have hcont : Continuous fun h : ℝ => rkStep b beta (fun B => L B) h (1 : E →L[ℝ] E) - NormedSpace.exp (h • A) :=
    (rkStep_continuous L.continuous b beta _).sub (exp_continuous A)
  obtain ⟨C, hC0, hC⟩ := bound_on hcont hO H
  refine ⟨C, hC0, fun h h0 h1 u => ?_⟩
  have hmap := rkStep_map (R := fun B => L B) (f := fun v => A v) (ContinuousLinearMap.apply ℝ E u).toLinearMap (fun B => by simp [hL]) b beta h 1
  have hmap' : (rkStep b beta (fun B => L B) h (1 : E →L[ℝ] E)) u = rkStep b beta (fun v => A v) h u := by
    simpa using hmap
  show ‖rkStep b beta (fun v => A v) h u - NormedSpace.exp (h • A) u‖ ≤ _
  rw [← hmap', ← sub_apply]
  exact (ContinuousLinearMap.le_opNorm _ u).trans (mul_le_mul_of_nonneg_right (hC h h0 h1) (norm_nonneg _))

lemma rkStep_sub {b : List ℝ} {beta : ℕ → ℕ → ℝ} (h : ℝ) (u v : E) : rkStep b beta A h u - rkStep b beta A h v = rkStep b beta A h (u - v) := by
  have e1 := rkStep_linear b beta A.toLinearMap h u
  have e2 := rkStep_linear b beta A.toLinearMap h v
  have e3 := rkStep_linear b beta A.toLinearMap h (u - v)
  have c : ∀ w, rkStep b beta A h w = rkStep b beta A.toLinearMap h w := fun _ => rfl
  rw [c, c, c, e1, e2, e3, ← Finset.sum_sub_distrib]
  refine Finset.sum_congr rfl fun m _ => ?_
  rw [← smul_sub, map_sub]

/-- Error propagation and local error together: one step of the recursion. -/
lemma linear_step {b : List ℝ} {beta : ℕ → ℕ → ℝ} (he : ∀ k < b.length, ∀ j < b.length, k ≤ j → beta k j = 0) {q : ℕ}
    (hq : HasOrder b beta q) {T : ℝ} {y : ℝ → E} (hy : ∀ t, 0 ≤ t → t ≤ T → HasDerivAt y (A (y t)) t) (H : ℝ) :
    ∃ C M, 0 ≤ C ∧ 0 ≤ M ∧ ∀ h, 0 ≤ h → h ≤ H → ∀ t, 0 ≤ t → t + h ≤ T → ∀ u,
      ‖rkStep b beta A h u - y (t + h)‖ ≤ (1 + M * h) * ‖u - y t‖ + C * h ^ (q + 1) := by
  obtain ⟨C, hC0, hC⟩ := linear_local A he hq H
  have hyc : ContinuousOn y (Set.Icc 0 T) := fun t ht => (hy t ht.1 ht.2).continuousAt.continuousWithinAt
  obtain ⟨B, hB⟩ := (isCompact_Icc (a := (0 : ℝ)) (b := T)).exists_bound_of_continuousOn hyc
  obtain ⟨N, hN0, hN⟩ := exp_bound A H
  refine ⟨C * |B|, N + C * |H| ^ q, by positivity, by positivity, ?_⟩
  intro h h0 h1 t t0 t1 u
  have hexp := hN h h0 h1
  have hst : ‖rkStep b beta A h (u - y t)‖ ≤ (1 + (N + C * |H| ^ q) * h) * ‖u - y t‖ := by
    have h2 := hC h h0 h1 (u - y t)
    have h3 : ‖NormedSpace.exp (h • A) (u - y t)‖ ≤ (1 + N * h) * ‖u - y t‖ :=
      (ContinuousLinearMap.le_opNorm _ _).trans (mul_le_mul_of_nonneg_right hexp (norm_nonneg _))
    have h4 : ‖rkStep b beta A h (u - y t)‖ ≤ (1 + N * h) * ‖u - y t‖ + C * h ^ (q + 1) * ‖u - y t‖ := by
      have := norm_add_le (rkStep b beta A h (u - y t) - NormedSpace.exp (h • A) (u - y t)) (NormedSpace.exp (h • A) (u - y t))
      rw [sub_add_cancel] at this
      linarith
    refine h4.trans ?_
    rw [← add_mul]
    refine mul_le_mul_of_nonneg_right ?_ (norm_nonneg _)
    have h5 : C * h ^ (q + 1) ≤ C * |H| ^ q * h := by
      rw [pow_succ, ← mul_assoc]
      exact mul_le_mul_of_nonneg_right (mul_le_mul_of_nonneg_left (pow_le_pow_left₀ h0 (h1.trans (le_abs_self _)) q) hC0) h0
    linarith
  have hloc : ‖rkStep b beta A h (y t) - y (t + h)‖ ≤ C * |B| * h ^ (q + 1) := by
    rw [linear_flow A hy t0 h0 t1]
    refine (hC h h0 h1 (y t)).trans ?_
    have := (hB t ⟨t0, by linarith⟩).trans (le_abs_self B)
    calc C * h ^ (q + 1) * ‖y t‖ ≤ C * h ^ (q + 1) * |B| := mul_le_mul_of_nonneg_left this (by positivity)
      _ = _ := by ring
  have : rkStep b beta A h u - y (t + h) = rkStep b beta A h (u - y t) + (rkStep b beta A h (y t) - y (t + h)) := by
    rw [← rkStep_sub A h u (y t)]; abel
  rw [this]
  exact (norm_add_le _ _).trans (add_le_add hst hloc)

/-- **Convergence, linear equations.** Steps of any bounded size. -/
theorem converges_linear {b : List ℝ} {beta : ℕ → ℕ → ℝ} (he : ∀ k < b.length, ∀ j < b.length, k ≤ j → beta k j = 0) {q : ℕ}
    (hq : HasOrder b beta q) {T : ℝ} (hT : 0 ≤ T) {y : ℝ → E} (hy : ∀ t, 0 ≤ t → t ≤ T → HasDerivAt y (A (y t)) t) (H : ℝ) :
    ∃ C, 0 ≤ C ∧ ∀ (u : ℕ → E) (t : ℕ → ℝ) (hm : ℝ), 0 ≤ hm → hm ≤ H → u 0 = y 0 → t 0 = 0 →
      ∀ K, (∀ k < K, t k ≤ t (k + 1) ∧ t (k + 1) - t k ≤ hm ∧ u (k + 1) = rkStep b beta A (t (k + 1) - t k) (u k)) → t K ≤ T →
        ‖u K - y (t K)‖ ≤ C * hm ^ q := by
  obtain ⟨C, M, hC, hM, hst⟩ := linear_step A he hq hy H
  refine ⟨C * T * Real.exp (M * T), by positivity, ?_⟩
  intro u t hm hm0 hmH hu0 ht0 K
  have key : ∀ K, (∀ k < K, t k ≤ t (k + 1) ∧ t (k + 1) - t k ≤ hm ∧ u (k + 1) = rkStep b beta A (t (k + 1) - t k) (u k)) → t K ≤ T →
      0 ≤ t K ∧ ‖u K - y (t K)‖ ≤ C * hm ^ q * t K * Real.exp (M * t K) := by
    intro K
    induction K with
    | zero => intro _ _; rw [hu0, ht0]; simp
    | succ K ih =>
      intro hK hTK
      obtain ⟨h1, h2, h3⟩ := hK K (by omega)
      obtain ⟨i0, i1⟩ := ih (fun k hk => hK k (by omega)) (h1.trans hTK)
      have hs := hst (t (K + 1) - t K) (by linarith) (by linarith) (t K) i0 (by linarith) (u K)
      rw [← h3] at hs
      have := recursion hC hM i0 (show 0 ≤ t (K + 1) - t K by linarith) h2 (norm_nonneg _) i1 hs
      rw [add_sub_cancel] at this
      exact ⟨i0.trans h1, this⟩
  intro hK hTK
  obtain ⟨i0, i1⟩ := key K hK hTK
  refine i1.trans ?_
  calc C * hm ^ q * t K * Real.exp (M * t K) ≤ C * hm ^ q * T * Real.exp (M * T) := by gcongr
    _ = _ := by ring

end

end Dg1d.Converge
