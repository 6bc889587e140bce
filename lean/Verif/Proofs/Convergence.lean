import Mathlib.Analysis.Calculus.ContDiff.RCLike
import Mathlib.Analysis.Calculus.ContDiff.Operations
import Mathlib.Analysis.Calculus.Deriv.Shift
import Mathlib.Analysis.Calculus.MeanValue
import Mathlib.Analysis.SpecialFunctions.Exp
import Verif.Proofs.Butcher

/-! Helper lemmas: Runge–Kutta methods converge along a smooth solution of an ordinary differential equation. -/

set_option linter.unusedSectionVars false

open Dg1d.Spec Filter Topology Asymptotics

namespace Dg1d.Converge

variable {E : Type*} [NormedAddCommGroup E] [NormedSpace ℝ E]

/-! ### From pointwise to uniform order of vanishing -/

/-- A polynomial of degree less than `m` that is `O(h^m)` has zero coefficients. -/
lemma coeffs_zero (m : ℕ) (a : ℕ → E) (h : (fun h : ℝ => ∑ k ∈ Finset.range m, h ^ k • a k) =O[𝓝 0] fun h => h ^ m) : ∀ k < m, a k = 0 := by
  induction m with
  | zero => intro k hk; omega
  | succ m ih =>
    have hm : (fun h : ℝ => h ^ (m + 1)) =O[𝓝 0] fun h => h ^ m := Butcher.pow_isBigO (by omega)
    have hlast : (fun h : ℝ => h ^ m • a m) =O[𝓝 0] fun h => h ^ m := by
      refine IsBigO.of_bound ‖a m‖ (Eventually.of_forall fun h => ?_)
      rw [norm_smul, mul_comm]
    have hlow := ih (((h.trans hm).sub hlast).congr_left fun h => by rw [Finset.sum_range_succ, add_sub_cancel_right])
    have hz : (fun h : ℝ => h ^ m • a m) =O[𝓝 0] fun h => h ^ (m + 1) := by
      refine h.congr_left fun h => ?_
      rw [Finset.sum_range_succ, Finset.sum_eq_zero fun k hk => by rw [hlow k (Finset.mem_range.mp hk), smul_zero], zero_add]
    have ham : a m = 0 := by
      obtain ⟨C, hC⟩ := hz.bound
      have h1 : ∀ᶠ h in 𝓝[>] (0 : ℝ), ‖a m‖ ≤ C * h := by
        filter_upwards [nhdsWithin_le_nhds hC, self_mem_nhdsWithin] with h hb hpos
        have hpos : 0 < h := hpos
        rw [norm_smul, norm_pow, norm_pow, Real.norm_eq_abs, abs_of_pos hpos, pow_succ] at hb
        have hp : 0 < h ^ m := pow_pos hpos m
        have : h ^ m * ‖a m‖ ≤ h ^ m * (C * h) := by linarith
        exact le_of_mul_le_mul_left this hp
      have h2 : Tendsto (fun h : ℝ => C * h) (𝓝[>] 0) (𝓝 0) := by
        have : Tendsto (fun h : ℝ => C * h) (𝓝 0) (𝓝 (C * 0)) := (continuous_const.mul continuous_id).tendsto 0
        rw [mul_zero] at this
        exact this.mono_left nhdsWithin_le_nhds
      exact norm_le_zero_iff.mp (ge_of_tendsto h2 h1)
    intro k hk
    rcases Nat.lt_succ_iff_lt_or_eq.mp hk with h | h
    · exact hlow k h
    · rw [h]; exact ham

/-- Taylor expansion in the second variable, uniform in the first. -/
lemma taylor_uniform (m : ℕ) {G : ℝ × ℝ → E} {t₀ : ℝ} (hG : ContDiffAt ℝ m G (t₀, 0)) :
    ∃ (c : ℕ → ℝ → E) (C : ℝ), 0 ≤ C ∧ ∀ᶠ x in 𝓝 ((t₀, 0) : ℝ × ℝ), ‖G x - ∑ k ∈ Finset.range m, x.2 ^ k • c k x.1‖ ≤ C * |x.2| ^ m := by
  induction m generalizing G with
  | zero =>
    refine ⟨fun _ _ => 0, ‖G (t₀, 0)‖ + 1, by positivity, ?_⟩
    have := hG.continuousAt.norm.eventually_lt_const (show ‖G (t₀, 0)‖ < ‖G (t₀, 0)‖ + 1 by linarith)
    filter_upwards [this] with x hx
    simpa using hx.le
  | succ m ih =>
    obtain ⟨G', ⟨U, hU, hd⟩, hG'⟩ := contDiffAt_succ_iff_hasFDerivAt.mp hG
    obtain ⟨c, C, hC, hb⟩ := ih (G := fun x => G' x (0, 1)) (hG'.clm_apply contDiffAt_const)
    refine ⟨fun k t => if k = 0 then G (t, 0) else (1 / (k : ℝ)) • c (k - 1) t, C, hC, ?_⟩
    obtain ⟨ε, hε, hball⟩ := Metric.eventually_nhds_iff.mp (hb.and hU)
    refine Metric.eventually_nhds_iff.mpr ⟨ε, hε, ?_⟩
    rintro ⟨t, h⟩ hx
    have hin : ∀ x ∈ Metric.closedBall (0 : ℝ) |h|, dist (t, x) ((t₀, 0) : ℝ × ℝ) < ε := by
      intro x hx'
      rw [Metric.mem_closedBall] at hx'
      rw [Prod.dist_eq, max_lt_iff] at hx ⊢
      refine ⟨hx.1, hx'.trans_lt ?_⟩
      simpa [Real.dist_eq] using hx.2
    set g : ℝ → E := fun τ => G (t, τ) - ∑ k ∈ Finset.range (m + 1), τ ^ k • (if k = 0 then G (t, 0) else (1 / (k : ℝ)) • c (k - 1) t) with hg
    have hderiv : ∀ x ∈ Metric.closedBall (0 : ℝ) |h|, HasDerivAt g (G' (t, x) (0, 1) - ∑ k ∈ Finset.range m, x ^ k • c k t) x := by
      intro x hx'
      have h1 : HasDerivAt (fun τ => G (t, τ)) (G' (t, x) (0, 1)) x := by
        have h2 : HasDerivAt (fun τ : ℝ => (t, τ)) ((0 : ℝ), (1 : ℝ)) x := (hasDerivAt_const x t).prodMk (hasDerivAt_id x)
        exact (hd _ (hball (hin x hx')).2).comp_hasDerivAt x h2
      refine h1.sub ?_
      have h3 : HasDerivAt (fun τ : ℝ => ∑ k ∈ Finset.range (m + 1), τ ^ k • (if k = 0 then G (t, 0) else (1 / (k : ℝ)) • c (k - 1) t))
          (∑ k ∈ Finset.range (m + 1), ((k : ℝ) * x ^ (k - 1)) • (if k = 0 then G (t, 0) else (1 / (k : ℝ)) • c (k - 1) t)) x :=
        HasDerivAt.fun_sum fun k _ => (hasDerivAt_pow k x).smul_const _
      convert h3 using 1
      rw [Finset.sum_range_succ']
      simp only [Nat.cast_zero, zero_mul, zero_smul, add_zero, Nat.add_sub_cancel, Nat.add_eq_zero_iff, one_ne_zero, and_false, if_false]
      refine Finset.sum_congr rfl fun k _ => ?_
      rw [smul_smul]
      congr 1
      have : ((k : ℝ) + 1) ≠ 0 := by positivity
      push_cast
      field_simp
    have hmv := (convex_closedBall (0 : ℝ) |h|).norm_image_sub_le_of_norm_hasDerivWithin_le (f := g) (C := C * |h| ^ m)
      (fun x hx' => (hderiv x hx').hasDerivWithinAt)
      (fun x hx' => by
        refine ((hball (hin x hx')).1).trans ?_
        rw [Metric.mem_closedBall, Real.dist_0_eq_abs] at hx'
        simp only
        gcongr)
      (Metric.mem_closedBall_self (abs_nonneg h)) (by simp : h ∈ Metric.closedBall (0 : ℝ) |h|)
    have h0 : g 0 = 0 := by
      rw [hg]
      simp only
      rw [Finset.sum_range_succ', Finset.sum_eq_zero fun k _ => by rw [zero_pow (by omega), zero_smul]]
      simp
    rw [h0, sub_zero, sub_zero] at hmv
    rw [pow_succ, ← mul_assoc]
    exact hmv

/-- Order of vanishing, from pointwise to locally uniform. -/
lemma uniform_of_pointwise {m : ℕ} {G : ℝ × ℝ → E} {t₀ : ℝ} (hG : ContDiffAt ℝ m G (t₀, 0))
    (hO : ∀ᶠ t in 𝓝 t₀, (fun h => G (t, h)) =O[𝓝 0] fun h => h ^ m) :
    ∃ C, 0 ≤ C ∧ ∀ᶠ x in 𝓝 ((t₀, 0) : ℝ × ℝ), ‖G x‖ ≤ C * |x.2| ^ m := by
  obtain ⟨c, C, hC, hb⟩ := taylor_uniform m hG
  refine ⟨C, hC, ?_⟩
  obtain ⟨ε, hε, hball⟩ := Metric.eventually_nhds_iff.mp hb
  obtain ⟨ε', hε', hball'⟩ := Metric.eventually_nhds_iff.mp hO
  refine Metric.eventually_nhds_iff.mpr ⟨min ε ε', lt_min hε hε', ?_⟩
  rintro ⟨t, h⟩ hx
  have hxe := hx.trans_le (min_le_left _ _)
  have hxe' := hx.trans_le (min_le_right _ _)
  rw [Prod.dist_eq, max_lt_iff] at hxe'
  have h1 := hball' hxe'.1
  have h2 : (fun h => G (t, h) - ∑ k ∈ Finset.range m, h ^ k • c k t) =O[𝓝 0] fun h => h ^ m := by
    refine IsBigO.of_bound C (Metric.eventually_nhds_iff.mpr ⟨ε, hε, fun h' hh => ?_⟩)
    have := hball (y := (t, h')) (by
      rw [Prod.dist_eq, max_lt_iff] at hxe ⊢
      exact ⟨hxe.1, hh⟩)
    rw [norm_pow, Real.norm_eq_abs]
    exact this
  have h3 := coeffs_zero m (fun k => c k t) ((h1.sub h2).congr_left fun h => by abel)
  have h4 := hball hxe
  simp only at h4
  rw [Finset.sum_eq_zero fun k hk => by rw [h3 k (Finset.mem_range.mp hk), smul_zero], sub_zero] at h4
  exact h4

/-! ### Smoothness -/

variable [CompleteSpace E] {f : E → E} {y : ℝ → E}

lemma solution_contDiff {t : ℝ} (hf : ContDiffAt ℝ ⊤ f (y t)) (hy : ∀ᶠ τ in 𝓝 t, HasDerivAt y (f (y τ)) τ) (n : ℕ) : ContDiffAt ℝ n y t := by
  induction n with
  | zero =>
    exact contDiffAt_zero.mpr ⟨_, hy, fun τ hτ => hτ.continuousAt.continuousWithinAt⟩
  | succ n ih =>
    have h1 : ContDiffAt ℝ n (fun τ => f (y τ)) t := (hf.of_le (by simp)).comp t ih
    refine contDiffAt_succ_iff_hasFDerivAt.mpr ⟨fun τ => ContinuousLinearMap.toSpanSingleton ℝ (f (y τ)), ⟨_, hy, fun τ hτ => hτ.hasFDerivAt⟩, ?_⟩
    exact (ContinuousLinearMap.toSpanSingletonCLE (𝕜 := ℝ) (E := E)).contDiff.contDiffAt.comp t h1

section
variable (b : List ℝ) (beta : ℕ → ℕ → ℝ) {X : Type*} [NormedAddCommGroup X] [NormedSpace ℝ X]

/-- The increment of a step: `rkStep h u = u + h • incr h u`. -/
noncomputable def incr (f : E → E) (h : ℝ) (u : E) : E := ∑ j ∈ Finset.range b.length, b.getD j 0 • f (stageValue beta f h u j)

lemma rkStep_incr (h : ℝ) (u : E) : rkStep b beta f h u = u + h • incr b beta f h u := rfl

lemma stageValue_zero (u : E) (i : ℕ) : stageValue beta f 0 u i = u := by
  rw [stageValue, zero_smul, add_zero]

lemma stageValue_contDiff {n : ℕ} {τ : X → ℝ} {v : X → E} {x₀ : X} (h0 : τ x₀ = 0) (hτ : ContDiffAt ℝ n τ x₀) (hv : ContDiffAt ℝ n v x₀)
    (hf : ContDiffAt ℝ n f (v x₀)) (i : ℕ) : ContDiffAt ℝ n (fun x => stageValue beta f (τ x) (v x) i) x₀ := by
  induction i using Nat.strong_induction_on with
  | _ i ih =>
    have : (fun x => stageValue beta f (τ x) (v x) i) = fun x => v x + τ x • ∑ j : Fin i, beta i j • f (stageValue beta f (τ x) (v x) j) := by
      funext x
      rw [stageValue]
    rw [this]
    refine hv.add (hτ.smul (ContDiffAt.sum fun j _ => ContDiffAt.const_smul _ ?_))
    refine ContDiffAt.comp (g := f) x₀ ?_ (ih j j.2)
    rw [h0, stageValue_zero]
    exact hf

lemma incr_contDiff {n : ℕ} {τ : X → ℝ} {v : X → E} {x₀ : X} (h0 : τ x₀ = 0) (hτ : ContDiffAt ℝ n τ x₀) (hv : ContDiffAt ℝ n v x₀)
    (hf : ContDiffAt ℝ n f (v x₀)) : ContDiffAt ℝ n (fun x => incr b beta f (τ x) (v x)) x₀ := by
  unfold incr
  refine ContDiffAt.sum fun j _ => ContDiffAt.const_smul _ ?_
  refine ContDiffAt.comp (g := f) x₀ ?_ (stageValue_contDiff beta h0 hτ hv hf j)
  rw [h0, stageValue_zero]
  exact hf

/-- Local error, uniformly near a time. -/
lemma local_uniform (he : ∀ k < b.length, ∀ j < b.length, k ≤ j → beta k j = 0) {q : ℕ} (hq : HasOrder b beta q) {t₀ : ℝ}
    (hf : AnalyticAt ℝ f (y t₀)) (hy : ∀ᶠ τ in 𝓝 t₀, HasDerivAt y (f (y τ)) τ) :
    ∃ C, 0 ≤ C ∧ ∀ᶠ x in 𝓝 ((t₀, 0) : ℝ × ℝ), ‖rkStep b beta f x.2 (y x.1) - y (x.1 + x.2)‖ ≤ C * |x.2| ^ (q + 1) := by
  have hyc := solution_contDiff hf.contDiffAt hy (q + 1)
  have hG : ContDiffAt ℝ ((q + 1 : ℕ) : WithTop ℕ∞) (fun x : ℝ × ℝ => rkStep b beta f x.2 (y x.1) - y (x.1 + x.2)) (t₀, 0) := by
    have h1 : ContDiffAt ℝ ((q + 1 : ℕ) : WithTop ℕ∞) (fun x : ℝ × ℝ => y x.1) (t₀, 0) := ContDiffAt.comp (g := y) (t₀, 0) hyc contDiffAt_fst
    have h2 : ContDiffAt ℝ ((q + 1 : ℕ) : WithTop ℕ∞) (fun x : ℝ × ℝ => y (x.1 + x.2)) (t₀, 0) :=
      ContDiffAt.comp (g := y) (t₀, 0) (by simpa using hyc) (contDiffAt_fst.add contDiffAt_snd)
    exact (h1.add (contDiffAt_snd.smul (incr_contDiff b beta (τ := fun x : ℝ × ℝ => x.2) rfl contDiffAt_snd h1 hf.contDiffAt))).sub h2
  refine uniform_of_pointwise hG ?_
  have hc : ContinuousAt y t₀ := hyc.continuousAt
  filter_upwards [hy.eventually_nhds, hc.eventually hf.eventually_analyticAt] with t ht hft
  refine Butcher.local_error beta b he hq (y := fun h => y (t + h)) hft (by simp) ?_
  have h3 : Tendsto (fun h : ℝ => t + h) (𝓝 0) (𝓝 t) := by
    have h4 : Continuous fun h : ℝ => t + h := by fun_prop
    simpa using h4.tendsto 0
  filter_upwards [h3.eventually ht] with h hh
  exact hh.comp_const_add t h

/-- The increment is Lipschitz near a time. -/
lemma lipschitz_near {t₀ : ℝ} (hf : ContDiffAt ℝ 1 f (y t₀)) (hy : ContinuousAt y t₀) :
    ∃ M δ, 0 ≤ M ∧ 0 < δ ∧ ∀ t, dist t t₀ < δ → ∀ h, |h| < δ → ∀ u, ‖u - y t‖ < δ →
      ‖incr b beta f h u - incr b beta f h (y t)‖ ≤ M * ‖u - y t‖ := by
  have hc : ContDiffAt ℝ ((1 : ℕ) : WithTop ℕ∞) (fun x : ℝ × E => incr b beta f x.1 x.2) (0, y t₀) :=
    incr_contDiff b beta (τ := fun x : ℝ × E => x.1) (v := fun x => x.2) rfl contDiffAt_fst contDiffAt_snd hf
  obtain ⟨K, U, hU, hK⟩ := ContDiffAt.exists_lipschitzOnWith (𝕂 := ℝ) hc
  obtain ⟨ε, hε, hball⟩ := Metric.mem_nhds_iff.mp hU
  obtain ⟨η, hη, hyη⟩ := Metric.continuousAt_iff.mp hy (ε / 2) (by linarith)
  refine ⟨K, min (ε / 2) η, K.2, lt_min (by linarith) hη, ?_⟩
  intro t ht h hh u hu
  have h1 := hyη (ht.trans_le (min_le_right _ _))
  have h2 : ((h, y t) : ℝ × E) ∈ U := hball (by
    rw [Metric.mem_ball, Prod.dist_eq, max_lt_iff]
    refine ⟨?_, by linarith⟩
    rw [Real.dist_0_eq_abs]
    have := hh.trans_le (min_le_left _ _)
    linarith)
  have h3 : ((h, u) : ℝ × E) ∈ U := hball (by
    rw [Metric.mem_ball, Prod.dist_eq, max_lt_iff]
    constructor
    · rw [Real.dist_0_eq_abs]
      have := hh.trans_le (min_le_left _ _)
      linarith
    · have := dist_triangle u (y t) (y t₀)
      rw [dist_eq_norm u (y t)] at this
      have := hu.trans_le (min_le_left _ _)
      linarith)
  have := hK.dist_le_mul _ h3 _ h2
  rw [dist_eq_norm, Prod.dist_eq, dist_self, max_eq_right dist_nonneg, dist_eq_norm] at this
  exact this

/-- Local error and stability, uniformly on `[0, T]`. -/
lemma step_uniform (he : ∀ k < b.length, ∀ j < b.length, k ≤ j → beta k j = 0) {q : ℕ} (hq : HasOrder b beta q) (T : ℝ)
    (hf : ∀ t, 0 ≤ t → t ≤ T → AnalyticAt ℝ f (y t)) (hy : ∀ t, 0 ≤ t → t ≤ T → ∀ᶠ τ in 𝓝 t, HasDerivAt y (f (y τ)) τ) :
    ∃ C M δ, 0 ≤ C ∧ 0 ≤ M ∧ 0 < δ ∧ ∀ t, 0 ≤ t → t ≤ T → ∀ h, 0 ≤ h → h < δ → ∀ u, ‖u - y t‖ < δ →
      ‖rkStep b beta f h u - y (t + h)‖ ≤ (1 + M * h) * ‖u - y t‖ + C * h ^ (q + 1) := by
  have key : ∃ C M δ, 0 ≤ C ∧ 0 ≤ M ∧ 0 < δ ∧ ∀ t ∈ Set.Icc (0 : ℝ) T, ∀ h, 0 ≤ h → h < δ → ∀ u, ‖u - y t‖ < δ →
      ‖rkStep b beta f h u - y (t + h)‖ ≤ (1 + M * h) * ‖u - y t‖ + C * h ^ (q + 1) := by
    refine (isCompact_Icc (a := (0 : ℝ)) (b := T)).induction_on (p := fun S => ∃ C M δ, 0 ≤ C ∧ 0 ≤ M ∧ 0 < δ ∧
      ∀ t ∈ S, ∀ h, 0 ≤ h → h < δ → ∀ u, ‖u - y t‖ < δ →
      ‖rkStep b beta f h u - y (t + h)‖ ≤ (1 + M * h) * ‖u - y t‖ + C * h ^ (q + 1)) ?_ ?_ ?_ ?_
    · exact ⟨0, 0, 1, le_rfl, le_rfl, one_pos, fun t ht => ht.elim⟩
    · rintro S S' hS ⟨C, M, δ, h1, h2, h3, h4⟩
      exact ⟨C, M, δ, h1, h2, h3, fun t ht => h4 t (hS ht)⟩
    · rintro S S' ⟨C, M, δ, h1, h2, h3, h4⟩ ⟨C', M', δ', h1', h2', h3', h4'⟩
      refine ⟨max C C', max M M', min δ δ', le_max_of_le_left h1, le_max_of_le_left h2, lt_min h3 h3', ?_⟩
      rintro t (ht | ht) h h0 hh u hu
      · refine (h4 t ht h h0 (hh.trans_le (min_le_left _ _)) u (hu.trans_le (min_le_left _ _))).trans ?_
        gcongr
        · exact le_max_left _ _
        · exact le_max_left _ _
      · refine (h4' t ht h h0 (hh.trans_le (min_le_right _ _)) u (hu.trans_le (min_le_right _ _))).trans ?_
        gcongr
        · exact le_max_right _ _
        · exact le_max_right _ _
    · rintro t₀ ⟨h0, hT⟩
      obtain ⟨C, hC, hloc⟩ := local_uniform b beta he hq (hf t₀ h0 hT) (hy t₀ h0 hT)
      obtain ⟨M, δ, hM, hδ, hlip⟩ := lipschitz_near b beta (hf t₀ h0 hT).contDiffAt (hy t₀ h0 hT).self_of_nhds.continuousAt
      obtain ⟨ε, hε, hball⟩ := Metric.eventually_nhds_iff.mp hloc
      refine ⟨Metric.ball t₀ (min δ ε), mem_nhdsWithin_of_mem_nhds (Metric.ball_mem_nhds _ (lt_min hδ hε)), C, M, min δ ε, hC, hM, lt_min hδ hε, ?_⟩
      intro t ht h hh0 hh u hu
      rw [Metric.mem_ball] at ht
      have h1 := hlip t (ht.trans_le (min_le_left _ _)) h (by rw [abs_of_nonneg hh0]; exact hh.trans_le (min_le_left _ _)) u (hu.trans_le (min_le_left _ _))
      have h2 := hball (y := (t, h)) (by
        rw [Prod.dist_eq, max_lt_iff]
        refine ⟨ht.trans_le (min_le_right _ _), ?_⟩
        rw [Real.dist_0_eq_abs, abs_of_nonneg hh0]
        exact hh.trans_le (min_le_right _ _))
      simp only at h2
      rw [abs_of_nonneg hh0] at h2
      have e : rkStep b beta f h u - y (t + h) = (u - y t) + h • (incr b beta f h u - incr b beta f h (y t)) + (rkStep b beta f h (y t) - y (t + h)) := by
        rw [rkStep_incr, rkStep_incr, smul_sub]; abel
      rw [e]
      refine (norm_add_le _ _).trans (add_le_add ((norm_add_le _ _).trans ?_) h2)
      rw [norm_smul, Real.norm_eq_abs, abs_of_nonneg hh0]
      have := mul_le_mul_of_nonneg_left h1 hh0
      linarith
  obtain ⟨C, M, δ, h1, h2, h3, h4⟩ := key
  exact ⟨C, M, δ, h1, h2, h3, fun t h0 hT => h4 t ⟨h0, hT⟩⟩

end

/-- The error recursion in closed form: `E ≤ C hmax^q t exp(M t)` is kept by a step. -/
lemma recursion {C M E E' t h hm : ℝ} {q : ℕ} (hC : 0 ≤ C) (hM : 0 ≤ M) (ht : 0 ≤ t) (h0 : 0 ≤ h) (h1 : h ≤ hm) (hE0 : 0 ≤ E)
    (hE : E ≤ C * hm ^ q * t * Real.exp (M * t)) (hstep : E' ≤ (1 + M * h) * E + C * h ^ (q + 1)) :
    E' ≤ C * hm ^ q * (t + h) * Real.exp (M * (t + h)) := by
  have e0 : 1 + M * h ≤ Real.exp (M * h) := by
    have := Real.add_one_le_exp (M * h); linarith
  have e1 : Real.exp (M * (t + h)) = Real.exp (M * t) * Real.exp (M * h) := by rw [← Real.exp_add]; ring_nf
  have e2 : C * h ^ (q + 1) ≤ C * hm ^ q * h := by
    rw [pow_succ, ← mul_assoc]
    exact mul_le_mul_of_nonneg_right (mul_le_mul_of_nonneg_left (pow_le_pow_left₀ h0 h1 q) hC) h0
  have e3 : 1 ≤ Real.exp (M * (t + h)) := Real.one_le_exp (by positivity)
  have e4 : 0 ≤ C * hm ^ q * h := mul_nonneg (mul_nonneg hC (pow_nonneg (h0.trans h1) q)) h0
  calc E' ≤ (1 + M * h) * E + C * h ^ (q + 1) := hstep
    _ ≤ Real.exp (M * h) * (C * hm ^ q * t * Real.exp (M * t)) + C * hm ^ q * h * Real.exp (M * (t + h)) := by
        refine add_le_add (mul_le_mul e0 hE hE0 (Real.exp_pos _).le) (e2.trans ?_)
        nlinarith
    _ = C * hm ^ q * (t + h) * Real.exp (M * (t + h)) := by rw [e1]; ring

/-- **Convergence.** Steps of size at most `hm` from the exact initial value stay within `C hm^q` of the solution on `[0, T]`. -/
theorem converges (b : List ℝ) (beta : ℕ → ℕ → ℝ) (he : ∀ k < b.length, ∀ j < b.length, k ≤ j → beta k j = 0) {q : ℕ} (hq1 : 1 ≤ q)
    (hq : HasOrder b beta q) {T : ℝ} (hT : 0 ≤ T)
    (hf : ∀ t, 0 ≤ t → t ≤ T → AnalyticAt ℝ f (y t)) (hy : ∀ t, 0 ≤ t → t ≤ T → ∀ᶠ τ in 𝓝 t, HasDerivAt y (f (y τ)) τ) :
    ∃ C H, 0 ≤ C ∧ 0 < H ∧ ∀ (u : ℕ → E) (t : ℕ → ℝ) (hm : ℝ), 0 ≤ hm → hm ≤ H → u 0 = y 0 → t 0 = 0 →
      ∀ K, (∀ k < K, t k ≤ t (k + 1) ∧ t (k + 1) - t k ≤ hm ∧ u (k + 1) = rkStep b beta f (t (k + 1) - t k) (u k)) → t K ≤ T →
        ‖u K - y (t K)‖ ≤ C * hm ^ q := by
  obtain ⟨C, M, δ, hC, hM, hδ, hst⟩ := step_uniform b beta he hq T hf hy
  set D := C * T * Real.exp (M * T) with hD
  have hD0 : 0 ≤ D := by positivity
  refine ⟨D, min (min (δ / 2) 1) (δ / (2 * (D + 1))), hD0, by positivity, ?_⟩
  intro u t hm hm0 hmH hu0 ht0 K hK hTK
  have hm1 : hm ≤ δ / 2 := hmH.trans ((min_le_left _ _).trans (min_le_left _ _))
  have hm2 : hm ≤ 1 := hmH.trans ((min_le_left _ _).trans (min_le_right _ _))
  have hm3 : hm ≤ δ / (2 * (D + 1)) := hmH.trans (min_le_right _ _)
  have mono : ∀ k ≤ K, 0 ≤ t k ∧ t k ≤ t K := by
    intro k hk
    constructor
    · induction k with
      | zero => rw [ht0]
      | succ k ih => exact (ih (by omega)).trans (hK k (by omega)).1
    · obtain ⟨d, rfl⟩ := Nat.exists_eq_add_of_le hk
      clear hk hTK
      induction d with
      | zero => exact le_rfl
      | succ d ih => exact (ih fun j hj => hK j (by omega)).trans (hK (k + d) (by omega)).1
  have hbound : ∀ τ, 0 ≤ τ → τ ≤ T → C * hm ^ q * τ * Real.exp (M * τ) ≤ D * hm ^ q := by
    intro τ h0 h1
    rw [hD]
    calc C * hm ^ q * τ * Real.exp (M * τ) ≤ C * hm ^ q * T * Real.exp (M * T) := by gcongr
      _ = _ := by ring
  have hsmall : D * hm ^ q < δ := by
    have h1 : hm ^ q ≤ hm := by
      calc hm ^ q ≤ hm ^ 1 := pow_le_pow_of_le_one hm0 hm2 hq1
        _ = hm := pow_one _
    calc D * hm ^ q ≤ D * (δ / (2 * (D + 1))) := mul_le_mul_of_nonneg_left (h1.trans hm3) hD0
      _ < δ := by
        rw [mul_div_assoc', div_lt_iff₀ (by positivity)]
        nlinarith
  have hinv : ∀ k ≤ K, ‖u k - y (t k)‖ ≤ C * hm ^ q * t k * Real.exp (M * t k) := by
    intro k
    induction k with
    | zero => intro _; rw [hu0, ht0]; simp
    | succ k ih =>
      intro hk
      obtain ⟨h1, h2, h3⟩ := hK k (by omega)
      have hE := ih (by omega)
      obtain ⟨m0, m1⟩ := mono k (by omega)
      have hlt : ‖u k - y (t k)‖ < δ := hE.trans_lt ((hbound _ m0 (m1.trans hTK)).trans_lt hsmall)
      have hs := hst (t k) m0 (m1.trans hTK) (t (k + 1) - t k) (by linarith) (by linarith) (u k) hlt
      rw [← h3] at hs
      have := recursion hC hM m0 (show 0 ≤ t (k + 1) - t k by linarith) h2 (norm_nonneg _) hE hs
      rw [add_sub_cancel] at this
      exact this
  exact (hinv K le_rfl).trans (hbound _ (mono K le_rfl).1 hTK)

end Dg1d.Converge
