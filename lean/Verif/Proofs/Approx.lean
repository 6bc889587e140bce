import Mathlib.Analysis.Calculus.Taylor
import Mathlib.Analysis.Calculus.IteratedDeriv.Lemmas
import Mathlib.MeasureTheory.Integral.IntervalIntegral.IntegrationByParts
import Mathlib.MeasureTheory.Integral.IntervalIntegral.FundThmCalculus
import Verif.Proofs.Basis
import Verif.Proofs.Energy

/-! Helper lemmas: Legendre coefficients of functions, the projection that is exact at the right end of the cell, and how well both
approximate smooth functions. -/

open Polynomial Dg1d.Spec

namespace Dg1d.Approx

/-- Legendre coefficient of a function on `[-1, 1]`. -/
noncomputable def legCoef (g : ℝ → ℝ) (n : ℕ) : ℝ := (2 * (n : ℝ) + 1) / 2 * ∫ ξ in (-1 : ℝ)..1, g ξ * (legendre ℝ n).eval ξ

/-- Coefficients of the polynomial of degree `p` with the first `p` Legendre coefficients of `g` and its value at the right end. -/
noncomputable def rad (p : ℕ) (g : ℝ → ℝ) (n : ℕ) : ℝ := if n < p then legCoef g n else g 1 - ∑ k ∈ Finset.range p, legCoef g k

lemma legendre_bounded (p : ℕ) : ∃ B : ℝ, 1 ≤ B ∧ ∀ n ≤ p, ∀ ξ ∈ Set.Icc (-1 : ℝ) 1, |(legendre ℝ n).eval ξ| ≤ B := by
  induction p with
  | zero =>
    refine ⟨1, le_rfl, fun n hn ξ _ => ?_⟩
    rw [Nat.le_zero.mp hn, legendre_zero]
    simp
  | succ p ih =>
    obtain ⟨B, h1, hB⟩ := ih
    obtain ⟨B', hB'⟩ := isCompact_Icc.exists_bound_of_continuousOn (s := Set.Icc (-1 : ℝ) 1) (legendre ℝ (p + 1)).continuous.continuousOn
    refine ⟨max B B', le_max_of_le_left h1, fun n hn ξ hξ => ?_⟩
    rcases Nat.le_succ_iff.mp hn with h | h
    · exact (hB n h ξ hξ).trans (le_max_left _ _)
    · subst h
      exact (hB' ξ hξ).trans (le_max_right _ _)

lemma legCoef_sub {g h : ℝ → ℝ} (hg : Continuous g) (hh : Continuous h) (n : ℕ) : legCoef (fun ξ => g ξ - h ξ) n = legCoef g n - legCoef h n := by
  unfold legCoef
  rw [← mul_sub, ← intervalIntegral.integral_sub]
  · simp only [sub_mul]
  · exact (hg.mul (legendre ℝ n).continuous).intervalIntegrable _ _
  · exact (hh.mul (legendre ℝ n).continuous).intervalIntegrable _ _

lemma legCoef_const_mul (a : ℝ) (g : ℝ → ℝ) (n : ℕ) : legCoef (fun ξ => a * g ξ) n = a * legCoef g n := by
  unfold legCoef
  rw [show (fun ξ => a * g ξ * (legendre ℝ n).eval ξ) = fun ξ => a * (g ξ * (legendre ℝ n).eval ξ) by funext ξ; ring,
    intervalIntegral.integral_const_mul]
  ring

lemma legCoef_sum {ι : Type*} (S : Finset ι) {g : ι → ℝ → ℝ} (hg : ∀ i ∈ S, Continuous (g i)) (n : ℕ) :
    legCoef (fun ξ => ∑ i ∈ S, g i ξ) n = ∑ i ∈ S, legCoef (g i) n := by
  unfold legCoef
  rw [← Finset.mul_sum, ← intervalIntegral.integral_finsetSum]
  · simp only [Finset.sum_mul]
  · intro i hi
    exact ((hg i hi).mul (legendre ℝ n).continuous).intervalIntegrable _ _

lemma rad_sub (p : ℕ) {g h : ℝ → ℝ} (hg : Continuous g) (hh : Continuous h) (n : ℕ) :
    rad p (fun ξ => g ξ - h ξ) n = rad p g n - rad p h n := by
  unfold rad
  simp only [legCoef_sub hg hh, Finset.sum_sub_distrib]
  split
  · rfl
  · ring

lemma rad_const_mul (p : ℕ) (a : ℝ) (g : ℝ → ℝ) (n : ℕ) : rad p (fun ξ => a * g ξ) n = a * rad p g n := by
  unfold rad
  simp only [legCoef_const_mul, ← Finset.mul_sum]
  split
  · rfl
  · ring

lemma rad_sum (p : ℕ) {ι : Type*} (S : Finset ι) {g : ι → ℝ → ℝ} (hg : ∀ i ∈ S, Continuous (g i)) (n : ℕ) :
    rad p (fun ξ => ∑ i ∈ S, g i ξ) n = ∑ i ∈ S, rad p (g i) n := by
  unfold rad
  simp only [legCoef_sum S hg]
  by_cases h : n < p
  · simp only [if_pos h]
  · simp only [if_neg h, Finset.sum_sub_distrib]
    rw [Finset.sum_comm]

lemma legCoef_poly {N : ℕ} (c : ℕ → ℝ) {n : ℕ} (hn : n < N) : legCoef (fun ξ => (legSeries N c).eval ξ) n = c n := by
  unfold legCoef
  simp only [← eval_mul]
  rw [integral_eq_intPoly, intPoly_legSeries _ _ _ hn]
  have := norm_ne_zero (K := ℝ) n
  field_simp

lemma rad_poly {p : ℕ} (c : ℕ → ℝ) {n : ℕ} (hn : n < p + 1) : rad p (fun ξ => (legSeries (p + 1) c).eval ξ) n = c n := by
  unfold rad
  by_cases h : n < p
  · rw [if_pos h, legCoef_poly c hn]
  · rw [if_neg h]
    simp only
    rw [legSeries_eval, Finset.sum_range_succ]
    have : n = p := by omega
    subst this
    rw [Finset.sum_congr rfl fun k hk => legCoef_poly (N := n + 1) c (Nat.lt_succ_of_lt (Finset.mem_range.mp hk))]
    simp only [legendre_eval_one, mul_one]
    ring

/-- Right end value. -/
lemma rad_one (p : ℕ) (g : ℝ → ℝ) : (legSeries (p + 1) (rad p g)).eval 1 = g 1 := by
  rw [legSeries_eval, Finset.sum_range_succ]
  simp only [legendre_eval_one, mul_one]
  have : ∑ k ∈ Finset.range p, rad p g k = ∑ k ∈ Finset.range p, legCoef g k :=
    Finset.sum_congr rfl fun k hk => if_pos (Finset.mem_range.mp hk)
  rw [this, rad, if_neg (lt_irrefl p)]
  ring

/-- Against derivatives of the basis the projection is exact. -/
lemma rad_pair {p : ℕ} {g : ℝ → ℝ} (hg : Continuous g) {n : ℕ} (hn : n < p + 1) :
    intPoly (derivative (legendre ℝ n) * legSeries (p + 1) (rad p g)) = ∫ ξ in (-1 : ℝ)..1, g ξ * (derivative (legendre ℝ n)).eval ξ := by
  have hdeg : (derivative (legendre ℝ n)).degree < p := by
    by_cases h0 : derivative (legendre ℝ n) = 0
    · rw [h0, degree_zero]; exact WithBot.bot_lt_coe _
    · refine (degree_derivative_lt (legendre_ne_zero n)).trans_le ?_
      rw [legendre_degree']
      exact_mod_cast (by omega : n ≤ p)
  obtain ⟨d, hd⟩ := exists_legSeries p _ hdeg
  have h1 : legSeries (p + 1) (fun k => if k < p then d k else 0) = legSeries p d := by
    unfold legSeries
    rw [Finset.sum_range_succ]
    simp only [if_neg (lt_irrefl p), C_0, zero_mul, add_zero]
    exact Finset.sum_congr rfl fun k hk => by rw [if_pos (Finset.mem_range.mp hk)]
  rw [hd, ← h1, intPoly_sq, Finset.sum_range_succ]
  simp only [h1, if_neg (lt_irrefl p), zero_mul, mul_zero, add_zero]
  have h2 : ∀ ξ, g ξ * (legSeries p d).eval ξ = ∑ k ∈ Finset.range p, d k * (g ξ * (legendre ℝ k).eval ξ) := by
    intro ξ
    rw [legSeries_eval, Finset.mul_sum]
    exact Finset.sum_congr rfl fun k _ => by ring
  simp only [h2]
  rw [intervalIntegral.integral_finsetSum (f := fun k ξ => d k * (g ξ * (legendre ℝ k).eval ξ))
    fun k _ => (continuous_const.mul (hg.mul (legendre ℝ k).continuous)).intervalIntegrable _ _]
  refine Finset.sum_congr rfl fun k hk => ?_
  rw [intervalIntegral.integral_const_mul]
  unfold rad legCoef
  rw [if_pos (Finset.mem_range.mp hk), if_pos (Finset.mem_range.mp hk)]
  have := norm_ne_zero (K := ℝ) k
  field_simp

/-- Integration by parts. -/
lemma parts {g g' : ℝ → ℝ} (hg : ∀ ξ, HasDerivAt g (g' ξ) ξ) (hg' : Continuous g') (n : ℕ) :
    ∫ ξ in (-1 : ℝ)..1, g ξ * (derivative (legendre ℝ n)).eval ξ = g 1 - (-1) ^ n * g (-1) - ∫ ξ in (-1 : ℝ)..1, g' ξ * (legendre ℝ n).eval ξ := by
  rw [intervalIntegral.integral_mul_deriv_eq_deriv_mul (u := g) (v := fun ξ => (legendre ℝ n).eval ξ) (u' := g') (v' := fun ξ => (derivative (legendre ℝ n)).eval ξ)
    (fun ξ _ => hg ξ) (fun ξ _ => (legendre ℝ n).hasDerivAt ξ) (hg'.intervalIntegrable _ _) ((derivative (legendre ℝ n)).continuous.intervalIntegrable _ _),
    legendre_eval_one, legendre_eval_neg_one]
  ring

lemma legCoef_bound {p : ℕ} {B : ℝ} (hB : ∀ n ≤ p, ∀ ξ ∈ Set.Icc (-1 : ℝ) 1, |(legendre ℝ n).eval ξ| ≤ B) {g : ℝ → ℝ} {κ : ℝ}
    (hκ : ∀ ξ ∈ Set.Icc (-1 : ℝ) 1, |g ξ| ≤ κ) {n : ℕ} (hn : n ≤ p) : |legCoef g n| ≤ (2 * (p : ℝ) + 1) * B * κ := by
  have h0 : 0 ≤ κ := (abs_nonneg _).trans (hκ 0 (by constructor <;> norm_num))
  have hB0 : 0 ≤ B := (abs_nonneg _).trans (hB 0 (Nat.zero_le _) 0 (by constructor <;> norm_num))
  have hint : ‖∫ ξ in (-1 : ℝ)..1, g ξ * (legendre ℝ n).eval ξ‖ ≤ (B * κ) * |1 - (-1)| := by
    refine intervalIntegral.norm_integral_le_of_norm_le_const fun ξ hξ => ?_
    rw [Set.uIoc_of_le (by norm_num)] at hξ
    have hξ' : ξ ∈ Set.Icc (-1 : ℝ) 1 := ⟨hξ.1.le, hξ.2⟩
    rw [norm_mul, Real.norm_eq_abs, Real.norm_eq_abs, mul_comm]
    exact mul_le_mul (hB n hn ξ hξ') (hκ ξ hξ') (abs_nonneg _) hB0
  rw [Real.norm_eq_abs, show |(1 : ℝ) - (-1)| = 2 by norm_num] at hint
  unfold legCoef
  rw [abs_mul, abs_of_nonneg (by positivity)]
  have hnp : (n : ℝ) ≤ p := by exact_mod_cast hn
  calc (2 * (n : ℝ) + 1) / 2 * |∫ ξ in (-1 : ℝ)..1, g ξ * (legendre ℝ n).eval ξ| ≤ (2 * (n : ℝ) + 1) / 2 * (B * κ * 2) :=
        mul_le_mul_of_nonneg_left hint (by positivity)
    _ = (2 * (n : ℝ) + 1) * (B * κ) := by ring
    _ ≤ (2 * (p : ℝ) + 1) * (B * κ) := mul_le_mul_of_nonneg_right (by linarith) (by positivity)
    _ = _ := by ring

/-- Bound of both kinds of coefficients. -/
lemma coef_bounds (p : ℕ) : ∃ R : ℝ, 1 ≤ R ∧ ∀ (g : ℝ → ℝ) (κ : ℝ), (∀ ξ ∈ Set.Icc (-1 : ℝ) 1, |g ξ| ≤ κ) →
    ∀ n < p + 1, |legCoef g n| ≤ R * κ ∧ |rad p g n| ≤ R * κ := by
  obtain ⟨B, hB1, hB⟩ := legendre_bounded p
  refine ⟨1 + (p + 1) * ((2 * p + 1) * B), ?_, ?_⟩
  · have : (0 : ℝ) ≤ ((p : ℝ) + 1) * ((2 * p + 1) * B) := by positivity
    linarith
  · intro g κ hκ n hn
    have h0 : 0 ≤ κ := (abs_nonneg _).trans (hκ 0 (by constructor <;> norm_num))
    have hb : ∀ k ≤ p, |legCoef g k| ≤ (2 * (p : ℝ) + 1) * B * κ := fun k hk => legCoef_bound hB hκ hk
    have hBκ : 0 ≤ (2 * (p : ℝ) + 1) * B * κ := by positivity
    have h1 : |legCoef g n| ≤ (1 + ((p : ℝ) + 1) * ((2 * p + 1) * B)) * κ := by
      have := hb n (by omega)
      have : 0 ≤ (p : ℝ) * ((2 * (p : ℝ) + 1) * B * κ) := by positivity
      nlinarith
    refine ⟨h1, ?_⟩
    unfold rad
    split
    · exact h1
    · have h2 : |∑ k ∈ Finset.range p, legCoef g k| ≤ p * ((2 * (p : ℝ) + 1) * B * κ) := by
        refine (Finset.abs_sum_le_sum_abs _ _).trans ?_
        refine (Finset.sum_le_sum fun k hk => hb k (Finset.mem_range.mp hk).le).trans ?_
        simp
      have h3 := hκ 1 (by constructor <;> norm_num)
      have h4 := abs_sub (g 1) (∑ k ∈ Finset.range p, legCoef g k)
      nlinarith

/-- If `g` is within `η` of a polynomial of degree `p`, the two kinds of coefficients differ by a multiple of `η`, and the projection is
within a multiple of `η` of `g`. -/
lemma near_poly (p : ℕ) : ∃ R : ℝ, 1 ≤ R ∧ ∀ (g : ℝ → ℝ) (q : ℝ[X]) (η : ℝ), Continuous g → q.degree < (p + 1 : ℕ) →
    (∀ ξ ∈ Set.Icc (-1 : ℝ) 1, |g ξ - q.eval ξ| ≤ η) →
    (∀ n < p + 1, |legCoef g n - rad p g n| ≤ R * η) ∧ (∀ ξ ∈ Set.Icc (-1 : ℝ) 1, |(legSeries (p + 1) (rad p g)).eval ξ - g ξ| ≤ R * η) := by
  obtain ⟨R, hR1, hR⟩ := coef_bounds p
  obtain ⟨B, hB1, hB⟩ := legendre_bounded p
  have hbig : 2 * R ≤ 2 * R + (p + 1) * R * B := by
    have : 0 ≤ ((p : ℝ) + 1) * R * B := by positivity
    linarith
  refine ⟨2 * R + (p + 1) * R * B, by linarith, ?_⟩
  intro g q η hg hq hη
  have h0 : 0 ≤ η := (abs_nonneg _).trans (hη 0 (by constructor <;> norm_num))
  obtain ⟨c, rfl⟩ := exists_legSeries (p + 1) q hq
  have hqc : Continuous fun ξ => (legSeries (p + 1) c).eval ξ := (legSeries (p + 1) c).continuous
  have hb := hR (fun ξ => g ξ - (legSeries (p + 1) c).eval ξ) η hη
  have h1 : ∀ n < p + 1, |legCoef g n - c n| ≤ R * η ∧ |rad p g n - c n| ≤ R * η := by
    intro n hn
    have := hb n hn
    rwa [legCoef_sub hg hqc, rad_sub p hg hqc, legCoef_poly c hn, rad_poly c hn] at this
  constructor
  · intro n hn
    have := h1 n hn
    have h3 : |legCoef g n - rad p g n| ≤ |legCoef g n - c n| + |rad p g n - c n| := by
      rw [abs_sub_comm (rad p g n)]
      exact abs_sub_le _ _ _
    have := mul_le_mul_of_nonneg_right hbig h0
    linarith [(h1 n hn).1, (h1 n hn).2]
  · intro ξ hξ
    have h3 : |(legSeries (p + 1) (rad p g)).eval ξ - g ξ| ≤ |(legSeries (p + 1) (rad p g)).eval ξ - (legSeries (p + 1) c).eval ξ| + |(legSeries (p + 1) c).eval ξ - g ξ| :=
      abs_sub_le _ _ _
    have h4 : |(legSeries (p + 1) (rad p g)).eval ξ - (legSeries (p + 1) c).eval ξ| ≤ (p + 1) * R * B * η := by
      rw [legSeries_eval, legSeries_eval, ← Finset.sum_sub_distrib]
      refine (Finset.abs_sum_le_sum_abs _ _).trans ?_
      have : ∀ n ∈ Finset.range (p + 1), |rad p g n * (legendre ℝ n).eval ξ - c n * (legendre ℝ n).eval ξ| ≤ R * B * η := by
        intro n hn
        rw [Finset.mem_range] at hn
        rw [← sub_mul, abs_mul]
        calc _ ≤ (R * η) * B := mul_le_mul (h1 n hn).2 (hB n (by omega) ξ hξ) (abs_nonneg _) (by positivity)
          _ = _ := by ring
      refine (Finset.sum_le_sum this).trans ?_
      simp only [Finset.sum_const, Finset.card_range, nsmul_eq_mul]
      push_cast
      exact le_of_eq (by ring)
    have h5 := hη ξ hξ
    rw [abs_sub_comm] at h5
    nlinarith

/-- Interpolation at the nodes of a Gauss rule against the same polynomial. -/
lemma near_poly_quad {p : ℕ} {x w : ℕ → ℝ} (hG : IsGaussRule (p + 1) x w) (hx : ∀ g < p + 1, x g ∈ Set.Icc (-1 : ℝ) 1) : ∃ R : ℝ, 0 ≤ R ∧
    ∀ (g : ℝ → ℝ) (q : ℝ[X]) (η : ℝ), Continuous g → q.degree < (p + 1 : ℕ) → (∀ ξ ∈ Set.Icc (-1 : ℝ) 1, |g ξ - q.eval ξ| ≤ η) →
    ∀ a : ℕ → ℝ, (∀ i < p + 1, (legSeries (p + 1) a).eval (x i) = g (x i)) → ∀ n < p + 1, |a n - rad p g n| ≤ R * η := by
  obtain ⟨R, hR1, hR⟩ := coef_bounds p
  obtain ⟨B, hB1, hB⟩ := legendre_bounded p
  set W := ∑ i ∈ Finset.range (p + 1), |w i| with hW
  have hW0 : 0 ≤ W := Finset.sum_nonneg fun i _ => abs_nonneg _
  refine ⟨R + (2 * p + 1) * (W * B), by positivity, ?_⟩
  intro g q η hg hq hη a ha n hn
  have h0 : 0 ≤ η := (abs_nonneg _).trans (hη 0 (by constructor <;> norm_num))
  obtain ⟨c, rfl⟩ := exists_legSeries (p + 1) q hq
  have hqc : Continuous fun ξ => (legSeries (p + 1) c).eval ξ := (legSeries (p + 1) c).continuous
  have hb := (hR (fun ξ => g ξ - (legSeries (p + 1) c).eval ξ) η hη n hn).2
  rw [rad_sub p hg hqc, rad_poly c hn] at hb
  have h1 := quadCoef_of_values hG (fun k => a k - c k) (fun i => g (x i) - (legSeries (p + 1) c).eval (x i)) (by
    intro i hi
    rw [← ha i hi]
    simp only [legSeries_eval, ← Finset.sum_sub_distrib, sub_mul]) hn
  have h2 : |a n - c n| ≤ (2 * p + 1) * (W * B) * η := by
    rw [← h1]
    unfold quadCoef
    rw [abs_mul, abs_of_nonneg (by positivity)]
    have h3 : |∑ i ∈ Finset.range (p + 1), w i * (g (x i) - (legSeries (p + 1) c).eval (x i)) * (legendre ℝ n).eval (x i)| ≤ W * (η * B) := by
      refine (Finset.abs_sum_le_sum_abs _ _).trans ?_
      rw [hW, Finset.sum_mul]
      refine Finset.sum_le_sum fun i hi => ?_
      rw [Finset.mem_range] at hi
      rw [mul_assoc, abs_mul, abs_mul]
      exact mul_le_mul_of_nonneg_left (mul_le_mul (hη _ (hx i hi)) (hB n (by omega) _ (hx i hi)) (abs_nonneg _) h0) (abs_nonneg _)
    have hnp : (n : ℝ) ≤ p := by exact_mod_cast (by omega : n ≤ p)
    calc (2 * (n : ℝ) + 1) / 2 * _ ≤ (2 * (n : ℝ) + 1) / 2 * (W * (η * B)) := mul_le_mul_of_nonneg_left h3 (by positivity)
      _ ≤ (2 * p + 1) * (W * (η * B)) := mul_le_mul_of_nonneg_right (by linarith) (by positivity)
      _ = _ := by ring
  have h4 : |a n - rad p g n| ≤ |a n - c n| + |rad p g n - c n| := by
    rw [abs_sub_comm (rad p g n)]
    exact abs_sub_le _ _ _
  nlinarith

/-- A function on a cell of width `d` starting at `a`, in the local coordinate. -/
noncomputable def cellFn (v : ℝ → ℝ) (a d ξ : ℝ) : ℝ := v (a + d / 2 * (1 + ξ))

/-- A smooth function is close to a polynomial on a small cell. -/
lemma taylor_cell {p : ℕ} {v : ℝ → ℝ} (hv : ContDiff ℝ (p + 1 : ℕ) v) {M : ℝ} (hM : ∀ y, |iteratedDeriv (p + 1) v y| ≤ M) (a : ℝ) {d : ℝ} (hd : 0 < d) :
    ∃ q : ℝ[X], q.degree < (p + 1 : ℕ) ∧ ∀ ξ ∈ Set.Icc (-1 : ℝ) 1, |cellFn v a d ξ - q.eval ξ| ≤ M * d ^ (p + 1) := by
  have hab : a < a + d := by linarith
  set S := Set.Icc a (a + d) with hS
  have hM0 : 0 ≤ M := (abs_nonneg _).trans (hM 0)
  refine ⟨∑ k ∈ Finset.range (p + 1), C ((k.factorial : ℝ)⁻¹ * iteratedDerivWithin k v S a) * (C (d / 2) * (1 + X)) ^ k, ?_, ?_⟩
  · rw [degree_lt_iff_coeff_zero]
    intro m hm
    rw [finsetSum_coeff]
    refine Finset.sum_eq_zero fun k hk => ?_
    rw [Finset.mem_range] at hk
    rw [coeff_C_mul, coeff_eq_zero_of_natDegree_lt, mul_zero]
    refine lt_of_le_of_lt natDegree_pow_le ?_
    have h1 : (C (d / 2) * (1 + X) : ℝ[X]).natDegree ≤ 1 := by
      refine (natDegree_C_mul_le _ _).trans ?_
      rw [add_comm]
      exact (natDegree_add_le _ _).trans (by simp)
    calc k * (C (d / 2) * (1 + X) : ℝ[X]).natDegree ≤ k * 1 := Nat.mul_le_mul_left _ h1
      _ < m := by omega
  · intro ξ hξ
    have hx : a + d / 2 * (1 + ξ) ∈ S := by
      constructor <;> nlinarith [hξ.1, hξ.2]
    have h := taylor_mean_remainder_bound (n := p) (C := M) hab.le (f := v) (by exact_mod_cast hv.contDiffOn) hx (fun y hy => by
      rw [iteratedDerivWithin_eq_iteratedDeriv (uniqueDiffOn_Icc hab) (by exact_mod_cast hv.contDiffAt) hy]
      exact hM y)
    rw [Real.norm_eq_abs, taylor_within_apply] at h
    have he : (∑ k ∈ Finset.range (p + 1), C ((k.factorial : ℝ)⁻¹ * iteratedDerivWithin k v S a) * (C (d / 2) * (1 + X)) ^ k).eval ξ =
        ∑ k ∈ Finset.range (p + 1), ((k.factorial : ℝ)⁻¹ * (a + d / 2 * (1 + ξ) - a) ^ k) • iteratedDerivWithin k v S a := by
      rw [eval_finsetSum]
      refine Finset.sum_congr rfl fun k _ => ?_
      simp only [eval_mul, eval_C, eval_pow, eval_add, eval_one, eval_X, smul_eq_mul]
      rw [show a + d / 2 * (1 + ξ) - a = d / 2 * (1 + ξ) by ring]
      ring
    rw [he]
    refine h.trans ?_
    have h1 : (a + d / 2 * (1 + ξ) - a) ^ (p + 1) ≤ d ^ (p + 1) := by
      refine pow_le_pow_left₀ ?_ ?_ _ <;> nlinarith [hξ.1, hξ.2]
    have h2 : (1 : ℝ) ≤ p.factorial := by exact_mod_cast Nat.one_le_iff_ne_zero.mpr (Nat.factorial_ne_zero p)
    rw [div_le_iff₀ (by positivity)]
    calc M * (a + d / 2 * (1 + ξ) - a) ^ (p + 1) ≤ M * d ^ (p + 1) := mul_le_mul_of_nonneg_left h1 hM0
      _ ≤ M * d ^ (p + 1) * p.factorial := le_mul_of_one_le_right (by positivity) h2

/-- Taylor expansion of a travelling wave in time. -/
lemma taylor_time {q : ℕ} {v : ℝ → ℝ} (hv : ContDiff ℝ (q + 1 : ℕ) v) {M : ℝ} (hM : ∀ y, |iteratedDeriv (q + 1) v y| ≤ M) (y : ℝ) {h : ℝ} (h0 : 0 ≤ h) :
    |v (y - h) - ∑ k ∈ Finset.range (q + 1), h ^ k / k.factorial * ((-1) ^ k * iteratedDeriv k v y)| ≤ M * h ^ (q + 1) := by
  rcases h0.eq_or_lt with rfl | hpos
  · rw [Finset.sum_range_succ']
    simp
  have hM0 : 0 ≤ M := (abs_nonneg _).trans (hM 0)
  have hg : ContDiff ℝ (q + 1 : ℕ) fun z => v (y - z) := hv.comp (contDiff_const.sub contDiff_id)
  have hd : ∀ k z, iteratedDeriv k (fun z => v (y - z)) z = (-1) ^ k * iteratedDeriv k v (y - z) := by
    intro k z
    have := congrFun (iteratedDeriv_comp_const_sub (𝕜 := ℝ) k v y) z
    rw [this, smul_eq_mul]
  have ht := taylor_mean_remainder_bound (n := q) (C := M) hpos.le (f := fun z => v (y - z)) (by exact_mod_cast hg.contDiffOn) (x := h) ⟨hpos.le, le_rfl⟩ (fun z hz => by
      rw [iteratedDerivWithin_eq_iteratedDeriv (uniqueDiffOn_Icc hpos) (by exact_mod_cast hg.contDiffAt) hz, hd, norm_mul, norm_pow, norm_neg, norm_one, one_pow, one_mul]
      exact hM _)
  rw [Real.norm_eq_abs, taylor_within_apply] at ht
  have he : ∀ k ∈ Finset.range (q + 1), ((k.factorial : ℝ)⁻¹ * (h - 0) ^ k) • iteratedDerivWithin k (fun z => v (y - z)) (Set.Icc 0 h) 0 =
      h ^ k / k.factorial * ((-1) ^ k * iteratedDeriv k v y) := by
    intro k hk
    rw [Finset.mem_range] at hk
    rw [iteratedDerivWithin_eq_iteratedDeriv (uniqueDiffOn_Icc hpos) ((hg.of_le (by exact_mod_cast hk.le)).contDiffAt) ⟨le_rfl, hpos.le⟩, hd, sub_zero, sub_zero, smul_eq_mul]
    ring
  rw [Finset.sum_congr rfl he, sub_zero] at ht
  refine ht.trans ?_
  have h2 : (1 : ℝ) ≤ q.factorial := by exact_mod_cast Nat.one_le_iff_ne_zero.mpr (Nat.factorial_ne_zero q)
  rw [div_le_iff₀ (by positivity)]
  exact le_mul_of_one_le_right (by positivity) h2

end Dg1d.Approx
