import Verif.Proofs.Legendre
import Mathlib.Analysis.Complex.Exponential
import Mathlib.Analysis.Complex.Basic
import Mathlib.Analysis.SpecialFunctions.Integrals.Basic
import Mathlib.Analysis.SpecialFunctions.ExpDeriv
import Mathlib.Analysis.Calculus.Deriv.Polynomial
import Mathlib.MeasureTheory.Integral.IntervalIntegral.FundThmCalculus
import Mathlib.Algebra.Polynomial.Eval.Algebra
import Mathlib.Topology.Algebra.Polynomial

/-! Helper lemmas for C101: the weak form of advection in one cell, tested against all polynomials of degree `p`, and what it says about
the relation between growth factor and shift from cell to cell. -/

open Polynomial

namespace Dg1d.Spec

/-! ### Real and complex polynomials -/

lemma legendre_map (n : ℕ) : (legendre ℝ n).map Complex.ofRealHom = legendre ℂ n := by
  induction n using Nat.strong_induction_on with
  | _ n ih =>
    match n with
    | 0 => simp [legendre]
    | 1 => simp [legendre]
    | n + 2 =>
      unfold legendre
      rw [Polynomial.map_mul, Polynomial.map_sub, Polynomial.map_mul, Polynomial.map_mul, Polynomial.map_mul, ih n (by omega), ih (n + 1) (by omega)]
      simp

lemma intPoly_map (f : ℝ[X]) : intPoly (f.map Complex.ofRealHom) = ((intPoly f : ℝ) : ℂ) := by
  have h : f.map Complex.ofRealHom = derivative ((antideriv f).map Complex.ofRealHom) := by
    rw [derivative_map, derivative_antideriv]
  rw [h, intPoly_derivative]
  have e1 : ((antideriv f).map Complex.ofRealHom).eval (1 : ℂ) = (((antideriv f).eval 1 : ℝ) : ℂ) := by
    simp
  have e2 : ((antideriv f).map Complex.ofRealHom).eval (-1 : ℂ) = (((antideriv f).eval (-1) : ℝ) : ℂ) := by
    have := Polynomial.eval_map_apply (f := Complex.ofRealHom) (p := antideriv f) (-1 : ℝ)
    simpa using this
  rw [e1, e2, ← Complex.ofReal_sub]
  rfl

/-! ### The polynomial that represents the value at `-1` -/

/-- `∑ (2n+1)/2 (-1)^n P_n`. -/
noncomputable def leftEnd (p : ℕ) : ℂ[X] := legSeries (p + 1) fun n => (2 * (n : ℂ) + 1) / 2 * (-1) ^ n

lemma leftEnd_legendre {p n : ℕ} (hn : n < p + 1) : intPoly (leftEnd p * legendre ℂ n) = (-1) ^ n := by
  have h := intPoly_legSeries (K := ℂ) (p + 1) (fun n => (2 * (n : ℂ) + 1) / 2 * (-1) ^ n) n hn
  have h0 := norm_ne_zero (K := ℂ) n
  unfold leftEnd
  rw [h]
  field_simp

lemma leftEnd_eval {p : ℕ} (f : ℂ[X]) (hf : f.degree < ((p + 1 : ℕ) : WithBot ℕ)) : intPoly (leftEnd p * f) = f.eval (-1) := by
  obtain ⟨c, rfl⟩ := exists_legSeries (p + 1) f hf
  conv_lhs => unfold legSeries
  rw [Finset.mul_sum, intPoly_sum, legSeries_eval]
  refine Finset.sum_congr rfl fun n hn => ?_
  rw [mul_left_comm, intPoly_C_mul, leftEnd_legendre (Finset.mem_range.mp hn), legendre_eval_neg_one]

lemma leftEnd_degree (p : ℕ) : (leftEnd p).natDegree ≤ p := by
  have h : (leftEnd p).degree < ((p + 1 : ℕ) : WithBot ℕ) := legSeries_degree _ _
  by_cases h0 : leftEnd p = 0
  · rw [h0]; simp
  · exact Nat.lt_succ_iff.mp ((natDegree_lt_iff_degree_lt h0).mpr h)

lemma leftEnd_coeff (p : ℕ) : (leftEnd p).coeff p ≠ 0 := by
  unfold leftEnd legSeries
  rw [Finset.sum_range_succ, coeff_add, finsetSum_coeff, Finset.sum_eq_zero, zero_add, coeff_C_mul]
  · refine mul_ne_zero (mul_ne_zero (div_ne_zero (norm_ne_zero p) two_ne_zero) (pow_ne_zero _ (by norm_num))) (legendre_degree p).2
  · intro n hn
    rw [coeff_C_mul, coeff_eq_zero_of_natDegree_lt, mul_zero]
    rw [(legendre_degree n).1]
    exact Finset.mem_range.mp hn

/-- How far the integral against `leftEnd` is from the value at `-1`, first monomial where it fails. -/
lemma leftEnd_defect (p : ℕ) : (-1 : ℂ) ^ (p + 1) - intPoly (leftEnd p * X ^ (p + 1)) ≠ 0 := by
  intro h0
  obtain ⟨hd, hc⟩ := legendre_degree (K := ℂ) (p + 1)
  set a := (legendre ℂ (p + 1)).coeff (p + 1) with ha
  set g : ℂ[X] := legendre ℂ (p + 1) - C a * X ^ (p + 1) with hg
  have hgd : g.degree < ((p + 1 : ℕ) : WithBot ℕ) := by
    rw [degree_lt_iff_coeff_zero]
    intro m hm
    rcases Nat.eq_or_lt_of_le hm with rfl | hm'
    · simp [hg, ha]
    · rw [hg, coeff_sub, coeff_C_mul, coeff_X_pow, if_neg (by omega), mul_zero, sub_zero]
      exact coeff_eq_zero_of_natDegree_lt (by omega)
  have h1 := leftEnd_eval g hgd
  have h2 : intPoly (leftEnd p * legendre ℂ (p + 1)) = 0 := by
    rw [mul_comm]
    exact legendre_orthogonal_lt _ (legSeries_degree _ _)
  rw [hg, mul_sub, intPoly_sub, h2, mul_left_comm, intPoly_C_mul, eval_sub, legendre_eval_neg_one, eval_mul, eval_C, eval_pow, eval_X] at h1
  have h3 : (-1 : ℂ) ^ (p + 1) = a * ((-1) ^ (p + 1) - intPoly (leftEnd p * X ^ (p + 1))) := by linear_combination -h1
  rw [h0, mul_zero] at h3
  exact pow_ne_zero _ (by norm_num) h3

/-! ### From the weak form to a differential equation -/

/-- The residual of the eigenvalue problem is a multiple of `leftEnd`. -/
lemma weak_strong {p : ℕ} {μ t : ℂ} {v : ℕ → ℂ}
    (h : ∀ n < p + 1, μ * (2 / (2 * (n : ℂ) + 1)) * v n = ∑ j ∈ Finset.range (p + 1), intPoly (derivative (legendre ℂ n) * legendre ℂ j) * v j -
      (legSeries (p + 1) v).eval 1 + t * (-1) ^ n * (legSeries (p + 1) v).eval 1) :
    C μ * legSeries (p + 1) v + derivative (legSeries (p + 1) v) = -(C ((legSeries (p + 1) v).eval (-1) - t * (legSeries (p + 1) v).eval 1) * leftEnd p) := by
  set Q := legSeries (p + 1) v with hQ
  set J := Q.eval (-1) - t * Q.eval 1 with hJ
  have hdeg : (derivative Q).degree < ((p + 1 : ℕ) : WithBot ℕ) := lt_of_le_of_lt (degree_derivative_le) (legSeries_degree _ _)
  obtain ⟨d, hd⟩ := exists_legSeries (p + 1) _ hdeg
  have hco : ∀ n < p + 1, μ * v n + d n = -(J * ((2 * (n : ℂ) + 1) / 2 * (-1) ^ n)) := by
    intro n hn
    have h0 := norm_ne_zero (K := ℂ) n
    have h1 := intPoly_legSeries (K := ℂ) (p + 1) d n hn
    rw [← hd] at h1
    have h2 : ∑ j ∈ Finset.range (p + 1), intPoly (derivative (legendre ℂ n) * legendre ℂ j) * v j = intPoly (derivative (legendre ℂ n) * Q) := by
      rw [hQ]
      unfold legSeries
      rw [Finset.mul_sum, intPoly_sum]
      refine Finset.sum_congr rfl fun j _ => ?_
      rw [mul_left_comm, intPoly_C_mul, mul_comm]
    have h3 := h n hn
    rw [h2, intPoly_parts, legendre_eval_one, legendre_eval_neg_one] at h3
    have h4 : intPoly (legendre ℂ n * derivative Q) = 2 / (2 * (n : ℂ) + 1) * d n := by
      rw [mul_comm, h1]
      ring
    rw [h4] at h3
    have h5 : 2 / (2 * (n : ℂ) + 1) * (μ * v n + d n) = -(J * (-1) ^ n) := by rw [hJ]; linear_combination h3
    have h6 : μ * v n + d n = (2 * (n : ℂ) + 1) / 2 * (2 / (2 * (n : ℂ) + 1) * (μ * v n + d n)) := by field_simp
    rw [h6, h5]
    ring
  rw [hd, hQ]
  unfold leftEnd legSeries
  rw [Finset.mul_sum, Finset.mul_sum, ← Finset.sum_add_distrib, ← Finset.sum_neg_distrib]
  refine Finset.sum_congr rfl fun n hn => ?_
  have := congrArg C (hco n (Finset.mem_range.mp hn))
  rw [C_add, C_mul, C_neg, C_mul] at this
  linear_combination legendre ℂ n * this

/-- Polynomials whose residual is `-J R`. -/
lemma iterate_residual {Q R : ℂ[X]} {μ J : ℂ} (h : C μ * Q + derivative Q = -(C J * R)) (m : ℕ) :
    derivative^[m] Q = C ((-μ) ^ m) * Q - C J * ∑ k ∈ Finset.range m, C ((-μ) ^ (m - 1 - k)) * derivative^[k] R := by
  induction m with
  | zero => simp
  | succ m ih =>
    have hd : derivative Q = -(C J * R) - C μ * Q := by linear_combination h
    rw [Function.iterate_succ', Function.comp_apply, ih, derivative_sub, derivative_C_mul, derivative_C_mul, derivative_sum, hd]
    have e : ∑ k ∈ Finset.range m, derivative (C ((-μ) ^ (m - 1 - k)) * derivative^[k] R) = ∑ k ∈ Finset.range m, C ((-μ) ^ (m + 1 - 1 - (k + 1))) * derivative^[k + 1] R := by
      refine Finset.sum_congr rfl fun k _ => ?_
      rw [derivative_C_mul, Function.iterate_succ', Function.comp_apply, show m + 1 - 1 - (k + 1) = m - 1 - k from by omega]
    rw [e, Finset.sum_range_succ' (fun k => C ((-μ) ^ (m + 1 - 1 - k)) * derivative^[k] R)]
    simp only [add_tsub_cancel_right, tsub_zero, Function.iterate_zero, id_eq, pow_succ, C_mul, C_neg, mul_neg]
    ring

/-- `∑ (-μ)^(p-k) R^(k)(1)`. -/
noncomputable def jumpDen (p : ℕ) (μ : ℂ) : ℂ := ∑ k ∈ Finset.range (p + 1), (-μ) ^ (p - k) * (derivative^[k] (leftEnd p)).eval 1

lemma jumpDen_zero (p : ℕ) : jumpDen p 0 ≠ 0 := by
  have e : jumpDen p 0 = (derivative^[p] (leftEnd p)).eval 1 := by
    unfold jumpDen
    rw [Finset.sum_range_succ, Finset.sum_eq_zero, zero_add, Nat.sub_self, pow_zero, one_mul]
    intro k hk
    rw [neg_zero, zero_pow (by have := Finset.mem_range.mp hk; omega), zero_mul]
  have h1 : derivative^[p] (leftEnd p) = C ((p.factorial : ℂ) * (leftEnd p).coeff p) := by
    have hd : (derivative^[p] (leftEnd p)).natDegree ≤ 0 := (natDegree_iterate_derivative _ _).trans (by have := leftEnd_degree p; omega)
    rw [eq_C_of_natDegree_le_zero hd, coeff_iterate_derivative, zero_add, Nat.descFactorial_self, nsmul_eq_mul]
  rw [e, h1, eval_C]
  exact mul_ne_zero (by exact_mod_cast p.factorial_ne_zero) (leftEnd_coeff p)

lemma jumpDen_continuous (p : ℕ) : Continuous (jumpDen p) := by
  unfold jumpDen
  fun_prop

/-- The jump in terms of the value at the right end, and the polynomial identity behind it. -/
lemma jump_identity {p : ℕ} {Q : ℂ[X]} (hQ : Q.degree < ((p + 1 : ℕ) : WithBot ℕ)) {μ J : ℂ} (h : C μ * Q + derivative Q = -(C J * leftEnd p)) :
    J * jumpDen p μ = (-μ) ^ (p + 1) * Q.eval 1 ∧ C ((-μ) ^ (p + 1)) * Q = C J * ∑ k ∈ Finset.range (p + 1), C ((-μ) ^ (p - k)) * derivative^[k] (leftEnd p) := by
  have h1 := iterate_residual h (p + 1)
  have h0 : derivative^[p + 1] Q = 0 := by
    by_cases hq : Q = 0
    · rw [hq]; simp
    · exact iterate_derivative_eq_zero ((natDegree_lt_iff_degree_lt hq).mpr hQ)
  rw [h0] at h1
  have h2 : C ((-μ) ^ (p + 1)) * Q = C J * ∑ k ∈ Finset.range (p + 1), C ((-μ) ^ (p - k)) * derivative^[k] (leftEnd p) := by
    simp only [add_tsub_cancel_right] at h1
    linear_combination -h1
  refine ⟨?_, h2⟩
  have h3 := congrArg (Polynomial.eval 1) h2
  rw [eval_mul, eval_C, eval_mul, eval_C, eval_finsetSum] at h3
  rw [h3]
  unfold jumpDen
  exact congrArg _ (Finset.sum_congr rfl fun k _ => by rw [eval_mul, eval_C])

/-- Where the denominator does not vanish, the value at the right end is not zero. -/
lemma right_ne_zero {p : ℕ} {Q : ℂ[X]} (hQ : Q.degree < ((p + 1 : ℕ) : WithBot ℕ)) (hne : Q ≠ 0) {μ J : ℂ} (h : C μ * Q + derivative Q = -(C J * leftEnd p))
    (hD : jumpDen p μ ≠ 0) : Q.eval 1 ≠ 0 := by
  intro h1
  obtain ⟨a, b⟩ := jump_identity hQ h
  rw [h1, mul_zero] at a
  have hJ : J = 0 := (mul_eq_zero.mp a).resolve_right hD
  rw [hJ, C_0, zero_mul] at b h
  by_cases hμ : μ = 0
  · rw [hμ, C_0, zero_mul, zero_add, neg_zero] at h
    have h2 := derivative_eq_zero.mp h
    rw [eq_C_of_natDegree_eq_zero h2, eval_C] at h1
    rw [eq_C_of_natDegree_eq_zero h2, h1, C_0] at hne
    exact hne rfl
  · exact hne ((mul_eq_zero.mp b).resolve_left (fun hc => pow_ne_zero _ (neg_ne_zero.mpr hμ) (C_eq_zero.mp hc)))

/-! ### Multiplication by the exponential -/

/-- `e^{-μ} - ∫ e^{μ ξ} leftEnd(ξ) dξ`. -/
noncomputable def expDefect (p : ℕ) (μ : ℂ) : ℂ := Complex.exp (-μ) - ∫ ξ in (-1 : ℝ)..1, Complex.exp (μ * ξ) * (leftEnd p).eval (ξ : ℂ)

lemma exp_residual {p : ℕ} {Q : ℂ[X]} {μ J : ℂ} (h : C μ * Q + derivative Q = -(C J * leftEnd p)) :
    Complex.exp μ * Q.eval 1 - Complex.exp (-μ) * Q.eval (-1) = -J * ∫ ξ in (-1 : ℝ)..1, Complex.exp (μ * ξ) * (leftEnd p).eval (ξ : ℂ) := by
  have hder : ∀ ξ : ℝ, HasDerivAt (fun ξ : ℝ => Complex.exp (μ * ξ) * Q.eval (ξ : ℂ)) (-J * (Complex.exp (μ * ξ) * (leftEnd p).eval (ξ : ℂ))) ξ := by
    intro ξ
    have h1 : HasDerivAt (fun w : ℂ => Complex.exp (μ * w)) (Complex.exp (μ * ξ) * μ) (ξ : ℂ) := by
      have := ((hasDerivAt_id (ξ : ℂ)).const_mul μ).cexp
      simpa using this
    have h2 := (h1.mul (Q.hasDerivAt (ξ : ℂ))).comp_ofReal
    refine h2.congr_deriv ?_
    have h3 := congrArg (Polynomial.eval (ξ : ℂ)) h
    rw [eval_add, eval_mul, eval_C, eval_neg, eval_mul, eval_C] at h3
    linear_combination Complex.exp (μ * ξ) * h3
  have hcont : Continuous fun ξ : ℝ => -J * (Complex.exp (μ * ξ) * (leftEnd p).eval (ξ : ℂ)) := by
    have : Continuous fun ξ : ℝ => (leftEnd p).eval (ξ : ℂ) := (leftEnd p).continuous.comp Complex.continuous_ofReal
    fun_prop
  have key := intervalIntegral.integral_eq_sub_of_hasDerivAt (a := -1) (b := 1) (fun ξ _ => hder ξ) (hcont.intervalIntegrable _ _)
  rw [intervalIntegral.integral_const_mul] at key
  rw [key]
  push_cast
  simp

/-- **The relation between the growth factor and the shift.** -/
lemma shift_identity {p : ℕ} {Q : ℂ[X]} (hQ : Q.degree < ((p + 1 : ℕ) : WithBot ℕ)) (hne : Q ≠ 0) {μ t : ℂ}
    (h : C μ * Q + derivative Q = -(C (Q.eval (-1) - t * Q.eval 1) * leftEnd p)) (hD : jumpDen p μ ≠ 0) :
    (Complex.exp μ - Complex.exp (-μ) * t) * jumpDen p μ = (-μ) ^ (p + 1) * expDefect p μ := by
  have h1 := right_ne_zero hQ hne h hD
  have h2 := (jump_identity hQ h).1
  have h3 := exp_residual h
  refine mul_right_cancel₀ h1 ?_
  unfold expDefect
  linear_combination jumpDen p μ * h3 + (Complex.exp (-μ) - ∫ ξ in (-1 : ℝ)..1, Complex.exp (μ * ξ) * (leftEnd p).eval (ξ : ℂ)) * h2

/-! ### The size of the defect -/

lemma integral_monomial_leftEnd (p k : ℕ) : ∫ ξ in (-1 : ℝ)..1, (ξ : ℂ) ^ k * (leftEnd p).eval (ξ : ℂ) = intPoly (leftEnd p * X ^ k) := by
  set f := leftEnd p * X ^ k with hf
  have hder : ∀ ξ : ℝ, HasDerivAt (fun ξ : ℝ => (antideriv f).eval (ξ : ℂ)) ((ξ : ℂ) ^ k * (leftEnd p).eval (ξ : ℂ)) ξ := by
    intro ξ
    have := ((antideriv f).hasDerivAt (ξ : ℂ)).comp_ofReal
    refine this.congr_deriv ?_
    rw [derivative_antideriv, hf, eval_mul, eval_pow, eval_X, mul_comm]
  have hcont : Continuous fun ξ : ℝ => (ξ : ℂ) ^ k * (leftEnd p).eval (ξ : ℂ) := by
    have : Continuous fun ξ : ℝ => (leftEnd p).eval (ξ : ℂ) := (leftEnd p).continuous.comp Complex.continuous_ofReal
    fun_prop
  rw [intervalIntegral.integral_eq_sub_of_hasDerivAt (fun ξ _ => hder ξ) (hcont.intervalIntegrable _ _)]
  unfold intPoly intBetween
  push_cast
  rfl

/-- The leading term of the defect. -/
lemma expDefect_leading (p : ℕ) : ∃ a : ℂ, a ≠ 0 ∧ ∃ K : ℝ, 0 ≤ K ∧ ∀ μ : ℂ, ‖μ‖ ≤ 1 → ‖expDefect p μ - a * μ ^ (p + 1)‖ ≤ K * ‖μ‖ ^ (p + 2) := by
  have hcR : Continuous fun ξ : ℝ => (leftEnd p).eval (ξ : ℂ) := (leftEnd p).continuous.comp Complex.continuous_ofReal
  obtain ⟨B, hB⟩ : ∃ B : ℝ, ∀ ξ ∈ Set.Icc (-1 : ℝ) 1, ‖(leftEnd p).eval (ξ : ℂ)‖ ≤ B := isCompact_Icc.exists_bound_of_continuousOn hcR.continuousOn
  have hB0 : 0 ≤ B := (norm_nonneg _).trans (hB 0 (by norm_num))
  set K0 : ℝ := ((p + 2).succ * ((p + 2).factorial * (p + 2 : ℕ) : ℝ)⁻¹ : ℝ) with hK0
  have hK0' : 0 ≤ K0 := by positivity
  set a : ℂ := ((-1 : ℂ) ^ (p + 1) - intPoly (leftEnd p * X ^ (p + 1))) / ((p + 1).factorial : ℂ) with ha
  refine ⟨a, div_ne_zero (leftEnd_defect p) (by exact_mod_cast (p + 1).factorial_ne_zero), K0 + 2 * (K0 * B), by positivity, fun μ hμ => ?_⟩
  set tail : ℂ → ℂ := fun x => Complex.exp x - ∑ m ∈ Finset.range (p + 2), x ^ m / (m.factorial : ℂ) with htail
  have htb : ∀ x : ℂ, ‖x‖ ≤ ‖μ‖ → ‖tail x‖ ≤ ‖μ‖ ^ (p + 2) * K0 := by
    intro x hx
    refine (Complex.exp_bound (hx.trans hμ) (Nat.succ_pos (p + 1))).trans ?_
    exact mul_le_mul_of_nonneg_right (pow_le_pow_left₀ (norm_nonneg _) hx _) hK0'
  have hI : ∫ ξ in (-1 : ℝ)..1, Complex.exp (μ * ξ) * (leftEnd p).eval (ξ : ℂ) =
      (∑ m ∈ Finset.range (p + 2), μ ^ m / (m.factorial : ℂ) * intPoly (leftEnd p * X ^ m)) + ∫ ξ in (-1 : ℝ)..1, tail (μ * ξ) * (leftEnd p).eval (ξ : ℂ) := by
    have e1 : ∀ ξ : ℝ, Complex.exp (μ * ξ) * (leftEnd p).eval (ξ : ℂ) =
        (∑ m ∈ Finset.range (p + 2), μ ^ m / (m.factorial : ℂ) * ((ξ : ℂ) ^ m * (leftEnd p).eval (ξ : ℂ))) + tail (μ * ξ) * (leftEnd p).eval (ξ : ℂ) := by
      intro ξ
      have : ∑ m ∈ Finset.range (p + 2), μ ^ m / (m.factorial : ℂ) * ((ξ : ℂ) ^ m * (leftEnd p).eval (ξ : ℂ)) =
          (∑ m ∈ Finset.range (p + 2), (μ * ξ) ^ m / (m.factorial : ℂ)) * (leftEnd p).eval (ξ : ℂ) := by
        rw [Finset.sum_mul]
        exact Finset.sum_congr rfl fun m _ => by rw [mul_pow]; ring
      rw [this, htail]
      ring
    have c1 : ∀ m : ℕ, Continuous fun ξ : ℝ => μ ^ m / (m.factorial : ℂ) * ((ξ : ℂ) ^ m * (leftEnd p).eval (ξ : ℂ)) := fun m => by fun_prop
    rw [intervalIntegral.integral_congr (g := fun ξ : ℝ => (∑ m ∈ Finset.range (p + 2), μ ^ m / (m.factorial : ℂ) * ((ξ : ℂ) ^ m * (leftEnd p).eval (ξ : ℂ))) +
      tail (μ * ξ) * (leftEnd p).eval (ξ : ℂ)) fun ξ _ => e1 ξ, intervalIntegral.integral_add, intervalIntegral.integral_finsetSum]
    · refine congrArg (· + _) (Finset.sum_congr rfl fun m _ => ?_)
      rw [intervalIntegral.integral_const_mul, integral_monomial_leftEnd]
    · exact fun m _ => (c1 m).intervalIntegrable _ _
    · exact (continuous_finsetSum _ fun m _ => c1 m).intervalIntegrable _ _
    · refine Continuous.intervalIntegrable ?_ _ _
      simp only [htail]
      fun_prop
  have hE : Complex.exp (-μ) = (∑ m ∈ Finset.range (p + 2), μ ^ m / (m.factorial : ℂ) * (-1) ^ m) + tail (-μ) := by
    have : ∑ m ∈ Finset.range (p + 2), μ ^ m / (m.factorial : ℂ) * (-1) ^ m = ∑ m ∈ Finset.range (p + 2), (-μ) ^ m / (m.factorial : ℂ) :=
      Finset.sum_congr rfl fun m _ => by rw [neg_pow μ]; ring
    rw [this, htail]
    ring
  have hmain : expDefect p μ - a * μ ^ (p + 1) = tail (-μ) - ∫ ξ in (-1 : ℝ)..1, tail (μ * ξ) * (leftEnd p).eval (ξ : ℂ) := by
    unfold expDefect
    rw [hI, hE]
    have hz : ∑ m ∈ Finset.range (p + 1), μ ^ m / (m.factorial : ℂ) * (-1) ^ m = ∑ m ∈ Finset.range (p + 1), μ ^ m / (m.factorial : ℂ) * intPoly (leftEnd p * X ^ m) := by
      refine Finset.sum_congr rfl fun m hm => ?_
      rw [leftEnd_eval (X ^ m) (by rw [degree_X_pow]; exact_mod_cast Finset.mem_range.mp hm), eval_pow, eval_X]
    rw [Finset.sum_range_succ _ (p + 1), Finset.sum_range_succ _ (p + 1), hz, ha]
    ring
  rw [hmain]
  have hint : ‖∫ ξ in (-1 : ℝ)..1, tail (μ * ξ) * (leftEnd p).eval (ξ : ℂ)‖ ≤ ‖μ‖ ^ (p + 2) * K0 * B * |1 - (-1 : ℝ)| := by
    refine intervalIntegral.norm_integral_le_of_norm_le_const fun ξ hξ => ?_
    rw [Set.uIoc_of_le (by norm_num)] at hξ
    rw [norm_mul]
    refine mul_le_mul (htb _ ?_) (hB ξ ⟨hξ.1.le, hξ.2⟩) (norm_nonneg _) (by positivity)
    rw [norm_mul, Complex.norm_real, Real.norm_eq_abs]
    exact mul_le_of_le_one_right (norm_nonneg _) (abs_le.mpr ⟨hξ.1.le, hξ.2⟩)
  have h1 := htb (-μ) (by rw [norm_neg])
  refine (norm_sub_le _ _).trans ((add_le_add h1 hint).trans (le_of_eq ?_))
  rw [show |1 - (-1 : ℝ)| = 2 by norm_num]
  ring

/-! ### Both bounds -/

/-- Near `μ = 0` the shift is `e^{-2μ}` up to exactly the order `2p + 2`. -/
lemma shift_bounds (p : ℕ) : ∃ r : ℝ, 0 < r ∧ r ≤ 1 / 8 ∧ ∃ c₁ c₂ : ℝ, 0 < c₁ ∧ 0 < c₂ ∧ ∀ (Q : ℂ[X]) (μ t : ℂ), Q.degree < ((p + 1 : ℕ) : WithBot ℕ) → Q ≠ 0 → ‖μ‖ ≤ r →
    C μ * Q + derivative Q = -(C (Q.eval (-1) - t * Q.eval 1) * leftEnd p) →
    c₁ * ‖μ‖ ^ (2 * p + 2) ≤ ‖1 - Complex.exp (-(2 * μ)) * t‖ ∧ ‖1 - Complex.exp (-(2 * μ)) * t‖ ≤ c₂ * ‖μ‖ ^ (2 * p + 2) := by
  obtain ⟨a, ha, K, hK, hdef⟩ := expDefect_leading p
  have ha' : 0 < ‖a‖ := norm_pos_iff.mpr ha
  set d := ‖jumpDen p 0‖ with hd
  have hd' : 0 < d := norm_pos_iff.mpr (jumpDen_zero p)
  obtain ⟨r₀, hr₀, hcont⟩ := Metric.continuousAt_iff.mp (jumpDen_continuous p).continuousAt (d / 2) (by positivity)
  refine ⟨min (min (r₀ / 2) (1 / 8)) (‖a‖ / (2 * (K + 1))), by positivity, (min_le_left _ _).trans (min_le_right _ _), (‖a‖ / 2) / (4 * d), 2 * (2 * ‖a‖) / (d / 2), by positivity, by positivity, ?_⟩
  intro Q μ t hQ hne hμ h
  have hμ1 : ‖μ‖ ≤ 1 / 8 := hμ.trans ((min_le_left _ _).trans (min_le_right _ _))
  have hμ2 : ‖μ‖ < r₀ := lt_of_le_of_lt (hμ.trans ((min_le_left _ _).trans (min_le_left _ _))) (by linarith)
  have hμ3 : (K + 1) * ‖μ‖ ≤ ‖a‖ / 2 := by
    have := hμ.trans (min_le_right _ _)
    rw [le_div_iff₀ (by positivity)] at this
    linarith
  have hc := hcont (x := μ) (by rwa [dist_zero_right])
  rw [dist_eq_norm] at hc
  have hD1 : d / 2 ≤ ‖jumpDen p μ‖ := by
    have := norm_sub_norm_le (jumpDen p 0) (jumpDen p μ)
    rw [norm_sub_rev] at this
    linarith
  have hD2 : ‖jumpDen p μ‖ ≤ 2 * d := by
    have := norm_sub_norm_le (jumpDen p μ) (jumpDen p 0)
    linarith
  have hid := shift_identity hQ hne h (norm_pos_iff.mp (by linarith))
  have hfac : Complex.exp μ - Complex.exp (-μ) * t = Complex.exp μ * (1 - Complex.exp (-(2 * μ)) * t) := by
    have : Complex.exp (-μ) = Complex.exp μ * Complex.exp (-(2 * μ)) := by rw [← Complex.exp_add]; congr 1; ring
    rw [this]
    ring
  rw [hfac] at hid
  have hn := congrArg norm hid
  rw [norm_mul, norm_mul, norm_mul, norm_pow, norm_neg] at hn
  set E := ‖1 - Complex.exp (-(2 * μ)) * t‖ with hE
  have hE0 : 0 ≤ E := norm_nonneg _
  have hx : ‖Complex.exp μ - 1‖ ≤ 1 / 4 := by
    have h1 := Complex.norm_exp_sub_one_sub_id_le (x := μ) (by linarith)
    have h2 := norm_add_le (Complex.exp μ - 1 - μ) μ
    rw [sub_add_cancel] at h2
    nlinarith [norm_nonneg μ]
  have hx1 : 1 / 2 ≤ ‖Complex.exp μ‖ := by
    have := norm_sub_norm_le 1 (Complex.exp μ)
    rw [norm_sub_rev, norm_one] at this
    linarith
  have hx2 : ‖Complex.exp μ‖ ≤ 2 := by
    have := norm_sub_norm_le (Complex.exp μ) 1
    rw [norm_one] at this
    linarith
  have hl := hdef μ (by linarith)
  have hlb : K * ‖μ‖ ^ (p + 2) ≤ ‖a‖ / 2 * ‖μ‖ ^ (p + 1) := by
    have : K * ‖μ‖ ≤ ‖a‖ / 2 := by nlinarith [norm_nonneg μ]
    calc K * ‖μ‖ ^ (p + 2) = K * ‖μ‖ * ‖μ‖ ^ (p + 1) := by ring
      _ ≤ _ := mul_le_mul_of_nonneg_right this (by positivity)
  have hm : ‖a * μ ^ (p + 1)‖ = ‖a‖ * ‖μ‖ ^ (p + 1) := by rw [norm_mul, norm_pow]
  have hL1 : ‖a‖ / 2 * ‖μ‖ ^ (p + 1) ≤ ‖expDefect p μ‖ := by
    have := norm_sub_norm_le (a * μ ^ (p + 1)) (expDefect p μ)
    rw [norm_sub_rev, hm] at this
    linarith
  have hL2 : ‖expDefect p μ‖ ≤ 2 * ‖a‖ * ‖μ‖ ^ (p + 1) := by
    have := norm_sub_norm_le (expDefect p μ) (a * μ ^ (p + 1))
    rw [hm] at this
    have : 0 ≤ ‖a‖ * ‖μ‖ ^ (p + 1) := by positivity
    linarith
  have hpow : ‖μ‖ ^ (2 * p + 2) = ‖μ‖ ^ (p + 1) * ‖μ‖ ^ (p + 1) := by rw [← pow_add]; congr 1; omega
  have hP : 0 ≤ ‖μ‖ ^ (p + 1) := by positivity
  rw [hpow]
  constructor
  · rw [div_mul_eq_mul_div, div_le_iff₀ (by positivity)]
    have h1 : ‖a‖ / 2 * (‖μ‖ ^ (p + 1) * ‖μ‖ ^ (p + 1)) ≤ ‖μ‖ ^ (p + 1) * ‖expDefect p μ‖ := by nlinarith
    rw [← hn] at h1
    refine h1.trans ?_
    calc ‖Complex.exp μ‖ * E * ‖jumpDen p μ‖ ≤ 2 * E * (2 * d) := by gcongr
      _ = E * (4 * d) := by ring
  · have h1 : ‖μ‖ ^ (p + 1) * ‖expDefect p μ‖ ≤ 2 * ‖a‖ * (‖μ‖ ^ (p + 1) * ‖μ‖ ^ (p + 1)) := by nlinarith
    rw [← hn] at h1
    rw [div_mul_eq_mul_div, le_div_iff₀ (by positivity)]
    have h2 : 1 / 2 * E * (d / 2) ≤ ‖Complex.exp μ‖ * E * ‖jumpDen p μ‖ := by gcongr
    linarith

end Dg1d.Spec
