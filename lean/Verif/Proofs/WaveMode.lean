import Verif.Proofs.Dispersion

/-! Helper lemmas for C103: the wave of the DG operator and its adjoint written out, and how close the part of exact data along the wave comes to
the exact cell average. -/

open Polynomial

namespace Dg1d.Spec

/-! ### The wave -/

/-- `∑ (-μ)^(p-k) R^(k)`, `R` the polynomial representing the value at `-1`. -/
noncomputable def modePoly (p : ℕ) (μ : ℂ) : ℂ[X] := ∑ k ∈ Finset.range (p + 1), C ((-μ) ^ (p - k)) * derivative^[k] (leftEnd p)

lemma leftEnd_deriv_degree (p k : ℕ) : (derivative^[k] (leftEnd p)).natDegree ≤ p - k :=
  (natDegree_iterate_derivative _ _).trans (by have := leftEnd_degree p; omega)

lemma modePoly_degree (p : ℕ) (μ : ℂ) : (modePoly p μ).degree < ((p + 1 : ℕ) : WithBot ℕ) := by
  have h : (modePoly p μ).natDegree ≤ p := by
    refine natDegree_sum_le_of_forall_le _ _ fun k _ => ?_
    exact (natDegree_C_mul_le _ _).trans ((leftEnd_deriv_degree p k).trans (by omega))
  exact lt_of_le_of_lt (degree_le_natDegree) (by exact_mod_cast Nat.lt_succ_of_le h)

lemma modePoly_eval_one (p : ℕ) (μ : ℂ) : (modePoly p μ).eval 1 = jumpDen p μ := by
  unfold modePoly jumpDen
  rw [eval_finsetSum]
  exact Finset.sum_congr rfl fun k _ => by rw [eval_mul, eval_C]

/-- The residual of the wave. -/
lemma modePoly_residual (p : ℕ) (μ : ℂ) : C μ * modePoly p μ + derivative (modePoly p μ) = -(C ((-μ) ^ (p + 1)) * leftEnd p) := by
  have h0 : derivative^[p + 1] (leftEnd p) = 0 := iterate_derivative_eq_zero (Nat.lt_succ_of_le (leftEnd_degree p))
  have h1 : derivative (modePoly p μ) = ∑ k ∈ Finset.range (p + 1), C ((-μ) ^ (p - k)) * derivative^[k + 1] (leftEnd p) := by
    unfold modePoly
    rw [derivative_sum]
    refine Finset.sum_congr rfl fun k _ => ?_
    rw [derivative_C_mul, Function.iterate_succ', Function.comp_apply]
  have h2 : C μ * modePoly p μ = -∑ k ∈ Finset.range (p + 1), C ((-μ) ^ (p + 1 - k)) * derivative^[k] (leftEnd p) := by
    unfold modePoly
    rw [Finset.mul_sum, ← Finset.sum_neg_distrib]
    refine Finset.sum_congr rfl fun k hk => ?_
    rw [show p + 1 - k = (p - k) + 1 from by have := Finset.mem_range.mp hk; omega, pow_succ, C_mul, C_neg]
    ring
  rw [h1, h2, Finset.sum_range_succ' (fun k => C ((-μ) ^ (p + 1 - k)) * derivative^[k] (leftEnd p)), Finset.sum_range_succ, h0, mul_zero, add_zero]
  simp only [Nat.add_sub_add_right, tsub_zero, Function.iterate_zero, id_eq]
  ring

lemma modePoly_zero (p : ℕ) : modePoly p 0 = C (jumpDen p 0) := by
  have hd : derivative (modePoly p 0) = 0 := by
    have := modePoly_residual p 0
    rwa [C_0, zero_mul, zero_add, neg_zero, zero_pow (by omega), C_0, zero_mul, neg_zero] at this
  have h1 := derivative_eq_zero.mp hd
  have h2 := eq_C_of_natDegree_eq_zero h1
  rw [h2]
  congr 1
  rw [← modePoly_eval_one, h2, eval_C, coeff_C_zero]

/-! ### The operator on polynomials and the adjoint wave -/

/-- The DG operator of one cell: `-V' - (V(-1) - t V(1)) R`. -/
noncomputable def cellOp (p : ℕ) (t : ℂ) (V : ℂ[X]) : ℂ[X] := -derivative V - C (V.eval (-1) - t * V.eval 1) * leftEnd p

/-- The weak form tested against all Legendre polynomials. -/
lemma weak_cellOp {p : ℕ} {t : ℂ} {v g : ℕ → ℂ}
    (h : ∀ n < p + 1, (2 / (2 * (n : ℂ) + 1)) * g n = ∑ j ∈ Finset.range (p + 1), intPoly (derivative (legendre ℂ n) * legendre ℂ j) * v j -
      (legSeries (p + 1) v).eval 1 + t * (-1) ^ n * (legSeries (p + 1) v).eval 1) : legSeries (p + 1) g = cellOp p t (legSeries (p + 1) v) := by
  unfold cellOp
  set Q := legSeries (p + 1) v with hQ
  set J := Q.eval (-1) - t * Q.eval 1 with hJ
  have hdeg : (derivative Q).degree < ((p + 1 : ℕ) : WithBot ℕ) := lt_of_le_of_lt (degree_derivative_le) (legSeries_degree _ _)
  obtain ⟨d, hd⟩ := exists_legSeries (p + 1) _ hdeg
  have hco : ∀ n < p + 1, g n = -d n - J * ((2 * (n : ℂ) + 1) / 2 * (-1) ^ n) := by
    intro n hn
    have h0 := norm_ne_zero (K := ℂ) n
    have h1 := intPoly_legSeries (K := ℂ) (p + 1) d n hn
    rw [← hd] at h1
    have h2 : ∑ j ∈ Finset.range (p + 1), intPoly (derivative (legendre ℂ n) * legendre ℂ j) * v j = intPoly (derivative (legendre ℂ n) * Q) := by
      rw [hQ]
      unfold legSeries
      rw [Finset.mul_sum, intPoly_sum]
      refine Finset.sum_congr rfl fun j _ => ?_
      rw [mul_left_comm, intPoly_C_mul, mul_comm]
    have h3 := h n hn
    rw [h2, intPoly_parts, legendre_eval_one, legendre_eval_neg_one] at h3
    have h4 : intPoly (legendre ℂ n * derivative Q) = 2 / (2 * (n : ℂ) + 1) * d n := by
      rw [mul_comm, h1]
      ring
    rw [h4] at h3
    have h5 : 2 / (2 * (n : ℂ) + 1) * (g n + d n) = -(J * (-1) ^ n) := by rw [hJ]; linear_combination h3
    have h6 : g n + d n = (2 * (n : ℂ) + 1) / 2 * (2 / (2 * (n : ℂ) + 1) * (g n + d n)) := by field_simp
    rw [h5] at h6
    linear_combination h6
  rw [hd]
  unfold leftEnd legSeries
  rw [Finset.mul_sum, ← Finset.sum_neg_distrib, ← Finset.sum_sub_distrib]
  refine Finset.sum_congr rfl fun n hn => ?_
  have := congrArg C (hco n (Finset.mem_range.mp hn))
  rw [C_sub, C_neg, C_mul] at this
  linear_combination legendre ℂ n * this

lemma intPoly_flip (f : ℂ[X]) : intPoly (f.comp (-X)) = intPoly f := by
  have h : f.comp (-X) = derivative (-((antideriv f).comp (-X))) := by
    rw [derivative_neg, derivative_comp, derivative_antideriv]
    simp
  rw [h, intPoly_derivative]
  unfold intPoly intBetween
  simp only [eval_neg, eval_comp, eval_X, neg_neg]
  ring

lemma flip_degree {f : ℂ[X]} {n : ℕ} (h : f.degree < (n : WithBot ℕ)) : (f.comp (-X)).degree < (n : WithBot ℕ) := by
  by_cases h0 : f = 0
  · rw [h0, zero_comp]
    rw [h0] at h
    exact h
  · have h1 : (f.comp (-X)).natDegree = f.natDegree := by rw [natDegree_comp, natDegree_neg, natDegree_X, mul_one]
    have h2 := (natDegree_lt_iff_degree_lt h0).mpr h
    exact lt_of_le_of_lt degree_le_natDegree (by rw [h1]; exact_mod_cast h2)

lemma leftEnd_flip {p : ℕ} (f : ℂ[X]) (hf : f.degree < ((p + 1 : ℕ) : WithBot ℕ)) : intPoly ((leftEnd p).comp (-X) * f) = f.eval 1 := by
  have h : (leftEnd p).comp (-X) * f = (leftEnd p * f.comp (-X)).comp (-X) := by
    rw [mul_comp, comp_assoc]
    simp
  rw [h, intPoly_flip, leftEnd_eval _ (flip_degree hf), eval_comp]
  simp

/-- Pairing with the flipped wave multiplies the operator with the eigenvalue. -/
lemma adjoint_mode {p : ℕ} {μ t : ℂ} {Q : ℂ[X]} (hQ : Q.degree < ((p + 1 : ℕ) : WithBot ℕ)) (h : cellOp p t Q = C μ * Q) {V : ℂ[X]}
    (hV : V.degree < ((p + 1 : ℕ) : WithBot ℕ)) : intPoly (Q.comp (-X) * cellOp p t V) = μ * intPoly (Q.comp (-X) * V) := by
  set Qf := Q.comp (-X) with hQf
  have hder : derivative Qf = C μ * Qf + C (Q.eval (-1) - t * Q.eval 1) * (leftEnd p).comp (-X) := by
    have h1 : derivative Q = -(C μ * Q) - C (Q.eval (-1) - t * Q.eval 1) * leftEnd p := by
      unfold cellOp at h
      linear_combination -h
    rw [hQf, derivative_comp, h1]
    simp only [derivative_neg, derivative_X, sub_comp, neg_comp, mul_comp, C_comp]
    ring
  have e1 : Qf.eval 1 = Q.eval (-1) := by rw [hQf, eval_comp]; simp
  have e2 : Qf.eval (-1) = Q.eval 1 := by rw [hQf, eval_comp]; simp
  have hp := intPoly_parts Qf V
  rw [hder, e1, e2] at hp
  have h2 : intPoly ((C μ * Qf + C (Q.eval (-1) - t * Q.eval 1) * (leftEnd p).comp (-X)) * V) = μ * intPoly (Qf * V) + (Q.eval (-1) - t * Q.eval 1) * V.eval 1 := by
    rw [add_mul, intPoly_add, mul_assoc, mul_assoc, intPoly_C_mul, intPoly_C_mul, leftEnd_flip V hV]
  rw [h2] at hp
  have h3 : Qf * cellOp p t V = -(Qf * derivative V) - C (V.eval (-1) - t * V.eval 1) * (leftEnd p * Qf) := by
    unfold cellOp
    ring
  rw [h3, intPoly_sub, intPoly_neg, intPoly_C_mul, leftEnd_eval Qf (flip_degree hQ), e2]
  linear_combination -hp

/-! ### Integrals -/

lemma integral_poly (f : ℂ[X]) : ∫ ξ in (-1 : ℝ)..1, f.eval (ξ : ℂ) = intPoly f := by
  have hder : ∀ ξ : ℝ, HasDerivAt (fun ξ : ℝ => (antideriv f).eval (ξ : ℂ)) (f.eval (ξ : ℂ)) ξ := by
    intro ξ
    have := ((antideriv f).hasDerivAt (ξ : ℂ)).comp_ofReal
    refine this.congr_deriv ?_
    rw [derivative_antideriv]
  have hcont : Continuous fun ξ : ℝ => f.eval (ξ : ℂ) := f.continuous.comp Complex.continuous_ofReal
  rw [intervalIntegral.integral_eq_sub_of_hasDerivAt (fun ξ _ => hder ξ) (hcont.intervalIntegrable _ _)]
  unfold intPoly intBetween
  push_cast
  rfl

lemma cont_poly (f : ℂ[X]) : Continuous fun ξ : ℝ => f.eval (ξ : ℂ) := f.continuous.comp Complex.continuous_ofReal

/-- The wave times the exponential. -/
noncomputable def expMode (p : ℕ) (μ : ℂ) (ξ : ℝ) : ℂ := Complex.exp (μ * ξ) * (modePoly p μ).eval (ξ : ℂ)

lemma hasDerivAt_expMode (p : ℕ) (μ : ℂ) (ξ : ℝ) :
    HasDerivAt (expMode p μ) (-(-μ) ^ (p + 1) * (Complex.exp (μ * ξ) * (leftEnd p).eval (ξ : ℂ))) ξ := by
  have h1 : HasDerivAt (fun w : ℂ => Complex.exp (μ * w)) (Complex.exp (μ * ξ) * μ) (ξ : ℂ) := by
    have := ((hasDerivAt_id (ξ : ℂ)).const_mul μ).cexp
    simpa using this
  have h2 := (h1.mul ((modePoly p μ).hasDerivAt (ξ : ℂ))).comp_ofReal
  refine h2.congr_deriv ?_
  have h3 := congrArg (Polynomial.eval (ξ : ℂ)) (modePoly_residual p μ)
  rw [eval_add, eval_mul, eval_C, eval_neg, eval_mul, eval_C] at h3
  linear_combination Complex.exp (μ * ξ) * h3

lemma expMode_continuous (p : ℕ) (μ : ℂ) : Continuous (expMode p μ) := by
  have := cont_poly (modePoly p μ)
  unfold expMode
  fun_prop

/-- Weighted tail of the representer: `∫ (ξ+1) e^{μξ} R(ξ) dξ`. -/
noncomputable def rampDefect (p : ℕ) (μ : ℂ) : ℂ := ∫ ξ in (-1 : ℝ)..1, ((ξ : ℂ) + 1) * (Complex.exp (μ * ξ) * (leftEnd p).eval (ξ : ℂ))

lemma integral_expMode (p : ℕ) (μ : ℂ) : ∫ ξ in (-1 : ℝ)..1, expMode p μ ξ = 2 * (Complex.exp μ * jumpDen p μ) + (-μ) ^ (p + 1) * rampDefect p μ := by
  have hder : ∀ ξ : ℝ, HasDerivAt (fun ξ : ℝ => ((ξ : ℂ) + 1) * expMode p μ ξ)
      (expMode p μ ξ + -(-μ) ^ (p + 1) * (((ξ : ℂ) + 1) * (Complex.exp (μ * ξ) * (leftEnd p).eval (ξ : ℂ)))) ξ := by
    intro ξ
    have h1 : HasDerivAt (fun ξ : ℝ => (ξ : ℂ) + 1) 1 ξ := by
      have := ((hasDerivAt_id (ξ : ℂ)).add_const 1).comp_ofReal
      simpa using this
    refine (h1.mul (hasDerivAt_expMode p μ ξ)).congr_deriv ?_
    ring
  have c1 := expMode_continuous p μ
  have c0 := cont_poly (leftEnd p)
  have c2 : Continuous fun ξ : ℝ => -(-μ) ^ (p + 1) * (((ξ : ℂ) + 1) * (Complex.exp (μ * ξ) * (leftEnd p).eval (ξ : ℂ))) := by fun_prop
  have key := intervalIntegral.integral_eq_sub_of_hasDerivAt (a := -1) (b := 1) (fun ξ _ => hder ξ) ((c1.add c2).intervalIntegrable _ _)
  rw [intervalIntegral.integral_add (c1.intervalIntegrable _ _) (c2.intervalIntegrable _ _), intervalIntegral.integral_const_mul] at key
  have e1 : expMode p μ 1 = Complex.exp μ * jumpDen p μ := by
    unfold expMode
    rw [Complex.ofReal_one, mul_one, modePoly_eval_one]
  rw [e1] at key
  unfold rampDefect
  push_cast at key
  linear_combination key

/-- The integral of the wave. -/
lemma integral_mode (p : ℕ) (μ : ℂ) : μ * intPoly (modePoly p μ) =
    Complex.exp μ * jumpDen p μ * (Complex.exp μ - Complex.exp (-μ)) - (-μ) ^ (p + 1) * (Complex.exp μ * expDefect p μ) := by
  have h1 := congrArg intPoly (modePoly_residual p μ)
  have hρ : intPoly (leftEnd p) = 1 := by
    have := leftEnd_eval (p := p) 1 (by rw [degree_one]; exact_mod_cast Nat.succ_pos p)
    rwa [mul_one, eval_one] at this
  rw [intPoly_add, intPoly_C_mul, intPoly_derivative, intPoly_neg, intPoly_C_mul, hρ, modePoly_eval_one] at h1
  have h2 := exp_residual (modePoly_residual p μ)
  rw [modePoly_eval_one] at h2
  have h3 : ∫ ξ in (-1 : ℝ)..1, Complex.exp (μ * ξ) * (leftEnd p).eval (ξ : ℂ) = Complex.exp (-μ) - expDefect p μ := by
    unfold expDefect
    ring
  rw [h3] at h2
  have h4 : Complex.exp μ * Complex.exp (-μ) = 1 := by rw [← Complex.exp_add, add_neg_cancel, Complex.exp_zero]
  linear_combination h1 - Complex.exp μ * h2 + (jumpDen p μ + (-μ) ^ (p + 1) - (modePoly p μ).eval (-1)) * h4

end Dg1d.Spec
