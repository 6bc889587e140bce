import Verif.Spec.Legendre
import Mathlib.Tactic.Ring
import Mathlib.Tactic.FieldSimp
import Mathlib.Tactic.LinearCombination
import Mathlib.Algebra.CharZero.Defs
import Mathlib.Algebra.Order.Field.Basic

/-! Helper lemmas about Legendre polynomials. -/

set_option linter.unusedSectionVars false

open Polynomial

namespace Dg1d.Spec
variable {K : Type*} [Field K] [CharZero K]

local notation "P" => legendre K

lemma legendre_zero : P 0 = 1 := rfl
lemma legendre_one : P 1 = X := rfl

/-- Bonnet's recursion without denominators. -/
lemma bonnet (n : ℕ) : C ((n : K) + 2) * P (n + 2) = C (2 * (n : K) + 3) * X * P (n + 1) - C ((n : K) + 1) * P n := by
  have h : ((n : K) + 2) ≠ 0 := by exact_mod_cast (by omega : n + 2 ≠ 0)
  rw [legendre, ← mul_assoc, ← C_mul, mul_one_div, div_self h, C_1, one_mul]

lemma natC_ne (n : ℕ) (h : n ≠ 0) : (C (n : K) : K[X]) ≠ 0 := by
  simp [h]

/-- `x P'_{n+1} = P'_n + (n+1) P_{n+1}` and `P'_{n+1} = x P'_n + (n+1) P_n`. -/
lemma legendre_deriv_rec (n : ℕ) :
    X * derivative (P (n + 1)) = derivative (P n) + C ((n : K) + 1) * P (n + 1) ∧
    derivative (P (n + 1)) = X * derivative (P n) + C ((n : K) + 1) * P n := by
  induction n with
  | zero => simp [legendre_zero, legendre_one]
  | succ n ih =>
    obtain ⟨ha, hb⟩ := ih
    have hB := bonnet (K := K) n
    have hD := congrArg derivative hB
    simp only [derivative_mul, derivative_sub, derivative_C, derivative_X, zero_mul, zero_add, mul_one] at hD
    have h2 : (C ((n : K) + 2) : K[X]) ≠ 0 := by
      have : ((n : K) + 2) ≠ 0 := by exact_mod_cast (by omega : n + 2 ≠ 0)
      exact C_ne_zero.mpr this
    have hC2 : (C ((n : K) + 2) : K[X]) = C (n : K) + 2 := by rw [C_add]; rfl
    have hC3 : (C (2 * (n : K) + 3) : K[X]) = 2 * C (n : K) + 3 := by rw [C_add, C_mul]; rfl
    have hC1 : (C ((n : K) + 1) : K[X]) = C (n : K) + 1 := by rw [C_add]; rfl
    have hCn : (C (((n + 1 : ℕ) : K) + 1) : K[X]) = C (n : K) + 2 := by
      push_cast; rw [C_add, C_add, C_1]; ring
    rw [hC2, hC3, hC1] at hB hD
    rw [hC1] at ha hb
    rw [hC2] at h2
    rw [hCn]
    have hb1 : derivative (P (n + 2)) = X * derivative (P (n + 1)) + (C (n : K) + 2) * P (n + 1) := by
      apply mul_left_cancel₀ h2
      linear_combination hD + (C (n : K) + 1) * ha
    refine ⟨?_, hb1⟩
    linear_combination X * hb1 + X * ha - hb - hB

/-- Legendre's differential equation `((x²-1) P_n')' = n(n+1) P_n`. -/
lemma legendre_ode (n : ℕ) :
    derivative ((X ^ 2 - 1) * derivative (P n)) = C ((n : K) * ((n : K) + 1)) * P n := by
  cases n with
  | zero => simp [legendre_zero]
  | succ n =>
    obtain ⟨ha, hb⟩ := legendre_deriv_rec (K := K) n
    have hc : (X ^ 2 - 1) * derivative (P (n + 1)) = C ((n : K) + 1) * (X * P (n + 1) - P n) := by
      linear_combination X * ha - hb
    rw [hc]
    simp only [derivative_mul, derivative_sub, derivative_C, derivative_X, zero_mul, zero_add, one_mul]
    have : (C (((n + 1 : ℕ) : K) * (((n + 1 : ℕ) : K) + 1)) : K[X]) = (C ((n : K) + 1)) * (C ((n : K) + 1) + 1) := by
      push_cast; rw [C_mul]; congr 1; rw [C_add (b := (1 : K)), C_1]
    rw [this]
    linear_combination C ((n : K) + 1) * ha

lemma legendre_eval_one (n : ℕ) : (P n).eval 1 = 1 := by
  induction n using Nat.strong_induction_on with
  | _ n ih =>
    match n with
    | 0 => simp [legendre_zero]
    | 1 => simp [legendre_one]
    | n + 2 =>
      have h : ((n : K) + 2) ≠ 0 := by exact_mod_cast (by omega : n + 2 ≠ 0)
      have hB := congrArg (eval 1) (bonnet (K := K) n)
      simp only [eval_mul, eval_C, eval_sub, eval_X, ih (n + 1) (by omega), ih n (by omega), mul_one] at hB
      apply mul_left_cancel₀ h
      rw [hB]; ring

lemma legendre_eval_neg (n : ℕ) (y : K) : (P n).eval (-y) = (-1) ^ n * (P n).eval y := by
  induction n using Nat.strong_induction_on with
  | _ n ih =>
    match n with
    | 0 => simp [legendre_zero]
    | 1 => simp [legendre_one]
    | n + 2 =>
      have h : ((n : K) + 2) ≠ 0 := by exact_mod_cast (by omega : n + 2 ≠ 0)
      have h1 := congrArg (eval (-y)) (bonnet (K := K) n)
      have h2 := congrArg (eval y) (bonnet (K := K) n)
      simp only [eval_mul, eval_C, eval_sub, eval_X, ih (n + 1) (by omega), ih n (by omega)] at h1 h2
      apply mul_left_cancel₀ h
      rw [h1]
      have : (-1 : K) ^ (n + 2) = (-1) ^ n := by rw [pow_add]; norm_num
      rw [this]
      have e1 : (-1 : K) ^ (n + 1) = - (-1) ^ n := by rw [pow_succ]; ring
      rw [e1]
      linear_combination (-(-1 : K) ^ n) * h2

lemma legendre_eval_neg_one (n : ℕ) : (P n).eval (-1) = (-1) ^ n := by
  rw [legendre_eval_neg, legendre_eval_one, mul_one]

/-- The leading coefficient. -/
lemma legendre_degree (n : ℕ) : (P n).natDegree = n ∧ (P n).coeff n ≠ 0 := by
  suffices h : (P n).natDegree ≤ n ∧ (P n).coeff n ≠ 0 from
    ⟨le_antisymm h.1 (le_natDegree_of_ne_zero h.2), h.2⟩
  induction n using Nat.strong_induction_on with
  | _ n ih =>
    match n with
    | 0 => simp [legendre_zero]
    | 1 => simp [legendre_one]
    | n + 2 =>
      have h : ((n : K) + 2) ≠ 0 := by exact_mod_cast (by omega : n + 2 ≠ 0)
      have h3 : (2 * (n : K) + 3) ≠ 0 := by exact_mod_cast (by omega : 2 * n + 3 ≠ 0)
      obtain ⟨d1, c1⟩ := ih (n + 1) (by omega)
      obtain ⟨d0, -⟩ := ih n (by omega)
      have hX : (C (2 * (n : K) + 3) * X * P (n + 1)).natDegree ≤ n + 2 := by
        refine natDegree_mul_le.trans ?_
        have := natDegree_C_mul_le (2 * (n : K) + 3) (X : K[X])
        have := natDegree_X_le (R := K)
        omega
      have h0 : (C ((n : K) + 1) * P n).natDegree ≤ n := (natDegree_C_mul_le _ _).trans d0
      refine ⟨?_, ?_⟩
      · rw [legendre]
        refine (natDegree_C_mul_le _ _).trans ((natDegree_sub_le _ _).trans ?_)
        exact max_le hX (h0.trans (by omega))
      · rw [legendre, coeff_C_mul, coeff_sub, coeff_eq_zero_of_natDegree_lt (lt_of_le_of_lt h0 (by omega)),
          sub_zero, mul_assoc, coeff_C_mul, show n + 2 = (n + 1) + 1 from rfl, coeff_X_mul]
        exact mul_ne_zero (one_div_ne_zero h) (mul_ne_zero h3 c1)

lemma legendre_ne_zero (n : ℕ) : P n ≠ 0 := by
  intro h
  exact (legendre_degree (K := K) n).2 (by rw [h]; simp)

lemma legendre_degree' (n : ℕ) : (P n).degree = n := by
  rw [degree_eq_natDegree (legendre_ne_zero n), (legendre_degree n).1]

/-! ### The integral -/

lemma antideriv_add (f g : K[X]) : antideriv (f + g) = antideriv f + antideriv g := by
  unfold antideriv
  rw [sum_add_index]
  · intro i; simp
  · intro i a b; rw [add_div, C_add, add_mul]

lemma antideriv_C_mul (c : K) (f : K[X]) : antideriv (C c * f) = C c * antideriv f := by
  unfold antideriv
  rw [← smul_eq_C_mul, sum_smul_index _ _ _ (by intro i; simp), sum_def, sum_def, Finset.mul_sum]
  apply Finset.sum_congr rfl
  intro i _
  rw [mul_div_assoc, C_mul, mul_assoc]

lemma antideriv_monomial (k : ℕ) (a : K) : antideriv (monomial k a) = C (a / ((k : K) + 1)) * X ^ (k + 1) := by
  unfold antideriv
  rw [sum_monomial_index _ _ (by simp)]

lemma derivative_antideriv (f : K[X]) : derivative (antideriv f) = f := by
  induction f using Polynomial.induction_on' with
  | add p q hp hq => rw [antideriv_add, derivative_add, hp, hq]
  | monomial k a =>
    have h : ((k : K) + 1) ≠ 0 := by exact_mod_cast Nat.succ_ne_zero k
    rw [antideriv_monomial, derivative_C_mul, derivative_X_pow, Nat.add_sub_cancel, ← C_mul_X_pow_eq_monomial,
      ← mul_assoc, ← C_mul]
    congr 2
    push_cast
    field_simp

lemma antideriv_derivative_eval (f : K[X]) (a b : K) :
    (antideriv (derivative f)).eval b - (antideriv (derivative f)).eval a = f.eval b - f.eval a := by
  have h : derivative (antideriv (derivative f) - f) = 0 := by
    rw [derivative_sub, derivative_antideriv, sub_self]
  have h2 := derivative_eq_zero.mp h
  obtain ⟨c, hc⟩ := natDegree_eq_zero.mp h2
  have : antideriv (derivative f) = f + C c := by rw [hc]; ring
  rw [this]; simp

lemma intBetween_derivative (a b : K) (f : K[X]) : intBetween a b (derivative f) = f.eval b - f.eval a :=
  antideriv_derivative_eval f a b

lemma intPoly_derivative (f : K[X]) : intPoly (derivative f) = f.eval 1 - f.eval (-1) :=
  intBetween_derivative _ _ f

omit [CharZero K] in
lemma intBetween_zero (a b : K) : intBetween a b (0 : K[X]) = 0 := by
  unfold intBetween antideriv; simp

lemma intBetween_add (a b : K) (f g : K[X]) : intBetween a b (f + g) = intBetween a b f + intBetween a b g := by
  unfold intBetween; rw [antideriv_add, eval_add, eval_add]; ring

lemma intBetween_C_mul (a b c : K) (f : K[X]) : intBetween a b (C c * f) = c * intBetween a b f := by
  unfold intBetween; rw [antideriv_C_mul, eval_mul, eval_mul, eval_C, eval_C]; ring

lemma intBetween_sum {ι : Type*} (s : Finset ι) (a b : K) (f : ι → K[X]) :
    intBetween a b (∑ i ∈ s, f i) = ∑ i ∈ s, intBetween a b (f i) := by
  classical
  induction s using Finset.induction_on with
  | empty => simp [intBetween_zero]
  | insert i s hi ih => rw [Finset.sum_insert hi, Finset.sum_insert hi, intBetween_add, ih]

lemma intPoly_add (f g : K[X]) : intPoly (f + g) = intPoly f + intPoly g := intBetween_add _ _ f g
lemma intPoly_C_mul (c : K) (f : K[X]) : intPoly (C c * f) = c * intPoly f := intBetween_C_mul _ _ c f
lemma intPoly_sum {ι : Type*} (s : Finset ι) (f : ι → K[X]) :
    intPoly (∑ i ∈ s, f i) = ∑ i ∈ s, intPoly (f i) := intBetween_sum s _ _ f
lemma intPoly_neg (f : K[X]) : intPoly (-f) = - intPoly f := by
  rw [show -f = C (-1) * f by simp, intPoly_C_mul]; ring
lemma intPoly_sub (f g : K[X]) : intPoly (f - g) = intPoly f - intPoly g := by
  rw [sub_eq_add_neg, intPoly_add, intPoly_neg, sub_eq_add_neg]

/-- Integration by parts. -/
lemma intPoly_parts (f g : K[X]) : intPoly (derivative f * g) =
    f.eval 1 * g.eval 1 - f.eval (-1) * g.eval (-1) - intPoly (f * derivative g) := by
  have := intPoly_derivative (f * g)
  rw [derivative_mul, intPoly_add, eval_mul, eval_mul] at this
  linear_combination this

lemma intPoly_one : intPoly (1 : K[X]) = 2 := by
  have := intPoly_derivative (X : K[X])
  rw [derivative_X, eval_X, eval_X] at this
  rw [this]; ring

/-! ### Orthogonality -/

lemma legendre_orthogonal {m n : ℕ} (h : m ≠ n) : intPoly (P m * P n) = 0 := by
  have hm := legendre_ode (K := K) m
  have hn := legendre_ode (K := K) n
  have key : C ((m : K) * ((m : K) + 1) - (n : K) * ((n : K) + 1)) * (P m * P n) =
      derivative ((X ^ 2 - 1) * derivative (P m) * P n - (X ^ 2 - 1) * derivative (P n) * P m) := by
    rw [derivative_sub, derivative_mul, derivative_mul (f := (X ^ 2 - 1) * derivative (P n)), hm, hn, C_sub]
    ring
  have hI := congrArg intPoly key
  rw [intPoly_C_mul, intPoly_derivative] at hI
  simp only [eval_sub, eval_mul, eval_pow, eval_X, eval_one] at hI
  have hne : ((m : K) * ((m : K) + 1) - (n : K) * ((n : K) + 1)) ≠ 0 := by
    intro h0
    have h0 : ((m * (m + 1) : ℕ) : K) = ((n * (n + 1) : ℕ) : K) := by push_cast; linear_combination h0
    have h0 : m * (m + 1) = n * (n + 1) := Nat.cast_injective h0
    rcases lt_or_gt_of_ne h with h1 | h1 <;> nlinarith
  have : ((m : K) * ((m : K) + 1) - (n : K) * ((n : K) + 1)) * intPoly (P m * P n) = 0 := by
    rw [hI]; ring
  exact (mul_eq_zero.mp this).resolve_left hne

/-- Every polynomial of degree < n is a combination of `P_0, …, P_{n-1}`. -/
lemma exists_legSeries (n : ℕ) (f : K[X]) (hf : f.degree < n) : ∃ c : ℕ → K, f = legSeries n c := by
  induction n generalizing f with
  | zero =>
    refine ⟨fun _ => 0, ?_⟩
    rw [Nat.cast_zero, Nat.WithBot.lt_zero_iff, degree_eq_bot] at hf
    simp [legSeries, hf]
  | succ n ih =>
    obtain ⟨hd, hc⟩ := legendre_degree (K := K) n
    set a := f.coeff n / (P n).coeff n with ha
    have hlt : (f - C a * P n).degree < n := by
      rw [degree_lt_iff_coeff_zero]
      intro m hm
      rcases hm.eq_or_lt with rfl | hm
      · rw [coeff_sub, coeff_C_mul, ha, div_mul_cancel₀ _ hc, sub_self]
      · rw [coeff_sub, coeff_C_mul, (degree_lt_iff_coeff_zero f (n + 1)).mp hf m hm,
          coeff_eq_zero_of_natDegree_lt (by omega : (P n).natDegree < m)]
        ring
    obtain ⟨c, hc⟩ := ih _ hlt
    refine ⟨fun i => if i = n then a else c i, ?_⟩
    rw [legSeries, Finset.sum_range_succ, if_pos rfl]
    have : ∑ i ∈ Finset.range n, C (if i = n then a else c i) * P i = legSeries n c := by
      rw [legSeries]
      apply Finset.sum_congr rfl
      intro i hi
      rw [if_neg (Finset.mem_range.mp hi).ne]
    rw [this, ← hc]; ring

lemma legSeries_degree (n : ℕ) (c : ℕ → K) : (legSeries n c).degree < n := by
  unfold legSeries
  rw [degree_lt_iff_coeff_zero]
  intro m hm
  rw [finsetSum_coeff]
  apply Finset.sum_eq_zero
  intro i hi
  rw [coeff_C_mul, coeff_eq_zero_of_natDegree_lt, mul_zero]
  rw [(legendre_degree i).1]
  have := Finset.mem_range.mp hi
  omega

lemma legendre_orthogonal_lt {n : ℕ} (f : K[X]) (hf : f.degree < n) : intPoly (P n * f) = 0 := by
  obtain ⟨c, rfl⟩ := exists_legSeries n f hf
  rw [legSeries, Finset.mul_sum, intPoly_sum]
  apply Finset.sum_eq_zero
  intro i hi
  rw [mul_left_comm, intPoly_C_mul, legendre_orthogonal (Finset.mem_range.mp hi).ne', mul_zero]

/-- `(2n+3) P_{n+1} = (P_{n+2} - P_n)'`. -/
lemma legendre_sub_deriv (n : ℕ) :
    derivative (P (n + 2) - P n) = C (2 * (n : K) + 3) * P (n + 1) := by
  have h1 := (legendre_deriv_rec (K := K) n).1
  have h2 := (legendre_deriv_rec (K := K) (n + 1)).2
  rw [derivative_sub]
  have e : (C (2 * (n : K) + 3) : K[X]) = C ((n : K) + 1) + C (((n + 1 : ℕ) : K) + 1) := by
    rw [← C_add]; congr 1; push_cast; ring
  rw [e]
  linear_combination h2 + h1

lemma legendre_norm (n : ℕ) : intPoly (P n * P n) = 2 / (2 * (n : K) + 1) := by
  cases n with
  | zero => rw [legendre_zero, mul_one, intPoly_one]; simp
  | succ n =>
    have h3 : (2 * (n : K) + 3) ≠ 0 := by exact_mod_cast (by omega : 2 * n + 3 ≠ 0)
    have hA := intPoly_parts (P (n + 2) - P n) (P (n + 1))
    rw [legendre_sub_deriv, mul_assoc, intPoly_C_mul] at hA
    simp only [eval_sub, legendre_eval_one, legendre_eval_neg_one] at hA
    have hd : (derivative (P (n + 1))).degree < (n + 2 : ℕ) := by
      refine (degree_derivative_le).trans_lt ?_
      rw [legendre_degree']; exact_mod_cast (by omega : n + 1 < n + 2)
    have hB : intPoly ((P (n + 2) - P n) * derivative (P (n + 1))) = - intPoly (P n * derivative (P (n + 1))) := by
      rw [sub_mul, intPoly_sub, legendre_orthogonal_lt _ hd]; ring
    have hC := intPoly_parts (P (n + 1)) (P n)
    have hd2 : (derivative (P n)).degree < (n + 1 : ℕ) := by
      refine (degree_derivative_le).trans_lt ?_
      rw [legendre_degree']; exact_mod_cast (by omega : n < n + 1)
    rw [legendre_orthogonal_lt _ hd2, legendre_eval_one, legendre_eval_one, legendre_eval_neg_one,
      legendre_eval_neg_one] at hC
    have hcomm : intPoly (P n * derivative (P (n + 1))) = intPoly (derivative (P (n + 1)) * P n) := by
      rw [mul_comm]
    rw [hB, hcomm, hC] at hA
    have hsq : ((-1 : K) ^ n) * (-1) ^ n = 1 := by rw [← mul_pow]; simp
    have e2 : (-1 : K) ^ (n + 2) = (-1) ^ n := by rw [pow_add]; norm_num
    have e1 : (-1 : K) ^ (n + 1) = - (-1) ^ n := by rw [pow_succ]; ring
    rw [e2, e1] at hA
    rw [eq_div_iff (by push_cast; rw [show 2 * ((n : K) + 1) + 1 = 2 * n + 3 by ring]; exact h3)]
    push_cast
    linear_combination hA + hsq

/-- Coefficients of a Legendre series by orthogonality. -/
lemma intPoly_legSeries (N : ℕ) (c : ℕ → K) (n : ℕ) (hn : n < N) :
    intPoly (legSeries N c * P n) = c n * (2 / (2 * (n : K) + 1)) := by
  rw [legSeries, Finset.sum_mul, intPoly_sum, Finset.sum_eq_single n]
  · rw [mul_assoc, intPoly_C_mul, legendre_norm]
  · intro i _ hi
    rw [mul_assoc, intPoly_C_mul, legendre_orthogonal hi, mul_zero]
  · intro h; exact absurd (Finset.mem_range.mpr hn) h

lemma legSeries_eval (N : ℕ) (c : ℕ → K) (y : K) :
    (legSeries N c).eval y = ∑ n ∈ Finset.range N, c n * (P n).eval y := by
  rw [legSeries, eval_finsetSum]
  simp

lemma norm_ne_zero (n : ℕ) : (2 * (n : K) + 1) ≠ 0 := by exact_mod_cast (by omega : 2 * n + 1 ≠ 0)

lemma legSeries_injective (N : ℕ) (c d : ℕ → K) (h : legSeries N c = legSeries N d) (n : ℕ) (hn : n < N) :
    c n = d n := by
  have h1 := intPoly_legSeries N c n hn
  rw [h, intPoly_legSeries N d n hn] at h1
  have : (2 / (2 * (n : K) + 1)) ≠ 0 := div_ne_zero two_ne_zero (norm_ne_zero n)
  exact (mul_right_cancel₀ this h1).symm

/-! ### Gauss rules -/

/-- Discrete orthogonality at the Gauss nodes. -/
lemma gauss_orthogonal {N : ℕ} {x w : ℕ → K} (hG : IsGaussRule N x w) {m n : ℕ} (hm : m < N) (hn : n < N) :
    ∑ g ∈ Finset.range N, w g * ((P m).eval (x g) * (P n).eval (x g)) =
      if m = n then 2 / (2 * (n : K) + 1) else 0 := by
  have hd : (P m * P n).degree < 2 * N := by
    rw [degree_mul, legendre_degree', legendre_degree']
    exact_mod_cast (by omega : m + n < 2 * N)
  have := hG.exact _ hd
  simp only [eval_mul] at this
  rw [this]
  split
  · rename_i h; subst h; exact legendre_norm m
  · rename_i h; exact legendre_orthogonal h

end Dg1d.Spec
