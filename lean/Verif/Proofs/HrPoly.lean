import Verif.Proofs.Limiter
import Mathlib.Tactic.LinearCombination

/-! Helper lemmas: properties of hierarchical reconstruction in terms of polynomials. -/

set_option linter.unusedSectionVars false

open Polynomial

namespace Dg1d
open Spec
variable {K : Type*} [Field K] [LinearOrder K] [IsStrictOrderedRing K]

lemma intBetween_shift (a b h : K) (f : K[X]) : intBetween a b (f.comp (X + C h)) = intBetween (a + h) (b + h) f := by
  have h1 : f.comp (X + C h) = derivative ((antideriv f).comp (X + C h)) := by
    rw [derivative_comp, derivative_antideriv]; simp
  have h2 : intBetween (a + h) (b + h) f = (antideriv f).eval (b + h) - (antideriv f).eval (a + h) := rfl
  rw [h1, intBetween_derivative, h2]
  simp

lemma intBetween_flip (a b : K) (f : K[X]) : intBetween a b (f.comp (-X)) = intBetween (-b) (-a) f := by
  have h1 : f.comp (-X) = derivative (-((antideriv f).comp (-X))) := by
    rw [derivative_neg, derivative_comp, derivative_antideriv]; simp
  have h2 : intBetween (-b) (-a) f = (antideriv f).eval (-a) - (antideriv f).eval (-b) := rfl
  rw [h1, intBetween_derivative, h2]
  simp only [eval_neg, eval_comp, eval_X]
  ring

lemma iterate_shift (k : ℕ) (h : K) (f : K[X]) : derivative^[k] (f.comp (X + C h)) = (derivative^[k] f).comp (X + C h) := by
  induction k with
  | zero => rfl
  | succ k ih =>
    rw [Function.iterate_succ_apply', ih, derivative_comp, Function.iterate_succ_apply']
    simp

lemma iterate_flip (k : ℕ) (f : K[X]) : derivative^[k] (f.comp (-X)) = C ((-1) ^ k) * (derivative^[k] f).comp (-X) := by
  induction k with
  | zero => simp
  | succ k ih =>
    rw [Function.iterate_succ_apply', ih, derivative_C_mul, derivative_comp, Function.iterate_succ_apply', pow_succ, C_mul]
    simp

lemma iterate_add' (k : ℕ) (f g : K[X]) : derivative^[k] (f + g) = derivative^[k] f + derivative^[k] g :=
  iterate_map_add _ _ _ _

lemma iterate_smul' (k : ℕ) (c : K) (f : K[X]) : derivative^[k] (C c * f) = C c * derivative^[k] f := by
  induction k with
  | zero => rfl
  | succ k ih => rw [Function.iterate_succ_apply', ih, derivative_C_mul, Function.iterate_succ_apply']

lemma intBetween_neg (a b : K) (f : K[X]) : intBetween a b (-f) = - intBetween a b f := by
  have := intBetween_C_mul a b (-1) f
  rw [C_neg, C_1, neg_one_mul, neg_one_mul] at this
  exact this

lemma intBetween_sub (a b : K) (f g : K[X]) : intBetween a b (f - g) = intBetween a b f - intBetween a b g := by
  rw [sub_eq_add_neg, intBetween_add, intBetween_neg, sub_eq_add_neg]

lemma intBetween_line (a b c d : K) : intBetween a b (C c + C d * X) = c * (b - a) + d / 2 * (b ^ 2 - a ^ 2) := by
  have h1 : C c + C d * X = derivative (C c * X + C (d / 2) * X ^ 2) := by
    simp only [derivative_add, derivative_mul, derivative_C, derivative_X, derivative_X_pow]
    have : (C (d / 2) : K[X]) * (C ((2 : ℕ) : K) * X ^ (2 - 1)) = C d * X := by
      rw [← mul_assoc, ← C_mul]; norm_num
    simp only [this]; ring
  rw [h1, intBetween_derivative]
  simp only [eval_add, eval_mul, eval_C, eval_X, eval_pow]
  ring

/-- Subtracting the terms above degree `m` and differentiating `m-1` times leaves a straight line. -/
lemma low_line {p m : ℕ} (h1 : 1 ≤ m) {Q : K[X]} (hQ : Q.degree < ((p + 1 : ℕ) : WithBot ℕ)) :
    derivative^[m - 1] (Q - highPart p m Q) =
      C (((m - 1).factorial : K) * Q.coeff (m - 1)) + C ((m.factorial : K) * Q.coeff m) * X := by
  have hc : ∀ n, (Q - highPart p m Q).coeff n = if n ≤ m then Q.coeff n else 0 := by
    intro n
    unfold highPart
    rw [coeff_sub, finsetSum_coeff]
    simp only [coeff_monomial]
    rw [Finset.sum_ite_eq' (Finset.Ico (m + 1) (p + 1)) n]
    by_cases hn : n ≤ m
    · rw [if_neg (by rw [Finset.mem_Ico]; omega), if_pos hn, sub_zero]
    · rw [if_neg hn]
      by_cases hp : n < p + 1
      · rw [if_pos (by rw [Finset.mem_Ico]; omega), sub_self]
      · rw [if_neg (by rw [Finset.mem_Ico]; omega), sub_zero]
        exact coeff_eq_zero_of_degree_lt (lt_of_lt_of_le hQ (by exact_mod_cast not_lt.mp hp))
  ext n
  rw [coeff_iterate_derivative, hc, coeff_add, coeff_C, coeff_C_mul, coeff_X, nsmul_eq_mul]
  rcases n with _ | _ | n
  · rw [if_pos (by omega), zero_add, Nat.descFactorial_self]; simp
  · rw [if_pos (by omega)]
    have e1 : 0 + 1 + (m - 1) = m := by omega
    rw [e1]
    have e2 : m.descFactorial (m - 1) = m.factorial := by
      obtain ⟨k, rfl⟩ := Nat.exists_eq_add_of_le' h1
      rw [Nat.add_sub_cancel]
      have := Nat.factorial_mul_descFactorial (n := k + 1) (k := k) (by omega)
      simpa using this
    rw [e2]; simp
  · rw [if_neg (by omega)]; simp

/-- Data that is one polynomial over the three cells reconstructs to itself. -/
lemma isHR_smooth {p : ℕ} {Q : K[X]} (hQ : Q.degree < ((p + 1 : ℕ) : WithBot ℕ)) :
    IsHR p (Q.comp (X + C (-2))) Q (Q.comp (X + C 2)) Q := by
  refine ⟨hQ, rfl, fun m h1 h2 => ?_⟩
  have hl := low_line (p := p) h1 hQ
  rw [sub_eq_add_neg, iterate_add'] at hl
  have hneg : derivative^[m - 1] (-highPart p m Q) = - derivative^[m - 1] (highPart p m Q) := by
    have := iterate_smul' (m - 1) (-1) (highPart p m Q)
    rw [C_neg, C_1, neg_one_mul, neg_one_mul] at this
    exact this
  rw [hneg, ← sub_eq_add_neg] at hl
  have key : ∀ h : K, linearAverage p m Q (Q.comp (X + C h)) (-1 + h) =
      ((m - 1).factorial : K) * Q.coeff (m - 1) + (m.factorial : K) * Q.coeff m * h := by
    intro h
    unfold linearAverage intPoly
    rw [iterate_shift, intBetween_shift, show (-1 + h + 2 : K) = 1 + h by ring, ← intBetween_sub, hl, intBetween_line]
    ring
  have k0 := key 0
  have k1 := key (-2)
  have k2 := key 2
  rw [C_0, add_zero, comp_X, add_zero] at k0
  rw [show (-1 + -2 : K) = -3 by norm_num] at k1
  rw [show (-1 + 2 : K) = 1 by norm_num] at k2
  rw [k0, k1, k2]
  have e1 : (((m - 1).factorial : K) * Q.coeff (m - 1) + (m.factorial : K) * Q.coeff m * 0 -
      (((m - 1).factorial : K) * Q.coeff (m - 1) + (m.factorial : K) * Q.coeff m * -2)) / 2 = Q.coeff m * (m.factorial : K) := by ring
  have e2 : (((m - 1).factorial : K) * Q.coeff (m - 1) + (m.factorial : K) * Q.coeff m * 2 -
      (((m - 1).factorial : K) * Q.coeff (m - 1) + (m.factorial : K) * Q.coeff m * 0)) / 2 = Q.coeff m * (m.factorial : K) := by ring
  rw [e1, e2, minmod_self]

lemma coeff_flip (f : K[X]) (n : ℕ) : (f.comp (-X)).coeff n = (-1) ^ n * f.coeff n := by
  have : (-X : K[X]) = C (-1) * X := by simp
  rw [this, comp_C_mul_X_coeff, mul_comm]

lemma highPart_flip (p m : ℕ) (V : K[X]) : highPart p m (V.comp (-X)) = (highPart p m V).comp (-X) := by
  ext n
  rw [coeff_flip]
  unfold highPart
  simp only [finsetSum_coeff, coeff_monomial, coeff_flip]
  rw [Finset.sum_ite_eq' (Finset.Ico (m + 1) (p + 1)) n, Finset.sum_ite_eq' (Finset.Ico (m + 1) (p + 1)) n]
  split <;> simp

lemma linearAverage_flip (p m : ℕ) (V U : K[X]) (a : K) :
    linearAverage p m (V.comp (-X)) (U.comp (-X)) a = (-1) ^ (m - 1) * linearAverage p m V U (-(a + 2)) := by
  unfold linearAverage intPoly
  rw [highPart_flip, iterate_flip, iterate_flip, intBetween_C_mul, intBetween_C_mul, intBetween_flip, intBetween_flip,
    neg_neg, show -(a + 2) + 2 = -a by ring]
  ring

lemma isHR_flip {p : ℕ} {UL UC UR V : K[X]} (h : IsHR p UL UC UR V) :
    IsHR p (UR.comp (-X)) (UC.comp (-X)) (UL.comp (-X)) (V.comp (-X)) := by
  refine ⟨?_, ?_, fun m h1 h2 => ?_⟩
  · rw [degree_lt_iff_coeff_zero]
    intro n hn
    rw [coeff_flip, (degree_lt_iff_coeff_zero _ _).mp h.degree n hn, mul_zero]
  · have := h.mean
    unfold intPoly at this ⊢
    rw [intBetween_flip, intBetween_flip, neg_neg]
    exact this
  · rw [linearAverage_flip, linearAverage_flip, linearAverage_flip]
    have e1 : (-(-1 + 2) : K) = -1 := by norm_num
    have e2 : (-(-3 + 2) : K) = 1 := by norm_num
    have e3 : (-(1 + 2) : K) = -3 := by norm_num
    rw [e1, e2, e3, coeff_flip, mul_assoc, h.slope m h1 h2, minmod_comm, ← minmod_smul]
    have e4 : ((-1 : K)) ^ m = - (-1) ^ (m - 1) := by
      obtain ⟨k, rfl⟩ := Nat.exists_eq_add_of_le' h1
      rw [Nat.add_sub_cancel, pow_succ]; ring
    rw [e4]
    congr 1 <;> ring

lemma highPart_add_C (p m : ℕ) (V : K[X]) (k : K) : highPart p m (V + C k) = highPart p m V := by
  apply highPart_congr
  intro n h1 _
  rw [coeff_add, coeff_C, if_neg (by omega), add_zero]

lemma iterate_C (j : ℕ) (k : K) : derivative^[j] (C k) = C (if j = 0 then k else 0) := by
  rcases j with _ | j
  · simp
  · rw [Function.iterate_succ_apply, derivative_C, iterate_derivative_zero]; simp

lemma intBetween_C (a b k : K) : intBetween a b (C k) = k * (b - a) := by
  have := intBetween_line a b k 0
  simpa using this

lemma linearAverage_add_C (p m : ℕ) (V U : K[X]) (k a : K) :
    linearAverage p m (V + C k) (U + C k) a = linearAverage p m V U a + if m - 1 = 0 then k else 0 := by
  unfold linearAverage intPoly
  rw [highPart_add_C, iterate_add', intBetween_add, iterate_C, intBetween_C]
  ring

lemma isHR_add_const {p : ℕ} {UL UC UR V : K[X]} (h : IsHR p UL UC UR V) (k : K) :
    IsHR p (UL + C k) (UC + C k) (UR + C k) (V + C k) := by
  refine ⟨?_, ?_, fun m h1 h2 => ?_⟩
  · refine (degree_add_le _ _).trans_lt (max_lt h.degree (degree_C_le.trans_lt ?_))
    exact_mod_cast Nat.succ_pos p
  · rw [intPoly_add, intPoly_add, h.mean]
  · rw [linearAverage_add_C, linearAverage_add_C, linearAverage_add_C, coeff_add, coeff_C, if_neg (by omega : ¬ m = 0), add_zero,
      h.slope m h1 h2]
    congr 1 <;> ring

lemma highPart_smul (p m : ℕ) (V : K[X]) (k : K) : highPart p m (C k * V) = C k * highPart p m V := by
  unfold highPart
  rw [Finset.mul_sum]
  simp only [coeff_C_mul, C_mul_monomial]

lemma linearAverage_smul (p m : ℕ) (V U : K[X]) (k a : K) :
    linearAverage p m (C k * V) (C k * U) a = k * linearAverage p m V U a := by
  unfold linearAverage intPoly
  rw [highPart_smul, iterate_smul', iterate_smul', intBetween_C_mul, intBetween_C_mul]
  ring

lemma isHR_smul {p : ℕ} {UL UC UR V : K[X]} (h : IsHR p UL UC UR V) (k : K) :
    IsHR p (C k * UL) (C k * UC) (C k * UR) (C k * V) := by
  refine ⟨?_, ?_, fun m h1 h2 => ?_⟩
  · rw [degree_lt_iff_coeff_zero]
    intro n hn
    rw [coeff_C_mul, (degree_lt_iff_coeff_zero _ _).mp h.degree n hn, mul_zero]
  · rw [intPoly_C_mul, intPoly_C_mul, h.mean]
  · rw [linearAverage_smul, linearAverage_smul, linearAverage_smul, coeff_C_mul, mul_assoc, h.slope m h1 h2, ← minmod_smul]
    congr 1 <;> ring

/-- Order 1: the reconstruction depends on the three averages only. -/
lemma linearAverage_one (V U : K[X]) (a : K) : linearAverage 1 1 V U a = intPoly U / 2 := by
  unfold linearAverage highPart
  simp [intBetween_zero]

lemma isHR_one {UL UC UR V : K[X]} (h : IsHR 1 UL UC UR V) :
    V = C (intPoly UC / 2) + C (minmod ((intPoly UC / 2 - intPoly UL / 2) / 2) ((intPoly UR / 2 - intPoly UC / 2) / 2)) * X := by
  have hs := h.slope 1 le_rfl le_rfl
  rw [linearAverage_one, linearAverage_one, linearAverage_one, Nat.factorial_one, Nat.cast_one, mul_one] at hs
  have hV : V = C (V.coeff 0) + C (V.coeff 1) * X := by
    ext n
    rw [coeff_add, coeff_C, coeff_C_mul, coeff_X]
    rcases n with _ | _ | n
    · simp
    · simp
    · rw [(degree_lt_iff_coeff_zero _ _).mp h.degree _ (by omega)]; simp
  have hm := h.mean
  rw [← hs]
  have hi : intPoly V = 2 * V.coeff 0 := by
    conv_lhs => rw [hV]
    unfold intPoly
    rw [intBetween_line]; ring
  rw [← hm, hi]
  conv_lhs => rw [hV]
  congr 2
  ring

lemma minmod_bounds (a b : K) (x : K) (h1 : -1 ≤ x) (h2 : x ≤ 1) :
    min (min (-2 * a) (2 * b)) 0 ≤ minmod a b * x ∧ minmod a b * x ≤ max (max (-2 * a) (2 * b)) 0 := by
  unfold minmod
  split_ifs with ha hb
  · have h3 : 0 < min a b := lt_min ha.1 ha.2
    refine ⟨?_, ?_⟩
    · refine (min_le_left _ _).trans ((min_le_left _ _).trans ?_)
      have : min a b ≤ a := min_le_left _ _
      nlinarith
    · refine le_trans ?_ ((le_max_right _ _).trans (le_max_left _ _))
      have : min a b ≤ b := min_le_right _ _
      nlinarith
  · have h3 : max a b < 0 := max_lt hb.1 hb.2
    refine ⟨?_, ?_⟩
    · refine (min_le_left _ _).trans ((min_le_right _ _).trans ?_)
      have : b ≤ max a b := le_max_right _ _
      nlinarith
    · refine le_trans ?_ ((le_max_left _ _).trans (le_max_left _ _))
      have : a ≤ max a b := le_max_left _ _
      nlinarith
  · rw [zero_mul]
    exact ⟨min_le_right _ _, le_max_right _ _⟩

lemma legSeries_flip (N : ℕ) (c : ℕ → K) : legSeries N (fun k => (-1) ^ k * c k) = (legSeries N c).comp (-X) := by
  refine funext fun y => ?_
  rw [eval_comp, eval_neg, eval_X, legSeries_eval, legSeries_eval]
  apply Finset.sum_congr rfl
  intro k _
  rw [legendre_eval_neg]; ring

lemma legSeries_smul (N : ℕ) (k : K) (c : ℕ → K) : legSeries N (fun n => k * c n) = C k * legSeries N c := by
  unfold legSeries
  rw [Finset.mul_sum]
  simp only [C_mul, mul_assoc]

lemma legSeries_add_const (N : ℕ) (k : K) (c : ℕ → K) :
    legSeries (N + 1) (fun n => c n + if n = 0 then k else 0) = legSeries (N + 1) c + C k := by
  unfold legSeries
  simp only [C_add, add_mul, Finset.sum_add_distrib]
  congr 1
  rw [Finset.sum_range_succ']
  simp [legendre_zero]

lemma legSeries_mean (p : ℕ) (c : ℕ → K) : intPoly (legSeries (p + 1) c) = 2 * c 0 := by
  have := intPoly_legSeries (p + 1) c 0 (by omega)
  rw [legendre_zero, mul_one] at this
  rw [this]; simp [mul_comm]

end Dg1d
