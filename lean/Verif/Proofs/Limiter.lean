import Verif.Model.Limiter
import Verif.Model.BasisInit
import Verif.Spec.Limiter
import Verif.Proofs.LinAlg
import Verif.Proofs.Basis
import Verif.Proofs.Runs
import Mathlib.Algebra.Polynomial.Taylor

/-! Helper lemmas on the limiter. -/

set_option linter.unusedSectionVars false

open Polynomial Dg1d.Spec

namespace Dg1d

section Minmod
variable {K : Type*} [Field K] [LinearOrder K] [IsStrictOrderedRing K]

lemma scalarMinmod_eq (a b : K) : scalarMinmod a b = minmod a b := by
  unfold scalarMinmod minmod
  simp only [List.insertionSort, List.foldr, List.orderedInsert_nil, List.orderedInsert_cons]
  by_cases hb : b ≤ 0
  · rw [if_pos hb, List.orderedInsert_cons]
    by_cases hab : a ≤ b
    · rw [if_pos hab]
      simp only [List.getD_cons_succ, List.getD_cons_zero]
      split_ifs with h1 h2
      · exact absurd h1.2 (not_lt.mpr hb)
      · rw [max_eq_right hab]
      · rw [not_and_or, not_lt, not_lt] at h2
        exact le_antisymm hb (h2.elim (fun h => h.trans hab) id)
    · rw [if_neg hab, List.orderedInsert_cons]
      have hab := (not_le.mp hab).le
      by_cases ha : a ≤ 0
      · rw [if_pos ha]
        simp only [List.getD_cons_succ, List.getD_cons_zero]
        split_ifs with h1 h2
        · exact absurd h1.2 (not_lt.mpr hb)
        · rw [max_eq_left hab]
        · rw [not_and_or, not_lt, not_lt] at h2
          exact le_antisymm ha (h2.elim id (fun h => h.trans hab))
      · rw [if_neg ha]
        simp only [List.getD_cons_succ, List.getD_cons_zero]
        rw [if_neg (fun h => absurd h.2 (not_lt.mpr hb)), if_neg (fun h => ha h.1.le)]
  · rw [if_neg hb, List.orderedInsert_cons]
    have hb := not_le.mp hb
    by_cases ha : a ≤ 0
    · rw [if_pos ha]
      simp only [List.getD_cons_succ, List.getD_cons_zero]
      rw [if_neg (fun h => absurd h.1 (not_lt.mpr ha)), if_neg (fun h => absurd h.2 (not_lt.mpr hb.le))]
    · rw [if_neg ha, List.orderedInsert_cons]
      have ha := not_le.mp ha
      have hp : 0 < a ∧ 0 < b := ⟨ha, hb⟩
      by_cases hab : a ≤ b
      · rw [if_pos hab, if_pos hp, min_eq_left hab]; simp
      · rw [if_neg hab, if_pos hp, min_eq_right (not_le.mp hab).le]; simp

lemma minmod_comm (a b : K) : minmod a b = minmod b a := by
  unfold minmod
  simp only [and_comm, min_comm, max_comm]

lemma minmod_smul (k a b : K) : minmod (k * a) (k * b) = k * minmod a b := by
  unfold minmod
  rcases lt_trichotomy k 0 with hk | hk | hk
  · have e1 : ∀ x, 0 < k * x ↔ x < 0 := fun x =>
      ⟨fun h => by by_contra hx; exact absurd h (not_lt.mpr (mul_nonpos_of_nonpos_of_nonneg hk.le (not_lt.mp hx))),
        mul_pos_of_neg_of_neg hk⟩
    have e2 : ∀ x, k * x < 0 ↔ 0 < x := fun x =>
      ⟨fun h => by by_contra hx; exact absurd h (not_lt.mpr (mul_nonneg_of_nonpos_of_nonpos hk.le (not_lt.mp hx))),
        mul_neg_of_neg_of_pos hk⟩
    simp only [e1, e2]
    split_ifs with h1 h2
    · exact absurd h1.1 (not_lt.mpr h2.1.le)
    · rcases le_total a b with h | h <;> simp [h, mul_le_mul_of_nonpos_left h hk.le]
    · rcases le_total a b with h | h <;> simp [h, mul_le_mul_of_nonpos_left h hk.le]
    · simp
  · subst hk; simp
  · have e1 : ∀ x, 0 < k * x ↔ 0 < x := fun x => mul_pos_iff_of_pos_left hk
    have e2 : ∀ x, k * x < 0 ↔ x < 0 := fun x =>
      ⟨fun h => by by_contra hx; exact absurd h (not_lt.mpr (mul_nonneg hk.le (not_lt.mp hx))), mul_neg_of_pos_of_neg hk⟩
    simp only [e1, e2]
    split_ifs
    · rw [mul_min_of_nonneg _ _ hk.le]
    · rw [mul_max_of_nonneg _ _ hk.le]
    · simp

lemma minmod_self (a : K) : minmod a a = a := by
  unfold minmod
  rcases lt_trichotomy a 0 with h | h | h
  · simp [h, h.not_gt]
  · simp [h]
  · simp [h]

end Minmod

section Taylor
variable {K : Type*} [Field K] [LinearOrder K] [IsStrictOrderedRing K]

/-- The polynomial with Taylor coefficients `t 0, …, t (n-1)` at the origin. -/
noncomputable def taylorPoly (n : ℕ) (t : ℕ → K) : K[X] := ∑ j ∈ Finset.range n, monomial j (t j / (j.factorial : K))

lemma fact_ne (n : ℕ) : ((n.factorial : ℕ) : K) ≠ 0 := by exact_mod_cast n.factorial_ne_zero

lemma taylorPoly_coeff (n : ℕ) (t : ℕ → K) (k : ℕ) : (taylorPoly n t).coeff k = if k < n then t k / (k.factorial : K) else 0 := by
  unfold taylorPoly
  rw [finsetSum_coeff]
  simp only [coeff_monomial]
  rw [Finset.sum_ite_eq' (Finset.range n)]
  simp

lemma taylorPoly_degree (n : ℕ) (t : ℕ → K) : (taylorPoly n t).degree < n := by
  rw [degree_lt_iff_coeff_zero]
  intro m hm
  rw [taylorPoly_coeff, if_neg (by omega)]

lemma taylorPoly_eval (n : ℕ) (t : ℕ → K) (x : K) :
    (taylorPoly n t).eval x = ∑ j ∈ Finset.range n, x ^ j / (j.factorial : K) * t j := by
  unfold taylorPoly
  rw [eval_finsetSum]
  apply Finset.sum_congr rfl
  intro j _
  rw [eval_monomial]; ring

lemma coeff_deriv_zero (f : K[X]) (j : ℕ) : (derivative^[j] f).eval 0 = f.coeff j * (j.factorial : K) := by
  rw [← coeff_zero_eq_eval_zero, coeff_iterate_derivative, zero_add, Nat.descFactorial_self, nsmul_eq_mul, mul_comm]

lemma taylorPoly_eq (n : ℕ) (f : K[X]) (hf : f.degree < n) : f = taylorPoly n fun j => (derivative^[j] f).eval 0 := by
  ext k
  rw [taylorPoly_coeff, coeff_deriv_zero]
  split
  · rw [mul_div_assoc, div_self (fact_ne k), mul_one]
  · rename_i h
    exact coeff_eq_zero_of_degree_lt (lt_of_lt_of_le hf (by exact_mod_cast not_lt.mp h))

/-- Integral of a derivative of a scaled monomial. -/
lemma int_deriv_monomial (a b t : K) (k n : ℕ) : intBetween a b (derivative^[k] (monomial n (t / (n.factorial : K)))) =
    if k ≤ n then t * integrateMonomialDerivativeBounds k n a b else 0 := by
  split
  case isFalse h =>
    rw [iterate_derivative_eq_zero (lt_of_le_of_lt (natDegree_monomial_le _) (not_le.mp h)), intBetween_zero]
  case isTrue h =>
    have key : derivative^[k] (monomial n (t / (n.factorial : K))) = derivative (monomial (n - k + 1) (t / ((n - k + 1).factorial : K))) := by
      ext j
      rw [coeff_iterate_derivative, coeff_derivative, coeff_monomial, coeff_monomial]
      by_cases hj : n = j + k
      · subst hj
        rw [if_pos rfl, if_pos (by omega), nsmul_eq_mul, Nat.add_sub_cancel]
        have h1 := Nat.factorial_mul_descFactorial (Nat.le_add_left k j)
        rw [Nat.add_sub_cancel] at h1
        have h2 : ((j + k).descFactorial k : K) = (j + k).factorial / j.factorial := by
          rw [eq_div_iff (fact_ne j), ← h1]; push_cast; ring
        rw [h2, Nat.factorial_succ]
        have := fact_ne (K := K) j
        have := fact_ne (K := K) (j + k)
        have : ((j : K) + 1) ≠ 0 := by exact_mod_cast j.succ_ne_zero
        push_cast
        field_simp
      · rw [if_neg hj, if_neg (by omega), smul_zero, zero_mul]
    rw [key, intBetween_derivative, eval_monomial, eval_monomial]
    unfold integrateMonomialDerivativeBounds
    simp only
    ring

lemma bounds_eq (k n : ℕ) : integrateMonomialDerivative k n = integrateMonomialDerivativeBounds (K := K) k n (-1) 1 := by
  unfold integrateMonomialDerivative integrateMonomialDerivativeBounds
  simp only
  split
  · rename_i h
    rw [one_pow, Odd.neg_one_pow (Nat.odd_iff.mpr h)]; norm_num
  · rename_i h
    rw [one_pow, Even.neg_one_pow (Nat.even_iff.mpr (by omega))]; simp

lemma iterate_derivative_sum' {ι : Type*} (s : Finset ι) (f : ι → K[X]) (k : ℕ) :
    derivative^[k] (∑ i ∈ s, f i) = ∑ i ∈ s, derivative^[k] (f i) := by
  induction k generalizing f with
  | zero => rfl
  | succ k ih => rw [Function.iterate_succ_apply, derivative_sum, ih]; rfl

/-- Integral of a derivative of a Taylor polynomial. -/
lemma int_deriv_taylor (a b : K) (k n : ℕ) (t : ℕ → K) : intBetween a b (derivative^[k] (taylorPoly n t)) =
    ∑ j ∈ Finset.Ico k n, t j * integrateMonomialDerivativeBounds k j a b := by
  unfold taylorPoly
  rw [iterate_derivative_sum', intBetween_sum]
  simp only [int_deriv_monomial]
  rw [← Finset.sum_filter]
  apply Finset.sum_congr
  · ext j; simp; omega
  · intros; rfl

lemma int_deriv_high (a b : K) (k p m : ℕ) (hk : k ≤ m) (t : ℕ → K) :
    intBetween a b (derivative^[k] (highPart p m (taylorPoly (p + 1) t))) =
    ∑ j ∈ Finset.Ico (m + 1) (p + 1), t j * integrateMonomialDerivativeBounds k j a b := by
  unfold highPart
  rw [iterate_derivative_sum', intBetween_sum]
  apply Finset.sum_congr rfl
  intro j hj
  rw [Finset.mem_Ico] at hj
  rw [taylorPoly_coeff, if_pos hj.2, int_deriv_monomial, if_pos (by omega)]

end Taylor

section Loop
variable {K : Type*} [Field K] [LinearOrder K] [IsStrictOrderedRing K]

/-- One pass only reads the already limited entries `> m`. -/
lemma limitStep_congr (lm : HrLimiter K) (N : ℕ) (ac al ar x y : ℕ → K) (m : ℕ) (h : ∀ n, m < n → x n = y n) :
    lm.limitStep N ac al ar x m = lm.limitStep N ac al ar y m := by
  unfold HrLimiter.limitStep
  have : ∀ T : Arr K, ∑ n ∈ Finset.Ico (m + 1) (N + 1), x n * T.val (m - 1) n =
      ∑ n ∈ Finset.Ico (m + 1) (N + 1), y n * T.val (m - 1) n := by
    intro T
    apply Finset.sum_congr rfl
    intro n hn
    rw [Finset.mem_Ico] at hn
    rw [h n (by omega)]
  simp only [this]

lemma limitLoop_spec (lm : HrLimiter K) (N : ℕ) (ac al ar : ℕ → K) (m : ℕ) : ∀ st : (ℕ → K) × Option K,
    (∀ n, m < n → (lm.limitLoop N ac al ar m st).1 n = st.1 n) ∧
    (lm.limitLoop N ac al ar m st).1 0 = st.1 0 ∧
    (∀ n, 1 ≤ n → n ≤ m → (lm.limitLoop N ac al ar m st).1 n =
      (lm.limitStep N ac al ar (lm.limitLoop N ac al ar m st).1 n).2) ∧
    (lm.limitLoop N ac al ar m st).2 = if m = 0 then st.2 else
      some (lm.limitStep N ac al ar (lm.limitLoop N ac al ar m st).1 1).1 := by
  induction m with
  | zero => intro st; exact ⟨fun _ _ => rfl, rfl, fun n h1 h2 => by omega, by simp [HrLimiter.limitLoop]⟩
  | succ m ih =>
    intro st
    rw [HrLimiter.limitLoop]
    set r := lm.limitStep N ac al ar st.1 (m + 1) with hr
    obtain ⟨h1, h2, h3, h4⟩ := ih (Function.update st.1 (m + 1) r.2, some r.1)
    set q := lm.limitLoop N ac al ar m (Function.update st.1 (m + 1) r.2, some r.1) with hq
    have hhi : ∀ n, m + 1 < n → q.1 n = st.1 n := by
      intro n hn
      rw [h1 n (by omega)]
      simp only
      rw [Function.update_of_ne (by omega)]
    have hm1 : q.1 (m + 1) = r.2 := by
      rw [h1 (m + 1) (by omega)]; simp
    refine ⟨hhi, ?_, ?_, ?_⟩
    · rw [h2]; simp
    · intro n hn1 hn2
      by_cases hn : n = m + 1
      · subst hn
        rw [hm1, hr, limitStep_congr lm N ac al ar _ q.1 (m + 1) (fun n hn => (hhi n hn).symm)]
      · exact h3 n hn1 (by omega)
    · rw [if_neg (by omega), h4]
      by_cases hm : m = 0
      · subst hm
        rw [if_pos rfl]
        simp only
        rw [hr, limitStep_congr lm N ac al ar _ q.1 1 (fun n hn => (hhi n hn).symm)]
      · rw [if_neg hm]

end Loop

section Reconstruction
variable {K : Type*} [Field K] [LinearOrder K] [IsStrictOrderedRing K]

lemma highPart_congr {p m : ℕ} {V W : K[X]} (h : ∀ n, m < n → n ≤ p → V.coeff n = W.coeff n) : highPart p m V = highPart p m W := by
  unfold highPart
  apply Finset.sum_congr rfl
  intro n hn
  rw [Finset.mem_Ico] at hn
  rw [h n (by omega) (by omega)]

/-- The reconstruction is unique. -/
lemma isHR_unique {p : ℕ} {UL UC UR V W : K[X]} (hV : IsHR p UL UC UR V) (hW : IsHR p UL UC UR W) : V = W := by
  have key : ∀ k m, 1 ≤ m → p < m + k → V.coeff m = W.coeff m := by
    intro k
    induction k with
    | zero =>
      intro m _ hm
      rw [coeff_eq_zero_of_degree_lt (lt_of_lt_of_le hV.degree (by exact_mod_cast hm)),
        coeff_eq_zero_of_degree_lt (lt_of_lt_of_le hW.degree (by exact_mod_cast hm))]
    | succ k ih =>
      intro m h1 hm
      by_cases hmp : m ≤ p
      · have hh : highPart p m V = highPart p m W := highPart_congr fun n hn _ => ih n (by omega) (by omega)
        have e1 := hV.slope m h1 hmp
        have e2 := hW.slope m h1 hmp
        unfold linearAverage at e1 e2
        rw [hh, ← e2] at e1
        exact mul_right_cancel₀ (fact_ne m) e1
      · exact ih m h1 (by omega)
  have h0 : V = W + C (V.coeff 0 - W.coeff 0) := by
    ext n
    rw [coeff_add, coeff_C]
    by_cases hn : n = 0
    · subst hn; simp
    · rw [if_neg hn, add_zero, key (p + 1) n (by omega) (by omega)]
  have hm := hV.mean.trans hW.mean.symm
  rw [h0, intPoly_add, show C (V.coeff 0 - W.coeff 0) = C (V.coeff 0 - W.coeff 0) * (1 : K[X]) by rw [mul_one],
    intPoly_C_mul, intPoly_one] at hm
  have : V.coeff 0 - W.coeff 0 = 0 := by linarith
  rw [h0, this]; simp

/-- What the methods rely on about the attributes of the limiter. -/
structure LimiterOk (lm : HrLimiter K) (p : ℕ) : Prop where
  rowsL : lm.L2M.rows = p + 1
  colsL : lm.L2M.cols = p + 1
  rowsM : lm.M2L.rows = p + 1
  colsM : lm.M2L.cols = p + 1
  toMono : ∀ c : ℕ → K, taylorPoly (p + 1) (fun i => ∑ k ∈ Finset.range (p + 1), lm.L2M.val i k * c k) = legSeries (p + 1) c
  toLeg : ∀ t : ℕ → K, legSeries (p + 1) (fun i => ∑ k ∈ Finset.range (p + 1), lm.M2L.val i k * t k) = taylorPoly (p + 1) t
  integral : ∀ k n, k < p → k ≤ n → n ≤ p → lm.integral.val k n = integrateMonomialDerivativeBounds k n (-1) 1
  bounds31 : ∀ k n, k < p → k + 2 ≤ n → n ≤ p → lm.bounds31.val k n = integrateMonomialDerivativeBounds k n (-3) (-1)
  bounds13 : ∀ k n, k < p → k + 2 ≤ n → n ≤ p → lm.bounds13.val k n = integrateMonomialDerivativeBounds k n 1 3

lemma limitStep_eq {lm : HrLimiter K} {p : ℕ} (h : LimiterOk lm p) (ac al ar x y : ℕ → K) {m : ℕ} (h1 : 1 ≤ m) (h2 : m ≤ p)
    (hy : ∀ n, m < n → x n = y n) :
    lm.limitStep p ac al ar x m =
      (linearAverage p m (taylorPoly (p + 1) y) (taylorPoly (p + 1) ac) (-1),
       minmod ((linearAverage p m (taylorPoly (p + 1) y) (taylorPoly (p + 1) ac) (-1) -
          linearAverage p m (taylorPoly (p + 1) y) (taylorPoly (p + 1) al) (-3)) / 2)
        ((linearAverage p m (taylorPoly (p + 1) y) (taylorPoly (p + 1) ar) 1 -
          linearAverage p m (taylorPoly (p + 1) y) (taylorPoly (p + 1) ac) (-1)) / 2)) := by
  rw [limitStep_congr lm p ac al ar x y m hy]
  have hU : ∀ a : ℕ → K, ∑ n ∈ Finset.Ico (m - 1) (p + 1), a n * lm.integral.val (m - 1) n =
      intPoly (derivative^[m - 1] (taylorPoly (p + 1) a)) := by
    intro a
    rw [intPoly, int_deriv_taylor]
    apply Finset.sum_congr rfl
    intro n hn
    rw [Finset.mem_Ico] at hn
    rw [h.integral _ _ (by omega) (by omega) (by omega)]
  have hR : ∀ (T : Arr K) (a b : K), (∀ k n, k < p → k + 2 ≤ n → n ≤ p → T.val k n = integrateMonomialDerivativeBounds k n a b) →
      ∑ n ∈ Finset.Ico (m + 1) (p + 1), y n * T.val (m - 1) n =
        intBetween a b (derivative^[m - 1] (highPart p m (taylorPoly (p + 1) y))) := by
    intro T a b hT
    rw [int_deriv_high _ _ _ _ _ (by omega)]
    apply Finset.sum_congr rfl
    intro n hn
    rw [Finset.mem_Ico] at hn
    rw [hT _ _ (by omega) (by omega) (by omega)]
  have r1 := hR lm.bounds31 _ _ h.bounds31
  have r2 := hR lm.integral (-1) 1 (fun k n a b c => h.integral k n a (by omega) c)
  have r3 := hR lm.bounds13 _ _ h.bounds13
  unfold HrLimiter.limitStep
  simp only [hU, r1, r2, r3, scalarMinmod_eq]
  unfold linearAverage
  rw [show (-1 : K) + 2 = 1 by norm_num, show (-3 : K) + 2 = -1 by norm_num, show (1 : K) + 2 = 3 by norm_num]
  have e : ∀ z : K, 1 / 2 * z = z / 2 := fun z => by ring
  simp only [e]

lemma bounds_zero_zero : integrateMonomialDerivativeBounds (K := K) 0 0 (-1) 1 = 2 := by
  norm_num [integrateMonomialDerivativeBounds]

lemma bounds_zero_one : integrateMonomialDerivativeBounds (K := K) 0 1 (-1) 1 = 0 := by
  norm_num [integrateMonomialDerivativeBounds]

lemma limitMonomial_spec {lm : HrLimiter K} {p : ℕ} (h : LimiterOk lm p) (hp : 1 ≤ p) (ac al ar : Vec K) (hlen : ac.len = p + 1) :
    ∃ t, lm.limitMonomial ac al ar = .ok t ∧ t.len = p + 1 ∧
      IsHR p (taylorPoly (p + 1) al.val) (taylorPoly (p + 1) ac.val) (taylorPoly (p + 1) ar.val) (taylorPoly (p + 1) t.val) := by
  unfold HrLimiter.limitMonomial
  have hN : ac.len - 1 = p := by omega
  rw [hN]
  simp only
  obtain ⟨l1, l2, l3, l4⟩ := limitLoop_spec lm p ac.val al.val ar.val p (fun _ => 0, none)
  rw [if_neg (by omega)] at l4
  rcases hq : lm.limitLoop p ac.val al.val ar.val p (fun _ => 0, none) with ⟨x, o⟩
  rw [hq] at l1 l2 l3 l4
  simp only at l1 l2 l3 l4
  subst l4
  simp only
  refine ⟨_, rfl, hlen, ?_⟩
  set avg := (lm.limitStep p ac.val al.val ar.val x 1).1 with havg
  set t := Function.update x 0 avg with ht
  have hxt : ∀ m, 1 ≤ m → ∀ n, m < n → x n = t n := by
    intro m hm n hn
    rw [ht, Function.update_of_ne (by omega)]
  refine ⟨by exact_mod_cast taylorPoly_degree (p + 1) t, ?_, ?_⟩
  · have h1 := limitStep_eq h ac.val al.val ar.val x t (le_refl 1) hp (hxt 1 (le_refl 1))
    have h2 : avg = linearAverage p 1 (taylorPoly (p + 1) t) (taylorPoly (p + 1) ac.val) (-1) := by rw [havg, h1]
    unfold linearAverage at h2
    rw [show (1 : ℕ) - 1 = 0 from rfl, Function.iterate_zero, id, id, show (-1 : K) + 2 = 1 by norm_num] at h2
    have h3 := int_deriv_high (-1 : K) 1 0 p 1 (by omega) t
    rw [Function.iterate_zero, id] at h3
    rw [h3] at h2
    have h4 := int_deriv_taylor (-1 : K) 1 0 (p + 1) t
    rw [Function.iterate_zero, id] at h4
    have h5 : intPoly (taylorPoly (p + 1) t) = 2 * t 0 +
        ∑ j ∈ Finset.Ico (1 + 1) (p + 1), t j * integrateMonomialDerivativeBounds 0 j (-1) 1 := by
      rw [intPoly, h4, Finset.sum_eq_sum_Ico_succ_bot (by omega), Finset.sum_eq_sum_Ico_succ_bot (by omega),
        bounds_zero_zero, zero_add, bounds_zero_one]
      ring
    have h6 : t 0 = avg := by rw [ht]; simp
    rw [h5, h6, h2]
    ring
  · intro m h1 h2
    have h3 := limitStep_eq h ac.val al.val ar.val x t h1 h2 (hxt m h1)
    rw [taylorPoly_coeff, if_pos (by omega), div_mul_cancel₀ _ (fact_ne m)]
    have h4 : t m = x m := by rw [ht, Function.update_of_ne (by omega)]
    dsimp only
    rw [h4, l3 m h1 h2, h3]

/-- Order 0: `avgLC` is read before it is assigned. -/
lemma limitMonomial_zero (lm : HrLimiter K) (ac al ar : Vec K) (hlen : ac.len = 1) :
    lm.limitMonomial ac al ar = .error .unboundLocal := by
  unfold HrLimiter.limitMonomial
  rw [hlen]
  rfl

lemma hr_spec {lm : HrLimiter K} {p : ℕ} (h : LimiterOk lm p) (hp : 1 ≤ p) (uc ul ur : Vec K) :
    ∃ v, lm.hr uc ul ur = .ok v ∧ v.len = p + 1 ∧
      IsHR p (legSeries (p + 1) ul.val) (legSeries (p + 1) uc.val) (legSeries (p + 1) ur.val) (legSeries (p + 1) v.val) := by
  obtain ⟨t, h1, h2, h3⟩ := limitMonomial_spec h hp (lm.L2M.dotVec uc) (lm.L2M.dotVec ul) (lm.L2M.dotVec ur) h.rowsL
  unfold HrLimiter.hr
  rw [h1]
  refine ⟨_, rfl, h.rowsM, ?_⟩
  simp only [Arr.dotVec, h.colsL, h.colsM] at h3 ⊢
  rw [h.toMono, h.toMono, h.toMono] at h3
  rw [h.toLeg]
  exact h3

end Reconstruction

section Init
variable {K : Type*} [Field K] [LinearOrder K] [IsStrictOrderedRing K]

lemma eq_of_nodes {N : ℕ} {x : ℕ → K} (hd : ∀ i < N, ∀ j < N, x i = x j → i = j) {f g : K[X]} (hf : f.degree < N)
    (hg : g.degree < N) (h : ∀ i < N, f.eval (x i) = g.eval (x i)) : f = g := by
  have hinj : Set.InjOn x (Finset.range N : Set ℕ) := by
    intro i hi j hj hij
    exact hd i (by simpa using hi) j (by simpa using hj) hij
  refine eq_of_degrees_lt_of_eval_index_eq (Finset.range N) hinj (by simpa using hf) (by simpa using hg) ?_
  intro i hi
  exact h i (Finset.mem_range.mp hi)

lemma taylorPoly_congr {n : ℕ} {t t' : ℕ → K} (h : ∀ k < n, t k = t' k) : taylorPoly n t = taylorPoly n t' := by
  unfold taylorPoly
  exact Finset.sum_congr rfl fun j hj => by rw [h j (Finset.mem_range.mp hj)]

lemma taylorPoly_zero_inj {n : ℕ} {t : ℕ → K} (h : taylorPoly n t = 0) : ∀ k < n, t k = 0 := by
  intro k hk
  have := congrArg (fun f => f.coeff k) h
  simp only [coeff_zero] at this
  rw [taylorPoly_coeff, if_pos hk, div_eq_zero_iff] at this
  exact this.resolve_right (fact_ne k)

lemma limiter_init {s : Sol K} {lib : GaussLib K} {p : ℕ} (hb : s.basis = Basis.init lib p)
    (hG : IsGaussRule (p + 1) (lib (p + 1)).1.val (lib (p + 1)).2.val) :
    ∃ lm, Limiter.init "adaptive_hr" s = .ok (some lm) ∧ LimiterOk lm p := by
  set x := (lib (p + 1)).1.val with hx
  have hV : ∀ (t : ℕ → K) (i : ℕ), ∑ k ∈ Finset.range (p + 1), (taylorMatrix s.basis).val i k * t k = (taylorPoly (p + 1) t).eval (x i) := by
    intro t i
    rw [taylorPoly_eval]
    apply Finset.sum_congr rfl
    intro k _
    rw [hb]; rfl
  have hVr : (taylorMatrix s.basis).rows = p + 1 := by rw [hb]; rfl
  have hVc : (taylorMatrix s.basis).cols = p + 1 := by rw [hb]; rfl
  obtain ⟨Vi, hVi⟩ := inv_ok hVr hVc (by
    intro v hv
    apply taylorPoly_zero_inj
    apply eq_of_nodes hG.distinct (taylorPoly_degree _ v) (by rw [degree_zero]; exact WithBot.bot_lt_coe _)
    intro i hi
    rw [← hV v i, hv i hi, eval_zero])
  obtain ⟨_, s2, s3, s4, s5⟩ := inv_spec hVi
  rw [hVr] at s2 s3
  have hphi : ∀ (c : ℕ → K) (g : ℕ), ∑ k ∈ Finset.range (p + 1), s.basis.phi.val g k * c k = (legSeries (p + 1) c).eval (x g) := by
    intro c g
    rw [legSeries_eval]
    apply Finset.sum_congr rfl
    intro k _
    rw [hb, ← basisValue_spec, mul_comm]; rfl
  have hL : ∀ (c : ℕ → K) (i : ℕ), ∑ k ∈ Finset.range (p + 1), (Vi.dot s.basis.phi).val i k * c k =
      ∑ l ∈ Finset.range (p + 1), Vi.val i l * ∑ k ∈ Finset.range (p + 1), s.basis.phi.val l k * c k := by
    intro c i
    simp only [Arr.dot, s3, Finset.mul_sum, Finset.sum_mul]
    rw [Finset.sum_comm]
    simp only [mul_assoc]
  have toMono : ∀ c : ℕ → K, taylorPoly (p + 1) (fun i => ∑ k ∈ Finset.range (p + 1), (Vi.dot s.basis.phi).val i k * c k) = legSeries (p + 1) c := by
    intro c
    apply eq_of_nodes hG.distinct (taylorPoly_degree _ _) (legSeries_degree _ _)
    intro i hi
    rw [← hV, ← hphi]
    simp only [hL]
    have := apply_inv hVi (fun l => ∑ k ∈ Finset.range (p + 1), s.basis.phi.val l k * c k) (i := i) (by omega)
    rw [hVr] at this
    exact this
  have hLr : (Vi.dot s.basis.phi).rows = p + 1 := s2
  have hLc : (Vi.dot s.basis.phi).cols = p + 1 := by rw [hb]; rfl
  obtain ⟨M, hM⟩ := inv_ok hLr hLc (by
    intro v hv
    have h1 := toMono v
    rw [taylorPoly_congr (t' := fun _ => 0) hv] at h1
    have h2 : taylorPoly (p + 1) (fun _ => (0 : K)) = 0 := by simp [taylorPoly]
    rw [h2] at h1
    intro k hk
    exact legSeries_injective (p + 1) v (fun _ => 0) (by rw [← h1]; simp [legSeries]) k hk)
  obtain ⟨_, m2, m3, _⟩ := inv_spec hM
  rw [hLr] at m2 m3
  refine ⟨⟨Vi.dot s.basis.phi, M, (integralTables s.basis).1, (integralTables s.basis).2.1, (integralTables s.basis).2.2⟩, ?_, ?_⟩
  · unfold Limiter.init
    rw [if_pos rfl, hVi]
    simp only [hM]
  · refine ⟨hLr, hLc, m2, m3, toMono, ?_, ?_, ?_, ?_⟩
    · intro t
      rw [← toMono]
      apply taylorPoly_congr
      intro k hk
      have := apply_inv hM t (i := k) (by omega)
      rw [hLr] at this
      exact this
    all_goals
      intro k n h1 h2 h3
      have hp : s.basis.p = p := by rw [hb]; rfl
      simp only [integralTables, hp]
      rw [if_pos (by omega)]
    exact bounds_eq k n

end Init

section Adaptive
variable {K : Type*} [Field K] [LinearOrder K] [IsStrictOrderedRing K]

/-- The fields of one cell. -/
lemma limitFields_spec {lm : HrLimiter K} {s : Sol K} (v : ℕ → Vec K) (e : ℕ) (ulim : Arr K)
    (hv : ∀ f < s.NF, lm.hr (s.u.col (e * s.NF + f)) (s.u.col ((e - 1) * s.NF + f)) (s.u.col ((e + 1) * s.NF + f)) =
      .ok (v (e * s.NF + f))) :
    ∃ B, lm.limitFields s e ulim = .ok B ∧ B.rows = ulim.rows ∧ B.cols = ulim.cols ∧
      ∀ r c, B.val r c = if e * s.NF ≤ c ∧ c < e * s.NF + s.NF then (v c).val r else ulim.val r c := by
  unfold HrLimiter.limitFields
  set g : Arr K → ℕ → Except PyErr (Arr K) := fun ulim f =>
      match lm.hr (s.u.col (e * s.NF + f)) (s.u.col ((e - 1) * s.NF + f)) (s.u.col ((e + 1) * s.NF + f)) with
      | .error err => .error err
      | .ok v => .ok (ulim.setCol (e * s.NF + f) v) with hg
  have key : ∀ n ≤ s.NF, ∃ B, (List.range n).foldlM g ulim = .ok B ∧ B.rows = ulim.rows ∧ B.cols = ulim.cols ∧
      ∀ r c, B.val r c = if e * s.NF ≤ c ∧ c < e * s.NF + n then (v c).val r else ulim.val r c := by
    intro n
    induction n with
    | zero => intro _; exact ⟨ulim, rfl, rfl, rfl, fun r c => by rw [if_neg (by omega)]⟩
    | succ n ih =>
      intro hn
      obtain ⟨B, h1, h2, h3, h4⟩ := ih (by omega)
      rw [List.range_succ, List.foldlM_append, h1]
      have hgB : g B n = .ok (B.setCol (e * s.NF + n) (v (e * s.NF + n))) := by
        simp only [hg]
        rw [hv n (by omega)]
      refine ⟨B.setCol (e * s.NF + n) (v (e * s.NF + n)), ?_, h2, h3, ?_⟩
      · show List.foldlM g B [n] = _
        rw [List.foldlM_cons, hgB]
        rfl
      · intro r c
        simp only [Arr.setCol]
        by_cases hc : c = e * s.NF + n
        · subst hc
          rw [if_pos rfl, if_pos (by omega)]
        · rw [if_neg hc, h4]
          by_cases hcc : e * s.NF ≤ c ∧ c < e * s.NF + n
          · rw [if_pos hcc, if_pos (by omega)]
          · rw [if_neg hcc, if_neg (by omega)]
  exact key s.NF le_rfl

lemma div_mem {c e F : ℕ} : (e * F ≤ c ∧ c < e * F + F) ↔ (0 < F ∧ c / F = e) := by
  rcases Nat.eq_zero_or_pos F with h | h
  · subst h; simp
  · rw [Nat.div_eq_iff h]
    constructor
    · rintro ⟨h1, h2⟩; exact ⟨h, by omega, by omega⟩
    · rintro ⟨_, h1, h2⟩; omega

/-- Closed form of `adaptive_hr`. -/
lemma adaptiveHr_spec {lm : HrLimiter K} {s : Sol K} {sn sn' : Sensor K} (hsn : s.sensors = some sn) (hsn' : sn.sensing s = .ok sn')
    (hF : 0 < s.NF) (v : ℕ → Vec K)
    (hv : ∀ e, 1 ≤ e → e ≤ s.NE → sn'.sensors.val e ≠ 0 → ∀ f < s.NF,
      lm.hr (s.u.col (e * s.NF + f)) (s.u.col ((e - 1) * s.NF + f)) (s.u.col ((e + 1) * s.NF + f)) = .ok (v (e * s.NF + f))) :
    ∃ U : Arr K, lm.adaptiveHr s = .ok (Sol.applyBc { s with u := U, sensors := some sn' }) ∧ U.rows = s.u.rows ∧ U.cols = s.u.cols ∧
      ∀ r c, U.val r c = if 1 ≤ c / s.NF ∧ c / s.NF ≤ s.NE ∧ sn'.sensors.val (c / s.NF) ≠ 0 then (v c).val r else s.u.val r c := by
  unfold HrLimiter.adaptiveHr
  rw [hsn]
  simp only [hsn']
  set g : Arr K → ℕ → Except PyErr (Arr K) := fun ulim e =>
      if sn'.sensors.val e ≠ 0 then lm.limitFields s e ulim else .ok ulim with hg
  have key : ∀ n ≤ s.NE, ∃ B, (List.range' 1 n).foldlM g s.u = .ok B ∧ B.rows = s.u.rows ∧ B.cols = s.u.cols ∧
      ∀ r c, B.val r c = if 1 ≤ c / s.NF ∧ c / s.NF ≤ n ∧ sn'.sensors.val (c / s.NF) ≠ 0 then (v c).val r else s.u.val r c := by
    intro n
    induction n with
    | zero => intro _; exact ⟨s.u, rfl, rfl, rfl, fun r c => by rw [if_neg (by omega)]⟩
    | succ n ih =>
      intro hn
      obtain ⟨B, h1, h2, h3, h4⟩ := ih (by omega)
      rw [List.range'_1_concat, List.foldlM_append, h1]
      by_cases hs : sn'.sensors.val (1 + n) ≠ 0
      · obtain ⟨B', g1, g2, g3, g4⟩ := limitFields_spec v (1 + n) B (hv (1 + n) (by omega) (by omega) hs)
        refine ⟨B', ?_, g2.trans h2, g3.trans h3, ?_⟩
        · show List.foldlM g B [1 + n] = _
          have : g B (1 + n) = .ok B' := by simp only [hg]; rw [if_pos hs, g1]
          rw [List.foldlM_cons, this]
          rfl
        · intro r c
          rw [g4, h4]
          by_cases hc : c / s.NF = 1 + n
          · rw [if_pos (div_mem.mpr ⟨hF, hc⟩), if_pos ⟨by omega, by omega, by rw [hc]; exact hs⟩]
          · rw [if_neg (fun h => hc (div_mem.mp h).2)]
            congr 1
            apply propext
            constructor
            · rintro ⟨a, b, d⟩; exact ⟨a, by omega, d⟩
            · rintro ⟨a, b, d⟩; exact ⟨a, by omega, d⟩
      · refine ⟨B, ?_, h2, h3, ?_⟩
        · show List.foldlM g B [1 + n] = _
          have : g B (1 + n) = .ok B := by simp only [hg]; rw [if_neg hs]
          rw [List.foldlM_cons, this]
          rfl
        · intro r c
          rw [h4]
          congr 1
          apply propext
          constructor
          · rintro ⟨a, b, d⟩; exact ⟨a, by omega, d⟩
          · rintro ⟨a, b, d⟩
            refine ⟨a, ?_, d⟩
            by_contra hc
            have : c / s.NF = 1 + n := by omega
            rw [this] at d
            exact hs d
  obtain ⟨B, h1, h2, h3, h4⟩ := key s.NE le_rfl
  exact ⟨B, by rw [h1], h2, h3, h4⟩

/-- The first flagged cell whose reconstruction raises makes `adaptive_hr` raise. -/
lemma adaptiveHr_error {lm : HrLimiter K} {s : Sol K} {sn sn' : Sensor K} (hsn : s.sensors = some sn) (hsn' : sn.sensing s = .ok sn')
    (hF : 0 < s.NF) (err : PyErr)
    (hv : ∀ e, 1 ≤ e → e ≤ s.NE → sn'.sensors.val e ≠ 0 → ∀ f < s.NF,
      lm.hr (s.u.col (e * s.NF + f)) (s.u.col ((e - 1) * s.NF + f)) (s.u.col ((e + 1) * s.NF + f)) = .error err)
    {e : ℕ} (h1 : 1 ≤ e) (h2 : e ≤ s.NE) (h3 : sn'.sensors.val e ≠ 0) : lm.adaptiveHr s = .error err := by
  unfold HrLimiter.adaptiveHr
  rw [hsn]
  simp only [hsn']
  set g : Arr K → ℕ → Except PyErr (Arr K) := fun ulim e =>
      if sn'.sensors.val e ≠ 0 then lm.limitFields s e ulim else .ok ulim with hg
  have hL : ∀ e, 1 ≤ e → e ≤ s.NE → sn'.sensors.val e ≠ 0 → ∀ A, lm.limitFields s e A = .error err := by
    intro e he1 he2 he3 A
    unfold HrLimiter.limitFields
    obtain ⟨k, hk⟩ := Nat.exists_eq_succ_of_ne_zero hF.ne'
    have h0 := hv e he1 he2 he3 0 hF
    rw [hk] at h0 ⊢
    rw [List.range_succ_eq_map, List.foldlM_cons]
    simp only [h0]
    rfl
  have key : ∀ n a A, 1 ≤ a → a + n ≤ s.NE + 1 → a ≤ e → e < a + n → (List.range' a n).foldlM g A = .error err := by
    intro n
    induction n with
    | zero => intro a A _ _ _ _; omega
    | succ n ih =>
      intro a A ha1 ha2 ha3 ha4
      rw [List.range'_succ, List.foldlM_cons]
      by_cases hs : sn'.sensors.val a ≠ 0
      · have : g A a = .error err := by simp only [hg]; rw [if_pos hs, hL a ha1 (by omega) hs]
        rw [this]; rfl
      · have : g A a = .ok A := by simp only [hg]; rw [if_neg hs]
        rw [this]
        show List.foldlM g A (List.range' (a + 1) n) = _
        have hne : a ≠ e := fun h => hs (h ▸ h3)
        exact ih (a + 1) A (by omega) (by omega) (by omega) (by omega)
  rw [key s.NE 1 s.u le_rfl (by omega) h1 (by omega)]

end Adaptive
end Dg1d
