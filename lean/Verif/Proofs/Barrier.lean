import Mathlib.Algebra.Polynomial.Roots
import Mathlib.Algebra.QuadraticDiscriminant
import Mathlib.Topology.Algebra.Polynomial
import Mathlib.Topology.MetricSpace.Bounded
import Mathlib.Order.Interval.Set.Infinite
import Mathlib.Data.Real.Basic

/-! Helper lemmas for C110: a linear update that is exact for quadratic polynomials and moves them by less than a cell does not
keep bounds. -/

open Polynomial

namespace Dg1d

/-- Data that are the polynomial `q` in cell `j` and zero in all others. -/
noncomputable def onCell (j : ℕ) (q : ℝ[X]) : ℕ → ℝ[X] := fun i => if i = j then q else 0

lemma onCell_add (j : ℕ) (q r : ℝ[X]) : onCell j (q + r) = onCell j q + onCell j r := by
  funext i
  simp only [onCell, Pi.add_apply]
  split_ifs <;> simp

lemma onCell_smul (j : ℕ) (c : ℝ) (q : ℝ[X]) : onCell j (c • q) = c • onCell j q := by
  funext i
  simp only [onCell, Pi.smul_apply]
  split_ifs <;> simp

/-- Data that are the polynomial `Q` everywhere, in the coordinate of cell `e`, cell `j` being centred at `2 (j - e)`. -/
noncomputable def spread (N e : ℕ) (Q : ℝ[X]) : ℕ → ℝ[X] := fun i => if i ∈ Finset.Icc 1 N then Q.comp (X + C (2 * ((i : ℝ) - e))) else 0

lemma spread_sum (N e : ℕ) (Q : ℝ[X]) : spread N e Q = ∑ j ∈ Finset.Icc 1 N, onCell j (Q.comp (X + C (2 * ((j : ℝ) - e)))) := by
  funext i
  rw [Finset.sum_apply]
  simp only [onCell, spread]
  rw [Finset.sum_ite_eq]

lemma eq_zero_of_interval {q : ℝ[X]} {a b : ℝ} (hab : a < b) (h : ∀ x, a < x → x < b → q.eval x = 0) : q = 0 :=
  eq_zero_of_infinite_isRoot q ((Set.Ioo_infinite hab).mono fun x hx => h x hx.1 hx.2)

/-- Godunov's argument: squares of distances vanish at the foot point, so bounds would only allow the cell of the foot point to contribute; but the
contributions are polynomials, and the foot points of a cell lie in two cells. -/
lemma barrier_core (Φ : (ℕ → ℝ[X]) →ₗ[ℝ] ℝ[X]) (N e : ℕ) {τ : ℝ} (h0 : 0 < τ) (h2 : τ < 2)
    (hex : ∀ Q : ℝ[X], Q.natDegree ≤ 2 → Φ (spread N e Q) = Q.comp (X - C τ)) :
    ∃ P : ℕ → ℝ[X], (∀ j, (P j).natDegree ≤ 2) ∧ (∀ j, ∀ x ∈ Set.Icc (-1 : ℝ) 1, (P j).eval x ∈ Set.Icc (0 : ℝ) 1) ∧
      ∃ x ∈ Set.Icc (-1 : ℝ) 1, (Φ P).eval x < 0 := by
  by_contra hno
  push Not at hno
  have hpos : ∀ (j : ℕ) (q : ℝ[X]), q.natDegree ≤ 2 → (∀ x ∈ Set.Icc (-1 : ℝ) 1, 0 ≤ q.eval x) → ∀ x ∈ Set.Icc (-1 : ℝ) 1, 0 ≤ (Φ (onCell j q)).eval x := by
    intro j q hq hq0 x hx
    obtain ⟨M, hM⟩ := isCompact_Icc.exists_bound_of_continuousOn (s := Set.Icc (-1 : ℝ) 1) (f := fun y => q.eval y) q.continuous.continuousOn
    have hM0 : 0 ≤ M := (norm_nonneg _).trans (hM x hx)
    have key := hno (onCell j ((M + 1)⁻¹ • q)) (fun i => ?_) (fun i y hy => ?_) x hx
    · rw [onCell_smul, map_smul, eval_smul, smul_eq_mul] at key
      have : 0 < (M + 1)⁻¹ := by positivity
      exact nonneg_of_mul_nonneg_right key this
    · unfold onCell
      split_ifs
      · exact (natDegree_smul_le _ _).trans hq
      · simp
    · unfold onCell
      split_ifs
      · rw [eval_smul, smul_eq_mul]
        have h1 := hq0 y hy
        have h3 : q.eval y ≤ M := (le_abs_self _).trans (hM y hy)
        refine ⟨by positivity, ?_⟩
        rw [inv_mul_le_iff₀ (by positivity)]
        linarith
      · simp
  have hdeg : ∀ (a b : ℝ), ((X - C a) ^ 2 : ℝ[X]).natDegree ≤ 2 ∧ (((X - C a) ^ 2 : ℝ[X]).comp (X + C b)).natDegree ≤ 2 := by
    intro a b
    have h1 : ((X - C a) ^ 2 : ℝ[X]).natDegree ≤ 2 := by
      rw [natDegree_pow, natDegree_X_sub_C]
    refine ⟨h1, ?_⟩
    rw [natDegree_comp, natDegree_X_add_C, mul_one]
    exact h1
  have hzero : ∀ j ∈ Finset.Icc 1 N, ∀ x ∈ Set.Icc (-1 : ℝ) 1, ∀ c : ℝ, 0 < c →
      (∀ y ∈ Set.Icc (-1 : ℝ) 1, c ≤ (y + 2 * ((j : ℝ) - e) - (x - τ)) ^ 2) → (Φ (onCell j 1)).eval x = 0 := by
    intro j hj x hx c hc hcy
    have hterm : ∀ i ∈ Finset.Icc 1 N, 0 ≤ (Φ (onCell i (((X - C (x - τ)) ^ 2 : ℝ[X]).comp (X + C (2 * ((i : ℝ) - e)))))).eval x := by
      intro i _
      refine hpos i _ (hdeg _ _).2 (fun y _ => ?_) x hx
      simp only [eval_comp, eval_pow, eval_sub, eval_add, eval_X, eval_C]
      positivity
    have hsum : ∑ i ∈ Finset.Icc 1 N, (Φ (onCell i (((X - C (x - τ)) ^ 2 : ℝ[X]).comp (X + C (2 * ((i : ℝ) - e)))))).eval x = 0 := by
      have := congrArg (fun q => q.eval x) (hex ((X - C (x - τ)) ^ 2) (hdeg _ 0).1)
      rw [spread_sum, map_sum] at this
      simp only [eval_finsetSum, eval_comp, eval_pow, eval_sub, eval_X, eval_C] at this
      rw [this]
      ring
    have hj0 := (Finset.sum_eq_zero_iff_of_nonneg hterm).mp hsum j hj
    have h1 : 0 ≤ (Φ (onCell j 1)).eval x := hpos j 1 (by simp) (fun y _ => by simp) x hx
    have h3 : 0 ≤ (Φ (onCell j (((X - C (x - τ)) ^ 2 : ℝ[X]).comp (X + C (2 * ((j : ℝ) - e))) + (-c) • 1))).eval x := by
      refine hpos j _ ?_ (fun y hy => ?_) x hx
      · refine (natDegree_add_le _ _).trans (max_le (hdeg _ _).2 ((natDegree_smul_le _ _).trans (by simp)))
      · have := hcy y hy
        simp only [eval_add, eval_smul, eval_one, eval_comp, eval_pow, eval_sub, eval_X, eval_C, smul_eq_mul, mul_one]
        linarith
    rw [onCell_add, onCell_smul, map_add, map_smul, eval_add, eval_smul, hj0, smul_eq_mul] at h3
    nlinarith
  have hg : ∀ j ∈ Finset.Icc 1 N, Φ (onCell j 1) = 0 := by
    intro j hj
    rcases lt_trichotomy j e with h | h | h
    · have hje : (j : ℝ) - e ≤ -1 := by
        have : (j : ℝ) + 1 ≤ e := by exact_mod_cast h
        linarith
      refine eq_zero_of_interval (a := τ - 1) (b := 1) (by linarith) fun x hx1 hx2 => ?_
      refine hzero j hj x ⟨by linarith, hx2.le⟩ ((x - τ + 1) ^ 2) (by nlinarith) fun y hy => ?_
      have := hy.2
      nlinarith
    · subst h
      refine eq_zero_of_interval (a := -1) (b := τ - 1) (by linarith) fun x hx1 hx2 => ?_
      refine hzero j hj x ⟨hx1.le, by linarith⟩ ((τ - 1 - x) ^ 2) (by nlinarith) fun y hy => ?_
      have := hy.1
      nlinarith
    · have hje : 1 ≤ (j : ℝ) - e := by
        have : (e : ℝ) + 1 ≤ j := by exact_mod_cast h
        linarith
      refine eq_zero_of_interval (a := -1) (b := 1) (by norm_num) fun x hx1 hx2 => ?_
      refine hzero j hj x ⟨hx1.le, hx2.le⟩ (τ ^ 2) (by positivity) fun y hy => ?_
      have := hy.1
      nlinarith
  have h1 := hex 1 (by simp)
  rw [spread_sum, map_sum] at h1
  simp only [one_comp] at h1
  rw [Finset.sum_eq_zero hg] at h1
  exact zero_ne_one h1

end Dg1d
