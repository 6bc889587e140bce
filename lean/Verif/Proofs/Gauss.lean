import Verif.Proofs.Basis
import Mathlib.Topology.Order.IntermediateValue
import Mathlib.Analysis.Calculus.Deriv.MeanValue

/-! Zero counting for real polynomials orthogonal to low degrees; existence of Gauss rules. -/

open Polynomial

namespace Dg1d
open Spec

lemma const_sign {a b : ℝ} (f : ℝ[X]) (h : ∀ x ∈ Set.Ioo a b, f.eval x ≠ 0) :
    (∀ x ∈ Set.Ioo a b, 0 ≤ f.eval x) ∨ (∀ x ∈ Set.Ioo a b, f.eval x ≤ 0) := by
  by_contra hc
  push Not at hc
  obtain ⟨⟨x, hx, hx0⟩, y, hy, hy0⟩ := hc
  have hpc : IsPreconnected (Set.Ioo a b) := isPreconnected_Ioo
  have := hpc.intermediate_value hx hy (f := fun t => f.eval t) f.continuous.continuousOn
  obtain ⟨z, hz, hz0⟩ := this ⟨hx0.le, hy0.le⟩
  exact h z hz hz0

/-- Some set of roots of `f` in `(a,b)` such that multiplying by their linear factors removes all sign
changes. -/
lemma exists_sign_roots {a b : ℝ} (d : ℕ) : ∀ f : ℝ[X], f ≠ 0 → f.natDegree = d →
    ∃ S : Finset ℝ, (∀ r ∈ S, r ∈ Set.Ioo a b ∧ f.eval r = 0) ∧
      ((∀ x ∈ Set.Ioo a b, 0 ≤ (f * ∏ r ∈ S, (X - C r)).eval x) ∨
        (∀ x ∈ Set.Ioo a b, (f * ∏ r ∈ S, (X - C r)).eval x ≤ 0)) := by
  classical
  induction d with
  | zero =>
    intro f hf hd
    refine ⟨∅, by simp, ?_⟩
    simp only [Finset.prod_empty, mul_one]
    apply const_sign
    intro x _ hx
    rw [eq_C_of_natDegree_eq_zero hd, eval_C] at hx
    apply hf
    rw [eq_C_of_natDegree_eq_zero hd, hx, C_0]
  | succ d ih =>
    intro f hf hd
    by_cases hr : ∃ r ∈ Set.Ioo a b, f.eval r = 0
    · obtain ⟨r, hrI, hr0⟩ := hr
      obtain ⟨h, hh⟩ := dvd_iff_isRoot.mpr hr0
      have hh0 : h ≠ 0 := by rintro rfl; simp at hh; exact hf hh
      have hhd : h.natDegree = d := by
        rw [hh, natDegree_mul (X_sub_C_ne_zero r) hh0, natDegree_X_sub_C] at hd
        omega
      obtain ⟨S, hS, hsgn⟩ := ih h hh0 hhd
      by_cases hrS : r ∈ S
      · refine ⟨S.erase r, ?_, ?_⟩
        · intro t ht
          have := hS t (Finset.mem_of_mem_erase ht)
          refine ⟨this.1, ?_⟩
          rw [hh, eval_mul, this.2, mul_zero]
        · have e : f * ∏ t ∈ S.erase r, (X - C t) = h * ∏ t ∈ S, (X - C t) := by
            rw [← Finset.mul_prod_erase S _ hrS, hh]; ring
          rw [e]; exact hsgn
      · refine ⟨insert r S, ?_, ?_⟩
        · intro t ht
          rcases Finset.mem_insert.mp ht with rfl | ht
          · exact ⟨hrI, hr0⟩
          · refine ⟨(hS t ht).1, ?_⟩
            rw [hh, eval_mul, (hS t ht).2, mul_zero]
        · have e : f * ∏ t ∈ insert r S, (X - C t) = (X - C r) ^ 2 * (h * ∏ t ∈ S, (X - C t)) := by
            rw [Finset.prod_insert hrS, hh]; ring
          rw [e]
          rcases hsgn with hsgn | hsgn
          · left; intro x hx
            rw [eval_mul, eval_pow]
            exact mul_nonneg (sq_nonneg _) (hsgn x hx)
          · right; intro x hx
            rw [eval_mul, eval_pow]
            exact mul_nonpos_of_nonneg_of_nonpos (sq_nonneg _) (hsgn x hx)
    · push Not at hr
      refine ⟨∅, by simp, ?_⟩
      simp only [Finset.prod_empty, mul_one]
      exact const_sign f hr

/-- A polynomial of one sign with zero integral vanishes. -/
lemma eq_zero_of_int_zero {a b : ℝ} (hab : a < b) (g : ℝ[X]) (hg : ∀ x ∈ Set.Ioo a b, 0 ≤ g.eval x)
    (hi : intBetween a b g = 0) : g = 0 := by
  set G := antideriv g with hG
  have hd : ∀ x, deriv (fun t => G.eval t) x = g.eval x := by
    intro x
    have := G.hasDerivAt x
    rw [hG, derivative_antideriv] at this
    exact this.deriv
  have hmono : MonotoneOn (fun t => G.eval t) (Set.Icc a b) := by
    apply monotoneOn_of_deriv_nonneg (convex_Icc a b) G.continuous.continuousOn
      G.differentiable.differentiableOn
    intro x hx
    rw [interior_Icc] at hx
    rw [hd]; exact hg x hx
  have hend : G.eval b = G.eval a := sub_eq_zero.mp hi
  have hconst : ∀ x ∈ Set.Icc a b, G.eval x = G.eval a := by
    intro x hx
    apply le_antisymm
    · rw [← hend]; exact hmono hx (Set.right_mem_Icc.mpr hab.le) hx.2
    · exact hmono (Set.left_mem_Icc.mpr hab.le) hx hx.1
  have hz : G = C (G.eval a) := by
    apply Polynomial.eq_of_infinite_eval_eq
    apply Set.Infinite.mono _ (Set.Icc_infinite hab)
    intro x hx
    simp [hconst x hx]
  rw [← derivative_antideriv g, ← hG, hz, derivative_C]

/-- A non-zero polynomial orthogonal on `(a,b)` to all polynomials of degree `< k` has at least `k`
distinct roots in `(a,b)`. -/
lemma exists_roots_of_orthogonal {a b : ℝ} (hab : a < b) (k : ℕ) (f : ℝ[X]) (hf : f ≠ 0)
    (ho : ∀ g : ℝ[X], g.degree < k → intBetween a b (f * g) = 0) :
    ∃ S : Finset ℝ, k ≤ S.card ∧ ∀ r ∈ S, r ∈ Set.Ioo a b ∧ f.eval r = 0 := by
  obtain ⟨S, hS, hsgn⟩ := exists_sign_roots (a := a) (b := b) f.natDegree f hf rfl
  refine ⟨S, ?_, hS⟩
  by_contra hk
  push Not at hk
  have hq : (∏ r ∈ S, (X - C r) : ℝ[X]).degree < (k : WithBot ℕ) := by
    rw [degree_prod]
    simp only [degree_X_sub_C, Finset.sum_const, nsmul_eq_mul, mul_one]
    exact_mod_cast hk
  have hqne : (∏ r ∈ S, (X - C r) : ℝ[X]) ≠ 0 := Finset.prod_ne_zero_iff.mpr fun r _ => X_sub_C_ne_zero r
  have hi := ho _ hq
  rcases hsgn with h | h
  · exact mul_ne_zero hf hqne (eq_zero_of_int_zero hab _ h hi)
  · have h2 : -(f * ∏ r ∈ S, (X - C r)) = 0 := by
      apply eq_zero_of_int_zero hab
      · intro x hx; rw [eval_neg]; linarith [h x hx]
      · rw [show -(f * ∏ r ∈ S, (X - C r)) = C (-1) * (f * ∏ r ∈ S, (X - C r)) by simp, intBetween_C_mul, hi,
          mul_zero]
    exact mul_ne_zero hf hqne (neg_eq_zero.mp h2)

/-- Gauss rules exist for every number of nodes. -/
lemma exists_gauss (n : ℕ) : ∃ x w : ℕ → ℝ, IsGaussRule n x w := by
  classical
  obtain ⟨S, hcard, hS⟩ := exists_roots_of_orthogonal (show (-1 : ℝ) < 1 by norm_num) n (legendre ℝ n)
    (legendre_ne_zero n) (fun g hg => legendre_orthogonal_lt g hg)
  obtain ⟨T, hTS, hT⟩ := Finset.exists_subset_card_eq hcard
  let e := T.orderEmbOfFin hT
  let x : ℕ → ℝ := fun i => if h : i < n then e ⟨i, h⟩ else 0
  have hx : ∀ i (h : i < n), x i = e ⟨i, h⟩ := fun i h => dif_pos h
  have hroot : ∀ i < n, (legendre ℝ n).eval (x i) = 0 := by
    intro i hi
    rw [hx i hi]
    exact (hS _ (hTS (T.orderEmbOfFin_mem hT _))).2
  have hdist : ∀ i < n, ∀ j < n, x i = x j → i = j := by
    intro i hi j hj h
    rw [hx i hi, hx j hj] at h
    simpa using e.injective h
  have hinj : Set.InjOn x (Finset.range n : Set ℕ) := by
    intro i hi j hj h
    exact hdist i (by simpa using hi) j (by simpa using hj) h
  refine ⟨x, fun g => intPoly (Lagrange.basis (Finset.range n) x g), hdist, ?_⟩
  intro f hf
  -- divide by P_n
  have hPne := legendre_ne_zero (K := ℝ) n
  have hdiv := EuclideanDomain.div_add_mod f (legendre ℝ n)
  set q := f / legendre ℝ n with hq
  set r := f % legendre ℝ n with hr
  have hrdeg : r.degree < n := by
    have := EuclideanDomain.mod_lt f hPne
    rw [← legendre_degree' (K := ℝ) n]
    exact this
  have hqdeg : q.degree < n := by
    by_contra hc
    push Not at hc
    have hle : (legendre ℝ n).degree ≤ f.degree := by
      by_contra hlt
      push Not at hlt
      have : q = 0 := (Polynomial.div_eq_zero_iff hPne).mpr hlt
      rw [this, degree_zero] at hc
      simp at hc
    have := Polynomial.degree_add_div hPne hle
    rw [← this, legendre_degree', two_mul] at hf
    exact absurd hf (not_lt.mpr (add_le_add le_rfl hc))
  have hval : ∀ g < n, f.eval (x g) = r.eval (x g) := by
    intro g hg
    rw [← hdiv, eval_add, eval_mul, hroot g hg, zero_mul, zero_add]
  have hint : intPoly f = intPoly r := by
    rw [← hdiv, intPoly_add, legendre_orthogonal_lt q hqdeg, zero_add]
  rw [hint]
  have hrL := Lagrange.eq_interpolate hinj (by simpa using hrdeg)
  conv_rhs => rw [hrL]
  rw [Lagrange.interpolate_apply, intPoly_sum]
  apply Finset.sum_congr rfl
  intro g hg
  rw [hval g (Finset.mem_range.mp hg), intPoly_C_mul, mul_comm]

/-- A concrete `leggauss` over ℝ meeting the contract for every number of nodes. -/
noncomputable def realGauss : GaussLib ℝ := fun n =>
  (⟨n, (exists_gauss n).choose⟩, ⟨n, (exists_gauss n).choose_spec.choose⟩)

lemma realGauss_ok : realGauss.Ok := fun n _ => ⟨rfl, rfl, (exists_gauss n).choose_spec.choose_spec⟩

end Dg1d
