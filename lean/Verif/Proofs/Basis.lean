import Verif.Model.BasisInit
import Verif.Proofs.Legendre
import Mathlib.Algebra.Order.BigOperators.Ring.Finset
import Mathlib.Algebra.Polynomial.BigOperators
import Mathlib.Analysis.Calculus.Deriv.Polynomial
import Mathlib.MeasureTheory.Integral.IntervalIntegral.FundThmCalculus
import Mathlib.LinearAlgebra.Matrix.NonsingularInverse
import Mathlib.LinearAlgebra.Lagrange
import Mathlib.Topology.Algebra.Polynomial

/-! Helper lemmas: numpy Legendre routines, basis tables, interpolation. -/

set_option linter.unusedSectionVars false

open Polynomial

namespace Dg1d
open Spec
variable {K : Type*} [Field K] [CharZero K]

local notation "P" => legendre K

lemma bonnet_eval (n : ℕ) (x : K) : (P (n + 2)).eval x =
    x * ((2 * ((n : K) + 2) - 1) / ((n : K) + 2)) * (P (n + 1)).eval x -
      (((n : K) + 2 - 1) / ((n : K) + 2)) * (P n).eval x := by
  have h : ((n : K) + 2) ≠ 0 := by exact_mod_cast (by omega : n + 2 ≠ 0)
  have hB := congrArg (eval x) (bonnet (K := K) n)
  simp only [eval_mul, eval_C, eval_sub, eval_X] at hB
  apply mul_left_cancel₀ h
  rw [hB]
  field_simp
  ring

lemma clenshaw_spec (x : K) (c : ℕ → K) (k : ℕ) (c0 c1 : K) :
    (clenshaw x c k c0 c1).1 + (clenshaw x c k c0 c1).2 * x =
      ∑ i ∈ Finset.range k, c i * (P i).eval x + c0 * (P k).eval x + c1 * (P (k + 1)).eval x := by
  induction k generalizing c0 c1 with
  | zero => simp [clenshaw, legendre_zero, legendre_one]
  | succ k ih =>
    rw [clenshaw]
    rw [ih, Finset.sum_range_succ, bonnet_eval]
    ring

lemma legval_spec (x : K) (c : Vec K) (hc : 0 < c.len) :
    legval x c = ∑ i ∈ Finset.range c.len, c.val i * (P i).eval x := by
  unfold legval
  split
  · rename_i h; rw [h]; simp [legendre_zero]
  · rename_i h
    obtain ⟨m, hm⟩ : ∃ m, c.len = m + 2 := ⟨c.len - 2, by omega⟩
    simp only
    rw [clenshaw_spec, hm, show m + 2 - 2 = m from rfl, show m + 2 - 1 = m + 1 from rfl,
      Finset.sum_range_succ, Finset.sum_range_succ]

lemma basisValue_spec (n : ℕ) (x : K) : basisValue n x = (P n).eval x := by
  unfold basisValue
  rw [legval_spec _ _ (by simp [legBasisCoef])]
  simp only [legBasisCoef]
  rw [Finset.sum_eq_single n]
  · simp
  · intro i _ hi; simp [hi]
  · intro h; simp at h

lemma legSeries_update (n i : ℕ) (hi : i < n) (c : ℕ → K) (v : K) :
    legSeries n (Function.update c i v) = legSeries n c + C (v - c i) * P i := by
  unfold legSeries
  rw [← Finset.sum_erase_add _ _ (Finset.mem_range.mpr hi),
    ← Finset.sum_erase_add (a := i) (Finset.range n) (fun i => C (c i) * P i) (Finset.mem_range.mpr hi)]
  have h : ∑ x ∈ (Finset.range n).erase i, C (Function.update c i v x) * P x =
      ∑ x ∈ (Finset.range n).erase i, C (c x) * P x := by
    apply Finset.sum_congr rfl
    intro k hk
    rw [Function.update_of_ne (Finset.ne_of_mem_erase hk)]
  rw [h]
  simp only [Function.update_self]
  rw [C_sub]; ring

lemma legSeries_succ (n : ℕ) (c : ℕ → K) : legSeries (n + 1) c = legSeries n c + C (c n) * P n := by
  unfold legSeries; rw [Finset.sum_range_succ]

/-- Invariant of the derivative loop. -/
lemma legderLoop_spec (j : ℕ) : ∀ (c der : ℕ → K) (N : ℕ), j ≤ N →
    derivative (legSeries (j + 1) c) + ∑ i ∈ Finset.Ico j N, C (der i) * P i =
      derivative (legSeries (min j 2 + 1) (legderLoop j c der).1) +
        ∑ i ∈ Finset.Ico (min j 2) N, C ((legderLoop j c der).2 i) * P i := by
  induction j using Nat.strong_induction_on with
  | _ j ih =>
    intro c der N hN
    match j with
    | 0 => simp [legderLoop]
    | 1 => simp [legderLoop]
    | 2 => simp [legderLoop]
    | j + 3 =>
      rw [legderLoop]
      rw [show min (j + 3) 2 = min (j + 2) 2 by omega, ← ih (j + 2) (by omega) _ _ N (by omega)]
      have hsub := legendre_sub_deriv (K := K) (j + 1)
      rw [derivative_sub] at hsub
      rw [Finset.sum_eq_sum_Ico_succ_bot (by omega : j + 2 < N), Function.update_self,
        show j + 2 + 1 = j + 3 from rfl, legSeries_update _ _ (by omega), legSeries_succ (j + 3)]
      have h : ∑ x ∈ Finset.Ico (j + 3) N, C (Function.update der (j + 2) ((2 * ((j : K) + 3) - 1) * c (j + 3)) x) * P x =
          ∑ x ∈ Finset.Ico (j + 3) N, C (der x) * P x := by
        apply Finset.sum_congr rfl
        intro k hk
        have := Finset.mem_Ico.mp hk
        rw [Function.update_of_ne (by omega)]
      rw [h]
      simp only [derivative_add, derivative_mul, derivative_C, zero_mul, zero_add, add_sub_cancel_left, C_mul]
      have e : (2 * ((j : K) + 3) - 1) = 2 * ((j + 1 : ℕ) : K) + 3 := by push_cast; ring
      rw [e]
      linear_combination (C (c (j + 3))) * hsub

lemma legder_spec (c : Vec K) (hc : 0 < c.len) :
    0 < (legder c).len ∧ legSeries (legder c).len (legder c).val = derivative (legSeries c.len c.val) := by
  unfold legder
  split
  · have : c.len = 1 := by omega
    rw [this]
    simp [legSeries, legendre_zero]
  · rename_i h
    obtain ⟨m, hm⟩ : ∃ m, c.len = m + 2 := ⟨c.len - 2, by omega⟩
    simp only [hm, show m + 2 - 1 = m + 1 from rfl]
    refine ⟨by omega, ?_⟩
    have hL := legderLoop_spec (m + 1) c.val (fun _ => 0) (m + 1) le_rfl
    simp only [Finset.Ico_self, Finset.sum_empty, add_zero] at hL
    rw [show m + 2 = m + 1 + 1 from rfl, hL]
    generalize legderLoop (m + 1) c.val (fun _ => 0) = r
    rcases m with _ | m
    · simp [legSeries, Finset.sum_range_succ, legendre_zero, legendre_one]
    · rw [if_pos (by omega), show min (m + 1 + 1) 2 = 2 by omega]
      have h3 : derivative (P 2) = C 3 * P 1 := by
        have := legendre_sub_deriv (K := K) 0
        simp only [derivative_sub, legendre_zero, derivative_one, sub_zero] at this
        simpa using this
      have h4 : ∑ i ∈ Finset.range (m + 1 + 1), C (Function.update (Function.update r.2 1 (3 * r.1 2)) 0 (r.1 1) i) * P i =
          C (r.1 1) * P 0 + C (3 * r.1 2) * P 1 + ∑ i ∈ Finset.Ico 2 (m + 1 + 1), C (r.2 i) * P i := by
        rw [Finset.range_eq_Ico, Finset.sum_eq_sum_Ico_succ_bot (by omega),
          Finset.sum_eq_sum_Ico_succ_bot (by omega), ← add_assoc]
        congr 1
        apply Finset.sum_congr rfl
        intro k hk
        have := Finset.mem_Ico.mp hk
        rw [Function.update_of_ne (by omega), Function.update_of_ne (by omega)]
      unfold legSeries
      rw [h4]
      simp only [Finset.sum_range_succ, Finset.sum_range_zero, derivative_add, derivative_mul, derivative_C, h3,
        legendre_zero, legendre_one, derivative_one, derivative_X, C_mul]
      simp only [derivative_zero]
      ring

lemma basisDeriv_spec (n : ℕ) (x : K) : basisDeriv n x = (derivative (P n)).eval x := by
  unfold basisDeriv
  have h := legder_spec (K := K) (legBasisCoef n) (by simp [legBasisCoef])
  rw [legval_spec _ _ h.1, ← legSeries_eval, h.2]
  congr 2
  unfold legSeries legBasisCoef
  simp only
  rw [Finset.sum_eq_single n]
  · simp
  · intro i _ hi; simp [hi]
  · intro h; simp at h

/-! ### Interpolation at Gauss nodes -/

/-- Discrete Legendre coefficients. -/
noncomputable def quadCoef (N : ℕ) (x w y : ℕ → K) (n : ℕ) : K :=
  (2 * (n : K) + 1) / 2 * ∑ g ∈ Finset.range N, w g * y g * (P n).eval (x g)

lemma quadCoef_of_values {N : ℕ} {x w : ℕ → K} (hG : IsGaussRule N x w) (c y : ℕ → K)
    (h : ∀ g < N, (legSeries N c).eval (x g) = y g) {n : ℕ} (hn : n < N) : quadCoef N x w y n = c n := by
  unfold quadCoef
  have h1 : ∑ g ∈ Finset.range N, w g * y g * (P n).eval (x g) = intPoly (legSeries N c * P n) := by
    rw [← hG.exact]
    · apply Finset.sum_congr rfl
      intro g hg
      rw [eval_mul, h g (Finset.mem_range.mp hg)]; ring
    · rw [degree_mul, legendre_degree', two_mul]
      exact WithBot.add_lt_add_of_lt_of_le (by simp) (legSeries_degree N c) (by exact_mod_cast hn.le)
  rw [h1, intPoly_legSeries _ _ _ hn]
  have := norm_ne_zero (K := K) n
  field_simp

lemma exists_interp {N : ℕ} {x : ℕ → K} (hd : ∀ i < N, ∀ j < N, x i = x j → i = j) (y : ℕ → K) :
    ∃ c : ℕ → K, ∀ g < N, (legSeries N c).eval (x g) = y g := by
  classical
  have hinj : Set.InjOn x (Finset.range N : Set ℕ) := by
    intro i hi j hj h
    exact hd i (by simpa using hi) j (by simpa using hj) h
  obtain ⟨c, hc⟩ := exists_legSeries N (Lagrange.interpolate (Finset.range N) x y)
    (by simpa using Lagrange.degree_interpolate_lt y hinj)
  refine ⟨c, fun g hg => ?_⟩
  rw [← hc]
  exact Lagrange.eval_interpolate_at_node y hinj (Finset.mem_range.mpr hg)

section Fit
variable {F : Type*} [Field F] [LinearOrder F] [IsStrictOrderedRing F]

lemma fitError_eq (x : Vec F) (y : ℕ → F) (deg : ℕ) (c : ℕ → F) :
    fitError x y deg c = ∑ g ∈ Finset.range x.len, ((legSeries (deg + 1) c).eval (x.val g) - y g) ^ 2 := by
  unfold fitError
  simp only [basisValue_spec, legSeries_eval]

/-- `legfit` with as many nodes as coefficients interpolates. -/
lemma legfit_interp (x : Vec F) (y : ℕ → F) (p : ℕ) (hx : x.len = p + 1)
    (hd : ∀ i < p + 1, ∀ j < p + 1, x.val i = x.val j → i = j) :
    ∀ g < p + 1, (legSeries (p + 1) (legfit x y p).val).eval (x.val g) = y g := by
  obtain ⟨c, hc⟩ := exists_interp hd y
  have h0 : fitError x y p c = 0 := by
    rw [fitError_eq]
    apply Finset.sum_eq_zero
    intro g hg
    rw [hc g (by simpa [hx] using hg)]; ring
  have hex : ∃ c, IsFit x y p c := by
    refine ⟨c, fun d => ?_⟩
    rw [h0, fitError_eq]
    exact Finset.sum_nonneg fun g _ => sq_nonneg _
  have hfit : IsFit x y p (legfit x y p).val := by
    unfold legfit
    rw [dif_pos hex]
    exact hex.choose_spec
  have hz : fitError x y p (legfit x y p).val = 0 := by
    apply le_antisymm
    · rw [← h0]; exact hfit c
    · rw [fitError_eq]; exact Finset.sum_nonneg fun g _ => sq_nonneg _
  rw [fitError_eq, Finset.sum_eq_zero_iff_of_nonneg (fun g _ => sq_nonneg _)] at hz
  intro g hg
  have := hz g (by simpa [hx] using hg)
  exact sub_eq_zero.mp (pow_eq_zero_iff (two_ne_zero) |>.mp this)

end Fit

/-- Over ℝ, `intBetween` is the Riemann/Lebesgue integral. -/
lemma integral_eq_intBetween (a b : ℝ) (f : ℝ[X]) : ∫ x in a..b, f.eval x = intBetween a b f := by
  rw [intBetween]
  apply intervalIntegral.integral_eq_sub_of_hasDerivAt
  · intro x _
    have := (antideriv f).hasDerivAt x
    rwa [derivative_antideriv] at this
  · exact f.continuous.intervalIntegrable _ _

lemma integral_eq_intPoly (f : ℝ[X]) : ∫ x in (-1 : ℝ)..1, f.eval x = intPoly f :=
  integral_eq_intBetween _ _ f

end Dg1d
