import Verif.Proofs.OrderTable
import Verif.Proofs.Butcher

/-! Helper lemmas: local error of methods that satisfy the order conditions up to a tolerance; value of one order condition. -/

namespace Dg1d
open Spec Asymptotics Filter Topology

section Local
variable {E : Type*} [NormedAddCommGroup E] [NormedSpace ℝ E] {f : E → E} {u : E}

/-- Order conditions up to `eps` give a local error of order `p + 1` plus `eps` times the step. The factor `K` depends on the problem only. -/
lemma local_error_near (hf : AnalyticAt ℝ f u) {y : ℝ → E} (h0 : y 0 = u) (hy : ∀ᶠ t in 𝓝 0, HasDerivAt y (f (y t)) t) (p : ℕ) :
    ∃ K : ℝ, ∀ (b : List ℝ) (beta : ℕ → ℕ → ℝ), (∀ k < b.length, ∀ j < b.length, k ≤ j → beta k j = 0) →
      ∀ eps : ℝ, 0 ≤ eps → NearOrder b beta p eps → ∃ C : ℝ, ∀ᶠ h in 𝓝 (0 : ℝ), ‖rkStep b beta f h u - y h‖ ≤ C * |h| ^ (p + 1) + eps * K * |h| := by
  obtain ⟨P, hP⟩ := hf
  refine ⟨∑ t : Butcher.Idx (p + 1), ‖Butcher.elem P (p + 1) t‖, fun b beta he eps heps0 hb => ?_⟩
  set a : RTree → ℝ := fun t => ∑ i ∈ Finset.range b.length, b.getD i 0 * t.stageWeight b.length beta i with ha
  have h1 := (Butcher.step_series beta hP b he p).trans (Butcher.pow_isBigO (show p + 1 ≤ p + 2 by omega))
  have h2 := (Butcher.exact_series hP h0 hy (p + 1)).trans (Butcher.pow_isBigO (show p + 1 ≤ p + 1 + 1 by omega))
  -- terms of trees with more than p vertices
  set big : ℝ → E := fun h => ∑ t : Butcher.Idx (p + 1), if (Butcher.tree (p + 1) t).size ≤ p then 0 else
    ((a (Butcher.tree (p + 1) t) - Butcher.exactCoeff (Butcher.tree (p + 1) t)) * h ^ (Butcher.tree (p + 1) t).size) • Butcher.elem P (p + 1) t with hbig
  have h3 : big =O[𝓝 0] fun h => h ^ (p + 1) := by
    rw [hbig]
    refine IsBigO.fun_sum fun t _ => ?_
    by_cases ht : (Butcher.tree (p + 1) t).size ≤ p
    · simp only [ht, if_true]; exact isBigO_zero _ _
    · simp only [ht, if_false]; exact Butcher.term_isBigO (by omega) _ _
  obtain ⟨C, hC⟩ := ((h1.sub h2).add h3).bound
  refine ⟨C, ?_⟩
  have hone : ∀ᶠ h : ℝ in 𝓝 0, |h| < 1 :=
    (continuous_abs.tendsto (0 : ℝ)).eventually (gt_mem_nhds (by norm_num : |(0 : ℝ)| < 1))
  filter_upwards [hC, hone] with h hh h1'
  have hsplit : rkStep b beta f h u - y h = ((rkStep b beta f h u - (u + Butcher.series P (p + 1) a h)) - (y h - (u + Butcher.series P (p + 1) Butcher.exactCoeff h)) + big h) +
      ∑ t : Butcher.Idx (p + 1), if (Butcher.tree (p + 1) t).size ≤ p then
        ((a (Butcher.tree (p + 1) t) - Butcher.exactCoeff (Butcher.tree (p + 1) t)) * h ^ (Butcher.tree (p + 1) t).size) • Butcher.elem P (p + 1) t else 0 := by
    have : big h + (∑ t : Butcher.Idx (p + 1), if (Butcher.tree (p + 1) t).size ≤ p then
        ((a (Butcher.tree (p + 1) t) - Butcher.exactCoeff (Butcher.tree (p + 1) t)) * h ^ (Butcher.tree (p + 1) t).size) • Butcher.elem P (p + 1) t else 0) =
        Butcher.series P (p + 1) a h - Butcher.series P (p + 1) Butcher.exactCoeff h := by
      rw [hbig]
      unfold Butcher.series
      rw [← Finset.sum_add_distrib, ← Finset.sum_sub_distrib]
      refine Finset.sum_congr rfl fun t _ => ?_
      rw [← sub_smul, ← sub_mul]
      split_ifs <;> simp
    rw [add_assoc, this]; abel
  rw [hsplit]
  refine (norm_add_le _ _).trans (add_le_add ?_ ?_)
  · rw [norm_pow, Real.norm_eq_abs] at hh; exact hh
  · refine (norm_sum_le _ _).trans ?_
    rw [Finset.mul_sum, Finset.sum_mul]
    refine Finset.sum_le_sum fun t _ => ?_
    by_cases ht : (Butcher.tree (p + 1) t).size ≤ p
    · rw [if_pos ht, norm_smul, Real.norm_eq_abs, abs_mul, abs_pow]
      have hd : (1 : ℝ) ≤ ((Butcher.tree (p + 1) t).density : ℝ) := by exact_mod_cast Butcher.density_pos _
      have hdiff : |a (Butcher.tree (p + 1) t) - Butcher.exactCoeff (Butcher.tree (p + 1) t)| ≤ eps := by
        have := hb _ ht
        rw [← Finset.sum_mul] at this
        have e : a (Butcher.tree (p + 1) t) * ((Butcher.tree (p + 1) t).density : ℝ) - 1 =
            (a (Butcher.tree (p + 1) t) - Butcher.exactCoeff (Butcher.tree (p + 1) t)) * ((Butcher.tree (p + 1) t).density : ℝ) := by
          unfold Butcher.exactCoeff; field_simp
        rw [show ∑ i ∈ Finset.range b.length, b.getD i 0 * (Butcher.tree (p + 1) t).stageWeight b.length beta i = a (Butcher.tree (p + 1) t) from rfl, e, abs_mul,
          abs_of_pos (by linarith : (0 : ℝ) < ((Butcher.tree (p + 1) t).density : ℝ))] at this
        nlinarith [abs_nonneg (a (Butcher.tree (p + 1) t) - Butcher.exactCoeff (Butcher.tree (p + 1) t))]
      have hpow : |h| ^ (Butcher.tree (p + 1) t).size ≤ |h| := by
        calc |h| ^ (Butcher.tree (p + 1) t).size ≤ |h| ^ 1 := pow_le_pow_of_le_one (abs_nonneg h) h1'.le (Butcher.size_pos _)
          _ = |h| := pow_one _
      calc _ ≤ eps * |h| * ‖Butcher.elem P (p + 1) t‖ := by gcongr
        _ = _ := by ring
    · rw [if_neg ht, norm_zero]
      positivity

end Local

/-! ### One order condition -/

section Value
variable {A B : Type*} [CommRing A] [Field B]

lemma weight_sum (f : A →+* B) (b : List A) (rows : List (List A)) (h : Square b rows) (beta : ℕ → ℕ → B)
    (hbeta : ∀ k < b.length, ∀ j < b.length, beta k j = f ((rows.getD k []).getD j 0)) (t : RTree) :
    ∑ i ∈ Finset.range (b.map f).length, (b.map f).getD i 0 * t.stageWeight (b.map f).length beta i * (t.density : B) =
      f ((b.zipWith (· * ·) (weightList b.length rows t)).sum * (t.density : A)) := by
  have hw := weightList_spec f b rows h beta hbeta t
  rw [map_mul, map_natCast, sum_zipWith_eq f b _ b.length rfl hw.1, Finset.sum_mul, List.length_map]
  refine Finset.sum_congr rfl fun i hi => ?_
  rw [hw.2 i (Finset.mem_range.mp hi)]
  congr 2
  rw [List.getD_eq_getElem?_getD, List.getD_eq_getElem?_getD, List.getElem?_map, List.getElem?_eq_getElem (Finset.mem_range.mp hi)]
  simp

end Value
end Dg1d
