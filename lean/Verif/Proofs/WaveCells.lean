import Verif.Proofs.WaveSolver
import Verif.Spec.Average

/-! Helper lemmas for C103: cell averages of waves, and waves as initial data. -/

set_option linter.unusedSectionVars false

open Polynomial

namespace Dg1d.Props
open Spec Stability Decay

lemma polyStep_smul {E : Type*} [NormedAddCommGroup E] [NormedSpace ℂ E] (n : ℕ) (w : ℕ → ℝ) (k : ℝ) (B : E →L[ℂ] E) (c : ℂ) (x : E) :
    polyStep n w k B (c • x) = c • polyStep n w k B x := by
  unfold polyStep
  rw [Finset.smul_sum]
  exact Finset.sum_congr rfl fun m _ => by rw [map_smul, smul_comm]

lemma polyStep_zero {E : Type*} [NormedAddCommGroup E] [NormedSpace ℂ E] {n : ℕ} (hn : 0 < n) {w : ℕ → ℝ} (w0 : w 0 = 1) (B : E →L[ℂ] E) (x : E) :
    polyStep n w 0 B x = x := by
  obtain ⟨m, rfl⟩ : ∃ m, n = m + 1 := ⟨n - 1, by omega⟩
  unfold polyStep
  rw [Finset.sum_range_succ', Finset.sum_eq_zero fun i _ => by rw [zero_pow (Nat.succ_ne_zero i), zero_mul, Complex.ofReal_zero, zero_smul]]
  simp [w0]

/-- The average of a wave over a cell. -/
lemma average_wave (β : ℂ) (c τ A dx : ℝ) (hdx : 0 < dx) (e : ℕ) :
    average (fun x => (β * Complex.exp ((c * (x - τ) : ℝ) * Complex.I)).re) (A + ((e : ℝ) - 1) * dx) (A + e * dx) =
      (Complex.exp ((c * dx : ℝ) * Complex.I) ^ e * ((β * Complex.exp ((c * (A - dx / 2) : ℝ) * Complex.I)) *
        (Complex.exp ((-(c * τ) : ℝ) * Complex.I) * (1 / 2 * ∫ ξ in (-1 : ℝ)..1, Complex.exp ((c * dx / 2 : ℝ) * Complex.I * ξ))))).re := by
  set W : ℂ := Complex.exp ((c * dx : ℝ) * Complex.I) ^ e * ((β * Complex.exp ((c * (A - dx / 2) : ℝ) * Complex.I)) * Complex.exp ((-(c * τ) : ℝ) * Complex.I)) with hW
  have hsub := intervalIntegral.integral_comp_mul_add (a := -1) (b := 1) (fun x => (β * Complex.exp ((c * (x - τ) : ℝ) * Complex.I)).re) (c := dx / 2) (by positivity)
    (A + (e : ℝ) * dx - dx / 2)
  rw [show dx / 2 * -1 + (A + (e : ℝ) * dx - dx / 2) = A + ((e : ℝ) - 1) * dx by ring, show dx / 2 * 1 + (A + (e : ℝ) * dx - dx / 2) = A + e * dx by ring, smul_eq_mul] at hsub
  have hpt : ∀ ξ : ℝ, (β * Complex.exp ((c * (dx / 2 * ξ + (A + (e : ℝ) * dx - dx / 2) - τ) : ℝ) * Complex.I)).re = (W * Complex.exp ((c * dx / 2 : ℝ) * Complex.I * ξ)).re := by
    intro ξ
    congr 1
    rw [hW, ← Complex.exp_nat_mul]
    have : Complex.exp ((c * (dx / 2 * ξ + (A + (e : ℝ) * dx - dx / 2) - τ) : ℝ) * Complex.I) = Complex.exp ((e : ℂ) * ((c * dx : ℝ) * Complex.I)) *
        Complex.exp ((c * (A - dx / 2) : ℝ) * Complex.I) * Complex.exp ((-(c * τ) : ℝ) * Complex.I) * Complex.exp ((c * dx / 2 : ℝ) * Complex.I * ξ) := by
      rw [← Complex.exp_add, ← Complex.exp_add, ← Complex.exp_add]
      congr 1
      push_cast
      ring
    rw [this]
    ring
  have hint : ∫ ξ in (-1 : ℝ)..1, (W * Complex.exp ((c * dx / 2 : ℝ) * Complex.I * ξ)).re = (W * ∫ ξ in (-1 : ℝ)..1, Complex.exp ((c * dx / 2 : ℝ) * Complex.I * ξ)).re := by
    have hc : Continuous fun ξ : ℝ => W * Complex.exp ((c * dx / 2 : ℝ) * Complex.I * ξ) := by fun_prop
    rw [← intervalIntegral.integral_const_mul]
    exact Complex.reCLM.intervalIntegral_comp_comm (hc.intervalIntegrable _ _)
  simp only [hpt] at hsub
  rw [hint] at hsub
  unfold average
  have h2 : ∫ x in (A + ((e : ℝ) - 1) * dx)..(A + e * dx), (β * Complex.exp ((c * (x - τ) : ℝ) * Complex.I)).re =
      dx / 2 * (W * ∫ ξ in (-1 : ℝ)..1, Complex.exp ((c * dx / 2 : ℝ) * Complex.I * ξ)).re := by
    rw [hsub, ← mul_assoc, mul_inv_cancel₀ (by positivity), one_mul]
  rw [h2, show A + (e : ℝ) * dx - (A + ((e : ℝ) - 1) * dx) = dx by ring]
  have h3 : ∀ Z : ℂ, dx / 2 * Z.re / dx = (((1 / 2 : ℝ) : ℂ) * Z).re := by
    intro Z
    rw [Complex.re_ofReal_mul]
    field_simp
  rw [h3]
  congr 1
  rw [hW]
  push_cast
  ring

lemma average_trig (S : Finset ℤ) (β : ℤ → ℂ) (P τ a b : ℝ) :
    average (fun x => trigPoly S β P (x - τ)) a b = ∑ m ∈ S, average (fun x => (β m * Complex.exp ((2 * Real.pi * m / P * (x - τ) : ℝ) * Complex.I)).re) a b := by
  unfold average trigPoly
  rw [intervalIntegral.integral_finsetSum fun m _ => Continuous.intervalIntegrable (by fun_prop) _ _, Finset.sum_div]

section
variable {s : Sol ℝ} {lib : GaussLib ℝ} {p : ℕ}

lemma wave_turn {m : ℤ} {P dx : ℝ} {N : ℕ} (hP : 0 < P) (hN : (N : ℝ) * dx = P) : Complex.exp ((2 * Real.pi * m / P * dx : ℝ) * Complex.I) ^ N = 1 := by
  rw [← Complex.exp_nat_mul, Complex.exp_eq_one_iff]
  refine ⟨m, ?_⟩
  have h : (N : ℝ) * (2 * Real.pi * m / P * dx) = m * (2 * Real.pi) := by
    rw [← hN]
    have h0 : (N : ℝ) * dx ≠ 0 := by rw [hN]; exact hP.ne'
    have h1 := left_ne_zero_of_mul h0
    have h2 := right_ne_zero_of_mul h0
    field_simp
  have h2 := congrArg (fun y : ℝ => (y : ℂ) * Complex.I) h
  push_cast at h2 ⊢
  linear_combination h2

/-- The interpolant of waves at the Gauss nodes. -/
lemma start_waves (hG : IsGaussRule (p + 1) (lib (p + 1)).1.val (lib (p + 1)).2.val) (hb : s.Built lib p) {A P : ℝ}
    (hm : IsUniformMesh A (A + P) s.NE s.x.val s.xc.val s.dx) {f : ℕ} (S : Finset ℤ) (β : ℤ → ℂ)
    (hinit : ∀ e, 1 ≤ e → e ≤ s.NE → ∀ g < p + 1, (cellPoly s e f).eval ((lib (p + 1)).1.val g) = trigPoly S β P (physPoint (s.x.val (e - 1)) (s.x.val e) ((lib (p + 1)).1.val g))) :
    IsWaves s p f S (fun m => 2 * Real.pi * m / P * s.dx) (fun m => (β m * Complex.exp ((2 * Real.pi * m / P * (A - s.dx / 2) : ℝ) * Complex.I)) •
      startVec p (lib (p + 1)).1.val (lib (p + 1)).2.val ((2 * Real.pi * m / P * s.dx / 2 : ℝ) * Complex.I)) s.u.val := by
  set x := (lib (p + 1)).1.val with hx
  set w := (lib (p + 1)).2.val with hw
  intro n e h1 h2
  have h0 := norm_ne_zero (K := ℝ) (n : ℕ)
  have hpoly : cellPoly s e f = legSeries (p + 1) fun n => s.u.val n (e * s.NF + f) := by
    unfold cellPoly
    rw [hb.rows]
  have hcoef : s.u.val n (e * s.NF + f) = (2 * ((n : ℕ) : ℝ) + 1) / 2 * ∑ g ∈ Finset.range (p + 1), w g * (trigPoly S β P (physPoint (s.x.val (e - 1)) (s.x.val e) (x g)) * (legendre ℝ n).eval (x g)) := by
    have hq := hG.exact (cellPoly s e f * legendre ℝ n) (by
      refine lt_of_le_of_lt (degree_mul_le _ _) ?_
      have d1 : (cellPoly s e f).degree < ((p + 1 : ℕ) : WithBot ℕ) := by rw [hpoly]; exact legSeries_degree _ _
      have d2 : (legendre ℝ (n : ℕ)).degree ≤ ((p : ℕ) : WithBot ℕ) := degree_le_of_natDegree_le (by rw [(legendre_degree (K := ℝ) (n : ℕ)).1]; have := n.2; omega)
      calc (cellPoly s e f).degree + (legendre ℝ (n : ℕ)).degree ≤ (cellPoly s e f).degree + ((p : ℕ) : WithBot ℕ) := by gcongr
        _ < ((p + 1 : ℕ) : WithBot ℕ) + ((p : ℕ) : WithBot ℕ) := WithBot.add_lt_add_right (by simp) d1
        _ ≤ _ := by norm_cast; omega)
    rw [hpoly, intPoly_legSeries (p + 1) _ n n.2, ← hpoly] at hq
    rw [← Finset.sum_congr rfl fun g hg => by rw [← hinit e h1 h2 g (Finset.mem_range.mp hg)]]
    have hs : ∑ g ∈ Finset.range (p + 1), w g * ((cellPoly s e f).eval (x g) * (legendre ℝ n).eval (x g)) = ∑ g ∈ Finset.range (p + 1), w g * (cellPoly s e f * legendre ℝ n).eval (x g) :=
      Finset.sum_congr rfl fun g _ => by rw [eval_mul]
    rw [hs, hq]
    field_simp
  have hleg : ∀ y : ℝ, (legendre ℂ n).eval (y : ℂ) = (((legendre ℝ n).eval y : ℝ) : ℂ) := by
    intro y
    rw [← legendre_map, eval_map]
    exact eval₂_at_apply Complex.ofRealHom y
  rw [hcoef]
  unfold trigPoly
  simp only [Finset.mul_sum, Finset.sum_mul]
  rw [Finset.sum_comm]
  refine Finset.sum_congr rfl fun m _ => ?_
  rw [Pi.smul_apply, smul_eq_mul]
  unfold startVec
  simp only [Finset.mul_sum]
  rw [Complex.re_sum]
  refine Finset.sum_congr rfl fun g _ => ?_
  rw [hleg]
  have hN : (s.NE : ℝ) ≠ 0 := by exact_mod_cast hb.NE.ne'
  have hphys : physPoint (s.x.val (e - 1)) (s.x.val e) (x g) = e * s.dx + (A - s.dx / 2) + s.dx / 2 * x g := by
    unfold physPoint
    rw [mesh_edges hm _ h2, mesh_edges hm _ (by omega), Nat.cast_sub h1]
    push_cast
    ring
  rw [hphys]
  have hexp : Complex.exp ((2 * Real.pi * m / P * (e * s.dx + (A - s.dx / 2) + s.dx / 2 * x g) : ℝ) * Complex.I) = Complex.exp ((2 * Real.pi * m / P * s.dx : ℝ) * Complex.I) ^ e *
      Complex.exp ((2 * Real.pi * m / P * (A - s.dx / 2) : ℝ) * Complex.I) * Complex.exp ((2 * Real.pi * m / P * s.dx / 2 : ℝ) * Complex.I * x g) := by
    rw [← Complex.exp_nat_mul, ← Complex.exp_add, ← Complex.exp_add]
    congr 1
    push_cast
    ring
  rw [hexp]
  have hre : ∀ (a b c : ℝ) (Z : ℂ), a * (b * (Z.re * c)) = (((a * b * c : ℝ) : ℂ) * Z).re := by
    intro a b c Z
    rw [Complex.re_ofReal_mul]
    ring
  rw [hre]
  congr 1
  push_cast
  ring

end

end Dg1d.Props
