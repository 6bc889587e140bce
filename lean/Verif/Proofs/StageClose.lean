import Verif.Props.AdvectionConvergence

/-! Helper lemmas: the stages of the third order scheme stay close to the travelling wave, point by point. -/

set_option linter.unusedSectionVars false

open Polynomial Dg1d.Spec Dg1d.Approx

namespace Dg1d.Props

variable {s : Sol ℝ} {lib : GaussLib ℝ} {p : ℕ}

/-- One entry is bounded by the energy norm. -/
lemma entry_le_enorm (hdx : 0 < s.dx) {f : ℕ} (x : ℕ → ℕ → ℝ) {n : ℕ} (hn : n < p + 1) {e : ℕ} (h1 : 1 ≤ e) (h2 : e ≤ s.NE) :
    |x n (e * s.NF + f)| ≤ √(2 * p + 1) * Approx.enorm s p f hdx.le x / √s.dx := by
  have hN := apply_nonneg (Approx.enorm s p f hdx.le) x
  have hs := Real.sqrt_pos.mpr hdx
  rw [le_div_iff₀ hs]
  refine abs_le_of_sq_le_sq' ?_ (by positivity) |>.2
  rw [mul_pow, mul_pow, Real.sq_sqrt hdx.le, Real.sq_sqrt (by positivity : (0 : ℝ) ≤ 2 * p + 1), enorm_sq, cellForm_apply, sq_abs]
  have hterm : ∀ e' n' : ℕ, 0 ≤ 2 / (2 * (n' : ℝ) + 1) * (x n' (e' * s.NF + f) * x n' (e' * s.NF + f)) := by
    intro e' n'
    have := mul_self_nonneg (x n' (e' * s.NF + f))
    positivity
  have hle : 2 / (2 * (n : ℝ) + 1) * (x n (e * s.NF + f) * x n (e * s.NF + f)) ≤
      ∑ e ∈ Finset.Icc 1 s.NE, ∑ n ∈ Finset.range (p + 1), 2 / (2 * (n : ℝ) + 1) * (x n (e * s.NF + f) * x n (e * s.NF + f)) := by
    refine le_trans ?_ (Finset.single_le_sum (f := fun e : ℕ => ∑ n ∈ Finset.range (p + 1), 2 / (2 * (n : ℝ) + 1) * (x n (e * s.NF + f) * x n (e * s.NF + f)))
      (fun e' _ => Finset.sum_nonneg fun n' _ => hterm e' n') (Finset.mem_Icc.mpr ⟨h1, h2⟩))
    exact Finset.single_le_sum (f := fun n : ℕ => 2 / (2 * (n : ℝ) + 1) * (x n (e * s.NF + f) * x n (e * s.NF + f))) (fun n' _ => hterm e n') (Finset.mem_range.mpr hn)
  set S := ∑ e ∈ Finset.Icc 1 s.NE, ∑ n ∈ Finset.range (p + 1), 2 / (2 * (n : ℝ) + 1) * (x n (e * s.NF + f) * x n (e * s.NF + f))
  have hnp : (n : ℝ) ≤ p := by exact_mod_cast (by omega : n ≤ p)
  have hpos : (0 : ℝ) < 2 * n + 1 := by positivity
  have h3 : x n (e * s.NF + f) * x n (e * s.NF + f) ≤ (2 * n + 1) / 2 * S := by
    rw [div_mul_eq_mul_div, div_le_iff₀ hpos] at hle
    linarith
  have hS : 0 ≤ S := Finset.sum_nonneg fun e' _ => Finset.sum_nonneg fun n' _ => hterm e' n'
  have h4 : (2 * (n : ℝ) + 1) / 2 * S ≤ (2 * p + 1) / 2 * S := mul_le_mul_of_nonneg_right (by linarith) hS
  nlinarith

/-- The value of a series with small entries. -/
lemma series_le {B κ : ℝ} (hB : ∀ n ≤ p, ∀ ξ ∈ Set.Icc (-1 : ℝ) 1, |(legendre ℝ n).eval ξ| ≤ B) (c : ℕ → ℝ) (hc : ∀ n < p + 1, |c n| ≤ κ)
    {ξ : ℝ} (hξ : ξ ∈ Set.Icc (-1 : ℝ) 1) : |(legSeries (p + 1) c).eval ξ| ≤ (p + 1) * (κ * B) := by
  rw [legSeries_eval]
  refine (Finset.abs_sum_le_sum_abs _ _).trans ?_
  have : ∀ n ∈ Finset.range (p + 1), |c n * (legendre ℝ n).eval ξ| ≤ κ * B := by
    intro n hn
    have hn := Finset.mem_range.mp hn
    rw [abs_mul]
    exact mul_le_mul (hc n hn) (hB n (by omega) ξ hξ) (abs_nonneg _) ((abs_nonneg _).trans (hc n hn))
  refine (Finset.sum_le_sum this).trans_eq ?_
  rw [Finset.sum_const, Finset.card_range, nsmul_eq_mul]
  push_cast
  ring

lemma series_add (N : ℕ) (c d : ℕ → ℝ) (ξ : ℝ) : (legSeries N fun n => c n + d n).eval ξ = (legSeries N c).eval ξ + (legSeries N d).eval ξ := by
  rw [legSeries_eval, legSeries_eval, legSeries_eval, ← Finset.sum_add_distrib]
  exact Finset.sum_congr rfl fun n _ => by ring

/-- One combination `u + α θ L u + β θ² L² u` against the same combination of `w0, w1, w2`, when `L` nearly maps each to the next. -/
lemma stage_norm {V : Type*} [AddCommGroup V] [Module ℝ V] (N : Seminorm ℝ V) (L : V →ₗ[ℝ] V) {Λ θ α β E δ : ℝ} {w0 w1 w2 u : V} (hL : ∀ z, N (L z) ≤ Λ * N z)
    (hθ : 0 ≤ θ) (hθΛ : θ * Λ ≤ 1) (hθ1 : θ ≤ 1) (hα : 0 ≤ α) (hα1 : α ≤ 1) (hβ : 0 ≤ β) (hβ1 : β ≤ 1) (hE : N (u - w0) ≤ E)
    (hd0 : N (L w0 - w1) ≤ δ) (hd1 : N (L w1 - w2) ≤ δ) :
    N (u + (α * θ) • L u + (β * θ ^ 2) • L (L u) - (w0 + (α * θ) • w1 + (β * θ ^ 2) • w2)) ≤ 3 * (E + δ) := by
  obtain ⟨D, hD⟩ : ∃ D, D = u - w0 := ⟨_, rfl⟩
  have hxeq : u + (α * θ) • L u + (β * θ ^ 2) • L (L u) - (w0 + (α * θ) • w1 + (β * θ ^ 2) • w2) =
      D + ((α * θ) • L D + (α * θ) • (L w0 - w1)) + ((β * θ ^ 2) • L (L D) + ((β * θ ^ 2) • L (L w0 - w1) + (β * θ ^ 2) • (L w1 - w2))) := by
    rw [hD]
    simp only [map_sub, smul_sub]
    abel
  rw [hxeq]
  rw [← hD] at hE
  clear hxeq hD
  have hND : N D ≤ E := hE
  have hND0 : 0 ≤ N D := apply_nonneg _ _
  have hαθ : 0 ≤ α * θ := by positivity
  have hβθ : 0 ≤ β * θ ^ 2 := by positivity
  have a1 : N ((α * θ) • L D) ≤ E := by
    rw [map_smul_eq_mul, Real.norm_of_nonneg hαθ]
    have : θ * N (L D) ≤ N D := by
      calc θ * N (L D) ≤ θ * (Λ * N D) := mul_le_mul_of_nonneg_left (hL D) hθ
        _ = θ * Λ * N D := by ring
        _ ≤ 1 * N D := mul_le_mul_of_nonneg_right hθΛ hND0
        _ = N D := one_mul _
    have h0 : 0 ≤ θ * N (L D) := mul_nonneg hθ (apply_nonneg _ _)
    calc α * θ * N (L D) = α * (θ * N (L D)) := by ring
      _ ≤ 1 * (θ * N (L D)) := mul_le_mul_of_nonneg_right hα1 h0
      _ ≤ E := by linarith
  have hLL : ∀ z, θ ^ 2 * N (L (L z)) ≤ N z := by
    intro z
    have hz := apply_nonneg N z
    have hLz : 0 ≤ N (L z) := apply_nonneg _ _
    have i1 : θ * N (L z) ≤ N z := by
      calc θ * N (L z) ≤ θ * (Λ * N z) := mul_le_mul_of_nonneg_left (hL z) hθ
        _ = θ * Λ * N z := by ring
        _ ≤ 1 * N z := mul_le_mul_of_nonneg_right hθΛ hz
        _ = N z := one_mul _
    have i2 : θ * N (L (L z)) ≤ N (L z) := by
      calc θ * N (L (L z)) ≤ θ * (Λ * N (L z)) := mul_le_mul_of_nonneg_left (hL (L z)) hθ
        _ = θ * Λ * N (L z) := by ring
        _ ≤ 1 * N (L z) := mul_le_mul_of_nonneg_right hθΛ hLz
        _ = N (L z) := one_mul _
    calc θ ^ 2 * N (L (L z)) = θ * (θ * N (L (L z))) := by ring
      _ ≤ θ * N (L z) := mul_le_mul_of_nonneg_left i2 hθ
      _ ≤ N z := i1
  have a2 : N ((α * θ) • (L w0 - w1)) ≤ δ := by
    rw [map_smul_eq_mul, Real.norm_of_nonneg hαθ]
    have : α * θ ≤ 1 := mul_le_one₀ hα1 hθ hθ1
    calc α * θ * N (L w0 - w1) ≤ 1 * N (L w0 - w1) := mul_le_mul_of_nonneg_right this (apply_nonneg _ _)
      _ ≤ δ := by linarith
  have a3 : N ((β * θ ^ 2) • L (L D)) ≤ E := by
    rw [map_smul_eq_mul, Real.norm_of_nonneg hβθ]
    have h0 : 0 ≤ θ ^ 2 * N (L (L D)) := mul_nonneg (by positivity) (apply_nonneg _ _)
    calc β * θ ^ 2 * N (L (L D)) = β * (θ ^ 2 * N (L (L D))) := by ring
      _ ≤ 1 * (θ ^ 2 * N (L (L D))) := mul_le_mul_of_nonneg_right hβ1 h0
      _ ≤ E := by linarith [hLL D]
  have a4 : N ((β * θ ^ 2) • L (L w0 - w1)) ≤ δ := by
    rw [map_smul_eq_mul, Real.norm_of_nonneg hβθ]
    have hz := apply_nonneg N (L w0 - w1)
    have i1 : θ * N (L (L w0 - w1)) ≤ N (L w0 - w1) := by
      calc θ * N (L (L w0 - w1)) ≤ θ * (Λ * N (L w0 - w1)) := mul_le_mul_of_nonneg_left (hL _) hθ
        _ = θ * Λ * N (L w0 - w1) := by ring
        _ ≤ 1 * N (L w0 - w1) := mul_le_mul_of_nonneg_right hθΛ hz
        _ = N (L w0 - w1) := one_mul _
    have hb1 : β * θ ≤ 1 := mul_le_one₀ hβ1 hθ hθ1
    have h0 : 0 ≤ θ * N (L (L w0 - w1)) := mul_nonneg hθ (apply_nonneg _ _)
    calc β * θ ^ 2 * N (L (L w0 - w1)) = β * θ * (θ * N (L (L w0 - w1))) := by ring
      _ ≤ 1 * (θ * N (L (L w0 - w1))) := mul_le_mul_of_nonneg_right hb1 h0
      _ ≤ δ := by linarith
  have hβθ1 : β * θ ^ 2 ≤ 1 := mul_le_one₀ hβ1 (by positivity) (pow_le_one₀ hθ hθ1)
  have a5 : N ((β * θ ^ 2) • (L w1 - w2)) ≤ δ := by
    rw [map_smul_eq_mul, Real.norm_of_nonneg hβθ]
    calc β * θ ^ 2 * N (L w1 - w2) ≤ 1 * N (L w1 - w2) := mul_le_mul_of_nonneg_right hβθ1 (apply_nonneg _ _)
      _ ≤ δ := by linarith
  have t1 := map_add_le_add N (D + ((α * θ) • L D + (α * θ) • (L w0 - w1))) ((β * θ ^ 2) • L (L D) + ((β * θ ^ 2) • L (L w0 - w1) + (β * θ ^ 2) • (L w1 - w2)))
  have t2 := map_add_le_add N D ((α * θ) • L D + (α * θ) • (L w0 - w1))
  have t3 := map_add_le_add N ((α * θ) • L D) ((α * θ) • (L w0 - w1))
  have t4 := map_add_le_add N ((β * θ ^ 2) • L (L D)) ((β * θ ^ 2) • L (L w0 - w1) + (β * θ ^ 2) • (L w1 - w2))
  have t5 := map_add_le_add N ((β * θ ^ 2) • L (L w0 - w1)) ((β * θ ^ 2) • (L w1 - w2))
  linarith

/-- The value of a combination of series. -/
lemma series_comb {B κ κ' d r g α β : ℝ} (hB : ∀ n ≤ p, ∀ ξ ∈ Set.Icc (-1 : ℝ) 1, |(legendre ℝ n).eval ξ| ≤ B) {y x w0 w1 w2 : ℕ → ℝ}
    (hy : ∀ n, y n = w0 n + (x n + (α * w1 n + β * w2 n))) (hx : ∀ n < p + 1, |x n| ≤ κ) (h1 : ∀ n < p + 1, |w1 n| ≤ κ') (h2 : ∀ n < p + 1, |w2 n| ≤ κ')
    (hα : |α| ≤ d) (hβ : |β| ≤ d) {ξ : ℝ} (hξ : ξ ∈ Set.Icc (-1 : ℝ) 1) (h0 : |(legSeries (p + 1) w0).eval ξ - g| ≤ r) :
    |(legSeries (p + 1) y).eval ξ - g| ≤ r + ((p + 1) * (κ * B) + 2 * ((p + 1) * (d * κ' * B))) := by
  have hd : 0 ≤ d := (abs_nonneg _).trans hα
  have b1 := series_le hB x hx hξ
  have b2 := series_le hB (fun n => α * w1 n) (κ := d * κ') (fun n hn => by rw [abs_mul]; exact mul_le_mul hα (h1 n hn) (abs_nonneg _) hd) hξ
  have b3 := series_le hB (fun n => β * w2 n) (κ := d * κ') (fun n hn => by rw [abs_mul]; exact mul_le_mul hβ (h2 n hn) (abs_nonneg _) hd) hξ
  rw [show y = fun n => w0 n + (x n + (α * w1 n + β * w2 n)) from funext hy, series_add, series_add, series_add]
  rw [abs_le] at h0 b1 b2 b3 ⊢
  constructor <;> linarith [h0.1, h0.2, b1.1, b1.2, b2.1, b2.2, b3.1, b3.2]

set_option maxHeartbeats 1000000 in
/-- Any combination `u + α θ L u + β θ² L² u` with `α, β` between 0 and 1 is within `K √dx` of the wave at every point, if `u` is within
`C (dx^(p+1) + h³)` of it in the norm. -/
lemma stage_close (p : ℕ) (u0 : ℝ → ℝ) (hu : ContDiff ℝ (p + 4 : ℕ) u0) (A P : ℝ) (hP : 0 < P) (hper : ∀ y, u0 (y + P) = u0 y) {C : ℝ} (hC : 0 ≤ C) :
    ∃ K : ℝ, 0 ≤ K ∧ ∀ {s : Sol ℝ} {lib : GaussLib ℝ} (hb : s.Built lib p), s.kw = Advection.physics → s.enhance = none → s.bcl = .lit "periodic" → s.bcr = .lit "periodic" →
      s.NE * s.dx = P → ∀ (hdx : 0 < s.dx), s.dx ≤ 1 → ∀ f < s.NF, ∀ (h θ τ α β : ℝ), 0 ≤ θ → θ ≤ h → 3 * ((p : ℝ) + 1) ^ 2 * h ≤ s.dx →
      0 ≤ α → α ≤ 1 → 0 ≤ β → β ≤ 1 → ∀ u : ℕ → ℕ → ℝ, Approx.enorm s p f hdx.le (u - radArr s p A (Approx.wave u0 τ 0)) ≤ C * (s.dx ^ (p + 1) + h ^ 3) →
      ∀ e, 1 ≤ e → e ≤ s.NE → ∀ ξ ∈ Set.Icc (-1 : ℝ) 1,
        |(legSeries (p + 1) fun n => (u + (α * θ) • advLin s hb.wf u + (β * θ ^ 2) • advLin s hb.wf (advLin s hb.wf u)) n (e * s.NF + f)).eval ξ -
          cellFn (Approx.wave u0 τ 0) (A + ((e : ℝ) - 1) * s.dx) s.dx ξ| ≤ K * √s.dx := by
  have hu' : ContDiff ℝ (p + 1 + 3 : ℕ) u0 := hu
  obtain ⟨M, hM0, hM⟩ := derivs_bounded hu' hP hper
  obtain ⟨R, hR1, hcons⟩ := consistency p 3
  obtain ⟨R2, hR2, hcoef⟩ := coef_bounds p
  obtain ⟨B, hB1, hB⟩ := legendre_bounded p
  set S := √(P * (p + 1)) with hS
  have hp0 : (0 : ℝ) ≤ p := Nat.cast_nonneg p
  set K1 := (p + 1) * (√(2 * p + 1) * (3 * (2 * C + S * (R * M))) * B) with hK1
  set K2 := (p + 1) * (R2 * M * B) with hK2
  have hK1' : 0 ≤ K1 := by positivity
  have hK2' : 0 ≤ K2 := by positivity
  refine ⟨K1 + 2 * K2 + R * M, by positivity, ?_⟩
  intro s lib hb hk hen hl hr hlen hdx hdx1 f hf h θ τ α β hθ hθh hhdx hα hα1 hβ hβ1 u hE e h1 h2 ξ hξ
  have hper' : ∀ y, u0 (y + s.NE * s.dx) = u0 y := by rw [hlen]; exact hper
  obtain ⟨c1, -, c3⟩ := hcons hb hk hen hl hr hdx f hf A u0 hu' hper' M hM
  have hL := enorm_advLin hb hk hen hl hr hdx (p := p) hf
  rw [hlen, ← hS] at c1
  set L := advLin s hb.wf
  set N := Approx.enorm s p f hdx.le
  set w := fun k => radArr s p A (Approx.wave u0 τ k) with hw
  set Λ := 3 * ((p : ℝ) + 1) ^ 2 / s.dx with hΛ
  have hΛ0 : 0 ≤ Λ := by positivity
  have hθΛ : θ * Λ ≤ 1 := by
    rw [hΛ, ← mul_div_assoc, div_le_one hdx]
    have := mul_le_mul_of_nonneg_left hθh (by positivity : (0 : ℝ) ≤ 3 * ((p : ℝ) + 1) ^ 2)
    linarith
  have h30 : (1 : ℝ) ≤ 3 * ((p : ℝ) + 1) ^ 2 := by nlinarith
  have hh0 : 0 ≤ h := hθ.trans hθh
  have hhd : h ≤ s.dx := by nlinarith
  have hθd : θ ≤ s.dx := hθh.trans hhd
  have hθ1 : θ ≤ 1 := hθd.trans hdx1
  set δ := S * (R * (M * s.dx ^ (p + 1))) with hδ
  have hδ0 : 0 ≤ δ := by positivity
  set E := C * (s.dx ^ (p + 1) + h ^ 3) with hEdef
  have hαθ : 0 ≤ α * θ := by positivity
  have hβθ : 0 ≤ β * θ ^ 2 := by positivity
  have hd0 : N (L (w 0) - w 1) ≤ δ := c1 τ 0 (by norm_num)
  have hd1 : N (L (w 1) - w 2) ≤ δ := c1 τ 1 (by norm_num)
  set y := u + (α * θ) • L u + (β * θ ^ 2) • L (L u) with hy
  set x := y - (w 0 + (α * θ) • w 1 + (β * θ ^ 2) • w 2) with hx
  have hNx : N x ≤ 3 * (E + δ) := stage_norm N L hL hθ hθΛ hθ1 hα hα1 hβ hβ1 hE hd0 hd1
  have hpow : s.dx ^ (p + 1) ≤ s.dx := by
    calc s.dx ^ (p + 1) ≤ s.dx ^ 1 := pow_le_pow_of_le_one hdx.le hdx1 (by omega)
      _ = s.dx := pow_one _
  have hh3 : h ^ 3 ≤ s.dx := by
    calc h ^ 3 ≤ s.dx ^ 3 := pow_le_pow_left₀ hh0 hhd 3
      _ ≤ s.dx ^ 1 := pow_le_pow_of_le_one hdx.le hdx1 (by norm_num)
      _ = s.dx := pow_one _
  have hEδ : E + δ ≤ (2 * C + S * (R * M)) * s.dx := by
    have i1 : E ≤ C * (2 * s.dx) := mul_le_mul_of_nonneg_left (by linarith) hC
    have i2 : δ = S * (R * M) * s.dx ^ (p + 1) := by rw [hδ]; ring
    have i3 : S * (R * M) * s.dx ^ (p + 1) ≤ S * (R * M) * s.dx := mul_le_mul_of_nonneg_left hpow (by positivity)
    nlinarith
  have hsq : √s.dx * √s.dx = s.dx := Real.mul_self_sqrt hdx.le
  have hs := Real.sqrt_pos.mpr hdx
  have hds : s.dx ≤ √s.dx := by
    have : √s.dx ≤ 1 := Real.sqrt_le_one.mpr hdx1
    nlinarith
  have hent : ∀ n < p + 1, |x n (e * s.NF + f)| ≤ √(2 * p + 1) * (3 * (2 * C + S * (R * M))) * √s.dx := by
    intro n hn
    refine (entry_le_enorm hdx x hn h1 h2).trans ?_
    rw [div_le_iff₀ hs]
    have : N x ≤ 3 * ((2 * C + S * (R * M)) * s.dx) := by linarith
    calc √(2 * p + 1) * N x ≤ √(2 * p + 1) * (3 * ((2 * C + S * (R * M)) * s.dx)) := mul_le_mul_of_nonneg_left this (Real.sqrt_nonneg _)
      _ = √(2 * p + 1) * (3 * (2 * C + S * (R * M))) * (√s.dx * √s.dx) := by rw [hsq]; ring
      _ = _ := by ring
  have hwent : ∀ k ≤ 3, ∀ n < p + 1, |w k n (e * s.NF + f)| ≤ R2 * M := by
    intro k hk3 n hn
    simp only [hw]
    rw [radArr_val hb hf]
    refine (hcoef _ M (fun ξ' _ => ?_) n hn).2
    unfold cellFn Approx.wave
    rw [abs_mul, abs_pow, abs_neg, abs_one, one_pow, one_mul]
    exact hM _ (by omega) _
  have hpt := series_comb (α := α * θ) (β := β * θ ^ 2) (d := s.dx) hB (y := fun n => y n (e * s.NF + f)) (x := fun n => x n (e * s.NF + f)) (w0 := fun n => w 0 n (e * s.NF + f))
    (w1 := fun n => w 1 n (e * s.NF + f)) (w2 := fun n => w 2 n (e * s.NF + f))
    (fun n => by
      rw [hx]
      simp only [Pi.sub_apply, Pi.add_apply, Pi.smul_apply, smul_eq_mul]
      ring) hent (hwent 1 (by norm_num)) (hwent 2 (by norm_num))
    (by rw [abs_of_nonneg hαθ]; exact (mul_le_of_le_one_left hθ hα1).trans hθd)
    (by
      rw [abs_of_nonneg hβθ]
      have i1 : θ ^ 2 ≤ θ := by nlinarith
      exact (mul_le_of_le_one_left (by positivity) hβ1).trans (i1.trans hθd)) hξ (c3 τ e h1 h2 ξ hξ)
  refine hpt.trans ?_
  have e1 : (↑p + 1) * (√(2 * p + 1) * (3 * (2 * C + S * (R * M))) * √s.dx * B) = K1 * √s.dx := by rw [hK1]; ring
  have e2 : (↑p + 1) * (s.dx * (R2 * M) * B) = K2 * s.dx := by rw [hK2]; ring
  rw [e1, e2]
  have e3 : K2 * s.dx ≤ K2 * √s.dx := mul_le_mul_of_nonneg_left hds hK2'
  have e4 : R * (M * s.dx ^ (p + 1)) ≤ R * M * √s.dx := by
    calc R * (M * s.dx ^ (p + 1)) = R * M * s.dx ^ (p + 1) := by ring
      _ ≤ R * M * √s.dx := mul_le_mul_of_nonneg_left (hpow.trans hds) (by positivity)
  linarith

end Dg1d.Props
