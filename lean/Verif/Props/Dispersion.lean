import Verif.Proofs.Dispersion
import Verif.Props.StabilityCurves
import Mathlib.Topology.Instances.Matrix
import Mathlib.LinearAlgebra.Matrix.Charpoly.Eigs

/-!
# Dispersion and damping of the advection operator (C101)

The matrices of analysis/dg_stability.py are `dx/2` times the operator of the solver on a wave that is multiplied by `z` from cell to cell
(C65). For a wave with phase `θ` per cell the exact operator is multiplication with `-iθ/dx`.
-/

open Polynomial

namespace Dg1d.Props
open Spec Stability

/-- `v` is an eigenvector of the script's matrix for `z` and `μ` its eigenvalue. -/
def IsMode (lib : GaussLib ℝ) (p : ℕ) (z μ : ℂ) (v : ℕ → ℂ) : Prop :=
  (∃ n < p + 1, v n ≠ 0) ∧ ∀ n < p + 1, ∑ j ∈ Finset.range (p + 1), (fullMatrix (dgMatrices lib p z)).val n j * v j = μ * v n

lemma dg_entry (lib : GaussLib ℝ) (p : ℕ) (z : ℂ) {n : ℕ} (hn : n < p + 1) (j : ℕ) : (fullMatrix (dgMatrices lib p z)).val n j =
    (2 * (n : ℂ) + 1) / 2 * (-(1 - (-1) ^ n * z⁻¹) + intPoly (derivative (legendre ℂ n) * legendre ℂ j)) := by
  unfold dgMatrices
  rw [fullMatrix_val n j hn, ← intPoly_map, Polynomial.map_mul, ← derivative_map, legendre_map, legendre_map]
  simp only [dgInterfaceFluxMatrix, legval_basis, legendre_eval_one, legendre_eval_neg_one]
  push_cast
  ring

/-- The eigenvalue problem as weak form, solved by a multiple of the representer of the left end. -/
lemma IsMode.strong {lib : GaussLib ℝ} {p : ℕ} {z μ : ℂ} {v : ℕ → ℂ} (h : IsMode lib p z μ v) :
    legSeries (p + 1) v ≠ 0 ∧ C μ * legSeries (p + 1) v + derivative (legSeries (p + 1) v) =
      -(C ((legSeries (p + 1) v).eval (-1) - z⁻¹ * (legSeries (p + 1) v).eval 1) * leftEnd p) := by
  obtain ⟨⟨i, hi, hvi⟩, he⟩ := h
  refine ⟨fun h0 => hvi ?_, weak_strong fun n hn => ?_⟩
  · refine legSeries_injective (p + 1) v (fun _ => 0) (h0.trans ?_) i hi
    unfold legSeries
    simp
  · have h1 := he n hn
    simp only [dg_entry lib p z hn] at h1
    have h0 := norm_ne_zero (K := ℂ) n
    have h2 : (legSeries (p + 1) v).eval 1 = ∑ j ∈ Finset.range (p + 1), v j := by
      rw [legSeries_eval]
      exact Finset.sum_congr rfl fun j _ => by rw [legendre_eval_one, mul_one]
    have h3 : μ * v n = (2 * (n : ℂ) + 1) / 2 * (∑ j ∈ Finset.range (p + 1), intPoly (derivative (legendre ℂ n) * legendre ℂ j) * v j -
        (legSeries (p + 1) v).eval 1 + z⁻¹ * (-1) ^ n * (legSeries (p + 1) v).eval 1) := by
      rw [← h1, h2, Finset.mul_sum, ← Finset.sum_sub_distrib, ← Finset.sum_add_distrib, Finset.mul_sum]
      exact Finset.sum_congr rfl fun j _ => by ring
    have h4 : μ * (2 / (2 * (n : ℂ) + 1)) * v n = 2 / (2 * (n : ℂ) + 1) * (μ * v n) := by ring
    rw [h4, h3, ← mul_assoc]
    have h5 : 2 / (2 * (n : ℂ) + 1) * ((2 * (n : ℂ) + 1) / 2) = 1 := by field_simp
    rw [h5, one_mul]

lemma pow_card_le_prod {r : ℝ} (hr : 0 ≤ r) (s : Multiset ℂ) (h : ∀ x ∈ s, r ≤ ‖x‖) : r ^ s.card ≤ ‖s.prod‖ := by
  induction s using Multiset.induction_on with
  | empty => simp
  | cons a s ih =>
    rw [Multiset.card_cons, pow_succ', Multiset.prod_cons, norm_mul]
    exact mul_le_mul (h a (Multiset.mem_cons_self a s)) (ih fun x hx => h x (Multiset.mem_cons_of_mem hx)) (pow_nonneg hr _) (norm_nonneg _)

/-- The matrix with the entries written out, as function of the angle. -/
noncomputable def angleMatrix (p : ℕ) (θ : ℝ) : Matrix (Fin (p + 1)) (Fin (p + 1)) ℂ := Matrix.of fun n j =>
  (2 * ((n : ℕ) : ℂ) + 1) / 2 * (-(1 - (-1) ^ (n : ℕ) * (Complex.exp (θ * Complex.I))⁻¹) + intPoly (derivative (legendre ℂ n) * legendre ℂ j))

lemma angleMatrix_eq (lib : GaussLib ℝ) (p : ℕ) (θ : ℝ) : asMatrix (p + 1) (fullMatrix (dgMatrices lib p (Complex.exp (θ * Complex.I)))) = angleMatrix p θ := by
  ext n j
  exact dg_entry lib p _ n.2 j

lemma exists_mode_iff (lib : GaussLib ℝ) (p : ℕ) (θ : ℝ) (μ : ℂ) : (∃ v, IsMode lib p (Complex.exp (θ * Complex.I)) μ v) ↔ μ ∈ (angleMatrix p θ).charpoly.roots := by
  rw [← angleMatrix_eq lib, mem_charpoly_roots]
  rfl

lemma angleMatrix_det_zero (p : ℕ) : (angleMatrix p 0).det = 0 := by
  have h : (0 : ℂ) ∈ (angleMatrix p 0).charpoly.roots := by
    rw [← exists_mode_iff realGauss]
    refine ⟨fun j => if j = 0 then 1 else 0, ⟨0, by omega, by simp⟩, fun n hn => ?_⟩
    simp only
    rw [Finset.sum_eq_single_of_mem 0 (by simp) (fun j _ hj => by rw [if_neg hj, mul_zero]), if_pos rfl, dg_entry _ _ _ hn, legendre_zero, mul_one, mul_one, intPoly_derivative,
      legendre_eval_one, legendre_eval_neg_one]
    simp
  rw [Matrix.det_eq_prod_roots_charpoly]
  exact Multiset.prod_eq_zero h

/-- Small eigenvalues exist for small angles. -/
lemma exists_small_mode (p : ℕ) {r : ℝ} (hr : 0 < r) : ∃ η > 0, ∀ (lib : GaussLib ℝ) (θ : ℝ), |θ| < η → ∃ μ v, IsMode lib p (Complex.exp (θ * Complex.I)) μ v ∧ ‖μ‖ ≤ r := by
  have hc : Continuous fun θ : ℝ => (angleMatrix p θ).det := by
    refine Continuous.matrix_det (continuous_matrix fun n j => ?_)
    have : Continuous fun θ : ℝ => (Complex.exp (θ * Complex.I))⁻¹ := by
      refine Continuous.inv₀ (by fun_prop) fun θ => Complex.exp_ne_zero _
    show Continuous fun θ : ℝ => (2 * ((n : ℕ) : ℂ) + 1) / 2 * (-(1 - (-1) ^ (n : ℕ) * (Complex.exp (θ * Complex.I))⁻¹) + intPoly (derivative (legendre ℂ n) * legendre ℂ j))
    fun_prop
  obtain ⟨η, hη, h⟩ := Metric.continuousAt_iff.mp hc.continuousAt (r ^ (p + 1)) (by positivity)
  refine ⟨η, hη, fun lib θ hθ => ?_⟩
  have h1 := h (x := θ) (by rwa [Real.dist_eq, sub_zero])
  rw [angleMatrix_det_zero, dist_zero_right, Matrix.det_eq_prod_roots_charpoly] at h1
  by_contra hcon
  push Not at hcon
  have h2 := pow_card_le_prod hr.le (angleMatrix p θ).charpoly.roots fun μ hμ => by
    obtain ⟨v, hv⟩ := (exists_mode_iff lib p θ μ).mpr hμ
    exact (hcon μ v hv).le
  rw [IsAlgClosed.card_roots_eq_natDegree, Matrix.charpoly_natDegree_eq_dim, Fintype.card_fin] at h2
  linarith

/-- **C101 (order of the operator on waves).** For every order `p`, for all waves of small phase `θ` per cell: the matrix of the script has
a small eigenvalue, and every small eigenvalue differs from `-iθ/2`, the exact one, by at most a constant times `θ^(2p+2)`, and by no less
than another constant times `θ^(2p+2)`. -/
theorem C101_order (p : ℕ) : ∃ r η c₁ c₂ : ℝ, 0 < r ∧ 0 < η ∧ 0 < c₁ ∧ 0 < c₂ ∧ ∀ (lib : GaussLib ℝ) (θ : ℝ), |θ| < η →
    (∃ μ v, IsMode lib p (Complex.exp (θ * Complex.I)) μ v ∧ ‖μ‖ ≤ r) ∧
    ∀ μ v, IsMode lib p (Complex.exp (θ * Complex.I)) μ v → ‖μ‖ ≤ r →
      c₁ * |θ| ^ (2 * p + 2) ≤ ‖2 * μ + θ * Complex.I‖ ∧ ‖2 * μ + θ * Complex.I‖ ≤ c₂ * |θ| ^ (2 * p + 2) := by
  obtain ⟨r₀, hr₀, hr8, c₁, c₂, hc₁, hc₂, hb⟩ := shift_bounds p
  set r := min r₀ (1 / (4 * c₂ + 1)) with hr
  have hrpos : 0 < r := by positivity
  obtain ⟨η, hη, hex⟩ := exists_small_mode p hrpos
  refine ⟨r, min η (1 / 4), c₁ / 2 / 4 ^ (2 * p + 2), 2 * c₂, hrpos, by positivity, by positivity, by positivity, fun lib θ hθ => ⟨hex lib θ (hθ.trans_le (min_le_left _ _)), ?_⟩⟩
  intro μ v hm hμ
  have hθ4 : |θ| < 1 / 4 := hθ.trans_le (min_le_right _ _)
  obtain ⟨hne, hs⟩ := hm.strong
  obtain ⟨hlo, hup⟩ := hb _ μ _ (legSeries_degree _ _) hne (hμ.trans (min_le_left _ _)) hs
  set w : ℂ := -(2 * μ + θ * Complex.I) with hw
  have hwn : ‖w‖ = ‖2 * μ + θ * Complex.I‖ := norm_neg _
  have hθn : ‖(θ : ℂ) * Complex.I‖ = |θ| := by rw [norm_mul, Complex.norm_I, mul_one, Complex.norm_real, Real.norm_eq_abs]
  have h2n : ‖2 * μ‖ = 2 * ‖μ‖ := by rw [norm_mul]; norm_num
  have hμ8 : ‖μ‖ ≤ 1 / 8 := (hμ.trans (min_le_left _ _)).trans hr8
  have hw1 : ‖w‖ ≤ 1 / 2 := by
    rw [hwn]
    have := norm_add_le (2 * μ) (θ * Complex.I)
    linarith
  have hexp : Complex.exp (-(2 * μ)) * (Complex.exp (θ * Complex.I))⁻¹ = Complex.exp w := by
    rw [← Complex.exp_neg, ← Complex.exp_add, hw]
    congr 1
    ring
  rw [hexp, norm_sub_rev] at hlo hup
  have hq := Complex.norm_exp_sub_one_sub_id_le (x := w) (by linarith)
  have hq' : ‖w‖ ^ 2 ≤ 1 / 2 * ‖w‖ := by nlinarith [norm_nonneg w]
  have hlow : 1 / 2 * ‖w‖ ≤ ‖Complex.exp w - 1‖ := by
    have := norm_sub_norm_le w (Complex.exp w - 1)
    rw [norm_sub_rev w] at this
    linarith
  have hupp : ‖Complex.exp w - 1‖ ≤ 2 * ‖w‖ := by
    have := norm_sub_norm_le (Complex.exp w - 1) w
    linarith [norm_nonneg w]
  rw [← hwn]
  have hw2 : ‖w‖ ≤ 2 * c₂ * ‖μ‖ ^ (2 * p + 2) := by linarith
  -- `‖μ‖` and `|θ|` are comparable
  have hsmall : 2 * c₂ * ‖μ‖ ^ (2 * p + 2) ≤ 1 / 2 * ‖μ‖ := by
    have h1 : ‖μ‖ ^ (2 * p + 1) ≤ ‖μ‖ := by
      calc ‖μ‖ ^ (2 * p + 1) ≤ ‖μ‖ ^ 1 := pow_le_pow_of_le_one (norm_nonneg _) (by linarith) (by omega)
        _ = ‖μ‖ := pow_one _
    have h2 : ‖μ‖ * (4 * c₂ + 1) ≤ 1 := by
      have := hμ.trans (min_le_right _ _)
      rwa [le_div_iff₀ (by positivity)] at this
    have h3 : 2 * c₂ * ‖μ‖ ^ (2 * p + 1) ≤ 1 / 2 := by nlinarith [norm_nonneg μ]
    calc 2 * c₂ * ‖μ‖ ^ (2 * p + 2) = 2 * c₂ * ‖μ‖ ^ (2 * p + 1) * ‖μ‖ := by ring
      _ ≤ _ := mul_le_mul_of_nonneg_right h3 (norm_nonneg _)
  have hle : ‖μ‖ ≤ |θ| := by
    have := norm_sub_le (2 * μ + θ * Complex.I) (θ * Complex.I)
    rw [add_sub_cancel_right, h2n, ← hwn, hθn] at this
    linarith [norm_nonneg μ, abs_nonneg θ]
  have hge : |θ| ≤ 4 * ‖μ‖ := by
    have := norm_sub_le (2 * μ + θ * Complex.I) (2 * μ)
    rw [add_sub_cancel_left, h2n, ← hwn, hθn] at this
    linarith [norm_nonneg μ]
  constructor
  · have h1 : |θ| ^ (2 * p + 2) ≤ 4 ^ (2 * p + 2) * ‖μ‖ ^ (2 * p + 2) := by
      rw [← mul_pow]
      exact pow_le_pow_left₀ (abs_nonneg _) hge _
    have h2 : c₁ / 2 * ‖μ‖ ^ (2 * p + 2) ≤ ‖w‖ := by linarith
    rw [div_mul_eq_mul_div, div_le_iff₀ (by positivity)]
    calc c₁ / 2 * |θ| ^ (2 * p + 2) ≤ c₁ / 2 * (4 ^ (2 * p + 2) * ‖μ‖ ^ (2 * p + 2)) := by gcongr
      _ = c₁ / 2 * ‖μ‖ ^ (2 * p + 2) * 4 ^ (2 * p + 2) := by ring
      _ ≤ _ := by gcongr
  · exact hw2.trans (mul_le_mul_of_nonneg_left (pow_le_pow_left₀ (norm_nonneg _) hle _) (by positivity))

/-- **C101 (the solver).** For every order `p`, all meshes of `N` cells of width `dx` and all waves with `m` periods in the domain, so with wave
number `κ = 2πm/(N dx)`, as long as `κ dx` is small: there is a wave on which the residual of the solver is multiplication with a number
`lam`, which is not to the right of the imaginary axis and differs from `-iκ` by an error of order `κ^(2p+2) dx^(2p+1)`, not better and not
worse. -/
theorem C101_solver (p : ℕ) : ∃ η c₁ c₂ : ℝ, 0 < η ∧ 0 < c₁ ∧ 0 < c₂ ∧ ∀ (lib : GaussLib ℝ) (N : ℕ) (dx : ℝ) (m : ℤ), 0 < N → 0 < dx →
    |2 * Real.pi * m / N| < η → ∃ (lam : ℂ) (v : ℕ → ℂ), (∃ n < p + 1, v n ≠ 0) ∧ lam.re ≤ 0 ∧
      c₁ * |2 * Real.pi * m / (N * dx)| ^ (2 * p + 2) * dx ^ (2 * p + 1) ≤ ‖lam + (2 * Real.pi * m / (N * dx) : ℝ) * Complex.I‖ ∧
      ‖lam + (2 * Real.pi * m / (N * dx) : ℝ) * Complex.I‖ ≤ c₂ * |2 * Real.pi * m / (N * dx)| ^ (2 * p + 2) * dx ^ (2 * p + 1) ∧
      ∀ s : Sol ℝ, s.Built lib p → s.kw = Advection.physics → s.enhance = none → s.bcl = .lit "periodic" → s.bcr = .lit "periodic" → s.NE = N → s.dx = dx →
        ∀ f < s.NF, (∀ e, 1 ≤ e → e ≤ N → ∀ n < p + 1, s.u.val n (e * s.NF + f) = (Complex.exp ((2 * Real.pi * m / N : ℝ) * Complex.I) ^ e * v n).re) →
        ∃ F, residual s = .ok (s.applyBc, F) ∧ ∀ n < p + 1, ∀ e, 1 ≤ e → e ≤ N →
          F.val n (e * s.NF + f) = (Complex.exp ((2 * Real.pi * m / N : ℝ) * Complex.I) ^ e * (lam * v n)).re := by
  obtain ⟨r, η, c₁, c₂, hr, hη, hc₁, hc₂, hmain⟩ := C101_order p
  refine ⟨η, c₁, c₂, hη, hc₁, hc₂, fun lib N dx m hN hdx hθ => ?_⟩
  set θ : ℝ := 2 * Real.pi * m / N with hθd
  have hN' : (N : ℝ) ≠ 0 := by exact_mod_cast hN.ne'
  obtain ⟨⟨μ, v, hm, hμ⟩, hall⟩ := hmain lib θ hθ
  obtain ⟨hlo, hup⟩ := hall μ v hm hμ
  have hz1 : ‖Complex.exp (θ * Complex.I)‖ = 1 := Complex.norm_exp_ofReal_mul_I θ
  have hk : 2 * Real.pi * m / (N * dx) = θ / dx := by rw [hθd, div_div]
  have hnorm : ‖((2 / dx : ℝ) : ℂ) * μ + (θ / dx : ℝ) * Complex.I‖ = ‖2 * μ + θ * Complex.I‖ / dx := by
    have : ((2 / dx : ℝ) : ℂ) * μ + (θ / dx : ℝ) * Complex.I = ((1 / dx : ℝ) : ℂ) * (2 * μ + θ * Complex.I) := by push_cast; ring
    rw [this, norm_mul, Complex.norm_real, Real.norm_of_nonneg (by positivity)]
    ring
  have hpow : |θ / dx| ^ (2 * p + 2) * dx ^ (2 * p + 1) = |θ| ^ (2 * p + 2) / dx := by
    rw [abs_div, abs_of_pos hdx, div_pow, pow_succ dx (2 * p + 1)]
    field_simp
  refine ⟨((2 / dx : ℝ) : ℂ) * μ, v, hm.1, ?_, ?_, ?_, ?_⟩
  · rw [Complex.re_ofReal_mul]
    exact mul_nonpos_of_nonneg_of_nonpos (by positivity) (C68_spectrum lib p hz1 hm.1 hm.2)
  · rw [hk, hnorm, mul_assoc, hpow, ← mul_div_assoc]
    gcongr
  · rw [hk, hnorm, mul_assoc, hpow, ← mul_div_assoc]
    gcongr
  · intro s hb hkw hen hl hr' hNE hdx' f hf hwave
    have hzN : Complex.exp (θ * Complex.I) ^ s.NE = 1 := by
      rw [hNE, ← Complex.exp_nat_mul, Complex.exp_eq_one_iff]
      refine ⟨m, ?_⟩
      rw [hθd]
      have : (N : ℂ) ≠ 0 := by exact_mod_cast hN.ne'
      push_cast
      field_simp
    obtain ⟨F, hF, hv⟩ := C65_dg hb hkw hen hl hr' hf hzN (c := v) fun e h1 h2 n hn => hwave e h1 (hNE ▸ h2) n hn
    refine ⟨F, hF, fun n hn e h1 h2 => ?_⟩
    rw [hv n hn e h1 (hNE ▸ h2), hm.2 n hn, hdx', mul_assoc ((2 / dx : ℝ) : ℂ)]

/-! ### Concrete cases -/

/-- A ring of `N` cells of width `1/N`, order `p`. -/
noncomputable def Ex.ring (p N : ℕ) (val : ℕ → ℕ → ℝ) : Sol ℝ :=
  { basis := Basis.init realGauss p, kw := Advection.physics, t := 0, n := 0, NE := N, NF := 1
    x := ⟨N + 1, fun i => (i : ℝ) / N⟩, xc := ⟨N, fun i => (2 * i + 1 : ℝ) / (2 * N)⟩, dx := 1 / N
    u := ⟨p + 1, N + 2, val⟩
    scaledMinv := ⟨p + 1, fun n => (2 * (n : ℝ) + 1) / (1 / N)⟩
    bcl := .lit "periodic", bcr := .lit "periodic", enhance := none, sensors := none }

lemma Ex.ring_built (p : ℕ) {N : ℕ} (hN : 0 < N) (val : ℕ → ℕ → ℝ) : (Ex.ring p N val).Built realGauss p where
  nodes := (realGauss_ok (p + 1) (by omega)).1
  gauss := (realGauss_ok (p + 1) (by omega)).2.2
  basis := rfl
  NF := Nat.one_pos
  NE := hN
  rows := rfl
  cols := by show N + 2 = (N + 2) * 1; omega
  dx := by have : (N : ℝ) ≠ 0 := by exact_mod_cast hN.ne'
           show (1 / N : ℝ) ≠ 0
           positivity
  minv := fun n _ => rfl
  enh := fun en h => by cases h

/-- A sine with one period in the domain, on enough cells: the wave of order `p` exists, the solver multiplies it with `lam`, and `lam` is
`-2πi` up to an error between two multiples of `N^-(2p+1)`. -/
example (p : ℕ) : ∃ (N : ℕ) (c₁ c₂ : ℝ) (lam : ℂ) (v : ℕ → ℂ), 0 < N ∧ 0 < c₁ ∧ lam.re ≤ 0 ∧
    c₁ * (1 / N) ^ (2 * p + 1) ≤ ‖lam + (2 * Real.pi : ℝ) * Complex.I‖ ∧ ‖lam + (2 * Real.pi : ℝ) * Complex.I‖ ≤ c₂ * (1 / N) ^ (2 * p + 1) ∧
    ∃ F, residual (Ex.ring p N fun n e => (Complex.exp ((2 * Real.pi / N : ℝ) * Complex.I) ^ e * v n).re) =
        .ok (Sol.applyBc (Ex.ring p N fun n e => (Complex.exp ((2 * Real.pi / N : ℝ) * Complex.I) ^ e * v n).re), F) ∧
      ∀ n < p + 1, ∀ e, 1 ≤ e → e ≤ N → F.val n (e * 1 + 0) = (Complex.exp ((2 * Real.pi / N : ℝ) * Complex.I) ^ e * (lam * v n)).re := by
  obtain ⟨η, c₁, c₂, hη, hc₁, hc₂, h⟩ := C101_solver p
  obtain ⟨N, hN⟩ := exists_nat_gt (2 * Real.pi / η)
  have hpi := Real.pi_pos
  have hN0 : (0 : ℝ) < N := lt_trans (by positivity) hN
  have hN1 : 0 < N := by exact_mod_cast hN0
  have hk : 2 * Real.pi * ((1 : ℤ) : ℝ) / (N * (1 / N)) = 2 * Real.pi := by
    push_cast
    field_simp
  have hk' : 2 * Real.pi * ((1 : ℤ) : ℝ) / N = 2 * Real.pi / N := by push_cast; ring
  obtain ⟨lam, v, -, h1, h2, h3, h4⟩ := h realGauss N (1 / N) 1 hN1 (by positivity) (by
    rw [hk', abs_of_pos (by positivity), div_lt_iff₀ hN0]
    rw [div_lt_iff₀ hη] at hN
    linarith)
  rw [hk] at h2 h3
  rw [hk'] at h4
  refine ⟨N, c₁ * |2 * Real.pi| ^ (2 * p + 2), c₂ * |2 * Real.pi| ^ (2 * p + 2), lam, v, hN1, by positivity, h1, h2, h3, ?_⟩
  exact h4 _ (Ex.ring_built p hN1 _) rfl rfl rfl rfl rfl rfl 0 Nat.one_pos fun e _ _ n _ => by
    show Complex.re (_ ^ (e * 1 + 0) * _) = _
    rw [mul_one, add_zero]

/-- Order 0: the one eigenvalue is `(1/z - 1)/2`, that of the upwind scheme. -/
example (lib : GaussLib ℝ) (z : ℂ) : IsMode lib 0 z ((z⁻¹ - 1) / 2) fun _ => 1 := by
  refine ⟨⟨0, by omega, one_ne_zero⟩, fun n hn => ?_⟩
  obtain rfl : n = 0 := by omega
  rw [Finset.sum_range_one, dg_entry lib 0 z (by omega), legendre_zero, mul_one, mul_one, intPoly_derivative]
  simp
  ring

end Dg1d.Props
