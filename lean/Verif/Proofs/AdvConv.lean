import Mathlib.Analysis.Seminorm
import Verif.Proofs.Approx
import Verif.Proofs.Gauss

/-! Helper lemmas: error of one time step of the advection scheme against the projection of the exact solution. -/

set_option linter.unusedSectionVars false

open Polynomial Dg1d.Spec

namespace Dg1d.Approx

/-- The nodes of a Gauss rule lie in `(-1, 1)`. -/
lemma gauss_nodes {n : ℕ} {x w : ℕ → ℝ} (hG : IsGaussRule n x w) {i : ℕ} (hi : i < n) : x i ∈ Set.Ioo (-1 : ℝ) 1 := by
  classical
  set F : ℝ[X] := ∏ j ∈ Finset.range n, (X - C (x j)) with hF
  have hF0 : F ≠ 0 := Finset.prod_ne_zero_iff.mpr fun j _ => X_sub_C_ne_zero _
  have hdeg : F.natDegree = n := by
    rw [hF, natDegree_prod_of_monic _ _ fun j _ => monic_X_sub_C _]
    simp
  have hroot : ∀ j < n, F.eval (x j) = 0 := by
    intro j hj
    rw [hF, eval_prod]
    exact Finset.prod_eq_zero (Finset.mem_range.mpr hj) (by simp)
  obtain ⟨S, hcard, hS⟩ := exists_roots_of_orthogonal (show (-1 : ℝ) < 1 by norm_num) n F hF0 (fun g hg => by
    show intPoly (F * g) = 0
    rw [← hG.exact (F * g)]
    · refine Finset.sum_eq_zero fun j hj => ?_
      rw [eval_mul, hroot j (Finset.mem_range.mp hj), zero_mul, mul_zero]
    · rw [degree_mul, degree_eq_natDegree hF0, hdeg, two_mul]
      exact WithBot.add_lt_add_left (by simp) hg)
  have hsub : S ⊆ F.roots.toFinset := fun r hr => by
    rw [Multiset.mem_toFinset, mem_roots hF0]
    exact (hS r hr).2
  have hle : F.roots.toFinset.card ≤ S.card :=
    ((Multiset.toFinset_card_le _).trans (card_roots' F)).trans (hdeg.le.trans hcard)
  have heq := Finset.eq_of_subset_of_card_le hsub hle
  refine (hS (x i) ?_).1
  rw [heq, Multiset.mem_toFinset, mem_roots hF0]
  exact hroot i hi

section seminorm
variable {V : Type*} [AddCommGroup V] [Module ℝ V]

/-- The seminorm of a positive semidefinite form. -/
noncomputable def formNorm (B : V →ₗ[ℝ] V →ₗ[ℝ] ℝ) (hsym : ∀ x y, B x y = B y x) (hpos : ∀ x, 0 ≤ B x x) : Seminorm ℝ V :=
  Seminorm.of (fun x => √(B x x))
    (by
      intro x y
      have hcs : B x y ^ 2 ≤ B x x * B y y := by
        have := LinearMap.BilinForm.apply_mul_apply_le_of_forall_zero_le B hpos x y
        rwa [hsym y x, ← pow_two] at this
      have h1 : B x y ≤ √(B x x) * √(B y y) := by
        rw [← Real.sqrt_mul (hpos x)]
        exact Real.le_sqrt_of_sq_le hcs
      apply Real.sqrt_le_iff.mpr
      refine ⟨by positivity, ?_⟩
      rw [add_sq, Real.sq_sqrt (hpos x), Real.sq_sqrt (hpos y)]
      simp only [map_add, LinearMap.add_apply]
      rw [hsym y x]
      linarith)
    (by
      intro a x
      simp only [map_smul, LinearMap.smul_apply, smul_eq_mul]
      rw [← mul_assoc, ← pow_two, Real.sqrt_mul (sq_nonneg a), Real.sqrt_sq_eq_abs, Real.norm_eq_abs])

lemma formNorm_apply (B : V →ₗ[ℝ] V →ₗ[ℝ] ℝ) (hsym : ∀ x y, B x y = B y x) (hpos : ∀ x, 0 ≤ B x x) (x : V) : formNorm B hsym hpos x = √(B x x) := rfl

/-- Powers of an operator that moves `w k` close to `w (k+1)`. -/
lemma power_close (N : Seminorm ℝ V) (L : V →ₗ[ℝ] V) {Λ : ℝ} (hL : ∀ x, N (L x) ≤ Λ * N x) (w : ℕ → V) {δ : ℝ} {q : ℕ} (hΛ : 0 ≤ Λ)
    (hw : ∀ k < q, N (L (w k) - w (k + 1)) ≤ δ) : ∀ m ≤ q, N ((L ^ m) (w 0) - w m) ≤ (∑ j ∈ Finset.range m, Λ ^ j) * δ := by
  intro m
  induction m with
  | zero => intro _; simp
  | succ m ih =>
    intro hm
    have h1 : (L ^ (m + 1)) (w 0) - w (m + 1) = L ((L ^ m) (w 0) - w m) + (L (w m) - w (m + 1)) := by
      rw [pow_succ', Module.End.mul_apply, map_sub]
      abel
    rw [h1]
    refine (map_add_le_add N _ _).trans ?_
    have h2 := (hL ((L ^ m) (w 0) - w m)).trans (mul_le_mul_of_nonneg_left (ih (by omega)) hΛ)
    have h3 := hw m (by omega)
    have h4 : ∑ j ∈ Finset.range (m + 1), Λ ^ j = Λ * ∑ j ∈ Finset.range m, Λ ^ j + 1 := by
      rw [Finset.sum_range_succ', Finset.mul_sum, pow_zero]
      congr 1
      exact Finset.sum_congr rfl fun j _ => by rw [pow_succ']
    rw [h4]
    linarith

/-- A Taylor step of the operator against the Taylor sum of the `w k`. -/
lemma taylor_close (N : Seminorm ℝ V) (L : V →ₗ[ℝ] V) {Λ : ℝ} (hL : ∀ x, N (L x) ≤ Λ * N x) (w : ℕ → V) {δ : ℝ} {q : ℕ} (hΛ : 0 ≤ Λ) (hδ : 0 ≤ δ)
    (hw : ∀ k < q, N (L (w k) - w (k + 1)) ≤ δ) {h H : ℝ} (h0 : 0 ≤ h) (hH : h ≤ H) (hH1 : 1 ≤ H) (hhΛ : h * Λ ≤ 1) :
    N (∑ m ∈ Finset.range (q + 1), (h ^ m / m.factorial) • (L ^ m) (w 0) - ∑ m ∈ Finset.range (q + 1), (h ^ m / m.factorial) • w m) ≤
      h * ((q + 1) ^ 2 * H ^ q * δ) := by
  rw [← Finset.sum_sub_distrib]
  refine (Finset.le_sum_of_subadditive N (map_zero N).le (map_add_le_add N) _ _).trans ?_
  have hterm : ∀ m ∈ Finset.range (q + 1), N ((h ^ m / m.factorial) • (L ^ m) (w 0) - (h ^ m / m.factorial) • w m) ≤ h * ((q + 1) * H ^ q * δ) := by
    intro m hm
    rw [Finset.mem_range] at hm
    rw [← smul_sub, map_smul_eq_mul, Real.norm_of_nonneg (by positivity)]
    have h1 := power_close N L hL w hΛ hw m (by omega)
    have hf : (1 : ℝ) ≤ m.factorial := by exact_mod_cast Nat.one_le_iff_ne_zero.mpr (Nat.factorial_ne_zero m)
    have h2 : h ^ m / m.factorial ≤ h ^ m := div_le_self (by positivity) hf
    have h3 : h ^ m * ∑ j ∈ Finset.range m, Λ ^ j ≤ h * ((q + 1) * H ^ q) := by
      rw [Finset.mul_sum]
      have : ∀ j ∈ Finset.range m, h ^ m * Λ ^ j ≤ h * H ^ q := by
        intro j hj
        rw [Finset.mem_range] at hj
        have e : h ^ m * Λ ^ j = h * (h ^ (m - 1 - j) * (h * Λ) ^ j) := by
          rw [mul_pow, ← mul_assoc, ← mul_assoc, ← pow_succ', ← pow_add]
          congr 2
          omega
        rw [e]
        refine mul_le_mul_of_nonneg_left ?_ h0
        have a1 : h ^ (m - 1 - j) ≤ H ^ q := (pow_le_pow_left₀ h0 hH _).trans (pow_le_pow_right₀ hH1 (by omega))
        have a2 : (h * Λ) ^ j ≤ 1 := pow_le_one₀ (by positivity) hhΛ
        calc h ^ (m - 1 - j) * (h * Λ) ^ j ≤ H ^ q * 1 := mul_le_mul a1 a2 (by positivity) (by positivity)
          _ = H ^ q := mul_one _
      refine (Finset.sum_le_sum this).trans ?_
      rw [Finset.sum_const, Finset.card_range, nsmul_eq_mul]
      have hmq : (m : ℝ) ≤ q + 1 := by exact_mod_cast (by omega : m ≤ q + 1)
      have : 0 ≤ h * H ^ q := by positivity
      nlinarith
    calc h ^ m / m.factorial * N ((L ^ m) (w 0) - w m) ≤ h ^ m * ((∑ j ∈ Finset.range m, Λ ^ j) * δ) :=
          mul_le_mul h2 h1 (apply_nonneg N _) (by positivity)
      _ = (h ^ m * ∑ j ∈ Finset.range m, Λ ^ j) * δ := by ring
      _ ≤ (h * ((q + 1) * H ^ q)) * δ := mul_le_mul_of_nonneg_right h3 hδ
      _ = _ := by ring
  refine (Finset.sum_le_sum hterm).trans ?_
  rw [Finset.sum_const, Finset.card_range, nsmul_eq_mul]
  push_cast
  exact le_of_eq (by ring)

end seminorm

section
variable {s : Sol ℝ} {lib : GaussLib ℝ} {p : ℕ}

/-- Weak form of the advection operator on a periodic mesh. -/
lemma advLin_weak (hb : s.Built lib p) (hk : s.kw = Advection.physics) (hen : s.enhance = none)
    (hl : s.bcl = .lit "periodic") (hr : s.bcr = .lit "periodic") {f : ℕ} (hf : f < s.NF) (v : ℕ → ℕ → ℝ) {n : ℕ} (hn : n < p + 1) {e : ℕ} (h1 : 1 ≤ e) (h2 : e ≤ s.NE) :
    s.dx / 2 * (2 / (2 * (n : ℝ) + 1)) * advLin s hb.wf v n (e * s.NF + f) =
      intPoly (derivative (legendre ℝ n) * legSeries (p + 1) fun k => v k (e * s.NF + f)) -
        ((legSeries (p + 1) fun k => v k (e * s.NF + f)).eval 1 -
          (legSeries (p + 1) fun k => v k ((if e = 1 then s.NE else e - 1) * s.NF + f)).eval 1 * (-1) ^ n) := by
  obtain ⟨F, hF, hv⟩ := advLin_residual hb.wf hk hen v
  have hlike := withVal_like s v
  have hB := hlike.built hb
  obtain ⟨F', hF', hval⟩ := Props.C13_advection hB hk hen
  rw [hF] at hF'
  cases hF'
  rw [hv] at hval
  set w := (s.withVal v).applyBc.u.val with hw
  have hrows : (s.withVal v).applyBc.u.rows = p + 1 := by rw [(applyBc_shape _).1, hB.rows]
  have hset := applyBc_setup (s.withVal v)
  have hU : ∀ e, cellPoly (s.withVal v).applyBc e f = legSeries (p + 1) fun n => w n (e * s.NF + f) := by
    intro e
    unfold cellPoly
    rw [hrows, hset.NF]
    rfl
  have hint : ∀ e, 1 ≤ e → e ≤ s.NE → ∀ n, w n (e * s.NF + f) = v n (e * s.NF + f) := by
    intro e h1 h2 n
    rw [hw, hlike.applyBc_val hb.wf, bcCol_interior s h1 h2 hf]
    rfl
  have h0 : ∀ r, w r (0 * s.NF + f) = w r (s.NE * s.NF + f) := by
    intro r
    have := (periodic_cells (s := s.withVal v) hb.wf.NF hb.wf.NE hb.wf.cols (by rw [show (s.withVal v).bcl = _ from hl]; exact ⟨rfl, rfl⟩)
      (by rw [show (s.withVal v).bcr = _ from hr]; exact ⟨rfl, rfl⟩) r (f := f) hf).1
    rw [show (s.withVal v).NF = s.NF from rfl, show (s.withVal v).NE = s.NE from rfl, ← hw] at this
    rw [this]
  have h3 := hval n hn e h1 h2 f hf
  rw [hU, hU, show (s.withVal v).NF = s.NF from rfl, show (s.withVal v).dx = s.dx from rfl, legendre_eval_one, legendre_eval_neg_one, mul_one] at h3
  rw [h3]
  have e1 : (fun k => w k (e * s.NF + f)) = fun k => v k (e * s.NF + f) := by funext k; exact hint e h1 h2 k
  have e2 : (fun k => w k ((e - 1) * s.NF + f)) = fun k => v k ((if e = 1 then s.NE else e - 1) * s.NF + f) := by
    funext k
    by_cases he : e = 1
    · rw [if_pos he, he, Nat.sub_self, h0, hint _ (by omega) le_rfl]
    · rw [if_neg he, hint _ (by omega) (by omega)]
  rw [e1, e2]

/-- Projection of `v` on every cell (all fields), exact at the right ends. -/
noncomputable def radArr (s : Sol ℝ) (p : ℕ) (A : ℝ) (v : ℝ → ℝ) : ℕ → ℕ → ℝ := fun n c => rad p (cellFn v (A + (((c / s.NF : ℕ) : ℝ) - 1) * s.dx) s.dx) n

lemma radArr_val (hb : s.Built lib p) {f : ℕ} (hf : f < s.NF) (A : ℝ) (v : ℝ → ℝ) (n e : ℕ) :
    radArr s p A v n (e * s.NF + f) = rad p (cellFn v (A + ((e : ℝ) - 1) * s.dx) s.dx) n := by
  unfold radArr
  rw [show (e * s.NF + f) / s.NF = e by rw [mul_comm, Nat.mul_add_div hb.NF, Nat.div_eq_of_lt hf, add_zero]]

/-- The scheme maps the projection of `v` to the Legendre coefficients of `-v'`. -/
lemma advLin_rad (hb : s.Built lib p) (hk : s.kw = Advection.physics) (hen : s.enhance = none)
    (hl : s.bcl = .lit "periodic") (hr : s.bcr = .lit "periodic") (hdx : 0 < s.dx) {f : ℕ} (hf : f < s.NF) (A : ℝ) {v v' : ℝ → ℝ}
    (hv : ∀ y, HasDerivAt v (-(v' y)) y) (hv' : Continuous v') (hper : ∀ y, v (y + s.NE * s.dx) = v y)
    {n : ℕ} (hn : n < p + 1) {e : ℕ} (h1 : 1 ≤ e) (h2 : e ≤ s.NE) :
    advLin s hb.wf (radArr s p A v) n (e * s.NF + f) = legCoef (cellFn v' (A + ((e : ℝ) - 1) * s.dx) s.dx) n := by
  have hw := advLin_weak hb hk hen hl hr hf (radArr s p A v) hn h1 h2
  simp only [radArr_val hb hf] at hw
  set a := A + ((e : ℝ) - 1) * s.dx with ha
  have hvc : Continuous v := continuous_iff_continuousAt.mpr fun y => (hv y).continuousAt
  have hgc : Continuous (cellFn v a s.dx) := hvc.comp (by fun_prop)
  rw [rad_pair hgc hn, rad_one, rad_one] at hw
  have hprev : cellFn v (A + (((if e = 1 then s.NE else e - 1 : ℕ) : ℝ) - 1) * s.dx) s.dx 1 = cellFn v a s.dx (-1) := by
    unfold cellFn
    by_cases he : e = 1
    · rw [if_pos he, ← hper (a + s.dx / 2 * (1 + -1))]
      congr 1
      rw [ha, he]
      push_cast
      ring
    · rw [if_neg he, Nat.cast_sub h1, ha]
      congr 1
      push_cast
      ring
  rw [hprev] at hw
  have hgd : ∀ ξ, HasDerivAt (cellFn v a s.dx) (-(s.dx / 2 * cellFn v' a s.dx ξ)) ξ := by
    intro ξ
    have h3 : HasDerivAt (fun ξ : ℝ => a + s.dx / 2 * (1 + ξ)) (s.dx / 2 * 1) ξ := (((hasDerivAt_id ξ).const_add 1).const_mul (s.dx / 2)).const_add a
    have := (hv (a + s.dx / 2 * (1 + ξ))).comp ξ h3
    exact this.congr_deriv (by unfold cellFn; ring)
  have hgc' : Continuous fun ξ => -(s.dx / 2 * cellFn v' a s.dx ξ) := ((hv'.comp (by fun_prop)).const_mul (s.dx / 2)).neg
  rw [parts hgd hgc' n] at hw
  have hi : ∫ ξ in (-1 : ℝ)..1, -(s.dx / 2 * cellFn v' a s.dx ξ) * (legendre ℝ n).eval ξ = -(s.dx / 2) * ∫ ξ in (-1 : ℝ)..1, cellFn v' a s.dx ξ * (legendre ℝ n).eval ξ := by
    rw [← intervalIntegral.integral_const_mul]
    congr 1
    funext ξ
    ring
  rw [hi] at hw
  have hpos := weight_pos (K := ℝ) n
  have h5 : s.dx / 2 * (2 / (2 * (n : ℝ) + 1)) * advLin s hb.wf (radArr s p A v) n (e * s.NF + f) =
      s.dx / 2 * (2 / (2 * (n : ℝ) + 1)) * legCoef (cellFn v' a s.dx) n := by
    rw [hw]
    unfold legCoef
    field_simp
    ring
  exact mul_left_cancel₀ (by positivity) h5

/-- Energy norm of arrays (field `f`, interior cells). -/
noncomputable def enorm (s : Sol ℝ) (p f : ℕ) (hdx : 0 ≤ s.dx) : Seminorm ℝ (ℕ → ℕ → ℝ) :=
  formNorm ((s.dx / 2) • cellForm s p f)
    (fun x y => by simp only [LinearMap.smul_apply, smul_eq_mul]; rw [cellForm_symm])
    (fun x => by simp only [LinearMap.smul_apply, smul_eq_mul]; exact mul_nonneg (by linarith) (cellForm_nonneg s p f x))

lemma enorm_sq (s : Sol ℝ) (p f : ℕ) (hdx : 0 ≤ s.dx) (x : ℕ → ℕ → ℝ) : enorm s p f hdx x ^ 2 = s.dx / 2 * cellForm s p f x x := by
  unfold enorm
  rw [formNorm_apply, Real.sq_sqrt]
  · simp only [LinearMap.smul_apply, smul_eq_mul]
  · simp only [LinearMap.smul_apply, smul_eq_mul]
    exact mul_nonneg (by linarith) (cellForm_nonneg s p f x)

lemma enorm_le_of_sq {hdx : 0 ≤ s.dx} {f : ℕ} {x : ℕ → ℕ → ℝ} {c : ℝ} (hc : 0 ≤ c) (h : s.dx / 2 * cellForm s p f x x ≤ c ^ 2) : enorm s p f hdx x ≤ c :=
  (pow_le_pow_iff_left₀ (apply_nonneg _ _) hc two_ne_zero).mp (by rw [enorm_sq]; exact h)

/-- Entries of size `κ` give a norm of at most `√(length (p+1)) κ`. -/
lemma enorm_entries (hdx : 0 ≤ s.dx) {f : ℕ} {x : ℕ → ℕ → ℝ} {κ : ℝ} (hκ : 0 ≤ κ)
    (h : ∀ n < p + 1, ∀ e, 1 ≤ e → e ≤ s.NE → |x n (e * s.NF + f)| ≤ κ) : enorm s p f hdx x ≤ √(s.NE * s.dx * (p + 1)) * κ := by
  refine enorm_le_of_sq (by positivity) ?_
  rw [mul_pow, Real.sq_sqrt (by positivity), cellForm_apply]
  have h1 : ∑ e ∈ Finset.Icc 1 s.NE, ∑ n ∈ Finset.range (p + 1), 2 / (2 * (n : ℝ) + 1) * (x n (e * s.NF + f) * x n (e * s.NF + f)) ≤
      ∑ e ∈ Finset.Icc 1 s.NE, ∑ n ∈ Finset.range (p + 1), 2 * κ ^ 2 := by
    refine Finset.sum_le_sum fun e he => Finset.sum_le_sum fun n hn => ?_
    rw [Finset.mem_Icc] at he
    have h2 : x n (e * s.NF + f) * x n (e * s.NF + f) ≤ κ ^ 2 := by
      rw [← pow_two, ← sq_abs]
      exact pow_le_pow_left₀ (abs_nonneg _) (h n (Finset.mem_range.mp hn) e he.1 he.2) 2
    have h3 : 2 / (2 * (n : ℝ) + 1) ≤ 2 := div_le_self (by norm_num) (by linarith [(Nat.cast_nonneg n : (0 : ℝ) ≤ n)])
    exact mul_le_mul h3 h2 (mul_self_nonneg _) (by norm_num)
  refine (mul_le_mul_of_nonneg_left h1 (by linarith)).trans_eq ?_
  simp only [Finset.sum_const, Nat.card_Icc, Finset.card_range, nsmul_eq_mul, Nat.add_sub_cancel]
  push_cast
  ring

lemma enorm_congr (hdx : 0 ≤ s.dx) {f : ℕ} {x y : ℕ → ℕ → ℝ}
    (h : ∀ n < p + 1, ∀ e, 1 ≤ e → e ≤ s.NE → x n (e * s.NF + f) = y n (e * s.NF + f)) : enorm s p f hdx x = enorm s p f hdx y := by
  have : enorm s p f hdx x ^ 2 = enorm s p f hdx y ^ 2 := by
    rw [enorm_sq, enorm_sq, cellForm_apply, cellForm_apply]
    congr 1
    refine Finset.sum_congr rfl fun e he => Finset.sum_congr rfl fun n hn => ?_
    rw [Finset.mem_Icc] at he
    rw [h n (Finset.mem_range.mp hn) e he.1 he.2]
  exact (pow_left_inj₀ (apply_nonneg _ _) (apply_nonneg _ _) two_ne_zero).mp this

lemma enorm_advLin (hb : s.Built lib p) (hk : s.kw = Advection.physics) (hen : s.enhance = none)
    (hl : s.bcl = .lit "periodic") (hr : s.bcr = .lit "periodic") (hdx : 0 < s.dx) {f : ℕ} (hf : f < s.NF) (x : ℕ → ℕ → ℝ) :
    enorm s p f hdx.le (advLin s hb.wf x) ≤ 3 * ((p : ℝ) + 1) ^ 2 / s.dx * enorm s p f hdx.le x := by
  refine enorm_le_of_sq (mul_nonneg (by positivity) (apply_nonneg _ _)) ?_
  have h := advLin_bound hb hk hen hl hr hf x
  rw [mul_pow, enorm_sq, div_pow]
  have h2 : cellForm s p f (advLin s hb.wf x) (advLin s hb.wf x) ≤ (3 * ((p : ℝ) + 1) ^ 2) ^ 2 * cellForm s p f x x / s.dx ^ 2 := by
    rw [le_div_iff₀ (by positivity), mul_comm]
    exact h
  refine (mul_le_mul_of_nonneg_left h2 (by linarith : 0 ≤ s.dx / 2)).trans_eq ?_
  ring

end

/-- The travelling wave and its time derivatives. -/
noncomputable def wave (u0 : ℝ → ℝ) (t : ℝ) (k : ℕ) (x : ℝ) : ℝ := (-1) ^ k * iteratedDeriv k u0 (x - t)

lemma wave_zero (u0 : ℝ → ℝ) (t x : ℝ) : wave u0 t 0 x = u0 (x - t) := by simp [wave]

lemma wave_continuous {u0 : ℝ → ℝ} {m : ℕ} (hu : ContDiff ℝ m u0) (t : ℝ) {k : ℕ} (hk : k ≤ m) : Continuous (wave u0 t k) := by
  unfold wave
  exact continuous_const.mul ((hu.continuous_iteratedDeriv k (by exact_mod_cast hk)).comp (by fun_prop))

lemma wave_deriv {u0 : ℝ → ℝ} {m : ℕ} (hu : ContDiff ℝ m u0) (t : ℝ) {k : ℕ} (hk : k < m) (x : ℝ) : HasDerivAt (wave u0 t k) (-(wave u0 t (k + 1) x)) x := by
  have h1 : HasDerivAt (iteratedDeriv k u0) (iteratedDeriv (k + 1) u0 (x - t)) (x - t) := by
    rw [iteratedDeriv_succ]
    exact (hu.differentiable_iteratedDeriv k (by exact_mod_cast hk) (x - t)).hasDerivAt
  have h2 := (h1.comp x ((hasDerivAt_id x).sub_const t)).const_mul ((-1 : ℝ) ^ k)
  refine h2.congr_deriv ?_
  unfold wave
  rw [pow_succ]
  ring

lemma iteratedDeriv_periodic {u0 : ℝ → ℝ} {P : ℝ} (hper : ∀ y, u0 (y + P) = u0 y) (k : ℕ) (y : ℝ) : iteratedDeriv k u0 (y + P) = iteratedDeriv k u0 y := by
  have h := congrFun (iteratedDeriv_comp_add_const (𝕜 := ℝ) k u0 P) y
  rw [← h]
  congr 1
  funext z
  exact hper z

lemma wave_periodic {u0 : ℝ → ℝ} {P : ℝ} (hper : ∀ y, u0 (y + P) = u0 y) (t : ℝ) (k : ℕ) (x : ℝ) : wave u0 t k (x + P) = wave u0 t k x := by
  unfold wave
  rw [show x + P - t = (x - t) + P by ring, iteratedDeriv_periodic hper]

lemma wave_iter {u0 : ℝ → ℝ} (t : ℝ) (k j : ℕ) (x : ℝ) : iteratedDeriv j (wave u0 t k) x = (-1) ^ k * iteratedDeriv (k + j) u0 (x - t) := by
  unfold wave
  have h1 : iteratedDeriv j (fun x => iteratedDeriv k u0 (x - t)) x = iteratedDeriv (k + j) u0 (x - t) := by
    have := congrFun (iteratedDeriv_comp_add_const (𝕜 := ℝ) j (iteratedDeriv k u0) (-t)) x
    simp only [← sub_eq_add_neg] at this
    rw [this, iteratedDeriv_eq_iterate, iteratedDeriv_eq_iterate, iteratedDeriv_eq_iterate, add_comm, Function.iterate_add_apply]
  rw [iteratedDeriv_const_mul_field, h1]

lemma wave_contDiff {u0 : ℝ → ℝ} {m : ℕ} (t : ℝ) (k : ℕ) (hu : ContDiff ℝ (k + m : ℕ) u0) : ContDiff ℝ m (wave u0 t k) := by
  unfold wave
  refine contDiff_const.mul ?_
  have : ContDiff ℝ m (iteratedDeriv k u0) := by
    rw [iteratedDeriv_eq_iterate]
    exact ContDiff.iterate_deriv' m k (by exact_mod_cast (show ContDiff ℝ ((m + k : ℕ)) u0 by rwa [add_comm]))
  exact this.comp (contDiff_id.sub contDiff_const)

/-- A periodic continuous function is bounded. -/
lemma periodic_bounded {v : ℝ → ℝ} (hv : Continuous v) {P : ℝ} (hP : 0 < P) (hper : ∀ y, v (y + P) = v y) : ∃ M, ∀ y, |v y| ≤ M := by
  obtain ⟨M, hM⟩ := isCompact_Icc.exists_bound_of_continuousOn (s := Set.Icc (0 : ℝ) P) hv.continuousOn
  refine ⟨M, fun y => ?_⟩
  obtain ⟨z, hz, he⟩ := (show Function.Periodic v P from hper).exists_mem_Ico₀ hP y
  rw [he]
  exact hM z ⟨hz.1, hz.2.le⟩

/-- One bound for the derivatives up to order `m`. -/
lemma derivs_bounded {u0 : ℝ → ℝ} {m : ℕ} (hu : ContDiff ℝ m u0) {P : ℝ} (hP : 0 < P) (hper : ∀ y, u0 (y + P) = u0 y) :
    ∃ M, 0 ≤ M ∧ ∀ k ≤ m, ∀ y, |iteratedDeriv k u0 y| ≤ M := by
  choose! M hM using fun k (hk : k ≤ m) => periodic_bounded (hu.continuous_iteratedDeriv k (by exact_mod_cast hk)) hP (iteratedDeriv_periodic hper k)
  refine ⟨∑ k ∈ Finset.range (m + 1), |M k|, Finset.sum_nonneg fun _ _ => abs_nonneg _, fun k hk y => ?_⟩
  exact ((hM k hk y).trans (le_abs_self _)).trans
    (Finset.single_le_sum (f := fun k => |M k|) (fun _ _ => abs_nonneg _) (Finset.mem_range.mpr (Nat.lt_succ_of_le hk)))

section
variable {p q : ℕ} {u0 : ℝ → ℝ}

/-- Consistency of the scheme with the travelling wave, with constants that depend on the order only: the operator maps the projected
time derivatives to the next ones up to `R M dx^(p+1)`, and the Taylor sum in time is accurate to `R M h^(q+1)`. -/
lemma consistency (p q : ℕ) : ∃ R : ℝ, 1 ≤ R ∧ ∀ {s : Sol ℝ} {lib : GaussLib ℝ} (hb : s.Built lib p) (_ : s.kw = Advection.physics) (_ : s.enhance = none)
    (_ : s.bcl = .lit "periodic") (_ : s.bcr = .lit "periodic") (hdx : 0 < s.dx) (f : ℕ) (_ : f < s.NF) (A : ℝ) (u0 : ℝ → ℝ)
    (_ : ContDiff ℝ (p + 1 + q : ℕ) u0) (_ : ∀ y, u0 (y + s.NE * s.dx) = u0 y) (M : ℝ) (_ : ∀ k ≤ p + 1 + q, ∀ y, |iteratedDeriv k u0 y| ≤ M),
    (∀ t, ∀ k < q, enorm s p f hdx.le (advLin s hb.wf (radArr s p A (wave u0 t k)) - radArr s p A (wave u0 t (k + 1))) ≤
      √(s.NE * s.dx * (p + 1)) * (R * (M * s.dx ^ (p + 1)))) ∧
    (∀ t h, 0 ≤ h → enorm s p f hdx.le (radArr s p A (wave u0 (t + h) 0) - ∑ k ∈ Finset.range (q + 1), (h ^ k / k.factorial) • radArr s p A (wave u0 t k)) ≤
      √(s.NE * s.dx * (p + 1)) * (R * (M * h ^ (q + 1)))) ∧
    (∀ t, ∀ e, 1 ≤ e → e ≤ s.NE → ∀ ξ ∈ Set.Icc (-1 : ℝ) 1,
      |(legSeries (p + 1) fun n => radArr s p A (wave u0 t 0) n (e * s.NF + f)).eval ξ - cellFn (wave u0 t 0) (A + ((e : ℝ) - 1) * s.dx) s.dx ξ| ≤
        R * (M * s.dx ^ (p + 1))) := by
  obtain ⟨R1, hR1, hnear⟩ := near_poly p
  obtain ⟨R2, hR2, hcoef⟩ := coef_bounds p
  refine ⟨max R1 R2, le_max_of_le_left hR1, ?_⟩
  intro s lib hb hk hen hl hr hdx f hf A u0 hu hper M hM
  have hM0 : 0 ≤ M := (abs_nonneg _).trans (hM 0 (Nat.zero_le _) 0)
  have htay : ∀ t, ∀ k ≤ q, ∀ a, ∃ Q : ℝ[X], Q.degree < (p + 1 : ℕ) ∧ ∀ ξ ∈ Set.Icc (-1 : ℝ) 1, |cellFn (wave u0 t k) a s.dx ξ - Q.eval ξ| ≤ M * s.dx ^ (p + 1) := by
    intro t k hkq a
    refine taylor_cell (wave_contDiff t k (hu.of_le (by exact_mod_cast (by omega : k + (p + 1) ≤ p + 1 + q)))) (fun y => ?_) a hdx
    rw [wave_iter, abs_mul, abs_pow, abs_neg, abs_one, one_pow, one_mul]
    exact hM _ (by omega) _
  have hwc : ∀ t, ∀ k ≤ q, ∀ a, Continuous (cellFn (wave u0 t k) a s.dx) := fun t k hkq a => (wave_continuous hu t (by omega)).comp (by fun_prop)
  refine ⟨?_, ?_, ?_⟩
  · intro t k hkq
    refine enorm_entries hdx.le (by positivity) ?_
    intro n hn e h1 h2
    show |advLin s hb.wf (radArr s p A (wave u0 t k)) n (e * s.NF + f) - radArr s p A (wave u0 t (k + 1)) n (e * s.NF + f)| ≤ _
    rw [advLin_rad hb hk hen hl hr hdx hf A (fun y => wave_deriv hu t (by omega) y) (wave_continuous hu t (by omega)) (wave_periodic hper t k) hn h1 h2, radArr_val hb hf]
    obtain ⟨Q, hQ1, hQ2⟩ := htay t (k + 1) (by omega) (A + ((e : ℝ) - 1) * s.dx)
    exact ((hnear _ Q _ (hwc t (k + 1) (by omega) _) hQ1 hQ2).1 n hn).trans (mul_le_mul_of_nonneg_right (le_max_left _ _) (by positivity))
  · intro t h h0
    refine enorm_entries hdx.le (by positivity) ?_
    intro n hn e h1 h2
    have hval : (radArr s p A (wave u0 (t + h) 0) - ∑ k ∈ Finset.range (q + 1), (h ^ k / k.factorial) • radArr s p A (wave u0 t k)) n (e * s.NF + f) =
        rad p (fun ξ => cellFn (wave u0 (t + h) 0) (A + ((e : ℝ) - 1) * s.dx) s.dx ξ -
          ∑ k ∈ Finset.range (q + 1), h ^ k / k.factorial * cellFn (wave u0 t k) (A + ((e : ℝ) - 1) * s.dx) s.dx ξ) n := by
      have hc : ∀ k ∈ Finset.range (q + 1), Continuous fun ξ => h ^ k / k.factorial * cellFn (wave u0 t k) (A + ((e : ℝ) - 1) * s.dx) s.dx ξ :=
        fun k hk' => continuous_const.mul (hwc t k (by rw [Finset.mem_range] at hk'; omega) _)
      rw [rad_sub p (hwc (t + h) 0 (by omega) _) (continuous_finsetSum _ hc), rad_sum p _ hc]
      simp only [rad_const_mul, Pi.sub_apply, Finset.sum_apply, Pi.smul_apply, smul_eq_mul, radArr_val hb hf]
    rw [hval]
    refine ((hcoef _ (M * h ^ (q + 1)) (fun ξ _ => ?_) n hn).2).trans (mul_le_mul_of_nonneg_right (le_max_right _ _) (by positivity))
    have := taylor_time (hu.of_le (by exact_mod_cast (by omega : q + 1 ≤ p + 1 + q))) (hM (q + 1) (by omega)) (A + ((e : ℝ) - 1) * s.dx + s.dx / 2 * (1 + ξ) - t) h0
    unfold cellFn
    rw [wave_zero]
    simp only [wave]
    rw [show A + ((e : ℝ) - 1) * s.dx + s.dx / 2 * (1 + ξ) - (t + h) = A + ((e : ℝ) - 1) * s.dx + s.dx / 2 * (1 + ξ) - t - h by ring]
    exact this
  · intro t e h1 h2 ξ hξ
    simp only [radArr_val hb hf]
    obtain ⟨Q, hQ1, hQ2⟩ := htay t 0 (by omega) (A + ((e : ℝ) - 1) * s.dx)
    exact ((hnear _ Q _ (hwc t 0 (by omega) _) hQ1 hQ2).2 ξ hξ).trans (mul_le_mul_of_nonneg_right (le_max_left _ _) (by positivity))

end

end Dg1d.Approx
