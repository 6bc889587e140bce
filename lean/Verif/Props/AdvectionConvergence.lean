import Verif.Proofs.AdvConv
import Verif.Spec.L2Error
import Verif.Props.Convergence

/-! # Linear advection: the runs converge to the exact solution of the equation (C78) -/

set_option linter.unusedSectionVars false

open Polynomial Dg1d.Spec Dg1d.Approx

namespace Dg1d.Props

section
variable {s : Sol ℝ} {lib : GaussLib ℝ} {p : ℕ}

lemma mesh_edges {A B : ℝ} {N : ℕ} {x xc : ℕ → ℝ} {dx : ℝ} (hm : IsUniformMesh A B N x xc dx) : ∀ e ≤ N, x e = A + e * dx := by
  intro e
  induction e with
  | zero => intro _; rw [hm.first]; push_cast; ring
  | succ e ih =>
    intro he
    have := hm.spacing e (by omega)
    have h2 := ih (by omega)
    push_cast
    linarith

/-- The error integral cell by cell in local coordinates. -/
lemma l2Error_sq {A B : ℝ} (hm : IsUniformMesh A B s.NE s.x.val s.xc.val s.dx) (hdx : 0 < s.dx) (f : ℕ) (u : ℝ → ℝ) :
    l2Error s f u = √(∑ e ∈ Finset.Icc 1 s.NE, s.dx / 2 *
      ∫ ξ in (-1 : ℝ)..1, ((cellPoly s e f).eval ξ - cellFn u (A + ((e : ℝ) - 1) * s.dx) s.dx ξ) ^ 2) := by
  unfold l2Error
  congr 1
  refine Finset.sum_congr rfl fun e he => ?_
  rw [Finset.mem_Icc] at he
  have he1 : ((e - 1 : ℕ) : ℝ) = (e : ℝ) - 1 := by rw [Nat.cast_sub he.1]; simp
  have h1 : s.x.val (e - 1) = A + ((e : ℝ) - 1) * s.dx := by rw [mesh_edges hm _ (by omega), he1]
  have h2 : s.x.val e = A + (e : ℝ) * s.dx := mesh_edges hm _ he.2
  have h3 : s.xc.val (e - 1) = A + ((e : ℝ) - 1) * s.dx + s.dx / 2 := by
    rw [hm.centre _ (by omega), Nat.sub_add_cancel he.1, h1, h2]
    ring
  have hsub := intervalIntegral.integral_comp_mul_add (a := -1) (b := 1)
    (fun x => ((cellPoly s e f).eval (2 * (x - s.xc.val (e - 1)) / s.dx) - u x) ^ 2) (c := s.dx / 2) (by positivity) (A + ((e : ℝ) - 1) * s.dx + s.dx / 2)
  have e1 : s.dx / 2 * -1 + (A + ((e : ℝ) - 1) * s.dx + s.dx / 2) = s.x.val (e - 1) := by rw [h1]; ring
  have e2 : s.dx / 2 * 1 + (A + ((e : ℝ) - 1) * s.dx + s.dx / 2) = s.x.val e := by rw [h2]; ring
  rw [e1, e2, smul_eq_mul] at hsub
  have h4 : ∫ x in s.x.val (e - 1)..s.x.val e, ((cellPoly s e f).eval (2 * (x - s.xc.val (e - 1)) / s.dx) - u x) ^ 2 =
      s.dx / 2 * ∫ ξ in (-1 : ℝ)..1, ((cellPoly s e f).eval (2 * (s.dx / 2 * ξ + (A + ((e : ℝ) - 1) * s.dx + s.dx / 2) - s.xc.val (e - 1)) / s.dx) -
        u (s.dx / 2 * ξ + (A + ((e : ℝ) - 1) * s.dx + s.dx / 2))) ^ 2 := by
    rw [hsub, ← mul_assoc, mul_inv_cancel₀ (by positivity), one_mul]
  rw [h4]
  congr 1
  refine intervalIntegral.integral_congr fun ξ _ => ?_
  simp only [cellFn]
  rw [h3, show 2 * (s.dx / 2 * ξ + (A + ((e : ℝ) - 1) * s.dx + s.dx / 2) - (A + ((e : ℝ) - 1) * s.dx + s.dx / 2)) / s.dx = ξ by field_simp; ring,
    show s.dx / 2 * ξ + (A + ((e : ℝ) - 1) * s.dx + s.dx / 2) = A + ((e : ℝ) - 1) * s.dx + s.dx / 2 * (1 + ξ) by ring]

/-- From the coefficients to the error: `‖u_h - u‖ ≤ 2 (‖u_h - P u‖ + √length η)` when `P u` is within `η` of `u`. -/
lemma l2Error_le (hb : s.Built lib p) {a : Sol ℝ} (ha : Like a s) {A B : ℝ} (hm : IsUniformMesh A B s.NE s.x.val s.xc.val s.dx) (hdx : 0 < s.dx) {f : ℕ}
    {u : ℝ → ℝ} (hu : Continuous u) (w : ℕ → ℕ → ℝ) {η : ℝ} (h0 : 0 ≤ η)
    (hw : ∀ e, 1 ≤ e → e ≤ s.NE → ∀ ξ ∈ Set.Icc (-1 : ℝ) 1,
      |(legSeries (p + 1) fun n => w n (e * s.NF + f)).eval ξ - cellFn u (A + ((e : ℝ) - 1) * s.dx) s.dx ξ| ≤ η) :
    l2Error a f u ≤ 2 * (enorm s p f hdx.le (a.u.val - w) + √(s.NE * s.dx) * η) := by
  have hm' : IsUniformMesh A B a.NE a.x.val a.xc.val a.dx := by rw [ha.setup.NE, ha.setup.x, ha.setup.xc, ha.setup.dx]; exact hm
  rw [l2Error_sq hm' (by rw [ha.setup.dx]; exact hdx), ha.setup.NE, ha.setup.dx]
  have hn := apply_nonneg (enorm s p f hdx.le) (a.u.val - w)
  apply Real.sqrt_le_iff.mpr
  refine ⟨by positivity, ?_⟩
  have hcell : ∀ e ∈ Finset.Icc 1 s.NE, s.dx / 2 * ∫ ξ in (-1 : ℝ)..1, ((cellPoly a e f).eval ξ - cellFn u (A + ((e : ℝ) - 1) * s.dx) s.dx ξ) ^ 2 ≤
      2 * (s.dx / 2 * ∑ n ∈ Finset.range (p + 1), 2 / (2 * (n : ℝ) + 1) * ((a.u.val - w) n (e * s.NF + f) * (a.u.val - w) n (e * s.NF + f))) + 2 * s.dx * η ^ 2 := by
    intro e he
    rw [Finset.mem_Icc] at he
    have hpoly : cellPoly a e f = legSeries (p + 1) fun n => a.u.val n (e * s.NF + f) := by
      unfold cellPoly
      rw [ha.rows, hb.rows, ha.setup.NF]
    set d : ℝ[X] := legSeries (p + 1) fun n => (a.u.val - w) n (e * s.NF + f) with hd
    have hdiff : ∀ ξ, (cellPoly a e f).eval ξ = d.eval ξ + (legSeries (p + 1) fun n => w n (e * s.NF + f)).eval ξ := by
      intro ξ
      rw [hpoly, hd, legSeries_eval, legSeries_eval, legSeries_eval, ← Finset.sum_add_distrib]
      exact Finset.sum_congr rfl fun n _ => by simp only [Pi.sub_apply]; ring
    have hgc : Continuous (cellFn u (A + ((e : ℝ) - 1) * s.dx) s.dx) := hu.comp (by fun_prop)
    have hle : ∫ ξ in (-1 : ℝ)..1, ((cellPoly a e f).eval ξ - cellFn u (A + ((e : ℝ) - 1) * s.dx) s.dx ξ) ^ 2 ≤ ∫ ξ in (-1 : ℝ)..1, (2 * (d * d).eval ξ + 2 * η ^ 2) := by
      refine intervalIntegral.integral_mono_on (by norm_num) ?_ ?_ ?_
      · exact (((cellPoly a e f).continuous.sub hgc).pow 2).intervalIntegrable _ _
      · exact ((continuous_const.mul (d * d).continuous).add continuous_const).intervalIntegrable _ _
      · intro ξ hξ
        have h1 := hw e he.1 he.2 ξ hξ
        have h2 : ((legSeries (p + 1) fun n => w n (e * s.NF + f)).eval ξ - cellFn u (A + ((e : ℝ) - 1) * s.dx) s.dx ξ) ^ 2 ≤ η ^ 2 := by
          rw [← sq_abs]
          exact pow_le_pow_left₀ (abs_nonneg _) h1 2
        rw [hdiff, eval_mul]
        set X := d.eval ξ
        set Y := (legSeries (p + 1) fun n => w n (e * s.NF + f)).eval ξ - cellFn u (A + ((e : ℝ) - 1) * s.dx) s.dx ξ with hY
        rw [show X + (legSeries (p + 1) fun n => w n (e * s.NF + f)).eval ξ - cellFn u (A + ((e : ℝ) - 1) * s.dx) s.dx ξ = X + Y by rw [hY]; ring]
        nlinarith [sq_nonneg (X - Y)]
    have hval : ∫ ξ in (-1 : ℝ)..1, (2 * (d * d).eval ξ + 2 * η ^ 2) = 2 * intPoly (d * d) + 4 * η ^ 2 := by
      rw [intervalIntegral.integral_add (f := fun ξ => 2 * (d * d).eval ξ) (g := fun _ => 2 * η ^ 2)
        ((continuous_const.mul (d * d).continuous).intervalIntegrable _ _) (continuous_const.intervalIntegrable _ _),
        intervalIntegral.integral_const_mul, integral_eq_intPoly, intervalIntegral.integral_const, smul_eq_mul]
      ring
    rw [hval, hd, intPoly_sq] at hle
    refine (mul_le_mul_of_nonneg_left hle (by positivity)).trans_eq ?_
    ring
  refine (Finset.sum_le_sum hcell).trans ?_
  rw [Finset.sum_add_distrib, ← Finset.mul_sum, ← Finset.mul_sum, ← cellForm_apply, ← enorm_sq s p f hdx.le, Finset.sum_const, Nat.card_Icc, Nat.add_sub_cancel,
    nsmul_eq_mul]
  have h5 : √(s.NE * s.dx) ^ 2 = s.NE * s.dx := Real.sq_sqrt (by positivity)
  have h6 : 0 ≤ enorm s p f hdx.le (a.u.val - w) * (√(s.NE * s.dx) * η) := by positivity
  nlinarith [sq_nonneg (enorm s p f hdx.le (a.u.val - w)), sq_nonneg (√(s.NE * s.dx) * η)]

/-- The third order Taylor step does not increase the norm. -/
lemma taylor3_enorm (hb : s.Built lib p) (hk : s.kw = Advection.physics) (hen : s.enhance = none)
    (hl : s.bcl = .lit "periodic") (hr : s.bcr = .lit "periodic") (hdx : 0 < s.dx) {f : ℕ} (hf : f < s.NF) {h : ℝ} (h0 : 0 ≤ h)
    (h1 : 3 * ((p : ℝ) + 1) ^ 2 * h ≤ s.dx) (v : ℕ → ℕ → ℝ) :
    enorm s p f hdx.le (∑ m ∈ Finset.range (3 + 1), (h ^ m / (m.factorial : ℝ)) • (advLin s hb.wf ^ m) v) ≤ enorm s p f hdx.le v := by
  refine enorm_le_of_sq (apply_nonneg _ _) ?_
  rw [enorm_sq]
  refine mul_le_mul_of_nonneg_left ?_ (by linarith)
  have hsum : ∑ m ∈ Finset.range (3 + 1), (h ^ m / (m.factorial : ℝ)) • (advLin s hb.wf ^ m) v =
      v + h • advLin s hb.wf v + (h ^ 2 / 2) • advLin s hb.wf (advLin s hb.wf v) + (h ^ 3 / 6) • advLin s hb.wf (advLin s hb.wf (advLin s hb.wf v)) := by
    simp only [Finset.sum_range_succ, Finset.sum_range_zero, zero_add, pow_zero, Nat.factorial, Nat.cast_one, div_one, one_smul,
      Module.End.one_apply, pow_succ, Module.End.mul_apply, one_mul, mul_one]
    norm_num
  rw [hsum]
  exact advLin_taylor3 hb hk hen hl hr hdx hf h h0 h1 v

/-- One step: the error grows by at most the step times the consistency error. -/
lemma one_step (hb : s.Built lib p) (hk : s.kw = Advection.physics) (hen : s.enhance = none)
    (hl : s.bcl = .lit "periodic") (hr : s.bcr = .lit "periodic") (hdx : 0 < s.dx) {f : ℕ} (hf : f < s.NF) {dt h δ κ H : ℝ} (h0 : 0 ≤ dt) (hd : dt ≤ h)
    (h1 : 3 * ((p : ℝ) + 1) ^ 2 * dt ≤ s.dx) (hH1 : 1 ≤ H) (hH : s.dx ≤ H) (hδ : 0 ≤ δ) (hκ : 0 ≤ κ) (v : ℕ → ℕ → ℝ) (w : ℕ → ℕ → ℕ → ℝ) (w' : ℕ → ℕ → ℝ)
    (c1 : ∀ k < 3, enorm s p f hdx.le (advLin s hb.wf (w k) - w (k + 1)) ≤ δ)
    (c2 : enorm s p f hdx.le (w' - ∑ k ∈ Finset.range (3 + 1), (dt ^ k / (k.factorial : ℝ)) • w k) ≤ κ * dt ^ 4) :
    enorm s p f hdx.le ((∑ m ∈ Finset.range (3 + 1), (dt ^ m / (m.factorial : ℝ)) • (advLin s hb.wf ^ m) v) - w') ≤
      enorm s p f hdx.le (v - w 0) + dt * (16 * H ^ 3 * δ + κ * h ^ 3) := by
  have t1 := taylor3_enorm hb hk hen hl hr hdx hf h0 h1 (v - w 0)
  have t2 := taylor_close (enorm s p f hdx.le) (advLin s hb.wf) (Λ := 3 * ((p : ℝ) + 1) ^ 2 / s.dx) (enorm_advLin hb hk hen hl hr hdx hf) w (q := 3)
    (by positivity) hδ c1 h0 (H := H) (by
      refine le_trans ?_ hH
      have : (1 : ℝ) ≤ 3 * ((p : ℝ) + 1) ^ 2 := by nlinarith [(Nat.cast_nonneg p : (0 : ℝ) ≤ p)]
      nlinarith) hH1 (by
      rw [← mul_div_assoc, div_le_one hdx, mul_comm]
      exact h1)
  generalize enorm s p f hdx.le = N at *
  have hlin : ∑ m ∈ Finset.range (3 + 1), (dt ^ m / (m.factorial : ℝ)) • (advLin s hb.wf ^ m) (v - w 0) =
      ∑ m ∈ Finset.range (3 + 1), (dt ^ m / (m.factorial : ℝ)) • (advLin s hb.wf ^ m) v -
      ∑ m ∈ Finset.range (3 + 1), (dt ^ m / (m.factorial : ℝ)) • (advLin s hb.wf ^ m) (w 0) := by
    simp only [map_sub, smul_sub, Finset.sum_sub_distrib]
  rw [hlin] at t1
  generalize ∑ m ∈ Finset.range (3 + 1), (dt ^ m / (m.factorial : ℝ)) • (advLin s hb.wf ^ m) v = X at *
  generalize ∑ m ∈ Finset.range (3 + 1), (dt ^ m / (m.factorial : ℝ)) • (advLin s hb.wf ^ m) (w 0) = Y at *
  generalize ∑ m ∈ Finset.range (3 + 1), (dt ^ m / (m.factorial : ℝ)) • w m = Z at *
  have t3 : κ * dt ^ 4 ≤ dt * (κ * h ^ 3) := by
    have hp : dt ^ 3 ≤ h ^ 3 := pow_le_pow_left₀ h0 hd 3
    have := mul_le_mul_of_nonneg_left hp (mul_nonneg hκ h0)
    calc κ * dt ^ 4 = κ * dt * dt ^ 3 := by ring
      _ ≤ κ * dt * h ^ 3 := this
      _ = _ := by ring
  have t4 := map_add_le_add N (X - Y) ((Y - Z) + -(w' - Z))
  have t5 := map_add_le_add N (Y - Z) (-(w' - Z))
  rw [map_neg_eq_map] at t5
  rw [show X - Y + (Y - Z + -(w' - Z)) = X - w' by abel] at t4
  norm_num at t2
  rw [mul_add]
  linarith

/-- Adding up the constants. -/
lemma bound_const {S R R' M T H Q D h3 E N L t : ℝ} (hS : 0 ≤ S) (hR : 0 ≤ R) (hR' : 0 ≤ R') (hM : 0 ≤ M) (hT : 0 ≤ T) (hH : 0 ≤ H) (hQ : 0 ≤ Q) (hD : 0 ≤ D)
    (hh : 0 ≤ h3) (ht : t ≤ T) (hN : N ≤ S * (R' * (M * D)) + t * (16 * H ^ 3 * (S * (R * (M * D))) + S * (R * M) * h3)) (hE : E ≤ 2 * (N + L)) (hL : L ≤ Q * (R * (M * D))) :
    E ≤ 2 * (S * (R' * M) + T * (16 * H ^ 3 * (S * (R * M)) + S * (R * M)) + Q * (R * M)) * (D + h3) := by
  have h1 : t * (16 * H ^ 3 * (S * (R * (M * D))) + S * (R * M) * h3) ≤ T * (16 * H ^ 3 * (S * (R * (M * D))) + S * (R * M) * h3) :=
    mul_le_mul_of_nonneg_right ht (by positivity)
  have a1 : 0 ≤ S * (R' * M) * h3 := by positivity
  have a2 : 0 ≤ T * (16 * H ^ 3 * (S * (R * M))) * h3 := by positivity
  have a3 : 0 ≤ T * (S * (R * M)) * D := by positivity
  have a4 : 0 ≤ Q * (R * M) * h3 := by positivity
  have e : 2 * (S * (R' * M) + T * (16 * H ^ 3 * (S * (R * M)) + S * (R * M)) + Q * (R * M)) * (D + h3) =
      2 * (S * (R' * (M * D)) + T * (16 * H ^ 3 * (S * (R * (M * D))) + S * (R * M) * h3) + Q * (R * (M * D))) +
      2 * (S * (R' * M) * h3 + T * (16 * H ^ 3 * (S * (R * M))) * h3 + T * (S * (R * M)) * D + Q * (R * M) * h3) := by ring
  rw [e]
  linarith

/-- Any sequence of solutions that starts from the interpolant of `u0` and stands still or takes third order Taylor steps of at most `h` stays
close to the travelling wave. -/
lemma taylor_sequence (hlib : lib.Ok) (p : ℕ) (u0 : ℝ → ℝ) (hu : ContDiff ℝ (p + 4 : ℕ) u0) (A P T : ℝ) (hP : 0 < P) (hper : ∀ y, u0 (y + P) = u0 y) (hT : 0 ≤ T) :
    ∃ C : ℝ, 0 ≤ C ∧ ∀ (s : Sol ℝ) (hb : s.Built lib p), s.kw = Advection.physics → s.enhance = none → s.bcl = .lit "periodic" → s.bcr = .lit "periodic" →
      IsUniformMesh A (A + P) s.NE s.x.val s.xc.val s.dx → ∀ (hdx : 0 < s.dx), ∀ f < s.NF,
      (∀ e, 1 ≤ e → e ≤ s.NE → ∀ g < p + 1, (cellPoly s e f).eval ((lib (p + 1)).1.val g) = u0 (physPoint (s.x.val (e - 1)) (s.x.val e) ((lib (p + 1)).1.val g))) →
      ∀ (h : ℝ), 0 ≤ h → 3 * ((p : ℝ) + 1) ^ 2 * h ≤ s.dx → ∀ (a : ℕ → Sol ℝ) (τ : ℕ → ℝ), Like (a 0) s → (a 0).u.val = s.u.val → τ 0 = 0 →
      ∀ (K : ℕ), (∀ k ≤ K, τ k ≤ T) →
      (∀ k < K, Like (a k) s → ((a (k + 1)).u = (a k).u ∧ Like (a (k + 1)) s ∧ τ (k + 1) = τ k) ∨
        ∃ dt, 0 ≤ dt ∧ dt ≤ h ∧ τ (k + 1) = τ k + dt ∧ Like (a (k + 1)) s ∧ ∀ n, ∀ e, 1 ≤ e → e ≤ s.NE → (a (k + 1)).u.val n (e * s.NF + f) =
          (∑ m ∈ Finset.range (3 + 1), (dt ^ m / (m.factorial : ℝ)) • (advLin s hb.wf ^ m) (a k).u.val) n (e * s.NF + f)) →
      ∀ k ≤ K, Like (a k) s ∧
        enorm s p f hdx.le ((a k).u.val - radArr s p A (Approx.wave u0 (τ k) 0)) ≤ C * (s.dx ^ (p + 1) + h ^ 3) ∧
        l2Error (a k) f (fun x => u0 (x - τ k)) ≤ C * (s.dx ^ (p + 1) + h ^ 3) := by
  have hu' : ContDiff ℝ (p + 1 + 3 : ℕ) u0 := hu
  obtain ⟨M, hM0, hM⟩ := derivs_bounded hu' hP hper
  obtain ⟨R, hR1, hcons⟩ := consistency p 3
  obtain ⟨-, -, hG⟩ := hlib (p + 1) (Nat.succ_pos p)
  obtain ⟨R', hR0, hquad⟩ := near_poly_quad hG (fun g hg => Set.Ioo_subset_Icc_self (gauss_nodes hG hg))
  set S := √(P * (p + 1)) with hS
  set H := max 1 P with hH
  have hH1 : 1 ≤ H := le_max_left _ _
  set C1 := S * (R' * M) + T * (16 * H ^ 3 * (S * (R * M)) + S * (R * M)) + √P * (R * M) with hC1
  have hC0 : 0 ≤ C1 := by positivity
  refine ⟨2 * C1, by positivity, ?_⟩
  intro s hb hk hen hl hr hm hdx f hf hinit h hh0 hhdx a τ ha0 hv0 hτ0 K hτT hsteps
  have hNE : (0 : ℝ) < s.NE := by exact_mod_cast hb.NE
  have hlen : s.NE * s.dx = P := by rw [hm.width]; field_simp; ring
  have hdxP : s.dx ≤ P := by
    rw [← hlen]
    have : (1 : ℝ) ≤ s.NE := by exact_mod_cast hb.NE
    nlinarith
  have hper' : ∀ y, u0 (y + s.NE * s.dx) = u0 y := by rw [hlen]; exact hper
  obtain ⟨c1, c2, c3⟩ := hcons hb hk hen hl hr hdx f hf A u0 hu' hper' M hM
  rw [hlen] at c1 c2
  rw [← hS] at c1 c2
  set N := enorm s p f hdx.le with hN
  set w := fun t k => radArr s p A (Approx.wave u0 t k) with hw
  set Q := 16 * H ^ 3 * (S * (R * (M * s.dx ^ (p + 1)))) + S * (R * M) * h ^ 3 with hQ
  have hQ0 : 0 ≤ Q := by positivity
  -- initial error
  have hE0 : N (s.u.val - w 0 0) ≤ S * (R' * (M * s.dx ^ (p + 1))) := by
    rw [hS, ← hlen]
    refine enorm_entries hdx.le (by positivity) ?_
    intro n hn e h1 h2
    show |s.u.val n (e * s.NF + f) - radArr s p A (Approx.wave u0 0 0) n (e * s.NF + f)| ≤ _
    rw [radArr_val hb hf]
    have hc : Continuous (cellFn (Approx.wave u0 0 0) (A + ((e : ℝ) - 1) * s.dx) s.dx) := (wave_continuous hu' 0 (by omega)).comp (by fun_prop)
    obtain ⟨Q, hQ1, hQ2⟩ := taylor_cell (p := p) (wave_contDiff (m := p + 1) 0 0 (hu.of_le (by exact_mod_cast (by omega : 0 + (p + 1) ≤ p + 4)))) (M := M) (fun y => by
      rw [wave_iter, pow_zero, one_mul]
      exact hM _ (by omega) _) (A + ((e : ℝ) - 1) * s.dx) hdx
    refine hquad _ Q _ hc hQ1 hQ2 (fun n => s.u.val n (e * s.NF + f)) ?_ n hn
    intro g hg
    have h3 := hinit e h1 h2 g hg
    unfold cellPoly at h3
    rw [hb.rows] at h3
    rw [h3]
    unfold cellFn physPoint
    rw [wave_zero, sub_zero, mesh_edges hm _ h2, mesh_edges hm _ (by omega), Nat.cast_sub h1]
    congr 1
    push_cast
    ring
  -- error at all times
  have hall : ∀ k ≤ K, Like (a k) s ∧ 0 ≤ τ k ∧ N ((a k).u.val - w (τ k) 0) ≤ S * (R' * (M * s.dx ^ (p + 1))) + τ k * Q := by
    intro k
    induction k with
    | zero =>
      intro _
      rw [hτ0, hv0, zero_mul, add_zero]
      exact ⟨ha0, le_rfl, hE0⟩
    | succ k ih =>
      intro hkK
      obtain ⟨hlike, hτp, hE⟩ := ih (by omega)
      rcases hsteps k (by omega) hlike with ⟨hidle, hl', hτ'⟩ | ⟨dt, h0, hd, hτ', hl1, hval⟩
      · rw [hidle, hτ']
        exact ⟨hl', hτp, hE⟩
      refine ⟨hl1, by rw [hτ']; linarith, ?_⟩
      have hddx : 3 * ((p : ℝ) + 1) ^ 2 * dt ≤ s.dx := (mul_le_mul_of_nonneg_left hd (by positivity)).trans hhdx
      rw [hτ']
      have hstep := one_step hb hk hen hl hr hdx hf h0 hd hddx hH1 (hdxP.trans (le_max_right _ _)) (δ := S * (R * (M * s.dx ^ (p + 1)))) (κ := S * (R * M))
        (by positivity) (by positivity) (a k).u.val (w (τ k)) (w (τ k + dt) 0) (c1 (τ k)) ((c2 (τ k) dt h0).trans_eq (by ring))
      have hcong : N ((a (k + 1)).u.val - w (τ k + dt) 0) =
          N ((∑ m ∈ Finset.range (3 + 1), (dt ^ m / (m.factorial : ℝ)) • (advLin s hb.wf ^ m) (a k).u.val) - w (τ k + dt) 0) := by
        refine enorm_congr hdx.le fun n hn e h1 h2 => ?_
        exact congrArg (· - w (τ k + dt) 0 n (e * s.NF + f)) (hval n e h1 h2)
      rw [hcong]
      refine hstep.trans ?_
      rw [add_mul, ← add_assoc]
      exact add_le_add_left hE _
  intro k hkK
  obtain ⟨hlike, -, hE⟩ := hall k hkK
  have hwave : (fun x => u0 (x - τ k)) = Approx.wave u0 (τ k) 0 := by funext x; rw [wave_zero]
  rw [hwave]
  have hfin := l2Error_le hb hlike hm hdx (f := f) (wave_continuous hu' (τ k) (by omega)) (w (τ k) 0) (η := R * (M * s.dx ^ (p + 1)))
    (by positivity) (c3 (τ k))
  have hN0 : 0 ≤ N ((a k).u.val - w (τ k) 0) := apply_nonneg _ _
  have hfin' : N ((a k).u.val - w (τ k) 0) ≤ 2 * (N ((a k).u.val - w (τ k) 0) + 0) := by linarith
  exact ⟨hlike, bound_const (by positivity) (by linarith) hR0 hM0 hT (by linarith) (Real.sqrt_nonneg P) (by positivity) (by positivity) (hτT k hkK) hE hfin' (by positivity),
    bound_const (by positivity) (by linarith) hR0 hM0 hT (by linarith) (Real.sqrt_nonneg P) (by positivity) (by positivity) (hτT k hkK) hE hfin (by rw [hlen])⟩

/-- **C78 (convergence to the exact solution).** Let `u0` be periodic with period `P` and `p + 4` times continuously differentiable. For the
order `p` and the time `T` there is one constant `C` such that for every number of cells, every CFL number of at most `(2p+1) / (3 (p+1)²)`,
every final time up to `T` and every number of outputs, the run of linear advection with 'rk3' (no limiter, no enhancement, periodic
boundaries) from the interpolant of `u0` at the Gauss nodes is, at each output, within `C (dx^(p+1) + h³)` of `u0 (x - t)` in `L²`, where
`h = dx cfl / (2p+1)` is the time step. -/
theorem C78_convergence (hlib : lib.Ok) (p : ℕ) (u0 : ℝ → ℝ) (hu : ContDiff ℝ (p + 4 : ℕ) u0) (A P T : ℝ) (hP : 0 < P) (hper : ∀ y, u0 (y + P) = u0 y) (hT : 0 ≤ T) :
    ∃ C : ℝ, 0 ≤ C ∧ ∀ (s : Sol ℝ), s.Built lib p → s.kw = Advection.physics → s.enhance = none → s.bcl = .lit "periodic" → s.bcr = .lit "periodic" →
      IsUniformMesh A (A + P) s.NE s.x.val s.xc.val s.dx → ∀ f < s.NF,
      (∀ e, 1 ≤ e → e ≤ s.NE → ∀ g < p + 1, (cellPoly s e f).eval ((lib (p + 1)).1.val g) = u0 (physPoint (s.x.val (e - 1)) (s.x.val e) ((lib (p + 1)).1.val g))) →
      ∀ (lim : Sol ℝ → Except PyErr (Sol ℝ)), (∀ a, lim a = .ok a) → ∀ (deck : RkDeck ℝ), deck.rk = "rk3" →
      0 ≤ deck.cfl → deck.cfl ≤ (2 * p + 1) / (3 * (p + 1) ^ 2) → s.t ≤ deck.finaltime → deck.finaltime ≤ s.t + T →
      ∀ k, ∀ o ∈ (integrate ⟨residual, lim⟩ deck s k).log,
        l2Error o.sol f (fun x => u0 (x - (o.sol.t - s.t))) ≤ C * (s.dx ^ (p + 1) + (s.dx * deck.cfl / (2 * p + 1)) ^ 3) := by
  obtain ⟨C, hC, key⟩ := taylor_sequence hlib p u0 hu A P T hP hper hT
  refine ⟨C, hC, ?_⟩
  intro s hb hk hen hl hr hm f hf hinit lim hlim deck hrk hcfl0 hcfl ht hTd k₀ o ho
  have hNE : (0 : ℝ) < s.NE := by exact_mod_cast hb.NE
  have hdx : 0 < s.dx := by rw [hm.width]; exact div_pos (by linarith) hNE
  set h := s.dx * deck.cfl / (2 * (p : ℝ) + 1) with hh
  have hh0 : 0 ≤ h := by positivity
  have hhdx : 3 * ((p : ℝ) + 1) ^ 2 * h ≤ s.dx := by
    have hpos : (0 : ℝ) < 2 * p + 1 := by positivity
    have hpos2 : (0 : ℝ) < 3 * (p + 1) ^ 2 := by positivity
    rw [le_div_iff₀ hpos2] at hcfl
    rw [hh, ← mul_div_assoc, div_le_iff₀ hpos]
    nlinarith
  have hkc := keepsClock_off hlim
  set run := fun k => integrate ⟨residual, lim⟩ deck s k with hrun
  have h00 : (run 0).sol = s := integrate_zero_sol _ deck s
  obtain ⟨k, -, hok⟩ := log_states hkc deck s k₀ o ho
  rw [hok]
  refine (key s hb hk hen hl hr hm hdx f hf hinit h hh0 hhdx (fun k => (run k).sol) (fun k => (run k).sol.t - s.t) (by rw [h00]; exact Like.refl s) (by rw [h00])
    (by rw [h00, sub_self]) k (fun k _ => ?_) (fun k _ hlike => ?_) k le_rfl).2.2
  · have : (run k).sol.t ≤ deck.finaltime := (timeInv_run hkc (schemeFor deck.rk) deck s ht k).hi
    show (run k).sol.t - s.t ≤ T
    linarith
  · rcases iteration_cases (env := ⟨residual, lim⟩) (deck := deck) (s := s) (k := k) with hidle | ⟨hr', dt, o', d, hdt⟩
    · have hidle : (run (k + 1)).sol = (run k).sol := hidle
      simp only [hidle]
      exact .inl ⟨trivial, hlike, trivial⟩
    right
    obtain ⟨htt, hl1, hval⟩ := advection_step hb hk hen hlim deck (by rw [hrk]; simp) k hlike hr' hdt
    have htt : (run (k + 1)).sol.t = (run k).sol.t + dt := htt
    rw [show promisedOrder deck.rk = 3 by rw [hrk]; rfl] at hval
    have hinv := timeInv_run hkc (schemeFor deck.rk) deck s ht k
    have hinv' : (run k).sol.t ≤ deck.finaltime ∧ (run k).sol.t ≤ (run k).tout := ⟨hinv.hi, (hinv.run hr').2.2.2.2.1⟩
    refine ⟨dt, ?_, ?_, ?_, hl1, fun n e h1 h2 => hval n e h1 h2 f hf⟩
    · rcases getNext_cases hdt with ⟨-, -, h⟩ | ⟨-, -, h, -⟩ | ⟨-, -, h, -⟩
      · have : dt = deck.finaltime - (run k).sol.t := h
        linarith [hinv'.1]
      · have : dt = (run k).tout - (run k).sol.t := h
        linarith [hinv'.2]
      · exact le_trans (by positivity) h
    · have hd := advection_dt (hlike.setup.kw.trans hk) hdt
      rw [hlike.setup.dx, hlike.setup.basis, show s.basis.p = p by rw [hb.basis]; rfl] at hd
      exact hd
    · show (run (k + 1)).sol.t - s.t = (run k).sol.t - s.t + dt
      rw [htt]; ring

/-- **C78 (the limit is the solution of the equation).** `u0 (x - t)` is the only classical solution of `u_t + u_x = 0` that starts from `u0`. -/
theorem C78_solution {u0 : ℝ → ℝ} (hu : Differentiable ℝ u0) (U : ℝ → ℝ → ℝ) : SolvesAdvection U u0 ↔ U = fun t x => u0 (x - t) := by
  constructor
  · intro h
    funext t x
    have hd : ∀ r : ℝ, HasDerivAt (fun r => U r (x - t + r)) 0 r := by
      intro r
      have hF := (h.smooth (r, x - t + r)).hasFDerivAt
      set F := fderiv ℝ (fun q : ℝ × ℝ => U q.1 q.2) (r, x - t + r)
      have e1 : HasDerivAt (fun r' => U r' (x - t + r)) (F (1, 0)) r :=
        hF.comp_hasDerivAt (f := fun r' => (r', x - t + r)) r ((hasDerivAt_id r).prodMk (hasDerivAt_const r _))
      have e2 : HasDerivAt (fun y => U r y) (F (0, 1)) (x - t + r) :=
        hF.comp_hasDerivAt (f := fun y => (r, y)) (x - t + r) ((hasDerivAt_const _ r).prodMk (hasDerivAt_id _))
      have e3 : HasDerivAt (fun r' => U r' (x - t + r')) (F (1, 1)) r :=
        hF.comp_hasDerivAt (f := fun r' => (r', x - t + r')) r ((hasDerivAt_id r).prodMk ((hasDerivAt_id r).const_add _))
      have h1 := h.equation r (x - t + r)
      rw [e1.deriv, e2.deriv, ← map_add] at h1
      rw [show ((1 : ℝ), (0 : ℝ)) + (0, 1) = (1, 1) by simp] at h1
      rw [h1] at e3
      exact e3
    have hc := is_const_of_deriv_eq_zero (fun r => (hd r).differentiableAt) (fun r => (hd r).deriv) t 0
    simp only [sub_add_cancel, add_zero] at hc
    rw [hc, h.init]
  · rintro rfl
    have hq : Differentiable ℝ fun q : ℝ × ℝ => u0 (q.2 - q.1) := hu.comp (differentiable_snd.sub differentiable_fst)
    refine ⟨fun x => by rw [sub_zero], hq, fun t x => ?_⟩
    have e1 : HasDerivAt (fun r => u0 (x - r)) (deriv u0 (x - t) * -1) t :=
      (hu (x - t)).hasDerivAt.comp t ((hasDerivAt_id t).const_sub x)
    have e2 : HasDerivAt (fun y => u0 (y - t)) (deriv u0 (x - t) * 1) x :=
      (hu (x - t)).hasDerivAt.comp x ((hasDerivAt_id x).sub_const t)
    rw [e1.deriv, e2.deriv]
    ring

end

section
variable {lib : GaussLib ℝ}
open Text

/-- **C78 from the deck.** The sine wave of the program: for each order and time `T` there is one constant `C` such that with any number `N` of
cells, `rk3`, no limiter, no enhancement and a CFL number of at most `(2p+1) / (3 (p+1)²)`, all the outputs up to time `T` are within
`C ((2/N)^(p+1) + h³)` of `sin (2π (x - t))`, with `h = (2/N) cfl / (2p+1)` the time step. -/
theorem C78_deck (hlib : lib.Ok) (p : ℕ) (T : ℝ) (hT : 0 ≤ T) :
    ∃ C : ℝ, 0 ≤ C ∧ ∀ (N : ℕ) (ft : FloatText ℝ) (junk : ℕ → ℝ) (d : Deck ℝ), ValidDeck lib ft d p N IC.sinewave → d.system ≠ "euler".toList →
      d.rk = "rk3".toList → d.limiting ≠ "adaptive_hr".toList → d.enhance = [] → 0 ≤ d.cfl → d.cfl ≤ (2 * p + 1) / (3 * (p + 1) ^ 2) →
      0 ≤ d.finaltime → d.finaltime ≤ T →
      ∃ s lm, start lib ft junk d = .ok (s, lm) ∧ ∀ k, ∀ o ∈ (integrate ⟨residual, lm.limit⟩ d.rkDeck s k).log,
        l2Error o.sol 0 (fun x => Real.sin (2 * Real.pi * (x - o.sol.t))) ≤ C * ((2 / N) ^ (p + 1) + (2 / N * d.cfl / (2 * p + 1)) ^ 3) := by
  obtain ⟨C, hC, key⟩ := C78_convergence hlib p (fun x => Real.sin (2 * Real.pi * x)) (by fun_prop) (-1) 2 T (by norm_num)
    (fun y => by
      rw [show 2 * Real.pi * (y + 2) = 2 * Real.pi * y + (2 : ℕ) * (2 * Real.pi) by push_cast; ring]
      exact Real.sin_add_nat_mul_two_pi _ _) hT
  refine ⟨C, hC, ?_⟩
  intro N ft junk d hd hsys hrk hlim hen hcfl0 hcfl ht0 htT
  obtain ⟨c, s, lm, hc, hst, S⟩ := C69_starts hlib junk hd
  refine ⟨s, lm, hst, ?_⟩
  intro k o ho
  have hl : ∀ a, lm.limit a = .ok a := by
    intro a
    have hne : String.ofList d.limiting ≠ "adaptive_hr" := by
      intro h
      apply hlim
      rw [← h, String.toList_ofList]
    obtain ⟨lm', h1, h2⟩ := C57_disabled (String.ofList d.limiting) hne s a
    rw [S.limiter] at h1
    cases h1
    exact h2
  have hs : s = c.sol.applyBc := S.unlimited hlim
  have henh : s.enhance = none := by
    have := S.enhance
    rw [hen] at this
    unfold enhancementOf at this
    rw [if_pos rfl] at this
    cases h : s.enhance with
    | none => rfl
    | some x => rw [h] at this; cases this
  have hmesh : IsUniformMesh (-1) (-1 + 2) s.NE s.x.val s.xc.val s.dx := by
    have := S.mesh
    rw [S.NE]
    norm_num
    exact this
  have hdx : s.dx = 2 / N := by
    rw [S.mesh.width]
    show ((1 : ℝ) - -1) / N = _
    norm_num
  have := key s S.built (S.physics.advection hsys).1 henh (by rw [S.bc.1]; rfl) (by rw [S.bc.2]; rfl) hmesh 0 S.built.NF ?_ lm.limit hl d.rkDeck
    (by show String.ofList d.rk = "rk3"; rw [hrk, String.ofList_toList]) hcfl0 hcfl (by rw [S.clock.1]; exact ht0) (by rw [S.clock.1, zero_add]; exact htT) k o ho
  · rw [S.clock.1, sub_zero, hdx] at this
    exact this
  · intro e h1 h2 g hg
    rw [S.NE] at h2
    obtain ⟨hx, -, hG⟩ := hlib (p + 1) (Nat.succ_pos p)
    obtain ⟨v, hv, hval⟩ := S.data (e - 1) (by omega) 0 S.kin.1.NF
    rw [Nat.sub_add_cancel h1, add_zero] at hval
    rw [Nat.sub_add_cancel h1, S.kin.1.basis] at hv
    obtain ⟨c', hc', -, hint, -⟩ := C24_projection lib p hx hG (c.sol.x.val (e - 1)) (c.sol.x.val e) (IC.sinewave.f (IC.sinewave.gamma.getD (7 / 5))) 0
      (fun x => Real.sin (2 * Real.pi * x)) (fun _ _ => rfl)
    rw [hv] at hc'
    cases hc'
    have h3 := hint g hg
    rw [← show s.x = c.sol.x from S.kin.2.like.setup.x] at h3
    rw [← h3]
    unfold cellPoly
    rw [S.built.rows]
    congr 2
    funext n
    rw [hs, (Like.refl c.sol).applyBc_val S.kin.1.wf, show c.sol.applyBc.NF = c.sol.NF from (Like.refl c.sol).applyBc.setup.NF,
      bcCol_interior c.sol h1 (by rw [S.same.2]; exact h2) S.kin.1.NF, add_zero]
    exact hval n

/-- **C78, the order.** In terms of the number of cells alone, the error of the sine wave is `O(N^-min(p+1, 3))`. -/
theorem C78_order (hlib : lib.Ok) (p : ℕ) (T : ℝ) (hT : 0 ≤ T) :
    ∃ C : ℝ, 0 ≤ C ∧ ∀ (N : ℕ) (ft : FloatText ℝ) (junk : ℕ → ℝ) (d : Deck ℝ), ValidDeck lib ft d p N IC.sinewave → d.system ≠ "euler".toList →
      d.rk = "rk3".toList → d.limiting ≠ "adaptive_hr".toList → d.enhance = [] → 0 ≤ d.cfl → d.cfl ≤ (2 * p + 1) / (3 * (p + 1) ^ 2) →
      0 ≤ d.finaltime → d.finaltime ≤ T →
      ∃ s lm, start lib ft junk d = .ok (s, lm) ∧ ∀ k, ∀ o ∈ (integrate ⟨residual, lm.limit⟩ d.rkDeck s k).log,
        l2Error o.sol 0 (fun x => Real.sin (2 * Real.pi * (x - o.sol.t))) ≤ C / N ^ min (p + 1) 3 := by
  obtain ⟨C, hC, key⟩ := C78_deck hlib p T hT
  refine ⟨C * (2 ^ (p + 1) + 2 ^ 3), by positivity, ?_⟩
  intro N ft junk d hd hsys hrk hlim hen hcfl0 hcfl ht0 htT
  obtain ⟨s, lm, hst, h⟩ := key N ft junk d hd hsys hrk hlim hen hcfl0 hcfl ht0 htT
  refine ⟨s, lm, hst, fun k o ho => (h k o ho).trans ?_⟩
  have hN : (1 : ℝ) ≤ N := by exact_mod_cast hd.cells
  have hN0 : (0 : ℝ) < N := by linarith
  rw [mul_div_assoc C]
  refine mul_le_mul_of_nonneg_left ?_ hC
  have hp0 : (0 : ℝ) ≤ p := Nat.cast_nonneg p
  have hh : 2 / (N : ℝ) * d.cfl / (2 * p + 1) ≤ 2 / N := by
    rw [le_div_iff₀ (by positivity)] at hcfl
    have hc1 : d.cfl ≤ 2 * p + 1 := by
      refine le_trans ?_ hcfl
      nlinarith [mul_nonneg hcfl0 hp0, mul_nonneg hcfl0 (mul_nonneg hp0 hp0)]
    rw [div_le_iff₀ (by positivity)]
    exact mul_le_mul_of_nonneg_left hc1 (by positivity)
  have hpow : ∀ q, min (p + 1) 3 ≤ q → (2 / (N : ℝ)) ^ q ≤ 2 ^ q / N ^ min (p + 1) 3 := by
    intro q hq
    rw [div_pow]
    exact div_le_div_of_nonneg_left (by positivity) (by positivity) (pow_le_pow_right₀ hN hq)
  have h1 := hpow (p + 1) (min_le_left _ _)
  have h2 := hpow 3 (min_le_right _ _)
  have h3 : (2 / (N : ℝ) * d.cfl / (2 * p + 1)) ^ 3 ≤ (2 / N) ^ 3 := pow_le_pow_left₀ (by positivity) hh 3
  rw [add_div]
  linarith

/-- The piecewise linear sine wave with 8 cells, CFL 1/5 and final time 1. -/
example : ∃ C : ℝ, ∃ s lm, start realGauss Ex.decReal (fun _ => 0) Ex.sine3 = .ok (s, lm) ∧ ∀ k, ∀ o ∈ (integrate ⟨residual, lm.limit⟩ Ex.sine3.rkDeck s k).log,
    l2Error o.sol 0 (fun x => Real.sin (2 * Real.pi * (x - o.sol.t))) ≤ C / 64 := by
  obtain ⟨C, -, h⟩ := C78_order realGauss_ok 1 1 (by norm_num)
  obtain ⟨s, lm, hst, h⟩ := h 8 _ (fun _ => 0) Ex.sine3 Ex.sine3_valid (show "advection".toList ≠ "euler".toList by decide) rfl
    (show ([] : Str) ≠ "adaptive_hr".toList by decide) rfl (show (0 : ℝ) ≤ 1 / 5 by norm_num)
    (show (1 / 5 : ℝ) ≤ (2 * (1 : ℕ) + 1) / (3 * ((1 : ℕ) + 1) ^ 2) by norm_num) (show (0 : ℝ) ≤ 1 by norm_num) (show (1 : ℝ) ≤ 1 by norm_num)
  refine ⟨C, s, lm, hst, fun k o ho => (h k o ho).trans_eq ?_⟩
  norm_num

/-- A smooth start for which the equation has the solution of `C78_solution`. -/
example : SolvesAdvection (fun t x => Real.sin (2 * Real.pi * (x - t))) (fun x => Real.sin (2 * Real.pi * x)) :=
  (C78_solution (by fun_prop) _).mpr rfl

end
end Dg1d.Props
