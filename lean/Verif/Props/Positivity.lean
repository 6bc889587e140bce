import Verif.Proofs.Positivity
import Verif.Props.Units

/-! # C89: positive density and pressure -/

set_option linter.unusedSectionVars false

open Polynomial Dg1d.Spec

namespace Dg1d.Props
open Text
variable {γ : ℝ} {riemann : Str} {s : Sol ℝ} {lib : GaussLib ℝ} {p : ℕ}

/-- The three conserved variables at the point `ξ` of cell `e`. -/
noncomputable def gasAt (s : Sol ℝ) (e : ℕ) (ξ : ℝ) : Fin 3 → ℝ := fun f => (cellPoly s e f).eval ξ

/-- The polynomial of a cell after the ghost cells have been filled is that of an interior cell. -/
lemma filled_cell (h : s.Built lib p) (hb : s.BcKnown) {e : ℕ} (he : e ≤ s.NE + 1) :
    ∃ e', 1 ≤ e' ∧ e' ≤ s.NE ∧ (1 ≤ e → e ≤ s.NE → e' = e) ∧
      ∀ f < s.NF, cellPoly (s.withVal s.applyBc.u.val) e f = cellPoly s e' f := by
  obtain ⟨e', h1, h2, h3⟩ := bc_cell hb h.NE e he
  refine ⟨e', h1, h2, fun a b => ?_, fun f hf => ?_⟩
  · have := h3 0 h.NF
    rw [bcCol_interior s a b h.NF] at this
    exact (Nat.eq_of_mul_eq_mul_right h.NF (by omega)).symm
  · unfold cellPoly
    show legSeries s.u.rows (fun n => s.applyBc.u.val n (e * s.NF + f)) = _
    simp only [applyBc_val h.NF h.NE h.cols, h3 f hf]

/-- The mean of the residual, from the fluxes of two physical states at either face. -/
lemma mean_residual (h : s.Built lib p) (hen : s.enhance = none) (hNF : s.NF = 3) {name : String} (ps : PhysSpec ℝ 3)
    (hk : s.kw = Euler.physics γ name) (hps : (Euler.physics γ name).Pointwise ps) (flux : Prim → Prim → Fin 3 → ℝ)
    (hok : ∀ wL wR : Prim, wL.Phys → wR.Phys → ¬ ps.fails (wL.cons γ) (wR.cons γ) ∧ ps.num (wL.cons γ) (wR.cons γ) = flux wL wR)
    (L R : ℕ → Prim) (hL : ∀ i ≤ s.NE, (L i).Phys ∧ gasAt (s.withVal s.applyBc.u.val) i 1 = (L i).cons γ)
    (hR : ∀ i ≤ s.NE, (R i).Phys ∧ gasAt (s.withVal s.applyBc.u.val) (i + 1) (-1) = (R i).cons γ) :
    ∃ s' F, residual s = .ok (s', F) ∧ ∀ e, 1 ≤ e → e ≤ s.NE → ∀ f : Fin 3,
      s.dx * F.val 0 (e * 3 + f) = flux (L (e - 1)) (R (e - 1)) f - flux (L e) (R e) f := by
  have hps' : s.kw.Pointwise (threeFields hNF ps) := threeFields_pointwise hNF (by rw [hk]; exact hps)
  have hl : ∀ i ≤ s.NE, (fun k => leftState (s.withVal s.applyBc.u.val) i (Fin.cast hNF.symm k)) = (L i).cons γ := fun i hi => by
    rw [← (hL i hi).2]
    funext k
    unfold leftState
    rw [show (s.withVal s.applyBc.u.val).enhance = none from hen]
    rfl
  have hr : ∀ i ≤ s.NE, (fun k => rightState (s.withVal s.applyBc.u.val) i (Fin.cast hNF.symm k)) = (R i).cons γ := fun i hi => by
    rw [← (hR i hi).2]
    funext k
    unfold rightState
    rw [show (s.withVal s.applyBc.u.val).enhance = none from hen]
    rfl
  have hfail := C13_residual_fails h _ hps'
  cases hres : residual s with
  | error err =>
    obtain ⟨i, hi, hf⟩ := hfail.1.mp ⟨err, hres⟩
    change ps.fails (fun k => leftState (s.withVal s.applyBc.u.val) i (Fin.cast hNF.symm k))
      (fun k => rightState (s.withVal s.applyBc.u.val) i (Fin.cast hNF.symm k)) at hf
    rw [hl i hi, hr i hi] at hf
    exact absurd hf (hok _ _ (hL i hi).1 (hR i hi).1).1
  | ok q =>
    obtain ⟨s', F⟩ := q
    refine ⟨s', F, rfl, fun e h1 h2 f => ?_⟩
    have hnum : ∀ i ≤ s.NE, (threeFields hNF ps).num (leftState (s.withVal s.applyBc.u.val) i) (rightState (s.withVal s.applyBc.u.val) i)
        (Fin.cast hNF.symm f) = flux (L i) (R i) f := fun i hi => by
      show ps.num (fun k => leftState (s.withVal s.applyBc.u.val) i (Fin.cast hNF.symm k))
        (fun k => rightState (s.withVal s.applyBc.u.val) i (Fin.cast hNF.symm k)) f = _
      rw [hl i hi, hr i hi, (hok _ _ (hL i hi).1 (hR i hi).1).2]
    have hW := (C13_weak_form h _ hps' s' F hres).2.2.2.2 0 (by omega) e h1 h2 (Fin.cast hNF.symm f)
    rw [hnum e h2, hnum (e - 1) (by omega)] at hW
    simp only [legendre_zero, derivative_one, eval_zero, mul_zero, zero_mul, Finset.sum_const_zero, zero_sub, eval_one,
      mul_one, Nat.cast_zero, zero_add, div_one, Fin.val_cast] at hW
    rw [show e * 3 + (f : ℕ) = e * s.NF + f by rw [hNF], show s.dx = s.dx / 2 * 2 by ring, hW]
    ring

/-- The states of the Rusanov flux. -/
lemma rusanov_ok (hγ : 1 < γ) (wL wR : Prim) (hL : wL.Phys) (hR : wR.Phys) :
    ¬ (Euler.rusanovSpec γ).fails (wL.cons γ) (wR.cons γ) ∧ (Euler.rusanovSpec γ).num (wL.cons γ) (wR.cons γ) = rusanovFlux γ wL wR :=
  ⟨not_not.mpr ⟨Euler.isReal_cons hγ hL, Euler.isReal_cons hγ hR⟩, Euler.rusanov1_cons hγ hL hR⟩

lemma roe_ok (hγ : 1 < γ) (wL wR : Prim) (hL : wL.Phys) (hR : wR.Phys) :
    ¬ (Euler.roeSpec γ).fails (wL.cons γ) (wR.cons γ) ∧ (Euler.roeSpec γ).num (wL.cons γ) (wR.cons γ) = roeFlux γ wL wR :=
  ⟨not_not.mpr (Euler.roeReal_cons hγ hL hR), Euler.roe1_cons hγ hL hR⟩

lemma gasAt_filled (h : s.Built lib p) (hb : s.BcKnown) (hNF : s.NF = 3) {e : ℕ} (he : e ≤ s.NE + 1) :
    ∃ e', 1 ≤ e' ∧ e' ≤ s.NE ∧ (1 ≤ e → e ≤ s.NE → e' = e) ∧ ∀ ξ, gasAt (s.withVal s.applyBc.u.val) e ξ = gasAt s e' ξ := by
  obtain ⟨e', h1, h2, h3, h4⟩ := filled_cell h hb he
  exact ⟨e', h1, h2, h3, fun ξ => funext fun f => by unfold gasAt; rw [h4 f (by rw [hNF]; exact f.isLt)]⟩

/-- **C89, any order.** Rusanov flux, no enhancement. If the gas is physical at both ends of every cell and at the other
points of a rule exact for the order, and no signal crosses more than the fraction `ω` of a cell within `dt` – `ω` the
weight of the end points – then the residual exists and the cell averages plus `dt` times their residuals are
physical. -/
theorem C89_averages (hγ : 1 < γ) (h : s.Built lib p) (hp : CodePhysics γ "euler".toList "rusanov".toList s) (hen : s.enhance = none)
    (hb : s.BcKnown) (hdx : 0 < s.dx) {dt ω : ℝ} {N : ℕ} {w ξ : ℕ → ℝ} (hr : EndRule p N ω w ξ) (h0 : 0 ≤ dt)
    (hends : ∀ e, 1 ≤ e → e ≤ s.NE → ∀ x, x = 1 ∨ x = -1 → ∃ a : Prim, a.Phys ∧ dt * a.speed γ ≤ ω * s.dx ∧ gasAt s e x = a.cons γ)
    (hin : ∀ e, 1 ≤ e → e ≤ s.NE → ∀ i < N, IsGas γ (gasAt s e (ξ i))) :
    ∃ s' F, residual s = .ok (s', F) ∧ ∀ e, 1 ≤ e → e ≤ s.NE →
      IsGas γ fun f => cellMean s e f + dt * F.val 0 (e * 3 + f) := by
  obtain ⟨hk, hNF⟩ := hp.euler rfl
  have hk' : s.kw = Euler.physics γ "rusanov" := hk
  have hghost : ∀ e ≤ s.NE + 1, ∀ x, x = 1 ∨ x = -1 → ∃ a : Prim, a.Phys ∧ dt * a.speed γ ≤ ω * s.dx ∧
      gasAt (s.withVal s.applyBc.u.val) e x = a.cons γ := fun e he x hx => by
    obtain ⟨e', h1, h2, -, h4⟩ := gasAt_filled h hb hNF he
    rw [h4]
    exact hends e' h1 h2 x hx
  have : Inhabited Prim := ⟨⟨1, 0, 1⟩⟩
  choose! L hL1 hL2 hL3 using fun i (hi : i ≤ s.NE) => hghost i (by omega) 1 (.inl rfl)
  choose! R hR1 hR2 hR3 using fun i (hi : i ≤ s.NE) => hghost (i + 1) (by omega) (-1) (.inr rfl)
  obtain ⟨s', F, hres, hF⟩ := mean_residual h hen hNF (Euler.rusanovSpec γ) hk' (Euler.rusanov_pointwise γ) (rusanovFlux γ) (rusanov_ok hγ) L R
    (fun i hi => ⟨hL1 i hi, hL3 i hi⟩) (fun i hi => ⟨hR1 i hi, hR3 i hi⟩)
  refine ⟨s', F, hres, fun e h1 h2 => Cone.isGas hγ ?_⟩
  have hcell : ∀ ξ, gasAt (s.withVal s.applyBc.u.val) e ξ = gasAt s e ξ := by
    obtain ⟨e', -, -, g3, g4⟩ := gasAt_filled h hb hNF (e := e) (by omega)
    rw [g3 h1 h2] at g4
    exact g4
  have hmean : ∀ f : Fin 3, cellMean s e f = ω * (gasAt s e (-1) f + gasAt s e 1 f) + ∑ i ∈ Finset.range N, w i * gasAt s e (ξ i) f := fun f => by
    unfold cellMean gasAt
    exact hr.exact _ (by
      unfold cellPoly
      rw [h.rows]
      exact legSeries_degree _ _)
  rcases h0.eq_or_lt with rfl | ht
  · have := ((IsGas.cone hγ ⟨_, hL1 e h2, fun k => congrFun (hL3 e h2) k⟩).smul hr.end_pos).add
      ((IsGas.cone hγ ⟨_, hR1 (e - 1) (by omega), fun k => congrFun (hR3 (e - 1) (by omega)) k⟩).smul hr.end_pos)
    refine (this.add_sum N w (fun i => gasAt s e (ξ i)) hr.pos fun i hi => (hin e h1 h2 i hi).cone hγ).congr fun k => ?_
    rw [hmean, Nat.sub_add_cancel h1, hcell, hcell]
    ring
  · have ht' : 0 < dt / s.dx := div_pos ht hdx
    have hs : ∀ a : Prim, dt * a.speed γ ≤ ω * s.dx → dt / s.dx * a.speed γ ≤ ω := fun a ha => by
      rw [div_mul_eq_mul_div, div_le_iff₀ hdx]; exact ha
    have c1 := rusanov_right hγ (hL1 e h2) (hR1 e h2) ht' (hs _ (hL2 e h2)) (hs _ (hR2 e h2))
    have c2 := rusanov_left hγ (hL1 (e - 1) (by omega)) (hR1 (e - 1) (by omega)) ht' (hs _ (hR2 (e - 1) (by omega))) (hs _ (hL2 (e - 1) (by omega)))
    refine ((c1.add c2).add_sum N w (fun i => gasAt s e (ξ i)) hr.pos fun i hi => (hin e h1 h2 i hi).cone hγ).congr fun k => ?_
    have e1 : (L e).cons γ k = gasAt s e 1 k := by rw [← hL3 e h2, hcell]
    have e2 : (R (e - 1)).cons γ k = gasAt s e (-1) k := by rw [← hR3 (e - 1) (by omega), Nat.sub_add_cancel h1, hcell]
    have e3 : dt * F.val 0 (e * 3 + k) = dt / s.dx * (s.dx * F.val 0 (e * 3 + k)) := by field_simp
    rw [e3, hF e h1 h2 k, hmean, e1, e2]
    ring

/-- **C89, order 0.** Rusanov flux. From physical cells, the residual exists, and for every `dt` within which no signal
crosses a whole cell the cells plus `dt` times the residual are physical. -/
theorem C89_order_zero (hγ : 1 < γ) (h : s.Built lib 0) (hp : CodePhysics γ "euler".toList "rusanov".toList s) (hen : s.enhance = none)
    (hb : s.BcKnown) (hdx : 0 < s.dx) (W : ℕ → Prim)
    (hW : ∀ e, 1 ≤ e → e ≤ s.NE → (W e).Phys ∧ ∀ f : Fin 3, s.u.val 0 (e * 3 + f) = (W e).cons γ f) :
    ∃ s' F, residual s = .ok (s', F) ∧ ∀ dt, 0 ≤ dt → (∀ e, 1 ≤ e → e ≤ s.NE → dt * (W e).speed γ ≤ s.dx) → ∀ e, 1 ≤ e → e ≤ s.NE →
      IsGas γ fun f => s.u.val 0 (e * 3 + f) + dt * F.val 0 (e * 3 + f) := by
  obtain ⟨hk, hNF⟩ := hp.euler rfl
  have hk' : s.kw = Euler.physics γ "rusanov" := hk
  have hval : ∀ e x, gasAt s e x = fun f : Fin 3 => s.u.val 0 (e * 3 + f) := fun e x => funext fun f => by
    unfold gasAt cellPoly
    rw [h.rows, legSeries_eval, Finset.sum_range_one, legendre_zero, eval_one, mul_one, hNF]
  have hghost : ∀ e ≤ s.NE + 1, ∃ e', 1 ≤ e' ∧ e' ≤ s.NE ∧ (1 ≤ e → e ≤ s.NE → e' = e) ∧
      ∀ x, gasAt (s.withVal s.applyBc.u.val) e x = (W e').cons γ := fun e he => by
    obtain ⟨e', h1, h2, h3, h4⟩ := gasAt_filled h hb hNF he
    exact ⟨e', h1, h2, h3, fun x => by rw [h4, hval]; exact funext (hW e' h1 h2).2⟩
  choose! g g1 g2 g3 g4 using hghost
  obtain ⟨s', F, hres, hF⟩ := mean_residual h hen hNF (Euler.rusanovSpec γ) hk' (Euler.rusanov_pointwise γ) (rusanovFlux γ) (rusanov_ok hγ)
    (fun i => W (g i)) (fun i => W (g (i + 1))) (fun i hi => ⟨(hW _ (g1 i (by omega)) (g2 i (by omega))).1, g4 i (by omega) 1⟩)
    (fun i hi => ⟨(hW _ (g1 (i + 1) (by omega)) (g2 (i + 1) (by omega))).1, g4 (i + 1) (by omega) (-1)⟩)
  refine ⟨s', F, hres, fun dt h0 hdt e h1 h2 => Cone.isGas hγ ?_⟩
  have hs : ∀ e, 1 ≤ e → e ≤ s.NE → dt / s.dx * (W e).speed γ ≤ 1 := fun e a b => by
    rw [div_mul_eq_mul_div, div_le_one hdx]; exact hdt e a b
  have hm := fun i (hi : i ≤ s.NE + 1) => hs (g i) (g1 i hi) (g2 i hi)
  have hP := fun i (hi : i ≤ s.NE + 1) => (hW (g i) (g1 i hi) (g2 i hi)).1
  refine (rusanov_cell hγ (hP (e - 1) (by omega)) (hP e (by omega)) (hP (e + 1) (by omega)) (div_nonneg h0 hdx.le) (hm (e - 1) (by omega))
    (hm e (by omega)) (hm (e + 1) (by omega))).congr fun k => ?_
  have e3 : dt * F.val 0 (e * 3 + k) = dt / s.dx * (s.dx * F.val 0 (e * 3 + k)) := by field_simp
  rw [e3, hF e h1 h2 k, (hW e h1 h2).2 k, g3 e (by omega) h1 h2, Nat.sub_add_cancel h1]
  simp only [g3 e (by omega) h1 h2]

/-- **C89, the time step of the code.** Order 0, Rusanov flux, physical gas in all cells, ghost cells included: with a
CFL number of at most 1 the time step exists, and no part of it leads to an unphysical gas. -/
theorem C89_cfl (hγ : 1 < γ) (h : s.Built lib 0) (hp : CodePhysics γ "euler".toList "rusanov".toList s) (hen : s.enhance = none)
    (hb : s.BcKnown) (hdx : 0 < s.dx) (W : ℕ → Prim)
    (hW : ∀ e ≤ s.NE + 1, (W e).Phys ∧ ∀ f : Fin 3, s.u.val 0 (e * 3 + f) = (W e).cons γ f) {cfl : ℝ} (h1 : cfl ≤ 1) :
    ∃ dt s' F, cflTimeStep s cfl = .ok (.fin dt) ∧ residual s = .ok (s', F) ∧ ∀ t, 0 ≤ t → t ≤ dt → ∀ e, 1 ≤ e → e ≤ s.NE →
      IsGas γ fun f => s.u.val 0 (e * 3 + f) + t * F.val 0 (e * 3 + f) := by
  obtain ⟨hk, hNF⟩ := hp.euler rfl
  obtain ⟨c, c1, c2, i, hi, c3⟩ := C46_bound hγ (String.ofList "rusanov".toList) s.u (s.NE + 2) (by omega) (by rw [h.cols, hNF]) W
    (fun i hi => hW i (by omega))
  have hc : 0 < c := by
    rw [← c3]
    have : 0 < (W i).c γ := Real.sqrt_pos.mpr (div_pos (mul_pos (by linarith) (hW i (by omega)).1.2) (hW i (by omega)).1.1)
    positivity
  obtain ⟨s', F, hres, hF⟩ := C89_order_zero hγ h hp hen hb hdx W fun e _ he => hW e (by omega)
  have hp0 : s.basis.p = 0 := by rw [h.basis]; rfl
  refine ⟨s.dx * cfl / c, s', F, ?_, hres, fun t ht0 ht e he1 he2 => hF t ht0 (fun e he1 he2 => ?_) e he1 he2⟩
  · unfold cflTimeStep
    rw [hk, c1]
    simp only [hp0, Nat.cast_zero, mul_zero, zero_add, mul_one]
    rw [if_neg hc.ne']
  · have hs : (W e).speed γ ≤ c := c2 e (by omega)
    have hs0 : 0 ≤ (W e).speed γ := add_nonneg (abs_nonneg _) (Real.sqrt_nonneg _)
    calc t * (W e).speed γ ≤ s.dx * cfl / c * c := mul_le_mul ht hs hs0 (ht0.trans ht)
      _ = s.dx * cfl := by field_simp
      _ ≤ s.dx := by nlinarith

/-! Rules for orders up to 3. -/

lemma EndRule.of_basis {p N : ℕ} {ω : ℝ} {w ξ : ℕ → ℝ} (h1 : 0 < ω) (h2 : ∀ i < N, 0 < w i)
    (h3 : ∀ n < p + 1, (if n = 0 then (1 : ℝ) else 0) = ω * ((legendre ℝ n).eval (-1) + (legendre ℝ n).eval 1) +
      ∑ i ∈ Finset.range N, w i * (legendre ℝ n).eval (ξ i)) : EndRule p N ω w ξ := by
  refine ⟨h1, h2, fun P hP => ?_⟩
  obtain ⟨c, rfl⟩ := exists_legSeries (p + 1) P hP
  have hm : intPoly (legSeries (p + 1) c) / 2 = c 0 := by
    have := intPoly_legSeries (p + 1) c 0 (by omega)
    rw [legendre_zero, mul_one] at this
    rw [this]; norm_num
  rw [hm]
  simp only [legSeries_eval]
  have e1 : c 0 = ∑ n ∈ Finset.range (p + 1), c n * (if n = 0 then (1 : ℝ) else 0) := by
    rw [Finset.sum_range_succ']
    simp
  rw [e1, Finset.sum_congr rfl fun n hn => by rw [h3 n (Finset.mem_range.mp hn)]]
  simp only [mul_add, Finset.sum_add_distrib, Finset.mul_sum]
  congr 1
  · congr 1 <;> exact Finset.sum_congr rfl fun n _ => by ring
  · rw [Finset.sum_comm]
    exact Finset.sum_congr rfl fun i _ => Finset.sum_congr rfl fun n _ => by ring

/-- The trapezoidal rule, for order 1 (and 0). -/
theorem C89_trapezoid {p : ℕ} (hp : p ≤ 1) : EndRule p 0 (1 / 2) (fun _ => 0) fun _ => 0 := by
  refine EndRule.of_basis (by norm_num) (fun i hi => absurd hi (by omega)) fun n hn => ?_
  have : n < 2 := by omega
  interval_cases n <;> norm_num [legendre]

/-- Simpson's rule, for orders 2 and 3. -/
theorem C89_simpson {p : ℕ} (hp : p ≤ 3) : EndRule p 1 (1 / 6) (fun _ => 2 / 3) fun _ => 0 := by
  refine EndRule.of_basis (by norm_num) (fun i _ => by norm_num) fun n hn => ?_
  have : n < 4 := by omega
  interval_cases n <;> norm_num [legendre]

/-! ### Roe's flux -/

/-- Two half lines of gas flying apart: velocity -1 on the left, 1 on the right, tenfold the speed of sound. -/
noncomputable def Ex.apart (riemann : String) : Sol ℝ :=
  { Ex.gas 0 riemann with
    bcl := .lit "zerograd", bcr := .lit "zerograd"
    u := ⟨1, 12, fun _ c => (⟨1, if c < 6 then -1 else 1, 1 / 140⟩ : Prim).cons (7 / 5) (Fin.ofNat 3 c)⟩ }

lemma Ex.apart_built (riemann : String) : (Ex.apart riemann).Built realGauss 0 where
  nodes := (Ex.solR_built 0).nodes
  gauss := (Ex.solR_built 0).gauss
  basis := rfl
  NF := Nat.succ_pos 2
  NE := Nat.succ_pos 1
  rows := rfl
  cols := rfl
  dx := (Ex.solR_built 0).dx
  minv := (Ex.solR_built 0).minv
  enh := fun en h => by cases h

/-- Their states. -/
noncomputable def Ex.fly (e : ℕ) : Prim := ⟨1, if e < 2 then -1 else 1, 1 / 140⟩

lemma Ex.fly_phys (e : ℕ) : (Ex.fly e).Phys := by unfold Ex.fly Prim.Phys; norm_num

lemma Ex.fly_c (e : ℕ) : (Ex.fly e).c (7 / 5) = 1 / 10 := by
  unfold Prim.c Ex.fly
  rw [show (7 / 5 * (1 / 140) / 1 : ℝ) = (1 / 10) ^ 2 by norm_num, Real.sqrt_sq (by norm_num)]

lemma Ex.fly_val (riemann : String) (e : ℕ) (f : Fin 3) : (Ex.apart riemann).u.val 0 (e * 3 + f) = (Ex.fly e).cons (7 / 5) f := by
  show (⟨1, if e * 3 + (f : ℕ) < 6 then -1 else 1, 1 / 140⟩ : Prim).cons (7 / 5) (Fin.ofNat 3 (e * 3 + f)) = _
  have h1 : Fin.ofNat 3 (e * 3 + f) = f := by
    apply Fin.ext
    show (e * 3 + (f : ℕ)) % 3 = f
    have := f.isLt
    omega
  have h2 : (e * 3 + (f : ℕ) < 6) ↔ e < 2 := by have := f.isLt; omega
  rw [h1]
  unfold Ex.fly
  simp only [h2]

lemma Ex.fly_apart (k : Fin 3) : roeFlux (7 / 5) (Ex.fly 1) (Ex.fly 2) k = ![0, 1 + 1 / 140 - (21 / 800 + 2), 0] k := by
  have hV : roeV (Ex.fly 1) (Ex.fly 2) = 0 := by
    unfold roeV roeMean Ex.fly; norm_num
  have hH : roeH (7 / 5) (Ex.fly 1) (Ex.fly 2) = 21 / 40 := by
    unfold roeH roeMean Ex.fly Prim.enthalpy; norm_num
  have hrho : roeRho (Ex.fly 1) (Ex.fly 2) = 1 := by unfold roeRho Ex.fly; norm_num
  have hC2 : roeC (7 / 5) (Ex.fly 1) (Ex.fly 2) ^ 2 = 21 / 100 := by
    unfold roeC
    rw [hV, hH, Real.sq_sqrt (by norm_num)]; norm_num
  have hC0 : 0 < roeC (7 / 5) (Ex.fly 1) (Ex.fly 2) := by
    unfold roeC
    rw [hV, hH]; exact Real.sqrt_pos.mpr (by norm_num)
  set c := roeC (7 / 5) (Ex.fly 1) (Ex.fly 2) with hcd
  have hc4 : c < 4 := by nlinarith
  have hw0 : fixWidth (7 / 5) (Ex.fly 1) (Ex.fly 2) 0 = 8 := by
    show max 0 (4 * (((Ex.fly 2).v - (Ex.fly 2).c (7 / 5)) - ((Ex.fly 1).v - (Ex.fly 1).c (7 / 5)))) = 8
    rw [Ex.fly_c, Ex.fly_c]; norm_num [Ex.fly]
  have hw2 : fixWidth (7 / 5) (Ex.fly 1) (Ex.fly 2) 2 = 8 := by
    show max 0 (4 * (((Ex.fly 2).v + (Ex.fly 2).c (7 / 5)) - ((Ex.fly 1).v + (Ex.fly 1).c (7 / 5)))) = 8
    rw [Ex.fly_c, Ex.fly_c]; norm_num [Ex.fly]
  have ha0 : hartenAbs 8 (-c) = 21 / 800 + 2 := by
    unfold hartenAbs
    rw [if_pos (by rw [abs_neg, abs_of_pos hC0]; linarith), neg_sq, hC2]; norm_num
  have ha2 : hartenAbs 8 c = 21 / 800 + 2 := by
    unfold hartenAbs
    rw [if_pos (by rw [abs_of_pos hC0]; linarith), hC2]; norm_num
  have al0 : roeAlpha (7 / 5) (Ex.fly 1) (Ex.fly 2) 0 = -1 / c := by
    show (((Ex.fly 2).p - (Ex.fly 1).p) - roeRho (Ex.fly 1) (Ex.fly 2) * c * ((Ex.fly 2).v - (Ex.fly 1).v)) / (2 * c ^ 2) = _
    rw [hrho]; norm_num [Ex.fly]; field_simp
  have al1 : roeAlpha (7 / 5) (Ex.fly 1) (Ex.fly 2) 1 = 0 := by
    show ((Ex.fly 2).rho - (Ex.fly 1).rho) - ((Ex.fly 2).p - (Ex.fly 1).p) / c ^ 2 = _
    norm_num [Ex.fly]
  have al2 : roeAlpha (7 / 5) (Ex.fly 1) (Ex.fly 2) 2 = 1 / c := by
    show (((Ex.fly 2).p - (Ex.fly 1).p) + roeRho (Ex.fly 1) (Ex.fly 2) * c * ((Ex.fly 2).v - (Ex.fly 1).v)) / (2 * c ^ 2) = _
    rw [hrho]; norm_num [Ex.fly]; field_simp
  have l0 : roeLambda (7 / 5) (Ex.fly 1) (Ex.fly 2) 0 = -c := by
    show roeV (Ex.fly 1) (Ex.fly 2) - c = -c
    rw [hV, zero_sub]
  have l2 : roeLambda (7 / 5) (Ex.fly 1) (Ex.fly 2) 2 = c := by
    show roeV (Ex.fly 1) (Ex.fly 2) + c = c
    rw [hV, zero_add]
  have r0 : roeVec (7 / 5) (Ex.fly 1) (Ex.fly 2) 0 = ![1, -c, 21 / 40] := by
    show ![1, roeV (Ex.fly 1) (Ex.fly 2) - c, roeH (7 / 5) (Ex.fly 1) (Ex.fly 2) - roeV (Ex.fly 1) (Ex.fly 2) * c] = _
    rw [hV, hH, zero_sub, zero_mul, sub_zero]
  have r2 : roeVec (7 / 5) (Ex.fly 1) (Ex.fly 2) 2 = ![1, c, 21 / 40] := by
    show ![1, roeV (Ex.fly 1) (Ex.fly 2) + c, roeH (7 / 5) (Ex.fly 1) (Ex.fly 2) + roeV (Ex.fly 1) (Ex.fly 2) * c] = _
    rw [hV, hH, zero_add, zero_mul, add_zero]
  unfold roeFlux
  rw [Fin.sum_univ_three, al1, hw0, hw2, l0, l2, ha0, ha2, al0, al2, r0, r2]
  fin_cases k
  · simp [Ex.fly, Prim.flux]; ring
  · simp [Ex.fly, Prim.flux]; field_simp; norm_num
  · simp [Ex.fly, Prim.flux, Prim.energy]; ring

/-- **C89, Roe: false.** For gas flying apart ten times as fast as sound, order 0: within a time in which no signal
crosses a cell, the cell plus that time times the residual with Roe's flux has positive density and negative pressure. -/
theorem C89_roe_negative : ∃ (s s' : Sol ℝ) (F : Arr ℝ) (W : ℕ → Prim) (dt : ℝ), s.Built realGauss 0 ∧
    CodePhysics (7 / 5) "euler".toList "roe".toList s ∧ s.enhance = none ∧ s.BcKnown ∧ 0 < s.dx ∧
    (∀ e, (W e).Phys ∧ ∀ f : Fin 3, s.u.val 0 (e * 3 + f) = (W e).cons (7 / 5) f) ∧ 0 ≤ dt ∧ (∀ e, dt * (W e).speed (7 / 5) ≤ s.dx) ∧
    residual s = .ok (s', F) ∧ ∃ w : Prim, 0 < w.rho ∧ w.p < 0 ∧ ∀ f : Fin 3, s.u.val 0 (2 * 3 + f) + dt * F.val 0 (2 * 3 + f) = w.cons (7 / 5) f := by
  have hb : (Ex.apart "roe").BcKnown := ⟨.inr ⟨rfl, rfl⟩, .inr ⟨rfl, rfl⟩⟩
  have hdx : (Ex.apart "roe").dx = 1 / 2 := rfl
  have hg : ∀ e ≤ 3, ∀ x, gasAt ((Ex.apart "roe").withVal (Ex.apart "roe").applyBc.u.val) e x = (Ex.fly e).cons (7 / 5) := fun e he x => by
    have hcol : ∀ f < 3, (Ex.apart "roe").bcCol (e * 3 + f) = (if e = 0 then 3 + f else if e = 3 then 6 + f else e * 3 + f) := by
      intro f hf
      interval_cases e <;> interval_cases f <;> rfl
    funext f
    unfold gasAt cellPoly
    rw [show ((Ex.apart "roe").withVal (Ex.apart "roe").applyBc.u.val).u.rows = 0 + 1 from rfl, legSeries_eval, Finset.sum_range_one, legendre_zero, eval_one, mul_one]
    show (Ex.apart "roe").applyBc.u.val 0 (e * 3 + f) = _
    rw [applyBc_val (Ex.apart_built "roe").NF (Ex.apart_built "roe").NE (Ex.apart_built "roe").cols, hcol f f.isLt]
    interval_cases e
    · exact Ex.fly_val _ 1 f
    · exact Ex.fly_val _ 1 f
    · exact Ex.fly_val _ 2 f
    · exact Ex.fly_val _ 2 f
  obtain ⟨s', F, hres, hF⟩ := mean_residual (Ex.apart_built "roe") rfl rfl (Euler.roeSpec (7 / 5)) (name := "roe") rfl
    (Euler.roe_pointwise (7 / 5) (by decide) (by decide)) (roeFlux (7 / 5)) (roe_ok (by norm_num)) Ex.fly (fun i => Ex.fly (i + 1))
    (fun i hi => ⟨Ex.fly_phys i, hg i (by have : i ≤ 2 := hi; omega) 1⟩)
    (fun i hi => ⟨Ex.fly_phys _, hg (i + 1) (by have : i ≤ 2 := hi; omega) (-1)⟩)
  refine ⟨(Ex.apart "roe"), s', F, Ex.fly, 5 / 11, (Ex.apart_built "roe"), ⟨rfl, rfl⟩, rfl, hb, by rw [hdx]; norm_num, fun e => ⟨Ex.fly_phys e, Ex.fly_val _ e⟩,
    by norm_num, fun e => ?_, hres, ⟨1 / 11, 11 * (1 - 10 / 11 * (21 / 800 + 2)), 2 / 5 * (145 / 280 - 10 / 11 * (21 / 40) - (1 - 10 / 11 * (21 / 800 + 2)) ^ 2 * 11 / 2)⟩,
    by norm_num, by norm_num, fun f => ?_⟩
  · unfold Prim.speed
    rw [Ex.fly_c, hdx]
    unfold Ex.fly
    split_ifs <;> norm_num
  · have h2 := hF 2 (by norm_num) le_rfl f
    have hself : roeFlux (7 / 5) (Ex.fly 2) (Ex.fly 3) f = (Ex.fly 2).flux (7 / 5) f := by
      have : Ex.fly 3 = Ex.fly 2 := by unfold Ex.fly; norm_num
      rw [this, roeFlux_self]
    rw [show 2 - 1 = 1 from rfl, Ex.fly_apart, hself, hdx] at h2
    rw [Ex.fly_val, show (5 / 11 : ℝ) * F.val 0 (2 * 3 + f) = 10 / 11 * (1 / 2 * F.val 0 (2 * 3 + f)) by ring, h2]
    fin_cases f
    · simp [Ex.fly, Prim.cons, Prim.flux]; norm_num
    · simp [Ex.fly, Prim.cons, Prim.flux]; norm_num
    · simp [Ex.fly, Prim.cons, Prim.flux, Prim.energy]; norm_num

/-! Concrete cases meeting the hypotheses. -/

/-- `C89_order_zero` and `C89_cfl`: the same gas with the Rusanov flux. -/
example : 0 < (Ex.apart "rusanov").dx ∧ (Ex.apart "rusanov").Built realGauss 0 ∧ CodePhysics (7 / 5) "euler".toList "rusanov".toList (Ex.apart "rusanov") ∧
    (Ex.apart "rusanov").BcKnown ∧ (∀ e ≤ 3, (Ex.fly e).Phys ∧ ∀ f : Fin 3, (Ex.apart "rusanov").u.val 0 (e * 3 + f) = (Ex.fly e).cons (7 / 5) f) ∧
    ∃ dt s' F, cflTimeStep (Ex.apart "rusanov") 1 = .ok (.fin dt) ∧ residual (Ex.apart "rusanov") = .ok (s', F) ∧
      ∀ e, 1 ≤ e → e ≤ 2 → IsGas (7 / 5) fun f => (Ex.apart "rusanov").u.val 0 (e * 3 + f) + dt * F.val 0 (e * 3 + f) := by
  have hdx : 0 < (Ex.apart "rusanov").dx := by
    rw [show (Ex.apart "rusanov").dx = 1 / 2 from rfl]; norm_num
  have hb : (Ex.apart "rusanov").BcKnown := ⟨.inr ⟨rfl, rfl⟩, .inr ⟨rfl, rfl⟩⟩
  have hp : CodePhysics (7 / 5) "euler".toList "rusanov".toList (Ex.apart "rusanov") := ⟨rfl, rfl⟩
  have hW : ∀ e ≤ 3, (Ex.fly e).Phys ∧ ∀ f : Fin 3, (Ex.apart "rusanov").u.val 0 (e * 3 + f) = (Ex.fly e).cons (7 / 5) f :=
    fun e _ => ⟨Ex.fly_phys e, Ex.fly_val _ e⟩
  obtain ⟨dt, s', F, h1, h2, h3⟩ := C89_cfl (by norm_num) (Ex.apart_built "rusanov") hp rfl hb hdx Ex.fly hW le_rfl
  refine ⟨hdx, Ex.apart_built _, hp, hb, hW, dt, s', F, h1, h2, h3 dt ?_ le_rfl⟩
  obtain ⟨c, c1, -, i, hi, c3⟩ := C46_bound (γ := 7 / 5) (by norm_num) "rusanov" (Ex.apart "rusanov").u 4 (by norm_num) rfl Ex.fly (fun i hi => hW i (by omega))
  have hc : 0 < c := by rw [← c3, Ex.fly_c]; positivity
  have : cflTimeStep (Ex.apart "rusanov") 1 = .ok (.fin (1 / 2 * 1 / (c * (2 * ((0 : ℕ) : ℝ) + 1)))) := by
    unfold cflTimeStep
    rw [show (Ex.apart "rusanov").kw = Euler.physics (7 / 5) "rusanov" from rfl, c1]
    show (if c * (2 * ((0 : ℕ) : ℝ) + 1) = 0 then _ else _) = _
    rw [if_neg (by simpa using hc.ne')]
    rfl
  rw [this] at h1
  cases h1
  positivity

/-- Two periodic cells of order 1, density and pressure rising by a fifth in each. -/
noncomputable def Ex.ramp : Sol ℝ :=
  { Ex.gas 1 "rusanov" with u := ⟨2, 12, fun n c => (if n = 0 then 1 else 1 / 10) * Ex.gasState (c / 3) (c % 3)⟩ }

lemma Ex.ramp_built : Ex.ramp.Built realGauss 1 where
  nodes := (Ex.solR_built 1).nodes
  gauss := (Ex.solR_built 1).gauss
  basis := rfl
  NF := Nat.succ_pos 2
  NE := Nat.succ_pos 1
  rows := rfl
  cols := rfl
  dx := (Ex.solR_built 1).dx
  minv := (Ex.solR_built 1).minv
  enh := fun en h => by cases h

/-- `C89_averages` with the trapezoidal rule: a time in which the fastest signal crosses a quarter of a cell. -/
example : Ex.ramp.Built realGauss 1 ∧ CodePhysics (7 / 5) "euler".toList "rusanov".toList Ex.ramp ∧ Ex.ramp.BcKnown ∧ 0 < Ex.ramp.dx ∧
    EndRule 1 0 (1 / 2) (fun _ => 0) (fun _ => 0) ∧
    ∀ e, 1 ≤ e → e ≤ Ex.ramp.NE → ∀ x, x = 1 ∨ x = -1 → ∃ a : Prim, a.Phys ∧ 1 / 96 * a.speed (7 / 5) ≤ 1 / 2 * Ex.ramp.dx ∧ gasAt Ex.ramp e x = a.cons (7 / 5) := by
  have hdx : Ex.ramp.dx = 1 / 2 := rfl
  refine ⟨Ex.ramp_built, ⟨rfl, rfl⟩, ⟨.inl ⟨rfl, rfl⟩, .inl ⟨rfl, rfl⟩⟩, by rw [hdx]; norm_num, C89_trapezoid le_rfl, fun e h1 h2 x hx => ?_⟩
  have h2 : e ≤ 2 := h2
  have hx0 : 0 < 1 + 1 / 10 * x := by rcases hx with rfl | rfl <;> norm_num
  have hg : gasAt Ex.ramp e x = fun f : Fin 3 => (1 + 1 / 10 * x) * Ex.gasState e f := by
    funext f
    unfold gasAt cellPoly
    rw [Ex.ramp_built.rows, legSeries_eval, Finset.sum_range_succ, Finset.sum_range_one, legendre_zero, eval_one]
    show (1 : ℝ) * Ex.gasState ((e * 3 + f) / 3) ((e * 3 + f) % 3) * 1 + 1 / 10 * Ex.gasState ((e * 3 + f) / 3) ((e * 3 + f) % 3) * (X : ℝ[X]).eval x = _
    rw [show (e * 3 + (f : ℕ)) / 3 = e by have := f.isLt; omega, show (e * 3 + (f : ℕ)) % 3 = f by have := f.isLt; omega, eval_X]
    ring
  refine ⟨⟨1 + 1 / 10 * x, if e = 1 then 10 else 11, 5 / 7 * (1 + 1 / 10 * x)⟩, ⟨hx0, by simp only; positivity⟩, ?_, ?_⟩
  · have hc : (⟨1 + 1 / 10 * x, if e = 1 then 10 else 11, 5 / 7 * (1 + 1 / 10 * x)⟩ : Prim).c (7 / 5) = 1 := by
      unfold Prim.c
      simp only
      rw [show 7 / 5 * (5 / 7 * (1 + 1 / 10 * x)) / (1 + 1 / 10 * x) = 1 by rw [← mul_assoc, mul_div_assoc, div_self hx0.ne']; norm_num, Real.sqrt_one]
    unfold Prim.speed
    rw [hc, hdx]
    simp only
    split_ifs <;> norm_num
  · rw [hg]
    funext f
    interval_cases e <;> fin_cases f <;> simp [Ex.gasState, Prim.cons, Prim.energy] <;> ring

end Dg1d.Props
