import Verif.Proofs.DgAdvection
import Verif.Props.Examples
import Verif.Props.ExamplesReal

/-!
# Properties C13, C14, C17, C19, C20, C27: the DG residual and the boundary conditions

The physics enters through `Physics.Pointwise ps`: what interior flux and Riemann solver compute at a point.
It is established for every solver of the code (`Advection.pointwise` here, the Euler solvers in Props/Euler.lean).
-/

set_option linter.unusedSectionVars false

open Polynomial

namespace Dg1d.Props
open Spec
variable {K : Type*} [Field K] [LinearOrder K] [IsStrictOrderedRing K]

/-- **C27.** `apply_bc` fills ghost cells side by side from the boundary name and does nothing else. -/
theorem C27_apply_bc (s : Sol K) (hF : 0 < s.NF) (hE : 0 < s.NE) (hc : s.u.cols = (s.NE + 2) * s.NF) :
    let v := s.applyBc
    v = { s with u := v.u } ∧ v.u.rows = s.u.rows ∧ v.u.cols = s.u.cols ∧
    (∀ r e f, 1 ≤ e → e ≤ s.NE → f < s.NF → v.u.val r (e * s.NF + f) = s.u.val r (e * s.NF + f)) ∧
    (s.bcl = .lit "periodic" → ∀ r, ∀ f < s.NF, v.u.val r f = s.u.val r (s.NE * s.NF + f)) ∧
    (s.bcl = .lit "zerograd" → ∀ r, ∀ f < s.NF, v.u.val r f = s.u.val r (1 * s.NF + f)) ∧
    (s.bcl ≠ .lit "periodic" → s.bcl ≠ .lit "zerograd" → ∀ r, ∀ f < s.NF, v.u.val r f = s.u.val r f) ∧
    (s.bcr = .lit "periodic" → ∀ r, ∀ f < s.NF, v.u.val r ((s.NE + 1) * s.NF + f) = s.u.val r (1 * s.NF + f)) ∧
    (s.bcr = .lit "zerograd" → ∀ r, ∀ f < s.NF, v.u.val r ((s.NE + 1) * s.NF + f) = s.u.val r (s.NE * s.NF + f)) ∧
    (s.bcr ≠ .lit "periodic" → s.bcr ≠ .lit "zerograd" → ∀ r, ∀ f < s.NF,
      v.u.val r ((s.NE + 1) * s.NF + f) = s.u.val r ((s.NE + 1) * s.NF + f)) ∧
    v.applyBc = v ∧
    (s.bcl ≠ .lit "periodic" → s.bcl ≠ .lit "zerograd" → s.bcr ≠ .lit "periodic" → s.bcr ≠ .lit "zerograd" → v = s) := by
  have hlit : ∀ (b : PyStr) (l : String), b.isLit l ↔ b = .lit l := by
    rintro ⟨v, i⟩ l
    simp [PyStr.isLit, PyStr.lit, and_comm]
  have hval := applyBc_val hF hE hc
  have hne : "zerograd" ≠ "periodic" := by decide
  have hzp : (PyStr.lit "zerograd") ≠ PyStr.lit "periodic" := by decide
  refine ⟨?_, (applyBc_shape s).1, (applyBc_shape s).2, ?_, ?_, ?_, ?_, ?_, ?_, ?_, ?_, ?_⟩
  · rw [applyBc_eq s hF hE hc]; rfl
  · intro r e f h1 h2 hf; rw [hval, bcCol_interior s h1 h2 hf]
  · intro hb r f hf; rw [hval, bcCol_left s hf, if_pos ((hlit _ _).mpr hb), add_comm]
  · intro hb r f hf
    rw [hval, bcCol_left s hf, if_neg (by rw [hlit, hb]; exact hzp), if_pos ((hlit _ _).mpr hb), add_comm, one_mul]
  · intro hb1 hb2 r f hf
    rw [hval, bcCol_left s hf, if_neg (by rw [hlit]; exact hb1), if_neg (by rw [hlit]; exact hb2)]
  · intro hb r f hf; rw [hval, bcCol_right s hf, if_pos ((hlit _ _).mpr hb), one_mul]
  · intro hb r f hf
    rw [hval, bcCol_right s hf, if_neg (by rw [hlit, hb]; exact hzp), if_pos ((hlit _ _).mpr hb)]
  · intro hb1 hb2 r f hf
    rw [hval, bcCol_right s hf, if_neg (by rw [hlit]; exact hb1), if_neg (by rw [hlit]; exact hb2)]
  · have e1 := applyBc_eq s hF hE hc
    have e2 := applyBc_eq (s.withVal fun r c => s.u.val r (s.bcCol c)) hF hE hc
    rw [e1, e2]
    simp only [Sol.withVal]
    congr 2
    funext r c
    congr 1
    exact bcCol_idem s hE c
  · intro h1 h2 h3 h4
    unfold Sol.applyBc Sol.applyBcLeft
    rw [if_neg (by rw [hlit]; exact h1), if_neg (by rw [hlit]; exact h2)]
    unfold Sol.applyBcRight
    rw [if_neg (by rw [hlit]; exact h3), if_neg (by rw [hlit]; exact h4)]

/-- Non-vacuity of C27: two-cell periodic solution; ghost cells are wrong before and right after. -/
example : (Ex.sol2).applyBc.u.val 0 0 = 3 ∧ (Ex.sol2).applyBc.u.val 0 3 = 1 ∧ (Ex.sol2).u.val 0 0 = 0 := by
  have h := C27_apply_bc Ex.sol2 (by decide) (by decide) (by decide)
  refine ⟨?_, ?_, by decide⟩
  · rw [h.2.2.2.2.1 rfl 0 0 (by decide)]; decide +kernel
  · rw [show 3 = (Ex.sol2.NE + 1) * Ex.sol2.NF + 0 from rfl, h.2.2.2.2.2.2.2.1 rfl 0 0 (by decide)]; decide +kernel

section Residual
variable {s : Sol K} {lib : GaussLib K} {p : ℕ}

/-- **C13.** Whenever `residual` returns, it has filled the ghost cells and its value is the DG weak form:
volume term by Gauss quadrature minus the Riemann fluxes of the two faces times the end values of the basis. -/
theorem C13_weak_form (h : s.Built lib p) (ps : PhysSpec K s.NF) (hps : s.kw.Pointwise ps) (s' : Sol K) (F : Arr K)
    (hres : residual s = .ok (s', F)) :
    let v := s.withVal s.applyBc.u.val
    s' = v ∧ v = s.applyBc ∧ F.rows = p + 1 ∧ F.cols = (s.NE + 2) * s.NF ∧
    ∀ n < p + 1, ∀ e, 1 ≤ e → e ≤ s.NE → ∀ f : Fin s.NF,
      s.dx / 2 * (2 / (2 * (n : K) + 1)) * F.val n (e * s.NF + f) =
        (∑ g ∈ Finset.range (p + 1), (lib (p + 1)).2.val g * (derivative (legendre K n)).eval ((lib (p + 1)).1.val g) *
          ps.flux (fun f' => (cellPoly v e f').eval ((lib (p + 1)).1.val g)) f) -
        (ps.num (leftState v e) (rightState v e) f * (legendre K n).eval 1 -
          ps.num (leftState v (e - 1)) (rightState v (e - 1)) f * (legendre K n).eval (-1)) := by
  obtain ⟨hv, herr, hok⟩ := residual_built h hps
  by_cases hf : ∃ i < s.NE + 1, ps.fails (leftState (s.withVal s.applyBc.u.val) i) (rightState (s.withVal s.applyBc.u.val) i)
  · obtain ⟨e, _, he⟩ := herr hf
    rw [he] at hres; cases hres
  · push Not at hf
    obtain ⟨G, hG, hr, hc, hval⟩ := hok hf
    rw [hG] at hres
    cases hres
    refine ⟨rfl, hv, hr, hc, ?_⟩
    intro n hn e he1 he2 f
    rw [hval n hn e he1 he2 f]
    have h2 := norm_ne_zero (K := K) n
    have h3 := h.dx
    have hx : s.basis.x = (lib (p + 1)).1 := by rw [h.basis]; rfl
    have hw : s.basis.w = (lib (p + 1)).2 := by rw [h.basis]; rfl
    rw [hx, hw, ← mul_assoc]
    have : s.dx / 2 * (2 / (2 * (n : K) + 1)) * ((2 * (n : K) + 1) / s.dx) = 1 := by field_simp
    rw [this, one_mul]

/-- **C13, error branch.** `residual` raises exactly when the Riemann solver fails at some interface, with an error
of the solver. -/
theorem C13_residual_fails (h : s.Built lib p) (ps : PhysSpec K s.NF) (hps : s.kw.Pointwise ps) :
    let v := s.withVal s.applyBc.u.val
    ((∃ err, residual s = .error err) ↔ ∃ i ≤ s.NE, ps.fails (leftState v i) (rightState v i)) ∧
    ∀ err, residual s = .error err → ps.errs err := by
  obtain ⟨_, herr, hok⟩ := residual_built h hps
  intro v
  by_cases hf : ∃ i < s.NE + 1, ps.fails (leftState v i) (rightState v i)
  · obtain ⟨e, he, hr⟩ := herr hf
    rw [hr]
    obtain ⟨i, hi, hi2⟩ := hf
    exact ⟨⟨fun _ => ⟨i, by omega, hi2⟩, fun _ => ⟨e, rfl⟩⟩, fun err h => by cases h; exact he⟩
  · push Not at hf
    obtain ⟨G, hG, _⟩ := hok hf
    rw [hG]
    exact ⟨⟨fun ⟨_, h⟩ => by (cases h), fun ⟨i, hi, h⟩ => (hf i (by omega) h).elim⟩, fun err h => by cases h⟩

/-- **C13 for linear advection.** The upwind residual: interface flux = right end value of the left cell. -/
theorem C13_advection (h : s.Built lib p) (hk : s.kw = Advection.physics) (hen : s.enhance = none) :
    ∃ F, residual s = .ok (s.applyBc, F) ∧
    ∀ n < p + 1, ∀ e, 1 ≤ e → e ≤ s.NE → ∀ f < s.NF,
      s.dx / 2 * (2 / (2 * (n : K) + 1)) * F.val n (e * s.NF + f) =
        intPoly (derivative (legendre K n) * cellPoly s.applyBc e f) -
        ((cellPoly s.applyBc e f).eval 1 * (legendre K n).eval 1 -
          (cellPoly s.applyBc (e - 1) f).eval 1 * (legendre K n).eval (-1)) := by
  have hps : s.kw.Pointwise (Advection.spec s.NF) := by rw [hk]; exact Advection.pointwise _
  obtain ⟨hv, _, hok⟩ := residual_built h hps
  obtain ⟨F, hF, _⟩ := hok (fun _ _ hf => hf)
  refine ⟨F, by rw [hF, hv], ?_⟩
  intro n hn e he1 he2 f hf
  have := (C13_weak_form h _ hps _ F hF).2.2.2.2 n hn e he1 he2 ⟨f, hf⟩
  rw [this, show cellPoly s.applyBc = cellPoly (s.withVal s.applyBc.u.val) by rw [hv]]
  have hg := gauss_int h (derivative (legendre K n) * cellPoly (s.withVal s.applyBc.u.val) e f) (by
    unfold cellPoly
    have : (s.withVal s.applyBc.u.val).u.rows = p + 1 := h.rows
    rw [this]
    exact degree_deriv_mul hn _)
  have hx : s.basis.x = (lib (p + 1)).1 := by rw [h.basis]; rfl
  have hw : s.basis.w = (lib (p + 1)).2 := by rw [h.basis]; rfl
  rw [hx, hw] at hg
  rw [← hg]
  have hl : ∀ i, leftState (s.withVal s.applyBc.u.val) i =
      fun f : Fin s.NF => (cellPoly (s.withVal s.applyBc.u.val) i f).eval 1 := by
    intro i
    unfold leftState
    have : (s.withVal s.applyBc.u.val).enhance = none := hen
    rw [this]; rfl
  simp only [Advection.spec, hl]
  congr 1
  apply Finset.sum_congr rfl
  intro g _
  rw [eval_mul]; ring

/-- **C14.** Discrete conservation: summed over the cells, the mean residual times the cell width is the flux
entering on the left minus the flux leaving on the right; it vanishes for periodic boundaries. -/
theorem C14_conservation (h : s.Built lib p) (ps : PhysSpec K s.NF) (hps : s.kw.Pointwise ps) (s' : Sol K) (F : Arr K)
    (hres : residual s = .ok (s', F)) (f : Fin s.NF) :
    let v := s.withVal s.applyBc.u.val
    let mean := fun e => intPoly (legSeries (p + 1) fun n => F.val n (e * s.NF + f)) / 2
    s.dx * ∑ e ∈ Finset.Icc 1 s.NE, mean e =
      ps.num (leftState v 0) (rightState v 0) f - ps.num (leftState v s.NE) (rightState v s.NE) f ∧
    (s.bcl = .lit "periodic" → s.bcr = .lit "periodic" → ∑ e ∈ Finset.Icc 1 s.NE, mean e = 0) := by
  intro v mean
  have hmean : ∀ e, mean e = F.val 0 (e * s.NF + f) := by
    intro e
    have := intPoly_legSeries (p + 1) (fun n => F.val n (e * s.NF + f)) 0 (by omega)
    rw [legendre_zero, mul_one] at this
    simp only [mean, this]
    norm_num
  have hW := (C13_weak_form h ps hps s' F hres).2.2.2.2 0 (by omega)
  have hcell : ∀ e ∈ Finset.Icc 1 s.NE, s.dx * mean e =
      ps.num (leftState v (e - 1)) (rightState v (e - 1)) f - ps.num (leftState v e) (rightState v e) f := by
    intro e he
    rw [Finset.mem_Icc] at he
    have := hW e he.1 he.2 f
    simp only [legendre_zero, derivative_one, eval_zero, mul_zero, zero_mul, Finset.sum_const_zero, zero_sub, eval_one,
      mul_one] at this
    rw [hmean]
    simp only [Nat.cast_zero, mul_zero, zero_add, div_one] at this
    rw [show s.dx / 2 * 2 = s.dx by ring] at this
    rw [this]; ring
  have hsum : s.dx * ∑ e ∈ Finset.Icc 1 s.NE, mean e =
      ps.num (leftState v 0) (rightState v 0) f - ps.num (leftState v s.NE) (rightState v s.NE) f := by
    rw [Finset.mul_sum, Finset.sum_congr rfl hcell]
    have : ∀ N, ∑ e ∈ Finset.Icc 1 N, (ps.num (leftState v (e - 1)) (rightState v (e - 1)) f -
        ps.num (leftState v e) (rightState v e) f) =
        ps.num (leftState v 0) (rightState v 0) f - ps.num (leftState v N) (rightState v N) f := by
      intro N
      induction N with
      | zero => simp
      | succ N ih => rw [Finset.sum_Icc_succ_top (by omega), ih]; simp
    exact this s.NE
  refine ⟨hsum, ?_⟩
  intro hl hr
  have hb : v.Built lib p := by
    have := (C13_weak_form h ps hps s' F hres).2.1
    rw [show v = s.applyBc from this]; exact h.applyBc
  have hl' : s.bcl.isLit "periodic" := by rw [hl]; exact ⟨rfl, rfl⟩
  have hr' : s.bcr.isLit "periodic" := by rw [hr]; exact ⟨rfl, rfl⟩
  have e1 : leftState v 0 = leftState v s.NE := by
    rw [← hb.face_left, ← hb.face_left]; exact periodic_face h.wf hl' hr' 1
  have e2 : rightState v 0 = rightState v s.NE := by
    rw [← hb.face_right, ← hb.face_right]; exact periodic_face h.wf hl' hr' 0
  rw [e1, e2, sub_self] at hsum
  exact (mul_eq_zero.mp hsum).resolve_left h.dx

/-- **C17.** Compact stencil: two solutions of the same discretisation that, once ghost cells are filled, agree in
cell `e` and its two neighbours have the same residual in cell `e` (also with enhanced faces). -/
theorem C17_stencil (h : s.Built lib p) (ps : PhysSpec K s.NF) (hps : s.kw.Pointwise ps) (u : ℕ → ℕ → K)
    (s1 s2 : Sol K) (F G : Arr K) (h1 : residual s = .ok (s1, F)) (h2 : residual (s.withVal u) = .ok (s2, G))
    (e : ℕ) (he1 : 1 ≤ e) (he2 : e ≤ s.NE)
    (hagree : ∀ n < p + 1, ∀ a, (a = e - 1 ∨ a = e ∨ a = e + 1) → ∀ f < s.NF,
      s1.u.val n (a * s.NF + f) = s2.u.val n (a * s.NF + f)) :
    ∀ n < p + 1, ∀ f < s.NF, F.val n (e * s.NF + f) = G.val n (e * s.NF + f) := by
  intro n hn f hf
  have hb2 : (s.withVal u).Built lib p := h.congr (by constructor <;> rfl) rfl rfl
  have hwf2 := hb2.wf
  have hps2 : (s.withVal u).kw.Pointwise (NF := (s.withVal u).NF) ps := hps
  have hs1 : s1 = s.applyBc := by
    obtain ⟨a, b, _⟩ := C13_weak_form h ps hps s1 F h1; rw [a, b]
  have hs2 : s2 = (s.withVal u).applyBc := by
    obtain ⟨a, b, _⟩ := C13_weak_form hb2 ps hps2 s2 G h2; rw [a, b]
  obtain ⟨r1, r2⟩ := residual_eq h.wf hps
  obtain ⟨t1, t2⟩ := residual_eq hwf2 hps2
  have g1 : ∀ i < s.NE + 1, ¬ ps.fails (s.face 1 s.applyBc.u.val i) (s.face 0 s.applyBc.u.val i) := by
    intro i hi hfl
    obtain ⟨_, _, he⟩ := r1 ⟨i, hi, hfl⟩
    rw [he] at h1; cases h1
  have g2 : ∀ i < s.NE + 1, ¬ ps.fails (s.face 1 (s.withVal u).applyBc.u.val i) (s.face 0 (s.withVal u).applyBc.u.val i) := by
    intro i hi hfl
    obtain ⟨_, _, he⟩ := t1 ⟨i, hi, hfl⟩
    rw [he] at h2; cases h2
  obtain ⟨F', hF', _, _, hFv, _⟩ := r2 g1
  obtain ⟨G', hG', _, _, hGv, _⟩ := t2 g2
  rw [hF'] at h1; cases h1
  rw [hG'] at h2; cases h2
  have hns : n < s.basis.Ns := by rw [h.ns]; exact hn
  have a := hFv n hns e he1 he2 ⟨f, hf⟩
  have b := hGv n hns e he1 he2 ⟨f, hf⟩
  simp only at a b
  rw [a]
  refine Eq.trans ?_ b.symm
  have hag : ∀ n < s.basis.Ns, ∀ a, (a = e - 1 ∨ a = e ∨ a = e + 1) → ∀ f < s.NF,
      s.applyBc.u.val n (a * s.NF + f) = (s.withVal u).applyBc.u.val n (a * s.NF + f) := by
    intro n hn' a ha f hf
    exact hagree n (by rw [← h.ns]; exact hn') a ha f hf
  have qe : ∀ i, (i = e - 1 ∨ i = e) → s.q ps s.applyBc.u.val i = s.q ps (s.withVal u).applyBc.u.val i := by
    intro i hi
    unfold Sol.q
    have hfc : ∀ side, s.face side s.applyBc.u.val i = s.face side (s.withVal u).applyBc.u.val i := by
      intro side
      apply Sol.face_congr
      intro n hn f hf
      exact ⟨hag n hn i (by omega) f hf, hag n hn (i + 1) (by omega) f hf⟩
    rw [hfc, hfc]
  have ve : s.vol ps s.applyBc.u.val n e ⟨f, hf⟩ = s.vol ps (s.withVal u).applyBc.u.val n e ⟨f, hf⟩ := by
    unfold Sol.vol
    apply Finset.sum_congr rfl
    intro g _
    congr 2
    funext f'
    apply Finset.sum_congr rfl
    intro k hk
    rw [hag k (Finset.mem_range.mp hk) e (by omega) f' f'.isLt]
  rw [ve, qe e (by omega), qe (e - 1) (by omega)]
  rfl

/-- **C20.** Where the advected solution is continuous at the left face of a cell, the residual in this cell is the
Legendre expansion of `-du/dx` (`d/dx = 2/dx d/dξ`). -/
theorem C20_exact_derivative (h : s.Built lib p) (hk : s.kw = Advection.physics) (hen : s.enhance = none)
    (s' : Sol K) (F : Arr K) (hres : residual s = .ok (s', F)) (e : ℕ) (he1 : 1 ≤ e) (he2 : e ≤ s.NE)
    (f : ℕ) (hf : f < s.NF)
    (hcont : (cellPoly s' (e - 1) f).eval 1 = (cellPoly s' e f).eval (-1)) :
    legSeries (p + 1) (fun n => F.val n (e * s.NF + f)) = -(C (2 / s.dx) * derivative (cellPoly s' e f)) := by
  obtain ⟨F', hF', hval⟩ := C13_advection h hk hen
  rw [hF'] at hres
  cases hres
  have hdeg : (-(C (2 / s.dx) * derivative (cellPoly s.applyBc e f))).degree < ((p + 1 : ℕ) : WithBot ℕ) := by
    rw [degree_neg]
    refine lt_of_le_of_lt (by rw [← smul_eq_C_mul]; exact degree_smul_le _ _) (lt_of_le_of_lt degree_derivative_le ?_)
    unfold cellPoly
    rw [(applyBc_shape s).1, h.rows]
    exact legSeries_degree _ _
  obtain ⟨c, hc⟩ := exists_legSeries (p + 1) _ hdeg
  rw [hc]
  unfold legSeries
  apply Finset.sum_congr rfl
  intro n hn
  have hn := Finset.mem_range.mp hn
  congr 2
  have h1 := intPoly_legSeries (p + 1) c n hn
  rw [← hc] at h1
  have h2 := hval n hn e he1 he2 f hf
  have h3 := intPoly_parts (legendre K n) (cellPoly s.applyBc e f)
  rw [hcont] at h2
  rw [h3] at h2
  have h4 : intPoly (-(C (2 / s.dx) * derivative (cellPoly s.applyBc e f)) * legendre K n) =
      -(2 / s.dx * intPoly (legendre K n * derivative (cellPoly s.applyBc e f))) := by
    rw [neg_mul, intPoly_neg, mul_assoc, intPoly_C_mul, mul_comm (derivative _)]
  rw [h4] at h1
  have hn0 := norm_ne_zero (K := K) n
  have hd := h.dx
  have h5 : intPoly (legendre K n * derivative (cellPoly s.applyBc e f)) = -(s.dx / 2 * (2 / (2 * (n : K) + 1)) * F.val n (e * s.NF + f)) := by
    rw [h2]; ring
  rw [h5] at h1
  field_simp at h1 ⊢
  linear_combination h1

/-- **C19.** Energy identity of the upwind discretisation on a periodic domain. -/
theorem C19_energy (h : s.Built lib p) (hk : s.kw = Advection.physics) (hen : s.enhance = none)
    (hl : s.bcl = .lit "periodic") (hr : s.bcr = .lit "periodic")
    (s' : Sol K) (F : Arr K) (hres : residual s = .ok (s', F)) (f : ℕ) (hf : f < s.NF) :
    let jump := fun e => (cellPoly s' e f).eval (-1) - (cellPoly s' (e - 1) f).eval 1
    s.dx / 2 * ∑ e ∈ Finset.Icc 1 s.NE, ∑ n ∈ Finset.range (p + 1),
        2 / (2 * (n : K) + 1) * (s'.u.val n (e * s.NF + f) * F.val n (e * s.NF + f)) =
      -(1 / 2) * ∑ e ∈ Finset.Icc 1 s.NE, jump e ^ 2 ∧
    s.dx / 2 * ∑ e ∈ Finset.Icc 1 s.NE, ∑ n ∈ Finset.range (p + 1),
        2 / (2 * (n : K) + 1) * (s'.u.val n (e * s.NF + f) * F.val n (e * s.NF + f)) ≤ 0 := by
  obtain ⟨F', hF', hval⟩ := C13_advection h hk hen
  rw [hF'] at hres
  cases hres
  intro jump
  have hset := applyBc_setup s
  have hrows : s.applyBc.u.rows = p + 1 := by rw [(applyBc_shape s).1, h.rows]
  let U := fun e => cellPoly s.applyBc e f
  have hU : ∀ e, U e = legSeries (p + 1) fun n => s.applyBc.u.val n (e * s.NF + f) := by
    intro e; simp only [U, cellPoly, hrows, hset.NF]
  have hcell : ∀ e ∈ Finset.Icc 1 s.NE, s.dx / 2 * ∑ n ∈ Finset.range (p + 1),
      2 / (2 * (n : K) + 1) * (s.applyBc.u.val n (e * s.NF + f) * F.val n (e * s.NF + f)) =
      ((U (e - 1)).eval 1 ^ 2 - (U e).eval 1 ^ 2) / 2 - 1 / 2 * ((U e).eval (-1) - (U (e - 1)).eval 1) ^ 2 := by
    intro e he
    rw [Finset.mem_Icc] at he
    have e1 : s.dx / 2 * ∑ n ∈ Finset.range (p + 1),
        2 / (2 * (n : K) + 1) * (s.applyBc.u.val n (e * s.NF + f) * F.val n (e * s.NF + f)) =
        ∑ n ∈ Finset.range (p + 1), s.applyBc.u.val n (e * s.NF + f) *
          (intPoly (derivative (legendre K n) * U e) -
        ((U e).eval 1 * (legendre K n).eval 1 - (U (e - 1)).eval 1 * (legendre K n).eval (-1))) := by
      rw [Finset.mul_sum]
      apply Finset.sum_congr rfl
      intro n hn
      rw [← hval n (Finset.mem_range.mp hn) e he.1 he.2 f hf]; ring
    rw [e1]
    have e2 : ∑ n ∈ Finset.range (p + 1), s.applyBc.u.val n (e * s.NF + f) *
          (intPoly (derivative (legendre K n) * U e) -
        ((U e).eval 1 * (legendre K n).eval 1 - (U (e - 1)).eval 1 * (legendre K n).eval (-1))) =
        intPoly (derivative (U e) * U e) - ((U e).eval 1 * (U e).eval 1 - (U (e - 1)).eval 1 * (U e).eval (-1)) := by
      conv_rhs => rw [show derivative (U e) = ∑ n ∈ Finset.range (p + 1),
          C (s.applyBc.u.val n (e * s.NF + f)) * derivative (legendre K n) by
        rw [hU, legSeries, derivative_sum]; simp [derivative_mul]]
      rw [Finset.sum_mul, intPoly_sum]
      have ev : ∀ y, (U e).eval y = ∑ n ∈ Finset.range (p + 1), s.applyBc.u.val n (e * s.NF + f) * (legendre K n).eval y := by
        intro y; rw [hU, legSeries_eval]
      conv_rhs => rw [show (U e).eval 1 * (U e).eval 1 - (U (e - 1)).eval 1 * (U e).eval (-1) =
        ∑ n ∈ Finset.range (p + 1), s.applyBc.u.val n (e * s.NF + f) *
          ((U e).eval 1 * (legendre K n).eval 1 - (U (e - 1)).eval 1 * (legendre K n).eval (-1)) by
        conv_lhs => rw [ev (-1)]; arg 1; arg 2; rw [ev 1]
        rw [Finset.mul_sum, Finset.mul_sum, ← Finset.sum_sub_distrib]
        apply Finset.sum_congr rfl
        intro n _; ring]
      rw [← Finset.sum_sub_distrib]
      apply Finset.sum_congr rfl
      intro n _
      rw [mul_assoc, intPoly_C_mul]; ring
    rw [e2]
    have e3 := intPoly_parts (U e) (U e)
    rw [mul_comm (U e) (derivative (U e))] at e3
    have e4 : intPoly (derivative (U e) * U e) = ((U e).eval 1 * (U e).eval 1 - (U e).eval (-1) * (U e).eval (-1)) / 2 := by
      linear_combination e3 / 2
    rw [e4]; ring
  have htel : ∀ N, ∑ e ∈ Finset.Icc 1 N, ((U (e - 1)).eval 1 ^ 2 - (U e).eval 1 ^ 2) / 2 =
      ((U 0).eval 1 ^ 2 - (U N).eval 1 ^ 2) / 2 := by
    intro N
    induction N with
    | zero => simp
    | succ N ih => rw [Finset.sum_Icc_succ_top (by omega), ih]; simp; ring
  have hper : U 0 = U s.NE := by
    rw [hU, hU]
    congr 1
    funext n
    have hl' : s.bcl.isLit "periodic" := by rw [hl]; exact ⟨rfl, rfl⟩
    have hr' : s.bcr.isLit "periodic" := by rw [hr]; exact ⟨rfl, rfl⟩
    exact (periodic_cells h.NF h.NE h.cols hl' hr' n hf).1
  have hmain : s.dx / 2 * ∑ e ∈ Finset.Icc 1 s.NE, ∑ n ∈ Finset.range (p + 1),
        2 / (2 * (n : K) + 1) * (s.applyBc.u.val n (e * s.NF + f) * F.val n (e * s.NF + f)) =
      -(1 / 2) * ∑ e ∈ Finset.Icc 1 s.NE, jump e ^ 2 := by
    rw [Finset.mul_sum, Finset.sum_congr rfl hcell, Finset.sum_sub_distrib, htel, hper, sub_self, zero_div, zero_sub,
      ← Finset.mul_sum]
    ring
  refine ⟨hmain, ?_⟩
  rw [hmain]
  have : 0 ≤ ∑ e ∈ Finset.Icc 1 s.NE, jump e ^ 2 := Finset.sum_nonneg fun e _ => sq_nonneg _
  linarith

/-! ### The theorems above on concrete solutions -/

/-- C13 applies to a periodic solution of any order. -/
example (p : ℕ) : ∃ F, residual (Ex.solR p) = .ok ((Ex.solR p).applyBc, F) := by
  obtain ⟨F, hF, _⟩ := C13_advection (Ex.solR_built p) rfl rfl
  exact ⟨F, hF⟩

example (p : ℕ) (err : PyErr) : residual (Ex.solR p) ≠ .error err := fun h =>
  ((C13_residual_fails (Ex.solR_built p) (Advection.spec 1) (Advection.pointwise 1)).1.mp ⟨err, h⟩).elim
    fun _ hi => hi.2

/-- C14: the residual of `sol0` is 48, -6, -10, -14, -18 in the five cells; the theorem gives the zero sum. -/
example : (Ex.resOf Ex.sol0).map (fun F => [1, 2, 3, 4, 5].map (F.val 0)) = some [48, -6, -10, -14, -18] := by
  decide +kernel

example (p : ℕ) : ∃ F, residual (Ex.solR p) = .ok ((Ex.solR p).applyBc, F) ∧
    ∑ e ∈ Finset.Icc 1 3, intPoly (legSeries (p + 1) fun n => F.val n (e * 1 + 0)) / 2 = 0 := by
  obtain ⟨F, hF, _⟩ := C13_advection (Ex.solR_built p) rfl rfl
  exact ⟨F, hF, (C14_conservation (Ex.solR_built p) (Advection.spec 1) (Advection.pointwise 1) _ F hF
    (⟨0, by norm_num [Ex.solR]⟩ : Fin (Ex.solR p).NF)).2 rfl rfl⟩

/-- C17: with cell 3 of `sol0` changed from 9 to 100, cell 1 (neighbours 5 and 2) keeps its residual while
cell 4 does not. -/
example : ∃ s1 s2 F G, residual Ex.sol0 = .ok (s1, F) ∧
    residual (Ex.sol0.withVal fun _ c => if c = 3 then 100 else (c : ℚ) ^ 2) = .ok (s2, G) ∧
    F.val 0 (1 * 1 + 0) = G.val 0 (1 * 1 + 0) := by
  obtain ⟨F, hF, _⟩ := C13_advection Ex.sol0_built rfl rfl
  have hb2 : (Ex.sol0.withVal fun _ c => if c = 3 then 100 else (c : ℚ) ^ 2).Built Ex.gauss0 0 :=
    Ex.sol0_built.congr (by constructor <;> rfl) rfl rfl
  obtain ⟨G, hG, _⟩ := C13_advection hb2 rfl rfl
  refine ⟨_, _, F, G, hF, hG, ?_⟩
  refine C17_stencil Ex.sol0_built (Advection.spec 1) (Advection.pointwise 1) _ _ _ F G hF hG 1 le_rfl
    (by decide) ?_ 0 (by omega) 0 (by decide)
  intro n hn a ha f hf
  obtain rfl : n = 0 := by omega
  obtain rfl : f = 0 := by have : Ex.sol0.NF = 1 := rfl; omega
  rcases ha with rfl | rfl | rfl <;> decide +kernel

example : (Ex.resOf (Ex.sol0.withVal fun _ c => if c = 3 then 100 else (c : ℚ) ^ 2)).map
    (fun F => [1, 2, 3, 4, 5].map (F.val 0)) = some [48, -6, -192, 168, -18] := by decide +kernel

/-- C20: for the continuous line `2e + ξ` the residual of cell 2 is the constant `-(2/dx)·1 = -4`. -/
example (p : ℕ) : ∃ s' F, residual (Ex.lineR p) = .ok (s', F) ∧
    legSeries (p + 1 + 1) (fun n => F.val n (2 * 1 + 0)) = C (-4) := by
  have hb := Ex.lineR_built p
  obtain ⟨F, hF, _⟩ := C13_advection hb rfl rfl
  refine ⟨_, F, hF, ?_⟩
  have h12 : (cellPoly (Ex.lineR p).applyBc (2 - 1) 0).eval 1 = (cellPoly (Ex.lineR p).applyBc 2 0).eval (-1) := by
    rw [Ex.lineR_cell p (by norm_num) (by norm_num), Ex.lineR_cell p (by norm_num) (by norm_num)]
    norm_num
  have := C20_exact_derivative hb rfl rfl _ F hF 2 (by norm_num) (by show 2 ≤ 3; norm_num) 0 hb.NF h12
  rw [show (2 * 1 + 0 : ℕ) = 2 * (Ex.lineR p).NF + 0 from rfl, this, Ex.lineR_cell p (by norm_num) (by norm_num)]
  rw [show (Ex.lineR p).dx = 1 / 2 from rfl]
  simp only [derivative_add, derivative_C, derivative_X, zero_add, mul_one, ← C_neg]
  norm_num

/-- C19 on a concrete solution. -/
example (p : ℕ) : ∃ F, residual (Ex.solR p) = .ok ((Ex.solR p).applyBc, F) ∧
    1 / 2 / 2 * ∑ e ∈ Finset.Icc 1 3, ∑ n ∈ Finset.range (p + 1),
        2 / (2 * (n : ℝ) + 1) * ((Ex.solR p).applyBc.u.val n (e * 1 + 0) * F.val n (e * 1 + 0)) ≤ 0 := by
  obtain ⟨F, hF, _⟩ := C13_advection (Ex.solR_built p) rfl rfl
  exact ⟨F, hF, (C19_energy (Ex.solR_built p) rfl rfl rfl rfl _ F hF 0 (by norm_num [Ex.solR])).2⟩

end Residual

end Dg1d.Props
