import Verif.Proofs.Energy
import Verif.Props.Steady
import Mathlib.Analysis.Normed.Module.FiniteDimension

/-! Helper lemmas: linear advection on a periodic domain drives every state towards its mean. -/

set_option linter.unusedSectionVars false

open Polynomial Dg1d.Spec

namespace Dg1d

/-- `taylor3_contract` with the loss: if `⟨Dx, Dx⟩ ≤ θ ⟨x, x⟩` the step loses at least `(1 - θ)/18 ⟨DDu, DDu⟩`. -/
lemma taylor3_loss {V : Type*} [AddCommGroup V] [Module ℝ V] (B : V →ₗ[ℝ] V →ₗ[ℝ] ℝ) (hsym : ∀ x y, B x y = B y x) (hpos : ∀ x, 0 ≤ B x x) (D : V →ₗ[ℝ] V)
    (hneg : ∀ x, B (D x) x ≤ 0) {θ : ℝ} (hle : ∀ x, B (D x) (D x) ≤ θ * B x x) (u : V) :
    let r := u + D u + (1 / 2 : ℝ) • D (D u) + (1 / 6 : ℝ) • D (D (D u))
    B r r ≤ B u u - (1 - θ) / 18 * B (D (D u)) (D (D u)) := by
  intro r
  set v := D u with hv
  set w := D v with hw
  set z := D w with hz
  have h1 := hneg (u + (1 / 2 : ℝ) • v + (1 / 6 : ℝ) • w)
  have h2 := hneg (v + w)
  have h3 := hle w
  have h4 := hpos (w + z)
  simp only [r, map_add, map_smul, LinearMap.add_apply, LinearMap.smul_apply, smul_eq_mul, ← hv, ← hw, ← hz] at h1 h2 h3 h4 ⊢
  rw [hsym v u, hsym w u, hsym z u, hsym w v, hsym z v, hsym z w] at *
  linarith

section
variable {s : Sol ℝ} {lib : GaussLib ℝ} {p : ℕ}

/-- The residual of `s` with other entries, cell by cell, in terms of the polynomials of the cells; cell 0 is the last one. -/
lemma advLin_weak (hb : s.Built lib p) (hk : s.kw = Advection.physics) (hen : s.enhance = none)
    (hl : s.bcl = .lit "periodic") (hr : s.bcr = .lit "periodic") {f : ℕ} (hf : f < s.NF) (v : ℕ → ℕ → ℝ) :
    let U := fun e => legSeries (p + 1) fun n => v n ((if e = 0 then s.NE else e) * s.NF + f)
    (∀ e ≤ s.NE, cellPoly (s.withVal v).applyBc e f = U e) ∧
    ∀ n < p + 1, ∀ e, 1 ≤ e → e ≤ s.NE → s.dx / 2 * (2 / (2 * (n : ℝ) + 1)) * advLin s hb.wf v n (e * s.NF + f) =
      intPoly (derivative (legendre ℝ n) * U e) - ((U e).eval 1 * (legendre ℝ n).eval 1 - (U (e - 1)).eval 1 * (legendre ℝ n).eval (-1)) := by
  intro U
  obtain ⟨F, hF, hv⟩ := advLin_residual hb.wf hk hen v
  have hlike := withVal_like s v
  have hB := hlike.built hb
  obtain ⟨F', hF', hval⟩ := Props.C13_advection hB hk hen
  rw [hF] at hF'
  cases hF'
  rw [hv] at hval
  have hrows : (s.withVal v).applyBc.u.rows = p + 1 := by rw [(applyBc_shape _).1, hB.rows]
  have hset := applyBc_setup (s.withVal v)
  have hint : ∀ e, 1 ≤ e → e ≤ s.NE → ∀ n, (s.withVal v).applyBc.u.val n (e * s.NF + f) = v n (e * s.NF + f) := by
    intro e h1 h2 n
    rw [hlike.applyBc_val hb.wf, bcCol_interior s h1 h2 hf]
    rfl
  have hU : ∀ e ≤ s.NE, cellPoly (s.withVal v).applyBc e f = U e := by
    intro e he
    unfold cellPoly
    rw [hrows, hset.NF]
    show legSeries (p + 1) (fun n => (s.withVal v).applyBc.u.val n (e * s.NF + f)) = _
    simp only [U]
    congr 1
    funext n
    by_cases h0 : e = 0
    · rw [if_pos h0, h0]
      have := (periodic_cells (s := s.withVal v) hb.wf.NF hb.wf.NE hb.wf.cols (by rw [show (s.withVal v).bcl = _ from hl]; exact ⟨rfl, rfl⟩)
        (by rw [show (s.withVal v).bcr = _ from hr]; exact ⟨rfl, rfl⟩) n (f := f) hf).1
      exact this.trans (hint _ hb.NE le_rfl n)
    · rw [if_neg h0]
      exact hint e (by omega) he n
  refine ⟨hU, fun n hn e h1 h2 => ?_⟩
  rw [← hU e h2, ← hU (e - 1) (by omega)]
  exact hval n hn e h1 h2 f hf

/-- What the residual is inside does not depend on ghost cells. -/
lemma advLin_congr (hb : s.Built lib p) (hk : s.kw = Advection.physics) (hen : s.enhance = none)
    (hl : s.bcl = .lit "periodic") (hr : s.bcr = .lit "periodic") {f : ℕ} (hf : f < s.NF) {v w : ℕ → ℕ → ℝ}
    (h : ∀ n < p + 1, ∀ e, 1 ≤ e → e ≤ s.NE → v n (e * s.NF + f) = w n (e * s.NF + f)) :
    ∀ n < p + 1, ∀ e, 1 ≤ e → e ≤ s.NE → advLin s hb.wf v n (e * s.NF + f) = advLin s hb.wf w n (e * s.NF + f) := by
  intro n hn e h1 h2
  have hv := (advLin_weak hb hk hen hl hr hf v).2 n hn e h1 h2
  have hw := (advLin_weak hb hk hen hl hr hf w).2 n hn e h1 h2
  have hE := hb.NE
  have hU : ∀ e ≤ s.NE, (legSeries (p + 1) fun n => v n ((if e = 0 then s.NE else e) * s.NF + f)) =
      legSeries (p + 1) fun n => w n ((if e = 0 then s.NE else e) * s.NF + f) := by
    intro e he
    unfold legSeries
    refine Finset.sum_congr rfl fun n hn => ?_
    beta_reduce
    rw [h n (Finset.mem_range.mp hn) _ (by split_ifs <;> omega) (by split_ifs <;> omega)]
  beta_reduce at hv hw
  rw [hU e h2, hU (e - 1) (by omega), ← hw] at hv
  have hne : s.dx / 2 * (2 / (2 * (n : ℝ) + 1)) ≠ 0 := mul_ne_zero (div_ne_zero hb.dx two_ne_zero) (by positivity)
  exact mul_left_cancel₀ hne hv

/-- The sum of the averages of the residual is zero. -/
lemma advLin_sum (hb : s.Built lib p) (hk : s.kw = Advection.physics) (hen : s.enhance = none)
    (hl : s.bcl = .lit "periodic") (hr : s.bcr = .lit "periodic") {f : ℕ} (hf : f < s.NF) (v : ℕ → ℕ → ℝ) :
    ∑ e ∈ Finset.Icc 1 s.NE, advLin s hb.wf v 0 (e * s.NF + f) = 0 := by
  have hv := (advLin_weak hb hk hen hl hr hf v).2 0 (by omega)
  set U := fun e => legSeries (p + 1) fun n => v n ((if e = 0 then s.NE else e) * s.NF + f) with hU
  have hE := hb.NE
  have key : ∀ e ∈ Finset.Icc 1 s.NE, s.dx * advLin s hb.wf v 0 (e * s.NF + f) = (U (e - 1)).eval 1 - (U e).eval 1 := by
    intro e he
    rw [Finset.mem_Icc] at he
    have := hv e he.1 he.2
    rw [legendre_zero] at this
    simp only [derivative_one, zero_mul, eval_one, mul_one, Nat.cast_zero, mul_zero, zero_add] at this
    rw [show intPoly (0 : ℝ[X]) = 0 by simpa using intPoly_C_mul (K := ℝ) 0 1] at this
    linarith
  have htel : ∀ N, ∑ e ∈ Finset.Icc 1 N, ((U (e - 1)).eval 1 - (U e).eval 1) = (U 0).eval 1 - (U N).eval 1 := by
    intro N
    induction N with
    | zero => simp
    | succ N ih => rw [Finset.sum_Icc_succ_top (by omega), ih]; simp
  have h0 : U 0 = U s.NE := by simp [hU]
  have h1 : s.dx * ∑ e ∈ Finset.Icc 1 s.NE, advLin s hb.wf v 0 (e * s.NF + f) = 0 := by
    rw [Finset.mul_sum, Finset.sum_congr rfl key, htel, h0, sub_self]
  exact (mul_eq_zero.mp h1).resolve_left hb.dx

/-- Only constants have residual zero, and they do. -/
lemma advLin_kernel (hb : s.Built lib p) (hk : s.kw = Advection.physics) (hen : s.enhance = none)
    (hl : s.bcl = .lit "periodic") (hr : s.bcr = .lit "periodic") {f : ℕ} (hf : f < s.NF) (v : ℕ → ℕ → ℝ) :
    (∀ n < p + 1, ∀ e, 1 ≤ e → e ≤ s.NE → advLin s hb.wf v n (e * s.NF + f) = 0) ↔
    ∃ m : ℝ, ∀ n < p + 1, ∀ e, 1 ≤ e → e ≤ s.NE → v n (e * s.NF + f) = if n = 0 then m else 0 := by
  obtain ⟨F, hF, hv⟩ := advLin_residual hb.wf hk hen v
  have hB := (withVal_like s v).built hb
  have hE := hb.NE
  obtain ⟨hU, -⟩ := advLin_weak hb hk hen hl hr hf v
  set U := fun e => legSeries (p + 1) fun n => v n ((if e = 0 then s.NE else e) * s.NF + f) with hUdef
  have h20 := Props.C20_exact_derivative hB hk hen _ F hF
  have h19 := (Props.C19_energy hB hk hen hl hr _ F hF f hf).1
  simp only at h19
  rw [hv] at h19
  have hd0 : (2 / s.dx : ℝ) ≠ 0 := div_ne_zero two_ne_zero hb.dx
  constructor
  · intro hz
    have hj : ∀ e ∈ Finset.Icc 1 s.NE, (U e).eval (-1) = (U (e - 1)).eval 1 := by
      have hsum : ∑ e ∈ Finset.Icc 1 s.NE, ((U e).eval (-1) - (U (e - 1)).eval 1) ^ 2 = 0 := by
        have e1 : ∑ e ∈ Finset.Icc 1 s.NE, ((U e).eval (-1) - (U (e - 1)).eval 1) ^ 2 =
            ∑ e ∈ Finset.Icc 1 (s.withVal v).NE, ((cellPoly (s.withVal v).applyBc e f).eval (-1) - (cellPoly (s.withVal v).applyBc (e - 1) f).eval 1) ^ 2 :=
          Finset.sum_congr rfl fun e he => by
            rw [Finset.mem_Icc] at he
            rw [hU e he.2, hU (e - 1) ((Nat.sub_le _ _).trans he.2)]
        have e2 : ∑ e ∈ Finset.Icc 1 (s.withVal v).NE, ∑ n ∈ Finset.range (p + 1), 2 / (2 * (n : ℝ) + 1) *
            ((s.withVal v).applyBc.u.val n (e * (s.withVal v).NF + f) * advLin s hb.wf v n (e * (s.withVal v).NF + f)) = 0 :=
          Finset.sum_eq_zero fun e he => Finset.sum_eq_zero fun n hn => by
            rw [Finset.mem_Icc] at he
            rw [show advLin s hb.wf v n (e * (s.withVal v).NF + f) = 0 from hz n (Finset.mem_range.mp hn) e he.1 he.2]
            ring
        rw [e2] at h19
        rw [e1]
        linarith
      intro e he
      have := (Finset.sum_eq_zero_iff_of_nonneg (fun e _ => sq_nonneg _)).mp hsum e he
      have := pow_eq_zero_iff (two_ne_zero) |>.mp this
      linarith
    have hconst : ∀ e, 1 ≤ e → e ≤ s.NE → ∃ x, U e = C x := by
      intro e h1 h2
      have h := h20 e h1 h2 f hf (by rw [hU e h2, hU (e - 1) (by omega)]; exact (hj e (Finset.mem_Icc.mpr ⟨h1, h2⟩)).symm)
      rw [hU e h2, hv] at h
      have hs : legSeries (p + 1) (fun n => advLin s hb.wf v n (e * (s.withVal v).NF + f)) = 0 :=
        Finset.sum_eq_zero fun n hn => by
          beta_reduce
          rw [show advLin s hb.wf v n (e * (s.withVal v).NF + f) = 0 from hz n (Finset.mem_range.mp hn) e h1 h2]
          simp
      rw [hs] at h
      have hder : derivative (U e) = 0 := by
        have h := neg_eq_zero.mp h.symm
        rcases mul_eq_zero.mp h with h | h
        · exact absurd (C_eq_zero.mp h) hd0
        · exact h
      exact ⟨_, eq_C_of_derivative_eq_zero hder⟩
    obtain ⟨m, hm⟩ := hconst 1 le_rfl hE
    have hall : ∀ e, 1 ≤ e → e ≤ s.NE → U e = C m := by
      intro e h1
      induction e, h1 using Nat.le_induction with
      | base => exact fun _ => hm
      | succ e h1 ih =>
        intro h2
        obtain ⟨x, hx⟩ := hconst (e + 1) (by omega) h2
        have := hj (e + 1) (Finset.mem_Icc.mpr ⟨by omega, h2⟩)
        rw [hx, Nat.add_sub_cancel, ih (by omega)] at this
        simp only [eval_C] at this
        rw [hx, this]
    refine ⟨m, fun n hn e h1 h2 => ?_⟩
    have := Props.coeff_const (hall e h1 h2) n hn
    rwa [if_neg (by omega)] at this
  · rintro ⟨m, hm⟩ n hn e h1 h2
    have hc : ∀ e ≤ s.NE, U e = C m := fun e he =>
      Props.legSeries_const _ _ _ (by omega) fun n hn => hm n hn _ (by split_ifs <;> omega) (by split_ifs <;> omega)
    have h := h20 e h1 h2 f hf (by rw [hU e h2, hU (e - 1) (by omega), hc e h2, hc (e - 1) (by omega)]; simp)
    rw [hU e h2, hv, hc e h2, derivative_C, mul_zero, neg_zero] at h
    have h0 : legSeries (p + 1) (fun _ => (0 : ℝ)) = 0 := by simp [legSeries]
    exact legSeries_injective (p + 1) _ _ (h.trans h0.symm) n hn

/-- The mean of field `f`, and the form of the deviation from it. -/
noncomputable def sumMeans (s : Sol ℝ) (f : ℕ) (v : ℕ → ℕ → ℝ) : ℝ := ∑ e ∈ Finset.Icc 1 s.NE, v 0 (e * s.NF + f)

/-- Entries of the cells inside from a vector with one component per cell and mode. -/
def fromVec (s : Sol ℝ) (p f : ℕ) : (Fin s.NE × Fin (p + 1) → ℝ) →ₗ[ℝ] (ℕ → ℕ → ℝ) where
  toFun x n c := if h : n < p + 1 ∧ (c - f) / s.NF - 1 < s.NE then x (⟨(c - f) / s.NF - 1, h.2⟩, ⟨n, h.1⟩) else 0
  map_add' x y := by
    funext n c
    simp only [Pi.add_apply]
    split_ifs <;> simp
  map_smul' a x := by
    funext n c
    simp only [Pi.smul_apply, smul_eq_mul, RingHom.id_apply]
    split_ifs <;> simp

lemma fromVec_apply {f : ℕ} (hf : f < s.NF) (x : Fin s.NE × Fin (p + 1) → ℝ) (e : Fin s.NE) (n : Fin (p + 1)) :
    fromVec s p f x n ((e + 1 : ℕ) * s.NF + f) = x (e, n) := by
  have h1 : ((e + 1 : ℕ) * s.NF + f - f) / s.NF - 1 = e := by
    rw [Nat.add_sub_cancel, Nat.mul_div_cancel _ (by omega)]
    omega
  show (if h : _ then _ else _) = _
  rw [dif_pos ⟨n.2, by rw [h1]; exact e.2⟩]
  congr 2
  exact Fin.ext h1

/-- The entries of the cells inside as a vector. -/
def toVec (s : Sol ℝ) (p f : ℕ) : (ℕ → ℕ → ℝ) →ₗ[ℝ] (Fin s.NE × Fin (p + 1) → ℝ) where
  toFun v i := v i.2 ((i.1 + 1 : ℕ) * s.NF + f)
  map_add' _ _ := rfl
  map_smul' _ _ := rfl

lemma form_lower (f : ℕ) (v : ℕ → ℕ → ℝ) (i : Fin s.NE × Fin (p + 1)) : 2 / (2 * (p : ℝ) + 1) * toVec s p f v i ^ 2 ≤ cellForm s p f v v := by
  rw [cellForm_apply]
  have hi : (i.2 : ℝ) ≤ p := by exact_mod_cast (by have := i.2.2; omega : (i.2 : ℕ) ≤ p)
  have h0 : (0 : ℝ) ≤ i.2 := Nat.cast_nonneg _
  calc 2 / (2 * (p : ℝ) + 1) * toVec s p f v i ^ 2 ≤ 2 / (2 * ((i.2 : ℕ) : ℝ) + 1) * (v i.2 ((i.1 + 1 : ℕ) * s.NF + f) * v i.2 ((i.1 + 1 : ℕ) * s.NF + f)) := by
        rw [← pow_two]
        show _ * v i.2 ((i.1 + 1 : ℕ) * s.NF + f) ^ 2 ≤ _
        gcongr
    _ ≤ ∑ n ∈ Finset.range (p + 1), 2 / (2 * (n : ℝ) + 1) * (v n ((i.1 + 1 : ℕ) * s.NF + f) * v n ((i.1 + 1 : ℕ) * s.NF + f)) :=
        Finset.single_le_sum (f := fun n : ℕ => 2 / (2 * (n : ℝ) + 1) * (v n ((i.1 + 1 : ℕ) * s.NF + f) * v n ((i.1 + 1 : ℕ) * s.NF + f)))
          (fun n _ => mul_nonneg (by positivity) (mul_self_nonneg _)) (Finset.mem_range.mpr i.2.2)
    _ ≤ _ := Finset.single_le_sum (f := fun e => ∑ n ∈ Finset.range (p + 1), 2 / (2 * (n : ℝ) + 1) * (v n (e * s.NF + f) * v n (e * s.NF + f)))
          (fun e _ => cell_nonneg _ _) (Finset.mem_Icc.mpr ⟨by omega, by have := i.1.2; omega⟩)

lemma form_upper (f : ℕ) (v : ℕ → ℕ → ℝ) {B : ℝ} (hB : ∀ i, |toVec s p f v i| ≤ B) : cellForm s p f v v ≤ s.NE * ((p + 1) * (2 * B ^ 2)) := by
  rw [cellForm_apply]
  have h1 : ∀ e ∈ Finset.Icc 1 s.NE, ∑ n ∈ Finset.range (p + 1), 2 / (2 * (n : ℝ) + 1) * (v n (e * s.NF + f) * v n (e * s.NF + f)) ≤ (p + 1) * (2 * B ^ 2) := by
    intro e he
    rw [Finset.mem_Icc] at he
    have h2 : ∀ n ∈ Finset.range (p + 1), 2 / (2 * (n : ℝ) + 1) * (v n (e * s.NF + f) * v n (e * s.NF + f)) ≤ 2 * B ^ 2 := by
      intro n hn
      have h3 := hB (⟨e - 1, by omega⟩, ⟨n, Finset.mem_range.mp hn⟩)
      have h4 : |v n (e * s.NF + f)| ≤ B := by
        have e4 : toVec s p f v (⟨e - 1, by omega⟩, ⟨n, Finset.mem_range.mp hn⟩) = v n (e * s.NF + f) := by
          show v n ((e - 1 + 1) * s.NF + f) = _
          rw [Nat.sub_add_cancel he.1]
        rwa [e4] at h3
      have h5 : v n (e * s.NF + f) * v n (e * s.NF + f) ≤ B ^ 2 := by
        rw [← pow_two, ← sq_abs]
        exact pow_le_pow_left₀ (abs_nonneg _) h4 2
      have h6 : (2 : ℝ) / (2 * (n : ℝ) + 1) ≤ 2 := div_le_self (by norm_num) (by have : (0 : ℝ) ≤ n := Nat.cast_nonneg _; linarith)
      exact mul_le_mul h6 h5 (mul_self_nonneg _) (by norm_num)
    refine (Finset.sum_le_sum h2).trans (le_of_eq ?_)
    rw [Finset.sum_const, Finset.card_range, nsmul_eq_mul]
    push_cast
    ring
  refine (Finset.sum_le_sum h1).trans (le_of_eq ?_)
  rw [Finset.sum_const, Nat.card_Icc, nsmul_eq_mul, Nat.add_sub_cancel]

/-- The residual of a state is at least as large as a fixed multiple of its deviation from the mean. -/
lemma advLin_coercive (hb : s.Built lib p) (hk : s.kw = Advection.physics) (hen : s.enhance = none)
    (hl : s.bcl = .lit "periodic") (hr : s.bcr = .lit "periodic") {f : ℕ} (hf : f < s.NF) :
    ∃ c : ℝ, 0 < c ∧ ∀ v, c * (cellForm s p f v v - 2 * sumMeans s f v ^ 2 / s.NE) ≤ cellForm s p f (advLin s hb.wf v) (advLin s hb.wf v) := by
  have hE := hb.NE
  have hEr : (0 : ℝ) < s.NE := by exact_mod_cast hE
  let D : (Fin s.NE × Fin (p + 1) → ℝ) →ₗ[ℝ] (Fin s.NE × Fin (p + 1) → ℝ) × ℝ :=
    (toVec s p f ∘ₗ advLin s hb.wf ∘ₗ fromVec s p f).prod (∑ e : Fin s.NE, LinearMap.proj (e, (0 : Fin (p + 1))))
  have hback : ∀ v, ∀ n < p + 1, ∀ e, 1 ≤ e → e ≤ s.NE → fromVec s p f (toVec s p f v) n (e * s.NF + f) = v n (e * s.NF + f) := by
    intro v n hn e h1 h2
    have := fromVec_apply hf (toVec s p f v) ⟨e - 1, by omega⟩ ⟨n, hn⟩
    simp only [Nat.sub_add_cancel h1] at this
    rw [this]
    show v n ((e - 1 + 1) * s.NF + f) = _
    rw [Nat.sub_add_cancel h1]
  have hker : LinearMap.ker D = ⊥ := by
    rw [LinearMap.ker_eq_bot']
    intro x hx
    have hx1 : toVec s p f (advLin s hb.wf (fromVec s p f x)) = 0 := congrArg Prod.fst hx
    have hx2 : ∑ e : Fin s.NE, x (e, 0) = 0 := by
      have := congrArg Prod.snd hx
      simpa [D] using this
    obtain ⟨m, hm⟩ := (advLin_kernel hb hk hen hl hr hf (fromVec s p f x)).mp (fun n hn e h1 h2 => by
      have := congrFun hx1 (⟨e - 1, by omega⟩, ⟨n, hn⟩)
      have e4 : toVec s p f (advLin s hb.wf (fromVec s p f x)) (⟨e - 1, by omega⟩, ⟨n, hn⟩) = advLin s hb.wf (fromVec s p f x) n (e * s.NF + f) := by
        show advLin s hb.wf (fromVec s p f x) n ((e - 1 + 1) * s.NF + f) = _
        rw [Nat.sub_add_cancel h1]
      rw [← e4, this]
      rfl)
    have hx' : ∀ i : Fin s.NE × Fin (p + 1), x i = if (i.2 : ℕ) = 0 then m else 0 := by
      rintro ⟨e, n⟩
      rw [← fromVec_apply hf x e n]
      exact hm n n.2 (e + 1) (by omega) (by have := e.2; omega)
    have hm0 : m = 0 := by
      rw [Finset.sum_congr rfl fun e _ => hx' (e, 0)] at hx2
      simp only [Fin.val_zero, if_true, Finset.sum_const, Finset.card_univ, Fintype.card_fin, nsmul_eq_mul] at hx2
      exact (mul_eq_zero.mp hx2).resolve_left hEr.ne'
    funext i
    rw [hx' i, hm0]
    simp
  obtain ⟨K, hK0, hK⟩ := D.exists_antilipschitzWith hker
  have hKr : (0 : ℝ) < K := hK0
  refine ⟨(2 / (2 * (p : ℝ) + 1)) / (s.NE * ((p + 1) * (2 * (K : ℝ) ^ 2))), by positivity, fun v => ?_⟩
  -- the deviation from the mean
  set m := sumMeans s f v / s.NE with hmdef
  let one : ℕ → ℕ → ℝ := fun n _ => if n = 0 then m else 0
  have hone : ∀ n < p + 1, ∀ e, 1 ≤ e → e ≤ s.NE → advLin s hb.wf one n (e * s.NF + f) = 0 :=
    (advLin_kernel hb hk hen hl hr hf one).mpr ⟨m, fun _ _ _ _ _ => rfl⟩
  have hdev : cellForm s p f (v - one) (v - one) = cellForm s p f v v - 2 * sumMeans s f v ^ 2 / s.NE := by
    have h1 : ∀ w, cellForm s p f w one = 2 * m * sumMeans s f w := by
      intro w
      rw [cellForm_apply, sumMeans, Finset.mul_sum]
      refine Finset.sum_congr rfl fun e _ => ?_
      rw [Finset.sum_eq_single 0 (fun n _ hn => by simp [one, hn]) (by simp)]
      simp only [one, if_true, Nat.cast_zero]
      ring
    have h2 : sumMeans s f one = s.NE * m := by
      unfold sumMeans
      simp [one]
    have h3 : sumMeans s f v = s.NE * m := by rw [hmdef]; field_simp
    simp only [map_sub, LinearMap.sub_apply]
    rw [h1, h1, cellForm_symm s p f one v, h1, h2, h3]
    field_simp
    ring
  have hres : cellForm s p f (advLin s hb.wf (v - one)) (advLin s hb.wf (v - one)) = cellForm s p f (advLin s hb.wf v) (advLin s hb.wf v) := by
    rw [cellForm_apply, cellForm_apply]
    refine Finset.sum_congr rfl fun e he => Finset.sum_congr rfl fun n hn => ?_
    rw [Finset.mem_Icc] at he
    rw [map_sub, Pi.sub_apply, Pi.sub_apply, hone n (Finset.mem_range.mp hn) e he.1 he.2, sub_zero]
  rw [← hdev, ← hres]
  set d := v - one with hd
  -- the bound for `d`
  have hmean : ∑ e : Fin s.NE, toVec s p f d (e, 0) = 0 := by
    have h3 : sumMeans s f v = s.NE * m := by rw [hmdef]; field_simp
    have h4 : ∑ e : Fin s.NE, toVec s p f d (e, 0) = ∑ e ∈ Finset.range s.NE, d 0 ((e + 1) * s.NF + f) := by
      rw [Finset.sum_range]
      rfl
    have h5 : ∀ (g : ℕ → ℝ) (N : ℕ), ∑ e ∈ Finset.range N, g (e + 1) = ∑ e ∈ Finset.Icc 1 N, g e := by
      intro g N
      induction N with
      | zero => simp
      | succ N ih => rw [Finset.sum_range_succ, ih, Finset.sum_Icc_succ_top (by omega)]
    rw [h4, h5 fun e => d 0 (e * s.NF + f)]
    simp only [hd, Pi.sub_apply, one, if_true, Finset.sum_sub_distrib, Finset.sum_const, Nat.card_Icc, Nat.add_sub_cancel, nsmul_eq_mul]
    rw [← h3, sumMeans, sub_self]
  set R := ‖toVec s p f (advLin s hb.wf d)‖ with hR
  have hDd : D (toVec s p f d) = (toVec s p f (advLin s hb.wf d), 0) := by
    refine Prod.ext ?_ ?_
    · funext i
      show advLin s hb.wf (fromVec s p f (toVec s p f d)) i.2 ((i.1 + 1 : ℕ) * s.NF + f) = _
      exact advLin_congr hb hk hen hl hr hf (hback d) i.2 i.2.2 (i.1 + 1) (by omega) (by have := i.1.2; omega)
    · show (∑ e : Fin s.NE, (LinearMap.proj (e, (0 : Fin (p + 1))) : (Fin s.NE × Fin (p + 1) → ℝ) →ₗ[ℝ] ℝ)) (toVec s p f d) = 0
      rw [← hmean]
      simp
  have hbound : ‖toVec s p f d‖ ≤ K * R := by
    have := hK.le_mul_dist (toVec s p f d) 0
    rw [dist_zero_right, map_zero, dist_zero_right, hDd, Prod.norm_mk, norm_zero, max_eq_left (norm_nonneg _)] at this
    exact this
  have hup := form_upper (s := s) (p := p) f d (B := K * R) fun i => (norm_le_pi_norm (toVec s p f d) i).trans hbound
  -- the sup norm of the residual is attained
  obtain ⟨i, hi⟩ : ∃ i, ‖toVec s p f (advLin s hb.wf d) i‖ = R := by
    have : Nonempty (Fin s.NE × Fin (p + 1)) := ⟨(⟨0, hE⟩, 0)⟩
    obtain ⟨i, -, hi⟩ := Finset.exists_mem_eq_sup' (Finset.univ_nonempty (α := Fin s.NE × Fin (p + 1))) fun i => ‖toVec s p f (advLin s hb.wf d) i‖
    refine ⟨i, le_antisymm (norm_le_pi_norm _ i) ?_⟩
    rw [hR, pi_norm_le_iff_of_nonneg (norm_nonneg _)]
    intro j
    rw [← hi]
    exact Finset.le_sup' (fun i => ‖toVec s p f (advLin s hb.wf d) i‖) (Finset.mem_univ j)
  have hlow := form_lower (s := s) (p := p) f (advLin s hb.wf d) i
  rw [← sq_abs, ← Real.norm_eq_abs, hi] at hlow
  refine le_trans ?_ hlow
  rw [div_mul_eq_mul_div, div_le_iff₀ (by positivity)]
  have h2p : (0 : ℝ) ≤ 2 / (2 * (p : ℝ) + 1) := by positivity
  calc 2 / (2 * (p : ℝ) + 1) * cellForm s p f d d ≤ 2 / (2 * (p : ℝ) + 1) * (s.NE * ((p + 1) * (2 * (K * R) ^ 2))) := mul_le_mul_of_nonneg_left hup h2p
    _ = _ := by ring

/-- A third order Taylor step of length `h` with `3 (p+1)² h ≤ θ dx` loses a fixed multiple of `h⁴` times the deviation from the mean. -/
lemma advLin_decay (hb : s.Built lib p) (hk : s.kw = Advection.physics) (hen : s.enhance = none)
    (hl : s.bcl = .lit "periodic") (hr : s.bcr = .lit "periodic") (hdx : 0 < s.dx) {f : ℕ} (hf : f < s.NF) {c : ℝ} (hc : 0 < c)
    (hco : ∀ v, c * (cellForm s p f v v - 2 * sumMeans s f v ^ 2 / s.NE) ≤ cellForm s p f (advLin s hb.wf v) (advLin s hb.wf v))
    {θ : ℝ} (hθ : θ < 1) (h : ℝ) (h0 : 0 ≤ h) (h1 : 3 * ((p : ℝ) + 1) ^ 2 * h ≤ θ * s.dx) (v : ℕ → ℕ → ℝ) :
    let L := advLin s hb.wf
    let r := v + h • L v + (h ^ 2 / 2) • L (L v) + (h ^ 3 / 6) • L (L (L v))
    cellForm s p f r r - 2 * sumMeans s f r ^ 2 / s.NE ≤
      (1 - (1 - θ ^ 2) / 18 * c ^ 2 * h ^ 4) * (cellForm s p f v v - 2 * sumMeans s f v ^ 2 / s.NE) := by
  intro L r
  have hθ0 : 0 ≤ θ := by
    by_contra hneg
    have : θ * s.dx < 0 := mul_neg_of_neg_of_pos (not_le.mp hneg) hdx
    have : 0 ≤ 3 * ((p : ℝ) + 1) ^ 2 * h := by positivity
    linarith
  have key := taylor3_loss (cellForm s p f) (cellForm_symm s p f) (cellForm_nonneg s p f) (h • L)
    (fun x => by
      simp only [LinearMap.smul_apply, map_smul, smul_eq_mul]
      exact mul_nonpos_of_nonneg_of_nonpos h0 (advLin_neg hb hk hen hl hr hdx hf x)) (θ := θ ^ 2)
    (fun x => by
      simp only [LinearMap.smul_apply, map_smul, smul_eq_mul]
      have b := advLin_bound hb hk hen hl hr hf x
      have n1 := cellForm_nonneg s p f x
      have n2 := cellForm_nonneg s p f (L x)
      have c : (3 * ((p : ℝ) + 1) ^ 2) ^ 2 * h ^ 2 ≤ θ ^ 2 * s.dx ^ 2 := by
        rw [← mul_pow, ← mul_pow]
        exact pow_le_pow_left₀ (by positivity) h1 2
      have d1 : s.dx ^ 2 * (h ^ 2 * cellForm s p f (L x) (L x)) ≤ s.dx ^ 2 * (θ ^ 2 * cellForm s p f x x) := by
        nlinarith [mul_le_mul_of_nonneg_right c n1, mul_le_mul_of_nonneg_left b (sq_nonneg h)]
      have := le_of_mul_le_mul_left d1 (by positivity)
      linarith) v
  simp only [LinearMap.smul_apply, map_smul, smul_smul] at key
  have e : r = v + h • L v + (1 / 2 * (h * h)) • L (L v) + (1 / 6 * (h * h * h)) • L (L (L v)) := by
    simp only [r]
    rw [show h ^ 2 / 2 = 1 / 2 * (h * h) by ring, show h ^ 3 / 6 = 1 / 6 * (h * h * h) by ring]
  rw [← e] at key
  simp only [smul_eq_mul] at key
  have hsum : ∀ w, sumMeans s f (L w) = 0 := fun w => advLin_sum hb hk hen hl hr hf w
  have hr0 : sumMeans s f r = sumMeans s f v := by
    have : sumMeans s f r = sumMeans s f v + h * sumMeans s f (L v) + h ^ 2 / 2 * sumMeans s f (L (L v)) + h ^ 3 / 6 * sumMeans s f (L (L (L v))) := by
      unfold sumMeans
      simp only [r, Pi.add_apply, Pi.smul_apply, smul_eq_mul, Finset.sum_add_distrib, Finset.mul_sum]
    rw [this, hsum, hsum, hsum]
    ring
  have g1 := hco v
  have g2 := hco (L v)
  rw [hsum] at g2
  have g3 : c ^ 2 * (cellForm s p f v v - 2 * sumMeans s f v ^ 2 / s.NE) ≤ cellForm s p f (L (L v)) (L (L v)) := by
    have := mul_le_mul_of_nonneg_left g1 hc.le
    have g2' : c * cellForm s p f (L v) (L v) ≤ cellForm s p f (L (L v)) (L (L v)) := by
      have := g2
      norm_num at this
      exact this
    calc _ = c * (c * (cellForm s p f v v - 2 * sumMeans s f v ^ 2 / s.NE)) := by ring
      _ ≤ c * cellForm s p f (L v) (L v) := this
      _ ≤ _ := g2'
  have hw : 0 ≤ (1 - θ ^ 2) / 18 * h ^ 4 := by
    have : θ ^ 2 ≤ 1 := pow_le_one₀ hθ0 hθ.le
    have : 0 ≤ 1 - θ ^ 2 := by linarith
    positivity
  have g4 := mul_le_mul_of_nonneg_left g3 hw
  rw [hr0]
  nlinarith [key, g4]

end

end Dg1d
