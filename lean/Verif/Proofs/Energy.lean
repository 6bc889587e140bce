import Verif.Props.Dg
import Verif.Proofs.Superposition
import Mathlib.Algebra.Order.BigOperators.Ring.Finset
import Mathlib.Algebra.Order.Chebyshev
import Mathlib.LinearAlgebra.BilinearMap
import Mathlib.Tactic.Linarith
import Mathlib.Data.Real.Basic

/-! Helper lemmas: the energy of linear advection under one step of the third order scheme. -/

set_option linter.unusedSectionVars false

open Polynomial Dg1d.Spec

namespace Dg1d

/-! ### Third order Taylor step with a dissipative operator -/

section Abstract
variable {K : Type*} [Field K] [LinearOrder K] [IsStrictOrderedRing K]
variable {V : Type*} [AddCommGroup V] [Module K V]

/-- With `⟨Dx, x⟩ ≤ 0` and `⟨Dx, Dx⟩ ≤ ⟨x, x⟩` the third order Taylor polynomial of `D` does not increase `⟨x, x⟩`. -/
lemma taylor3_contract (B : V →ₗ[K] V →ₗ[K] K) (hsym : ∀ x y, B x y = B y x) (hpos : ∀ x, 0 ≤ B x x) (D : V →ₗ[K] V)
    (hneg : ∀ x, B (D x) x ≤ 0) (hle : ∀ x, B (D x) (D x) ≤ B x x) (u : V) :
    let r := u + D u + (1 / 2 : K) • D (D u) + (1 / 6 : K) • D (D (D u))
    B r r ≤ B u u := by
  intro r
  set v := D u with hv
  set w := D v with hw
  set z := D w with hz
  have h1 := hneg (u + (1 / 2 : K) • v + (1 / 6 : K) • w)
  have h2 := hneg (v + w)
  have h3 := hle w
  have h4 := hpos (w + z)
  simp only [r, map_add, map_smul, LinearMap.add_apply, LinearMap.smul_apply, smul_eq_mul, ← hv, ← hw, ← hz] at h1 h2 h3 h4 ⊢
  rw [hsym v u, hsym w u, hsym z u, hsym w v, hsym z v, hsym z w] at *
  linarith

end Abstract

/-! ### Coefficient norms -/

section Norms
variable {K : Type*} [Field K] [LinearOrder K] [IsStrictOrderedRing K]

/-- The integral of the square of a Legendre series. -/
lemma intPoly_sq (N : ℕ) (c d : ℕ → K) : intPoly (legSeries N c * legSeries N d) = ∑ n ∈ Finset.range N, 2 / (2 * (n : K) + 1) * (c n * d n) := by
  conv_lhs => rw [show legSeries N d = ∑ n ∈ Finset.range N, C (d n) * legendre K n from rfl, Finset.mul_sum, intPoly_sum]
  apply Finset.sum_congr rfl
  intro n hn
  rw [show legSeries N c * (C (d n) * legendre K n) = C (d n) * (legSeries N c * legendre K n) by ring, intPoly_C_mul,
    intPoly_legSeries N c n (Finset.mem_range.mp hn)]
  ring

lemma weight_pos (n : ℕ) : (0 : K) < 2 * (n : K) + 1 := by positivity

/-- Cauchy–Schwarz with the Legendre weights. -/
lemma weighted_cs (N : ℕ) (c d : ℕ → K) :
    (∑ n ∈ Finset.range N, c n * d n) ^ 2 ≤
      (∑ n ∈ Finset.range N, 2 / (2 * (n : K) + 1) * (c n * c n)) * ∑ n ∈ Finset.range N, (2 * (n : K) + 1) / 2 * d n ^ 2 := by
  apply Finset.sum_sq_le_sum_mul_sum_of_sq_le_mul
  · intro n _
    have := weight_pos (K := K) n
    have := mul_self_nonneg (c n)
    positivity
  · intro n _
    have := weight_pos (K := K) n
    positivity
  · intro n _
    have := (weight_pos (K := K) n).ne'
    apply le_of_eq
    field_simp

lemma sum_weights (N : ℕ) : ∑ n ∈ Finset.range N, (2 * (n : K) + 1) / 2 = (N : K) ^ 2 / 2 := by
  induction N with
  | zero => simp
  | succ N ih => rw [Finset.sum_range_succ, ih]; push_cast; ring

lemma neg_one_pow_sq (n : ℕ) : ((-1 : K) ^ n) ^ 2 = 1 := by rw [← pow_mul, mul_comm, pow_mul]; norm_num

/-- End values are bounded by the norm. -/
lemma end_bound (N : ℕ) (c : ℕ → K) (y : K) (hy : y = 1 ∨ y = -1) :
    (legSeries N c).eval y ^ 2 ≤ (N : K) ^ 2 / 2 * ∑ n ∈ Finset.range N, 2 / (2 * (n : K) + 1) * (c n * c n) := by
  rw [legSeries_eval]
  refine (weighted_cs N c _).trans_eq ?_
  rw [mul_comm, ← sum_weights]
  congr 1
  apply Finset.sum_congr rfl
  intro n _
  rcases hy with rfl | rfl
  · rw [legendre_eval_one]; ring
  · rw [legendre_eval_neg_one, neg_one_pow_sq]; ring

/-- `∫ P_k P_n'`. -/
noncomputable def derivPair (K : Type*) [Field K] (k n : ℕ) : K := intPoly (legendre K k * derivative (legendre K n))

lemma derivPair_low {k n : ℕ} (h : n ≤ k) : derivPair K k n = 0 := by
  unfold derivPair
  apply legendre_orthogonal_lt
  by_cases h0 : derivative (legendre K n) = 0
  · rw [h0, degree_zero]; exact WithBot.bot_lt_coe _
  · refine lt_of_lt_of_le (degree_derivative_lt (legendre_ne_zero n)) ?_
    rw [legendre_degree']
    exact_mod_cast h

lemma derivPair_sq (k n : ℕ) : derivPair K k n ^ 2 + derivPair K n k ^ 2 = 2 * (1 - (-1) ^ k * (-1) ^ n) := by
  have hs : derivPair K n k + derivPair K k n = 1 - (-1) ^ k * (-1) ^ n := by
    have h := intPoly_parts (legendre K k) (legendre K n)
    rw [legendre_eval_one, legendre_eval_one, legendre_eval_neg_one, legendre_eval_neg_one] at h
    unfold derivPair
    rw [mul_comm (legendre K n), h]
    ring
  have hz : derivPair K k n = 0 ∨ derivPair K n k = 0 := by
    rcases le_total n k with h | h
    · exact .inl (derivPair_low h)
    · exact .inr (derivPair_low h)
  have hx : (1 - (-1 : K) ^ k * (-1) ^ n) ^ 2 = 2 * (1 - (-1) ^ k * (-1) ^ n) := by
    have := neg_one_pow_sq (K := K) k
    have := neg_one_pow_sq (K := K) n
    nlinarith
  rw [← hx, ← hs]
  rcases hz with h | h <;> rw [h] <;> ring

lemma derivPair_sum (N : ℕ) :
    ∑ k ∈ Finset.range N, ∑ n ∈ Finset.range N, (2 * (k : K) + 1) / 2 * ((2 * (n : K) + 1) / 2 * derivPair K k n ^ 2) ≤ ((N : K) ^ 2 / 2) ^ 2 := by
  set T := ∑ k ∈ Finset.range N, ∑ n ∈ Finset.range N, (2 * (k : K) + 1) / 2 * ((2 * (n : K) + 1) / 2 * derivPair K k n ^ 2) with hT
  have hswap : T = ∑ k ∈ Finset.range N, ∑ n ∈ Finset.range N, (2 * (k : K) + 1) / 2 * ((2 * (n : K) + 1) / 2 * derivPair K n k ^ 2) := by
    rw [hT, Finset.sum_comm]
    apply Finset.sum_congr rfl
    intro k _
    apply Finset.sum_congr rfl
    intro n _
    ring
  have h2 : T + T = ∑ k ∈ Finset.range N, ∑ n ∈ Finset.range N,
      ((2 * (k : K) + 1) / 2 * ((2 * (n : K) + 1) / 2) * 2 - 2 * (((2 * (k : K) + 1) / 2 * (-1) ^ k) * ((2 * (n : K) + 1) / 2 * (-1) ^ n))) := by
    conv_lhs => rw [hT]; arg 2; rw [← hT, hswap]
    rw [← Finset.sum_add_distrib]
    apply Finset.sum_congr rfl
    intro k _
    rw [← Finset.sum_add_distrib]
    apply Finset.sum_congr rfl
    intro n _
    linear_combination (2 * (k : K) + 1) / 2 * ((2 * (n : K) + 1) / 2) * derivPair_sq (K := K) k n
  have h3 : T + T = 2 * ((N : K) ^ 2 / 2) ^ 2 - 2 * (∑ k ∈ Finset.range N, (2 * (k : K) + 1) / 2 * (-1) ^ k) ^ 2 := by
    rw [h2]
    simp only [Finset.sum_sub_distrib, ← Finset.mul_sum, ← Finset.sum_mul, sum_weights]
    ring
  have := sq_nonneg (∑ k ∈ Finset.range N, (2 * (k : K) + 1) / 2 * (-1) ^ k)
  linarith

/-- Moments of the derivative are bounded by the norm. -/
lemma deriv_bound (N : ℕ) (c : ℕ → K) :
    ∑ k ∈ Finset.range N, (2 * (k : K) + 1) / 2 * intPoly (legendre K k * derivative (legSeries N c)) ^ 2 ≤
      ((N : K) ^ 2 / 2) ^ 2 * ∑ n ∈ Finset.range N, 2 / (2 * (n : K) + 1) * (c n * c n) := by
  have hk : ∀ k, intPoly (legendre K k * derivative (legSeries N c)) = ∑ n ∈ Finset.range N, c n * derivPair K k n := by
    intro k
    unfold legSeries
    rw [derivative_sum, Finset.mul_sum, intPoly_sum]
    apply Finset.sum_congr rfl
    intro n _
    rw [derivative_C_mul, show legendre K k * (C (c n) * derivative (legendre K n)) = C (c n) * (legendre K k * derivative (legendre K n)) by ring,
      intPoly_C_mul]
    rfl
  have hnn : 0 ≤ ∑ n ∈ Finset.range N, 2 / (2 * (n : K) + 1) * (c n * c n) := by
    apply Finset.sum_nonneg
    intro n _
    have := weight_pos (K := K) n
    have := mul_self_nonneg (c n)
    positivity
  calc ∑ k ∈ Finset.range N, (2 * (k : K) + 1) / 2 * intPoly (legendre K k * derivative (legSeries N c)) ^ 2
      ≤ ∑ k ∈ Finset.range N, (2 * (k : K) + 1) / 2 * ((∑ n ∈ Finset.range N, 2 / (2 * (n : K) + 1) * (c n * c n)) *
          ∑ n ∈ Finset.range N, (2 * (n : K) + 1) / 2 * derivPair K k n ^ 2) := by
        apply Finset.sum_le_sum
        intro k _
        rw [hk]
        have := weight_pos (K := K) k
        exact mul_le_mul_of_nonneg_left (weighted_cs N c _) (by positivity)
    _ = (∑ k ∈ Finset.range N, ∑ n ∈ Finset.range N, (2 * (k : K) + 1) / 2 * ((2 * (n : K) + 1) / 2 * derivPair K k n ^ 2)) *
          ∑ n ∈ Finset.range N, 2 / (2 * (n : K) + 1) * (c n * c n) := by
        rw [Finset.sum_mul]
        apply Finset.sum_congr rfl
        intro k _
        rw [← Finset.mul_sum]
        ring
    _ ≤ _ := mul_le_mul_of_nonneg_right (derivPair_sum N) hnn

end Norms

/-! ### The residual of linear advection as a linear operator -/

section Operator
variable {K : Type*} [Field K] [LinearOrder K] [IsStrictOrderedRing K] {s : Sol K} {lib : GaussLib K} {p : ℕ}

/-- The residual array of linear advection, from the array with filled ghost cells. -/
def advArr (s : Sol K) (u : Arr K) : Arr K :=
  inverseMassMatrixMultiply (addInteriorFaceFluxes (integrateInteriorFlux s.basis.dphiW (s.basis.phi.dot u))
    (((s.basis.psi.dot u).row 1).slice 0 (-(s.NF : ℤ))) s.NF) s.scaledMinv

/-- The array after `apply_bc`. -/
def bcArr (s : Sol K) (u : Arr K) : Arr K := ({ s with u := u } : Sol K).applyBc.u

lemma bcArr_eq {a : Sol K} (h : SameSetup a s) : a.applyBc.u = bcArr s a.u := by
  obtain ⟨b1, k1, t1, n1, NE1, NF1, x1, xc1, dx1, u1, sm1, bl1, br1, en1, se1⟩ := a
  obtain ⟨e1, e2, e3, e4, e5, e6, e7, e8, e9, e10, e11⟩ := h
  simp only at e1 e2 e3 e4 e5 e6 e7 e8 e9 e10 e11
  subst e1 e2 e3 e4 e5 e6 e7 e8 e9 e10 e11
  unfold bcArr Sol.applyBc Sol.applyBcRight Sol.applyBcLeft
  split_ifs <;> rfl

lemma advArr_residual (hk : s.kw = Advection.physics) (hen : s.enhance = none) {a : Sol K} (h : SameSetup a s) :
    residual a = .ok (a.applyBc, advArr s (bcArr s a.u)) := by
  have h2 := (applyBc_setup a).trans h
  rw [← bcArr_eq h]
  unfold residual Sol.evaluateFaces Sol.collocateFaces Sol.collocate advArr interfaceFluxes
  simp only [h2.enhance, hen, h2.kw, hk, h2.basis, h2.NF, h2.scaledMinv]
  rfl

/-- The residual as an operator on array entries, for the shape of `s`. -/
def advOp (s : Sol K) (v : ℕ → ℕ → K) : ℕ → ℕ → K := (advArr s (bcArr s { s.u with val := v })).val

lemma bcArr_val (h : s.WF) (v : ℕ → ℕ → K) : bcArr s { s.u with val := v } = { s.u with val := fun r c => v r (s.bcCol c) } := by
  unfold bcArr
  rw [applyBc_eq ({ s with u := { s.u with val := v } } : Sol K) h.NF h.NE h.cols]
  rfl

/-- `advOp` is linear. -/
def advLin (s : Sol K) (h : s.WF) : (ℕ → ℕ → K) →ₗ[K] (ℕ → ℕ → K) where
  toFun := advOp s
  map_add' x y := by
    funext r c
    unfold advOp
    rw [bcArr_val h, bcArr_val h, bcArr_val h]
    simp only [advArr, inverseMassMatrixMultiply, addInteriorFaceFluxes, integrateInteriorFlux, Arr.dot, edgeFluxMatrix, Vec.slice, Arr.row,
      Pi.add_apply, mul_add, Finset.sum_add_distrib]
    split_ifs <;> ring
  map_smul' a x := by
    funext r c
    unfold advOp
    rw [bcArr_val h, bcArr_val h]
    simp only [advArr, inverseMassMatrixMultiply, addInteriorFaceFluxes, integrateInteriorFlux, Arr.dot, edgeFluxMatrix, Vec.slice, Arr.row,
      Pi.smul_apply, smul_eq_mul, RingHom.id_apply, mul_left_comm _ a, ← Finset.mul_sum]
    split_ifs <;> ring

/-- The weighted inner product of the interior cells of field `f`. -/
def cellForm (s : Sol K) (p f : ℕ) : (ℕ → ℕ → K) →ₗ[K] (ℕ → ℕ → K) →ₗ[K] K :=
  LinearMap.mk₂ K (fun A B => ∑ e ∈ Finset.Icc 1 s.NE, ∑ n ∈ Finset.range (p + 1), 2 / (2 * (n : K) + 1) * (A n (e * s.NF + f) * B n (e * s.NF + f)))
    (by intro A A' B; simp only [Pi.add_apply, add_mul, mul_add, Finset.sum_add_distrib])
    (by
      intro a A B
      simp only [Pi.smul_apply, smul_eq_mul, Finset.mul_sum]
      exact Finset.sum_congr rfl fun e _ => Finset.sum_congr rfl fun n _ => by ring)
    (by intro A B B'; simp only [Pi.add_apply, mul_add, Finset.sum_add_distrib])
    (by
      intro a A B
      simp only [Pi.smul_apply, smul_eq_mul, Finset.mul_sum]
      exact Finset.sum_congr rfl fun e _ => Finset.sum_congr rfl fun n _ => by ring)

lemma cellForm_apply (s : Sol K) (p f : ℕ) (A B : ℕ → ℕ → K) : cellForm s p f A B =
    ∑ e ∈ Finset.Icc 1 s.NE, ∑ n ∈ Finset.range (p + 1), 2 / (2 * (n : K) + 1) * (A n (e * s.NF + f) * B n (e * s.NF + f)) := rfl

lemma cellForm_symm (s : Sol K) (p f : ℕ) (A B : ℕ → ℕ → K) : cellForm s p f A B = cellForm s p f B A := by
  simp only [cellForm_apply]
  exact Finset.sum_congr rfl fun e _ => Finset.sum_congr rfl fun n _ => by rw [mul_comm (A _ _)]

lemma cell_nonneg (N : ℕ) (c : ℕ → K) : 0 ≤ ∑ n ∈ Finset.range N, 2 / (2 * (n : K) + 1) * (c n * c n) := by
  apply Finset.sum_nonneg
  intro n _
  have := weight_pos (K := K) n
  have := mul_self_nonneg (c n)
  positivity

lemma cellForm_nonneg (s : Sol K) (p f : ℕ) (A : ℕ → ℕ → K) : 0 ≤ cellForm s p f A A := by
  rw [cellForm_apply]
  exact Finset.sum_nonneg fun e _ => cell_nonneg _ _

/-- `s` with other entries. -/
lemma withVal_like (s : Sol K) (v : ℕ → ℕ → K) : Like (s.withVal v) s := ⟨by constructor <;> rfl, rfl, rfl⟩

lemma advLin_residual (h : s.WF) (hk : s.kw = Advection.physics) (hen : s.enhance = none) (v : ℕ → ℕ → K) :
    ∃ F, residual (s.withVal v) = .ok ((s.withVal v).applyBc, F) ∧ F.val = advLin s h v :=
  ⟨_, advArr_residual hk hen (withVal_like s v).setup, rfl⟩

/-- Energy does not grow: `⟨L v, v⟩ ≤ 0`. -/
lemma advLin_neg (hb : s.Built lib p) (hk : s.kw = Advection.physics) (hen : s.enhance = none)
    (hl : s.bcl = .lit "periodic") (hr : s.bcr = .lit "periodic") (hdx : 0 < s.dx) {f : ℕ} (hf : f < s.NF) (v : ℕ → ℕ → K) :
    cellForm s p f (advLin s hb.wf v) v ≤ 0 := by
  obtain ⟨F, hF, hv⟩ := advLin_residual hb.wf hk hen v
  have hlike := withVal_like s v
  have h := (Props.C19_energy (hlike.built hb) hk hen hl hr _ F hF f hf).2
  rw [hv] at h
  have hs : (s.withVal v).NF = s.NF ∧ (s.withVal v).NE = s.NE ∧ (s.withVal v).dx = s.dx := ⟨rfl, rfl, rfl⟩
  rw [hs.1, hs.2.1, hs.2.2] at h
  have e : ∑ e ∈ Finset.Icc 1 s.NE, ∑ n ∈ Finset.range (p + 1), 2 / (2 * (n : K) + 1) *
      ((s.withVal v).applyBc.u.val n (e * s.NF + f) * advLin s hb.wf v n (e * s.NF + f)) = cellForm s p f (advLin s hb.wf v) v := by
    rw [cellForm_apply]
    refine Finset.sum_congr rfl fun e he => Finset.sum_congr rfl fun n _ => ?_
    rw [Finset.mem_Icc] at he
    rw [hlike.applyBc_val hb.wf, bcCol_interior s he.1 he.2 hf, mul_comm (advLin s hb.wf v _ _)]
    rfl
  rw [e] at h
  by_contra hc
  rw [not_le] at hc
  have : 0 < s.dx / 2 * cellForm s p f (advLin s hb.wf v) v := by positivity
  linarith

/-- `‖L v‖ ≤ 3 (p+1)² / dx ‖v‖`. -/
lemma advLin_bound (hb : s.Built lib p) (hk : s.kw = Advection.physics) (hen : s.enhance = none)
    (hl : s.bcl = .lit "periodic") (hr : s.bcr = .lit "periodic") {f : ℕ} (hf : f < s.NF) (v : ℕ → ℕ → K) :
    s.dx ^ 2 * cellForm s p f (advLin s hb.wf v) (advLin s hb.wf v) ≤ (3 * ((p : K) + 1) ^ 2) ^ 2 * cellForm s p f v v := by
  obtain ⟨F, hF, hv⟩ := advLin_residual hb.wf hk hen v
  have hlike := withVal_like s v
  have hB := hlike.built hb
  obtain ⟨F', hF', hval⟩ := Props.C13_advection hB hk hen
  rw [hF] at hF'
  cases hF'
  rw [hv] at hval
  set w := (s.withVal v).applyBc.u.val with hw
  have hrows : (s.withVal v).applyBc.u.rows = p + 1 := by rw [(applyBc_shape _).1, hB.rows]
  have hset := applyBc_setup (s.withVal v)
  have hU : ∀ e, cellPoly (s.withVal v).applyBc e f = legSeries (p + 1) fun n => w n (e * s.NF + f) := by
    intro e
    unfold cellPoly
    rw [hrows, hset.NF]
    rfl
  set U := fun e => legSeries (p + 1) fun n => w n (e * s.NF + f) with hUdef
  set N : K := ((p + 1 : ℕ) : K) ^ 2 / 2 with hN
  set E := fun e => ∑ n ∈ Finset.range (p + 1), 2 / (2 * (n : K) + 1) * (w n (e * s.NF + f) * w n (e * s.NF + f)) with hE
  have hint : ∀ e, 1 ≤ e → e ≤ s.NE → ∀ n, w n (e * s.NF + f) = v n (e * s.NF + f) := by
    intro e h1 h2 n
    rw [hw, hlike.applyBc_val hb.wf, bcCol_interior s h1 h2 hf]
    rfl
  have h0 : E 0 = E s.NE := by
    have hp := fun r => (periodic_cells (s := s.withVal v) hb.wf.NF hb.wf.NE hb.wf.cols (by rw [show (s.withVal v).bcl = _ from hl]; exact ⟨rfl, rfl⟩)
      (by rw [show (s.withVal v).bcr = _ from hr]; exact ⟨rfl, rfl⟩) r (f := f) hf).1
    refine Finset.sum_congr rfl fun n _ => ?_
    have := hp n
    rw [show (s.withVal v).NF = s.NF from rfl, show (s.withVal v).NE = s.NE from rfl, ← hw] at this
    rw [this]
  have hcell : ∀ e, 1 ≤ e → e ≤ s.NE → s.dx ^ 2 * ∑ n ∈ Finset.range (p + 1),
      2 / (2 * (n : K) + 1) * (advLin s hb.wf v n (e * s.NF + f) * advLin s hb.wf v n (e * s.NF + f)) ≤ 12 * N ^ 2 * (2 * E e + E (e - 1)) := by
    intro e h1 h2
    set a := fun n => intPoly (legendre K n * derivative (U e)) with ha
    have hg : ∀ n < p + 1, s.dx / 2 * (2 / (2 * (n : K) + 1)) * advLin s hb.wf v n (e * s.NF + f) =
        -(a n + (-1) ^ n * (U e).eval (-1) + (-1) * (-1) ^ n * (U (e - 1)).eval 1) := by
      intro n hn
      have h3 := hval n hn e h1 h2 f hf
      rw [hU, hU, show (s.withVal v).NF = s.NF from rfl, show (s.withVal v).dx = s.dx from rfl] at h3
      rw [h3]
      have h4 := intPoly_parts (legendre K n) (U e)
      rw [legendre_eval_one, legendre_eval_neg_one] at h4 ⊢
      simp only [hUdef] at h4 ⊢
      rw [h4]
      simp only [ha, hUdef]
      ring
    have hterm : ∀ n ∈ Finset.range (p + 1), s.dx ^ 2 * (2 / (2 * (n : K) + 1) * (advLin s hb.wf v n (e * s.NF + f) * advLin s hb.wf v n (e * s.NF + f))) ≤
        12 * ((2 * (n : K) + 1) / 2 * a n ^ 2) + (2 * (n : K) + 1) / 2 * (12 * ((U e).eval (-1) ^ 2 + (U (e - 1)).eval 1 ^ 2)) := by
      intro n hn
      have hpos := weight_pos (K := K) n
      have h3 := hg n (Finset.mem_range.mp hn)
      have h4 : s.dx ^ 2 * (2 / (2 * (n : K) + 1) * (advLin s hb.wf v n (e * s.NF + f) * advLin s hb.wf v n (e * s.NF + f))) =
          (2 * (n : K) + 1) / 2 * (4 * (s.dx / 2 * (2 / (2 * (n : K) + 1)) * advLin s hb.wf v n (e * s.NF + f)) ^ 2) := by
        have := hpos.ne'
        field_simp
        ring
      rw [h4, h3]
      have hs := neg_one_pow_sq (K := K) n
      set X := a n
      set Y := (-1 : K) ^ n * (U e).eval (-1) with hY
      set Z := -1 * (-1 : K) ^ n * (U (e - 1)).eval 1 with hZ
      have hY2 : Y ^ 2 = (U e).eval (-1) ^ 2 := by rw [hY, mul_pow, hs, one_mul]
      have hZ2 : Z ^ 2 = (U (e - 1)).eval 1 ^ 2 := by rw [hZ, mul_pow, mul_pow, hs]; ring
      have h5 : 4 * (-(X + Y + Z)) ^ 2 ≤ 12 * (X ^ 2 + ((U e).eval (-1) ^ 2 + (U (e - 1)).eval 1 ^ 2)) := by
        rw [← hY2, ← hZ2]
        nlinarith [sq_nonneg (X - Y), sq_nonneg (Y - Z), sq_nonneg (X - Z)]
      have h6 := mul_le_mul_of_nonneg_left h5 (by positivity : (0 : K) ≤ (2 * (n : K) + 1) / 2)
      linarith
    rw [Finset.mul_sum]
    refine (Finset.sum_le_sum hterm).trans ?_
    rw [Finset.sum_add_distrib, ← Finset.mul_sum, ← Finset.sum_mul, sum_weights]
    have b1 := deriv_bound (p + 1) fun n => w n (e * s.NF + f)
    have b2 := end_bound (p + 1) (fun n => w n (e * s.NF + f)) (-1) (.inr rfl)
    have b3 := end_bound (p + 1) (fun n => w n ((e - 1) * s.NF + f)) 1 (.inl rfl)
    have hN0 : 0 ≤ N := by rw [hN]; positivity
    have b4 := mul_le_mul_of_nonneg_left (add_le_add b2 b3) hN0
    simp only [ha, hUdef, hE, hN] at b1 b4 ⊢
    nlinarith
  have hsum : s.dx ^ 2 * cellForm s p f (advLin s hb.wf v) (advLin s hb.wf v) ≤ ∑ e ∈ Finset.Icc 1 s.NE, 12 * N ^ 2 * (2 * E e + E (e - 1)) := by
    rw [cellForm_apply, Finset.mul_sum]
    refine Finset.sum_le_sum fun e he => ?_
    rw [Finset.mem_Icc] at he
    exact hcell e he.1 he.2
  refine hsum.trans_eq ?_
  have hprev : ∀ M, ∑ e ∈ Finset.Icc 1 M, E (e - 1) = ∑ e ∈ Finset.Icc 1 M, E e + E 0 - E M := by
    intro M
    induction M with
    | zero => simp
    | succ M ih => rw [Finset.sum_Icc_succ_top (by omega), Finset.sum_Icc_succ_top (by omega), ih, Nat.add_sub_cancel]; ring
  have hv2 : ∑ e ∈ Finset.Icc 1 s.NE, E e = cellForm s p f v v := by
    rw [cellForm_apply]
    refine Finset.sum_congr rfl fun e he => Finset.sum_congr rfl fun n _ => ?_
    rw [Finset.mem_Icc] at he
    rw [hint e he.1 he.2]
  rw [← Finset.mul_sum, Finset.sum_add_distrib, ← Finset.mul_sum, hprev, h0, hv2, hN]
  push_cast
  ring

/-- A third order Taylor step of length `h ≤ dx / (3 (p+1)²)` does not increase the energy. -/
lemma advLin_taylor3 (hb : s.Built lib p) (hk : s.kw = Advection.physics) (hen : s.enhance = none)
    (hl : s.bcl = .lit "periodic") (hr : s.bcr = .lit "periodic") (hdx : 0 < s.dx) {f : ℕ} (hf : f < s.NF) (h : K) (h0 : 0 ≤ h)
    (h1 : 3 * ((p : K) + 1) ^ 2 * h ≤ s.dx) (v : ℕ → ℕ → K) :
    let L := advLin s hb.wf
    let r := v + h • L v + (h ^ 2 / 2) • L (L v) + (h ^ 3 / 6) • L (L (L v))
    cellForm s p f r r ≤ cellForm s p f v v := by
  intro L r
  have key := taylor3_contract (cellForm s p f) (cellForm_symm s p f) (cellForm_nonneg s p f) (h • L)
    (fun x => by
      simp only [LinearMap.smul_apply, map_smul, smul_eq_mul]
      exact mul_nonpos_of_nonneg_of_nonpos h0 (advLin_neg hb hk hen hl hr hdx hf x))
    (fun x => by
      simp only [LinearMap.smul_apply, map_smul, smul_eq_mul]
      have b := advLin_bound hb hk hen hl hr hf x
      have n1 := cellForm_nonneg s p f x
      have n2 := cellForm_nonneg s p f (L x)
      have c : (3 * ((p : K) + 1) ^ 2) ^ 2 * h ^ 2 ≤ s.dx ^ 2 := by
        rw [← mul_pow]
        exact pow_le_pow_left₀ (by positivity) h1 2
      have d1 : s.dx ^ 2 * (h ^ 2 * cellForm s p f (L x) (L x)) ≤ s.dx ^ 2 * cellForm s p f x x := by
        nlinarith [mul_le_mul_of_nonneg_right c n1, mul_le_mul_of_nonneg_left b (sq_nonneg h)]
      have := le_of_mul_le_mul_left d1 (by positivity)
      linarith) v
  simp only [LinearMap.smul_apply, map_smul, smul_smul] at key
  have e : r = v + h • L v + (1 / 2 * (h * h)) • L (L v) + (1 / 6 * (h * h * h)) • L (L (L v)) := by
    simp only [r]
    rw [show h ^ 2 / 2 = 1 / 2 * (h * h) by ring, show h ^ 3 / 6 = 1 / 6 * (h * h * h) by ring]
  rw [e]
  exact key

end Operator

end Dg1d
