import Verif.Proofs.DgSpec

/-! Helper lemmas: interfaces at the boundary, advection physics. -/

set_option linter.unusedSectionVars false

open Polynomial

namespace Dg1d
open Spec
variable {K : Type*} [Field K] [LinearOrder K] [IsStrictOrderedRing K]

/-- Upwind advection, point by point. -/
def Advection.spec (NF : ℕ) : PhysSpec K NF where
  flux := fun u => u
  num := fun l _ => l
  fails := fun _ _ => False
  errs := fun _ => False

lemma Advection.pointwise (NF : ℕ) : (Advection.physics (K := K)).Pointwise (Advection.spec NF) where
  fluxShape := fun _ => ⟨rfl, rfl⟩
  flux := fun _ _ _ _ _ _ _ _ => rfl
  riemannErr := by rintro ul ur m _ _ ⟨i, _, h⟩; exact h.elim
  riemannOk := fun ul ur m h1 _ _ => ⟨ul, rfl, h1, fun _ _ _ => rfl⟩

variable {s : Sol K} {lib : GaussLib K} {p : ℕ}

/-- Boundary conditions cell by cell. -/
lemma bcCol_interior (s : Sol K) {e : ℕ} (he1 : 1 ≤ e) (he2 : e ≤ s.NE) {f : ℕ} (hf : f < s.NF) :
    s.bcCol (e * s.NF + f) = e * s.NF + f := by
  unfold Sol.bcCol
  have h1 : s.NF ≤ e * s.NF := Nat.le_mul_of_pos_left _ he1
  have h2 := mul_add_lt (show e < s.NE + 1 by omega) hf
  rw [if_neg (by omega), if_pos h2]

lemma bcCol_left (s : Sol K) {f : ℕ} (hf : f < s.NF) : s.bcCol f =
    if s.bcl.isLit "periodic" then f + s.NE * s.NF else if s.bcl.isLit "zerograd" then f + s.NF else f := by
  unfold Sol.bcCol
  rw [if_pos hf]

lemma bcCol_right (s : Sol K) {f : ℕ} (hf : f < s.NF) : s.bcCol ((s.NE + 1) * s.NF + f) =
    if s.bcr.isLit "periodic" then s.NF + f
    else if s.bcr.isLit "zerograd" then s.NE * s.NF + f else (s.NE + 1) * s.NF + f := by
  unfold Sol.bcCol
  have h1 : (s.NE + 1) * s.NF = s.NE * s.NF + s.NF := by ring
  have h2 : (s.NE + 2) * s.NF = s.NE * s.NF + 2 * s.NF := by ring
  rw [if_neg (by omega), if_neg (by omega), if_pos (by omega)]
  split_ifs <;> omega

lemma bcCol_idem (s : Sol K) (hE : 0 < s.NE) (c : ℕ) : s.bcCol (s.bcCol c) = s.bcCol c := by
  have h2 : s.NF ≤ s.NE * s.NF := Nat.le_mul_of_pos_left _ hE
  have h3 : (s.NE + 1) * s.NF = s.NE * s.NF + s.NF := by ring
  have h4 : (s.NE + 2) * s.NF = s.NE * s.NF + 2 * s.NF := by ring
  have hmid : ∀ x, s.NF ≤ x → x < (s.NE + 1) * s.NF → s.bcCol x = x := by
    intro x hx1 hx2
    unfold Sol.bcCol
    rw [if_neg (by omega), if_pos hx2]
  have hout : s.bcCol c = c ∨ (s.NF ≤ s.bcCol c ∧ s.bcCol c < (s.NE + 1) * s.NF) := by
    by_cases hl : c < s.NF
    · have : s.bcCol c = _ := if_pos hl
      rw [this]
      split_ifs
      · right; omega
      · right; omega
      · left; rfl
    · by_cases hm : c < (s.NE + 1) * s.NF
      · left; exact hmid c (by omega) hm
      · by_cases hr : c < (s.NE + 2) * s.NF
        · have : s.bcCol c = _ := (if_neg hl).trans ((if_neg hm).trans (if_pos hr))
          rw [this]
          split_ifs
          · right; omega
          · right; omega
          · left; rfl
        · left
          exact (if_neg hl).trans ((if_neg hm).trans (if_neg hr))
  rcases hout with h | ⟨ha, hb⟩
  · rw [h, h]
  · exact hmid _ ha hb

lemma applyBc_val (h1 : 0 < s.NF) (h2 : 0 < s.NE) (h3 : s.u.cols = (s.NE + 2) * s.NF) (r c : ℕ) :
    s.applyBc.u.val r c = s.u.val r (s.bcCol c) := by
  rw [applyBc_eq s h1 h2 h3]; rfl

/-- With periodic boundaries the ghost cells hold the opposite interior cells. -/
lemma periodic_cells (h1 : 0 < s.NF) (h2 : 0 < s.NE) (h3 : s.u.cols = (s.NE + 2) * s.NF)
    (hl : s.bcl.isLit "periodic") (hr : s.bcr.isLit "periodic") (r : ℕ) {f : ℕ} (hf : f < s.NF) :
    s.applyBc.u.val r (0 * s.NF + f) = s.applyBc.u.val r (s.NE * s.NF + f) ∧
    s.applyBc.u.val r ((s.NE + 1) * s.NF + f) = s.applyBc.u.val r (1 * s.NF + f) := by
  rw [applyBc_val h1 h2 h3, applyBc_val h1 h2 h3, applyBc_val h1 h2 h3, applyBc_val h1 h2 h3,
    bcCol_interior s h2 le_rfl hf, bcCol_interior s le_rfl h2 hf, bcCol_right s hf, zero_mul, zero_add, bcCol_left s hf,
    if_pos hl, if_pos hr, one_mul]
  exact ⟨by rw [add_comm], rfl⟩

lemma Sol.face_congr (s : Sol K) (side : ℕ) (u v : ℕ → ℕ → K) (i j : ℕ)
    (h : ∀ n < s.basis.Ns, ∀ f < s.NF, u n (i * s.NF + f) = v n (j * s.NF + f) ∧
      u n ((i + 1) * s.NF + f) = v n ((j + 1) * s.NF + f)) :
    s.face side u i = s.face side v j := by
  funext f
  unfold Sol.face
  apply Finset.sum_congr rfl
  intro n hn
  have := h n (Finset.mem_range.mp hn) f f.isLt
  rw [this.1, this.2]

lemma periodic_face (h : s.WF) (hl : s.bcl.isLit "periodic") (hr : s.bcr.isLit "periodic") (side : ℕ) :
    s.face side s.applyBc.u.val 0 = s.face side s.applyBc.u.val s.NE := by
  apply Sol.face_congr
  intro n _ f hf
  obtain ⟨a, b⟩ := periodic_cells h.NF h.NE h.cols hl hr n hf
  exact ⟨a, by rw [zero_add, b]⟩

/-- The polynomial whose coefficients are the residual of cell `e`, tested with `q`. -/
lemma gauss_int (h : s.Built lib p) (f : K[X]) (hf : f.degree < 2 * ((p + 1 : ℕ) : WithBot ℕ)) :
    ∑ g ∈ Finset.range (p + 1), s.basis.w.val g * f.eval (s.basis.x.val g) = intPoly f :=
  h.gaussS.exact f hf

lemma degree_deriv_mul {n : ℕ} (hn : n < p + 1) (c : ℕ → K) :
    (derivative (legendre K n) * legSeries (p + 1) c).degree < 2 * ((p + 1 : ℕ) : WithBot ℕ) := by
  by_cases h0 : derivative (legendre K n) = 0
  · rw [h0, zero_mul, degree_zero]
    exact WithBot.bot_lt_coe _
  · rw [degree_mul, two_mul]
    apply WithBot.add_lt_add_of_le_of_lt (by rwa [Ne, degree_eq_bot]) _ (legSeries_degree (p + 1) c)
    refine (degree_derivative_le).trans ?_
    rw [legendre_degree']
    exact_mod_cast hn.le

end Dg1d
