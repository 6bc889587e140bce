import Verif.Proofs.Dg
import Verif.Proofs.Gauss
import Verif.Spec.Dg
import Verif.Model.Advection

/-! Helper lemmas: the residual of a constructed solution in terms of polynomials. -/

set_option linter.unusedSectionVars false

open Polynomial

namespace Dg1d
open Spec
variable {K : Type*} [Field K] [LinearOrder K] [IsStrictOrderedRing K]

/-- What construction of a solution of order `p` guarantees (established in Proofs/Construct.lean): the tables
come from `Basis(p)` built on a Gauss rule, at least one cell, one ghost cell either side, non-zero cell width,
scaled inverse mass matrix. -/
structure Sol.Built (s : Sol K) (lib : GaussLib K) (p : ℕ) : Prop where
  nodes : (lib (p + 1)).1.len = p + 1
  gauss : IsGaussRule (p + 1) (lib (p + 1)).1.val (lib (p + 1)).2.val
  basis : s.basis = Basis.init lib p
  NF : 0 < s.NF
  NE : 0 < s.NE
  rows : s.u.rows = p + 1
  cols : s.u.cols = (s.NE + 2) * s.NF
  dx : s.dx ≠ 0
  minv : ∀ n < p + 1, s.scaledMinv.val n = (2 * (n : K) + 1) / s.dx
  enh : ∀ en, s.enhance = some en →
    en.alphaL.len = p + 1 ∧ en.alphaR.len = p + 1 ∧ en.betaL.len = p + 1 ∧ en.betaR.len = p + 1

variable {s : Sol K} {lib : GaussLib K} {p : ℕ}

lemma Sol.Built.ns (h : s.Built lib p) : s.basis.Ns = p + 1 := by rw [h.basis]; rfl
lemma Sol.Built.ng (h : s.Built lib p) : s.basis.NG = p + 1 := by rw [h.basis]; exact h.nodes

lemma Sol.Built.wf (h : s.Built lib p) : s.WF where
  NF := h.NF
  NE := h.NE
  rows := by rw [h.rows, h.ns]
  cols := h.cols
  phi := by rw [h.basis]; exact ⟨rfl, rfl⟩
  dphi := by rw [h.basis]; exact ⟨h.nodes, h.nodes.symm⟩
  psi := by rw [h.basis]; rfl
  enh := by rw [h.ns]; exact h.enh

lemma Sol.Built.congr (h : s.Built lib p) {v : Sol K} (hs : SameSetup v s) (hr : v.u.rows = s.u.rows)
    (hc : v.u.cols = s.u.cols) : v.Built lib p where
  nodes := h.nodes
  gauss := h.gauss
  basis := by rw [hs.basis, h.basis]
  NF := by rw [hs.NF]; exact h.NF
  NE := by rw [hs.NE]; exact h.NE
  rows := by rw [hr, h.rows]
  cols := by rw [hc, h.cols, hs.NE, hs.NF]
  dx := by rw [hs.dx]; exact h.dx
  minv := by rw [hs.dx, hs.scaledMinv]; exact h.minv
  enh := by rw [hs.enhance]; exact h.enh

lemma applyBc_shape (s : Sol K) : s.applyBc.u.rows = s.u.rows ∧ s.applyBc.u.cols = s.u.cols := by
  unfold Sol.applyBc Sol.applyBcRight Sol.applyBcLeft
  split_ifs <;> exact ⟨rfl, rfl⟩

lemma Sol.Built.applyBc (h : s.Built lib p) : s.applyBc.Built lib p :=
  h.congr (applyBc_setup s) (applyBc_shape s).1 (applyBc_shape s).2

lemma Sol.Built.phi (h : s.Built lib p) (g n : ℕ) : s.basis.phi.val g n = (legendre K n).eval (s.basis.x.val g) := by
  rw [h.basis]; exact basisValue_spec n _

lemma Sol.Built.dphi (h : s.Built lib p) (n g : ℕ) :
    s.basis.dphiW.val n g = s.basis.w.val g * (derivative (legendre K n)).eval (s.basis.x.val g) := by
  rw [h.basis]
  change basisDeriv n _ * _ = _
  rw [basisDeriv_spec, mul_comm]; rfl

lemma Sol.Built.psi1 (h : s.Built lib p) (n : ℕ) : s.basis.psi.val 1 n = (legendre K n).eval 1 := by
  rw [h.basis, legendre_eval_one]
  change (if 1 = 0 ∧ n % 2 = 1 then (-1 : K) else 1) = _
  simp

lemma neg_one_pow_parity (n : ℕ) : ((-1 : K)) ^ n = if n % 2 = 0 then 1 else -1 := by
  rcases Nat.even_or_odd n with h | h
  · rw [if_pos (Nat.even_iff.mp h), h.neg_one_pow]
  · rw [if_neg (by rw [Nat.odd_iff] at h; omega), h.neg_one_pow]

lemma Sol.Built.psi0 (h : s.Built lib p) (n : ℕ) : s.basis.psi.val 0 n = (legendre K n).eval (-1) := by
  rw [h.basis, legendre_eval_neg_one, neg_one_pow_parity]
  change (if 0 = 0 ∧ n % 2 = 1 then (-1 : K) else 1) = _
  split_ifs <;> first | rfl | omega

lemma Sol.Built.gaussS (h : s.Built lib p) : IsGaussRule (p + 1) s.basis.x.val s.basis.w.val := by
  rw [h.basis]; exact h.gauss

/-- Face states in polynomial form. -/
lemma Sol.Built.face_left (h : s.Built lib p) (i : ℕ) : s.face 1 s.u.val i = leftState s i := by
  funext f
  unfold Sol.face leftState Sol.faceW cellPoly
  cases hen : s.enhance with
  | none =>
    simp only [legSeries_eval, if_true, h.ns, h.rows]
    apply Finset.sum_congr rfl
    intro n _
    rw [h.psi1]; simp; ring
  | some en =>
    simp only [if_true, h.ns, h.rows, Finset.sum_add_distrib]
    simp

lemma Sol.Built.face_right (h : s.Built lib p) (i : ℕ) : s.face 0 s.u.val i = rightState s i := by
  funext f
  unfold Sol.face rightState Sol.faceW cellPoly
  cases hen : s.enhance with
  | none =>
    simp only [legSeries_eval, if_true, h.ns, h.rows]
    apply Finset.sum_congr rfl
    intro n _
    rw [h.psi0]; simp; ring
  | some en =>
    simp only [if_true, h.ns, h.rows, Finset.sum_add_distrib]
    simp

lemma Sol.Built.vol_eq (h : s.Built lib p) (ps : PhysSpec K s.NF) (n e : ℕ) (f : Fin s.NF) :
    s.vol ps s.u.val n e f = ∑ g ∈ Finset.range (p + 1), s.basis.w.val g *
      (derivative (legendre K n)).eval (s.basis.x.val g) *
      ps.flux (fun f' => (cellPoly s e f').eval (s.basis.x.val g)) f := by
  unfold Sol.vol
  rw [h.ng]
  apply Finset.sum_congr rfl
  intro g _
  rw [h.dphi]
  congr 2
  funext f'
  unfold cellPoly
  rw [legSeries_eval, h.ns, h.rows]
  apply Finset.sum_congr rfl
  intro k _
  rw [h.phi, mul_comm]

/-- The residual of a built solution: error iff an interface fails, else the weak form. -/
lemma residual_built (h : s.Built lib p) {ps : PhysSpec K s.NF} (hps : s.kw.Pointwise ps) :
    let v := s.withVal s.applyBc.u.val
    v = s.applyBc ∧
    ((∃ i < s.NE + 1, ps.fails (leftState v i) (rightState v i)) →
      ∃ e, ps.errs e ∧ residual s = .error e) ∧
    ((∀ i < s.NE + 1, ¬ ps.fails (leftState v i) (rightState v i)) →
      ∃ F : Arr K, residual s = .ok (v, F) ∧ F.rows = p + 1 ∧ F.cols = (s.NE + 2) * s.NF ∧
        ∀ n < p + 1, ∀ e, 1 ≤ e → e ≤ s.NE → ∀ f : Fin s.NF,
          F.val n (e * s.NF + f) = (2 * (n : K) + 1) / s.dx *
            ((∑ g ∈ Finset.range (p + 1), s.basis.w.val g * (derivative (legendre K n)).eval (s.basis.x.val g) *
              ps.flux (fun f' => (cellPoly v e f').eval (s.basis.x.val g)) f)
            - (ps.num (leftState v e) (rightState v e) f * (legendre K n).eval 1 -
              ps.num (leftState v (e - 1)) (rightState v (e - 1)) f * (legendre K n).eval (-1)))) := by
  have heq := applyBc_eq s h.NF h.NE h.cols
  have hvb : (s.withVal s.applyBc.u.val) = s.applyBc := by rw [heq]; rfl
  have hb : (s.withVal s.applyBc.u.val).Built lib p := by rw [hvb]; exact h.applyBc
  obtain ⟨r1, r2⟩ := residual_eq h.wf hps
  have fl := hb.face_left
  have fr := hb.face_right
  have hvol := hb.vol_eq ps
  have fl' : ∀ i, s.face 1 s.applyBc.u.val i = leftState (s.withVal s.applyBc.u.val) i := fl
  have fr' : ∀ i, s.face 0 s.applyBc.u.val i = rightState (s.withVal s.applyBc.u.val) i := fr
  refine ⟨hvb, ?_, ?_⟩
  · rintro ⟨i, hi, hf⟩
    exact r1 ⟨i, hi, by rw [fl', fr']; exact hf⟩
  · intro hok
    obtain ⟨F, hF, hr, hc, hint, _⟩ := r2 (fun i hi => by rw [fl', fr']; exact hok i hi)
    refine ⟨F, by rw [hF, hvb], by rw [hr, h.ns], hc, ?_⟩
    intro n hn e he1 he2 f
    rw [hint n (by rw [h.ns]; exact hn) e he1 he2 f, h.minv n hn, legendre_eval_one, legendre_eval_neg_one,
      neg_one_pow_parity]
    have hv := hvol n e f
    change s.vol ps s.applyBc.u.val n e f = _ at hv
    rw [hv]
    unfold Sol.q
    rw [fl', fr', fl', fr']
    change (_ - _) * _ = _
    rw [mul_comm]
    congr 2
    split_ifs <;> ring

end Dg1d
