import Mathlib.MeasureTheory.Integral.IntervalIntegral.Basic
import Verif.Model.Advection
import Verif.Model.Rounded
import Verif.Proofs.DgSpec
import Verif.Spec.Rounded

/-! # What is stored in memory, and distances of computed solutions (specification) -/

open Polynomial Dg1d.Spec

namespace Dg1d.Rounded

/-- The solution object `s'` in memory against the exact one `s`: same sizes and boundary conditions, tables stored up to `ε`. -/
structure Stored (ε : ℝ) (p : ℕ) (s' s : Sol ℝ) : Prop where
  NF : s'.NF = s.NF
  NE : s'.NE = s.NE
  bcl : s'.bcl = s.bcl
  bcr : s'.bcr = s.bcr
  rows : s'.u.rows = s.u.rows
  cols : s'.u.cols = s.u.cols
  phiCols : s'.basis.phi.cols = s.basis.phi.cols
  psiCols : s'.basis.psi.cols = s.basis.psi.cols
  dphiCols : s'.basis.dphiW.cols = s.basis.dphiW.cols
  phi : ∀ i < p + 1, ∀ n < p + 1, |s'.basis.phi.val i n - s.basis.phi.val i n| ≤ ε
  psi : ∀ n < p + 1, |s'.basis.psi.val 1 n - s.basis.psi.val 1 n| ≤ ε
  dphiW : ∀ n < p + 1, ∀ i < p + 1, |s'.basis.dphiW.val n i - s.basis.dphiW.val n i| ≤ ε
  minv : ∀ n < p + 1, |s'.scaledMinv.val n - s.scaledMinv.val n| ≤ ε * |s.scaledMinv.val n|

/-- The Butcher table in memory. -/
structure StoredTable (ε : ℝ) (tab' tab : Tableau ℝ) : Prop where
  stages : tab'.coeffs.length = tab.coeffs.length
  alphas : tab'.alphas.length = tab'.coeffs.length
  coeffs : ∀ k < tab.coeffs.length, StoredCoef ε (tab'.coeffs.getD k 0) (tab.coeffs.getD k 0)
  beta : ∀ k < tab.coeffs.length, ∀ j < k, StoredCoef ε (tab'.beta k j) (tab.beta k j)

/-- Linear advection on a periodic mesh without enhancement (`s` is the exact object, `f` a field), in arithmetic of relative
accuracy `ε` and underflow threshold `η`. -/
structure Setting (A : Arith) (ε η : ℝ) (s : Sol ℝ) (lib : GaussLib ℝ) (p f : ℕ) : Prop where
  eps0 : 0 ≤ ε
  eps1 : ε ≤ 1 / 2
  eta0 : 0 ≤ η
  eta1 : η ≤ 1 / 10 ^ 15
  rnd : RoundsWithin A.rnd ε η
  dot : DotsWithin A.dot (p + 1) ε η
  built : s.Built lib p
  kw : s.kw = Advection.physics
  enhance : s.enhance = none
  bcl : s.bcl = .lit "periodic"
  bcr : s.bcr = .lit "periodic"
  dx : 0 < s.dx
  field : f < s.NF

/-- `L²` distance over the mesh of `s` between field `f` of two arrays of coefficients. -/
noncomputable def l2Dist (s : Sol ℝ) (f : ℕ) (u v : Arr ℝ) : ℝ :=
  √(∑ e ∈ Finset.Icc 1 s.NE, s.dx / 2 * ∫ ξ in (-1 : ℝ)..1, ((cellPoly { s with u := u } e f).eval ξ - (cellPoly { s with u := v } e f).eval ξ) ^ 2)

end Dg1d.Rounded
