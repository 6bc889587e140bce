import Verif.Model.Solution
import Verif.Spec.Legendre

/-! # What the discontinuous Galerkin residual should be (specification)

Cell `0` is the left ghost, cells `1 … N_E` are the interior, cell `N_E+1` is the right ghost; field `f` of cell
`e` is stored in column `e*N_F + f`. -/

open Polynomial

namespace Dg1d.Spec
variable {K : Type*} [Field K]

/-- Polynomial (in the local coordinate `ξ ∈ [-1,1]`) of field `f` in cell `e`. -/
noncomputable def cellPoly (s : Sol K) (e f : ℕ) : K[X] :=
  legSeries s.u.rows fun n => s.u.val n (e * s.NF + f)

/-- Average of field `f` over cell `e`. -/
noncomputable def cellMean (s : Sol K) (e f : ℕ) : K := intPoly (cellPoly s e f) / 2

/-- Energy of field `f`: the integral of its square over the interior cells. -/
noncomputable def energy (s : Sol K) (f : ℕ) : K := s.dx / 2 * ∑ e ∈ Finset.Icc 1 s.NE, intPoly (cellPoly s e f ^ 2)

/-- State on the left side of interface `i` (between cells `i` and `i+1`): right end of cell `i`, or the
enhanced value. -/
noncomputable def leftState (s : Sol K) (i : ℕ) : Fin s.NF → K := fun f =>
  match s.enhance with
  | none => (cellPoly s i f).eval 1
  | some en => ∑ n ∈ Finset.range s.u.rows, en.alphaL.val n * s.u.val n (i * s.NF + f) +
      ∑ n ∈ Finset.range s.u.rows, en.alphaR.val n * s.u.val n ((i + 1) * s.NF + f)

/-- State on the right side of interface `i`: left end of cell `i+1`, or the enhanced value. -/
noncomputable def rightState (s : Sol K) (i : ℕ) : Fin s.NF → K := fun f =>
  match s.enhance with
  | none => (cellPoly s (i + 1) f).eval (-1)
  | some en => ∑ n ∈ Finset.range s.u.rows, en.betaL.val n * s.u.val n (i * s.NF + f) +
      ∑ n ∈ Finset.range s.u.rows, en.betaR.val n * s.u.val n ((i + 1) * s.NF + f)

end Dg1d.Spec
