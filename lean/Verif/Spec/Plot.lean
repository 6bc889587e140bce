import Verif.Model.Plot
import Verif.Spec.Dg
import Verif.Spec.Euler

/-! # What a plot of a solution should show (specification) -/

namespace Dg1d.Spec

/-- The point of cell `e` with local coordinate `ξ ∈ [-1, 1]`. -/
noncomputable def place (s : Sol ℝ) (e : ℕ) (ξ : ℝ) : ℝ := s.xc.val (e - 1) + s.dx / 2 * ξ

/-- One figure per field; in it, for the cells `1 … N_E` from left to right, circles at the local coordinates `ξs` and
squares at both ends, each at its place in the domain and at the height `value field cell ξ`. -/
noncomputable def figures (s : Sol ℝ) (ξs : List ℝ) (value : ℕ → ℕ → ℝ → ℝ) : List (List Marks) :=
  (List.range s.NF).map fun f => (List.range s.NE).map fun i =>
    ⟨ξs.map fun ξ => (place s (i + 1) ξ, value f (i + 1) ξ), [-1, 1].map fun ξ => (place s (i + 1) ξ, value f (i + 1) ξ)⟩

/-- Density, velocity, pressure by number. -/
def Prim.get (w : Prim) (f : ℕ) : ℝ := if f = 0 then w.rho else if f = 1 then w.v else w.p

end Dg1d.Spec
