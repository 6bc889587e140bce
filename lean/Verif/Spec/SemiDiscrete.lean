import Mathlib.Analysis.Analytic.Basic
import Mathlib.Analysis.Calculus.Deriv.Basic
import Verif.Spec.Dg

/-!
# The semi-discrete DG equations (specification)

The system of ordinary differential equations for the coefficients of the interior cells, written with the weak form
(Gauss quadrature of the volume term, numerical fluxes at the two faces), for any point fluxes.
-/

open Polynomial Filter Topology

namespace Dg1d.Spec

/-- The solution with coefficients `v` and refilled ghost cells. -/
def filled (s : Sol ℝ) (v : ℕ → ℕ → ℝ) : Sol ℝ :=
  { s with u := { s.u with val := ({ s with u := { s.u with val := v } } : Sol ℝ).applyBc.u.val } }

/-- Right-hand side of the ordinary differential equation of coefficient `n` of field `f` in cell `e`, for the coefficients
`v` (their ghost cells are refilled). `x`, `w` are the quadrature points and weights. -/
noncomputable def dgRhs (p : ℕ) (x w : ℕ → ℝ) (s : Sol ℝ) (flux : (Fin s.NF → ℝ) → Fin s.NF → ℝ)
    (num : (Fin s.NF → ℝ) → (Fin s.NF → ℝ) → Fin s.NF → ℝ) (v : ℕ → ℕ → ℝ) (n e : ℕ) (f : Fin s.NF) : ℝ :=
  let z := filled s v
  (2 * (n : ℝ) + 1) / s.dx *
    ((∑ g ∈ Finset.range (p + 1), w g * (derivative (legendre ℝ n)).eval (x g) *
        flux (fun f' => (cellPoly z e f').eval (x g)) f) -
      (num (leftState z e) (rightState z e) f * (legendre ℝ n).eval 1 -
        num (leftState z (e - 1)) (rightState z (e - 1)) f * (legendre ℝ n).eval (-1)))

/-- The degrees of freedom: coefficient, interior cell (counted from 0), field. -/
abbrev Dof (p : ℕ) (s : Sol ℝ) : Type := Fin (p + 1) × Fin s.NE × Fin s.NF

/-- The degrees of freedom in an array of coefficients. -/
def dofs (p : ℕ) (s : Sol ℝ) (v : ℕ → ℕ → ℝ) : Dof p s → ℝ := fun i => v i.1 ((i.2.1 + 1) * s.NF + i.2.2)

/-- An array of coefficients with given degrees of freedom (zero in the ghosts). -/
def cells (p : ℕ) (s : Sol ℝ) (x : Dof p s → ℝ) : ℕ → ℕ → ℝ := fun n c =>
  if h : n < p + 1 ∧ c / s.NF - 1 < s.NE ∧ c % s.NF < s.NF ∧ 1 ≤ c / s.NF then x (⟨n, h.1⟩, ⟨c / s.NF - 1, h.2.1⟩, ⟨c % s.NF, h.2.2.1⟩) else 0

/-- `y` solves the semi-discrete equations near time `0`. -/
def SolvesNear (p : ℕ) (x w : ℕ → ℝ) (s : Sol ℝ) (flux : (Fin s.NF → ℝ) → Fin s.NF → ℝ)
    (num : (Fin s.NF → ℝ) → (Fin s.NF → ℝ) → Fin s.NF → ℝ) (y : ℝ → ℕ → ℕ → ℝ) : Prop :=
  ∀ᶠ t in 𝓝 (0 : ℝ), ∀ n < p + 1, ∀ e, 1 ≤ e → e ≤ s.NE → ∀ f : Fin s.NF,
    HasDerivAt (fun τ => y τ n (e * s.NF + f)) (dgRhs p x w s flux num (y t) n e f) t

/-- `y` solves the semi-discrete equations on (a neighbourhood of) the time interval `[0, T]`. -/
def SolvesOn (p : ℕ) (x w : ℕ → ℝ) (s : Sol ℝ) (flux : (Fin s.NF → ℝ) → Fin s.NF → ℝ)
    (num : (Fin s.NF → ℝ) → (Fin s.NF → ℝ) → Fin s.NF → ℝ) (T : ℝ) (y : ℝ → ℕ → ℕ → ℝ) : Prop :=
  ∀ τ, 0 ≤ τ → τ ≤ T → ∀ᶠ t in 𝓝 τ, ∀ n < p + 1, ∀ e, 1 ≤ e → e ≤ s.NE → ∀ f : Fin s.NF,
    HasDerivAt (fun τ => y τ n (e * s.NF + f)) (dgRhs p x w s flux num (y t) n e f) t

/-- The right-hand sides are analytic functions of the degrees of freedom at `a`. -/
def SmoothAt (p : ℕ) (x w : ℕ → ℝ) (s : Sol ℝ) (flux : (Fin s.NF → ℝ) → Fin s.NF → ℝ)
    (num : (Fin s.NF → ℝ) → (Fin s.NF → ℝ) → Fin s.NF → ℝ) (a : ℕ → ℕ → ℝ) : Prop :=
  ∀ n < p + 1, ∀ e, 1 ≤ e → e ≤ s.NE → ∀ f : Fin s.NF,
    AnalyticAt ℝ (fun d : Dof p s → ℝ => dgRhs p x w s flux num (cells p s d) n e f) (dofs p s a)

end Dg1d.Spec
