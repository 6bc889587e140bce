import Verif.Spec.Contact

/-!
# Independent specification: flows that stand still

Discontinuities of the Euler equations that do not move: contacts in a gas at rest, and shocks of speed zero that obey Lax's
entropy condition. Nothing here refers to the model of the code but the solution read as polynomials (`cellPoly`).
-/

open Polynomial

namespace Dg1d.Spec

/-- A contact at rest: the same pressure on both sides and no velocity. -/
def RestContact (a b : Prim) : Prop := a.v = 0 ∧ b.v = 0 ∧ a.p = b.p

/-- A shock of speed zero, the gas flowing through it from supersonic to subsonic speed (Lax): from left to right, or from
right to left. -/
def StandingShock (γ : ℝ) (a b : Prim) : Prop :=
  RankineHugoniot γ 0 a b ∧ (a.c γ ≤ a.v ∧ b.v ≤ b.c γ ∨ b.v ≤ -b.c γ ∧ -a.c γ ≤ a.v)

/-- The states on two sides of a face that stay as they are. -/
def Standing (γ : ℝ) (a b : Prim) : Prop := a = b ∨ RestContact a b ∨ StandingShock γ a b

/-- Every cell `1 … N_E` holds the constant state `W e`, and the averages of the ghost cells are those of `W`. -/
def HoldsStates (γ : ℝ) (W : ℕ → Prim) (s : Sol ℝ) : Prop :=
  (∀ e ≤ s.NE + 1, ∀ f : Fin 3, cellMean s e f = (W e).cons γ f) ∧
  ∀ e, 1 ≤ e → e ≤ s.NE → ∀ f : Fin 3, cellPoly s e f = C ((W e).cons γ f)

end Dg1d.Spec
