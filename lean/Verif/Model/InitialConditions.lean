import Verif.Model.Text
import Verif.Model.Euler
import Mathlib.Analysis.SpecialFunctions.Trigonometric.Basic
import Mathlib.Analysis.SpecialFunctions.Pow.Real

/-!
# dg1d/solution.py — the initial-condition functions

Each method sets the domain, perhaps the global `constants.gamma`, the boundary names, and a function `f(x)` returning the
list of fields. `γ` is the value of `constants.gamma` when `f` is called. Decimal literals are taken as the exact
decimals, `np.pi` as π.
-/

namespace Dg1d.IC
open Real

/-- What an initial-condition method prepares before it calls `setup_common_ic(f, A, B)`. `gamma = some g`: it assigns
`constants.gamma = g`. solution.py:228-472. -/
structure Setup where
  A : ℝ
  B : ℝ
  gamma : Option ℝ
  bc : String
  f : ℝ → ℝ → List ℝ

/-- solution.py:228-244 `sinewave`. -/
noncomputable def sinewave : Setup := ⟨-1, 1, none, "periodic", fun _ x => [sin (2 * π * x)]⟩

/-- solution.py:266-278: the velocity of `simplew`; `none` would be a use of the unassigned local `u`. -/
noncomputable def simplewVelocity (γ x : ℝ) : Option ℝ :=
  let u0 := 2 / γ
  if x ≤ -3 / 2 then some (-u0)
  else if x > -3 / 2 ∧ x < -1 / 2 then some (-1 / γ * (1 - tanh ((x + 1) / (1 / 4 - (x + 1) ^ 2))))
  else if x ≥ -1 / 2 ∧ x ≤ 1 / 2 then some 0
  else if x > 1 / 2 ∧ x < 3 / 2 then some (1 / γ * (1 + tanh ((x - 1) / (1 / 4 - (x - 1) ^ 2))))
  else if x ≥ 3 / 2 then some u0
  else none

/-- solution.py:263-286: `f` of `simplew`. -/
noncomputable def simplewF (γ x : ℝ) : List ℝ :=
  match simplewVelocity γ x with
  | none => []
  | some u =>
    let a := 1 - (γ - 1) / 2 * |u|
    let rho := γ * a ^ (2 / (γ - 1))
    let p := rho * a * a / γ
    let E := p / (γ - 1) + 1 / 2 * rho * u * u
    [rho, rho * u, E]

/-- solution.py:247-293 `simplew`. -/
noncomputable def simplew : Setup := ⟨-4, 4, some 3, "zerograd", simplewF⟩

/-- solution.py:307-321: `f` of `entrpyw`. -/
noncomputable def entrpywF (γ x : ℝ) : List ℝ :=
  let rho := 1 + 1 / 5 * sin (π * x)
  let u : ℝ := 1
  let p : ℝ := 1
  let E := p / (γ - 1) + 1 / 2 * rho * u * u
  [rho, rho * u, E]

/-- solution.py:296-328 `entrpyw`. -/
noncomputable def entrpyw : Setup := ⟨-1, 1, none, "periodic", entrpywF⟩

/-- solution.py:344-360: `f` of `acsticw`. -/
noncomputable def acsticwF (γ x : ℝ) : List ℝ :=
  let h := 1 / 10 ^ 4 * cos (1 / 2 * π * x) ^ 8
  let rho := 1 + h
  let u : ℝ := 0
  let p := 1 / γ + h
  let E := p / (γ - 1) + 1 / 2 * rho * u * u
  [rho, rho * u, E]

/-- solution.py:331-367 `acsticw`. -/
noncomputable def acsticw : Setup := ⟨-1, 1, none, "periodic", acsticwF⟩

/-- solution.py:397-411: `f` of `scktube`. (`elif x >= xdiaph` is the remaining case for real `x`.) -/
noncomputable def scktubeF (xd rhoL uL pL rhoR uR pR γ x : ℝ) : List ℝ :=
  let w := if x < xd then (rhoL, uL, pL) else (rhoR, uR, pR)
  [w.1, w.1 * w.2.1, 1 / (γ - 1) * w.2.2 + 1 / 2 * w.1 * w.2.1 * w.2.1]

/-- solution.py:370-418 `scktube`, with the parameters parsed. -/
noncomputable def scktube (xd rhoL uL pL rhoR uR pR : ℝ) : Setup :=
  ⟨-1, 1, some (7 / 5), "zerograd", scktubeF xd rhoL uL pL rhoR uR pR⟩

/-- solution.py:429-446: `f` of `shuoshe`. It assigns `constants.gamma = 1.4` itself (the value already there, see
`constants.init`) before reading it. -/
noncomputable def shuosheF (_γ x : ℝ) : List ℝ :=
  let γ : ℝ := 7 / 5
  let w := if x < 1 then (3857143 / 1000000, 2629369 / 1000000, 10333333 / 1000000)
    else (1 + 1 / 5 * sin (5 * (x - 5)), 0, 1)
  [w.1, w.1 * w.2.1, 1 / (γ - 1) * w.2.2 + 1 / 2 * w.1 * w.2.1 * w.2.1]

/-- solution.py:421-453 `shuoshe`. -/
noncomputable def shuoshe : Setup := ⟨0, 10, none, "zerograd", shuosheF⟩

/-- solution.py:456-472 `ictest`. -/
noncomputable def ictest : Setup := ⟨-1, 1, none, "periodic", fun _ x => [sin (x - π / 3) ^ 3 + 1]⟩

end Dg1d.IC
