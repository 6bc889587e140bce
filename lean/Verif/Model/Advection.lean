import Verif.Model.Solution
import Mathlib.Algebra.Order.Group.Abs

/-!
# dg1d/advection_physics.py
-/

namespace Dg1d

/-- advection_physics.py:52-54 / euler_physics.py:400-402, 407-410:
`idx = np.where(flag)`, `sensors[idx] = v; sensors[idx+1] = v`, for `m` interfaces. -/
def raiseSensors (flag : ℕ → Bool) (m v : ℕ) (s : Vec ℕ) : Vec ℕ :=
  { s with val := fun i =>
      if (i < m ∧ flag i = true) ∨ (1 ≤ i ∧ i - 1 < m ∧ flag (i - 1) = true) then v else s.val i }

namespace Advection
variable {K : Type*} [Field K] [LinearOrder K]

/-- advection_physics.py:17-19 `max_wave_speed`. -/
def maxWaveSpeed (_u : Arr K) : Wave K := .fin 1

/-- advection_physics.py:24-26 `riemann_upwinding`. -/
def riemannUpwinding (ul _ur : Vec K) : Vec K := ul

/-- advection_physics.py:31-33 `interior_flux`. -/
def interiorFlux (ug : Arr K) : Arr K := ug

/-- advection_physics.py:48-49: the indicator `PHI` of one interface. -/
def indicator (ul ur : K) : K :=
  let phi := |ur - ul|
  2 * phi / ((1 + phi) * (1 + phi))

/-- advection_physics.py:38-54 `sensing`. `thresholds[0]` raises on an empty list. -/
def sensing (thresholds : List K) (u : Arr K) (NF : ℕ) (sensors : Vec ℕ) : Except PyErr (Vec ℕ) :=
  match thresholds with
  | [] => .error .indexError
  | th0 :: _ =>
    let ul := (u.row 0).slice 0 (-(NF : ℤ))
    let ur := (u.row 0).slice NF u.cols
    .ok (raiseSensors (fun i => decide (indicator (ul.val i) (ur.val i) > th0)) ul.len 1 sensors)

/-- solution.py:87-102: the default dictionary. -/
def physics : Physics K :=
  { fields := ["u"]
    riemann := fun ul ur => .ok (riemannUpwinding ul ur)
    interiorFlux := interiorFlux
    maxWaveSpeed := fun u => .ok (maxWaveSpeed u)
    sensing := sensing }

end Advection
end Dg1d
