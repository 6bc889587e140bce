import Verif.Model.Advection
import Mathlib.Analysis.SpecialFunctions.Pow.Real
import Mathlib.Analysis.Real.Sqrt

/-!
# dg1d/euler_physics.py — Euler equations

`γ` is the module global `constants.gamma` (constants.py:8-12) at the time of the call. Numbers are reals. Where a
Riemann solver would compute NaN or inf (zero density, negative pressure, …) Python goes on with these values until
the next CFL check ends the run; the model stops with the error value `notReal`. `interior_flux` has no such check: at
a quadrature point of zero density the model value is meaningless.
-/

namespace Dg1d.Euler

/-- One conserved state (density, momentum, total energy), or one flux vector: an entry of the slices
`ul[0::3], ul[1::3], ul[2::3]` (euler_physics.py:49-51 and alike). -/
structure St where
  rho : ℝ
  m : ℝ
  E : ℝ

/-- `u[1::3] / rho` (euler_physics.py:50 and alike). -/
noncomputable def St.v (s : St) : ℝ := s.m / s.rho

/-- `(gamma - 1) * (E - 0.5 * rho * v * v)` (euler_physics.py:52 and alike). -/
noncomputable def St.p (γ : ℝ) (s : St) : ℝ := (γ - 1) * (s.E - 1 / 2 * s.rho * s.v * s.v)

/-- `np.sqrt(gamma * p / rho)` (euler_physics.py:53 and alike). -/
noncomputable def St.a (γ : ℝ) (s : St) : ℝ := √(γ * s.p γ / s.rho)

/-- `(E + p) / rho` (euler_physics.py:269, 276). -/
noncomputable def St.H (γ : ℝ) (s : St) : ℝ := (s.E + s.p γ) / s.rho

/-- The `i`-th state of an interleaved array. euler_physics.py:23-25, 49-57, 91-99, 264-273, 346-348, 372-381. -/
def stateAt (v : ℕ → ℝ) (i : ℕ) : St := ⟨v (0 + 3 * i), v (1 + 3 * i), v (2 + 3 * i)⟩

/-- An interleaved array with the given states: `F[0::3] = …; F[1::3] = …; F[2::3] = …`. euler_physics.py:46, 65-72, 88, 261, 318-333, 343-354. -/
def ofStates (len : ℕ) (f : ℕ → St) : Vec ℝ :=
  ⟨len, interleave3 (fun i => (f i).rho) (fun i => (f i).m) (fun i => (f i).E)⟩

/-- euler_physics.py:19-31 `max_wave_speed`. The result is NaN as soon as one cell average has zero density or a
negative `gamma*p/rho` (numpy's `max` propagates NaN). For an empty array `np.max` raises `ValueError`. -/
noncomputable def maxWaveSpeed (γ : ℝ) (u : Arr ℝ) : Except PyErr (Wave ℝ) :=
  let N := (u.cols + 2) / 3
  let s := fun i => stateAt (u.val 0) i
  if N = 0 then .error .valueError
  else if ∃ i < N, (s i).rho = 0 ∨ γ * (s i).p γ / (s i).rho < 0 then .ok .nan
  else .ok (.fin ((List.range N).foldl (fun m i => max m (|(s i).v| + (s i).a γ)) (|(s 0).v| + (s 0).a γ)))

/-- euler_physics.py:339-356 `interior_flux`, one point. -/
noncomputable def flux1 (γ : ℝ) (s : St) : St :=
  ⟨s.m, s.rho * s.v * s.v + s.p γ, (s.E + s.p γ) * s.v⟩

/-- euler_physics.py:339-356 `interior_flux`. -/
noncomputable def interiorFlux (γ : ℝ) (ug : Arr ℝ) : Arr ℝ :=
  { ug with val := fun r => (ofStates ug.cols fun i => flux1 γ (stateAt (ug.val r) i)).val }

/-- euler_physics.py:36-74 `riemann_rusanov`, one interface. -/
noncomputable def rusanov1 (γ : ℝ) (L R : St) : St :=
  let maxvap := max (|L.v| + L.a γ) (|R.v| + R.a γ)
  { rho := 1 / 2 * (L.rho * L.v + R.rho * R.v - maxvap * (R.rho - L.rho))
    m := 1 / 2 * (L.rho * L.v * L.v + L.p γ + R.rho * R.v * R.v + R.p γ - maxvap * (R.rho * R.v - L.rho * L.v))
    E := 1 / 2 * ((L.E + L.p γ) * L.v + (R.E + R.p γ) * R.v - maxvap * (R.E - L.E)) }

/-- The primitive variables and the sound speed of `s` are real numbers (euler_physics.py:49-53 and alike). -/
def St.IsReal (γ : ℝ) (s : St) : Prop := s.rho ≠ 0 ∧ 0 ≤ γ * s.p γ / s.rho

open Classical in
/-- euler_physics.py:36-74 `riemann_rusanov`. -/
noncomputable def rusanov (γ : ℝ) (ul ur : Vec ℝ) : Except PyErr (Vec ℝ) :=
  if ∃ i < (ul.len + 2) / 3, ¬ ((stateAt ul.val i).IsReal γ ∧ (stateAt ur.val i).IsReal γ) then .error .notReal
  else .ok (ofStates ul.len fun i => rusanov1 γ (stateAt ul.val i) (stateAt ur.val i))

/-- euler_physics.py:278-283, Roe averages: (density, velocity, enthalpy, sound speed). -/
noncomputable def roeAverages (γ : ℝ) (L R : St) : ℝ × ℝ × ℝ × ℝ :=
  let RT := √(R.rho / L.rho)
  let rho := RT * L.rho
  let v := (L.v + RT * R.v) / (1 + RT)
  let H := (L.H γ + RT * R.H γ) / (1 + RT)
  (rho, v, H, √((γ - 1) * (H - 1 / 2 * v * v)))

/-- euler_physics.py:292-297, entropy fix of one wave speed `ws` whose characteristic speeds left and right are
`cL`, `cR`. -/
noncomputable def entropyFix (ws cL cR : ℝ) : ℝ :=
  let Da := max 0 (4 * (cR - cL))
  if ws < 1 / 2 * Da then ws * ws / Da + 1 / 4 * Da else ws

open Classical in
/-- euler_physics.py:292-297: one wave speed after the entropy fix. If one of the sound speeds `aL`, `aR` is NaN, so is `Da`
(`np.maximum` propagates NaN), the comparison is false and the speed is left alone. -/
noncomputable def fixedSpeed (γ : ℝ) (L R : St) (ws cL cR : ℝ) : ℝ :=
  if L.IsReal γ ∧ R.IsReal γ then entropyFix ws cL cR else ws

/-- euler_physics.py:251-335 `riemann_roe`, one interface. -/
noncomputable def roe1 (γ : ℝ) (L R : St) : St :=
  let (rho, v, H, a) := roeAverages γ L R
  let dp := R.p γ - L.p γ
  let ws0 := fixedSpeed γ L R |v - a| (L.v - L.a γ) (R.v - R.a γ)
  let ws1 := |v|
  let ws2 := fixedSpeed γ L R |v + a| (L.v + L.a γ) (R.v + R.a γ)
  let dV0 := ws0 * (dp - rho * a * (R.v - L.v)) / (2 * a * a)
  let dV1 := ws1 * ((R.rho - L.rho) - dp / (a * a))
  let dV2 := ws2 * (dp + rho * a * (R.v - L.v)) / (2 * a * a)
  { rho := 1 / 2 * (L.rho * L.v + R.rho * R.v) - 1 / 2 * (dV0 * 1 + dV1 * 1 + dV2 * 1)
    m := 1 / 2 * (L.rho * L.v * L.v + L.p γ + R.rho * R.v * R.v + R.p γ)
      - 1 / 2 * (dV0 * (v - a) + dV1 * v + dV2 * (v + a))
    E := 1 / 2 * ((L.E + L.p γ) * L.v + (R.E + R.p γ) * R.v)
      - 1 / 2 * (dV0 * (H - v * a) + dV1 * (1 / 2 * v * v) + dV2 * (H + v * a)) }

/-- The Roe averages (euler_physics.py:278-283) are real numbers and the sound speed can be divided by. The sound speeds
of the two states need not be real: they only enter the entropy fix. If the averages are not real, neither is the flux: a zero
density makes `rho` and `v` NaN, and with a zero sound speed the terms `ws0_dV0` and `ws1_dV1` are NaN or opposite infinities. -/
def RoeReal (γ : ℝ) (L R : St) : Prop :=
  L.rho ≠ 0 ∧ R.rho ≠ 0 ∧ 0 ≤ R.rho / L.rho ∧
  0 < (γ - 1) * ((roeAverages γ L R).2.2.1 - 1 / 2 * (roeAverages γ L R).2.1 * (roeAverages γ L R).2.1)

open Classical in
/-- euler_physics.py:251-335 `riemann_roe`. -/
noncomputable def roe (γ : ℝ) (ul ur : Vec ℝ) : Except PyErr (Vec ℝ) :=
  if ∃ i < (ul.len + 2) / 3, ¬ RoeReal γ (stateAt ul.val i) (stateAt ur.val i) then .error .notReal
  else .ok (ofStates ul.len fun i => roe1 γ (stateAt ul.val i) (stateAt ur.val i))

/-- euler_physics.py:209-226 `massflux`. -/
noncomputable def massflux (γ r c pQ pm : ℝ) : ℝ :=
  let eps : ℝ := 1 / 10 ^ 15
  let gam1 := 1 / 2 * (γ + 1) / γ
  let gam2 := 1 / 2 * (γ - 1) / γ
  if pm / pQ ≥ 1 - eps then r * c * √(1 + gam1 * (pm / pQ - 1))
  else r * c * gam2 * (1 - pm / pQ) / (1 - (pm / pQ) ^ gam2)

/-- euler_physics.py:230-247 `sonic`. -/
noncomputable def sonic (γ u1 c1 P1 u2 c2 a1 a2 : ℝ) : ℝ × ℝ × ℝ :=
  let R1 := a2 / (a2 - a1)
  let R2 := -a1 / (a2 - a1)
  let us := R1 * u1 + R2 * u2
  let cs := R1 * c1 + R2 * c2
  let Ps := (cs / c1) ^ (2 * γ / (γ - 1)) * P1
  let rs := γ * Ps / (cs * cs)
  (rs, rs * us, Ps / (γ - 1) + 1 / 2 * rs * us * us)

open Classical in
/-- euler_physics.py:129-131: the first pressure. A negative base to a fractional power is NaN (`none`); with an
integer exponent it is `± |base|^e`, which is also the value of the real power of Mathlib. -/
noncomputable def pmStart (γ : ℝ) (L R : St) : Option ℝ :=
  let base := (1 / 2 * (L.v - R.v) * (γ - 1) + L.a γ + R.a γ) /
    (L.a γ * L.p γ ^ ((1 - γ) / γ * (1 / 2)) + R.a γ * R.p γ ^ ((1 - γ) / γ * (1 / 2)))
  let e := 2 * γ / (γ - 1)
  if base < 0 ∧ ¬ ∃ n : ℤ, e = n then none else some (base ^ e)

/-- euler_physics.py:141-144: the next pressure. A negative `pm1` makes `massflux` NaN (a negative number to a
fractional power), hence the result. -/
noncomputable def pmNext (γ : ℝ) (L R : St) (pm1 : ℝ) : Option ℝ :=
  if pm1 < 0 then none
  else
    let mL := massflux γ L.rho (L.a γ) (L.p γ) pm1
    let mR := massflux γ R.rho (R.a γ) (R.p γ) pm1
    some ((mL * R.p γ + mR * L.p γ - mL * mR * (R.v - L.v)) / (mL + mR))

/-- The exit of euler_physics.py:152-154. -/
def noConvergence : PyErr := .sysExit "Godunov fixed-point iteration did not converge. Exiting."

/-- euler_physics.py:147 `abs(pm2 - pm1) < tol` with `tol = 1e-6` (line 104); comparisons with NaN are false. -/
def Converged : Option ℝ → Option ℝ → Prop
  | some x, some y => |y - x| < 1 / 10 ^ 6
  | _, _ => False

open Classical in
/-- euler_physics.py:139-157: `for k in range(kmax + 2)` with `n` values of the range left, the current one being
`k`. The value is `pm2` when the loop ends (`none`: NaN, which never converges). -/
noncomputable def pmLoop (γ : ℝ) (L R : St) : ℕ → ℕ → Option ℝ → Except PyErr (Option ℝ)
  | 0, _, pm1 => .ok pm1
  | n + 1, k, pm1 =>
    let pm2 := pm1.bind (pmNext γ L R)
    if Converged pm1 pm2 then .ok pm2
    else if k + 1 > 100 then .error noConvergence
    else pmLoop γ L R n (k + 1) pm2

/-- euler_physics.py:159-162: the velocity in the middle. -/
noncomputable def starVelocity (γ : ℝ) (L R : St) (pm2 : ℝ) : ℝ :=
  let mL := massflux γ L.rho (L.a γ) (L.p γ) pm2
  let mR := massflux γ R.rho (R.a γ) (R.p γ) pm2
  (mL * L.v + mR * R.v - (R.p γ - L.p γ)) / (mL + mR)

/-- euler_physics.py:164-173: the density in the middle behind the wave into the state of density `r`, pressure `P`. -/
noncomputable def starDensity (γ r P pm2 : ℝ) : ℝ :=
  let gam := (γ + 1) / (γ - 1)
  if pm2 / P ≥ 1 then r * (1 + gam * pm2 / P) / (gam + pm2 / P) else r * (pm2 / P) ^ (1 / γ)

/-- euler_physics.py:175-196, the state at `x/t = 0` from the pressure `pm2 > 0`, the velocity `vm` and the densities
`rm0`, `rm1` in the middle: `rmI` and, if one of the three branches is taken, `Um2, Um3`. The last `elif` has no
`else`: `none` stands for the variables keeping the value they had (unassigned, or left from the previous
interface). -/
noncomputable def sampleStar (γ : ℝ) (L R : St) (pm2 vm rm0 rm1 : ℝ) : ℝ × Option (ℝ × ℝ) :=
  let rmI := if vm ≥ 0 then rm0 else rm1
  let amL := √(γ * pm2 / rm0)
  let amR := √(γ * pm2 / rm1)
  let SmL := vm - amL
  let SmR := vm + amR
  if SmL ≤ 0 ∧ SmR ≥ 0 then (rmI, some (rmI * vm, pm2 / (γ - 1) + 1 / 2 * rmI * vm * vm))
  else if SmL > 0 ∧ L.v - L.a γ < 0 then
    let (rs, us, Us) := sonic γ L.v (L.a γ) (L.p γ) vm amL (L.v - L.a γ) SmL
    (rs, some (us, Us))
  else if SmR < 0 ∧ R.v + R.a γ > 0 then
    let (rs, us, Us) := sonic γ R.v (R.a γ) (R.p γ) vm amR (R.v + R.a γ) SmR
    (rs, some (us, Us))
  else (rmI, none)

/-- euler_physics.py:159-196. -/
noncomputable def godunovState (γ : ℝ) (L R : St) (pm2 : ℝ) : ℝ × Option (ℝ × ℝ) :=
  sampleStar γ L R pm2 (starVelocity γ L R pm2) (starDensity γ L.rho (L.p γ) pm2) (starDensity γ R.rho (R.p γ) pm2)

/-- euler_physics.py:198-203: the flux at that state. -/
noncomputable def godunovFlux (γ rmI Um2 Um3 : ℝ) : St :=
  let pm := (γ - 1) * (Um3 - 1 / 2 * Um2 * Um2 / rmI)
  ⟨Um2, Um2 * Um2 / rmI + pm, (Um3 + pm) * Um2 / rmI⟩

open Classical in
/-- euler_physics.py:109-203, the body of the loop over the interfaces. `last` holds the values `Um2, Um3` have
from earlier interfaces; the new ones are returned with the flux. States without positive density and pressure are
not modelled (`notReal`). With `pm2 ≤ 0` the sound speeds `amL`, `amR` are NaN (`0/0`, or the root of a negative
number), so no branch is taken: `Um2` is unassigned, or stale and divided by `rmI`, which is zero or NaN. -/
noncomputable def godunov1 (γ : ℝ) (L R : St) (last : Option (ℝ × ℝ)) : Except PyErr (St × Option (ℝ × ℝ)) :=
  if ¬ (0 < L.rho ∧ 0 < L.p γ ∧ 0 < R.rho ∧ 0 < R.p γ) then .error .notReal
  else if L.v / L.a γ ≥ 1 then
    .ok (⟨L.rho * L.v, L.rho * L.v * L.v + L.p γ, (L.E + L.p γ) * L.v⟩, last)
  else if R.v / R.a γ ≤ -1 then
    .ok (⟨R.rho * R.v, R.rho * R.v * R.v + R.p γ, (R.E + R.p γ) * R.v⟩, last)
  else
    match pmLoop γ L R 102 0 (pmStart γ L R) with
    | .error e => .error e
    | .ok none => .error .unboundLocal
    | .ok (some pm2) =>
      if pm2 ≤ 0 then
        match last with
        | none => .error .unboundLocal
        | some _ => .error .notReal
      else
        let (rmI, U) := godunovState γ L R pm2
        match U, last with
        | some (Um2, Um3), _ => .ok (godunovFlux γ rmI Um2 Um3, some (Um2, Um3))
        | none, some (Um2, Um3) => .ok (godunovFlux γ rmI Um2 Um3, last)
        | none, none => .error .unboundLocal

/-- euler_physics.py:107-203: the loop over the interfaces, in order, from interface `i` on; the fluxes so far are
kept in `F`. -/
noncomputable def godunovLoop (γ : ℝ) (ul ur : Vec ℝ) : ℕ → ℕ → (ℕ → St) → Option (ℝ × ℝ) → Except PyErr (ℕ → St)
  | 0, _, F, _ => .ok F
  | n + 1, i, F, last =>
    match godunov1 γ (stateAt ul.val i) (stateAt ur.val i) last with
    | .error e => .error e
    | .ok (f, last) => godunovLoop γ ul ur n (i + 1) (Function.update F i f) last

/-- euler_physics.py:78-205 `riemann_godunov`. -/
noncomputable def godunov (γ : ℝ) (ul ur : Vec ℝ) : Except PyErr (Vec ℝ) :=
  match godunovLoop γ ul ur ((ul.len + 2) / 3) 0 (fun _ => ⟨0, 0, 0⟩) none with
  | .error e => .error e
  | .ok F => .ok (ofStates ul.len F)

/-- euler_physics.py:361-410 `sensing`: indices of the detected faces. Face `i` lies between cells `i` and `i+1`
(`ul = u[0,:-N_F]`, `ur = u[0,N_F:]`, `N_F = 3`). -/
noncomputable def faceStates (u : Arr ℝ) (NF : ℕ) (i : ℕ) : St × St :=
  let ul := (u.row 0).slice 0 (-(NF : ℤ))
  let ur := (u.row 0).slice NF u.cols
  (stateAt ul.val i, stateAt ur.val i)

/-- euler_physics.py:392-400: the discontinuity test of one face. The first line: where a density is zero, a square
root is not real or a divisor vanishes, numpy gets NaN (or `-inf`) and the comparison is false. -/
noncomputable def isDiscontinuity (γ th0 : ℝ) (L R : St) : Prop :=
  let (_, v, H, a) := roeAverages γ L R
  let dV2 := (R.rho - L.rho) - (R.p γ - L.p γ) / (a * a)
  let xsi := |dV2| / (L.rho + R.rho)
  (L.rho ≠ 0 ∧ R.rho ≠ 0 ∧ 0 ≤ R.rho / L.rho ∧ 0 < (γ - 1) * (H - 1 / 2 * v * v) ∧ 1 + xsi ≠ 0) ∧
  2 * xsi / ((1 + xsi) * (1 + xsi)) > th0

/-- euler_physics.py:404-408: the shock test of one face; the first line as in `isDiscontinuity`. -/
noncomputable def isShock (γ th1 : ℝ) (L R : St) : Prop :=
  let (_, v, H, a) := roeAverages γ L R
  let phi := |R.p γ - L.p γ| / (L.p γ + R.p γ)
  (L.IsReal γ ∧ R.IsReal γ ∧ 0 ≤ R.rho / L.rho ∧ 0 ≤ (γ - 1) * (H - 1 / 2 * v * v) ∧ L.p γ + R.p γ ≠ 0 ∧ 1 + phi ≠ 0) ∧
  2 * phi / ((1 + phi) * (1 + phi)) > th1 ∧ L.v - L.a γ > v - a ∧ v - a > R.v - R.a γ

open Classical in
/-- euler_physics.py:361-410 `sensing(sensors, thresholds, solution)`: the mutated sensor array. With fewer than two
thresholds `thresholds[1]` (or `[0]`) raises `IndexError`. -/
noncomputable def sensing (γ : ℝ) (th : List ℝ) (u : Arr ℝ) (NF : ℕ) (s : Vec ℕ) : Except PyErr (Vec ℕ) :=
  let n := (((u.row 0).slice 0 (-(NF : ℤ))).len + 2) / 3
  match th with
  | [] => .error .indexError
  | th0 :: rest =>
    let s := raiseSensors (fun i => decide (isDiscontinuity γ th0 (faceStates u NF i).1 (faceStates u NF i).2)) n 1 s
    match rest with
    | [] => .error .indexError
    | th1 :: _ =>
      .ok (raiseSensors (fun i => decide (isShock γ th1 (faceStates u NF i).1 (faceStates u NF i).2)) n 2 s)

/-- solution.py:107-118: the Euler entries of the dictionary; any other solver name means Roe. -/
noncomputable def physics (γ : ℝ) (riemann : String) : Physics ℝ :=
  { fields := ["rho", "rhou", "E"]
    riemann := if riemann = "rusanov" then rusanov γ else if riemann = "godunov" then godunov γ else roe γ
    interiorFlux := interiorFlux γ
    maxWaveSpeed := maxWaveSpeed γ
    sensing := sensing γ }

end Dg1d.Euler
