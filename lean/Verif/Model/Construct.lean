import Verif.Model.InitialConditions
import Verif.Model.Advection
import Verif.Model.BasisInit
import Verif.Model.Enhance
import Verif.Model.Limiter

/-!
# dg1d/solution.py — constructing a `Solution`

The global `constants.gamma` is part of the result. The attribute `N_E` may become negative (`int(params[0])` is stored
before it is used), so it is kept as an integer beside `Sol.NE`, which is its value cut off at 0. `np.empty` arrays hold
arbitrary numbers, the parameter `junk`. Simplified: `dx` is NaN for `N_E ≤ 0` (numpy's `retstep` with fewer than two
samples); the model stores a number there, and no theorem uses it.
-/

namespace Dg1d
open Text

/-- constants.py:8-12 `init`. -/
noncomputable def gammaInit : ℝ := 7 / 5

/-- solution.py:83-118 `set_manipulation_functions`: the system-dependent entries of the dictionary, and `N_F`. -/
noncomputable def manipulationFunctions (γ : ℝ) (system riemann : Str) : Physics ℝ × ℕ :=
  if system = "euler".toList then (Euler.physics γ (String.ofList riemann), 3) else (Advection.physics, 1)

/-- A `Solution` under construction: the object, its attribute `N_E`, the global gamma. solution.py:29-80, constants.py:8-12. -/
structure Partial where
  sol : Sol ℝ
  nE : ℤ
  gamma : ℝ

/-- solution.py:35-62, before the initial condition: an empty solution. `constants.init()` resets gamma. -/
noncomputable def emptySolution (lib : GaussLib ℝ) (junk : ℕ → ℝ) (system : Str) (order : ℕ) (riemann : Str) : Partial :=
  let kw := manipulationFunctions gammaInit system riemann
  let B := Basis.init lib order
  { sol :=
      { basis := B, kw := kw.1, t := 0, n := 0, NE := 0, NF := kw.2, x := ⟨1, junk⟩, xc := ⟨0, junk⟩, dx := 0
        u := ⟨B.Ns, 0, fun _ => junk⟩, scaledMinv := ⟨B.Ns, junk⟩, bcl := .lit "", bcr := .lit ""
        enhance := none, sensors := none }
    nE := 0
    gamma := gammaInit }

/-- solution.py:502-517 `populate`, for a list of (element, field) pairs; stops at the first exception. -/
noncomputable def populateLoop (B : Basis ℝ) (x : Vec ℝ) (NF : ℕ) (f : ℝ → List ℝ) :
    List (ℕ × ℕ) → Arr ℝ → Arr ℝ × Option PyErr
  | [], u => (u, none)
  | (e, field) :: l, u =>
    match B.projection (x.val e) (x.val (e + 1)) f field with
    | .error er => (u, some er)
    | .ok c => populateLoop B x NF f l (u.setCol (e * NF + field) c)

/-- solution.py:508, 514: the order of the loops of `populate`. -/
def populateOrder (NE NF : ℕ) : List (ℕ × ℕ) := (List.range NE).flatMap fun e => (List.range NF).map fun field => (e, field)

/-- solution.py:502-517 `populate`. -/
noncomputable def populate (s : Sol ℝ) (f : ℝ → List ℝ) : Sol ℝ × Option PyErr :=
  let r := populateLoop s.basis s.x s.NF f (populateOrder s.NE s.NF) s.u
  ({ s with u := r.1 }, r.2)

/-- solution.py:484: the element centroids. -/
noncomputable def centroids (x : Vec ℝ) : Vec ℝ :=
  let hi := x.slice 1 x.len
  let lo := x.slice 0 (-1)
  ⟨hi.len, fun i => (hi.val i + lo.val i) * (1 / 2)⟩

/-- solution.py:475-499 `setup_common_ic`. -/
noncomputable def setupCommonIc (s : Partial) (params : List Str) (f : ℝ → List ℝ) (A B : ℝ) : Partial × Option PyErr :=
  match params with
  | [] => (s, some .indexError)
  | p0 :: _ =>
    match intOf p0 with
    | none => (s, some .valueError)
    | some N =>
      let s : Partial := { s with nE := N, sol := { s.sol with NE := N.toNat } }
      if N + 1 < 0 then (s, some .valueError)
      else
        let x := linspace A B (N + 1).toNat
        let s : Partial := { s with sol := { s.sol with x := x, dx := (B - A) / (N : ℝ), xc := centroids x } }
        if N < 0 then (s, some .valueError)
        else
          let s : Partial := { s with sol := { s.sol with u := Arr.zeros (s.sol.basis.p + 1) (s.sol.NE * s.sol.NF) } }
          match populate s.sol f with
          | (sol, some e) => ({ s with sol := sol }, some e)
          | (sol, none) =>
            let sol := sol.addGhosts
            let sol := { sol with scaledMinv := ⟨sol.basis.minv.len, fun n => sol.basis.minv.val n * 2 / sol.dx⟩ }
            ({ s with sol := sol }, none)

/-- The common shape of the initial-condition methods (e.g. solution.py:228-244, 256-293): assign gamma, set the boundary
names, call `setup_common_ic`. The physics of the object reads gamma when called, hence the new dictionary. -/
noncomputable def runSetup (system riemann : Str) (s : Partial) (params : List Str) (ic : IC.Setup) : Partial × Option PyErr :=
  let g := ic.gamma.getD s.gamma
  let s : Partial := { s with gamma := g, sol := { s.sol with kw := (manipulationFunctions g system riemann).1 } }
  let s : Partial := { s with sol := { s.sol with bcl := .lit ic.bc, bcr := .lit ic.bc } }
  setupCommonIc s params (ic.f s.gamma) ic.A ic.B

/-- solution.py:385-391: the seven floats of `scktube`, after the length check. -/
def scktubeParams (ft : FloatText ℝ) (params : List Str) : Except PyErr (List ℝ) :=
  (params.drop 1).mapM ft.parse

/-- solution.py:370-418 `scktube`. -/
noncomputable def runScktube (ft : FloatText ℝ) (system riemann : Str) (s : Partial) (params : List Str) : Partial × Option PyErr :=
  if params.length ≠ 8 then (s, some (.sysExit "Not enough input conditions in the deck. Exiting"))
  else match scktubeParams ft params with
    | .ok [xd, rL, uL, pL, rR, uR, pR] => runSetup system riemann s params (IC.scktube xd rL uL pL rR uR pR)
    | .ok _ => (s, none)
    | .error e => (s, some e)

/-- solution.py:66 `self.keywords[self.icname]()`. The dictionary has entries that are not initial conditions: calling
`system` (a string), `fields` (a list) or a physics function without its arguments raises `TypeError`;
`evaluate_face_solution` returns without changing anything. -/
noncomputable def callKeyword (ft : FloatText ℝ) (system riemann : Str) (s : Partial) (name : Str) (params : List Str) :
    Partial × Option PyErr :=
  if name = "sinewave".toList then runSetup system riemann s params IC.sinewave
  else if name = "simplew".toList then runSetup system riemann s params IC.simplew
  else if name = "entrpyw".toList then runSetup system riemann s params IC.entrpyw
  else if name = "acsticw".toList then runSetup system riemann s params IC.acsticw
  else if name = "scktube".toList then runScktube ft system riemann s params
  else if name = "shuoshe".toList then runSetup system riemann s params IC.shuoshe
  else if name = "ictest".toList then runSetup system riemann s params IC.ictest
  else if name = "evaluate_face_solution".toList then (s, none)
  else if name ∈ ["system".toList, "fields".toList, "riemann".toList, "interior_flux".toList, "max_wave_speed".toList,
    "sensing".toList] then (s, some .typeError)
  else (s, some .keyError)

/-- `except Exception` (solution.py:67): everything is caught except `SystemExit` (and the marker `notReal`, which is not
an exception). -/
def PyErr.isException : PyErr → Bool
  | .sysExit _ => false
  | .notReal => false
  | _ => true

/-- solution.py:71-74 and enhance.py:26-28: parsing of the enhancement line. -/
noncomputable def enhancementOf (lib : GaussLib ℝ) (order : ℕ) (line : Str) : Except PyErr (Option (Enhance ℝ)) :=
  if line = [] then .ok none
  else match split line with
    | [] => .error .indexError
    | _ :: words =>
      match words.mapM (fun w => (intOf w : Option ℤ)) with
      | none => .error .valueError
      | some modes => (Enhance.init lib order modes).map some

/-- solution.py:76-80: the sensors. `np.zeros` raises on a negative length. -/
def sensorsOf (th : List ℝ) (nE : ℤ) : Except PyErr (Option (Sensor ℝ)) :=
  if th = [] then .ok none
  else if nE + 2 < 0 then .error .valueError
  else .ok (some (Sensor.init th (nE + 2).toNat))

/-- solution.py:70-80: the end of the constructor. -/
noncomputable def finishConstruct (lib : GaussLib ℝ) (order : ℕ) (enhLine : Str) (th : List ℝ) (s : Partial) : Except PyErr Partial :=
  match enhancementOf lib order enhLine with
  | .error e => .error e
  | .ok en =>
    match sensorsOf th s.nE with
    | .error e => .error e
    | .ok sn => .ok { s with sol := { s.sol with enhance := en, sensors := sn } }

/-- solution.py:29-80 `Solution.__init__(icline, system, order, riemann_solver, enhancement_type, sensor_thresholds)`.
`leggauss` raises `ValueError` for a negative order. -/
noncomputable def construct (lib : GaussLib ℝ) (ft : FloatText ℝ) (junk : ℕ → ℝ) (icline system : Str) (order : ℤ)
    (riemann enhLine : Str) (th : List ℝ) : Except PyErr Partial :=
  if order < 0 then .error .valueError
  else match split icline with
    | [] => .error .indexError
    | name :: params =>
      let s := emptySolution lib junk system order.toNat riemann
      let r := callKeyword ft system riemann s name params
      match r.2 with
      | some e => if e.isException then finishConstruct lib order.toNat enhLine th r.1 else .error e
      | none => finishConstruct lib order.toNat enhLine th r.1

end Dg1d
