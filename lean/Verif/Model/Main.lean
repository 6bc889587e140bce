import Verif.Model.Construct
import Verif.Model.Dg
import Verif.Model.IO
import Verif.Model.Integrate

/-!
# dg1d/main.py — the program

Arguments: `lib` (numpy's Gauss nodes), `ft` (number formatting), `junk` (what `np.empty` holds), the file system before the
run and the name of the deck. Here git has answered (main.py:60, see `mainPy` in
`Model/Entry`); console output and the timer are in `Model/Log`.

`rk.integrate` calls `printer` while it runs; here the calls are collected in the log of the loop and carried out
afterwards, in order. `printer` does not change the solution, so this gives the same files, up to what a `printer` call that
raises has written before raising.
-/

namespace Dg1d
open Text

/-- The part of the deck handed to `rk.integrate`. A negative `nout` is treated in `program`. main.py:81, rk.py:19-54, 68. -/
def Deck.rkDeck (d : Deck ℝ) : RkDeck ℝ := ⟨String.ofList d.rk, d.finaltime, d.nout.toNat, d.cfl⟩

/-- dg.py:19-28 `DG.__init__`: allocates work arrays, which `residual` overwrites before it reads them. `np.zeros` raises on a
negative dimension: `(N_E+1)*N_F` or `N_E*N_F`. -/
def dgInit (s : Partial) : Except PyErr Unit := if s.nE < 0 then .error .valueError else .ok ()

/-- main.py:66-76: the solution with its boundary conditions applied, the DG solver, the limiter, the first limiting. -/
noncomputable def start (lib : GaussLib ℝ) (ft : FloatText ℝ) (junk : ℕ → ℝ) (d : Deck ℝ) : Except PyErr (Sol ℝ × Limiter ℝ) :=
  match construct lib ft junk d.ic d.system d.order d.riemann d.enhance d.sensorThresholds with
  | .error e => .error e
  | .ok s =>
    let s : Partial := { s with sol := s.sol.applyBc }
    match dgInit s with
    | .error e => .error e
    | .ok () =>
      match Limiter.init (String.ofList d.limiting) s.sol with
      | .error e => .error e
      | .ok lm =>
        match lm.limit s.sol with
        | .error e => .error e
        | .ok sol => .ok (sol, lm)

/-- The `printer` calls of a run, in order; stops at the first one that raises. rk.py:74, 121, 148, 191. -/
def writeOutputs (ft : FloatText ℝ) : List (OutRec ℝ) → Files → Files × Option PyErr
  | [], fs => (fs, none)
  | o :: l, fs =>
    match o.sol.printer ft o.nout fs with
    | .error e => (fs, some e)
    | .ok fs' => writeOutputs ft l fs'

/-- main.py:80-81 and rk.py:19-54: the files and the status after `k` iterations of the main loop. `np.linspace` raises on a
negative number of samples before the first output. -/
noncomputable def solve (ft : FloatText ℝ) (d : Deck ℝ) (s : Sol ℝ) (lm : Limiter ℝ) (fs : Files) (k : ℕ) : Files × Status :=
  if d.nout < 0 then (fs, .failed .valueError)
  else
    let st := integrate ⟨residual, lm.limit⟩ d.rkDeck s k
    match writeOutputs ft st.log fs with
    | (fs', some e) => (fs', .failed e)
    | (fs', none) => (fs', st.status)

/-- main.py:57-86: parse the deck, set up, integrate: the files and the status after `k` iterations of the main loop. -/
noncomputable def program (lib : GaussLib ℝ) (ft : FloatText ℝ) (junk : ℕ → ℝ) (fs : Files) (deckname : Str) (k : ℕ) :
    Files × Status :=
  match Deck.init.parser ft fs deckname with
  | .error e => (fs, .failed e)
  | .ok d =>
    match start lib ft junk d with
    | .error e => (fs, .failed e)
    | .ok (s, lm) => solve ft d s lm fs k

end Dg1d
