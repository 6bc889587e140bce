import Verif.Model.Main

/-!
# The console output of a run and the timer read from it

`logfile` is the console output of a run (advection_convergence/run.py:35). Modelled are the lines of a run of any deck, with a valid initial condition, that
ends normally (without the warnings numpy may print). The elapsed time enters as two whole numbers of
microseconds, `us` (rounded by `timedelta`) and `us'` (rounded by `'{0:f}'`).
-/

namespace Dg1d
open Text

/-- `str(timedelta(seconds=…))` for `us` microseconds: days only if there are any, microseconds only if there are any. main.py:85. -/
def timedeltaText (us : ℕ) : Str :=
  let s := us / 10 ^ 6
  let days := s / 86400
  (if days = 0 then [] else natText days ++ (if days = 1 then " day, ".toList else " days, ".toList)) ++
    (natText (s % 86400 / 3600) ++ ':' :: natTextPad 2 (s % 3600 / 60) ++ ':' :: natTextPad 2 (s % 60) ++
      if us % 10 ^ 6 = 0 then [] else '.' :: natTextPad 6 (us % 10 ^ 6))

/-- `'{0:f}'.format(…)` for `us` microseconds: six decimals. main.py:86. -/
def fixedText (us : ℕ) : Str := natText (us / 10 ^ 6) ++ '.' :: natTextPad 6 (us % 10 ^ 6)

/-- main.py:85-86: the last line printed. -/
def elapsedLine (us us' : ℕ) : Str := "Elapsed time ".toList ++ timedeltaText us ++ " (or ".toList ++ fixedText us' ++ " seconds)\n".toList

/-- The formats of the numbers: `'{:e}'` (solution.py:127-128) and `'{0:6.2f}'` (solution.py:160). -/
structure LogFormats where
  e : ℝ → Str
  share : ℝ → Str

/-- The percentage of the cells that are flagged, without ghost cells. solution.py:157-161. -/
noncomputable def sensorShare (s : Sol ℝ) (sn : Sensor ℝ) : ℝ :=
  let v := sn.sensors.slice 1 (-1)
  ((List.range v.len).countP fun i => v.val i ≠ 0 : ℕ) / s.xc.len * 100

/-- The first line `printer` prints. solution.py:127-128. -/
def printerLine (efmt : ℝ → Str) (o : OutRec ℝ) : Str :=
  "Solution written to file at step ".toList ++ (List.replicate (7 - (natText o.sol.n).length) ' ' ++ natText o.sol.n) ++ " and time ".toList ++ efmt o.sol.t ++
    " (current time step:".toList ++ efmt o.dt ++ ").\n".toList

/-- The second line `printer` prints, if there are sensors. solution.py:160-161. -/
noncomputable def shareLine (share : ℝ → Str) (s : Sol ℝ) (sn : Sensor ℝ) : Str :=
  "\tsensors on in ".toList ++ share (sensorShare s sn) ++ "% of the domain\n".toList

/-- The lines `printer` prints. solution.py:127-128, 153-161. -/
noncomputable def printerLines (fm : LogFormats) (o : OutRec ℝ) : List Str :=
  printerLine fm.e o :: match o.sol.sensors with
    | none => []
    | some sn => [shareLine fm.share o.sol sn]

/-- The names of the RK schemes `integrate` knows. rk.py:22-48. -/
def rkNames : List Str := ["low_storage_rk4".toList, "rk3".toList, "rk4".toList, "rk5".toList, "rk6".toList, "rk8".toList, "rk10".toList, "rk12".toList, "rk14".toList]

/-- The lines before the first output: main.py:60 (git's answer ends in a newline, `print` adds one), deck.py:38, solution.py:32, basis.py:23, with enhancement
(solution.py:71-74) enhance.py:23 and again basis.py:23, with sensors (solution.py:78-80) sensor.py:21, then dg.py:21, limiting.py:21, 27 or 62, main.py:80 and, for an unknown RK
scheme, rk.py:51. -/
noncomputable def linesBefore (version : Str) (d : Deck ℝ) : List Str :=
  ["Code version:  ".toList ++ version ++ ['\n'], ['\n'], "Parsing the deck file.\n".toList, "Generating the solution.\n".toList, "Generating the basis functions.\n".toList] ++
    (if d.enhance = [] then [] else ["Generating the enhancement procedure.\n".toList, "Generating the basis functions.\n".toList]) ++
    (if d.sensorThresholds = [] then [] else ["Setting up the sensors.\n".toList]) ++
    ["Initializing the DG solver.\n".toList, "Setting up the limiter:\n".toList] ++
    (if d.limiting = "adaptive_hr".toList then ["\tAdaptive limiting with hierarchical reconstruction\n".toList] else ["\tNo limiting.\n".toList]) ++
    ["Integrating the solution in time.\n".toList] ++
    (if d.rk ∈ rkNames then [] else ["Unrecognized RK option, default to RK4\n".toList])

/-- The console output of a run of the deck `d` with the `printer` calls `outs`. main.py:57-86. -/
noncomputable def runLog (version : Str) (fm : LogFormats) (d : Deck ℝ) (outs : List (OutRec ℝ)) (us us' : ℕ) : Str :=
  (linesBefore version d ++ outs.flatMap (printerLines fm) ++ [elapsedLine us us']).flatten

/-- advection_convergence/plot.py:70-76 `get_timer(fname)`, for the text of the file; `none` is `None`. -/
def getTimer (text : Str) : Except PyErr (Option Str) :=
  match (lines (universalNewlines text)).find? fun l => isIn "seconds".toList l with
  | none => .ok none
  | some l => (item (split l) 4).map some

/-- advection_convergence/plot.py:123: `timers[k] = get_timer(…)`. Storing a string in an array of floats converts it, `None` is stored as NaN (here `none`). -/
def timerOf (ft : FloatText ℝ) (text : Str) : Except PyErr (Option ℝ) :=
  match getTimer text with
  | .error e => .error e
  | .ok none => .ok none
  | .ok (some w) => (ft.float w).map some

end Dg1d
