import Verif.Model.Text

/-!
# dg1d/deck.py

The file system is a partial map from names to texts. Values are kept as the text operations of `Verif.Model.Text` give
them; `float(...)` is `FloatText.parse` of the text stripped of white space.
-/

namespace Dg1d
open Text

/-- deck.py:14-31: the attributes of a `Deck`. -/
structure Deck (K : Type*) where
  system : Str
  rk : Str
  riemann : Str
  ic : Str
  nout : ℤ
  finaltime : K
  cfl : K
  order : ℤ
  limiting : Str
  enhance : Str
  sensorThresholds : List K

/-- deck.py:18-31 `Deck.__init__`: the default values. -/
def Deck.init {K : Type*} [Field K] : Deck K where
  system := "advection".toList
  rk := []
  riemann := "roe".toList
  ic := "sinewave".toList
  nout := 10
  finaltime := 1
  cfl := 1 / 2
  order := 1
  limiting := []
  enhance := []
  sensorThresholds := []

/-- Python's `sub in s` for strings. deck.py:41-61. -/
def isIn (sub s : Str) : Bool := decide (sub <:+: s)

/-- Python's `float(s)`: surrounding white space is ignored. deck.py:52, 54, 63, solution.py:186, 385-391. -/
def FloatText.float {K : Type*} (ft : FloatText K) (s : Str) : Except PyErr K := ft.parse (strip s)

/-- Python's `int(s)`. deck.py:50, 56. -/
def pyInt (s : Str) : Except PyErr ℤ :=
  match intOf s with
  | none => .error .valueError
  | some n => .ok n

/-- deck.py:41-63: the `if`/`elif` chain. `none`: no keyword in the line. Otherwise what is done with `next(f)`. -/
def Deck.entry {K : Type*} (ft : FloatText K) (line : Str) (d : Deck K) : Option (Str → Except PyErr (Deck K)) :=
  if isIn "#PDE system".toList line then some fun v => .ok { d with system := rstrip v }
  else if isIn "#RK scheme".toList line then some fun v => .ok { d with rk := rstrip v }
  else if isIn "#riemann solver".toList line then some fun v => .ok { d with riemann := rstrip v }
  else if isIn "#initial condition".toList line then some fun v => .ok { d with ic := rstrip v }
  else if isIn "#number of outputs".toList line then some fun v => (pyInt v).map fun n => { d with nout := n }
  else if isIn "#final time".toList line then some fun v => (ft.float v).map fun x => { d with finaltime := x }
  else if isIn "#Courant-Friedrichs-Lewy condition".toList line then some fun v => (ft.float v).map fun x => { d with cfl := x }
  else if isIn "#order".toList line then some fun v => (pyInt v).map fun n => { d with order := n }
  else if isIn "#limiting".toList line then some fun v => .ok { d with limiting := rstrip v }
  else if isIn "#enhancement".toList line then some fun v => .ok { d with enhance := rstrip v }
  else if isIn "#sensor thresholds".toList line then
    some fun v => ((split (rstrip v)).mapM ft.float).map fun l => { d with sensorThresholds := l }
  else none

/-- deck.py:40-63: the loop over the lines of the file; `next(f)` takes the following line, or raises `StopIteration`. -/
def Deck.parseLines {K : Type*} (ft : FloatText K) : List Str → Deck K → Except PyErr (Deck K)
  | [], d => .ok d
  | [line], d =>
    match d.entry ft line with
    | none => .ok d
    | some _ => .error .stopIteration
  | line :: v :: rest, d =>
    match d.entry ft line with
    | none => parseLines ft (v :: rest) d
    | some store =>
      match store v with
      | .error e => .error e
      | .ok d' => parseLines ft rest d'

/-- The file system: the text of each file there is. deck.py:39, 75, solution.py:150, 164, 179, 182, 214. -/
abbrev Files := Str → Option Str

/-- Writing a file. deck.py:75-79, solution.py:150, 164. -/
def Files.write (fs : Files) (name text : Str) : Files := fun n => if n = name then some text else fs n

/-- deck.py:34-63 `parser(fname)`. (A missing file raises `FileNotFoundError`, here `ioError`.) -/
def Deck.parser {K : Type*} (ft : FloatText K) (fs : Files) (d : Deck K) (fname : Str) : Except PyErr (Deck K) :=
  match fs fname with
  | none => .error .ioError
  | some text => parseLines ft (lines (universalNewlines text)) d

/-- deck.py:67-79 `write_deck(WORKDIR, defs)`: the new files and the name of the deck. -/
def writeDeck (fs : Files) (workdir : Str) (defs : List (Str × Str)) : Files × Str :=
  let deckname := workdir ++ "/deck.inp".toList
  (fs.write deckname (defs.flatMap fun l => '#' :: l.1 ++ '\n' :: l.2 ++ ['\n']), deckname)

end Dg1d
