import Verif.Model.Deck

/-! Specification of the deck format, independent of the parser. (Only the record type, `int`, `float` and `split` are
taken from the model.) -/

namespace Dg1d.Spec
open Text

/-- The keywords, in order of precedence for lines that contain several. -/
def keywords : List Str :=
  ["PDE system".toList, "RK scheme".toList, "riemann solver".toList, "initial condition".toList, "number of outputs".toList,
    "final time".toList, "Courant-Friedrichs-Lewy condition".toList, "order".toList, "limiting".toList, "enhancement".toList,
    "sensor thresholds".toList]

/-- The keyword of a line. -/
def keywordOf (line : Str) : Option Str := keywords.find? fun k => decide (('#' :: k) <:+: line)

/-- How a file is cut into entries: lines without keyword are skipped, the line after a keyword line is its value,
whatever it contains. -/
inductive Entries : List Str → List (Str × Str) → Prop
  | nil : Entries [] []
  | skip {l ls es} : keywordOf l = none → Entries ls es → Entries (l :: ls) es
  | entry {l v k ls es} : keywordOf l = some k → Entries ls es → Entries (l :: v :: ls) ((k, v) :: es)

/-- The value given last for a keyword. -/
def lastValue (k : Str) (defs : List (Str × Str)) : Option Str := ((defs.filter fun d => d.1 = k).getLast?).map (·.2)

/-- `x` is the value given last for `k` (under the reading `rd`), or the default. -/
def Reads {α : Type*} (k : String) (defs : List (Str × Str)) (rd : Str → α → Prop) (default x : α) : Prop :=
  match lastValue k.toList defs with
  | none => x = default
  | some v => rd v x

/-- `x` is `v` without the white space at its end. -/
def Trimmed (v x : Str) : Prop := ∃ ws, v = x ++ ws ∧ (∀ c ∈ ws, isSpace c = true) ∧ ∀ c, x.getLast? = some c → isSpace c = false

variable {K : Type*}

/-- The text `v` stands for the integer `n`, the number `x`, the numbers `l`. -/
def IsInt (v : Str) (n : ℤ) : Prop := intOf v = some n
def IsFloat (ft : FloatText K) (v : Str) (x : K) : Prop := ft.float v = .ok x
def AreFloats (ft : FloatText K) (v : Str) (l : List K) : Prop := List.Forall₂ (fun w x => ft.float w = .ok x) (split v) l

/-- `d` is the deck `d0` overridden by the entries. -/
structure DeckIs (ft : FloatText K) (defs : List (Str × Str)) (d0 d : Deck K) : Prop where
  system : Reads "PDE system" defs Trimmed d0.system d.system
  rk : Reads "RK scheme" defs Trimmed d0.rk d.rk
  riemann : Reads "riemann solver" defs Trimmed d0.riemann d.riemann
  ic : Reads "initial condition" defs Trimmed d0.ic d.ic
  nout : Reads "number of outputs" defs IsInt d0.nout d.nout
  finaltime : Reads "final time" defs (IsFloat ft) d0.finaltime d.finaltime
  cfl : Reads "Courant-Friedrichs-Lewy condition" defs (IsFloat ft) d0.cfl d.cfl
  order : Reads "order" defs IsInt d0.order d.order
  limiting : Reads "limiting" defs Trimmed d0.limiting d.limiting
  enhance : Reads "enhancement" defs Trimmed d0.enhance d.enhance
  thresholds : Reads "sensor thresholds" defs (AreFloats ft) d0.sensorThresholds d.sensorThresholds

/-- The value can be read as what its keyword asks for. -/
def ValidValue (ft : FloatText K) (e : Str × Str) : Prop :=
  (e.1 = "number of outputs".toList ∨ e.1 = "order".toList → ∃ n, IsInt e.2 n) ∧
  (e.1 = "final time".toList ∨ e.1 = "Courant-Friedrichs-Lewy condition".toList → ∃ x, IsFloat ft e.2 x) ∧
  (e.1 = "sensor thresholds".toList → ∃ l, AreFloats ft e.2 l)

end Dg1d.Spec
