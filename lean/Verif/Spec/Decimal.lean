import Verif.Model.Text
import Mathlib.Data.Real.Basic

/-! Decimal numerals such as `-0.4`, and text conversions that read them as the number they denote. -/

namespace Dg1d.Spec
open Text

/-- An unsigned numeral: digits, optionally a point and more digits. -/
def unsigned (s : Str) : Option ℚ :=
  let a := s.takeWhile isDigit
  match s.dropWhile isDigit with
  | [] => if a = [] then none else some (digitsVal a)
  | '.' :: b => if a ≠ [] ∧ b ≠ [] ∧ b.all isDigit then some (digitsVal a + digitsVal b / 10 ^ b.length) else none
  | _ => none

/-- The number a numeral denotes. -/
def decimal : Str → Option ℚ
  | '-' :: t => (unsigned t).map fun x => -x
  | t => unsigned t

/-- `float` reads decimal numerals. (In exact arithmetic: CPython rounds to the nearest double.) -/
def ReadsDecimals (ft : FloatText ℝ) : Prop := ∀ s q, decimal s = some q → ft.parse s = .ok (q : ℝ)

end Dg1d.Spec
