import Verif.Model.Numpy
import Mathlib.Data.Nat.Digits.Defs

/-!
# Python text operations used by dg1d (external library behaviour, not code of /repo)

Strings are lists of characters. Text files are strings; opening one for reading translates `\r\n` and `\r` to `\n`.
-/

namespace Dg1d.Text

/-- A Python string as its list of characters (deck.py:39-63, solution.py:182-192). -/
abbrev Str := List Char

/-- `c.isspace()`, the white space of `str.split()` and `str.strip()`. Behind deck.py:42-63, enhance.py:26, solution.py:39-40. -/
def isSpace (c : Char) : Bool :=
  let n := c.toNat
  (9 ≤ n && n ≤ 13) || (28 ≤ n && n ≤ 32) || n == 0x85 || n == 0xa0 || n == 0x1680 || (0x2000 ≤ n && n ≤ 0x200a) ||
    n == 0x2028 || n == 0x2029 || n == 0x202f || n == 0x205f || n == 0x3000

/-- `s.lstrip()`. Behind deck.py:52, 54. -/
def lstrip (s : Str) : Str := s.dropWhile isSpace

/-- `s.rstrip()`. deck.py:42-62, solution.py:187-188. -/
def rstrip (s : Str) : Str := (s.reverse.dropWhile isSpace).reverse

/-- `s.strip()`. Behind deck.py:50-56. -/
def strip (s : Str) : Str := lstrip (rstrip s)

/-- `s.split()`. deck.py:63, enhance.py:26, solution.py:39-40. -/
def split (s : Str) : List Str := (s.splitOnP isSpace).filter (fun w => !w.isEmpty)

/-- `re.split('=|,', s)`. solution.py:184. -/
def splitEqComma (s : Str) : List Str := s.splitOnP (fun c => c == '=' || c == ',')

/-- `s.split(',')`. solution.py:192. -/
def splitComma (s : Str) : List Str := s.splitOnP (fun c => c == ',')

/-- `'sep'.join(l)`. Behind solution.py:134-150. -/
def join (sep : Str) : List Str → Str
  | [] => []
  | [a] => a
  | a :: l => a ++ sep ++ join sep l

/-- The character of a decimal digit. Behind solution.py:134, 225. -/
def digitChar (d : ℕ) : Char := Char.ofNat (48 + d)

/-- The value of a decimal digit. Behind deck.py:50, 56. -/
def digitVal (c : Char) : ℕ := c.toNat - 48

/-- ASCII decimal digits (Python also takes other Unicode digits). Behind deck.py:50, 56. -/
def isDigit (c : Char) : Bool := 48 ≤ c.toNat && c.toNat ≤ 57

/-- `'{:d}'.format(n)` for a natural number. solution.py:134, 137. -/
def natText (n : ℕ) : Str := if n = 0 then ['0'] else (Nat.digits 10 n).reverse.map digitChar

/-- `'{:0wd}'.format(n)` for a natural number. solution.py:225. -/
def natTextPad (w n : ℕ) : Str := List.replicate (w - (natText n).length) '0' ++ natText n

/-- The value of a string of digits. Behind deck.py:50, 56, solution.py:185. -/
def digitsVal (s : Str) : ℕ := s.foldl (fun a c => 10 * a + digitVal c) 0

/-- Digits, with single underscores allowed between them. Behind deck.py:50, 56, solution.py:185. -/
def digitsOk : Str → Bool
  | [] => false
  | [c] => isDigit c
  | c :: '_' :: s => isDigit c && digitsOk s
  | c :: s => isDigit c && digitsOk s

/-- An unsigned integer literal. Behind deck.py:50, 56, solution.py:185. -/
def natOf (s : Str) : Option ℕ := if digitsOk s then some (digitsVal (s.filter isDigit)) else none

/-- `int(s)`; `none` is `ValueError`. (No limit on the number of digits.). deck.py:50, 56, solution.py:185, 479, enhance.py:28. -/
def intOf (s : Str) : Option ℤ :=
  match strip s with
  | '-' :: t => (natOf t).map fun n => -(n : ℤ)
  | '+' :: t => (natOf t).map fun n => (n : ℤ)
  | t => (natOf t).map fun n => (n : ℤ)

/-- Reading a file in text mode: universal newlines. deck.py:39, solution.py:182. -/
def universalNewlines : Str → Str
  | [] => []
  | '\r' :: '\n' :: s => '\n' :: universalNewlines s
  | '\r' :: s => '\n' :: universalNewlines s
  | c :: s => c :: universalNewlines s

/-- Iterating over an open file: the lines, each with its newline. deck.py:40, solution.py:183-191. -/
def lines : Str → List Str
  | [] => []
  | c :: s =>
    if c = '\n' then ['\n'] :: lines s
    else match lines s with
      | [] => [[c]]
      | l :: ls => (c :: l) :: ls

end Dg1d.Text

namespace Dg1d
open Text

/-- Floating-point text: `'%.18e' % x` (also `'{:.18e}'.format(x)`), and `float(s)` for a text `s` without surrounding white space. The parser gives `valueError` on
malformed text and `notReal` for `nan` and infinities. solution.py:134, 150, 164, 186, deck.py:52-63. -/
structure FloatText (K : Type*) where
  fmt : K → Str
  parse : Str → Except PyErr K

/-- Contract for the numbers in `rep` (for CPython: all finite doubles): 19 significant digits determine the number, and
the text has no separator, white space or comment sign in it. solution.py:134, 150, 186, 214. -/
structure FloatText.Ok {K : Type*} (ft : FloatText K) (rep : K → Prop) : Prop where
  round : ∀ x, rep x → ft.parse (ft.fmt x) = .ok x
  chars : ∀ x, rep x → ∀ c ∈ ft.fmt x, isSpace c = false ∧ c ≠ ',' ∧ c ≠ '=' ∧ c ≠ '#'
  nonempty : ∀ x, rep x → ft.fmt x ≠ []

end Dg1d
