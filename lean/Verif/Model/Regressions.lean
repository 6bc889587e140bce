import Verif.Model.Main

/-!
# regressions/regressions.py — the regression tests

`runcode` waits for the process and drops its return code (regressions/regressions.py:19-41, 95). How it finds the program and the
log file are in `Model/Entry`, the plot made after a passed test (regressions/regressions.py:101, its return code is dropped, too) is in `Model/Plot`. A test that never
ends is a run of the program that never ends.
-/

namespace Dg1d
open Text

/-- What `unittest` reports for a test: passed, failed (`AssertionError`) or ended by another exception. regressions/regressions.py:46-101. -/
inductive TestResult where
  | pass
  | fail
  | error (e : PyErr)
  deriving DecidableEq

/-- A name matched by the pattern `*.dat`: hidden files are not. regressions/regressions.py:94 `glob.glob(os.path.join(workdir, '*.dat'))`. -/
def isDat (name : Str) : Bool := ".dat".toList.isSuffixOf name && name.head? != some '.'

/-- regressions/regressions.py:94: `[os.remove(f) for f in glob.glob(...)]`. -/
def removeDat (fs : Files) : Files := fun n => if isDat n then none else fs n

/-- `.shape` of the array `np.loadtxt` makes of these rows (dimensions of length one are dropped). regressions/regressions.py:50-67. -/
def loadedShape {K : Type} (rows : List (List K)) : List ℕ :=
  if rows.length = 0 then [0] else [rows.length, (rows.headD []).length].filter (· ≠ 1)

/-- `abs(desired - actual) < 1.5 * 10**(-decimal)` with `decimal=10`. regressions/regressions.py:53-55, 62-63, 68-69. -/
def entryClose (a b : ℝ) : Prop := |b - a| < 15 / 10 * (1 / 10 ^ 10)

/-- The condition `npt.assert_array_almost_equal(x, y, decimal=10)` asserts: equal shapes, or one of the arrays is a single
number, which is then compared with all entries of the other. regressions/regressions.py:53-55, 62-63, 68-69. -/
def almostEqual (x y : List (List ℝ)) : Prop :=
  if loadedShape x = [] then ∀ b ∈ y.flatten, entryClose (x.flatten.headD 0) b
  else if loadedShape y = [] then ∀ a ∈ x.flatten, entryClose a (y.flatten.headD 0)
  else loadedShape x = loadedShape y ∧ ∀ q ∈ x.flatten.zip y.flatten, entryClose q.1 q.2

open Classical in
/-- regressions/regressions.py:49-55 (= 57-63, 65-69): one field. -/
noncomputable def compareField (ft : FloatText ℝ) (fs : Files) (field : Str) : Except PyErr Bool := do
  let dat ← loadtxt ft (← fs.read (field ++ "0000000001.dat".toList))
  let gold ← loadtxt ft (← fs.read (field ++ "0000000001.gold".toList))
  return decide (almostEqual dat gold)

/-- The comparisons in order, up to the first one that raises. regressions/regressions.py:46-69. -/
noncomputable def compareFields (ft : FloatText ℝ) (fs : Files) : List Str → TestResult
  | [] => .pass
  | f :: rest =>
    match compareField ft fs f with
    | .error e => .error e
    | .ok false => .fail
    | .ok true => compareFields ft fs rest

/-- regressions/regressions.py:46-69 `compare_with_golds(workdir)`. -/
noncomputable def compareWithGolds (ft : FloatText ℝ) (fs : Files) : TestResult :=
  compareFields ft fs ["rho".toList, "rhou".toList, "E".toList]

/-- regressions/regressions.py:90-101 `launch(workdir)`, for a program that runs for `k` iterations of its main loop; `fs` is the
directory before the test. -/
noncomputable def launch (lib : GaussLib ℝ) (ft : FloatText ℝ) (junk : ℕ → ℝ) (fs : Files) (k : ℕ) : TestResult :=
  compareWithGolds ft (program lib ft junk (removeDat fs) "deck.inp".toList k).1

/-- Contract of printing and reading back: `float('%.18e' % x)` is the number `r x` (the 19 digits printed, rounded to a
double), and the text has no separator, white space or comment sign in it. solution.py:150, regressions/regressions.py:50-67. -/
structure FloatText.Reads (ft : FloatText ℝ) (r : ℝ → ℝ) : Prop where
  round : ∀ x, ft.parse (ft.fmt x) = .ok (r x)
  chars : ∀ x, ∀ c ∈ ft.fmt x, isSpace c = false ∧ c ≠ ',' ∧ c ≠ '=' ∧ c ≠ '#'
  nonempty : ∀ x, ft.fmt x ≠ []

end Dg1d
