import Verif.Model.Text
import Mathlib.Logic.Function.Basic

/-!
# dg1d/helpers.py

Directories and files below the working directory. Simplified: no symbolic links, no permissions, no other process at work, no absolute paths, no trailing slash and no `.` or `..` as a name. A path is the list of its names, the last one first; the empty list is the empty string as an argument
and the working directory as a place.
-/

namespace Dg1d.Helpers
open Text

/-- What a path can be, for the test in dg1d/helpers.py:22. -/
inductive Node where
  | file
  | dir
  deriving DecidableEq

/-- The tree of files and directories dg1d/helpers.py:22-23 works on. -/
abbrev Tree := List Str → Option Node

/-- The exceptions of `os.mkdir`, called from dg1d/helpers.py:23. -/
inductive OsErr where
  | exists
  | notADirectory
  | notFound
  deriving DecidableEq

/-- `os.path.exists`, dg1d/helpers.py:22; false for the empty string. -/
def pathExists (fs : Tree) (p : List Str) : Bool := p ≠ [] && (fs p).isSome

/-- `os.mkdir`, called by `os.makedirs` (dg1d/helpers.py:23): the parent has to be a directory. -/
def mkdir (fs : Tree) : List Str → Tree × Option OsErr
  | [] => (fs, some .notFound)
  | n :: head =>
    if (fs (n :: head)).isSome then (fs, some .exists)
    else match fs head with
      | some .dir => (Function.update fs (n :: head) (some .dir), none)
      | some .file => (fs, some .notADirectory)
      | none => (fs, some .notFound)

/-- `os.makedirs` (dg1d/helpers.py:23) of the Python library: the parent first if it does not exist, where `FileExistsError` is ignored. -/
def makedirs (fs : Tree) : List Str → Tree × Option OsErr
  | [] => (fs, some .notFound)
  | n :: head =>
    if head ≠ [] ∧ pathExists fs head = false then
      match makedirs fs head with
      | (fs', none) => mkdir fs' (n :: head)
      | (fs', some .exists) => mkdir fs' (n :: head)
      | (fs', some e) => (fs', some e)
    else mkdir fs (n :: head)

/-- dg1d/helpers.py:17-23 `makedir`: the tree afterwards, and the exception if there is one. -/
def makedir (fs : Tree) (p : List Str) : Tree × Option OsErr := if pathExists fs p then (fs, none) else makedirs fs p

end Dg1d.Helpers
