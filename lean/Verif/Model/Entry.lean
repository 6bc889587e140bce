import Verif.Model.Regressions

/-!
# The command line of main.py, the git call, and how the regression driver starts the program

Words of the command line that begin with `-`, other than `-d` and `--deck`, are not modelled (`argparse` knows `-h`, abbreviations,
`--deck=NAME`, `-dNAME`, `--`). `git` is what `git describe --always` answers in the working directory, or the exception raised if git is
not installed (`FileNotFoundError`) or the directory is not in a checkout (`CalledProcessError`). The shell splits commands at blanks; other characters with
a meaning for it are not modelled, and nothing else is started if it does not find the program.
-/

namespace Dg1d
open Text

/-- What `parser.parse_args()` makes of the command line. `usage` is a message and the exit status 2. main.py:49-54. -/
inductive CommandLine where
  | deck (name : Str)
  | usage
  | notModelled
  deriving DecidableEq

/-- The two spellings of the option. main.py:51-52. -/
def isDeckOption (w : Str) : Bool := w == "-d".toList || w == "--deck".toList

/-- A word that is no option for `argparse`. main.py:53. -/
def plainWord (w : Str) : Bool := w.head? != some '-'

/-- `parser.parse_args()`, from left to right: `d` is the value so far, `stray` tells if there was a word that belongs to no option. main.py:53. -/
def parseArgs : List Str → Str → Bool → CommandLine
  | [], d, stray => if stray then .usage else .deck d
  | [w], d, _ => if isDeckOption w then .usage else if plainWord w then parseArgs [] d true else .notModelled
  | w :: v :: rest, d, stray =>
    if isDeckOption w then
      if plainWord v then parseArgs rest v stray else if isDeckOption v then .usage else .notModelled
    else if plainWord w then parseArgs (v :: rest) d true
    else .notModelled

/-- main.py:49-53: the command line, with the default value of the option. -/
def commandLine (args : List Str) : CommandLine := parseArgs args "deck.inp".toList false

/-- main.py:45-86: the script. The arguments are parsed first, then git is asked, then the deck is read. `none`: a command line that is not modelled. -/
noncomputable def mainPy (git : Except PyErr Str) (lib : GaussLib ℝ) (ft : FloatText ℝ) (junk : ℕ → ℝ) (fs : Files) (args : List Str) (k : ℕ) :
    Option (Files × Status) :=
  match commandLine args with
  | .notModelled => none
  | .usage => some (fs, .failed (.sysExit "usage"))
  | .deck name =>
    match git with
    | .error e => some (fs, .failed e)
    | .ok _ => some (program lib ft junk fs name k)

/-- What the regression driver depends on: `codedir` is regressions/regressions.py:85, `log` what the program prints once git has answered, `k` a number of iterations of its main loop.
regressions/regressions.py:81-85. -/
structure RegEnv where
  lib : GaussLib ℝ
  ft : FloatText ℝ
  junk : ℕ → ℝ
  git : Except PyErr Str
  codedir : Str
  log : Str
  k : ℕ

/-- What is in the log file at the end: messages of exceptions and usage messages go to the pipe. regressions/regressions.py:30-32, main.py:60. -/
def RegEnv.output (E : RegEnv) (args : List Str) : Str :=
  match commandLine args, E.git with
  | .deck _, .ok _ => E.log
  | _, _ => []

/-- regressions/regressions.py:19-41 `runcode(workdir, deck, codedir, False)`: the files of the directory afterwards. The log file is opened before the program starts; its text is complete when
the program has ended. -/
noncomputable def RegEnv.runcode (E : RegEnv) (fs : Files) (deck : Str) : Option Files :=
  let fs := fs.write "logfile".toList []
  match split (E.codedir ++ "/main.py -d ".toList ++ deck) with
  | [] => some fs
  | prog :: args =>
    if prog = E.codedir ++ "/main.py".toList then
      (mainPy E.git E.lib E.ft E.junk fs args E.k).map fun r => r.1.write "logfile".toList (E.output args)
    else some fs

/-- regressions/regressions.py:90-98 `launch(workdir)`, up to the comparison: its result and the files. -/
noncomputable def RegEnv.launch (E : RegEnv) (fs : Files) : Option (TestResult × Files) :=
  (E.runcode (removeDat fs) "deck.inp".toList).map fun fs => (compareWithGolds E.ft fs, fs)

end Dg1d
