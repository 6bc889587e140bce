import Verif.Model.Log

/-!
# advection_convergence — the convergence study

`run.py` writes a deck for every order and resolution and starts the program in a new directory; `plot.py` reads the first and
the last output and the log file and computes errors and rates. The data directory is modelled down to two levels (`StudyDisk`): a directory for each
order, in it one for each resolution, in it the files of a run. Other entries of the data directory and the looks of the plots are not modelled.
`run.py` waits for the program and drops its return code. Blanks are the only characters with a meaning for the shell that are
modelled; there are no symbolic links. The text the program prints is an argument (`StudyEnv.log`), see `runLog`.
The data directory is in a git checkout (otherwise the program ends before it reads the deck, see `mainPy`).
-/

namespace Dg1d
open Text

/-- advection_convergence/run.py:80-87: the problem definitions. -/
def studyDefs (order res : ℕ) : List (Str × Str) :=
  [("PDE system".toList, "advection".toList),
    ("RK scheme".toList, "rk12".toList),
    ("initial condition".toList, "sinewave ".toList ++ natText res),
    ("number of outputs".toList, "11".toList),
    ("final time".toList, "8".toList),
    ("Courant-Friedrichs-Lewy condition".toList, "0.5".toList),
    ("order".toList, natText order),
    ("limiting".toList, "0".toList)]

/-- The deck of advection_convergence/run.py:95-96 and `main.py -d deck` in the same directory, after `k` iterations of the main loop. (Output files are named relative to the working
directory, the deck by its full path.) -/
noncomputable def studyRun (lib : GaussLib ℝ) (ft : FloatText ℝ) (junk : ℕ → ℝ) (fs : Files) (workdir : Str) (order res k : ℕ) : Files × Status :=
  let w := writeDeck fs workdir (studyDefs order res)
  program lib ft junk w.1 w.2 k

/-- advection_convergence/plot.py:111-112, 116-117: `dat[:, 1]`, which raises unless `dat` is two-dimensional with a second column. -/
def secondColumn (rows : List (List ℝ)) : Except PyErr (List ℝ) :=
  if 2 ≤ rows.length ∧ 2 ≤ (rows.headD []).length then .ok (rows.map fun l => l.getD 1 0) else .error .indexError

/-- `sum((0.5*u0e - 0.5*u0f)**2)` and the like: the sum of `f` of the differences. advection_convergence/plot.py:56, 59, 62. -/
noncomputable def sumDiff (f : ℝ → ℝ) (a b : List ℝ) : ℝ := (List.zipWith (fun x y => f (1 / 2 * x - 1 / 2 * y)) a b).sum

/-- advection_convergence/plot.py:52-66 `error_norm(u0, uf, etype)`. It does not use its arguments `u0`, `uf` but the global arrays `u0e`, `u0f` (the
same ones in the only call) and the global `res`. Arrays of different lengths raise (one of length one would be broadcast; not
modelled), the maximum of an empty array raises, too. -/
noncomputable def errorNorm (etype : String) (res : ℝ) (u0e u0f : List ℝ) : Except PyErr ℝ :=
  if u0e.length ≠ u0f.length then .error .valueError
  else if etype = "L2" then .ok (Real.sqrt (sumDiff (fun z => z ^ 2) u0e u0f / res))
  else if etype = "L1" then .ok (sumDiff (fun z => |z|) u0e u0f / u0e.length)
  else if etype = "Linf" then
    match List.zipWith (fun x y => |1 / 2 * x - 1 / 2 * y|) u0e u0f with
    | [] => .error .valueError
    | z :: l => .ok (l.foldl max z)
  else .ok (Real.sqrt (sumDiff (fun z => z ^ 2) u0e u0f / res))

/-- advection_convergence/plot.py:109-120: the error of one run. -/
noncomputable def measure (ft : FloatText ℝ) (fs : Files) (res : ℝ) : Except PyErr ℝ := do
  let exact ← loadtxt ft (← fs.read "u0000000000.dat".toList)
  let u0e ← secondColumn exact
  let final ← loadtxt ft (← fs.read "u0000000010.dat".toList)
  let u0f ← secondColumn final
  errorNorm "L2" res u0e u0f

/-- `np.diff`. advection_convergence/plot.py:126-127. -/
noncomputable def diff : List ℝ → List ℝ
  | a :: b :: l => (b - a) :: diff (b :: l)
  | _ => []

/-- advection_convergence/plot.py:126-127: `- np.diff(np.log(errors)) / np.diff(np.log(resolutions))` (positive errors). -/
noncomputable def rates (errors resolutions : List ℝ) : List ℝ :=
  List.zipWith (fun x y => -x / y) (diff (errors.map Real.log)) (diff (resolutions.map Real.log))

/-! ### The loops of the two scripts -/

/-- The data directory: the directories in it by name, each with its subdirectories in the order they were made and their files. advection_convergence/run.py:52-53, 75, 90; advection_convergence/plot.py:95. -/
abbrev StudyDisk := Str → Option (List (Str × Files))

/-- advection_convergence/run.py:75: `shutil.rmtree(datadir + '/' + str(order), ignore_errors=True)`. -/
def StudyDisk.rmtree (disk : StudyDisk) (name : Str) : StudyDisk := fun n => if n = name then none else disk n

/-- advection_convergence/run.py:90: the new directory. -/
def studyDir (datadir : Str) (order res : ℕ) : Str := datadir ++ '/' :: natText order ++ '/' :: natText res

/-- advection_convergence/run.py:92 `os.makedirs(workdir)`: raises if the directory exists, makes the parent if needed. The new directory
is put behind the others. -/
def StudyDisk.makedirs (disk : StudyDisk) (order res : Str) : Except PyErr StudyDisk :=
  let l := (disk order).getD []
  if res ∈ l.map Prod.fst then .error .ioError
  else .ok fun n => if n = order then some (l ++ [(res, fun _ => none)]) else disk n

/-- The files of a directory that exists are replaced by what the run made of them. advection_convergence/run.py:96, 99. -/
def StudyDisk.update (disk : StudyDisk) (order res : Str) (g : Files → Files) : StudyDisk := fun n =>
  if n = order then (disk n).map fun l => l.map fun x => if x.1 = res then (x.1, g x.2) else x else disk n

/-- What run.py depends on: `datadir` is the directory it is started in, `codedir` the string of advection_convergence/run.py:15,
`outside` tells at which paths outside of the data directory the program stands, `log` is what it prints, `k` a number of
iterations of its main loop. advection_convergence/run.py:15, 52-53. -/
structure StudyEnv where
  lib : GaussLib ℝ
  ft : FloatText ℝ
  junk : ℕ → ℝ
  datadir : Str
  codedir : Str
  outside : List Str → Bool
  log : ℕ → ℕ → Str
  k : ℕ

/-- The names in a path. advection_convergence/run.py:35. -/
def pathParts (s : Str) : List Str := (s.splitOnP (fun c => c == '/')).filter (fun w => !w.isEmpty)

/-- Following the names of a path, `..` goes up. advection_convergence/run.py:35. -/
def walk (cwd : List Str) : List Str → List Str
  | [] => cwd
  | c :: cs => if c = "..".toList then walk cwd.dropLast cs else if c = ".".toList then walk cwd cs else walk (cwd ++ [c]) cs

/-- Where a path leads, seen from the working directory. advection_convergence/run.py:35. -/
def resolvePath (cwd : List Str) (path : Str) : List Str := walk (if path.head? = some '/' then [] else cwd) (pathParts path)

/-- Is there a file `f` in the directory `a/b` of the data directory? advection_convergence/run.py:35. -/
def StudyDisk.hasFile (disk : StudyDisk) (a b f : Str) : Bool := ((disk a).getD []).any fun x => x.1 = b && (x.2 f).isSome

/-- Does the path lead to the program when the working directory is the one of this order and resolution (advection_convergence/run.py:93)? advection_convergence/run.py:35. -/
def StudyEnv.mainThere (E : StudyEnv) (disk : StudyDisk) (order res : ℕ) (path : Str) : Bool :=
  let base := pathParts E.datadir
  let q := resolvePath (base ++ [natText order, natText res]) path
  if base <+: q then
    match q.drop base.length with
    | [a, b, f] => disk.hasFile a b f
    | _ => E.outside q
  else E.outside q

/-- advection_convergence/run.py:26-44 `runcode(deck, False)`, in the directory of this order and resolution with the files `fs`. The shell splits the command at
blanks. If it does not find the program, or the program does not understand its arguments, only the empty log file is left. -/
noncomputable def StudyEnv.runcode (E : StudyEnv) (disk : StudyDisk) (order res : ℕ) (fs : Files) (deckname : Str) : Files :=
  let fs := fs.write "logfile".toList []
  match split (E.codedir ++ "main.py -d ".toList ++ deckname) with
  | [prog, flag, d] =>
    if E.mainThere disk order res prog ∧ flag = "-d".toList then ((program E.lib E.ft E.junk fs d E.k).1).write "logfile".toList (E.log order res) else fs
  | _ => fs

/-- advection_convergence/run.py:77-102: one resolution. -/
noncomputable def StudyEnv.step (E : StudyEnv) (order : ℕ) (disk : StudyDisk) (res : ℕ) : Except PyErr StudyDisk := do
  let disk ← disk.makedirs (natText order) (natText res)
  .ok (disk.update (natText order) (natText res) fun fs =>
    let w := writeDeck fs (studyDir E.datadir order res) (studyDefs order res)
    E.runcode disk order res w.1 w.2)

/-- advection_convergence/run.py:72-102: one order. -/
noncomputable def StudyEnv.order (E : StudyEnv) (resolutions : List ℕ) (disk : StudyDisk) (order : ℕ) : Except PyErr StudyDisk :=
  resolutions.foldlM (E.step order) (disk.rmtree (natText order))

/-- advection_convergence/run.py:72-102: the script, for given lists. -/
noncomputable def StudyEnv.script (E : StudyEnv) (orders resolutions : List ℕ) (disk : StudyDisk) : Except PyErr StudyDisk :=
  orders.foldlM (E.order resolutions) disk

/-- advection_convergence/run.py:15: the directory of the program. -/
def committedCodedir : Str := "../dg1d/".toList

/-- advection_convergence/run.py:55-69: the lists of orders and resolutions in the order they are assigned. The last assignment is what the loops see. -/
def studyLists : List (List ℕ × List ℕ) :=
  [([1], [4, 8, 16, 32, 64, 128, 256, 512, 1024]), ([2], [4, 8, 16, 32, 64, 128, 256, 512]), ([3], [4, 8, 16, 32, 64, 128]), ([4], [4, 8, 16, 32, 64])]

/-- `str(i)` for an integer. advection_convergence/plot.py:106. -/
def intText (z : ℤ) : Str := if z < 0 then '-' :: natText z.natAbs else natText z.natAbs

/-- `int(i)` of the name of a directory. advection_convergence/plot.py:96. -/
def nameToInt (n : Str) : Except PyErr ℤ :=
  match intOf n with
  | some z => .ok z
  | none => .error .valueError

/-- advection_convergence/plot.py:106-123: error and time of the run in the directory `str(res)`, if there is one. -/
noncomputable def measuredIn (ft : FloatText ℝ) (l : List (Str × Files)) (res : ℤ) : Except PyErr (ℝ × Option ℝ) :=
  match l.find? (fun x => x.1 = intText res) with
  | none => .error .ioError
  | some x => do
    let e ← measure ft x.2 (res : ℝ)
    let t ← timerOf ft (← x.2.read "logfile".toList)
    .ok (e, t)

/-- advection_convergence/plot.py:95-123: resolutions, errors and times of one order. `listdir` is the order in which the system lists names. (The
files are read in the directory named by the integer, not in the one found.) -/
noncomputable def plotOrder (ft : FloatText ℝ) (listdir : List Str → List Str) (disk : StudyDisk) (order : ℕ) : Except PyErr (List ℤ × List (ℝ × Option ℝ)) := do
  match disk (natText order) with
  | none => .error .ioError
  | some l =>
    let found ← (listdir (l.map Prod.fst)).mapM nameToInt
    let resolutions := found.mergeSort (· ≤ ·)
    let measured ← resolutions.mapM (measuredIn ft l)
    .ok (resolutions, measured)

/-- advection_convergence/plot.py:100, 133: the theoretical curve. `errors[0]` of no errors raises. -/
noncomputable def theory (order : ℕ) (resolutions errors : List ℝ) : Except PyErr (List ℝ) :=
  match resolutions, errors with
  | r :: _, e :: _ => .ok (resolutions.map fun x => (2 / x) ^ (2 * order + 1) * e / (2 / r) ^ (2 * order + 1))
  | _, _ => .error .indexError

/-- What is drawn and printed for one order. advection_convergence/plot.py:126-139. -/
structure Curves where
  resolutions : List ℤ
  errors : List ℝ
  timers : List (Option ℝ)
  rates : List ℝ
  theory : List ℝ

/-- advection_convergence/plot.py:92-139: one order. -/
noncomputable def plotCurve (ft : FloatText ℝ) (listdir : List Str → List Str) (disk : StudyDisk) (order : ℕ) : Except PyErr Curves := do
  let re ← plotOrder ft listdir disk order
  let x := re.1.map fun z : ℤ => (z : ℝ)
  let errors := re.2.map Prod.fst
  let th ← theory order x errors
  .ok ⟨re.1, errors, re.2.map Prod.snd, rates errors x, th⟩

/-- advection_convergence/plot.py:85, 92-139: the orders 1 to 4. -/
noncomputable def plotScript (ft : FloatText ℝ) (listdir : List Str → List Str) (disk : StudyDisk) : Except PyErr (List Curves) :=
  [1, 2, 3, 4].mapM (plotCurve ft listdir disk)

end Dg1d
