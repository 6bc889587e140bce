import Verif.Model.Solution
import Verif.Model.BasisInit
import Verif.Model.Deck

/-!
# dg1d/solution.py — `printer`, `loader`, `format_fnames`

Console output is not modelled. `np.savetxt` and `np.loadtxt` are modelled for the arguments used here.
-/

namespace Dg1d
open Text

variable {K : Type}

/-- solution.py:223-225 `format_fnames(step, fields)`. -/
def formatFnames (step : ℕ) (fields : List Str) : List Str :=
  fields.map fun f => f ++ (natTextPad 10 step ++ ".dat".toList)

/-- solution.py:131-134: the header. -/
def Sol.header (ft : FloatText K) (s : Sol K) : Str :=
  "n=".toList ++ natText s.n ++ ", t=".toList ++ ft.fmt s.t ++ ", bc_l=".toList ++ s.bcl.val.toList ++ ", bc_r=".toList ++
    s.bcr.val.toList ++ "\nxc".toList ++ (List.range (s.basis.p + 1)).flatMap fun i => ", u".toList ++ natText i

/-- `np.savetxt(..., header=header)` with the rows already formatted: every header line gets `'# '` in front. solution.py:150, 164-165. -/
def savetxt (header : Str) (rows : List Str) : Str :=
  "# ".toList ++ header.flatMap (fun c => if c = '\n' then "\n# ".toList else [c]) ++ ['\n'] ++ rows.flatMap (· ++ ['\n'])

/-- solution.py:137-150: the file of one field. `np.c_` raises `ValueError` when the lengths differ. -/
def Sol.fieldFile (ft : FloatText K) (s : Sol K) (field : ℕ) : Except PyErr Str :=
  let start : ℤ := s.NF + field
  let stop : ℤ := -2 * s.NF + 1 + field
  let A := s.u.colSliceStep start stop s.NF
  if s.xc.len ≠ A.cols then .error .valueError
  else .ok (savetxt (s.header ft) ((List.range s.xc.len).map fun i =>
    join [','] (ft.fmt (s.xc.val i) :: (List.range A.rows).map fun r => ft.fmt (A.val r i))))

/-- solution.py:137-150: the loop on the fields. -/
def Sol.writeFields (ft : FloatText K) (s : Sol K) : ℕ → List Str → Files → Except PyErr Files
  | _, [], fs => .ok fs
  | field, fname :: rest, fs =>
    match s.fieldFile ft field with
    | .error e => .error e
    | .ok text => s.writeFields ft (field + 1) rest (fs.write fname text)

/-- solution.py:153-165: the sensor file, format `'%.18e, %.0d'`. The percentage printed to the console divides by the
number of cells. -/
def Sol.writeSensors (ft : FloatText K) (s : Sol K) (nout : ℕ) (fs : Files) : Except PyErr Files :=
  match s.sensors with
  | none => .ok fs
  | some sen =>
    let v := sen.sensors.slice 1 (-1)
    if s.xc.len ≠ v.len then .error .valueError
    else if s.xc.len = 0 then .error .zeroDivision
    else .ok (fs.write ("sensor".toList ++ (natTextPad 10 nout ++ ".dat".toList))
      (savetxt (s.header ft) ((List.range s.xc.len).map fun i => ft.fmt (s.xc.val i) ++ ", ".toList ++ natText (v.val i))))

/-- solution.py:121-165 `printer(nout, dt)`: the files after the call (`dt` is only printed to the console). -/
def Sol.printer (ft : FloatText K) (s : Sol K) (nout : ℕ) (fs : Files) : Except PyErr Files :=
  match s.writeFields ft 0 (formatFnames nout (s.kw.fields.map String.toList)) fs with
  | .error e => .error e
  | .ok fs => s.writeSensors ft nout fs

/-- The data lines `np.loadtxt` sees: comments removed, empty lines skipped. solution.py:179, 214. -/
def dataLines (text : Str) : List Str :=
  ((lines (universalNewlines text)).map fun l => strip (l.takeWhile (· ≠ '#'))).filter fun l => !l.isEmpty

/-- `np.loadtxt(fname, delimiter=',', usecols=(0,))`, as a list. solution.py:179. -/
def loadtxtFirst (ft : FloatText K) (text : Str) : Except PyErr (List K) :=
  (dataLines text).mapM fun l => ft.float ((splitComma l).headD [])

/-- `np.loadtxt(fname, delimiter=',')`: the rows; they must have equal lengths. solution.py:214. -/
def loadtxt (ft : FloatText K) (text : Str) : Except PyErr (List (List K)) :=
  match (dataLines text).mapM fun l => (splitComma l).mapM ft.float with
  | .error e => .error e
  | .ok rows => if ∀ r ∈ rows, r.length = (rows.headD []).length then .ok rows else .error .valueError

/-- `line[i]` for a list of strings. solution.py:185-188. -/
def item (l : List Str) (i : ℕ) : Except PyErr Str :=
  match l[i]? with
  | none => .error .indexError
  | some s => .ok s

/-- Opening a file for reading. solution.py:179, 182, 214. -/
def Files.read (fs : Files) (name : Str) : Except PyErr Str :=
  match fs name with
  | none => .error .ioError
  | some text => .ok text

/-- solution.py:182-192: what is parsed from the first two lines: `n`, `t`, `bc_l`, `bc_r`, `N_s`. (At the end of the file
`readline` gives the empty string.) -/
def parseHeader (ft : FloatText K) (text : Str) : Except PyErr (ℤ × K × Str × Str × ℤ) := do
  let ls := lines (universalNewlines text)
  let w := splitEqComma (ls.getD 0 [])
  let n ← pyInt (← item w 1)
  let t ← ft.float (← item w 3)
  let bl ← item w 5
  let br ← item w 7
  return (n, t, rstrip bl, rstrip br, ((splitComma (ls.getD 1 [])).length : ℤ) - 1)

/-- solution.py:215-220: `self.u[:, start:end:step] = dat[:, 1::].transpose()`. `dat` has one dimension when there is one
row or one column, and then `dat[:, 1::]` raises `IndexError`; a single coefficient column is broadcast to all rows. -/
def storeField [Zero K] (NF field : ℕ) (u : Arr K) (dat : List (List K)) : Except PyErr (Arr K) :=
  let start : ℤ := NF + field
  let stop : ℤ := -2 * NF + 1 + field
  let k := (dat.headD []).length - 1
  if dat.length ≤ 1 ∨ (dat.headD []).length ≤ 1 then .error .indexError
  else if (k = u.rows ∨ k = 1) ∧ dat.length = (u.colSliceStep start stop NF).cols then
    .ok (u.setColSliceStep start stop NF ⟨u.rows, dat.length, fun r c => (dat.getD c []).getD (1 + if k = 1 then 0 else r) 0⟩)
  else .error .valueError

/-- solution.py:207-220: the loop on the fields. -/
def loadFields [Zero K] (ft : FloatText K) (fs : Files) (NF : ℕ) : ℕ → List Str → Arr K → Except PyErr (Arr K)
  | _, [], u => .ok u
  | field, fname :: rest, u => do
    let dat ← loadtxt ft (← fs.read fname)
    loadFields ft fs NF (field + 1) rest (← storeField NF field u dat)

/-- A string made at run time: not the literal object, whatever its value. solution.py:187-188. -/
def PyStr.made (s : Str) : PyStr := ⟨String.ofList s, false⟩

/-- solution.py:168-220 `loader(step)`. `scaled_minv`, the enhancement and the sensors are left as they were. `len` of the
0-dimensional array read from a one-row file raises `TypeError`, `xc[1]` of an empty one `IndexError`. (A negative step
number, which `printer` never writes, is read as 0.) -/
def Sol.loader [Field K] (lib : GaussLib K) (ft : FloatText K) (fs : Files) (s : Sol K) (step : ℕ) : Except PyErr (Sol K) :=
  let fnames := formatFnames step (s.kw.fields.map String.toList)
  match fnames with
  | [] => .error .indexError
  | f0 :: _ => do
    let text ← fs.read f0
    let xc ← loadtxtFirst ft text
    let (n, t, bl, br, Ns) ← parseHeader ft text
    if Ns - 1 < 0 then throw .valueError
    let NE := xc.length
    if NE = 1 then throw .typeError
    if NE = 0 then throw .indexError
    let dx := xc.getD 1 0 - xc.getD 0 0
    let A := xc.getD 0 0 - 1 / 2 * dx
    let B := xc.getD (NE - 1) 0 + 1 / 2 * dx
    let s' : Sol K := { s with
      xc := ⟨NE, fun i => xc.getD i 0⟩, n := n.toNat, t := t, bcl := .made bl, bcr := .made br,
      basis := Basis.init lib (Ns - 1).toNat, NE := NE, x := linspace A B (NE + 1), dx := (B - A) / NE,
      u := Arr.zeros Ns.toNat (NE * s.NF) }
    let s' := s'.addGhosts
    let u ← loadFields ft fs s.NF 0 fnames s'.u
    return { s' with u := u }

end Dg1d
