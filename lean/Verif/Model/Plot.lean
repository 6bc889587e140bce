import Verif.Model.Construct
import Verif.Model.IO

/-!
# dg1d/plot.py and regressions/plot.py — the plot tools

What the tools hand to matplotlib: the coordinates of the markers. Colours and figure windows are not modelled; the sine curve drawn
for advection (dg1d/plot.py:102-106) is in `Model/PlotCurve`. `-f` is a natural number here. A division by zero gives a
number here and NaN or infinity in numpy; the theorems assume non-zero densities.
-/

namespace Dg1d
open Text

/-- The markers of one cell: circles at the Gauss nodes, squares at the edges. dg1d/plot.py:94-100. -/
structure Marks where
  nodes : List (ℝ × ℝ)
  edges : List (ℝ × ℝ)

/-- Elementwise operation of three arrays of one shape. dg1d/plot.py:71-72, 77-78. -/
def Arr.zip3 {K : Type*} (f : K → K → K → K) (A B C : Arr K) : Arr K := { A with val := fun r c => f (A.val r c) (B.val r c) (C.val r c) }

/-- dg1d/plot.py:69-74 (and again 76-80): the columns of momentum and energy are replaced by velocity and pressure. The number
1.4 is written in the tool. -/
noncomputable def primitiveColumns (NF : ℕ) (A : Arr ℝ) : Arr ℝ :=
  let gamma : ℝ := 14 / 10
  let rho := A.colSliceStep 0 A.cols NF
  let u := Arr.zip3 (fun m r _ => m / r) (A.colSliceStep 1 A.cols NF) rho rho
  let p := Arr.zip3 (fun e r v => (gamma - 1) * (e - 1 / 2 * r * v * v)) (A.colSliceStep 2 A.cols NF) rho u
  (A.setColSliceStep 1 A.cols NF u).setColSliceStep 2 A.cols NF p

/-- dg1d/plot.py:90-100: the markers of cell `e`. -/
noncomputable def cellMarks (s : Sol ℝ) (ug uf : Arr ℝ) (field e : ℕ) : Marks :=
  let a := s.x.val (e - 1)
  let b := s.x.val e
  { nodes := (List.range ug.rows).map fun g => (1 / 2 * (b - a) * s.basis.x.val g + 1 / 2 * (b + a), ug.val g (e * s.NF + field))
    edges := [(a, uf.val 0 (e * s.NF + field)), (b, uf.val 1 (e * s.NF + field))] }

/-- dg1d/plot.py:57-100: one figure per field, with the markers of every cell. -/
noncomputable def plotFields (lib : GaussLib ℝ) (ft : FloatText ℝ) (junk : ℕ → ℝ) (fs : Files) (system : Str) (step : ℕ) :
    Except PyErr (List (List Marks)) := do
  let s0 ← construct lib ft junk "empty".toList system 0 [] [] []
  let s ← s0.sol.loader lib ft fs step
  let ug := s.collocate
  let uf ← s.evaluateFaces
  let ug := if system = "euler".toList then primitiveColumns s.NF ug else ug
  let uf := if system = "euler".toList then primitiveColumns s.NF uf else uf
  return (List.range s.NF).map fun field => (List.range s.NE).map fun i => cellMarks s ug uf field (i + 1)

/-- dg1d/plot.py:108-115: the sensors, if there is a sensor file of output 0. A file with one row or one column is loaded as a
1-dimensional array and `dat[:, 0]` raises `IndexError`. -/
noncomputable def plotSensors (ft : FloatText ℝ) (fs : Files) (step : ℕ) : Except PyErr (Option (List (ℝ × ℝ))) :=
  match fs "sensor0000000000.dat".toList with
  | none => .ok none
  | some _ => do
    let dat ← loadtxt ft (← fs.read ("sensor".toList ++ (natTextPad 10 step ++ ".dat".toList)))
    if dat.length ≤ 1 ∨ (dat.headD []).length ≤ 1 then throw .indexError
    return some (dat.map fun l => (l.getD 0 0, l.getD 1 0))

/-- regressions/plot.py:70-81: the circles of the three figures: centroids against the averages of the density, and velocity
and pressure computed from the averages. -/
noncomputable def plotAverages (lib : GaussLib ℝ) (ft : FloatText ℝ) (junk : ℕ → ℝ) (fs : Files) (step : ℕ) : Except PyErr (List (List (ℝ × ℝ))) := do
  let s0 ← construct lib ft junk "empty".toList "euler".toList 0 [] [] []
  let s ← s0.sol.loader lib ft fs step
  let sol := s.u.colSlice s.NF (-(s.NF : ℤ))
  let gamma : ℝ := 14 / 10
  let rho := sol.colSliceStep 0 sol.cols s.NF
  let u := Arr.zip3 (fun m r _ => m / r) (sol.colSliceStep 1 sol.cols s.NF) rho rho
  let p := Arr.zip3 (fun e r v => (gamma - 1) * (e - 1 / 2 * r * v * v)) (sol.colSliceStep 2 sol.cols s.NF) rho u
  if s.xc.len ≠ rho.cols then throw .valueError
  return [rho, u, p].map fun A => (List.range s.xc.len).map fun i => (s.xc.val i, A.val 0 i)

/-- A figure of regressions/plot.py as it is saved: its name, the circles, the line. regressions/plot.py:90-134. -/
structure Figure where
  name : Str
  circles : List (ℝ × ℝ)
  line : Option (List (ℝ × ℝ))

/-- regressions/plot.py:83-88: the exact solution: `x` against density, velocity and pressure. `dat[:, 3]` raises `IndexError` if there are fewer than four columns or, as the
array then has one dimension, fewer than two rows. -/
noncomputable def exactCurves (ft : FloatText ℝ) (fs : Files) : Except PyErr (List (List (ℝ × ℝ))) := do
  let dat ← loadtxt ft (← fs.read "exact.txt".toList)
  if dat.length ≤ 1 ∨ (dat.headD []).length ≤ 3 then throw .indexError
  return [1, 2, 3].map fun j => dat.map fun l => (l.getD 0 0, l.getD j 0)

/-- regressions/plot.py:122-134: the sensor figure, if there is a sensor file of this output. -/
noncomputable def regressionSensors (ft : FloatText ℝ) (fs : Files) (step : ℕ) : Except PyErr (List Figure) :=
  match fs ("sensor".toList ++ (natTextPad 10 step ++ ".dat".toList)) with
  | none => .ok []
  | some text => do
    let dat ← loadtxt ft text
    if dat.length ≤ 1 ∨ (dat.headD []).length ≤ 1 then throw .indexError
    return [⟨"sensors.png".toList, dat.map fun l => (l.getD 0 0, l.getD 1 0), none⟩]

/-- regressions/plot.py:70-134: the figures saved and the exception, if there is one. -/
noncomputable def regressionPlot (lib : GaussLib ℝ) (ft : FloatText ℝ) (junk : ℕ → ℝ) (fs : Files) (step : ℕ) : List Figure × Option PyErr :=
  match plotAverages lib ft junk fs step with
  | .error e => ([], some e)
  | .ok figs =>
    match exactCurves ft fs with
    | .error e => ([], some e)
    | .ok curves =>
      let names := ["density.png".toList, "velocity.png".toList, "pressure.png".toList]
      let three := List.zipWith (fun n q => ⟨n, q.1, some q.2⟩) names (figs.zip curves)
      match regressionSensors ft fs step with
      | .error e => (three, some e)
      | .ok more => (three ++ more, none)

/-- dg1d/plot.py:57-115: the main part. -/
noncomputable def plotTool (lib : GaussLib ℝ) (ft : FloatText ℝ) (junk : ℕ → ℝ) (fs : Files) (system : Str) (step : ℕ) :
    Except PyErr (List (List Marks) × Option (List (ℝ × ℝ))) := do
  let figs ← plotFields lib ft junk fs system step
  let sens ← plotSensors ft fs step
  return (figs, sens)

end Dg1d
