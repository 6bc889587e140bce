import Verif.Props.Plot

/-!
# The figures made after a regression test (C95)
-/

namespace Dg1d.Props
open Text Spec

variable {ft : FloatText ℝ} {rep : ℝ → Prop} {lib : GaussLib ℝ} {p : ℕ} {s : Sol ℝ}

/-- Column `j` of a table against its first column. -/
def columnCurve (dat : List (List ℝ)) (j : ℕ) : List (ℝ × ℝ) := dat.map fun l => (l.getD 0 0, l.getD j 0)

lemma exactCurves_ok {fs : Files} {text : Str} {dat : List (List ℝ)} (h1 : fs "exact.txt".toList = some text) (h2 : loadtxt ft text = .ok dat)
    (h3 : 2 ≤ dat.length) (h4 : 4 ≤ (dat.headD []).length) : exactCurves ft fs = .ok [columnCurve dat 1, columnCurve dat 2, columnCurve dat 3] := by
  unfold exactCurves Files.read
  rw [h1]
  simp only [bind, Except.bind, h2]
  rw [if_neg (by omega)]
  rfl

/-- The name `exact.txt` is not the name of an output. -/
lemma exact_name (f : String) (k : ℕ) : "exact.txt".toList ≠ nameOf f k := by
  intro h
  have := congrArg (fun l : Str => l.reverse.take 3) h
  unfold nameOf at this
  simp only [List.reverse_append] at this
  rw [show ".dat".toList.reverse = ['t', 'a', 'd', '.'] from by decide] at this
  simp only [List.cons_append, List.take_succ_cons] at this
  revert this
  rw [show "exact.txt".toList.reverse.take 3 = ['t', 'x', 't'] from by decide]
  simp

/-- **C95.** For an Euler solution saved as output `k` whose cell averages are those of states `w e` of non-zero density, in a directory with a file `exact.txt` that has at
least two rows and four columns: the tool saves the figures of density, velocity and pressure, with circles at the centroids (the pressure times `0.4/(γ-1)`) and the second, third and fourth column of
`exact.txt` against the first as a line, whatever a left-over sensor file of output `k` holds, and no more if the solution has no sensors and there is no left-over sensor file of output `k`. If it has sensors, a fourth figure shows the flags of
the cells. Sensor files of other outputs do not matter. -/
theorem C95_figures (hft : ft.Ok rep) (hnat : ∀ n, ft.parse (natText n) = .ok (n : ℝ)) (h : Savable ft rep lib p s) (h2 : 2 ≤ s.NE) {γ : ℝ} {riemann : Str}
    (hp : CodePhysics γ "euler".toList riemann s) {w : ℕ → Prim} (hw : ∀ e, 1 ≤ e → e ≤ s.NE → (w e).rho ≠ 0 ∧ ∀ f : Fin 3, cellMean s e f = (w e).cons γ f)
    (junk : ℕ → ℝ) (k : ℕ) {fs : Files} {text : Str} {dat : List (List ℝ)} (hx : fs "exact.txt".toList = some text) (hl : loadtxt ft text = .ok dat)
    (hr : 2 ≤ dat.length) (hc : 4 ≤ (dat.headD []).length) :
    ∃ fs', s.printer ft k fs = .ok fs' ∧ ∃ three : List Figure,
      three = [⟨"density.png".toList, (List.range s.NE).map fun i => (s.xc.val i, (w (i + 1)).rho), some (columnCurve dat 1)⟩,
        ⟨"velocity.png".toList, (List.range s.NE).map fun i => (s.xc.val i, (w (i + 1)).v), some (columnCurve dat 2)⟩,
        ⟨"pressure.png".toList, (List.range s.NE).map fun i => (s.xc.val i, 2 / 5 / (γ - 1) * (w (i + 1)).p), some (columnCurve dat 3)⟩] ∧
      (∃ more, (regressionPlot lib ft junk fs' k).1 = three ++ more) ∧
      (s.sensors = none → fs (nameOf "sensor" k) = none → regressionPlot lib ft junk fs' k = (three, none)) ∧
      ∀ sen, s.sensors = some sen → regressionPlot lib ft junk fs' k =
        (three ++ [⟨"sensors.png".toList, (List.range s.NE).map fun i => (s.xc.val i, (sen.sensors.val (i + 1) : ℝ)), none⟩], none) := by
  obtain ⟨fs', hpr, hav⟩ := C87_averages hft h h2 hp hw junk k fs
  have ht : Clean (ft.fmt s.t) := fun c hc => hft.chars _ h.time c hc
  obtain ⟨fs'', hp', -, -, hrest⟩ := C32_files ft h.cols h.xc h.fields ht.no.1 ⟨h.bcl.no.1, h.bcr.no.1⟩ h.sensors k fs
  rw [hpr] at hp'
  cases hp'
  have hex : exactCurves ft fs' = _ := exactCurves_ok ((hrest _ (fun f _ => exact_name f k) (fun _ => exact_name "sensor" k)).trans hx) hl hr hc
  refine ⟨fs', hpr, _, rfl, ?_, fun hs h0 => ?_, fun sen hs => ?_⟩
  · unfold regressionPlot
    rw [hav, hex]
    cases regressionSensors ft fs' k with
    | error e => exact ⟨[], (List.append_nil _).symm⟩
    | ok more => exact ⟨more, rfl⟩
  · have h1 : fs' ("sensor".toList ++ (natTextPad 10 k ++ ".dat".toList)) = none := by
      refine (hrest (nameOf "sensor" k) ?_ fun hn => absurd hs hn).trans h0
      intro f hf he
      exact h.fields.sensor ((String.ext_iff.mpr (fname_inj (show NoDigitEnd "sensor".toList by unfold NoDigitEnd; decide) (h.fields.digits f hf) he).1) ▸ hf)
    unfold regressionPlot regressionSensors
    rw [hav, hex, h1]
    rfl
  · obtain ⟨tx, t1, t2⟩ := sensor_loads hft hnat h h2 hs hpr
    have hsen : regressionSensors ft fs' k = .ok [⟨"sensors.png".toList, (List.range s.NE).map fun i => (s.xc.val i, (sen.sensors.val (i + 1) : ℝ)), none⟩] := by
      unfold regressionSensors
      rw [show fs' ("sensor".toList ++ (natTextPad 10 k ++ ".dat".toList)) = some tx from t1]
      simp only [t2, bind, Except.bind]
      rw [if_neg]
      · rw [List.map_map]
        rfl
      · obtain ⟨m, hm⟩ : ∃ m, s.NE = m + 1 := ⟨s.NE - 1, by omega⟩
        rw [hm, List.range_succ_eq_map, List.map_cons, List.headD_cons]
        simp
        omega
    unfold regressionPlot
    rw [hav, hex, hsen]
    rfl

/-- **C95 (nothing saved).** Without `exact.txt`, or with one of fewer than two rows or fewer than four columns, or without the files of output `k`, no figure is saved. -/
theorem C95_no_figure (ft : FloatText ℝ) (lib : GaussLib ℝ) (junk : ℕ → ℝ) (fs : Files) (k : ℕ)
    (h : fs "exact.txt".toList = none ∨ (∃ text dat, fs "exact.txt".toList = some text ∧ loadtxt ft text = .ok dat ∧ (dat.length < 2 ∨ (dat.headD []).length < 4)) ∨
      fs (nameOf "rho" k) = none) : ∃ e, regressionPlot lib ft junk fs k = ([], some e) := by
  unfold regressionPlot
  cases ha : plotAverages lib ft junk fs k with
  | error e => exact ⟨e, rfl⟩
  | ok figs =>
    have hex : ∃ e, exactCurves ft fs = .error e := by
      rcases h with h | ⟨text, dat, h, hl, hb⟩ | h
      · exact ⟨.ioError, by unfold exactCurves Files.read; rw [h]; rfl⟩
      · refine ⟨.indexError, ?_⟩
        unfold exactCurves Files.read
        rw [h]
        simp only [bind, Except.bind, hl]
        rw [if_pos (by omega)]
        rfl
      · exfalso
        obtain ⟨s0, h0, hkw, -, -⟩ := empty_object lib ft junk "euler".toList
        have hl : s0.sol.loader lib ft fs k = .error .ioError := by
          refine C33_missing lib ft fs s0.sol k (f := "rho") (l := ["rhou", "E"]) ?_ h
          rw [hkw]; unfold manipulationFunctions; rw [if_pos rfl]; rfl
        unfold plotAverages at ha
        simp only [h0, hl, bind, Except.bind] at ha
        cases ha
    obtain ⟨e, he⟩ := hex
    rw [he]
    exact ⟨e, rfl⟩

/-! ## Concrete cases -/

lemma Ex.exact_loads : loadtxt Ex.ratReal "0,1,2,3\n4,5,6,7\n".toList = .ok [[0, 1, 2, 3], [4, 5, 6, 7]] := by
  have hd : dataLines "0,1,2,3\n4,5,6,7\n".toList = ["0,1,2,3".toList, "4,5,6,7".toList] := by decide +kernel
  have h1 : splitComma "0,1,2,3".toList = [0, 1, 2, 3].map natText := by decide +kernel
  have h2 : splitComma "4,5,6,7".toList = [4, 5, 6, 7].map natText := by decide +kernel
  have hf : ∀ n, Ex.ratReal.float (natText n) = .ok (n : ℝ) := fun n => by
    rw [float_clean _ (Clean.natText n)]
    exact Ex.ratReal_nat n
  unfold loadtxt
  rw [hd, List.mapM_cons, List.mapM_cons, h1, h2]
  simp only [List.map_cons, List.map_nil, List.mapM_cons, List.mapM_nil, hf, bind, Except.bind, pure, Except.pure]
  norm_num

/-- Uniform flow of air with sensors, saved as output 1 beside an `exact.txt` of two rows: four figures. -/
example (p : ℕ) (riemann : Str) : ∃ fs', (Ex.gasE p (7 / 5) riemann).printer Ex.ratReal 1 (fun n => if n = "exact.txt".toList then some "0,1,2,3\n4,5,6,7\n".toList else none) = .ok fs' ∧
    regressionPlot realGauss Ex.ratReal (fun _ => 0) fs' 1 =
      ([⟨"density.png".toList, [(1 / 4, 1 / 8), (3 / 4, 1 / 8), (5 / 4, 1 / 8)], some [(0, 1), (4, 5)]⟩,
        ⟨"velocity.png".toList, [(1 / 4, 2), (3 / 4, 2), (5 / 4, 2)], some [(0, 2), (4, 6)]⟩,
        ⟨"pressure.png".toList, [(1 / 4, 1 / 10), (3 / 4, 1 / 10), (5 / 4, 1 / 10)], some [(0, 3), (4, 7)]⟩,
        ⟨"sensors.png".toList, [(1 / 4, 0), (3 / 4, 0), (5 / 4, 0)], none⟩], none) := by
  have h3 : 2 ≤ (Ex.gasE p (7 / 5) riemann).NE := by norm_num [Ex.gasE, Ex.uniE, Ex.solR]
  have hw : ∀ e (f : Fin 3), cellMean (Ex.gasE p (7 / 5) riemann) e f = Ex.wB.cons (7 / 5) f := by
    intro e f
    rw [cellMean_eq (Nat.succ_pos p)]
    show (if (0 : ℕ) = 0 then (oneState (7 / 5) Ex.wB).val ((e * 3 + f) % 3) else 0) = _
    have : (e * 3 + (f : ℕ)) % 3 = f := by omega
    rw [if_pos rfl, this]
    unfold oneState
    simp only [f.2, dif_pos]
  obtain ⟨fs', h1, three, h2, -, -, h4⟩ := C95_figures Ex.ratReal_ok Ex.ratReal_nat (Ex.gasE_savable p (7 / 5) riemann) h3 (Ex.gasE_physics p _ riemann) (w := fun _ => Ex.wB)
    (fun e _ _ => ⟨by norm_num [Ex.wB], hw e⟩) (fun _ => 0) 1 (fs := fun n => if n = "exact.txt".toList then some "0,1,2,3\n4,5,6,7\n".toList else none) (if_pos rfl) Ex.exact_loads
    (by decide) (by simp)
  refine ⟨fs', h1, (h4 _ rfl).trans ?_⟩
  have hr : List.range 3 = [0, 1, 2] := rfl
  rw [h2]
  norm_num [Ex.gasE, Ex.uniE, Ex.solR, Ex.wB, hr, columnCurve]

/-- An empty directory. -/
example : ∃ e, regressionPlot realGauss Ex.ratReal (fun _ => 0) (fun _ => none) 1 = ([], some e) := C95_no_figure _ _ _ _ _ (.inl rfl)

end Dg1d.Props
