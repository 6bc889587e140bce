import Verif.Proofs.Plot
import Verif.Props.IO
import Verif.Props.RunsLimited

/-!
# C87: the plot tool (plot.py) shows the saved solution
-/

open Polynomial

namespace Dg1d.Props
open Text Spec

variable {lib : GaussLib ℝ} {ft : FloatText ℝ} {rep : ℝ → Prop} {p : ℕ} {s : Sol ℝ}

/-- The solution object of the tool. -/
lemma empty_object (lib : GaussLib ℝ) (ft : FloatText ℝ) (junk : ℕ → ℝ) (system : Str) :
    ∃ s0, construct lib ft junk "empty".toList system 0 [] [] [] = .ok s0 ∧ s0.sol.kw = (manipulationFunctions gammaInit system []).1 ∧
      s0.sol.NF = (manipulationFunctions gammaInit system []).2 ∧ s0.sol.enhance = none := by
  have hs : split "empty".toList = ["empty".toList] := by decide +kernel
  have hc : callKeyword ft system [] (emptySolution lib junk system 0 []) "empty".toList [] = (emptySolution lib junk system 0 [], some .keyError) := by
    unfold callKeyword
    rw [if_neg (by decide), if_neg (by decide), if_neg (by decide), if_neg (by decide), if_neg (by decide), if_neg (by decide), if_neg (by decide),
      if_neg (by decide), if_neg (by decide)]
  refine ⟨{ emptySolution lib junk system 0 [] with sol := { (emptySolution lib junk system 0 []).sol with enhance := none, sensors := none } }, ?_, rfl, rfl, rfl⟩
  unfold construct
  rw [if_neg (by omega), hs]
  simp only [Int.toNat_zero, hc]
  rw [if_pos (show PyErr.keyError.isException = true from rfl)]
  rfl

lemma fields_of (γ : ℝ) (system riemann : Str) :
    (manipulationFunctions gammaInit system []).1.fields = (manipulationFunctions γ system riemann).1.fields ∧
    (manipulationFunctions gammaInit system []).2 = (manipulationFunctions γ system riemann).2 := by
  unfold manipulationFunctions
  split_ifs <;> exact ⟨rfl, rfl⟩

/-- What the tool computes for a saved solution, before primitive variables are formed. -/
lemma plotFields_eq (hft : ft.Ok rep) (hlib : (lib (p + 1)).1.len = p + 1) (h : Savable ft rep lib p s) (h2 : 2 ≤ s.NE) {γ : ℝ} {system riemann : Str}
    (hp : CodePhysics γ system riemann s) (junk : ℕ → ℝ) (k : ℕ) (fs : Files) :
    ∃ fs' ug uf, s.printer ft k fs = .ok fs' ∧ ug.rows = p + 1 ∧ ug.cols = (s.NE + 2) * s.NF ∧ uf.cols = (s.NE + 2) * s.NF ∧
      (∀ g < p + 1, ∀ e, 1 ≤ e → e ≤ s.NE → ∀ f < s.NF, ug.val g (e * s.NF + f) = (cellPoly s e f).eval (s.basis.x.val g)) ∧
      (∀ e, 1 ≤ e → e ≤ s.NE → ∀ f < s.NF, uf.val 0 (e * s.NF + f) = (cellPoly s e f).eval (-1) ∧ uf.val 1 (e * s.NF + f) = (cellPoly s e f).eval 1) ∧
      plotFields lib ft junk fs' system k = .ok ((List.range s.NF).map fun field => (List.range s.NE).map fun i =>
        cellMarks s (if system = "euler".toList then primitiveColumns s.NF ug else ug) (if system = "euler".toList then primitiveColumns s.NF uf else uf) field (i + 1)) := by
  obtain ⟨s0, h0, hkw, hNF0, hen⟩ := empty_object lib ft junk system
  have hfl : s0.sol.kw.fields = s.kw.fields := by rw [hkw, hp.kw]; exact (fields_of γ system riemann).1
  have hnf : s0.sol.NF = s.NF := by rw [hNF0, hp.NF]; exact (fields_of γ system riemann).2
  obtain ⟨fs', s', r1, r2, -, -, -, -, rb, rE, rF, -, -, -, rx, -, ru1, ru2, ru, -, -, -, ren, -⟩ := C33_round_trip hft h h2 k fs hnf hfl
  obtain ⟨tp, tn, tg, -, -, ⟨tr, tc, tv⟩, -, tpr, tpc, tpv⟩ := C22_basis_tables lib p hlib
  have hsum : ∀ (a : ℕ → ℝ) (q : ℝ) (e f : ℕ), 1 ≤ e → e ≤ s.NE → f < s.NF → (∀ n < p + 1, a n = (legendre ℝ n).eval q) →
      ∑ n ∈ Finset.range (p + 1), a n * s'.u.val n (e * s.NF + f) = (cellPoly s e f).eval q := by
    intro a q e f he1 he2 hf ha
    unfold cellPoly legSeries
    rw [Polynomial.eval_finsetSum, h.rows]
    refine Finset.sum_congr rfl fun n hn => ?_
    have hn := Finset.mem_range.mp hn
    rw [ha n hn, ru n hn e he1 he2 f hf]
    simp
    ring
  refine ⟨fs', s'.collocate, s'.collocateFaces, r1, ?_, ?_, ?_, ?_, ?_, ?_⟩
  · show s'.basis.phi.rows = _
    rw [rb, h.basis]; exact tr
  · exact ru2
  · exact ru2
  · intro g hg e he1 he2 f hf
    show ∑ n ∈ Finset.range s'.basis.phi.cols, s'.basis.phi.val g n * _ = _
    rw [rb, h.basis, tc]
    exact hsum _ _ e f he1 he2 hf fun n hn => tv g hg n hn
  · intro e he1 he2 f hf
    constructor
    · show ∑ n ∈ Finset.range s'.basis.psi.cols, s'.basis.psi.val 0 n * _ = _
      rw [rb, h.basis, tpc]
      exact hsum _ _ e f he1 he2 hf fun n hn => (tpv n hn).1
    · show ∑ n ∈ Finset.range s'.basis.psi.cols, s'.basis.psi.val 1 n * _ = _
      rw [rb, h.basis, tpc]
      exact hsum _ _ e f he1 he2 hf fun n hn => (tpv n hn).2
  · unfold plotFields
    simp only [h0, r2, bind, Except.bind]
    unfold Sol.evaluateFaces
    simp only [ren, hen, pure, Except.pure, rF, rE]
    congr 1
    refine List.map_congr_left fun f hf => List.map_congr_left fun i hi => ?_
    have hi := List.mem_range.mp hi
    unfold cellMarks
    simp only [rF, rb, rx _ (show i + 1 ≤ s.NE by omega), rx _ (show i + 1 - 1 ≤ s.NE by omega)]

/-- Places of the markers. -/
lemma marks_place (h : ∃ A B, IsUniformMesh A B s.NE s.x.val s.xc.val s.dx) {i : ℕ} (hi : i < s.NE) (ξ : ℝ) :
    1 / 2 * (s.x.val (i + 1) - s.x.val (i + 1 - 1)) * ξ + 1 / 2 * (s.x.val (i + 1) + s.x.val (i + 1 - 1)) = place s (i + 1) ξ ∧
    s.x.val (i + 1 - 1) = place s (i + 1) (-1) ∧ s.x.val (i + 1) = place s (i + 1) 1 := by
  obtain ⟨A, B, hm⟩ := h
  have h1 := hm.spacing i hi
  have h2 := hm.centre i hi
  unfold place
  simp only [Nat.add_sub_cancel]
  rw [h2]
  rw [← h1]
  refine ⟨?_, ?_, ?_⟩ <;> ring

/-- The markers of a cell, from the values in it. -/
lemma cellMarks_eq (hm : ∃ A B, IsUniformMesh A B s.NE s.x.val s.xc.val s.dx) {ug uf : Arr ℝ} (hr : ug.rows = p + 1) {f i : ℕ} (hi : i < s.NE) {v : ℝ → ℝ}
    (hg : ∀ g < p + 1, ug.val g ((i + 1) * s.NF + f) = v (s.basis.x.val g)) (h0 : uf.val 0 ((i + 1) * s.NF + f) = v (-1)) (h1 : uf.val 1 ((i + 1) * s.NF + f) = v 1) :
    cellMarks s ug uf f (i + 1) = ⟨((List.range (p + 1)).map s.basis.x.val).map fun ξ => (place s (i + 1) ξ, v ξ), [-1, 1].map fun ξ => (place s (i + 1) ξ, v ξ)⟩ := by
  unfold cellMarks
  simp only [hr, h0, h1]
  congr 1
  · rw [List.map_map]
    refine List.map_congr_left fun g hg' => ?_
    rw [hg g (List.mem_range.mp hg'), (marks_place hm hi _).1]
    rfl
  · rw [List.map_cons, List.map_cons, List.map_nil, ← (marks_place hm hi 0).2.1, ← (marks_place hm hi 0).2.2]

/-- **C87.** Plotting output `k` of a saved advection solution (any system but Euler; at least two cells, basis of numpy's
nodes): one figure with, for every interior cell and no ghost cell, circles at the Gauss nodes and squares at both edges, placed
in the cell, at the height of the polynomial of the cell there. -/
theorem C87_advection (hft : ft.Ok rep) (hlib : (lib (p + 1)).1.len = p + 1) (h : Savable ft rep lib p s) (h2 : 2 ≤ s.NE) {γ : ℝ} {system riemann : Str}
    (hp : CodePhysics γ system riemann s) (hsys : system ≠ "euler".toList) (junk : ℕ → ℝ) (k : ℕ) (fs : Files) :
    ∃ fs', s.printer ft k fs = .ok fs' ∧
      plotFields lib ft junk fs' system k = .ok (figures s ((List.range (p + 1)).map s.basis.x.val) fun f e ξ => (cellPoly s e f).eval ξ) := by
  obtain ⟨fs', ug, uf, r1, r2, -, -, r3, r4, r5⟩ := plotFields_eq hft hlib h h2 hp junk k fs
  refine ⟨fs', r1, ?_⟩
  rw [r5, if_neg hsys, if_neg hsys]
  unfold figures
  congr 1
  refine List.map_congr_left fun f hf => List.map_congr_left fun i hi => ?_
  have hi := List.mem_range.mp hi
  have hf := List.mem_range.mp hf
  exact cellMarks_eq (v := fun ξ => (cellPoly s (i + 1) f).eval ξ) h.mesh r2 hi (fun g hg => r3 g hg (i + 1) (by omega) (by omega) f hf) (r4 (i + 1) (by omega) (by omega) f hf).1
    (r4 (i + 1) (by omega) (by omega) f hf).2

/-- Velocity and pressure as the tool computes them. -/
lemma tool_primitives (γ : ℝ) {w : Prim} (hw : w.rho ≠ 0) :
    w.rho * w.v / w.rho = w.v ∧ 2 / 5 * (w.energy γ - 1 / 2 * w.rho * (w.rho * w.v / w.rho) ^ 2) = 2 / 5 / (γ - 1) * w.p := by
  have : w.rho * w.v / w.rho = w.v := by field_simp
  refine ⟨this, ?_⟩
  rw [this]
  unfold Prim.energy
  ring

/-- **C87 (Euler).** Plotting output `k` of a saved Euler solution with ratio of specific heats `γ`, at whose nodes and edges the
state is that of `w` with non-zero density: three figures, of the density, of the velocity, and of `0.4/(γ-1)` times the pressure. -/
theorem C87_euler (hft : ft.Ok rep) (hlib : (lib (p + 1)).1.len = p + 1) (h : Savable ft rep lib p s) (h2 : 2 ≤ s.NE) {γ : ℝ} {riemann : Str}
    (hp : CodePhysics γ "euler".toList riemann s) {w : ℕ → ℝ → Prim}
    (hw : ∀ e, 1 ≤ e → e ≤ s.NE → ∀ ξ ∈ -1 :: 1 :: (List.range (p + 1)).map s.basis.x.val, (w e ξ).rho ≠ 0 ∧ ∀ f : Fin 3, (cellPoly s e f).eval ξ = (w e ξ).cons γ f)
    (junk : ℕ → ℝ) (k : ℕ) (fs : Files) :
    ∃ fs', s.printer ft k fs = .ok fs' ∧
      plotFields lib ft junk fs' "euler".toList k = .ok (figures s ((List.range (p + 1)).map s.basis.x.val) fun f e ξ =>
        (⟨(w e ξ).rho, (w e ξ).v, 2 / 5 / (γ - 1) * (w e ξ).p⟩ : Prim).get f) := by
  obtain ⟨fs', ug, uf, r1, r2, rc, rc', r3, r4, r5⟩ := plotFields_eq hft hlib h h2 hp junk k fs
  refine ⟨fs', r1, ?_⟩
  rw [r5, if_pos rfl, if_pos rfl]
  have hNF := (hp.euler rfl).2
  unfold figures
  congr 1
  refine List.map_congr_left fun f hf => List.map_congr_left fun i hi => ?_
  have hi := List.mem_range.mp hi
  have hf := List.mem_range.mp hf
  rw [hNF] at hf
  -- one array row whose entries are the conserved variables
  have key : ∀ (A : Arr ℝ) (r : ℕ) (ξ : ℝ), A.cols = (s.NE + 2) * s.NF → ξ ∈ -1 :: 1 :: (List.range (p + 1)).map s.basis.x.val →
      (∀ f < 3, A.val r ((i + 1) * 3 + f) = (cellPoly s (i + 1) f).eval ξ) →
      (primitiveColumns 3 A).val r ((i + 1) * 3 + f) = (⟨(w (i + 1) ξ).rho, (w (i + 1) ξ).v, 2 / 5 / (γ - 1) * (w (i + 1) ξ).p⟩ : Prim).get f := by
    intro A r ξ hA hξ hv
    obtain ⟨hρ, hc⟩ := hw (i + 1) (by omega) (by omega) ξ hξ
    obtain ⟨c0, c1, c2⟩ := primitiveColumns_val (N := s.NE + 2) (by rw [hA, hNF]) r (i + 1) (by omega)
    have v0 : A.val r ((i + 1) * 3) = (w (i + 1) ξ).rho := (hv 0 (by omega)).trans (hc 0)
    have v1 : A.val r ((i + 1) * 3 + 1) = (w (i + 1) ξ).rho * (w (i + 1) ξ).v := (hv 1 (by omega)).trans (hc 1)
    have v2 : A.val r ((i + 1) * 3 + 2) = (w (i + 1) ξ).energy γ := (hv 2 (by omega)).trans (hc 2)
    obtain ⟨t1, t2⟩ := tool_primitives γ hρ
    unfold Prim.get
    obtain rfl | rfl | rfl : f = 0 ∨ f = 1 ∨ f = 2 := by omega
    · rw [c0, v0]; rfl
    · rw [c1, v0, v1, t1]; rfl
    · rw [c2, v0, v1, v2, t2]; rfl
  refine cellMarks_eq (v := fun ξ => (⟨(w (i + 1) ξ).rho, (w (i + 1) ξ).v, 2 / 5 / (γ - 1) * (w (i + 1) ξ).p⟩ : Prim).get f) h.mesh ?_ hi ?_ ?_ ?_
  · exact r2
  · intro g hg
    rw [hNF]
    refine key ug g _ rc (List.mem_cons_of_mem _ (List.mem_cons_of_mem _ (List.mem_map.mpr ⟨g, List.mem_range.mpr hg, rfl⟩))) fun f hf => ?_
    have := r3 g hg (i + 1) (by omega) (by omega) f (by rw [hNF]; exact hf)
    rwa [hNF] at this
  · rw [hNF]
    refine key uf 0 _ rc' (by simp) fun f hf => ?_
    have := (r4 (i + 1) (by omega) (by omega) f (by rw [hNF]; exact hf)).1
    rwa [hNF] at this
  · rw [hNF]
    refine key uf 1 _ rc' (by simp) fun f hf => ?_
    have := (r4 (i + 1) (by omega) (by omega) f (by rw [hNF]; exact hf)).2
    rwa [hNF] at this

/-- **C87 (Euler, the default gamma).** With `γ = 1.4` (every initial condition but `simplew`) the three figures show density,
velocity and pressure. -/
theorem C87_air (hft : ft.Ok rep) (hlib : (lib (p + 1)).1.len = p + 1) (h : Savable ft rep lib p s) (h2 : 2 ≤ s.NE) {riemann : Str}
    (hp : CodePhysics (7 / 5) "euler".toList riemann s) {w : ℕ → ℝ → Prim}
    (hw : ∀ e, 1 ≤ e → e ≤ s.NE → ∀ ξ ∈ -1 :: 1 :: (List.range (p + 1)).map s.basis.x.val, (w e ξ).rho ≠ 0 ∧ ∀ f : Fin 3, (cellPoly s e f).eval ξ = (w e ξ).cons (7 / 5) f)
    (junk : ℕ → ℝ) (k : ℕ) (fs : Files) :
    ∃ fs', s.printer ft k fs = .ok fs' ∧
      plotFields lib ft junk fs' "euler".toList k = .ok (figures s ((List.range (p + 1)).map s.basis.x.val) fun f e ξ => (w e ξ).get f) := by
  obtain ⟨fs', h1, h2⟩ := C87_euler hft hlib h h2 hp hw junk k fs
  refine ⟨fs', h1, ?_⟩
  rw [h2]
  congr 2
  funext f e ξ
  have : (2 / 5 / (7 / 5 - 1) * (w e ξ).p : ℝ) = (w e ξ).p := by norm_num
  rw [this]

/-- **C87 (Euler, another gamma).** The gamma of the run is not used: with `γ ≠ 1.4` (3 for `simplew`) no marker of the third figure
with non-zero pressure is at the height of the pressure. For `γ = 3` it is a fifth of it. -/
theorem C87_wrong_pressure (hft : ft.Ok rep) (hlib : (lib (p + 1)).1.len = p + 1) (h : Savable ft rep lib p s) (h2 : 2 ≤ s.NE) {γ : ℝ} (h1 : γ ≠ 1) (hγ : γ ≠ 7 / 5) {riemann : Str}
    (hp : CodePhysics γ "euler".toList riemann s) {w : ℕ → ℝ → Prim}
    (hw : ∀ e, 1 ≤ e → e ≤ s.NE → ∀ ξ ∈ -1 :: 1 :: (List.range (p + 1)).map s.basis.x.val, (w e ξ).rho ≠ 0 ∧ ∀ f : Fin 3, (cellPoly s e f).eval ξ = (w e ξ).cons γ f)
    (junk : ℕ → ℝ) (k : ℕ) (fs : Files) :
    ∃ fs' figs, s.printer ft k fs = .ok fs' ∧ plotFields lib ft junk fs' "euler".toList k = .ok figs ∧
      ∀ i < s.NE, (w (i + 1) (-1)).p ≠ 0 → ∃ l m y, figs[2]? = some l ∧ l[i]? = some m ∧ m.edges[0]? = some (s.x.val i, y) ∧ y ≠ (w (i + 1) (-1)).p ∧
        (γ = 3 → y = (w (i + 1) (-1)).p / 5) := by
  obtain ⟨fs', a1, a2⟩ := C87_euler hft hlib h h2 hp hw junk k fs
  refine ⟨fs', _, a1, a2, fun i hi hP => ?_⟩
  have hNF := (hp.euler rfl).2
  set V : ℕ → ℕ → ℝ → ℝ := fun f e ξ => (⟨(w e ξ).rho, (w e ξ).v, 2 / 5 / (γ - 1) * (w e ξ).p⟩ : Prim).get f with hV
  set cell : ℕ → Marks := fun i => ⟨((List.range (p + 1)).map s.basis.x.val).map fun ξ => (place s (i + 1) ξ, V 2 (i + 1) ξ),
    [-1, 1].map fun ξ => (place s (i + 1) ξ, V 2 (i + 1) ξ)⟩ with hcell
  refine ⟨(List.range s.NE).map cell, cell i, V 2 (i + 1) (-1), ?_, ?_, ?_, ?_, ?_⟩
  · unfold figures
    rw [List.getElem?_map, List.getElem?_range (by omega)]
    rfl
  · rw [List.getElem?_map, List.getElem?_range hi]
    rfl
  · show some (place s (i + 1) (-1), V 2 (i + 1) (-1)) = _
    rw [← (marks_place h.mesh hi 0).2.1, Nat.add_sub_cancel]
  · show 2 / 5 / (γ - 1) * (w (i + 1) (-1)).p ≠ _
    have h3 : γ - 1 ≠ 0 := sub_ne_zero.mpr h1
    intro h4
    have : 2 / 5 / (γ - 1) = 1 := mul_right_cancel₀ hP (by rw [h4, one_mul])
    rw [div_eq_one_iff_eq h3] at this
    exact hγ (by linarith)
  · rintro rfl
    show 2 / 5 / (3 - 1) * (w (i + 1) (-1)).p = _
    ring

/-- The sensor file written by `printer`, read back. -/
lemma sensor_loads (hft : ft.Ok rep) (hnat : ∀ n, ft.parse (natText n) = .ok (n : ℝ)) (h : Savable ft rep lib p s) (h2 : 2 ≤ s.NE) {sen : Sensor ℝ}
    (hs : s.sensors = some sen) {k : ℕ} {fs fs' : Files} (hp : s.printer ft k fs = .ok fs') :
    ∃ text, fs' (nameOf "sensor" k) = some text ∧ loadtxt ft text = .ok ((List.range s.NE).map fun i => [s.xc.val i, (sen.sensors.val (i + 1) : ℝ)]) := by
  have ht : Clean (ft.fmt s.t) := fun c hc => hft.chars _ h.time c hc
  obtain ⟨fs'', hp', -, hfile, -⟩ := C32_files ft h.cols h.xc h.fields ht.no.1 ⟨h.bcl.no.1, h.bcr.no.1⟩ h.sensors k fs
  rw [hp] at hp'
  cases hp'
  have hrow : ∀ i < s.NE, Clean (ft.fmt (s.xc.val i)) ∧ ft.fmt (s.xc.val i) ≠ [] := fun i hi =>
    ⟨fun c hc => hft.chars _ (h.centroids i hi) c hc, hft.nonempty _ (h.centroids i hi)⟩
  set rows := (List.range s.NE).map (fun i => ft.fmt (s.xc.val i) ++ ", ".toList ++ natText (sen.sensors.val (i + 1))) with hrows
  have hmem : ∀ r ∈ rows, ∃ i, i < s.NE ∧ r = ft.fmt (s.xc.val i) ++ ", ".toList ++ natText (sen.sensors.val (i + 1)) := by
    intro r hr
    obtain ⟨i, hi, rfl⟩ := List.mem_map.mp hr
    exact ⟨i, List.mem_range.mp hi, rfl⟩
  have hread : fs' (nameOf "sensor" k) =
      some (savetxt (head1 (natText s.n) (ft.fmt s.t) s.bcl.val.toList s.bcr.val.toList ++ '\n' :: head2 p) rows) := by
    rw [hfile sen hs]
    congr 1
    have nl : "\n".toList = ['\n'] := by decide
    rw [savetxt_eq (head1_no (Clean.natText _) ht h.bcl h.bcr).1 (head2_no _).1, hrows, List.flatMap_map]
    unfold headText head1 head2
    have e1 : "# n=".toList = "# ".toList ++ "n=".toList := by decide
    have e2 : "\n# xc".toList = '\n' :: ("# ".toList ++ "xc".toList) := by decide
    have e3 : s.basis.p = p := by rw [h.basis]; rfl
    rw [e1, e2, e3, nl]
    simp only [List.append_assoc, List.cons_append, List.nil_append]
  have hdl : dataLines (savetxt (head1 (natText s.n) (ft.fmt s.t) s.bcl.val.toList s.bcr.val.toList ++ '\n' :: head2 p) rows) = rows := by
    refine dataLines_savetxt' (head1_no (Clean.natText _) ht h.bcl h.bcr) p ?_ ?_ ?_ <;>
    · intro r hr
      obtain ⟨i, hi, rfl⟩ := hmem r hr
      have := sensorRow_facts (hrow i hi).1 (hrow i hi).2 (sen.sensors.val (i + 1))
      first | exact this.1 | exact this.2.1 | exact this.2.2.1
  have hload : loadtxt ft (savetxt (head1 (natText s.n) (ft.fmt s.t) s.bcl.val.toList s.bcr.val.toList ++ '\n' :: head2 p) rows) =
      .ok ((List.range s.NE).map fun i => [s.xc.val i, (sen.sensors.val (i + 1) : ℝ)]) := by
    unfold loadtxt
    rw [hdl, hrows, mapM_map_ok (g := fun i => [s.xc.val i, (sen.sensors.val (i + 1) : ℝ)])]
    · simp only
      rw [if_pos]
      intro l hl
      obtain ⟨i, hi, rfl⟩ := List.mem_map.mp hl
      obtain ⟨m, hm⟩ : ∃ m, s.NE = m + 1 := ⟨s.NE - 1, by omega⟩
      rw [hm, List.range_succ_eq_map, List.map_cons, List.headD_cons]
      rfl
    · intro i hi
      have hi := List.mem_range.mp hi
      rw [(sensorRow_facts (hrow i hi).1 (hrow i hi).2 _).2.2.2]
      have f1 : ft.float (ft.fmt (s.xc.val i)) = .ok (s.xc.val i) := by rw [float_clean ft (hrow i hi).1, hft.round _ (h.centroids i hi)]
      have f2 : ft.float (' ' :: natText (sen.sensors.val (i + 1))) = .ok (sen.sensors.val (i + 1) : ℝ) := by unfold FloatText.float; rw [strip_space, hnat]
      rw [List.mapM_cons, List.mapM_cons, f1, f2]
      rfl
  exact ⟨_, hread, hload⟩

/-- **C87 (sensors).** If the saved solution has sensors and there is a sensor file of output 0, the extra figure shows the flag of
every interior cell at its centroid; without a sensor file of output 0 there is no such figure. -/
theorem C87_sensors (hft : ft.Ok rep) (hnat : ∀ n, ft.parse (natText n) = .ok (n : ℝ)) (h : Savable ft rep lib p s) (h2 : 2 ≤ s.NE) {sen : Sensor ℝ}
    (hs : s.sensors = some sen) (k : ℕ) (fs : Files) :
    ∃ fs', s.printer ft k fs = .ok fs' ∧
      plotSensors ft fs' k = .ok (if k = 0 ∨ fs "sensor0000000000.dat".toList ≠ none then
        some ((List.range s.NE).map fun i => (s.xc.val i, (sen.sensors.val (i + 1) : ℝ))) else none) := by
  have ht : Clean (ft.fmt s.t) := fun c hc => hft.chars _ h.time c hc
  obtain ⟨fs', hp, -, hfile, hrest⟩ := C32_files ft h.cols h.xc h.fields ht.no.1 ⟨h.bcl.no.1, h.bcr.no.1⟩ h.sensors k fs
  refine ⟨fs', hp, ?_⟩
  have hname : "sensor0000000000.dat".toList = nameOf "sensor" 0 := by decide +kernel
  have h0 : fs' (nameOf "sensor" 0) = none ↔ ¬ (k = 0 ∨ fs (nameOf "sensor" 0) ≠ none) := by
    by_cases hk : k = 0
    · subst hk
      rw [hfile sen hs]
      simp
    · rw [hrest]
      · simp [hk]
      · intro f hf he
        have := fname_inj (show NoDigitEnd "sensor".toList by unfold NoDigitEnd; decide) (h.fields.digits f hf) he
        exact h.fields.sensor ((String.ext_iff.mpr this.1) ▸ hf)
      · intro _ he
        exact hk (fname_inj (show NoDigitEnd "sensor".toList by unfold NoDigitEnd; decide) (show NoDigitEnd "sensor".toList by unfold NoDigitEnd; decide) he).2.symm
  unfold plotSensors
  rw [hname]
  by_cases hc : k = 0 ∨ fs (nameOf "sensor" 0) ≠ none
  · rw [if_pos hc]
    obtain ⟨tx, htx⟩ : ∃ tx, fs' (nameOf "sensor" 0) = some tx := Option.ne_none_iff_exists'.mp fun hn => (h0.mp hn) hc
    rw [htx]
    simp only
    obtain ⟨text, hfk, hload⟩ := sensor_loads hft hnat h h2 hs hp
    have hread : fs'.read ("sensor".toList ++ (natTextPad 10 k ++ ".dat".toList)) = .ok text := by
      unfold Files.read
      rw [show fs' ("sensor".toList ++ (natTextPad 10 k ++ ".dat".toList)) = some text from hfk]
    simp only [hread, hload, bind, Except.bind]
    rw [if_neg]
    · rw [List.map_map]
      rfl
    · obtain ⟨m, hm⟩ : ∃ m, s.NE = m + 1 := ⟨s.NE - 1, by omega⟩
      rw [hm, List.range_succ_eq_map, List.map_cons, List.headD_cons]
      simp
      omega
  · rw [if_neg hc, h0.mpr hc]

/-- **C87 (left-over sensor file).** If a sensor file of output 0 is left from an earlier run and the plotted run has no sensors,
the tool ends in an error after the fields. -/
theorem C87_left_over (ft : FloatText ℝ) {fs : Files} {k : ℕ} (h0 : fs "sensor0000000000.dat".toList ≠ none) (hk : fs (nameOf "sensor" k) = none)
    (lib : GaussLib ℝ) (junk : ℕ → ℝ) {system : Str} {figs : List (List Marks)} (hf : plotFields lib ft junk fs system k = .ok figs) :
    plotTool lib ft junk fs system k = .error .ioError := by
  obtain ⟨tx, htx⟩ := Option.ne_none_iff_exists'.mp h0
  have hr : fs.read ("sensor".toList ++ (natTextPad 10 k ++ ".dat".toList)) = .error .ioError := by
    unfold Files.read
    rw [show fs ("sensor".toList ++ (natTextPad 10 k ++ ".dat".toList)) = none from hk]
  unfold plotTool plotSensors
  simp only [hf, htx, hr, bind, Except.bind]

/-- **C87 (whole tool).** After a solution has been saved and its fields plotted: without sensors, and no sensor file of output 0
around, the tool ends there; with sensors and a sensor file of output 0 it adds the figure of the flags. -/
theorem C87_tool (hft : ft.Ok rep) (hnat : ∀ n, ft.parse (natText n) = .ok (n : ℝ)) (h : Savable ft rep lib p s) (h2 : 2 ≤ s.NE) (k : ℕ) (fs : Files) :
    ∃ fs', s.printer ft k fs = .ok fs' ∧ ∀ (junk : ℕ → ℝ) (system : Str) (figs : List (List Marks)), plotFields lib ft junk fs' system k = .ok figs →
      (s.sensors = none → fs "sensor0000000000.dat".toList = none → plotTool lib ft junk fs' system k = .ok (figs, none)) ∧
      (∀ sen, s.sensors = some sen → k = 0 ∨ fs "sensor0000000000.dat".toList ≠ none →
        plotTool lib ft junk fs' system k = .ok (figs, some ((List.range s.NE).map fun i => (s.xc.val i, (sen.sensors.val (i + 1) : ℝ))))) := by
  have ht : Clean (ft.fmt s.t) := fun c hc => hft.chars _ h.time c hc
  obtain ⟨fs', hp, -, -, hrest⟩ := C32_files ft h.cols h.xc h.fields ht.no.1 ⟨h.bcl.no.1, h.bcr.no.1⟩ h.sensors k fs
  refine ⟨fs', hp, fun junk system figs hf => ⟨fun hs h0 => ?_, fun sen hs h0 => ?_⟩⟩
  · have hname : "sensor0000000000.dat".toList = nameOf "sensor" 0 := by decide +kernel
    have : fs' "sensor0000000000.dat".toList = none := by
      rw [hname] at h0 ⊢
      rw [hrest _ ?_ fun hn => absurd hs hn, h0]
      intro f hf he
      have := fname_inj (show NoDigitEnd "sensor".toList by unfold NoDigitEnd; decide) (h.fields.digits f hf) he
      exact h.fields.sensor ((String.ext_iff.mpr this.1) ▸ hf)
    unfold plotTool plotSensors
    simp only [hf, this, bind, Except.bind, pure, Except.pure]
  · obtain ⟨fs'', hp', hse⟩ := C87_sensors hft hnat h h2 hs k fs
    rw [hp] at hp'
    cases hp'
    rw [if_pos h0] at hse
    unfold plotTool
    simp only [hf, hse, bind, Except.bind, pure, Except.pure]

/-- **C87 (nothing to plot).** If the first field has no file for output `k`, the tool ends in an error. -/
theorem C87_missing (lib : GaussLib ℝ) (ft : FloatText ℝ) (junk : ℕ → ℝ) (fs : Files) (system : Str) (k : ℕ)
    (hm : fs (nameOf (if system = "euler".toList then "rho" else "u") k) = none) : plotTool lib ft junk fs system k = .error .ioError := by
  obtain ⟨s0, h0, hkw, -, -⟩ := empty_object lib ft junk system
  have hl : s0.sol.loader lib ft fs k = .error .ioError := by
    by_cases hs : system = "euler".toList
    · rw [if_pos hs] at hm
      refine C33_missing lib ft fs s0.sol k (f := "rho") (l := ["rhou", "E"]) ?_ hm
      rw [hkw]; unfold manipulationFunctions; rw [if_pos hs]; rfl
    · rw [if_neg hs] at hm
      refine C33_missing lib ft fs s0.sol k (f := "u") (l := []) ?_ hm
      rw [hkw]; unfold manipulationFunctions; rw [if_neg hs]; rfl
  unfold plotTool plotFields
  simp only [h0, hl, bind, Except.bind]

/-- **C87 (regressions/plot.py).** For a saved Euler solution whose cell averages are those of states `w e` of non-zero density,
the three figures show, at the centroids, the average density, the velocity of the averages and `0.4/(γ-1)` times their pressure:
the pressure for `γ = 1.4`. -/
theorem C87_averages (hft : ft.Ok rep) (h : Savable ft rep lib p s) (h2 : 2 ≤ s.NE) {γ : ℝ} {riemann : Str}
    (hp : CodePhysics γ "euler".toList riemann s) {w : ℕ → Prim} (hw : ∀ e, 1 ≤ e → e ≤ s.NE → (w e).rho ≠ 0 ∧ ∀ f : Fin 3, cellMean s e f = (w e).cons γ f)
    (junk : ℕ → ℝ) (k : ℕ) (fs : Files) :
    ∃ fs', s.printer ft k fs = .ok fs' ∧ plotAverages lib ft junk fs' k = .ok
      [(List.range s.NE).map fun i => (s.xc.val i, (w (i + 1)).rho), (List.range s.NE).map fun i => (s.xc.val i, (w (i + 1)).v),
       (List.range s.NE).map fun i => (s.xc.val i, 2 / 5 / (γ - 1) * (w (i + 1)).p)] := by
  obtain ⟨s0, h0, hkw, hNF0, -⟩ := empty_object lib ft junk "euler".toList
  have hfl : s0.sol.kw.fields = s.kw.fields := by rw [hkw, hp.kw]; exact (fields_of γ _ riemann).1
  have hnf : s0.sol.NF = s.NF := by rw [hNF0, hp.NF]; exact (fields_of γ _ riemann).2
  obtain ⟨fs', s', r1, r2, -, -, -, -, -, -, rF, rl, rc, -, -, -, ru1, ru2, ru, -⟩ := C33_round_trip hft h h2 k fs hnf hfl
  have hNF := (hp.euler rfl).2
  rw [hNF] at rF ru2 ru
  refine ⟨fs', r1, ?_⟩
  have hc : (s'.u.colSlice ((3 : ℕ) : ℤ) (-((3 : ℕ) : ℤ))).cols = s.NE * 3 := by
    show pyIdx s'.u.cols (-((3 : ℕ) : ℤ)) - pyIdx s'.u.cols ((3 : ℕ) : ℤ) = _
    unfold pyIdx
    rw [if_pos (by norm_num), if_neg (by norm_num), ru2, Int.toNat_natCast]
    omega
  have hlo : pyIdx s'.u.cols ((3 : ℕ) : ℤ) = 3 := by
    unfold pyIdx
    rw [if_neg (by norm_num), ru2, Int.toNat_natCast]
    omega
  have hi : ∀ j : ℕ, j ≤ 2 → pyIdx (s.NE * 3) (j : ℤ) = j := by
    intro j hj
    unfold pyIdx
    rw [if_neg (by omega), Int.toNat_natCast]
    omega
  have i0 : pyIdx (s.NE * 3) 0 = 0 := hi 0 (by omega)
  have i1 : pyIdx (s.NE * 3) 1 = 1 := hi 1 (by omega)
  have i2 : pyIdx (s.NE * 3) 2 = 2 := hi 2 (by omega)
  have il : pyIdx (s.NE * 3) ((s.NE * 3 : ℕ) : ℤ) = s.NE * 3 := by unfold pyIdx; rw [if_neg (by omega), Int.toNat_natCast, min_self]
  have hval : ∀ i < s.NE, ∀ f : Fin 3, (s'.u.colSlice ((3 : ℕ) : ℤ) (-((3 : ℕ) : ℤ))).val 0 ((f : ℕ) + i * 3) = (w (i + 1)).cons γ f := by
    intro i hi f
    rw [← (hw (i + 1) (by omega) (by omega)).2 f, cellMean_eq (by rw [h.rows]; omega)]
    show s'.u.val 0 (pyIdx s'.u.cols ((3 : ℕ) : ℤ) + _) = s.u.val 0 _
    rw [hlo, hNF, ← ru 0 (by omega) (i + 1) (by omega) (by omega) f f.2]
    congr 1
    omega
  unfold plotAverages
  simp only [h0, r2, bind, Except.bind, rF, pure, Except.pure, rl]
  have hrc : ((s'.u.colSlice ((3 : ℕ) : ℤ) (-((3 : ℕ) : ℤ))).colSliceStep 0 ((s'.u.colSlice ((3 : ℕ) : ℤ) (-((3 : ℕ) : ℤ))).cols : ℤ) 3).cols = s.NE := by
    show (pyIdx _ _ - pyIdx _ _ + 3 - 1) / 3 = _
    rw [hc, i0, il]
    omega
  rw [if_neg (by rw [hrc]; simp)]
  simp only [List.map_cons, List.map_nil]
  congr 1
  have hall : ∀ i ∈ List.range s.NE, s'.xc.val i = s.xc.val i ∧
      (s'.u.colSlice ((3 : ℕ) : ℤ) (-((3 : ℕ) : ℤ))).val 0 (0 + i * 3) = (w (i + 1)).rho ∧
      (s'.u.colSlice ((3 : ℕ) : ℤ) (-((3 : ℕ) : ℤ))).val 0 (1 + i * 3) = (w (i + 1)).rho * (w (i + 1)).v ∧
      (s'.u.colSlice ((3 : ℕ) : ℤ) (-((3 : ℕ) : ℤ))).val 0 (2 + i * 3) = (w (i + 1)).energy γ ∧ (w (i + 1)).rho ≠ 0 := by
    intro i hi
    have hi := List.mem_range.mp hi
    exact ⟨rc i hi, hval i hi 0, hval i hi 1, hval i hi 2, (hw (i + 1) (by omega) (by omega)).1⟩
  unfold Arr.zip3 Arr.colSliceStep
  simp only [hc, i0, i1, i2]
  congr 1
  · refine List.map_congr_left fun i hi => ?_
    obtain ⟨a, b, -⟩ := hall i hi
    rw [a, b]
  congr 1
  · refine List.map_congr_left fun i hi => ?_
    obtain ⟨a, b, c, d, e⟩ := hall i hi
    rw [a, b, c, (tool_primitives γ e).1]
  congr 1
  refine List.map_congr_left fun i hi => ?_
  obtain ⟨a, b, c, d, e⟩ := hall i hi
  rw [a, b, c, d, ← (tool_primitives γ e).2]
  congr 1
  ring

/-! ## Concrete cases -/

open Classical in
/-- Texts of the rational numbers, read as real numbers; also plain integers are read. -/
noncomputable def Ex.ratReal : FloatText ℝ where
  fmt x := ratText.fmt (if h : ∃ q : ℚ, x = (q : ℝ) then h.choose else 0)
  parse t := match ratText.parse t with
    | .ok q => .ok (q : ℝ)
    | .error e => match intOf t with
      | some m => .ok (m : ℝ)
      | none => .error e

open Classical in
lemma Ex.ratReal_ok : Ex.ratReal.Ok fun x => ∃ q : ℚ, x = (q : ℝ) where
  round x hx := by
    show (match ratText.parse (ratText.fmt (if h : ∃ q : ℚ, x = (q : ℝ) then h.choose else 0)) with | .ok q => _ | .error e => _) = _
    rw [dif_pos hx, ratText_ok.round _ trivial]
    simp only
    rw [← hx.choose_spec]
  chars x _ := ratText_ok.chars _ trivial
  nonempty x _ := ratText_ok.nonempty _ trivial

lemma Ex.ratReal_nat (n : ℕ) : Ex.ratReal.parse (natText n) = .ok (n : ℝ) := by
  have hc : ∀ c ∈ natText n, (c == '/') = false := by
    intro c hc
    obtain ⟨d, hd, rfl⟩ := mem_natText hc
    clear hc
    revert hd; revert d; decide
  have h : ratText.parse (natText n) = .error .valueError := by
    show (match (natText n).splitOnP (· == '/') with | [a, b] => _ | _ => _) = _
    rw [List.splitOnP_eq_singleton hc]
  show (match ratText.parse (natText n) with | .ok q => _ | .error e => _) = _
  rw [h]
  simp only [intOf_natText]
  rw [Int.cast_natCast]

lemma Ex.solR_savable (p : ℕ) : Savable Ex.ratReal (fun x => ∃ q : ℚ, x = (q : ℝ)) realGauss p (Ex.solR p) where
  basis := rfl
  NF := by norm_num [Ex.solR]
  rows := rfl
  cols := rfl
  xc := rfl
  fields := ⟨rfl, by show ["u"].Nodup; decide, fun f hf => (C31_fields 2 "roe").1 f (List.mem_append_left _ (List.mem_append_left _ hf)), by show "sensor" ∉ ["u"]; decide⟩
  mesh := ⟨0, 3 / 2, by norm_num [Ex.solR], by norm_num [Ex.solR], by norm_num [Ex.solR], fun i _ => by simp [Ex.solR]; ring, fun i _ => by simp [Ex.solR]; ring⟩
  bcl := by show Clean "periodic".toList; unfold Clean; decide
  bcr := by show Clean "periodic".toList; unfold Clean; decide
  time := ⟨0, by norm_num [Ex.solR]⟩
  centroids i _ := ⟨(2 * i + 1) / 4, by simp [Ex.solR]⟩
  values r _ e _ _ g _ := ⟨((e * 1 + g : ℕ) : ℚ) ^ 2 + r, by simp [Ex.solR]⟩
  sensors sen h := by cases h

/-- Three cells of order `p`, saved as output 7 and plotted. -/
example (p : ℕ) : ∃ fs', (Ex.solR p).printer Ex.ratReal 7 (fun _ => none) = .ok fs' ∧
    plotTool realGauss Ex.ratReal (fun _ => 0) fs' "advection".toList 7 =
      .ok (figures (Ex.solR p) ((List.range (p + 1)).map (Ex.solR p).basis.x.val) (fun f e ξ => (cellPoly (Ex.solR p) e f).eval ξ), none) := by
  have hp : CodePhysics (7 / 5) "advection".toList [] (Ex.solR p) :=
    ⟨by unfold manipulationFunctions; rw [if_neg (by decide)]; rfl, by unfold manipulationFunctions; rw [if_neg (by decide)]; rfl⟩
  have h3 : 2 ≤ (Ex.solR p).NE := by norm_num [Ex.solR]
  obtain ⟨fs', h1, h2⟩ := C87_advection Ex.ratReal_ok (realGauss_ok (p + 1) (by omega)).1 (Ex.solR_savable p) h3 hp (by decide) (fun _ => 0) 7 (fun _ => none)
  obtain ⟨fs'', h1', h4⟩ := C87_tool Ex.ratReal_ok Ex.ratReal_nat (Ex.solR_savable p) h3 7 (fun _ => none)
  rw [h1] at h1'
  cases h1'
  exact ⟨fs', h1, (h4 _ _ _ h2).1 rfl rfl⟩

/-- Output 3 without sensors, next to the sensor file of another run. -/
example (p : ℕ) : ∃ fs', (Ex.solR p).printer Ex.ratReal 3 (fun n => if n = "sensor0000000000.dat".toList then some [] else none) = .ok fs' ∧
    plotTool realGauss Ex.ratReal (fun _ => 0) fs' "advection".toList 3 = .error .ioError := by
  have hp : CodePhysics (7 / 5) "advection".toList [] (Ex.solR p) :=
    ⟨by unfold manipulationFunctions; rw [if_neg (by decide)]; rfl, by unfold manipulationFunctions; rw [if_neg (by decide)]; rfl⟩
  have h3 : 2 ≤ (Ex.solR p).NE := by norm_num [Ex.solR]
  have h := Ex.solR_savable p
  have ht : Clean (Ex.ratReal.fmt (Ex.solR p).t) := fun c hc => Ex.ratReal_ok.chars _ h.time c hc
  set fs : Files := fun n => if n = "sensor0000000000.dat".toList then some [] else none with hfs
  obtain ⟨fs', h1, h2⟩ := C87_advection Ex.ratReal_ok (realGauss_ok (p + 1) (by omega)).1 h h3 hp (by decide) (fun _ => 0) 3 fs
  obtain ⟨fs'', h1', -, -, hr⟩ := C32_files Ex.ratReal h.cols h.xc h.fields ht.no.1 ⟨h.bcl.no.1, h.bcr.no.1⟩ h.sensors 3 fs
  rw [h1] at h1'
  cases h1'
  have hk : ∀ k, ∀ f ∈ (Ex.solR p).kw.fields, nameOf "sensor" k ≠ nameOf f 3 := by
    intro k f hf he
    exact h.fields.sensor ((String.ext_iff.mpr (fname_inj (show NoDigitEnd "sensor".toList by unfold NoDigitEnd; decide) (h.fields.digits f hf) he).1) ▸ hf)
  have hname : "sensor0000000000.dat".toList = nameOf "sensor" 0 := by decide +kernel
  refine ⟨fs', h1, C87_left_over _ ?_ ?_ _ _ h2⟩
  · rw [hname, hr _ (hk 0) (fun hn => absurd rfl hn), hfs]
    simp only
    rw [if_pos hname.symm]
    simp
  · rw [hr _ (hk 3) (fun hn => absurd rfl hn), hfs]
    simp only
    rw [if_neg (by decide +kernel)]

/-- Uniform flow, with gamma `γ` in the dictionary. -/
noncomputable def Ex.gasE (p : ℕ) (γ : ℝ) (riemann : Str) : Sol ℝ := { Ex.uniE p riemann with kw := Euler.physics γ (String.ofList riemann) }

lemma Ex.gasE_physics (p : ℕ) (γ : ℝ) (riemann : Str) : CodePhysics γ "euler".toList riemann (Ex.gasE p γ riemann) :=
  ⟨by unfold manipulationFunctions; rw [if_pos rfl]; rfl, by unfold manipulationFunctions; rw [if_pos rfl]; rfl⟩

lemma Ex.gasE_savable (p : ℕ) (γ : ℝ) (riemann : Str) : Savable Ex.ratReal (fun x => ∃ q : ℚ, x = (q : ℝ)) realGauss p (Ex.gasE p γ riemann) :=
  { Ex.solR_savable p with
    NF := by norm_num [Ex.gasE, Ex.uniE]
    cols := rfl
    fields := ⟨rfl, by show ["rho", "rhou", "E"].Nodup; decide, fun f hf => (C31_fields γ (String.ofList riemann)).1 f (List.mem_append_left _ (List.mem_append_right _ hf)),
      by show "sensor" ∉ ["rho", "rhou", "E"]; decide⟩
    values := fun r _ e _ _ g _ => by
      show ∃ q : ℚ, (if r = 0 then (if h : (e * 3 + g) % 3 < 3 then Ex.wB.cons (7 / 5) ⟨(e * 3 + g) % 3, h⟩ else 0) else 0 : ℝ) = q
      split_ifs with h1 h2
      · have : ∀ k : Fin 3, ∃ q : ℚ, Ex.wB.cons (7 / 5) k = q := by
          intro k
          fin_cases k
          · exact ⟨1 / 8, by norm_num [Prim.cons, Ex.wB]⟩
          · exact ⟨1 / 4, by norm_num [Prim.cons, Ex.wB]⟩
          · exact ⟨1 / 2, by norm_num [Prim.cons, Prim.energy, Ex.wB]⟩
        exact this _
      · exact ⟨0, by simp⟩
      · exact ⟨0, by simp⟩
    sensors := fun sen h => by cases h; exact ⟨rfl, by norm_num [Ex.gasE, Ex.uniE, Ex.solR]⟩ }

/-- The state of `Ex.gasE` everywhere. -/
lemma Ex.gasE_state (p : ℕ) (γ : ℝ) (riemann : Str) (e : ℕ) (ξ : ℝ) (f : Fin 3) : (cellPoly (Ex.gasE p γ riemann) e f).eval ξ = Ex.wB.cons (7 / 5) f := by
  unfold cellPoly legSeries
  rw [Polynomial.eval_finsetSum, Finset.sum_eq_single 0]
  · show (C (if (0 : ℕ) = 0 then (oneState (7 / 5) Ex.wB).val ((e * 3 + f) % 3) else 0) * legendre ℝ 0).eval ξ = _
    have : (e * 3 + (f : ℕ)) % 3 = f := by omega
    rw [if_pos rfl, this]
    unfold oneState
    simp only [f.2, dif_pos]
    simp [legendre]
  · intro n _ hn
    show (C (if n = 0 then _ else 0) * legendre ℝ n).eval ξ = _
    rw [if_neg hn]
    simp
  · intro h
    exact absurd (Finset.mem_range.mpr (Nat.succ_pos p)) h

/-- Uniform flow of air, with sensors, plotted from output 0: pressure 1/10 in the third figure, and the flags. -/
example (p : ℕ) (riemann : Str) : ∃ fs', (Ex.gasE p (7 / 5) riemann).printer Ex.ratReal 0 (fun _ => none) = .ok fs' ∧
    plotTool realGauss Ex.ratReal (fun _ => 0) fs' "euler".toList 0 =
      .ok (figures (Ex.gasE p (7 / 5) riemann) ((List.range (p + 1)).map (Ex.gasE p (7 / 5) riemann).basis.x.val) (fun f _ _ => Ex.wB.get f),
        some ((List.range 3).map fun i : ℕ => ((2 * (i : ℝ) + 1) / 4, (0 : ℝ)))) := by
  have h3 : 2 ≤ (Ex.gasE p (7 / 5) riemann).NE := by norm_num [Ex.gasE, Ex.uniE, Ex.solR]
  obtain ⟨fs', h1, h2⟩ := C87_air Ex.ratReal_ok (realGauss_ok (p + 1) (by omega)).1 (Ex.gasE_savable p (7 / 5) riemann) h3 (Ex.gasE_physics p _ riemann) (w := fun _ _ => Ex.wB)
    (fun e _ _ ξ _ => ⟨by norm_num [Ex.wB], Ex.gasE_state p _ riemann e ξ⟩) (fun _ => 0) 0 (fun _ => none)
  obtain ⟨fs'', h1', h4⟩ := C87_tool Ex.ratReal_ok Ex.ratReal_nat (Ex.gasE_savable p (7 / 5) riemann) h3 0 (fun _ => none)
  rw [h1] at h1'
  cases h1'
  refine ⟨fs', h1, ((h4 _ _ _ h2).2 _ rfl (.inl rfl)).trans ?_⟩
  simp [Ex.gasE, Ex.uniE, Ex.solR]

/-- The same data with gamma 3: the pressure at the left end is 1/2, the height of the marker is 1/10. -/
example (p : ℕ) (riemann : Str) : ∃ fs' figs, (Ex.gasE p 3 riemann).printer Ex.ratReal 0 (fun _ => none) = .ok fs' ∧
    plotFields realGauss Ex.ratReal (fun _ => 0) fs' "euler".toList 0 = .ok figs ∧
    ∃ l m, figs[2]? = some l ∧ l[0]? = some m ∧ m.edges[0]? = some (0, (1 / 10 : ℝ)) := by
  have h3 : 2 ≤ (Ex.gasE p 3 riemann).NE := by norm_num [Ex.gasE, Ex.uniE, Ex.solR]
  have hw : ∀ f, Ex.wB.cons (7 / 5) f = (⟨1 / 8, 2, 1 / 2⟩ : Prim).cons 3 f := by
    intro f
    fin_cases f <;> norm_num [Prim.cons, Prim.energy, Ex.wB]
  obtain ⟨fs', figs, h1, h2, h4⟩ := C87_wrong_pressure Ex.ratReal_ok (realGauss_ok (p + 1) (by omega)).1 (Ex.gasE_savable p 3 riemann) h3 (by norm_num) (by norm_num)
    (Ex.gasE_physics p _ riemann) (w := fun _ _ => ⟨1 / 8, 2, 1 / 2⟩)
    (fun e _ _ ξ _ => ⟨by norm_num, fun f => (Ex.gasE_state p _ riemann e ξ f).trans (hw f)⟩) (fun _ => 0) 0 (fun _ => none)
  obtain ⟨l, m, y, b1, b2, b3, -, b4⟩ := h4 0 (by omega) (by norm_num)
  refine ⟨fs', figs, h1, h2, l, m, b1, b2, b3.trans ?_⟩
  rw [b4 rfl]
  norm_num [Ex.gasE, Ex.uniE, Ex.solR]

/-- Uniform flow of air: average pressure 1/10. -/
example (p : ℕ) (riemann : Str) : ∃ fs', (Ex.gasE p (7 / 5) riemann).printer Ex.ratReal 0 (fun _ => none) = .ok fs' ∧
    plotAverages realGauss Ex.ratReal (fun _ => 0) fs' 0 = .ok ([1 / 8, 2, 1 / 10].map fun y => [(1 / 4, y), (3 / 4, y), (5 / 4, y)]) := by
  have h3 : 2 ≤ (Ex.gasE p (7 / 5) riemann).NE := by norm_num [Ex.gasE, Ex.uniE, Ex.solR]
  have hw : ∀ e (f : Fin 3), cellMean (Ex.gasE p (7 / 5) riemann) e f = Ex.wB.cons (7 / 5) f := by
    intro e f
    rw [cellMean_eq (Nat.succ_pos p)]
    show (if (0 : ℕ) = 0 then (oneState (7 / 5) Ex.wB).val ((e * 3 + f) % 3) else 0) = _
    have : (e * 3 + (f : ℕ)) % 3 = f := by omega
    rw [if_pos rfl, this]
    unfold oneState
    simp only [f.2, dif_pos]
  obtain ⟨fs', h1, h2⟩ := C87_averages Ex.ratReal_ok (Ex.gasE_savable p (7 / 5) riemann) h3 (Ex.gasE_physics p _ riemann) (w := fun _ => Ex.wB)
    (fun e _ _ => ⟨by norm_num [Ex.wB], hw e⟩) (fun _ => 0) 0 (fun _ => none)
  refine ⟨fs', h1, h2.trans ?_⟩
  have hr : List.range 3 = [0, 1, 2] := rfl
  norm_num [Ex.gasE, Ex.uniE, Ex.solR, Ex.wB, hr]

/-- An empty directory. -/
example : plotTool realGauss Ex.ratReal (fun _ => 0) (fun _ => none) "euler".toList 0 = .error .ioError := C87_missing _ _ _ _ _ 0 rfl

end Dg1d.Props
