import Verif.Proofs.Construct
import Verif.Proofs.Gauss
import Verif.Spec.Mesh

/-! # Constructing a solution (C26, C29, C30, C67) -/

open Dg1d.Spec

namespace Dg1d.Props
open Text

/-- **C26.** With `N ≥ 1` cells `setup_common_ic` makes a uniform mesh, interior columns equal to the projections of `f`,
zero ghost columns, and `scaled_minv[n] = (2n+1)/dx`. -/
theorem C26_mesh {s : Partial} {p : ℕ} {lib : GaussLib ℝ} (hb : s.sol.basis = Basis.init lib p) {p0 : Str} {rest : List Str}
    {N : ℕ} (hN : intOf p0 = some (N : ℤ)) (h0 : 0 < N) {f : ℝ → List ℝ} (hf : ∀ y, s.sol.NF ≤ (f y).length) (A B : ℝ) :
    ∃ s', setupCommonIc s (p0 :: rest) f A B = (s', none) ∧ s'.nE = N ∧ s'.sol.NE = N ∧ s'.sol.x.len = N + 1 ∧ s'.sol.xc.len = N ∧
      IsUniformMesh A B N s'.sol.x.val s'.sol.xc.val s'.sol.dx ∧
      (∀ n < p + 1, s'.sol.scaledMinv.val n = (2 * (n : ℝ) + 1) / s'.sol.dx) ∧ s'.sol.scaledMinv.len = p + 1 ∧
      s'.sol.u.rows = p + 1 ∧ s'.sol.u.cols = (N + 2) * s.sol.NF ∧
      (∀ e < N, ∀ g < s.sol.NF, ∃ c, s'.sol.basis.projection (s'.sol.x.val e) (s'.sol.x.val (e + 1)) f g = .ok c ∧
        ∀ r, s'.sol.u.val r ((e + 1) * s.sol.NF + g) = c.val r) ∧
      (∀ g < s.sol.NF, ∀ r, s'.sol.u.val r g = 0 ∧ s'.sol.u.val r ((N + 1) * s.sol.NF + g) = 0) ∧
      s'.sol.basis = s.sol.basis ∧ s'.sol.NF = s.sol.NF ∧ s'.sol.kw = s.sol.kw ∧ s'.sol.bcl = s.sol.bcl ∧ s'.sol.bcr = s.sol.bcr ∧
      s'.sol.t = s.sol.t ∧ s'.sol.n = s.sol.n ∧ s'.gamma = s.gamma ∧ s'.sol.enhance = s.sol.enhance ∧ s'.sol.sensors = s.sol.sensors := by
  obtain ⟨u, c, h1, h2, h3, h4, h5, h6, h7⟩ := setup_ok hb (rest := rest) hN h0 hf A B
  have hN0 : (N : ℝ) ≠ 0 := Nat.cast_ne_zero.mpr (by omega)
  refine ⟨_, h1, rfl, rfl, rfl, (centroids_val h0).1, ⟨?_, ?_, rfl, ?_, (centroids_val h0).2⟩, ?_, rfl, h2, h3, ?_, ?_, rfl, rfl, rfl, rfl, rfl,
    rfl, rfl, rfl, rfl, rfl⟩
  · show (linspace A B (N + 1)).val 0 = A
    rw [linspace_mesh h0]; simp
  · show (linspace A B (N + 1)).val N = B
    rw [linspace_mesh h0]; field_simp; ring
  · intro i _
    show (linspace A B (N + 1)).val (i + 1) - (linspace A B (N + 1)).val i = (B - A) / N
    rw [linspace_mesh h0, linspace_mesh h0]; push_cast; ring
  · intro n _
    show (2 * (n : ℝ) + 1) / 2 * 2 / ((B - A) / N) = _
    rw [div_mul_cancel₀ _ (two_ne_zero)]
  · intro e he g hg
    refine ⟨c e g, ?_, h5 e he g hg⟩
    show s.sol.basis.projection _ _ f g = _
    rw [hb]
    exact h4 e he g hg
  · exact fun g hg r => ⟨h6 g hg r, h7 g hg r⟩

/-- The enhancement line gives vectors of the right length: no enhancement, or one with modes up to the order. -/
def EnhanceFits (lib : GaussLib ℝ) (p : ℕ) (line : Str) : Prop :=
  ∃ en, enhancementOf lib p line = .ok en ∧ ∀ e, en = some e →
    e.alphaL.len = p + 1 ∧ e.alphaR.len = p + 1 ∧ e.betaL.len = p + 1 ∧ e.betaR.len = p + 1

/-- **C67.** A deck naming an initial condition that fits the system, with at least one cell, constructs without error; the
solution is well formed (`Built`), on a uniform mesh, with the boundary names of the initial condition, clock at zero,
sensors of length `N_E + 2` when there are thresholds, and the dictionary of the system at the final gamma. -/
theorem C67_construct {lib : GaussLib ℝ} (hlib : lib.Ok) {ft : FloatText ℝ} (junk : ℕ → ℝ) {icline system riemann enhLine : Str} {p : ℕ}
    {th : List ℝ} {name p0 : Str} {rest : List Str} {N : ℕ} {ic : IC.Setup} (hs : split icline = name :: p0 :: rest)
    (hN : intOf p0 = some (N : ℤ)) (h0 : 0 < N) (hic : setupOf ft name (p0 :: rest) = some ic)
    (hsys : system = "euler".toList → name ≠ "sinewave".toList ∧ name ≠ "ictest".toList) (hen : EnhanceFits lib p enhLine) :
    ∃ s, construct lib ft junk icline system p riemann enhLine th = .ok s ∧ s.sol.Built lib p ∧ s.nE = N ∧ s.sol.NE = N ∧
      s.sol.NF = (if system = "euler".toList then 3 else 1) ∧ s.gamma = ic.gamma.getD (7 / 5) ∧
      s.sol.kw = (manipulationFunctions s.gamma system riemann).1 ∧ s.sol.bcl = .lit ic.bc ∧ s.sol.bcr = .lit ic.bc ∧
      s.sol.t = 0 ∧ s.sol.n = 0 ∧ s.sol.x.len = N + 1 ∧ s.sol.xc.len = N ∧
      IsUniformMesh ic.A ic.B N s.sol.x.val s.sol.xc.val s.sol.dx ∧
      (∀ e < N, ∀ g < s.sol.NF, ∃ c, s.sol.basis.projection (s.sol.x.val e) (s.sol.x.val (e + 1)) (ic.f s.gamma) g = .ok c ∧
        ∀ r, s.sol.u.val r ((e + 1) * s.sol.NF + g) = c.val r) ∧
      (th = [] → s.sol.sensors = none) ∧ (th ≠ [] → s.sol.sensors = some ⟨th, ⟨N + 2, fun _ => 0⟩⟩) ∧
      enhancementOf lib p enhLine = .ok s.sol.enhance := by
  obtain ⟨hAB, -, hf1, hf3, -, -⟩ := setupOf_facts hic
  obtain ⟨en, he1, he2⟩ := hen
  set γ := ic.gamma.getD (7 / 5) with hγ
  set s0 : Partial := emptySolution lib junk system p riemann with hs0
  set s1 : Partial := { s0 with gamma := γ, sol := { s0.sol with kw := (manipulationFunctions γ system riemann).1, bcl := .lit ic.bc, bcr := .lit ic.bc } } with hs1
  have hNF : s1.sol.NF = if system = "euler".toList then 3 else 1 := manipulation_NF _ _ _
  have hlen : ∀ y, s1.sol.NF ≤ (ic.f γ y).length := by
    intro y
    rw [hNF]
    split
    · rename_i h
      rw [hf3 (hsys h).1 (hsys h).2]
    · exact hf1 γ y
  obtain ⟨s', g1, g2, g3, g4, g5, g6, g7, g8, g9, g10, g11, g12, g13, g14, g15, g16, g17, g18, g19, g20, g21, g22⟩ :=
    C26_mesh (s := s1) (lib := lib) (p := p) rfl (rest := rest) hN h0 hlen ic.A ic.B
  have hcall : callKeyword ft system riemann s0 name (p0 :: rest) = (s', none) := by
    rw [call_setup hic]; exact g1
  obtain ⟨sn, hsn1, hsn2, hsn3⟩ : ∃ sn, sensorsOf th s'.nE = .ok sn ∧ (th = [] → sn = none) ∧ (th ≠ [] → sn = some ⟨th, ⟨N + 2, fun _ => 0⟩⟩) := by
    unfold sensorsOf
    by_cases hth : th = []
    · exact ⟨none, if_pos hth, fun _ => rfl, fun h => absurd hth h⟩
    · refine ⟨_, by rw [if_neg hth, if_neg (by omega)], fun h => absurd h hth, fun _ => ?_⟩
      rw [g2, show ((N : ℤ) + 2).toNat = N + 2 by omega]
      rfl
  have hdx : s'.sol.dx ≠ 0 := by
    rw [g6.width]
    have : (N : ℝ) ≠ 0 := Nat.cast_ne_zero.mpr (by omega)
    exact div_ne_zero (by linarith) this
  refine ⟨{ s' with sol := { s'.sol with enhance := en, sensors := sn } }, ?_, ?_, g2, g3, g14.trans hNF, g20, ?_, g16, g17, g18, g19, g4, g5, g6, ?_, hsn2, hsn3, he1⟩
  · unfold construct
    rw [if_neg (by omega), hs]
    simp only [Int.toNat_natCast, ← hs0, hcall]
    unfold finishConstruct
    simp only [he1, hsn1]
  · have hpos : 0 < s1.sol.NF := by rw [hNF]; split <;> norm_num
    exact
      { nodes := (hlib (p + 1) (by omega)).1
        gauss := (hlib (p + 1) (by omega)).2.2
        basis := g13
        NF := by show 0 < s'.sol.NF; rw [g14]; exact hpos
        NE := by show 0 < s'.sol.NE; rw [g3]; exact h0
        rows := g9
        cols := by show s'.sol.u.cols = (s'.sol.NE + 2) * s'.sol.NF; rw [g3, g14]; exact g10
        dx := hdx
        minv := g7
        enh := he2 }
  · show s'.sol.kw = (manipulationFunctions s'.gamma system riemann).1
    rw [g20, g15]
  · intro e he g hg
    have hg' : g < s'.sol.NF := hg
    rw [g14] at hg'
    obtain ⟨c, c1, c2⟩ := g11 e he g hg'
    refine ⟨c, ?_, ?_⟩
    · show s'.sol.basis.projection _ _ (ic.f s'.gamma) g = _
      rw [g20]; exact c1
    · show ∀ r, s'.sol.u.val r ((e + 1) * s'.sol.NF + g) = c.val r
      rw [g14]; exact c2

/-- No enhancement fits. -/
theorem C67_no_enhancement (lib : GaussLib ℝ) (p : ℕ) : EnhanceFits lib p [] :=
  ⟨none, rfl, fun e h => by cases h⟩

/-- An enhancement line with modes up to the order fits as soon as its matrices are invertible. -/
theorem C67_enhancement {lib : GaussLib ℝ} {p : ℕ} {line w : Str} {words : List Str} {modes : List ℤ} {e : Enhance ℝ} (hl : line ≠ [])
    (h1 : split line = w :: words) (h2 : words.mapM (fun w => (intOf w : Option ℤ)) = some modes) (h3 : Enhance.init lib p modes = .ok e)
    (h4 : ∀ m ∈ modes, m ≤ p) : EnhanceFits lib p line := by
  refine ⟨some e, ?_, fun e' he' => ?_⟩
  · unfold enhancementOf
    rw [if_neg hl, h1]
    simp only
    rw [h2]
    simp only
    rw [h3]
    rfl
  · cases he'
    obtain ⟨l1, l2, l3, l4⟩ := C62_lengths h3
    exact ⟨l1, l3.mpr h4, l4.mpr h4, l2⟩

/-! ### C30 -/

/-- A solution without cells. -/
def HasNoCells (s : Partial) : Prop := s.nE = 0 ∧ s.sol.NE = 0 ∧ s.sol.u.cols = 0 ∧ s.sol.xc.len = 0

/-- **C30 (partial: which lines construct).** With no enhancement and no thresholds, every line whose first word is not
`scktube` constructs without raising, whatever its words are, unless it is blank or the order is negative. Missing from
the claim as stated: the result need not be empty (`C30_half_built`), and `scktube` and blank lines do raise
(`C30_shock_tube_exits`, `C30_blank_line_raises`). -/
theorem C30_never_raises_partial (lib : GaussLib ℝ) (ft : FloatText ℝ) (junk : ℕ → ℝ) {icline : Str} (system riemann : Str) (p : ℕ)
    {name : Str} {params : List Str} (hs : split icline = name :: params) (hn : name ≠ "scktube".toList) :
    ∃ s, construct lib ft junk icline system p riemann [] [] = .ok s := by
  have hcall := (call_any ft system riemann (emptySolution lib junk system p riemann) rfl name params).2 hn
  have hfin : ∀ s, finishConstruct lib p [] [] s = .ok { s with sol := { s.sol with enhance := none, sensors := none } } := fun _ => rfl
  unfold construct
  rw [if_neg (by omega), hs]
  simp only [Int.toNat_natCast]
  rcases hr : (callKeyword ft system riemann (emptySolution lib junk system p riemann) name params).2 with _ | e
  · exact ⟨_, hfin _⟩
  · simp only
    rw [if_pos (hcall e hr)]
    exact ⟨_, hfin _⟩

/-- **C30 (unknown name).** A name that is not in the dictionary gives an empty solution. -/
theorem C30_unknown_name (lib : GaussLib ℝ) (ft : FloatText ℝ) (junk : ℕ → ℝ) {icline : Str} (system riemann : Str) (p : ℕ)
    {name : Str} {params : List Str} (hs : split icline = name :: params)
    (hn : name ∉ ["sinewave", "simplew", "entrpyw", "acsticw", "scktube", "shuoshe", "ictest"].map String.toList) :
    ∃ s, construct lib ft junk icline system p riemann [] [] = .ok s ∧ HasNoCells s := by
  have hfin : ∀ s, finishConstruct lib p [] [] s = .ok { s with sol := { s.sol with enhance := none, sensors := none } } := fun _ => rfl
  have hcall : ∃ e, callKeyword ft system riemann (emptySolution lib junk system p riemann) name params = (emptySolution lib junk system p riemann, e) ∧
      ∀ er, e = some er → er.isException = true := by
    simp only [List.map_cons, List.map_nil, List.mem_cons, List.not_mem_nil, or_false, not_or] at hn
    obtain ⟨n1, n2, n3, n4, n5, n6, n7⟩ := hn
    unfold callKeyword
    rw [if_neg n1, if_neg n2, if_neg n3, if_neg n4, if_neg n5, if_neg n6, if_neg n7]
    split
    · exact ⟨_, rfl, fun er h => by cases h⟩
    · split
      · exact ⟨_, rfl, fun er h => by cases h; rfl⟩
      · exact ⟨_, rfl, fun er h => by cases h; rfl⟩
  obtain ⟨e, hc, hex⟩ := hcall
  unfold construct
  rw [if_neg (by omega), hs]
  simp only [Int.toNat_natCast, hc]
  cases e with
  | none => exact ⟨_, hfin _, rfl, rfl, rfl, rfl⟩
  | some er =>
    simp only
    rw [if_pos (hex er rfl)]
    exact ⟨_, hfin _, rfl, rfl, rfl, rfl⟩

/-- **C30 (missing or unreadable cell count).** A known initial condition whose number of cells is missing or is not an
integer gives an empty solution with the boundary names of that initial condition. -/
theorem C30_bad_count (lib : GaussLib ℝ) (ft : FloatText ℝ) (junk : ℕ → ℝ) {icline : Str} (system riemann : Str) (p : ℕ)
    {name : Str} {params : List Str} {ic : IC.Setup} (hs : split icline = name :: params) (hic : setupOf ft name params = some ic)
    (hN : params.head?.bind intOf = none) :
    ∃ s, construct lib ft junk icline system p riemann [] [] = .ok s ∧ HasNoCells s ∧ s.sol.bcl = .lit ic.bc ∧ s.sol.bcr = .lit ic.bc := by
  have hcall : ∃ s e, callKeyword ft system riemann (emptySolution lib junk system p riemann) name params = (s, some e) ∧ e.isException = true ∧
      HasNoCells s ∧ s.sol.bcl = .lit ic.bc ∧ s.sol.bcr = .lit ic.bc := by
    rw [call_setup hic]
    unfold runSetup setupCommonIc
    rcases params with _ | ⟨p0, rest⟩
    · exact ⟨_, _, rfl, rfl, ⟨rfl, rfl, rfl, rfl⟩, rfl, rfl⟩
    · have : intOf p0 = none := hN
      simp only [this]
      exact ⟨_, _, rfl, rfl, ⟨rfl, rfl, rfl, rfl⟩, rfl, rfl⟩
  obtain ⟨s, e, hc, hex, hno, hb1, hb2⟩ := hcall
  refine ⟨{ s with sol := { s.sol with enhance := none, sensors := none } }, ?_, hno, hb1, hb2⟩
  unfold construct
  rw [if_neg (by omega), hs]
  simp only [Int.toNat_natCast, hc]
  rw [if_pos hex]
  rfl

/-- **C30 (counterexample).** The sine wave under the Euler system: the failure is swallowed and what is left is not
empty but half built, `N` cells without ghost columns. -/
theorem C30_half_built {lib : GaussLib ℝ} (hlib : lib.Ok) (ft : FloatText ℝ) (junk : ℕ → ℝ) {icline : Str} (riemann : Str) (p : ℕ)
    {p0 : Str} {rest : List Str} {N : ℕ} (hs : split icline = "sinewave".toList :: p0 :: rest) (hN : intOf p0 = some (N : ℤ)) (h0 : 0 < N) :
    ∃ s, construct lib ft junk icline "euler".toList p riemann [] [] = .ok s ∧ s.nE = N ∧ s.sol.NF = 3 ∧ s.sol.u.cols = N * 3 ∧
      s.sol.bcl = .lit "periodic" ∧ ¬ HasNoCells s := by
  have hfin : ∀ s, finishConstruct lib p [] [] s = .ok { s with sol := { s.sol with enhance := none, sensors := none } } := fun _ => rfl
  have herr : (Basis.init lib p).projection ((linspace (-1 : ℝ) 1 (N + 1)).val 0) ((linspace (-1 : ℝ) 1 (N + 1)).val 1)
      (IC.sinewave.f (7 / 5)) 1 = .error .indexError :=
    C24_projection_missing_component lib p (hlib (p + 1) (by omega)).1 _ _ _ 1 0 (by omega) (by simp [IC.sinewave])
  have hcall : ∃ s, callKeyword ft "euler".toList riemann (emptySolution lib junk "euler".toList p riemann) "sinewave".toList (p0 :: rest) =
      (s, some .indexError) ∧ s.nE = N ∧ s.sol.NF = 3 ∧ s.sol.u.cols = N * 3 ∧ s.sol.bcl = .lit "periodic" := by
    rw [call_setup (ic := IC.sinewave) (by unfold setupOf; rw [if_pos rfl])]
    have hNF : (emptySolution lib junk "euler".toList p riemann).sol.NF = 3 := by
      show (manipulationFunctions _ _ _).2 = 3
      rw [manipulation_NF, if_pos rfl]
    unfold runSetup
    obtain ⟨s, e1, e2, -, e4, e5, e6⟩ := setup_stops
      (s := { emptySolution lib junk "euler".toList p riemann with gamma := 7 / 5, sol := { (emptySolution lib junk "euler".toList p riemann).sol with kw := (manipulationFunctions (7 / 5) "euler".toList riemann).1, bcl := .lit "periodic", bcr := .lit "periodic" } })
      (rest := rest) hN (f := IC.sinewave.f (7 / 5)) (A := -1) (B := 1)
      ⟨(0, 1), mem_populateOrder.mpr ⟨h0, by show 1 < (emptySolution lib junk "euler".toList p riemann).sol.NF; rw [hNF]; norm_num⟩, _, herr⟩
    exact ⟨s, e1, e2, by rw [e4]; exact hNF, by rw [e5]; exact congrArg _ hNF, e6⟩
  obtain ⟨s, hc, c1, c2, c3, c4⟩ := hcall
  refine ⟨{ s with sol := { s.sol with enhance := none, sensors := none } }, ?_, c1, c2, c3, c4, ?_⟩
  · unfold construct
    rw [if_neg (by omega), hs]
    simp only [Int.toNat_natCast, hc]
    rfl
  · intro h
    have := h.1
    rw [c1] at this
    omega

/-- **C30 (shock tube).** With the wrong number of parameters the process exits from inside the constructor. -/
theorem C30_shock_tube_exits (lib : GaussLib ℝ) (ft : FloatText ℝ) (junk : ℕ → ℝ) {icline : Str} (system riemann enhLine : Str) (p : ℕ)
    (th : List ℝ) {params : List Str} (hs : split icline = "scktube".toList :: params) (hl : params.length ≠ 8) :
    construct lib ft junk icline system p riemann enhLine th = .error (.sysExit "Not enough input conditions in the deck. Exiting") := by
  have hc : ∀ s, callKeyword ft system riemann s "scktube".toList params = runScktube ft system riemann s params := by
    intro s
    unfold callKeyword
    rw [if_neg (by decide), if_neg (by decide), if_neg (by decide), if_neg (by decide), if_pos rfl]
  unfold construct
  rw [if_neg (by omega), hs]
  simp only [hc]
  unfold runScktube
  rw [if_pos hl]
  rfl

/-- **C30 (blank line).** The first word is taken outside the `try`. -/
theorem C30_blank_line_raises (lib : GaussLib ℝ) (ft : FloatText ℝ) (junk : ℕ → ℝ) {icline : Str} (system riemann enhLine : Str) (p : ℕ)
    (th : List ℝ) (hs : split icline = []) : construct lib ft junk icline system p riemann enhLine th = .error .indexError := by
  unfold construct
  rw [if_neg (by omega), hs]

/-- **C30 (negative number of cells).** `N_E` keeps the negative number; with sensor thresholds and fewer than -2 cells the
constructor raises after all. -/
theorem C30_negative_cells (lib : GaussLib ℝ) (ft : FloatText ℝ) (junk : ℕ → ℝ) {icline : Str} (system riemann : Str) (p : ℕ)
    {name p0 : Str} {rest : List Str} {N : ℤ} {ic : IC.Setup} (hs : split icline = name :: p0 :: rest) (hic : setupOf ft name (p0 :: rest) = some ic)
    (hN : intOf p0 = some N) (hneg : N < 0) :
    (∃ s, construct lib ft junk icline system p riemann [] [] = .ok s ∧ s.nE = N ∧ s.sol.NE = 0 ∧ s.sol.u.cols = 0) ∧
    ∀ th, th ≠ [] → N < -2 → construct lib ft junk icline system p riemann [] th = .error .valueError := by
  have hcall : ∃ s, callKeyword ft system riemann (emptySolution lib junk system p riemann) name (p0 :: rest) = (s, some .valueError) ∧
      s.nE = N ∧ s.sol.NE = 0 ∧ s.sol.u.cols = 0 := by
    rw [call_setup hic]
    unfold runSetup setupCommonIc
    simp only [hN]
    by_cases h1 : N + 1 < 0
    · rw [if_pos h1]
      exact ⟨_, rfl, rfl, Int.toNat_of_nonpos hneg.le, rfl⟩
    · rw [if_neg h1, if_pos hneg]
      exact ⟨_, rfl, rfl, Int.toNat_of_nonpos hneg.le, rfl⟩
  obtain ⟨s, hc, c1, c2, c3⟩ := hcall
  constructor
  · refine ⟨{ s with sol := { s.sol with enhance := none, sensors := none } }, ?_, c1, c2, c3⟩
    unfold construct
    rw [if_neg (by omega), hs]
    simp only [Int.toNat_natCast, hc]
    rfl
  · intro th hth hN2
    unfold construct
    rw [if_neg (by omega), hs]
    simp only [Int.toNat_natCast, hc]
    show finishConstruct lib p [] th s = _
    unfold finishConstruct sensorsOf
    rw [if_neg hth, c1, if_pos (by omega)]
    rfl

/-! ### C29 -/

/-- **C29 (what is true).** Gamma after a successful construction depends only on whether it was `simplew`: so as long as
constructions agree in that, and for linear advection always, the dictionary of an existing solution (with its fluxes,
wave speeds and sensors, which read the global when called) stays what it was. -/
theorem C29_independent_partial {lib lib' : GaussLib ℝ} {ft ft' : FloatText ℝ} {junk junk' : ℕ → ℝ} {icline icline' system system' riemann riemann' enh enh' : Str}
    {order order' : ℤ} {th th' : List ℝ} {s s' : Partial} (h : construct lib ft junk icline system order riemann enh th = .ok s)
    (h' : construct lib' ft' junk' icline' system' order' riemann' enh' th' = .ok s') :
    (s.gamma = if (split icline).head? = some "simplew".toList then 3 else 7 / 5) ∧
    (((split icline).head? = some "simplew".toList ↔ (split icline').head? = some "simplew".toList) ∨ system ≠ "euler".toList →
      manipulationFunctions s'.gamma system riemann = manipulationFunctions s.gamma system riemann) := by
  have key : ∀ {lib : GaussLib ℝ} {ft : FloatText ℝ} {junk : ℕ → ℝ} {icline system riemann enh : Str} {order : ℤ} {th : List ℝ} {s : Partial},
      construct lib ft junk icline system order riemann enh th = .ok s →
      s.gamma = if (split icline).head? = some "simplew".toList then 3 else 7 / 5 := by
    intro lib ft junk icline system riemann enh order th s h
    obtain ⟨-, name, params, hsp, hfin⟩ := construct_form h
    obtain ⟨en, sn, rfl⟩ := finish_form hfin
    rw [hsp]
    have := (call_any ft system riemann (emptySolution lib junk system order.toNat riemann) rfl name params).1
    simp only [List.head?_cons, Option.some.injEq]
    exact this
  refine ⟨key h, ?_⟩
  rintro (hiff | hadv)
  · rw [key h, key h']
    by_cases hc : (split icline).head? = some "simplew".toList
    · rw [if_pos hc, if_pos (hiff.mp hc)]
    · rw [if_neg hc, if_neg (fun hh => hc (hiff.mpr hh))]
  · unfold manipulationFunctions
    rw [if_neg hadv, if_neg hadv]

/-- **C29 (counterexample).** An Euler solution, then a `simplew` solution in the same process: the flux of the first one
is not what it was. (Momentum flux, i.e. pressure, of the state `(1, 0, 1)`: 0.4 before, 2 after.) -/
theorem C29_shared_gamma {lib : GaussLib ℝ} (hlib : lib.Ok) (ft : FloatText ℝ) (junk : ℕ → ℝ) (riemann : Str) (p : ℕ) :
    ∃ s s' : Partial, construct lib ft junk "entrpyw 10".toList "euler".toList p riemann [] [] = .ok s ∧
      construct lib ft junk "simplew 10".toList "euler".toList p riemann [] [] = .ok s' ∧
      ∃ ug : Arr ℝ, ((manipulationFunctions s'.gamma "euler".toList riemann).1.interiorFlux ug).val 0 1 ≠ (s.sol.kw.interiorFlux ug).val 0 1 := by
  obtain ⟨s, hs, -, -, -, -, hg, hk, -⟩ := C67_construct (ft := ft) hlib junk (icline := "entrpyw 10".toList) (system := "euler".toList) (riemann := riemann)
    (th := []) (p := p) (name := "entrpyw".toList) (p0 := "10".toList) (rest := []) (N := 10) (ic := IC.entrpyw) (by decide) (by decide) (by norm_num)
    (by unfold setupOf; rw [if_neg (by decide), if_neg (by decide), if_pos rfl]) (by decide) (C67_no_enhancement lib p)
  obtain ⟨s', hs', -, -, -, -, hg', -⟩ := C67_construct (ft := ft) hlib junk (icline := "simplew 10".toList) (system := "euler".toList) (riemann := riemann)
    (th := []) (p := p) (name := "simplew".toList) (p0 := "10".toList) (rest := []) (N := 10) (ic := IC.simplew) (by decide) (by decide) (by norm_num)
    (by unfold setupOf; rw [if_neg (by decide), if_pos rfl]) (by decide) (C67_no_enhancement lib p)
  refine ⟨s, s', hs, hs', ⟨1, 3, fun _ c => if c = 1 then 0 else 1⟩, ?_⟩
  rw [hk, hg, hg']
  simp only [manipulationFunctions, if_true, Euler.physics, Euler.interiorFlux, IC.entrpyw, IC.simplew, Option.getD]
  norm_num [Euler.flux1, Euler.St.p, Euler.St.v, Euler.stateAt, Euler.ofStates, interleave3]

/-! ### Concrete cases -/

/-- The default deck of deck.py: `sinewave 10`-style line, order 1, no enhancement. -/
example (ft : FloatText ℝ) : ∃ s, construct realGauss ft (fun _ => 0) "sinewave 10".toList "advection".toList 1 "roe".toList [] [] = .ok s ∧
    s.sol.Built realGauss 1 ∧ s.sol.dx = 1 / 5 := by
  obtain ⟨s, h1, h2, h3, h4, h5, h6, h7, h8, h9, h10, h11, h12, h13, h14, h15⟩ := C67_construct (ft := ft) realGauss_ok (fun _ => 0)
    (icline := "sinewave 10".toList) (system := "advection".toList) (riemann := "roe".toList)
    (th := []) (p := 1) (name := "sinewave".toList) (p0 := "10".toList) (rest := []) (N := 10) (ic := IC.sinewave) (by decide) (by decide) (by norm_num)
    (by unfold setupOf; rw [if_pos rfl]) (by decide) (C67_no_enhancement realGauss 1)
  exact ⟨s, h1, h2, by rw [h14.width]; norm_num [IC.sinewave]⟩

example : split "sinewave 10".toList = ["sinewave".toList, "10".toList] ∧ intOf "10".toList = some ((10 : ℕ) : ℤ) ∧
    split "  ".toList = [] ∧ intOf "-3".toList = some (-3) := by decide

example (ft : FloatText ℝ) : ∃ s, construct realGauss ft (fun _ => 0) "sinewav 10".toList "euler".toList (1 : ℕ) "roe".toList [] [] = .ok s ∧ HasNoCells s :=
  C30_unknown_name realGauss ft _ _ _ 1 (name := "sinewav".toList) (params := ["10".toList]) (by decide) (by decide)

example (ft : FloatText ℝ) : ∃ s, construct realGauss ft (fun _ => 0) "entrpyw ten".toList "euler".toList (1 : ℕ) "roe".toList [] [] = .ok s ∧ HasNoCells s ∧
    s.sol.bcl = .lit "periodic" ∧ s.sol.bcr = .lit "periodic" :=
  C30_bad_count realGauss ft _ _ _ 1 (name := "entrpyw".toList) (params := ["ten".toList]) (ic := IC.entrpyw) (by decide)
    (by unfold setupOf; rw [if_neg (by decide), if_neg (by decide), if_pos rfl]) (by decide)

example (ft : FloatText ℝ) : ∃ s, construct realGauss ft (fun _ => 0) "sinewave 10".toList "euler".toList (2 : ℕ) "roe".toList [] [] = .ok s ∧ s.nE = 10 ∧
    s.sol.NF = 3 ∧ s.sol.u.cols = 30 ∧ s.sol.bcl = .lit "periodic" ∧ ¬ HasNoCells s :=
  C30_half_built realGauss_ok ft _ _ 2 (p0 := "10".toList) (rest := []) (N := 10) (by decide) (by decide) (by norm_num)

example (ft : FloatText ℝ) : construct realGauss ft (fun _ => 0) "scktube 10 0.5".toList "euler".toList (1 : ℕ) "roe".toList [] [1] =
    .error (.sysExit "Not enough input conditions in the deck. Exiting") :=
  C30_shock_tube_exits realGauss ft _ _ _ _ 1 _ (params := ["10".toList, "0.5".toList]) (by decide) (by decide)

example (ft : FloatText ℝ) : construct realGauss ft (fun _ => 0) "sinewave -3".toList "advection".toList (1 : ℕ) "roe".toList [] [1] = .error .valueError :=
  (C30_negative_cells realGauss ft _ _ _ 1 (name := "sinewave".toList) (p0 := "-3".toList) (rest := []) (N := -3) (ic := IC.sinewave) (by decide)
    (by unfold setupOf; rw [if_pos rfl]) (by decide) (by norm_num)).2 _ (by simp) (by norm_num)

/-- The mesh of a fresh advection object on [-1, 1] with 4 cells. -/
example (f : ℝ → List ℝ) (hf : ∀ y, (f y).length = 1) : ∃ s', setupCommonIc (emptySolution realGauss (fun _ => 0) "advection".toList 3 [])
    ["4".toList] f (-1) 1 = (s', none) ∧ s'.sol.scaledMinv.val 2 = 10 := by
  obtain ⟨s', h1, -, -, -, -, h6, h7, -⟩ := C26_mesh (lib := realGauss) (p := 3)
    (s := emptySolution realGauss (fun _ => 0) "advection".toList 3 []) rfl (p0 := "4".toList) (rest := []) (N := 4) (by decide) (by norm_num)
    (f := f) (fun y => by rw [hf]; exact (manipulation_NF _ _ _).le.trans (by rw [if_neg (by decide)])) (-1) 1
  refine ⟨s', h1, ?_⟩
  rw [h7 2 (by norm_num), h6.width]
  norm_num

end Dg1d.Props
