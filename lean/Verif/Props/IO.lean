import Verif.Proofs.IO
import Verif.Props.ExamplesReal
import Verif.Proofs.Runs
import Verif.Model.Euler

/-! # Output files (C31 – C34) -/

open Dg1d.Spec

namespace Dg1d.Props
open Text

variable {K : Type}

/-- A field name does not end in a digit. -/
def NoDigitEnd (f : Str) : Prop := ∀ c, f.getLast? = some c → isDigit c = false

/-- **C31.** Different (field, output number) pairs get different names, for every output number. -/
theorem C31_names {f g : Str} {m n : ℕ} (hf : NoDigitEnd f) (hg : NoDigitEnd g) (h : formatFnames m [f] = formatFnames n [g]) : f = g ∧ m = n := by
  unfold formatFnames at h
  exact fname_inj hf hg (List.cons.inj h).1

/-- **C31 (the fields of the code).** The fields of both systems, and the sensor file. -/
theorem C31_fields (γ : ℝ) (riemann : String) : (∀ f ∈ (Advection.physics : Physics ℝ).fields ++ (Euler.physics γ riemann).fields ++ ["sensor"], NoDigitEnd f.toList) ∧
    ((Advection.physics : Physics ℝ).fields ++ (Euler.physics γ riemann).fields ++ ["sensor"]).Nodup := by
  constructor
  · intro f hf
    have : f ∈ ["u", "rho", "rhou", "E", "sensor"] := hf
    revert f
    unfold NoDigitEnd
    have h : ∀ f ∈ ["u", "rho", "rhou", "E", "sensor"], (f.toList.getLast?.map isDigit) = some false := by decide
    intro f _ hf c hc
    have := h f hf
    rw [hc] at this
    exact Option.some.inj this
  · show ["u", "rho", "rhou", "E", "sensor"].Nodup
    decide

/-- **C31 (form of a name).** The name is the field, the decimal digits of the number, at least ten of them, and `.dat`. -/
theorem C31_form (n : ℕ) (fields : List Str) : (formatFnames n fields).length = fields.length ∧
    ∃ digits : Str, (∀ c ∈ digits, isDigit c = true) ∧ digitsVal digits = n ∧ digits.length = max 10 (natText n).length ∧
      ∀ i (h : i < fields.length), (formatFnames n fields)[i]? = some (fields[i] ++ digits ++ ".dat".toList) := by
  refine ⟨by simp [formatFnames], natTextPad 10 n, ?_, ?_, ?_, ?_⟩
  · intro c hc
    rcases List.mem_append.mp hc with hc | hc
    · rw [List.eq_of_mem_replicate hc]; decide
    · obtain ⟨d, hd, rfl⟩ := mem_natText hc
      exact (digitChar_facts hd).1
  · unfold natTextPad
    rw [digitsVal_zeros, digitsVal_natText]
  · unfold natTextPad
    rw [List.length_append, List.length_replicate]
    omega
  · intro i h
    unfold formatFnames
    rw [List.getElem?_map, List.getElem?_eq_getElem h]
    simp

/-- The fields have different names, none ending in a digit or being `sensor`, one per field. -/
structure GoodFields (s : Sol K) : Prop where
  count : s.kw.fields.length = s.NF
  nodup : s.kw.fields.Nodup
  digits : ∀ f ∈ s.kw.fields, NoDigitEnd f.toList
  sensor : "sensor" ∉ s.kw.fields

/-- File name of a field. -/
def nameOf (f : String) (n : ℕ) : Str := f.toList ++ (natTextPad 10 n ++ ".dat".toList)

/-- The two header lines of a file. -/
def headText (ft : FloatText K) (s : Sol K) : Str :=
  "# n=".toList ++ natText s.n ++ ", t=".toList ++ ft.fmt s.t ++ ", bc_l=".toList ++ s.bcl.val.toList ++ ", bc_r=".toList ++ s.bcr.val.toList ++
    "\n# xc".toList ++ (List.range (s.basis.p + 1)).flatMap (fun i => ", u".toList ++ natText i) ++ "\n".toList

/-- **C32.** For a solution with `N_E` cells and two ghost columns per field, and a header without line ends in the boundary
names, `printer` writes one file per field: the header, then row `i` with centroid `i` and the coefficients of cell `i`
(column `(i+1)·N_F + field`), for `i = 0 … N_E - 1`: every interior cell once, no ghost cell. With sensors it also writes
the flags of the interior cells. Nothing else is written. -/
theorem C32_files (ft : FloatText K) {s : Sol K} (hc : s.u.cols = (s.NE + 2) * s.NF) (hx : s.xc.len = s.NE) (hg : GoodFields s)
    (ht : '\n' ∉ ft.fmt s.t) (hb : '\n' ∉ s.bcl.val.toList ∧ '\n' ∉ s.bcr.val.toList)
    (hs : ∀ sen, s.sensors = some sen → sen.sensors.len = s.NE + 2 ∧ 0 < s.NE) (nout : ℕ) (fs : Files) :
    ∃ fs', s.printer ft nout fs = .ok fs' ∧
      (∀ g (h : g < s.NF), fs' (nameOf (s.kw.fields[g]'(by rw [hg.count]; exact h)) nout) = some (headText ft s ++
        (List.range s.NE).flatMap fun i => ft.fmt (s.xc.val i) ++
          (List.range s.u.rows).flatMap (fun r => ',' :: ft.fmt (s.u.val r ((i + 1) * s.NF + g))) ++ "\n".toList)) ∧
      (∀ sen, s.sensors = some sen → fs' (nameOf "sensor" nout) = some (headText ft s ++
        (List.range s.NE).flatMap fun i => ft.fmt (s.xc.val i) ++ ", ".toList ++ natText (sen.sensors.val (i + 1)) ++ "\n".toList)) ∧
      (∀ n, (∀ f ∈ s.kw.fields, n ≠ nameOf f nout) → (s.sensors ≠ none → n ≠ nameOf "sensor" nout) → fs' n = fs n) := by
  have nl : "\n".toList = ['\n'] := by decide
  have htext : ∀ rows : List Str, savetxt (s.header ft) rows = headText ft s ++ rows.flatMap (· ++ "\n".toList) := by
    intro rows
    have h1 : '\n' ∉ head1 (natText s.n) (ft.fmt s.t) s.bcl.val.toList s.bcr.val.toList := by
      unfold head1
      simp only [List.mem_append, not_or]
      exact ⟨⟨⟨⟨⟨⟨⟨by decide, (not_mem_natText _).1⟩, by decide⟩, ht⟩, by decide⟩, hb.1⟩, by decide⟩, hb.2⟩
    rw [header_eq, savetxt_eq h1 (head2_no _).1]
    unfold headText head1 head2
    have e1 : "# n=".toList = "# ".toList ++ "n=".toList := by decide
    have e2 : "\n# xc".toList = '\n' :: ("# ".toList ++ "xc".toList) := by decide
    rw [e1, e2, nl]
    simp only [List.append_assoc, List.cons_append, List.nil_append]
  set names := formatFnames nout (s.kw.fields.map String.toList) with hnames
  have hnl : names.length = s.NF := by simp [hnames, formatFnames, hg.count]
  have hname : ∀ j (h : j < names.length), names[j] = nameOf (s.kw.fields[j]'(by rw [hg.count, ← hnl]; exact h)) nout := by
    intro j h
    simp [hnames, formatFnames, nameOf]
  have hmem : ∀ n, n ∈ names ↔ ∃ f ∈ s.kw.fields, n = nameOf f nout := by
    intro n
    rw [hnames]
    unfold formatFnames
    rw [List.map_map, List.mem_map]
    exact ⟨fun ⟨f, h, e⟩ => ⟨f, h, e.symm⟩, fun ⟨f, h, e⟩ => ⟨f, h, e.symm⟩⟩
  have hnd : names.Nodup := by
    rw [hnames]
    unfold formatFnames
    rw [List.map_map]
    refine List.Nodup.map_on ?_ hg.nodup
    intro a ha b hb' hab
    exact String.ext_iff.mpr (fname_inj (hg.digits a ha) (hg.digits b hb') hab).1
  obtain ⟨fs1, a1, a2, a3⟩ := writeFields_ok ft (s := s) (fun g => savetxt (s.header ft) ((List.range s.NE).map (rowText ft s g))) names 0 fs hnd (fun j hj => by
    rw [zero_add]
    exact fieldFile_eq ft hc hx (by omega))
  have hrow : ∀ g, savetxt (s.header ft) ((List.range s.NE).map (rowText ft s g)) = headText ft s ++
      (List.range s.NE).flatMap fun i => ft.fmt (s.xc.val i) ++
          (List.range s.u.rows).flatMap (fun r => ',' :: ft.fmt (s.u.val r ((i + 1) * s.NF + g))) ++ "\n".toList := by
    intro g
    rw [htext, List.flatMap_map]
    unfold rowText
    simp only [join_eq, List.flatMap_map]
  have hsens : nameOf "sensor" nout ∉ names := by
    rw [hmem]
    rintro ⟨f, hf, e⟩
    have := (fname_inj (show NoDigitEnd "sensor".toList by
      intro c hc
      have : some c = some 'r' := by rw [← hc]; decide
      cases this; decide) (hg.digits f hf) e).1
    rw [← String.ext_iff] at this
    exact hg.sensor (this ▸ hf)
  have hold : ∀ g (h : g < s.NF), fs1 (nameOf (s.kw.fields[g]'(by rw [hg.count]; exact h)) nout) = some (headText ft s ++
        (List.range s.NE).flatMap fun i => ft.fmt (s.xc.val i) ++
          (List.range s.u.rows).flatMap (fun r => ',' :: ft.fmt (s.u.val r ((i + 1) * s.NF + g))) ++ "\n".toList) := by
    intro g h
    rw [← hrow, ← hname g (by omega), a2 g (by omega), zero_add]
  unfold Sol.printer
  rw [← hnames, a1]
  simp only
  cases hsn : s.sensors with
  | none =>
    refine ⟨fs1, by unfold Sol.writeSensors; rw [hsn], hold, fun sen h => (by cases h), ?_⟩
    intro n hn _
    exact a3 n (by rw [hmem]; rintro ⟨f, hf, e⟩; exact hn f hf e)
  | some sen =>
    obtain ⟨l1, l2⟩ := hs sen hsn
    have hsl : (sen.sensors.slice 1 (-1)).len = s.NE ∧ ∀ i, (sen.sensors.slice 1 (-1)).val i = sen.sensors.val (i + 1) := by
      have b1 : pyIdx (s.NE + 2) 1 = 1 := by unfold pyIdx; rw [if_neg (by omega)]; omega
      have b2 : pyIdx (s.NE + 2) (-1) = s.NE + 1 := by unfold pyIdx; rw [if_pos (by omega)]; omega
      unfold Vec.slice
      simp only [l1, b1, b2]
      exact ⟨by omega, fun i => by rw [add_comm]⟩
    refine ⟨fs1.write (nameOf "sensor" nout) (savetxt (s.header ft) ((List.range s.NE).map fun i => ft.fmt (s.xc.val i) ++ ", ".toList ++ natText (sen.sensors.val (i + 1)))), ?_, ?_, ?_, ?_⟩
    · unfold Sol.writeSensors
      rw [hsn]
      simp only [hsl.1, hsl.2, hx]
      rw [if_neg (by simp), if_neg (by omega)]
      rfl
    · intro g h
      unfold Files.write
      rw [if_neg, hold g h]
      intro e
      exact hsens (by rw [← e, ← hname g (by omega)]; exact List.getElem_mem _)
    · intro sen' h
      cases h
      unfold Files.write
      rw [if_pos rfl, htext, List.flatMap_map]
    · intro n hn hn'
      unfold Files.write
      rw [if_neg (hn' (by simp))]
      exact a3 n (by rw [hmem]; rintro ⟨f, hf, e⟩; exact hn f hf e)

/-- What a saved solution must satisfy to be read back: a uniform mesh with the arrays of a constructed solution, boundary
names without separators, and numbers that survive printing. -/
structure Savable [Field K] (ft : FloatText K) (rep : K → Prop) (lib : GaussLib K) (p : ℕ) (s : Sol K) : Prop where
  basis : s.basis = Basis.init lib p
  NF : 0 < s.NF
  rows : s.u.rows = p + 1
  cols : s.u.cols = (s.NE + 2) * s.NF
  xc : s.xc.len = s.NE
  fields : GoodFields s
  mesh : ∃ A B, IsUniformMesh A B s.NE s.x.val s.xc.val s.dx
  bcl : Clean s.bcl.val.toList
  bcr : Clean s.bcr.val.toList
  time : rep s.t
  centroids : ∀ i < s.NE, rep (s.xc.val i)
  values : ∀ r < p + 1, ∀ e, 1 ≤ e → e ≤ s.NE → ∀ g < s.NF, rep (s.u.val r (e * s.NF + g))
  sensors : ∀ sen, s.sensors = some sen → sen.sensors.len = s.NE + 2 ∧ 0 < s.NE

/-- The parts of a file of a savable solution. -/
lemma file_facts [Field K] {ft : FloatText K} {rep : K → Prop} (hft : ft.Ok rep) {lib : GaussLib K} {p : ℕ} {s : Sol K} (h : Savable ft rep lib p s) {g : ℕ} (hg : g < s.NF) :
    (∀ r ∈ (List.range s.NE).map (rowText ft s g), r ≠ [] ∧ ∀ c ∈ r, isSpace c = false ∧ c ≠ '#') ∧
    (∀ i < s.NE, splitComma (rowText ft s g i) = ft.fmt (s.xc.val i) :: (List.range (p + 1)).map fun r => ft.fmt (s.u.val r ((i + 1) * s.NF + g))) := by
  have hcl : ∀ {x}, rep x → Clean (ft.fmt x) := fun hx c hc => hft.chars _ hx c hc
  have hv : ∀ i < s.NE, ∀ r < p + 1, rep (s.u.val r ((i + 1) * s.NF + g)) := fun i hi r hr => h.values r hr (i + 1) (by omega) (by omega) g hg
  have hw : ∀ i < s.NE, ∀ w ∈ ft.fmt (s.xc.val i) :: (List.range s.u.rows).map (fun r => ft.fmt (s.u.val r ((i + 1) * s.NF + g))), Clean w := by
    intro i hi w hw
    rcases List.mem_cons.mp hw with rfl | hw
    · exact hcl (h.centroids i hi)
    · obtain ⟨r, hr, rfl⟩ := List.mem_map.mp hw
      rw [h.rows] at hr
      exact hcl (hv i hi r (List.mem_range.mp hr))
  constructor
  · intro r hr
    obtain ⟨i, hi, rfl⟩ := List.mem_map.mp hr
    have hi := List.mem_range.mp hi
    constructor
    · unfold rowText
      rw [join_eq]
      intro h0
      exact hft.nonempty _ (h.centroids i hi) (List.append_eq_nil_iff.mp h0).1
    · intro c hc
      rcases mem_join hc with rfl | ⟨w, hw', hc⟩
      · decide
      · exact ⟨(hw i hi w hw' c hc).1, (hw i hi w hw' c hc).2.2.2⟩
  · intro i hi
    unfold rowText
    rw [splitComma_join fun w hw' c hc => (hw i hi w hw' c hc).2.1, h.rows]

/-- What reading the printed files gives, piece by piece. -/
lemma printed [Field K] {ft : FloatText K} {rep : K → Prop} (hft : ft.Ok rep) {lib : GaussLib K} {p : ℕ} {s : Sol K} (h : Savable ft rep lib p s)
    (k : ℕ) (fs : Files) {s0 : Sol K} (hfl : s0.kw.fields = s.kw.fields) :
    ∃ fs' f0 rest text, s.printer ft k fs = .ok fs' ∧ formatFnames k (s0.kw.fields.map String.toList) = f0 :: rest ∧ fs'.read f0 = .ok text ∧
      loadtxtFirst ft text = .ok ((List.range s.NE).map s.xc.val) ∧
      parseHeader ft text = .ok ((s.n : ℤ), s.t, s.bcl.val.toList, s.bcr.val.toList, ((p + 1 : ℕ) : ℤ)) ∧
      (f0 :: rest).length = s.NF ∧
      ∀ j (hj : j < (f0 :: rest).length), ∃ tx, fs' ((f0 :: rest)[j]) = some tx ∧
        loadtxt ft tx = .ok ((List.range s.NE).map fun i => s.xc.val i :: (List.range (p + 1)).map fun r => s.u.val r ((i + 1) * s.NF + j)) := by
  have ht : Clean (ft.fmt s.t) := fun c hc => hft.chars _ h.time c hc
  obtain ⟨fs', hp, hfile, -⟩ := C32_files ft h.cols h.xc h.fields ht.no.1 ⟨h.bcl.no.1, h.bcr.no.1⟩ h.sensors k fs
  -- the files again, as `savetxt`
  have htx : ∀ g (hg : g < s.NF), fs' (nameOf (s.kw.fields[g]'(by rw [h.fields.count]; exact hg)) k) =
      some (savetxt (head1 (natText s.n) (ft.fmt s.t) s.bcl.val.toList s.bcr.val.toList ++ '\n' :: head2 p) ((List.range s.NE).map (rowText ft s g))) := by
    intro g hg
    rw [hfile g hg]
    congr 1
    have nl : "\n".toList = ['\n'] := by decide
    rw [savetxt_eq (head1_no (Clean.natText _) ht h.bcl h.bcr).1 (head2_no _).1, List.flatMap_map]
    unfold headText head1 head2 rowText
    have e1 : "# n=".toList = "# ".toList ++ "n=".toList := by decide
    have e2 : "\n# xc".toList = '\n' :: ("# ".toList ++ "xc".toList) := by decide
    have e3 : s.basis.p = p := by rw [h.basis]; rfl
    rw [e1, e2, e3, nl]
    simp only [List.append_assoc, List.cons_append, List.nil_append, join_eq, List.flatMap_map]
  have hrows : ∀ g < s.NF, ∀ r ∈ (List.range s.NE).map (rowText ft s g), '\n' ∉ r ∧ '\r' ∉ r := by
    intro g hg r hr
    have := ((file_facts hft h hg).1 r hr).2
    exact ⟨fun hc => absurd (this _ hc).1 (by decide), fun hc => absurd (this _ hc).1 (by decide)⟩
  have hdl : ∀ g < s.NF, dataLines (savetxt (head1 (natText s.n) (ft.fmt s.t) s.bcl.val.toList s.bcr.val.toList ++ '\n' :: head2 p)
      ((List.range s.NE).map (rowText ft s g))) = (List.range s.NE).map (rowText ft s g) := by
    intro g hg
    exact dataLines_savetxt (head1_no (Clean.natText _) ht h.bcl h.bcr) p (fun r hr => ((file_facts hft h hg).1 r hr).1)
      (fun r hr => ((file_facts hft h hg).1 r hr).2)
  have hfl' : ∀ {x}, rep x → ft.float (ft.fmt x) = .ok x := by
    intro x hx
    rw [float_clean ft (hft.chars _ hx), hft.round _ hx]
  have hfirst : loadtxtFirst ft (savetxt (head1 (natText s.n) (ft.fmt s.t) s.bcl.val.toList s.bcr.val.toList ++ '\n' :: head2 p)
      ((List.range s.NE).map (rowText ft s 0))) = .ok ((List.range s.NE).map s.xc.val) := by
    unfold loadtxtFirst
    rw [hdl 0 h.NF]
    refine mapM_map_ok fun i hi => ?_
    rw [(file_facts hft h h.NF).2 i (List.mem_range.mp hi), List.headD_cons, hfl' (h.centroids i (List.mem_range.mp hi))]
  have hload : ∀ g < s.NF, loadtxt ft (savetxt (head1 (natText s.n) (ft.fmt s.t) s.bcl.val.toList s.bcr.val.toList ++ '\n' :: head2 p)
      ((List.range s.NE).map (rowText ft s g))) =
      .ok ((List.range s.NE).map fun i => s.xc.val i :: (List.range (p + 1)).map fun r => s.u.val r ((i + 1) * s.NF + g)) := by
    intro g hg
    unfold loadtxt
    rw [hdl g hg, mapM_map_ok (g := fun i => s.xc.val i :: (List.range (p + 1)).map fun r => s.u.val r ((i + 1) * s.NF + g))]
    · simp only
      rw [if_pos]
      have hl : ∀ l ∈ (List.range s.NE).map (fun i => s.xc.val i :: (List.range (p + 1)).map fun r => s.u.val r ((i + 1) * s.NF + g)), l.length = p + 2 := by
        intro l hl
        obtain ⟨i, -, rfl⟩ := List.mem_map.mp hl
        simp
      intro l hl'
      rw [hl l hl']
      revert hl hl'
      generalize (List.range s.NE).map (fun i => s.xc.val i :: (List.range (p + 1)).map fun r => s.u.val r ((i + 1) * s.NF + g)) = rows
      intro hl hl'
      rcases rows with _ | ⟨a, rows⟩
      · cases hl'
      · rw [List.headD_cons, hl a (by simp)]
    · intro i hi
      have hi := List.mem_range.mp hi
      rw [(file_facts hft h hg).2 i hi, List.mapM_cons, hfl' (h.centroids i hi),
        mapM_map_ok (g := fun r => s.u.val r ((i + 1) * s.NF + g)) (fun r hr => hfl' (h.values r (List.mem_range.mp hr) (i + 1) (by omega) (by omega) g hg))]
      rfl
  have hhead := parseHeader_eq ft (Clean.natText s.n) ht h.bcl h.bcr (intOf_natText s.n) (hft.round _ h.time) p (hrows 0 h.NF)
  have hnl : (formatFnames k (s0.kw.fields.map String.toList)).length = s.NF := by simp [formatFnames, hfl, h.fields.count]
  have hnj : ∀ j (hj : j < (formatFnames k (s0.kw.fields.map String.toList)).length),
      (formatFnames k (s0.kw.fields.map String.toList))[j] = nameOf (s.kw.fields[j]'(by rw [h.fields.count, ← hnl]; exact hj)) k := by
    intro j hj
    simp [formatFnames, nameOf, hfl]
  obtain ⟨f0, rest, hf0⟩ : ∃ f0 rest, formatFnames k (s0.kw.fields.map String.toList) = f0 :: rest := by
    cases hh : formatFnames k (s0.kw.fields.map String.toList) with
    | nil => rw [hh] at hnl; simp at hnl; have := h.NF; omega
    | cons a l => exact ⟨a, l, rfl⟩
  have hf0' : f0 = nameOf (s.kw.fields[0]'(by rw [h.fields.count]; exact h.NF)) k := by
    have := hnj 0 (by rw [hnl]; exact h.NF)
    simp only [hf0, List.getElem_cons_zero] at this
    exact this
  have hread : fs'.read f0 = .ok (savetxt (head1 (natText s.n) (ft.fmt s.t) s.bcl.val.toList s.bcr.val.toList ++ '\n' :: head2 p) ((List.range s.NE).map (rowText ft s 0))) := by
    unfold Files.read
    rw [hf0', htx 0 h.NF]
  refine ⟨fs', f0, rest, _, hp, hf0, hread, hfirst, hhead, by rw [← hf0, hnl], ?_⟩
  rw [← hf0]
  exact fun j hj => ⟨_, by rw [hnj j hj]; exact htx j (by omega), hload j (by omega)⟩

/-- **C33.** Loading output `k` into any solution object of the same system restores what was saved: step number, time,
boundary names (their text), basis, number of cells, centroids, edges, cell width and every interior coefficient of every
field; the ghost cells are zero. At least two cells; numbers in exact arithmetic. -/
theorem C33_round_trip [Field K] [CharZero K] {ft : FloatText K} {rep : K → Prop} (hft : ft.Ok rep) {lib : GaussLib K} {p : ℕ} {s : Sol K} (h : Savable ft rep lib p s)
    (h2 : 2 ≤ s.NE) (k : ℕ) (fs : Files) {s0 : Sol K} (hNF : s0.NF = s.NF) (hfl : s0.kw.fields = s.kw.fields) :
    ∃ fs' s', s.printer ft k fs = .ok fs' ∧ s0.loader lib ft fs' k = .ok s' ∧
      s'.n = s.n ∧ s'.t = s.t ∧ s'.bcl.val = s.bcl.val ∧ s'.bcr.val = s.bcr.val ∧ s'.basis = s.basis ∧ s'.NE = s.NE ∧ s'.NF = s.NF ∧
      s'.xc.len = s.NE ∧ (∀ i < s.NE, s'.xc.val i = s.xc.val i) ∧ s'.x.len = s.NE + 1 ∧ (∀ i ≤ s.NE, s'.x.val i = s.x.val i) ∧ s'.dx = s.dx ∧
      s'.u.rows = p + 1 ∧ s'.u.cols = (s.NE + 2) * s.NF ∧
      (∀ r < p + 1, ∀ e, 1 ≤ e → e ≤ s.NE → ∀ g < s.NF, s'.u.val r (e * s.NF + g) = s.u.val r (e * s.NF + g)) ∧
      (∀ r < p + 1, ∀ g < s.NF, s'.u.val r g = 0 ∧ s'.u.val r ((s.NE + 1) * s.NF + g) = 0) ∧
      s'.kw = s0.kw ∧ s'.scaledMinv = s0.scaledMinv ∧ s'.enhance = s0.enhance ∧ s'.sensors = s0.sensors := by
  obtain ⟨fs', f0, rest, text, hp, hf0, hread, hfirst, hhead, hnl, hfiles⟩ := printed hft h k fs hfl
  -- the mesh
  obtain ⟨A, B, hm⟩ := h.mesh
  have hN0 : (s.NE : K) ≠ 0 := Nat.cast_ne_zero.mpr (by omega)
  have hxi : ∀ i ≤ s.NE, s.x.val i = A + i * s.dx := by
    intro i hi
    induction i with
    | zero => rw [hm.first]; simp
    | succ i ih =>
      have := hm.spacing i (by omega)
      rw [sub_eq_iff_eq_add] at this
      rw [this, ih (by omega)]
      push_cast
      ring
  have hci : ∀ i < s.NE, s.xc.val i = A + i * s.dx + 1 / 2 * s.dx := by
    intro i hi
    rw [hm.centre i hi, hxi i (by omega), hxi (i + 1) (by omega)]
    push_cast
    have : (2 : K) ≠ 0 := two_ne_zero
    field_simp
    ring
  have hB : B = A + s.NE * s.dx := by rw [← hm.last, hxi _ le_rfl]
  -- the loader
  set xc : List K := (List.range s.NE).map s.xc.val with hxc
  have hxl : xc.length = s.NE := by simp [hxc]
  have hget : ∀ i < s.NE, xc.getD i 0 = s.xc.val i := by
    intro i hi
    rw [hxc, List.getD_eq_getElem?_getD, List.getElem?_map, List.getElem?_range hi]
    rfl
  have hdx : xc.getD 1 0 - xc.getD 0 0 = s.dx := by
    rw [hget 1 (by omega), hget 0 (by omega), hci 1 (by omega), hci 0 (by omega)]
    push_cast
    ring
  have hA' : xc.getD 0 0 - 1 / 2 * (xc.getD 1 0 - xc.getD 0 0) = A := by
    rw [hdx, hget 0 (by omega), hci 0 (by omega)]
    push_cast
    ring
  have hB' : xc.getD (xc.length - 1) 0 + 1 / 2 * (xc.getD 1 0 - xc.getD 0 0) = B := by
    rw [hdx, hxl, hget _ (by omega), hci _ (by omega), hB, Nat.cast_sub (by omega)]
    push_cast
    ring
  have hw : (B - A) / (s.NE : K) = s.dx := hm.width.symm
  obtain ⟨u, hu1, hu2, hu3, hu4⟩ := loadFields_ok ft (fs := fs') (NF := s.NF) (NE := s.NE) (p := p) h2 (x := s.xc.val)
    (w := fun g r i => s.u.val r ((i + 1) * s.NF + g)) (f0 :: rest) 0 (blank p s.NE s.NF) (by rw [hnl]; ring) rfl (by unfold blank; ring)
    (fun j hj => by rw [zero_add]; exact hfiles j hj)
  have hlo := loader_ok (lib := lib) (s := s0) hf0 hread hfirst hhead (by rw [hxl]; exact h2) (u := u) (by rw [hNF, hxl]; exact hu1)
  refine ⟨fs', _, hp, hlo, rfl, rfl, ?_, ?_, h.basis.symm, hxl, hNF, hxl, ?_, ?_, ?_, ?_,
    hu2, hu3, ?_, ?_, rfl, rfl, rfl, rfl⟩
  · exact String.ofList_toList
  · exact String.ofList_toList
  · exact hget
  · show xc.length + 1 = _
    rw [hxl]
  · intro i hi
    show (linspace _ _ _).val i = _
    rw [hA', hB', hxl, linspace_affine (by omega), hw, hxi i hi]
  · show (_ : K) / _ = _
    rw [hA', hB', hxl, hw]
  · intro r hr e he1 he2 g hg
    show u.val r _ = _
    rw [hu4 r hr e g hg (by omega), if_pos ⟨by omega, he1, he2⟩, Nat.sub_add_cancel he1]
  · intro r hr g hg
    show u.val r _ = 0 ∧ u.val r _ = 0
    constructor
    · have := hu4 r hr 0 g hg (by omega)
      rw [if_neg (by omega), blank_val] at this
      simpa using this
    · rw [← blank_val (K := K) p s.NE s.NF r ((s.NE + 1) * s.NF + g), hu4 r hr (s.NE + 1) g hg (by omega), if_neg (by omega)]

/-- **C33 (one cell).** With a single cell `len` of the array of centroids raises. -/
theorem C33_one_cell [Field K] {ft : FloatText K} {rep : K → Prop} (hft : ft.Ok rep) {lib : GaussLib K} {p : ℕ} {s : Sol K} (h : Savable ft rep lib p s)
    (h1 : s.NE = 1) (k : ℕ) (fs : Files) {s0 : Sol K} (hfl : s0.kw.fields = s.kw.fields) :
    ∃ fs', s.printer ft k fs = .ok fs' ∧ s0.loader lib ft fs' k = .error .typeError := by
  obtain ⟨fs', f0, rest, text, hp, hf0, hread, hfirst, hhead, -, -⟩ := printed hft h k fs hfl
  refine ⟨fs', hp, ?_⟩
  unfold Sol.loader
  simp only [hf0, hread, hfirst, hhead, bind, Except.bind]
  rw [if_neg (by push_cast; omega)]
  simp only [pure, Except.pure]
  rw [if_pos (by simp [h1])]
  rfl

/-- **C33 (no such output).** Loading an output that is not there raises, whatever the solution object. -/
theorem C33_missing [Field K] (lib : GaussLib K) (ft : FloatText K) (fs : Files) (s0 : Sol K) (k : ℕ) {f : String} {l : List String} (hfl : s0.kw.fields = f :: l)
    (hm : fs (nameOf f k) = none) : s0.loader lib ft fs k = .error .ioError := by
  have hf0 : formatFnames k (s0.kw.fields.map String.toList) = nameOf f k :: formatFnames k (l.map String.toList) := by
    simp [formatFnames, nameOf, hfl]
  have hr : fs.read (nameOf f k) = .error .ioError := by
    unfold Files.read
    rw [hm]
  unfold Sol.loader
  simp only [hf0, hr, bind, Except.bind]

/-- The names of a loaded solution are new string objects. -/
lemma loader_names [Field K] {lib : GaussLib K} {ft : FloatText K} {fs : Files} {s0 s' : Sol K} {k : ℕ} (h : s0.loader lib ft fs k = .ok s') :
    s'.bcl.interned = false ∧ s'.bcr.interned = false := by
  unfold Sol.loader at h
  cases hf : formatFnames k (s0.kw.fields.map String.toList) with
  | nil => simp only [hf] at h; cases h
  | cons f0 rest =>
    simp only [hf, bind, Except.bind] at h
    cases h1 : fs.read f0 with
    | error e => rw [h1] at h; cases h
    | ok text =>
      simp only [h1] at h
      cases h2 : loadtxtFirst ft text with
      | error e => rw [h2] at h; cases h
      | ok xc =>
        simp only [h2] at h
        cases h3 : parseHeader ft text with
        | error e => rw [h3] at h; cases h
        | ok q =>
          obtain ⟨n, t, bl, br, Ns⟩ := q
          simp only [h3] at h
          by_cases c1 : Ns - 1 < 0
          · rw [if_pos c1] at h; cases h
          rw [if_neg c1] at h
          simp only [pure, Except.pure] at h
          by_cases c2 : xc.length = 1
          · rw [if_pos c2] at h; cases h
          rw [if_neg c2] at h
          by_cases c3 : xc.length = 0
          · rw [if_pos c3] at h; cases h
          rw [if_neg c3] at h
          split at h
          · cases h
          · cases h
            exact ⟨rfl, rfl⟩

/-- **C34 is false.** `apply_bc` does nothing on a loaded solution, whatever was loaded: `is` never recognises the name. -/
theorem C34_not_reapplied [Field K] {lib : GaussLib K} {ft : FloatText K} {fs : Files} {s0 s' : Sol K} {k : ℕ} (h : s0.loader lib ft fs k = .ok s') :
    s'.applyBc = s' := by
  obtain ⟨hl, hr⟩ := loader_names h
  have e1 : ∀ q, ¬ s'.bcl.isLit q := fun q hq => by rw [PyStr.isLit, hl] at hq; cases hq.1
  have e2 : ∀ q, ¬ s'.bcr.isLit q := fun q hq => by rw [PyStr.isLit, hr] at hq; cases hq.1
  unfold Sol.applyBc Sol.applyBcLeft
  rw [if_neg (e1 _), if_neg (e1 _)]
  unfold Sol.applyBcRight
  rw [if_neg (e2 _), if_neg (e2 _)]

/-- **C34 (what holds).** Missing for the full claim: the names read from the file would have to be recognised. If they are
replaced by the literals of the same text, `apply_bc` gives the whole array of the saved solution after its own `apply_bc`. -/
theorem C34_literal_names_partial [Field K] [LinearOrder K] [IsStrictOrderedRing K] {ft : FloatText K} {rep : K → Prop} (hft : ft.Ok rep) {lib : GaussLib K} {p : ℕ} {s : Sol K} (h : Savable ft rep lib p s)
    (h2 : 2 ≤ s.NE) (k : ℕ) (fs : Files) {s0 : Sol K} (hNF : s0.NF = s.NF) (hfl : s0.kw.fields = s.kw.fields)
    (hl : s.bcl = .lit "periodic" ∨ s.bcl = .lit "zerograd") (hr : s.bcr = .lit "periodic" ∨ s.bcr = .lit "zerograd") :
    ∃ fs' s', s.printer ft k fs = .ok fs' ∧ s0.loader lib ft fs' k = .ok s' ∧
      ∀ r < p + 1, ∀ c < (s.NE + 2) * s.NF,
        ({ s' with bcl := .lit s'.bcl.val, bcr := .lit s'.bcr.val } : Sol K).applyBc.u.val r c = s.applyBc.u.val r c := by
  obtain ⟨fs', s', hp, hlo, -, -, b1, b2, -, hNE', hNF', -, -, -, -, -, -, hcols, hin, -⟩ := C33_round_trip hft h h2 k fs hNF hfl
  refine ⟨fs', s', hp, hlo, fun r hr' c hc => ?_⟩
  have hNF0 := h.NF
  have hb1 : (.lit s'.bcl.val : PyStr) = s.bcl := by rw [b1]; rcases hl with e | e <;> rw [e] <;> rfl
  have hb2 : (.lit s'.bcr.val : PyStr) = s.bcr := by rw [b2]; rcases hr with e | e <;> rw [e] <;> rfl
  rw [hb1, hb2]
  set q : Sol K := { s' with bcl := s.bcl, bcr := s.bcr } with hq
  rw [applyBc_val (s := q) (by show 0 < s'.NF; omega) (by show 0 < s'.NE; omega) (by show s'.u.cols = (s'.NE + 2) * s'.NF; rw [hcols, hNE', hNF']),
    applyBc_val h.NF (by omega) h.cols]
  have hcol : q.bcCol c = s.bcCol c := by
    unfold Sol.bcCol
    rw [show q.NF = s.NF from hNF', show q.NE = s.NE from hNE']
  have hk : s.BcKnown := ⟨hl.imp (fun e => by rw [e]; exact ⟨rfl, rfl⟩) (fun e => by rw [e]; exact ⟨rfl, rfl⟩), hr.imp (fun e => by rw [e]; exact ⟨rfl, rfl⟩) (fun e => by rw [e]; exact ⟨rfl, rfl⟩)⟩
  have hdm : c = c / s.NF * s.NF + c % s.NF := (Nat.div_add_mod' c s.NF).symm
  have hlt : c / s.NF < s.NE + 2 := (Nat.div_lt_iff_lt_mul hNF0).mpr hc
  obtain ⟨e, he1, he2, he⟩ := bc_cell hk (by omega) (c / s.NF) (by omega)
  have hg := Nat.mod_lt c hNF0
  have hce : s.bcCol c = e * s.NF + c % s.NF := by
    rw [← he _ hg, ← hdm]
  rw [hcol, hce]
  exact hin r hr' e he1 he2 _ hg

/-! ### Concrete cases -/

/-- Rational numbers written as fractions: a text format without loss. -/
def ratText : FloatText ℚ where
  fmt x := (if x.num < 0 then '-' else '+') :: natText x.num.natAbs ++ '/' :: natText x.den
  parse s := match s.splitOnP (· == '/') with
    | [a, b] => match intOf a, intOf b with
      | some m, some n => .ok (m / n)
      | _, _ => .error .valueError
    | _ => .error .valueError

lemma ratText_ok : ratText.Ok (fun _ => True) where
  round x _ := by
    have hc : ∀ n, ∀ c ∈ natText n, (c == '/') = false := by
      intro n c hc
      obtain ⟨d, hd, rfl⟩ := mem_natText hc
      clear hc
      revert hd; revert d; decide
    have hs : ∀ n, strip ('-' :: natText n) = '-' :: natText n ∧ strip ('+' :: natText n) = '+' :: natText n := by
      intro n
      have h : ∀ c ∈ natText n, isSpace c = false := by
        intro c hc
        obtain ⟨d, hd, rfl⟩ := mem_natText hc
        exact (digitChar_facts hd).2.2.1
      constructor <;>
      · refine strip_id fun c hc => ?_
        rcases List.mem_cons.mp hc with rfl | hc
        · decide
        · exact h c hc
    have hnat : ∀ n, natOf (natText n) = some n := fun n => by
      rw [natOf_digits (natText_ne_nil n) (fun c hc => mem_natText hc), digitsVal_natText]
    have h1 : intOf ((if x.num < 0 then '-' else '+') :: natText x.num.natAbs) = some x.num := by
      split_ifs with h
      · unfold intOf
        rw [(hs _).1]
        simp only [hnat]
        show some (-((x.num.natAbs : ℕ) : ℤ)) = _
        congr 1
        omega
      · unfold intOf
        rw [(hs _).2]
        simp only [hnat]
        show some (((x.num.natAbs : ℕ) : ℤ)) = _
        congr 1
        omega
    show (match ((if x.num < 0 then '-' else '+') :: natText x.num.natAbs ++ '/' :: natText x.den).splitOnP (· == '/') with | [a, b] => _ | _ => _) = _
    rw [splitOnP_cons_of (fun c h' => ?_) rfl, List.splitOnP_eq_singleton (hc _)]
    · simp only [h1, intOf_natText]
      rw [Int.cast_natCast, Rat.num_div_den]
    · rcases List.mem_cons.mp h' with rfl | h
      · split_ifs <;> rfl
      · exact hc _ c h
  chars x _ c h := by
    have hn : ∀ n, ∀ c ∈ natText n, isSpace c = false ∧ c ≠ ',' ∧ c ≠ '=' ∧ c ≠ '#' := by
      intro n c hc
      obtain ⟨d, hd, rfl⟩ := mem_natText hc
      clear hc
      revert hd; revert d; decide
    rcases List.mem_append.mp h with h | h
    · rcases List.mem_cons.mp h with rfl | h
      · split_ifs <;> decide
      · exact hn _ c h
    · rcases List.mem_cons.mp h with rfl | h
      · decide
      · exact hn _ c h
  nonempty x _ h := by cases h

lemma sol0_savable : Savable ratText (fun _ => True) Ex.gauss0 0 Ex.sol0 where
  basis := rfl
  NF := by decide
  rows := rfl
  cols := rfl
  xc := rfl
  fields := ⟨rfl, by decide, fun f hf => (C31_fields 2 "roe").1 f (List.mem_append_left _ (List.mem_append_left _ hf)), by decide⟩
  mesh := ⟨0, 5 / 2, by norm_num [Ex.sol0], by norm_num [Ex.sol0], by norm_num [Ex.sol0], fun i _ => by simp [Ex.sol0]; ring, fun i _ => by simp [Ex.sol0]; ring⟩
  bcl := by unfold Clean; decide
  bcr := by unfold Clean; decide
  time := trivial
  centroids _ _ := trivial
  values _ _ _ _ _ _ _ := trivial
  sensors sen h := by cases h

/-- Saving and reloading `sol0` works, and `apply_bc` on the result does not restore the periodic ghost cells: the left
ghost cell holds 25 in the original and 0 in the reloaded solution. -/
theorem C34_ghosts_lost : ∃ fs' s', Ex.sol0.printer ratText 7 (fun _ => none) = .ok fs' ∧ Ex.sol0.loader Ex.gauss0 ratText fs' 7 = .ok s' ∧
    s'.bcl.val = "periodic" ∧ Ex.sol0.applyBc.u.val 0 0 = 25 ∧ s'.applyBc.u.val 0 0 = 0 := by
  obtain ⟨fs', s', h1, h2, -, -, h3, -, -, -, -, -, -, -, -, -, -, -, -, h4, -⟩ := C33_round_trip ratText_ok sol0_savable (by decide) 7 (fun _ => none) (s0 := Ex.sol0) rfl rfl
  refine ⟨fs', s', h1, h2, h3, by decide +kernel, ?_⟩
  rw [C34_not_reapplied h2]
  exact (h4 0 (by decide) 0 (by decide)).1

/-- The hypotheses of C33 and C34 are met by `sol0`; the third centroid and the last cell average come back. -/
example : ∃ fs' s', Ex.sol0.printer ratText 7 (fun _ => none) = .ok fs' ∧ Ex.sol0.loader Ex.gauss0 ratText fs' 7 = .ok s' ∧
    s'.NE = 5 ∧ s'.dx = 1 / 2 ∧ s'.xc.val 2 = 5 / 4 ∧ s'.u.val 0 5 = 25 := by
  obtain ⟨fs', s', h1, h2, -, -, -, -, -, h3, -, -, h4, -, -, h5, -, -, h6, -⟩ := C33_round_trip ratText_ok sol0_savable (by decide) 7 (fun _ => none) (s0 := Ex.sol0) rfl rfl
  refine ⟨fs', s', h1, h2, h3, h5, (h4 2 (by decide)).trans ?_, (h6 0 (by decide) 5 (by decide) (by decide) 0 (by decide)).trans ?_⟩
  · norm_num [Ex.sol0]
  · norm_num [Ex.sol0]

example : ∃ fs' s', Ex.sol0.printer ratText 7 (fun _ => none) = .ok fs' ∧ Ex.sol0.loader Ex.gauss0 ratText fs' 7 = .ok s' ∧
    ({ s' with bcl := .lit s'.bcl.val, bcr := .lit s'.bcr.val } : Sol ℚ).applyBc.u.val 0 0 = 25 := by
  obtain ⟨fs', s', h1, h2, h3⟩ := C34_literal_names_partial ratText_ok sol0_savable (by decide) 7 (fun _ => none) (s0 := Ex.sol0) rfl rfl (.inl rfl) (.inl rfl)
  exact ⟨fs', s', h1, h2, (h3 0 (by decide) 0 (by decide)).trans (by decide +kernel)⟩

/-- One cell of width 1/2. -/
def sol1 : Sol ℚ := { Ex.sol0 with NE := 1, x := ⟨2, fun i => (i : ℚ) / 2⟩, xc := ⟨1, fun i => (2 * i + 1 : ℚ) / 4⟩, u := ⟨1, 3, fun _ e => (e : ℚ) ^ 2⟩ }

lemma sol1_savable : Savable ratText (fun _ => True) Ex.gauss0 0 sol1 :=
  { sol0_savable with
    cols := rfl
    xc := rfl
    fields := ⟨rfl, sol0_savable.fields.nodup, sol0_savable.fields.digits, sol0_savable.fields.sensor⟩
    mesh := ⟨0, 1 / 2, by norm_num [sol1], by norm_num [sol1], by norm_num [sol1, Ex.sol0], fun i _ => by simp [sol1, Ex.sol0]; ring, fun i _ => by simp [sol1]; ring⟩
    values := fun _ _ _ _ _ _ _ => trivial
    centroids := fun _ _ => trivial
    sensors := fun sen h => by cases h }

example : ∃ fs', sol1.printer ratText 7 (fun _ => none) = .ok fs' ∧ sol1.loader Ex.gauss0 ratText fs' 7 = .error .typeError :=
  C33_one_cell ratText_ok sol1_savable rfl 7 _ rfl

example : Ex.sol0.loader Ex.gauss0 ratText (fun _ => none) 7 = .error .ioError := C33_missing _ _ _ _ 7 (f := "u") (l := []) rfl rfl

/-- The names of outputs 7 and 12345678901 of the density. -/
example : formatFnames 7 ["rho".toList] = ["rho0000000007.dat".toList] ∧ formatFnames 12345678901 ["rho".toList] = ["rho12345678901.dat".toList] := by decide +kernel

end Dg1d.Props
