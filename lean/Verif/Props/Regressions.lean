import Verif.Props.Main
import Verif.Spec.Decimal

/-! # The decks of /repo/regressions

The texts of the six `deck.inp` files. Each is parsed into a valid deck (`ValidDeck`), so the theorems about the program hold
for each of them. -/

open Polynomial Dg1d.Spec

namespace Dg1d.Props
open Text

/-- Decimal numerals as rational numbers. -/
def decText : FloatText ℚ where
  fmt _ := []
  parse s := match decimal s with | none => .error .valueError | some q => .ok q

/-- The deck with real numbers. -/
noncomputable def Deck.real (d : Deck ℚ) : Deck ℝ :=
  { system := d.system, rk := d.rk, riemann := d.riemann, ic := d.ic, nout := d.nout, finaltime := d.finaltime, cfl := d.cfl, order := d.order
    limiting := d.limiting, enhance := d.enhance, sensorThresholds := d.sensorThresholds.map (fun q : ℚ => (q : ℝ)) }

lemma decText_parse {ft : FloatText ℝ} (h : ReadsDecimals ft) {s : Str} {q : ℚ} (hs : decText.parse s = .ok q) : ft.parse s = .ok (q : ℝ) := by
  refine h s q ?_
  unfold decText at hs
  simp only at hs
  split at hs
  · cases hs
  · rename_i h; cases hs; exact h

lemma mapM_real {f : Str → Except PyErr ℚ} {g : Str → Except PyErr ℝ} (h : ∀ s q, f s = .ok q → g s = .ok (q : ℝ)) :
    ∀ (l : List Str) {r : List ℚ}, l.mapM f = .ok r → l.mapM g = .ok (r.map fun q : ℚ => (q : ℝ)) := by
  intro l
  induction l with
  | nil => intro r hr; cases hr; rfl
  | cons a l ih =>
    intro r hr
    rw [List.mapM_cons] at hr ⊢
    cases ha : f a with
    | error e => rw [ha] at hr; cases hr
    | ok x =>
      rw [ha] at hr
      cases hl : l.mapM f with
      | error e => simp only [hl] at hr; cases hr
      | ok y =>
        simp only [hl] at hr
        cases hr
        rw [h a x ha, ih hl]
        rfl

/-- The two entries do the same. -/
def EntryRel (x : Option (Str → Except PyErr (Deck ℚ))) (y : Option (Str → Except PyErr (Deck ℝ))) : Prop :=
  (x = none → y = none) ∧ ∀ st, x = some st → ∃ st', y = some st' ∧ ∀ v e, st v = .ok e → st' v = .ok (Deck.real e)

lemma EntryRel.ite {c : Prop} [Decidable c] {x x' : Option (Str → Except PyErr (Deck ℚ))} {y y' : Option (Str → Except PyErr (Deck ℝ))}
    (h : EntryRel x y) (h' : EntryRel x' y') : EntryRel (if c then x else x') (if c then y else y') := by
  by_cases hc : c
  · rw [if_pos hc, if_pos hc]; exact h
  · rw [if_neg hc, if_neg hc]; exact h'

lemma EntryRel.some {f : Str → Except PyErr (Deck ℚ)} {g : Str → Except PyErr (Deck ℝ)} (h : ∀ v e, f v = .ok e → g v = .ok (Deck.real e)) :
    EntryRel (some f) (some g) :=
  ⟨fun h => (by cases h), fun st hst => ⟨g, rfl, by cases hst; exact h⟩⟩

lemma map_real {α β : Type} {x : Except PyErr α} {y : Except PyErr β} {f : α → Deck ℚ} {g : β → Deck ℝ} (c : α → β)
    (h : ∀ a, x = .ok a → y = .ok (c a)) (hg : ∀ a, g (c a) = Deck.real (f a)) (e : Deck ℚ) (he : x.map f = .ok e) : y.map g = .ok (Deck.real e) := by
  cases hx : x with
  | error e' => rw [hx] at he; cases he
  | ok a => rw [hx] at he; cases he; rw [h a hx, ← hg]; rfl

lemma entry_real {ft : FloatText ℝ} (h : ReadsDecimals ft) (line : Str) (d : Deck ℚ) :
    EntryRel (d.entry decText line) ((Deck.real d).entry ft line) := by
  have hfl : ∀ s q, decText.float s = .ok q → ft.float s = .ok (q : ℝ) := fun s q hs => decText_parse h hs
  unfold Deck.entry
  refine .ite (.some fun v e he => by cases he; rfl) (.ite (.some fun v e he => by cases he; rfl) (.ite (.some fun v e he => by cases he; rfl)
    (.ite (.some fun v e he => by cases he; rfl) (.ite (.some fun v e he => map_real (fun n : ℤ => n) (fun _ h => h) (fun _ => by rfl) e he)
    (.ite (.some fun v e he => map_real _ (hfl v) (fun _ => rfl) e he) (.ite (.some fun v e he => map_real _ (hfl v) (fun _ => rfl) e he)
    (.ite (.some fun v e he => map_real (fun n : ℤ => n) (fun _ h => h) (fun _ => by rfl) e he) (.ite (.some fun v e he => by cases he; rfl)
    (.ite (.some fun v e he => by cases he; rfl) (.ite (.some fun v e he => map_real _ (fun _ => mapM_real hfl _) (fun _ => rfl) e he)
    ⟨fun _ => rfl, fun _ h => by cases h⟩))))))))))

lemma parseLines_real {ft : FloatText ℝ} (h : ReadsDecimals ft) : ∀ (ls : List Str) (d d' : Deck ℚ), Deck.parseLines decText ls d = .ok d' →
    Deck.parseLines ft ls (Deck.real d) = .ok (Deck.real d')
  | [], d, d', hd => by cases hd; rfl
  | [line], d, d', hd => by
    unfold Deck.parseLines at hd ⊢
    cases he : d.entry decText line with
    | none => rw [he] at hd; cases hd; rw [(entry_real h line d).1 he]
    | some st => rw [he] at hd; cases hd
  | line :: v :: rest, d, d', hd => by
    unfold Deck.parseLines at hd ⊢
    cases he : d.entry decText line with
    | none =>
      rw [he] at hd
      rw [(entry_real h line d).1 he]
      exact parseLines_real h (v :: rest) d d' hd
    | some st =>
      rw [he] at hd
      obtain ⟨st', h1, h2⟩ := (entry_real h line d).2 st he
      rw [h1]
      simp only at hd ⊢
      cases hv : st v with
      | error e => rw [hv] at hd; cases hd
      | ok e =>
        rw [hv] at hd
        rw [h2 v e hv]
        exact parseLines_real h rest e d' hd

/-- The check of a shock tube deck text with rational numbers: order, cells, scheme, solver, and the seven numbers. -/
def deckFits (text : Str) (p N : ℕ) (rk riemann : Str) (cfl xd rL uL pL rR uR pR : ℚ) : Bool :=
  match Deck.parseLines decText (lines (universalNewlines text)) (Deck.init : Deck ℚ) with
  | .error _ => false
  | .ok d => d.system == "euler".toList && d.order == p && 2 ≤ N && 1 ≤ p && d.enhance == [] && 2 ≤ d.sensorThresholds.length && d.nout == 2 &&
    0 < d.finaltime && d.cfl == cfl && d.rk == rk && d.riemann == riemann && d.limiting == "adaptive_hr".toList &&
    d.sensorThresholds.all (fun x => 0 ≤ x) &&
    match split d.ic with
    | name :: p0 :: rest => name == "scktube".toList && intOf p0 == some (N : ℤ) && rest.map decimal == [xd, rL, uL, pL, rR, uR, pR].map some
    | _ => false

/-- What a shock tube deck says. -/
structure TubeDeck (lib : GaussLib ℝ) (ft : FloatText ℝ) (d : Deck ℝ) (p N : ℕ) (rk riemann : Str) (cfl xd rL uL pL rR uR pR : ℝ) : Prop where
  valid : ValidDeck lib ft d p N (IC.scktube xd rL uL pL rR uR pR)
  system : d.system = "euler".toList
  rk : d.rk = rk
  riemann : d.riemann = riemann
  limiting : d.limiting = "adaptive_hr".toList
  nout : d.nout = 2
  cells : 2 ≤ N
  finaltime : 0 < d.finaltime
  cfl : d.cfl = cfl
  enhance : d.enhance = []
  thresholds : ∀ x ∈ d.sensorThresholds, 0 ≤ x

lemma params_real {ft : FloatText ℝ} (h : ReadsDecimals ft) : ∀ (l : List Str) (r : List ℚ), l.map decimal = r.map some →
    l.mapM ft.parse = .ok (r.map fun q : ℚ => (q : ℝ))
  | [], [], _ => rfl
  | [], _ :: _, h => by cases h
  | _ :: _, [], h => by cases h
  | a :: l, q :: r, hl => by
    simp only [List.map_cons, List.cons.injEq] at hl
    rw [List.mapM_cons, h a q hl.1, List.map_cons]
    show (do let y ← l.mapM ft.parse; pure (((q : ℚ) : ℝ) :: y)) = _
    rw [params_real h l r hl.2]
    rfl

/-- A deck text that passes the check is a shock tube deck, wherever it is stored. -/
theorem deckFits_sound {lib : GaussLib ℝ} {ft : FloatText ℝ} (h : ReadsDecimals ft) {text : Str} {p N : ℕ} {rk riemann : Str}
    {cfl xd rL uL pL rR uR pR : ℚ} (hfit : deckFits text p N rk riemann cfl xd rL uL pL rR uR pR = true) {fs : Files} {deckname : Str}
    (hfs : fs deckname = some text) :
    ∃ d : Deck ℝ, Deck.init.parser ft fs deckname = .ok d ∧ TubeDeck lib ft d p N rk riemann cfl xd rL uL pL rR uR pR := by
  unfold deckFits at hfit
  split at hfit
  · cases hfit
  rename_i d hd
  have hinit : Deck.real Deck.init = Deck.init := by
    unfold Deck.real Deck.init
    simp
  simp only [Bool.and_eq_true, beq_iff_eq, decide_eq_true_eq] at hfit
  obtain ⟨⟨⟨⟨⟨⟨⟨⟨⟨⟨⟨⟨⟨h1, h2⟩, h3⟩, h4⟩, h5⟩, h6⟩, h7⟩, h8⟩, h9⟩, h10⟩, h11⟩, h12⟩, h14⟩, h13⟩ := hfit
  split at h13
  · rename_i name p0 rest hic
    simp only [Bool.and_eq_true, beq_iff_eq] at h13
    obtain ⟨⟨k1, k2⟩, k3⟩ := h13
    refine ⟨Deck.real d, ?_, ?_⟩
    · unfold Deck.parser
      rw [hfs]
      have := parseLines_real h _ _ _ hd
      rwa [hinit] at this
    · exact
        { system := h1
          rk := h10
          riemann := h11
          limiting := h12
          nout := h7
          cells := h3
          finaltime := by show (0 : ℝ) < ((d.finaltime : ℚ) : ℝ); exact_mod_cast h8
          cfl := by show ((d.cfl : ℚ) : ℝ) = _; rw [h9]
          enhance := h5
          thresholds := by
            intro x hx
            obtain ⟨q, hq, rfl⟩ := List.mem_map.mp (show x ∈ d.sensorThresholds.map _ from hx)
            have := List.all_eq_true.mp h14 q hq
            exact_mod_cast of_decide_eq_true this
          valid :=
            { order := h2
              cells := by omega
              line := by
                refine ⟨name, p0, rest, hic, k2, ?_, fun _ => by rw [k1]; decide⟩
                have hlen : rest.length = 7 := by simpa using congrArg List.length k3
                have hpar := params_real h _ _ k3
                unfold setupOf scktubeParams
                rw [k1, if_neg (by decide), if_neg (by decide), if_neg (by decide), if_neg (by decide), if_pos rfl,
                  if_pos (by rw [List.length_cons, hlen]), List.drop_one, List.tail_cons, hpar]
                rfl
              enhance := by show EnhanceFits lib p d.enhance; rw [h5]; exact C67_no_enhancement lib p
              limiter := fun _ => ⟨h4, by
                show _ ≤ (d.sensorThresholds.map _).length
                rw [List.length_map]; split <;> omega⟩ } }
  · cases h13

/-- regressions/sodtube/deck.inp -/
def Ex.sodtube : Str := "#PDE system\neuler\n#RK scheme\nrk4\n#riemann solver\nrusanov\n#initial condition\nscktube 100 0.0 1.0 0.0\t1.0 0.125 0.0 0.1 \n#number of outputs\n2\n#final time\n0.2\n#Courant-Friedrichs-Lewy condition\n0.5\n#order\n2\n#limiting\nadaptive_hr\n#sensor thresholds\n0.01 0.01".toList

/-- regressions/sodtube_modified/deck.inp -/
def Ex.sodtubeModified : Str := "#PDE system\neuler\n#RK scheme\nrk4\n#riemann solver\nrusanov\n#initial condition\nscktube 200 -0.4 1.0 0.75 1.0 0.125 0.0 0.1\n#number of outputs\n2\n#final time\n0.2\n#Courant-Friedrichs-Lewy condition\n0.5\n#order\n2\n#limiting\nadaptive_hr\n#sensor thresholds\n0.001 0.001".toList

/-- regressions/123_problem/deck.inp -/
def Ex.problem123 : Str := "#PDE system\neuler\n#RK scheme\nrk4\n#riemann solver\nroe\n#initial condition\nscktube 100 0.0 1 -2.0 0.4 1.0 2.0 0.4\n#number of outputs\n2\n#final time\n0.15\n#Courant-Friedrichs-Lewy condition\n0.5\n#order\n2\n#limiting\nadaptive_hr\n#sensor thresholds\n0.01 0.01".toList

/-- regressions/blast_wave/deck.inp -/
def Ex.blastWave : Str := "#PDE system\neuler\n#RK scheme\nrk8\n#riemann solver\nroe\n#initial condition\nscktube 100 0.0 1 0.0 1000.0 1.0 0.0 0.01\n#number of outputs\n2\n#final time\n0.012\n#Courant-Friedrichs-Lewy condition\n0.5\n#order\n1\n#limiting\nadaptive_hr\n#sensor thresholds\n0.001 0.001".toList

/-- regressions/strong_shocks/deck.inp -/
def Ex.strongShocks : Str := "#PDE system\neuler\n#RK scheme\nrk4\n#riemann solver\nrusanov\n#initial condition\nscktube 100 -0.2 5.99924 19.5975 460.894 5.99242 -6.19633 46.0950\n#number of outputs\n2\n#final time\n0.035\n#Courant-Friedrichs-Lewy condition\n0.5\n#order\n2\n#limiting\nadaptive_hr\n#sensor thresholds\n0.01 0.01".toList

/-- regressions/stationary_contact/deck.inp -/
def Ex.stationaryContact : Str := "#PDE system\neuler\n#RK scheme\nrk4\n#riemann solver\nrusanov\n#initial condition\nscktube 100 0.0 1.4 0.0 1.0 1.0 0.0 1.0\n#number of outputs\n2\n#final time\n2.0\n#Courant-Friedrichs-Lewy condition\n0.5\n#order\n3\n#limiting\nadaptive_hr\n#sensor thresholds\n0.01 0.01".toList

lemma Ex.sodtube_fits : deckFits Ex.sodtube 2 100 "rk4".toList "rusanov".toList (1 / 2) 0 1 0 1 (1 / 8) 0 (1 / 10) = true := by decide +kernel

lemma Ex.sodtubeModified_fits : deckFits Ex.sodtubeModified 2 200 "rk4".toList "rusanov".toList (1 / 2) (-2 / 5) 1 (3 / 4) 1 (1 / 8) 0 (1 / 10) = true := by decide +kernel

lemma Ex.problem123_fits : deckFits Ex.problem123 2 100 "rk4".toList "roe".toList (1 / 2) 0 1 (-2) (2 / 5) 1 2 (2 / 5) = true := by decide +kernel

lemma Ex.blastWave_fits : deckFits Ex.blastWave 1 100 "rk8".toList "roe".toList (1 / 2) 0 1 0 1000 1 0 (1 / 100) = true := by decide +kernel

lemma Ex.strongShocks_fits : deckFits Ex.strongShocks 2 100 "rk4".toList "rusanov".toList (1 / 2) (-1 / 5) (149981 / 25000) (7839 / 400) (230447 / 500) (299621 / 50000) (-619633 / 100000) (9219 / 200) = true := by decide +kernel

lemma Ex.stationaryContact_fits : deckFits Ex.stationaryContact 3 100 "rk4".toList "rusanov".toList (1 / 2) 0 (7 / 5) 0 1 1 0 1 = true := by decide +kernel

lemma file_named {ft : FloatText ℝ} {s : Sol ℝ} {L : List String} (h : s.kw.fields = L) {n : ℕ} {fs : Files}
    (g : ∀ i (h : i < s.kw.fields.length), fs (nameOf s.kw.fields[i] n) = some (fieldText ft s i)) :
    ∀ i (h : i < L.length), fs (nameOf L[i] n) = some (fieldText ft s i) := by
  subst h; exact g

/-- The six decks of the regression suite are shock tube decks. -/
lemma regression_deck {lib : GaussLib ℝ} {ft : FloatText ℝ} (hd : ReadsDecimals ft)
    {text : Str} (ht : text ∈ [Ex.sodtube, Ex.sodtubeModified, Ex.problem123, Ex.blastWave, Ex.strongShocks, Ex.stationaryContact])
    {fs : Files} {deckname : Str} (hfs : fs deckname = some text) :
    ∃ d p N rk riemann cfl xd rL uL pL rR uR pR, Deck.init.parser ft fs deckname = .ok d ∧ TubeDeck lib ft d p N rk riemann cfl xd rL uL pL rR uR pR := by
  simp only [List.mem_cons, List.not_mem_nil, or_false] at ht
  rcases ht with h | h | h | h | h | h <;> rw [h] at hfs
  · obtain ⟨d, h1, h2⟩ := deckFits_sound (lib := lib) hd Ex.sodtube_fits hfs
    exact ⟨_, _, _, _, _, _, _, _, _, _, _, _, _, h1, h2⟩
  · obtain ⟨d, h1, h2⟩ := deckFits_sound (lib := lib) hd Ex.sodtubeModified_fits hfs
    exact ⟨_, _, _, _, _, _, _, _, _, _, _, _, _, h1, h2⟩
  · obtain ⟨d, h1, h2⟩ := deckFits_sound (lib := lib) hd Ex.problem123_fits hfs
    exact ⟨_, _, _, _, _, _, _, _, _, _, _, _, _, h1, h2⟩
  · obtain ⟨d, h1, h2⟩ := deckFits_sound (lib := lib) hd Ex.blastWave_fits hfs
    exact ⟨_, _, _, _, _, _, _, _, _, _, _, _, _, h1, h2⟩
  · obtain ⟨d, h1, h2⟩ := deckFits_sound (lib := lib) hd Ex.strongShocks_fits hfs
    exact ⟨_, _, _, _, _, _, _, _, _, _, _, _, _, h1, h2⟩
  · obtain ⟨d, h1, h2⟩ := deckFits_sound (lib := lib) hd Ex.stationaryContact_fits hfs
    exact ⟨_, _, _, _, _, _, _, _, _, _, _, _, _, h1, h2⟩

/-- **C69, C70.** The six decks of the regression suite: each one is read and starts, and after any number of iterations the
output files are those of the sets written so far, starting with the initial solution. -/
theorem C70_regression_decks {lib : GaussLib ℝ} (hlib : lib.Ok) {ft : FloatText ℝ} (hd : ReadsDecimals ft) (hft : ∀ x, '\n' ∉ ft.fmt x) (junk : ℕ → ℝ)
    {text : Str} (ht : text ∈ [Ex.sodtube, Ex.sodtubeModified, Ex.problem123, Ex.blastWave, Ex.strongShocks, Ex.stationaryContact])
    {fs : Files} {deckname : Str} (hfs : fs deckname = some text) :
    ∃ d p N ic c s lm, Deck.init.parser ft fs deckname = .ok d ∧ start lib ft junk d = .ok (s, lm) ∧ Started lib d p N ic c s lm ∧
      ∀ k, (program lib ft junk fs deckname k).2 = (integrate ⟨residual, lm.limit⟩ d.rkDeck s k).status ∧
        (program lib ft junk fs deckname k).1 (nameOf "rho" 0) = some (fieldText ft s 0) ∧
        (program lib ft junk fs deckname k).1 (nameOf "rhou" 0) = some (fieldText ft s 1) ∧
        (program lib ft junk fs deckname k).1 (nameOf "E" 0) = some (fieldText ft s 2) := by
  obtain ⟨d, p, N, rk, riemann, cfl, xd, rL, uL, pL, rR, uR, pR, hpar, T⟩ := regression_deck (lib := lib) hd ht hfs
  obtain ⟨c, s, lm, -, hst, S⟩ := C69_starts hlib junk T.valid
  refine ⟨d, p, N, _, c.sol, s, lm, hpar, hst, S, fun k => ?_⟩
  obtain ⟨s', lm', hst', st, rfl, f1, -, ⟨l, hl⟩, f4, -⟩ := C70_files hlib junk T.valid (by have := T.nout; omega) hft hpar k
  rw [hst] at hst'
  cases hst'
  have hk := (S.physics.euler T.system).1
  obtain ⟨-, -, g, -⟩ := f4 ⟨0, 0, s⟩ (by rw [hl]; exact List.mem_cons_self ..)
  have g := file_named (show s.kw.fields = ["rho", "rhou", "E"] by rw [hk]; rfl) g
  exact ⟨f1, g 0 (by simp), g 1 (by simp), g 2 (by simp)⟩

/-! ### Examples -/

/-- A text conversion for the examples: decimal numerals; writing is one digit (it need not be readable here). -/
noncomputable def Ex.decReal : FloatText ℝ where
  fmt x := if x < 0 then "-1".toList else "0".toList
  parse s := match decimal s with | none => .error .valueError | some q => .ok (q : ℝ)

lemma Ex.decReal_reads : ReadsDecimals Ex.decReal := fun s q h => by unfold Ex.decReal; simp only [h]

lemma Ex.decReal_newline (x : ℝ) : '\n' ∉ Ex.decReal.fmt x := by
  show '\n' ∉ (if x < 0 then "-1".toList else "0".toList)
  split <;> decide

def Ex.deckname : Str := "deck.inp".toList

/-- A directory with only a deck in it. -/
def Ex.only (text : Str) : Files := fun n => if n = Ex.deckname then some text else none

lemma Ex.only_self (text : Str) : Ex.only text Ex.deckname = some text := if_pos rfl

/-- The Sod tube, with the Gauss rules of `realGauss`: after any number of iterations the first density file holds the
initial solution. -/
example (k : ℕ) : ∃ s : Sol ℝ, s.NE = 100 ∧
    (program realGauss Ex.decReal (fun _ => 0) (Ex.only Ex.sodtube) Ex.deckname k).1 (nameOf "rho" 0) =
      some (fieldText Ex.decReal s 0) := by
  obtain ⟨d, h1, T⟩ := deckFits_sound (lib := realGauss) Ex.decReal_reads Ex.sodtube_fits
    (Ex.only_self Ex.sodtube)
  obtain ⟨s, lm, -, st, rfl, -, -, ⟨l, hl⟩, f4, -⟩ := C70_files realGauss_ok (fun _ => 0) T.valid (by have := T.nout; omega) Ex.decReal_newline h1 k
  obtain ⟨g1, g2, g3, -⟩ := f4 ⟨0, 0, s⟩ (by rw [hl]; exact List.mem_cons_self ..)
  rw [if_pos T.system] at g2
  exact ⟨s, g1, file_named g2 g3 0 (by simp)⟩

/-- A deck file with one entry. -/
def Ex.sine : Str := "#initial condition\nsinewave 8\n".toList

noncomputable def Ex.sineDeck : Deck ℝ := { Deck.init with ic := "sinewave 8".toList }

lemma Ex.sine_parsed : Deck.init.parser Ex.decReal (Ex.only Ex.sine) Ex.deckname =
    .ok Ex.sineDeck := by
  have h : (Deck.parseLines decText (lines (universalNewlines Ex.sine)) (Deck.init : Deck ℚ)) = .ok { Deck.init with ic := "sinewave 8".toList } := by
    have : lines (universalNewlines Ex.sine) = ["#initial condition\n".toList, "sinewave 8\n".toList] := by decide +kernel
    rw [this]
    unfold Deck.parseLines Deck.entry
    rw [if_neg (by decide +kernel), if_neg (by decide +kernel), if_neg (by decide +kernel), if_pos (by decide +kernel)]
    simp only
    rw [show rstrip "sinewave 8\n".toList = "sinewave 8".toList by decide +kernel]
    rfl
  have := parseLines_real Ex.decReal_reads _ _ _ h
  have hinit : Deck.real Deck.init = Deck.init := by
    unfold Deck.real Deck.init
    simp
  rw [hinit] at this
  unfold Deck.parser
  rw [Ex.only_self]
  simp only
  rw [this]
  unfold Ex.sineDeck Deck.real Deck.init
  simp

lemma Ex.sine_valid : ValidDeck realGauss Ex.decReal Ex.sineDeck 1 8 IC.sinewave where
  order := rfl
  cells := by norm_num
  line := ⟨"sinewave".toList, "8".toList, [], by decide +kernel, by decide +kernel, by unfold setupOf; rw [if_pos rfl], by decide⟩
  enhance := C67_no_enhancement _ _
  limiter := fun h => absurd (show ([] : Str) = "adaptive_hr".toList from h) (by decide)

/-- The sine wave on 8 cells runs to the final time 1. -/
example : ∃ k, (program realGauss Ex.decReal (fun _ => 0) (Ex.only Ex.sine) Ex.deckname k).2 = .done := by
  obtain ⟨s, lm, -, k₀, h⟩ := C71_advection_finishes realGauss_ok (fun _ => 0) Ex.sine_valid
    (show "advection".toList ≠ "euler".toList by decide) (show (2 : ℤ) ≤ 10 by norm_num) (show (0 : ℝ) ≤ 1 by norm_num)
    (show 1 / 10 ^ 14 ≤ ((1 : ℝ) - -1) / (8 : ℕ) * (1 / 2) / (2 * (1 : ℕ) + 1) by norm_num) Ex.decReal_newline Ex.sine_parsed
  exact ⟨k₀, (h k₀ le_rfl).1⟩

/-- The total of the sine wave is the same in all outputs. -/
example (k : ℕ) : ∃ (c : Partial) (s : Sol ℝ) (lm : Limiter ℝ), ∀ o ∈ (integrate ⟨residual, lm.limit⟩ Ex.sineDeck.rkDeck s k).log,
    ∀ f < s.NF, total o.sol f = total c.sol f := by
  obtain ⟨c, s, lm, -, -, h⟩ := C72_conservation realGauss_ok (fun _ => 0) Ex.sine_valid rfl k
  exact ⟨c, s, lm, h⟩

/-- A tube with the same state on both sides: density 1, velocity 2, pressure 1. -/
def Ex.still : Str := "#PDE system\neuler\n#riemann solver\ngodunov\n#initial condition\nscktube 4 0 1 2 1 1 2 1\n#number of outputs\n2\n#order\n3\n#limiting\nadaptive_hr\n#sensor thresholds\n0.1 0.1".toList

lemma Ex.still_fits : deckFits Ex.still 3 4 [] "godunov".toList (1 / 2) 0 1 2 1 1 2 1 = true := by decide +kernel

/-- Its run, from deck to output. -/
lemma Ex.still_run {d : Deck ℝ} (h1 : Deck.init.parser Ex.decReal (Ex.only Ex.still) Ex.deckname = .ok d)
    (T : TubeDeck realGauss Ex.decReal d 3 4 [] "godunov".toList ((1 / 2 : ℚ) : ℝ) ((0 : ℚ) : ℝ) ((1 : ℚ) : ℝ) ((2 : ℚ) : ℝ) ((1 : ℚ) : ℝ) ((1 : ℚ) : ℝ) ((2 : ℚ) : ℝ) ((1 : ℚ) : ℝ)) :
    ∃ s lm, start realGauss Ex.decReal (fun _ => 0) d = .ok (s, lm) ∧
    (∀ k, ∀ o ∈ (integrate ⟨residual, lm.limit⟩ d.rkDeck s k).log, ∀ e, 1 ≤ e → e ≤ 4 → ∀ f : Fin 3, cellPoly o.sol e f = C (Prim.cons (7 / 5) ⟨1, 2, 1⟩ f)) ∧
    ∃ k₀, ∀ k, k₀ ≤ k → (program realGauss Ex.decReal (fun _ => 0) (Ex.only Ex.still) Ex.deckname k).2 = .done := by
  have hc : Prim.c (7 / 5) ⟨1, 2, 1⟩ ≤ 2 := by
    unfold Prim.c
    exact Real.sqrt_le_iff.mpr ⟨by norm_num, by norm_num⟩
  have hc0 : 0 ≤ Prim.c (7 / 5) ⟨1, 2, 1⟩ := Real.sqrt_nonneg _
  obtain ⟨s, lm, h0, h2, k₀, h3⟩ := C73_constant_state realGauss_ok (fun _ => 0) T.valid T.system (γ := 7 / 5) rfl (w := ⟨1, 2, 1⟩) ⟨by norm_num, by norm_num⟩
    (fun x => by simp only [IC.scktube, IC.scktubeF, ite_self]; norm_num [Prim.cons, Prim.energy]; rfl) (Or.inl T.enhance) T.thresholds T.nout.ge T.finaltime.le
    (by
      rw [T.cfl]
      show _ ≤ ((1 : ℝ) - -1) / (4 : ℕ) * _ / ((|(2 : ℝ)| + _) * (2 * (3 : ℕ) + 1))
      rw [abs_of_pos (by norm_num), div_le_div_iff₀ (by norm_num) (by positivity)]
      push_cast
      nlinarith) Ex.decReal_newline h1
  exact ⟨s, lm, h0, h2, k₀, fun k hk => (h3 k hk).1⟩

lemma Ex.still_runs {d : Deck ℝ} (h1 : Deck.init.parser Ex.decReal (Ex.only Ex.still) Ex.deckname = .ok d)
    (T : TubeDeck realGauss Ex.decReal d 3 4 [] "godunov".toList ((1 / 2 : ℚ) : ℝ) ((0 : ℚ) : ℝ) ((1 : ℚ) : ℝ) ((2 : ℚ) : ℝ) ((1 : ℚ) : ℝ) ((1 : ℚ) : ℝ) ((2 : ℚ) : ℝ) ((1 : ℚ) : ℝ))
    (s : Sol ℝ) (lm : Limiter ℝ) (hst : start realGauss Ex.decReal (fun _ => 0) d = .ok (s, lm)) :
    ∃ k, (integrate ⟨residual, lm.limit⟩ d.rkDeck s k).status = .done := by
  obtain ⟨s', lm', h0, -, k, hk⟩ := Ex.still_run h1 T
  rw [hst] at h0
  cases h0
  obtain ⟨s', lm', hst', st, hstd, f1, -⟩ := C70_files realGauss_ok (fun _ => 0) T.valid (by have := T.nout; omega) Ex.decReal_newline h1 k
  rw [hst] at hst'
  cases hst'
  exact ⟨k, by rw [← hstd, ← f1]; exact hk k le_rfl⟩

/-- It runs to the end and the state is in every cell of every output. -/
example : ∃ (d : Deck ℝ) (s : Sol ℝ) (lm : Limiter ℝ), Deck.init.parser Ex.decReal (Ex.only Ex.still) Ex.deckname = .ok d ∧
    (∀ k, ∀ o ∈ (integrate ⟨residual, lm.limit⟩ d.rkDeck s k).log, ∀ e, 1 ≤ e → e ≤ 4 → cellPoly o.sol e 0 = C 1 ∧ cellPoly o.sol e 1 = C 2) ∧
    ∃ k, (program realGauss Ex.decReal (fun _ => 0) (Ex.only Ex.still) Ex.deckname k).2 = .done := by
  obtain ⟨d, h1, T⟩ := deckFits_sound (lib := realGauss) Ex.decReal_reads Ex.still_fits (Ex.only_self Ex.still)
  obtain ⟨s, lm, -, h2, k₀, h3⟩ := Ex.still_run h1 T
  refine ⟨d, s, lm, h1, fun k o ho e e1 e2 => ⟨?_, ?_⟩, k₀, h3 k₀ le_rfl⟩
  · have := h2 k o ho e e1 e2 0
    simpa [Prim.cons] using this
  · have := h2 k o ho e e1 e2 1
    simpa [Prim.cons] using this

end Dg1d.Props
