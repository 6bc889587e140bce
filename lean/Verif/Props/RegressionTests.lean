import Verif.Proofs.Regressions
import Verif.Props.Regressions

/-!
# What a passing regression test means (C84)
-/

namespace Dg1d.Props
open Text Spec

/-- The fields compared, in order. -/
def comparedFields : Fin 3 → String := ![ "rho", "rhou", "E"]

/-- **C84 (the files of set 1).** For every Euler deck with two outputs, whatever is in the directory before: if the program
has finished, it is at the final time exactly, the files of set 1 hold the final solution, and reading them back gives its
tables (one row per cell: centroid and `p + 1` coefficients). If not, there is no density file of set 1, also if the
directory had the files of an earlier run. The gold files are untouched. -/
theorem C84_final_set {lib : GaussLib ℝ} {ft : FloatText ℝ} {d : Deck ℝ} {p N : ℕ} {ic : IC.Setup} (hlib : lib.Ok) (junk : ℕ → ℝ) (hd : ValidDeck lib ft d p N ic)
    (hsys : d.system = "euler".toList) (hnout : d.nout = 2) (hT : 0 ≤ d.finaltime) {r : ℝ → ℝ} (hft : ft.Reads r)
    {fs : Files} (hparse : Deck.init.parser ft fs "deck.inp".toList = .ok d) :
    ∃ s lm, start lib ft junk d = .ok (s, lm) ∧ ∀ k, ∃ st, st = integrate ⟨residual, lm.limit⟩ d.rkDeck s k ∧
      (program lib ft junk (removeDat fs) "deck.inp".toList k).2 = st.status ∧
      (st.status = .done → st.sol.t = d.finaltime ∧ st.sol.NE = N ∧ st.sol.u.rows = p + 1 ∧
        ∀ g : Fin 3, (program lib ft junk (removeDat fs) "deck.inp".toList k).1 ((comparedFields g).toList ++ "0000000001.dat".toList) = some (fieldText ft st.sol g) ∧
          loadtxt ft (fieldText ft st.sol g) = .ok (table r st.sol g)) ∧
      (st.status ≠ .done → (program lib ft junk (removeDat fs) "deck.inp".toList k).1 ("rho".toList ++ "0000000001.dat".toList) = none) ∧
      ∀ g, (program lib ft junk (removeDat fs) "deck.inp".toList k).1 ((comparedFields g).toList ++ "0000000001.gold".toList) =
        fs ((comparedFields g).toList ++ "0000000001.gold".toList) := by
  have hparse' : Deck.init.parser ft (removeDat fs) "deck.inp".toList = .ok d := by
    unfold Deck.parser at hparse ⊢
    have : removeDat fs "deck.inp".toList = fs "deck.inp".toList := by
      unfold removeDat; rw [if_neg (by decide)]
    rw [this]; exact hparse
  have hnl : ∀ x, '\n' ∉ ft.fmt x := fun x h => absurd (hft.chars x _ h).1 (by decide)
  obtain ⟨c, s, lm, -, hst, S⟩ := C69_starts hlib junk hd
  refine ⟨s, lm, hst, fun k => ⟨_, rfl, ?_⟩⟩
  obtain ⟨s', lm', hst', st, hstd, f1, f2, ⟨l, hl⟩, f4, f5⟩ := C70_files hlib junk hd (by omega) hnl hparse' k
  rw [hst] at hst'
  cases hst'
  rw [← hstd]
  have hkin : ∀ o ∈ st.log, Kin o.sol s := by
    rw [hstd]
    exact ((kin_invariant S.built S.physics S.limiter).run d.rkDeck (schemeFor d.rkDeck.rk) (Kin.refl s) k).2
  have hN2 : d.rkDeck.nout = 2 := by show d.nout.toNat = 2; rw [hnout]; rfl
  have hfull : st.status ≠ .done → st.log.length + 1 ≤ 2 := by
    rw [hstd, ← hN2]
    exact full_done (env := ⟨residual, lm.limit⟩) (fun a b h => limit_clock a b h) (schemeFor d.rkDeck.rk) d.rkDeck s (by rw [S.clock.1]; exact hT) hN2.ge k
  have hone : natTextPad 10 1 = "0000000001".toList := by decide
  have hname : ∀ f : String, nameOf f 1 = f.toList ++ "0000000001.dat".toList := by
    intro f
    unfold nameOf
    rw [hone]
    rfl
  set P := (program lib ft junk (removeDat fs) "deck.inp".toList k).1 with hP
  have hgoldP : ∀ g, P ((comparedFields g).toList ++ "0000000001.gold".toList) = fs ((comparedFields g).toList ++ "0000000001.gold".toList) := by
    intro g
    rw [f5]
    · unfold removeDat
      rw [if_neg]
      fin_cases g <;> decide
    · intro o ho hon
      have hx : ∀ f : String, (comparedFields g).toList ++ "0000000001.gold".toList ≠ nameOf f o.nout := by
        intro f h
        have := congrArg List.getLast? h
        unfold nameOf at this
        have e1 : ((comparedFields g).toList ++ "0000000001.gold".toList).getLast? = some 'd' := by
          rw [List.getLast?_append]; rfl
        have e2 : (f.toList ++ (natTextPad 10 o.nout ++ ".dat".toList)).getLast? = some 't' := by
          rw [List.getLast?_append, List.getLast?_append]; rfl
        rw [e1, e2] at this
        simp at this
      rcases hon with ⟨f, -, h⟩ | ⟨-, h⟩ <;> exact hx _ h
  have hmem : ∀ g : Fin 3, comparedFields g = (["rho", "rhou", "E"] : List String)[g] := by intro g; fin_cases g <;> rfl
  have htime : st.status = .done → st.sol.t = d.finaltime := by
    rw [hstd]
    exact (C01_clock (schemeFor d.rkDeck.rk) ⟨residual, lm.limit⟩ limit_clock d.rkDeck s k).1
  refine ⟨f1, fun hdone => ?_, fun hne => ?_, hgoldP⟩
  · -- finished: set 1 is the final solution
    obtain ⟨o, ho, hosol⟩ : ∃ o, st.log.getLast? = some o ∧ o.sol = st.sol := by
      rw [hstd] at hdone ⊢
      exact C04_final_output (schemeFor d.rkDeck.rk) ⟨residual, lm.limit⟩ d.rkDeck s k hdone
    have hmemo : o ∈ st.log := List.mem_of_getLast? ho
    have ho1 : o.nout = 1 := by
      have hle : st.log.length ≤ 2 ∧ 2 ≤ st.log.length := by
        rw [hstd] at hdone ⊢
        exact done_length (env := ⟨residual, lm.limit⟩) (fun a b h => limit_clock a b h) (schemeFor d.rkDeck.rk) d.rkDeck s (by rw [S.clock.1]; exact hT) hN2 k hdone
      have h2 : st.log.length = 2 := le_antisymm hle.1 hle.2
      have h3 := congrArg List.getLast? f2
      rw [List.getLast?_map, ho, h2] at h3
      simpa [List.range_succ] using h3
    obtain ⟨o1, o2, o3, -⟩ := f4 o hmemo
    rw [if_pos hsys] at o2
    have o3 := file_named o2 o3
    have hlo := (hkin o hmemo)
    have hrows : st.sol.u.rows = p + 1 := by rw [← hosol, hlo.like.rows, S.built.rows]
    have hbc : Clean o.sol.bcl.val.toList ∧ Clean o.sol.bcr.val.toList := by
      rw [hlo.like.setup.bcl, hlo.like.setup.bcr, S.bc.1, S.bc.2]
      obtain ⟨name, p0, rest, -, -, l3, -⟩ := hd.line
      obtain ⟨-, hbc, -⟩ := setupOf_facts l3
      have c1 : Clean "periodic".toList := by unfold Clean; decide
      have c2 : Clean "zerograd".toList := by unfold Clean; decide
      show Clean ic.bc.toList ∧ Clean ic.bc.toList
      rcases hbc with h | h <;> rw [h]
      exacts [⟨c1, c1⟩, ⟨c2, c2⟩]
    refine ⟨htime hdone, by rw [← hosol]; exact o1, hrows, fun g => ⟨?_, ?_⟩⟩
    · rw [← hname, hmem, ← ho1, ← hosol]
      exact o3 g (by simp)
    · rw [← hosol]
      exact loadtxt_fieldText hft o.sol hbc.1 hbc.2 g
  · have h1 := hfull hne
    have hl1 : st.log = [⟨0, 0, s⟩] := by
      rw [hl] at h1 ⊢
      cases l with
      | nil => rfl
      | cons a l => simp at h1
    show P ("rho".toList ++ "0000000001.dat".toList) = none
    rw [f5]
    · unfold removeDat
      rw [if_pos (by decide)]
    · intro o ho hon
      rw [hl1] at ho
      simp only [List.mem_singleton] at ho
      subst ho
      have hdig : ∀ f ∈ s.kw.fields, NoDigitEnd f.toList := by
        rw [(S.physics.euler hsys).1]
        intro f hf
        exact (C31_fields (ic.gamma.getD (7 / 5)) (String.ofList d.riemann)).1 f (by simp only [List.mem_append]; exact Or.inl (Or.inr hf))
      have hrho : NoDigitEnd "rho".toList := (C31_fields 0 "").1 "rho" (by simp [Euler.physics])
      rw [← hname "rho"] at hon
      rcases hon with ⟨f, hf, h⟩ | ⟨-, h⟩
      · have := (nameOf_inj hrho (hdig f hf) h).2
        simp at this
      · have := (nameOf_inj hrho sensor_noDigit h).2
        simp at this

/-- **C84.** For every Euler deck with two outputs and at least two cells (as in all regression decks), whatever is in the
directory before: the test passes if and only if the program has finished, which is at the final time exactly, and the tables
of density, momentum and energy of the final solution have the shape of the gold tables and differ from them by less than
1.5e-10 in every entry. If the program has not finished (it has failed, or is stopped), the test ends with an `IOError`, also if the
directory had the files of an earlier run. -/
theorem C84_pass_iff {lib : GaussLib ℝ} {ft : FloatText ℝ} {d : Deck ℝ} {p N : ℕ} {ic : IC.Setup} (hlib : lib.Ok) (junk : ℕ → ℝ) (hd : ValidDeck lib ft d p N ic)
    (hsys : d.system = "euler".toList) (hN : 2 ≤ N) (hnout : d.nout = 2) (hT : 0 ≤ d.finaltime) {r : ℝ → ℝ} (hft : ft.Reads r)
    {fs : Files} (hparse : Deck.init.parser ft fs "deck.inp".toList = .ok d) (gold : Fin 3 → List (List ℝ))
    (hgold : ∀ g, ∃ text, fs ((comparedFields g).toList ++ "0000000001.gold".toList) = some text ∧ loadtxt ft text = .ok (gold g) ∧ 2 ≤ (gold g).length) :
    ∃ s lm, start lib ft junk d = .ok (s, lm) ∧ ∀ k, ∃ st, st = integrate ⟨residual, lm.limit⟩ d.rkDeck s k ∧
      (program lib ft junk (removeDat fs) "deck.inp".toList k).2 = st.status ∧
      (launch lib ft junk fs k = .pass ↔ st.status = .done ∧ ∀ g : Fin 3, Spec.TablesClose (15 / 10 * (1 / 10 ^ 10)) (table r st.sol g) (gold g)) ∧
      (st.status = .done → st.sol.t = d.finaltime) ∧
      (st.status ≠ .done → launch lib ft junk fs k = .error .ioError) := by
  obtain ⟨s, lm, hst, H⟩ := C84_final_set hlib junk hd hsys hnout hT hft hparse
  refine ⟨s, lm, hst, fun k => ?_⟩
  obtain ⟨st, hstd, f1, hfin, hnone, hgoldP⟩ := H k
  refine ⟨st, hstd, f1, ?_⟩
  set P := (program lib ft junk (removeDat fs) "deck.inp".toList k).1 with hP
  have hnot : st.status ≠ .done → launch lib ft junk fs k = .error .ioError := by
    intro hne
    unfold launch compareWithGolds compareFields compareField Files.read
    rw [← hP, hnone hne]
    rfl
  refine ⟨?_, fun h => (hfin h).1, hnot⟩
  by_cases hdone : st.status = .done
  swap
  · rw [hnot hdone]
    exact iff_of_false (by simp) fun h => hdone h.1
  obtain ⟨-, o1, hrows, hfile⟩ := hfin hdone
  have hfield : ∀ g : Fin 3, ∃ b, compareField ft P (comparedFields g).toList = .ok b ∧
      (b = true ↔ Spec.TablesClose (15 / 10 * (1 / 10 ^ 10)) (table r st.sol g) (gold g)) := by
    intro g
    obtain ⟨text, g1, g2, g3⟩ := hgold g
    obtain ⟨v, v1, v2⟩ := compareField_eq (hfile g).1 ((hgoldP g).trans g1) (hfile g).2 g2
    refine ⟨v, v1, v2.trans ?_⟩
    refine almostEqual_iff (c := p + 2) ?_ (by omega) ?_ (loadtxt_rows g2) g3
    · intro l hl
      obtain ⟨i, -, rfl⟩ := List.mem_map.mp hl
      simp [hrows]
    · show 2 ≤ ((List.range st.sol.NE).map _).length
      rw [List.length_map, List.length_range, o1]; exact hN
  obtain ⟨b0, a0, i0⟩ := hfield 0
  obtain ⟨b1, a1, i1⟩ := hfield 1
  obtain ⟨b2, a2, i2⟩ := hfield 2
  have hall : (∀ g : Fin 3, Spec.TablesClose (15 / 10 * (1 / 10 ^ 10)) (table r st.sol g) (gold g)) ↔ b0 = true ∧ b1 = true ∧ b2 = true := by
    rw [i0, i1, i2]
    exact ⟨fun h => ⟨h 0, h 1, h 2⟩, fun h g => by fin_cases g; exacts [h.1, h.2.1, h.2.2]⟩
  rw [hall]
  unfold launch compareWithGolds
  rw [← hP]
  refine (compareFields_three (f0 := "rho".toList) (f1 := "rhou".toList) (f2 := "E".toList) a0 a1 a2).trans ?_
  exact ⟨fun h => ⟨hdone, h⟩, fun h => h.2⟩

/-- **C84 (new golds).** If the gold files are copies of the files a finished run has left, the test passes. -/
theorem C84_reproduces {lib : GaussLib ℝ} {ft : FloatText ℝ} {d : Deck ℝ} {p N : ℕ} {ic : IC.Setup} (hlib : lib.Ok) (junk : ℕ → ℝ) (hd : ValidDeck lib ft d p N ic)
    (hsys : d.system = "euler".toList) (hN : 2 ≤ N) (hnout : d.nout = 2) (hT : 0 ≤ d.finaltime) {r : ℝ → ℝ} (hft : ft.Reads r)
    {fs : Files} (hparse : Deck.init.parser ft fs "deck.inp".toList = .ok d) {k : ℕ}
    (hdone : (program lib ft junk (removeDat fs) "deck.inp".toList k).2 = .done)
    (hcopy : ∀ g, fs ((comparedFields g).toList ++ "0000000001.gold".toList) =
      (program lib ft junk (removeDat fs) "deck.inp".toList k).1 ((comparedFields g).toList ++ "0000000001.dat".toList)) :
    launch lib ft junk fs k = .pass := by
  obtain ⟨s, lm, hst, H⟩ := C84_final_set hlib junk hd hsys hnout hT hft hparse
  obtain ⟨st, hstd, f1, hfin, -, -⟩ := H k
  rw [f1] at hdone
  obtain ⟨-, o1, -, hfile⟩ := hfin hdone
  obtain ⟨s', lm', hst', H'⟩ := C84_pass_iff hlib junk hd hsys hN hnout hT hft hparse (fun g => table r st.sol g) (fun g =>
    ⟨_, (hcopy g).trans (hfile g).1, (hfile g).2, by
      show 2 ≤ ((List.range st.sol.NE).map _).length
      rw [List.length_map, List.length_range, o1]; exact hN⟩)
  rw [hst] at hst'
  cases hst'
  obtain ⟨st', hstd', -, h, -⟩ := H' k
  rw [← hstd] at hstd'
  subst hstd'
  refine h.mpr ⟨hdone, fun g => ?_⟩
  refine List.forall₂_same.mpr fun l _ => List.forall₂_same.mpr fun x _ => ?_
  rw [sub_self, abs_zero]
  norm_num

/-- **C84 (the suite).** The six decks of the regression suite: the test passes if and only if the program finishes and the
three tables of the solution at the final time agree with the golds in shape and to 1.5e-10 in every entry. -/
theorem C84_regression_suite {lib : GaussLib ℝ} (hlib : lib.Ok) {ft : FloatText ℝ} (hdec : ReadsDecimals ft) {r : ℝ → ℝ} (hft : ft.Reads r) (junk : ℕ → ℝ)
    {text : Str} (ht : text ∈ [Ex.sodtube, Ex.sodtubeModified, Ex.problem123, Ex.blastWave, Ex.strongShocks, Ex.stationaryContact])
    {fs : Files} (hfs : fs "deck.inp".toList = some text) (gold : Fin 3 → List (List ℝ))
    (hgold : ∀ g, ∃ text, fs ((comparedFields g).toList ++ "0000000001.gold".toList) = some text ∧ loadtxt ft text = .ok (gold g) ∧ 2 ≤ (gold g).length) :
    ∃ d s lm, Deck.init.parser ft fs "deck.inp".toList = .ok d ∧ start lib ft junk d = .ok (s, lm) ∧ ∀ k, ∃ st, st = integrate ⟨residual, lm.limit⟩ d.rkDeck s k ∧
      (launch lib ft junk fs k = .pass ↔ st.status = .done ∧ st.sol.t = d.finaltime ∧
        ∀ g : Fin 3, Spec.TablesClose (15 / 10 * (1 / 10 ^ 10)) (table r st.sol g) (gold g)) ∧
      (st.status ≠ .done → launch lib ft junk fs k = .error .ioError) := by
  obtain ⟨d, p, N, rk, riemann, cfl, xd, rL, uL, pL, rR, uR, pR, hpar, T⟩ := regression_deck (lib := lib) hdec ht hfs
  obtain ⟨s, lm, hst, H⟩ := C84_pass_iff hlib junk T.valid T.system T.cells T.nout T.finaltime.le hft hpar gold hgold
  refine ⟨d, s, lm, hpar, hst, fun k => ?_⟩
  obtain ⟨st, h1, -, h2, h3, h4⟩ := H k
  exact ⟨st, h1, h2.trans ⟨fun h => ⟨h.1, h3 h.1, h.2⟩, fun h => ⟨h.1, h.2.2⟩⟩, h4⟩

/-- **C84, other files.** A test leaves alone every file whose name does not end in `.dat` or begins with a dot; a visible
`.dat` file that is there afterwards was written by this run. -/
theorem C84_other_files {lib : GaussLib ℝ} {ft : FloatText ℝ} {d : Deck ℝ} {p N : ℕ} {ic : IC.Setup} (hlib : lib.Ok) (junk : ℕ → ℝ) (hd : ValidDeck lib ft d p N ic)
    (hsys : d.system = "euler".toList) (hnout : d.nout = 2) {r : ℝ → ℝ} (hft : ft.Reads r)
    {fs : Files} (hparse : Deck.init.parser ft fs "deck.inp".toList = .ok d) (k : ℕ) :
    (∀ n : Str, ((∃ m, n = '.' :: m) ∨ ∀ m, n ≠ m ++ ".dat".toList) → (program lib ft junk (removeDat fs) "deck.inp".toList k).1 n = fs n) ∧
    ∀ n text, n.head? ≠ some '.' → (∃ m, n = m ++ ".dat".toList) → (program lib ft junk (removeDat fs) "deck.inp".toList k).1 n = some text →
      ∃ f ∈ ["rho", "rhou", "E", "sensor"], ∃ j, n = f.toList ++ (natTextPad 10 j ++ ".dat".toList) := by
  have hparse' : Deck.init.parser ft (removeDat fs) "deck.inp".toList = .ok d := by
    unfold Deck.parser at hparse ⊢
    have : removeDat fs "deck.inp".toList = fs "deck.inp".toList := by
      unfold removeDat; rw [if_neg (by decide)]
    rw [this]; exact hparse
  have hnl : ∀ x, '\n' ∉ ft.fmt x := fun x h => absurd (hft.chars x _ h).1 (by decide)
  obtain ⟨s, lm, -, st, -, -, -, -, f4, f5⟩ := C70_files hlib junk hd (by omega) hnl hparse' k
  have hout : ∀ o ∈ st.log, ∀ n, OutName o n → ∃ f ∈ ["rho", "rhou", "E", "sensor"], ∃ j, n = f.toList ++ (natTextPad 10 j ++ ".dat".toList) := by
    intro o ho n hn
    have h2 := (f4 o ho).2.1
    rw [if_pos hsys] at h2
    rcases hn with ⟨f, hf, rfl⟩ | ⟨-, rfl⟩
    · rw [h2] at hf
      exact ⟨f, List.mem_append_left ["sensor"] hf, o.nout, rfl⟩
    · exact ⟨"sensor", by simp, o.nout, rfl⟩
  constructor
  · intro n hn
    rw [f5 n]
    · unfold removeDat
      rw [if_neg]
      unfold isDat
      rcases hn with ⟨m, rfl⟩ | hn
      · simp
      · rw [Bool.and_eq_true, not_and]
        intro h
        rw [List.isSuffixOf_iff_suffix] at h
        obtain ⟨m, hm⟩ := h
        exact absurd hm.symm (hn m)
    · intro o ho hon
      obtain ⟨f, hf, j, rfl⟩ := hout o ho n hon
      rcases hn with ⟨m, hm⟩ | hn
      · simp only [List.mem_cons, List.not_mem_nil, or_false] at hf
        rcases hf with rfl | rfl | rfl | rfl <;> exact absurd (congrArg List.head? hm) (by simp)
      · exact hn (f.toList ++ natTextPad 10 j) (by rw [List.append_assoc])
  · intro n text hdot hdat hP
    by_contra hcon
    rw [f5 n fun o ho hon => hcon (hout o ho n hon)] at hP
    unfold removeDat at hP
    rw [if_pos] at hP
    · cases hP
    · unfold isDat
      obtain ⟨m, rfl⟩ := hdat
      rw [Bool.and_eq_true, List.isSuffixOf_iff_suffix]
      exact ⟨⟨m, rfl⟩, by simpa using hdot⟩

/-! ### Example: a test that passes -/

lemma Ex.decReal_reads_back : Ex.decReal.Reads fun x => if x < 0 then -1 else 0 where
  round x := by
    rcases lt_or_ge x 0 with h | h
    · rw [show Ex.decReal.fmt x = "-1".toList from if_pos h, if_pos h, Ex.decReal_reads _ (-1) (by decide +kernel)]; norm_num
    · rw [show Ex.decReal.fmt x = "0".toList from if_neg (not_lt.mpr h), if_neg (not_lt.mpr h), Ex.decReal_reads _ 0 (by decide +kernel)]; norm_num
  chars x := by
    show ∀ c ∈ (if x < 0 then "-1".toList else "0".toList), _
    split_ifs <;> decide
  nonempty x := by
    show (if x < 0 then "-1".toList else "0".toList) ≠ []
    split_ifs <;> decide

/-- The tube with the same state on both sides, in a directory with gold files (and a file of an earlier run): there are golds
with which the test passes after some number of steps; while the program has not finished, it does not. -/
theorem Ex.passing : ∃ (gold : Fin 3 → Str) (k : ℕ),
    let fs : Files := fun n => if n = "deck.inp".toList then some Ex.still else
      if n = "rho0000000001.gold".toList then some (gold 0) else if n = "rhou0000000001.gold".toList then some (gold 1) else
      if n = "E0000000001.gold".toList then some (gold 2) else if n = "rho0000000001.dat".toList then some "1, 2".toList else none
    launch realGauss Ex.decReal (fun _ => 0) fs k = .pass ∧ launch realGauss Ex.decReal (fun _ => 0) fs 0 = .error .ioError := by
  obtain ⟨d, h1, T⟩ := deckFits_sound (lib := realGauss) Ex.decReal_reads Ex.still_fits (Ex.only_self Ex.still)
  have hrun := Ex.still_runs h1 T
  obtain ⟨s, lm, hst, H⟩ := C84_final_set realGauss_ok (fun _ => 0) T.valid T.system T.nout T.finaltime.le Ex.decReal_reads_back h1
  obtain ⟨k, hk⟩ := hrun s lm hst
  obtain ⟨st, hstd, f1, hfin, -⟩ := H k
  have hdone : st.status = .done := by rw [hstd]; exact hk
  refine ⟨fun g => fieldText Ex.decReal st.sol g, k, ?_⟩
  intro fs
  have hparse : Deck.init.parser Ex.decReal fs "deck.inp".toList = .ok d := by
    unfold Deck.parser at h1 ⊢
    rw [show Ex.only Ex.still Ex.deckname = some Ex.still from if_pos rfl] at h1
    rw [show fs "deck.inp".toList = some Ex.still from if_pos rfl]
    exact h1
  obtain ⟨s', lm', hst', H'⟩ := C84_pass_iff realGauss_ok (fun _ => 0) T.valid T.system T.cells T.nout T.finaltime.le Ex.decReal_reads_back hparse
    (fun g => table (fun x => if x < 0 then -1 else 0) st.sol g) (fun g => ⟨fieldText Ex.decReal st.sol g, by fin_cases g <;> rfl, ((hfin hdone).2.2.2 g).2, by
      show 2 ≤ ((List.range st.sol.NE).map _).length
      rw [List.length_map, List.length_range, (hfin hdone).2.1]; exact T.cells⟩)
  rw [hst] at hst'
  cases hst'
  constructor
  · obtain ⟨st', hstd', -, h, -⟩ := H' k
    rw [← hstd] at hstd'
    subst hstd'
    refine h.mpr ⟨hdone, fun g => ?_⟩
    refine List.forall₂_same.mpr fun l _ => List.forall₂_same.mpr fun x _ => ?_
    rw [sub_self, abs_zero]
    norm_num
  · obtain ⟨st0, hst0, -, -, -, h⟩ := H' 0
    refine h ?_
    rw [hst0]
    exact init_status_ne_done d.rkDeck s

/-- `.old.dat` survives a test, `old.dat` does not. -/
example (k : ℕ) : let fs : Files := fun n => if n = "deck.inp".toList then some Ex.still else if n = ".old.dat".toList then some "x".toList else
      if n = "old.dat".toList then some "y".toList else none
    (program realGauss Ex.decReal (fun _ => 0) (removeDat fs) "deck.inp".toList k).1 ".old.dat".toList = some "x".toList ∧
    (program realGauss Ex.decReal (fun _ => 0) (removeDat fs) "deck.inp".toList k).1 "old.dat".toList = none := by
  intro fs
  obtain ⟨d, h1, T⟩ := deckFits_sound (lib := realGauss) Ex.decReal_reads Ex.still_fits (Ex.only_self Ex.still)
  have hparse : Deck.init.parser Ex.decReal fs "deck.inp".toList = .ok d := by
    unfold Deck.parser at h1 ⊢
    rw [show Ex.only Ex.still Ex.deckname = some Ex.still from if_pos rfl] at h1
    rw [show fs "deck.inp".toList = some Ex.still from if_pos rfl]
    exact h1
  obtain ⟨a, b⟩ := C84_other_files realGauss_ok (fun _ => 0) T.valid T.system T.nout Ex.decReal_reads_back hparse k
  refine ⟨(a _ (.inl ⟨"old.dat".toList, by decide⟩)).trans rfl, ?_⟩
  rcases hP : (program realGauss Ex.decReal (fun _ => 0) (removeDat fs) "deck.inp".toList k).1 "old.dat".toList with _ | text
  · rfl
  · obtain ⟨f, hf, j, hj⟩ := b "old.dat".toList text (by decide) ⟨"old".toList, by decide⟩ hP
    have := congrArg List.head? hj
    simp only [List.mem_cons, List.not_mem_nil, or_false] at hf
    rcases hf with rfl | rfl | rfl | rfl <;> simp at this

end Dg1d.Props
