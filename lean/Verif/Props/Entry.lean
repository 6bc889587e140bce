import Verif.Model.Entry
import Verif.Props.RegressionTests

/-!
# The command line, the git call and the start of the regression tests (C94)
-/

namespace Dg1d.Props
open Text Spec

/-- The words of a command line made of options with their values. -/
def wordsOf (pairs : List (Str × Str)) : List Str := pairs.flatMap fun q => [q.1, q.2]

/-- Options of the parser with values that do not look like options. -/
def DeckOptions (pairs : List (Str × Str)) : Prop := ∀ q ∈ pairs, (q.1 = "-d".toList ∨ q.1 = "--deck".toList) ∧ q.2.head? ≠ some '-'

lemma isDeckOption_iff {w : Str} : isDeckOption w = true ↔ w = "-d".toList ∨ w = "--deck".toList := by
  unfold isDeckOption
  rw [Bool.or_eq_true, beq_iff_eq, beq_iff_eq]

lemma plainWord_iff {w : Str} : plainWord w = true ↔ w.head? ≠ some '-' := by
  unfold plainWord
  rw [bne_iff_ne]

lemma parseArgs_stray : ∀ (args : List Str) (d0 d : Str), parseArgs args d0 true ≠ .deck d
  | [], d0, d => by unfold parseArgs; simp
  | [w], d0, d => by
    unfold parseArgs
    split_ifs
    · simp
    · exact parseArgs_stray [] d0 d
    · simp
  | w :: v :: rest, d0, d => by
    unfold parseArgs
    split_ifs
    · exact parseArgs_stray rest v d
    · simp
    · simp
    · exact parseArgs_stray (v :: rest) d0 d
    · simp

lemma getLast_snd (q : Str × Str) (pairs : List (Str × Str)) (d0 : Str) :
    (((q :: pairs).getLast?).map Prod.snd).getD d0 = ((pairs.getLast?).map Prod.snd).getD q.2 := by
  cases pairs with
  | nil => rfl
  | cons a l => rw [List.getLast?_cons_cons]; simp [List.getLast?_cons]

lemma parseArgs_iff : ∀ (args : List Str) (d0 d : Str), parseArgs args d0 false = .deck d ↔
    ∃ pairs, DeckOptions pairs ∧ args = wordsOf pairs ∧ d = ((pairs.getLast?).map Prod.snd).getD d0
  | [], d0, d => by
    unfold parseArgs
    constructor
    · intro h
      refine ⟨[], by intro q hq; simp at hq, rfl, ?_⟩
      simpa using h.symm
    · rintro ⟨pairs, -, h2, h3⟩
      cases pairs with
      | nil => rw [h3]; rfl
      | cons q l => simp [wordsOf] at h2
  | [w], d0, d => by
    constructor
    · intro h
      unfold parseArgs at h
      split_ifs at h
      exact absurd h (parseArgs_stray [] d0 d)
    · rintro ⟨pairs, -, h2, -⟩
      cases pairs with
      | nil => simp [wordsOf] at h2
      | cons q l => simp [wordsOf] at h2
  | w :: v :: rest, d0, d => by
    unfold parseArgs
    constructor
    · intro h
      split_ifs at h with h1 h2
      · obtain ⟨pairs, p1, p2, p3⟩ := (parseArgs_iff rest v d).mp h
        refine ⟨(w, v) :: pairs, ?_, ?_, ?_⟩
        · intro q hq
          rcases List.mem_cons.mp hq with rfl | hq
          · exact ⟨isDeckOption_iff.mp h1, plainWord_iff.mp h2⟩
          · exact p1 q hq
        · rw [p2]; rfl
        · rw [getLast_snd]; exact p3
      · exact absurd h (parseArgs_stray _ _ _)
    · rintro ⟨pairs, p1, p2, p3⟩
      cases pairs with
      | nil => simp [wordsOf] at p2
      | cons q l =>
        have e : w = q.1 ∧ v = q.2 ∧ rest = wordsOf l := by simpa [wordsOf] using p2
        obtain ⟨rfl, rfl, rfl⟩ := e
        have hq := p1 q (by simp)
        rw [if_pos (isDeckOption_iff.mpr hq.1), if_pos (plainWord_iff.mpr hq.2)]
        refine (parseArgs_iff _ _ d).mpr ⟨l, fun x hx => p1 x (by simp [hx]), rfl, ?_⟩
        rw [getLast_snd] at p3
        exact p3

/-- **C94 (the deck that is read).** The program goes on with the deck `d` exactly if the command line consists of the option `-d` or `--deck` with a value, any number of times
(possibly none); `d` is then the last value, or `deck.inp`. -/
theorem C94_deck_name (args : List Str) (d : Str) : commandLine args = .deck d ↔
    ∃ pairs, DeckOptions pairs ∧ args = wordsOf pairs ∧ d = ((pairs.getLast?).map Prod.snd).getD "deck.inp".toList :=
  parseArgs_iff args _ d

lemma parseArgs_total : ∀ (args : List Str) (d0 : Str) (stray : Bool), (∀ w ∈ args, (w = "-d".toList ∨ w = "--deck".toList) ∨ w.head? ≠ some '-') →
    parseArgs args d0 stray ≠ .notModelled
  | [], d0, stray, _ => by unfold parseArgs; split_ifs <;> simp
  | [w], d0, stray, h => by
    unfold parseArgs
    split_ifs with h1 h2
    · simp
    · unfold parseArgs; simp
    · exfalso
      rcases h w (by simp) with h | h
      · exact h1 (isDeckOption_iff.mpr h)
      · exact h2 (plainWord_iff.mpr h)
  | w :: v :: rest, d0, stray, h => by
    unfold parseArgs
    split_ifs with h1 h2 h3 h4
    · exact parseArgs_total rest v stray fun x hx => h x (by simp [hx])
    · simp
    · exfalso
      rcases h v (by simp) with h | h
      · exact h3 (isDeckOption_iff.mpr h)
      · exact h2 (plainWord_iff.mpr h)
    · exact parseArgs_total (v :: rest) d0 true fun x hx => h x (List.mem_cons_of_mem _ hx)
    · exfalso
      rcases h w (by simp) with h | h
      · exact h1 (isDeckOption_iff.mpr h)
      · exact h4 (plainWord_iff.mpr h)

section
variable (lib : GaussLib ℝ) (ft : FloatText ℝ) (junk : ℕ → ℝ) (fs : Files)

/-- **C94 (the program).** With an answer from git and the options `pairs`, the program runs with the last deck named; with none, with `deck.inp`. -/
theorem C94_starts (version : Str) {pairs : List (Str × Str)} (h : DeckOptions pairs) (k : ℕ) :
    mainPy (.ok version) lib ft junk fs (wordsOf pairs) k =
      some (program lib ft junk fs (((pairs.getLast?).map Prod.snd).getD "deck.inp".toList) k) := by
  unfold mainPy
  rw [(C94_deck_name _ _).mpr ⟨pairs, h, rfl, rfl⟩]

/-- **C94 (usage).** Any other command line of these options and plain words stops the program with nothing written, git or not. -/
theorem C94_usage (git : Except PyErr Str) {args : List Str} (hw : ∀ w ∈ args, (w = "-d".toList ∨ w = "--deck".toList) ∨ w.head? ≠ some '-')
    (hn : ¬ ∃ pairs, DeckOptions pairs ∧ args = wordsOf pairs) (k : ℕ) : mainPy git lib ft junk fs args k = some (fs, .failed (.sysExit "usage")) := by
  unfold mainPy
  cases hc : commandLine args with
  | notModelled => exact absurd hc (parseArgs_total args _ _ hw)
  | usage => rfl
  | deck d =>
    obtain ⟨pairs, p1, p2, -⟩ := (C94_deck_name args d).mp hc
    exact absurd ⟨pairs, p1, p2⟩ hn

/-- **C94 (no git).** If git gives no answer, the program ends with an exception before it reads a deck or writes a file, whatever its arguments. -/
theorem C94_no_git (e : PyErr) (args : List Str) (k : ℕ) {r : Files × Status} (h : mainPy (.error e) lib ft junk fs args k = some r) :
    r.1 = fs ∧ ∃ e', r.2 = .failed e' := by
  unfold mainPy at h
  split at h
  · cases h
  · cases h; exact ⟨rfl, _, rfl⟩
  · cases h; exact ⟨rfl, _, rfl⟩

end

/-! ### The regression driver -/

/-- The same files but for one name. -/
def SameBut (name : Str) (fs fs' : Files) : Prop := ∀ n, n ≠ name → fs n = fs' n

lemma SameBut.write {name : Str} {fs fs' : Files} (h : SameBut name fs fs') (n text : Str) : SameBut name (fs.write n text) (fs'.write n text) := by
  intro m hm
  unfold Files.write
  split_ifs
  · rfl
  · exact h m hm

/-- Results alike: the same exception, or files that are the same but for one name. -/
def AlikeBut (name : Str) : Except PyErr Files → Except PyErr Files → Prop
  | .ok a, .ok b => SameBut name a b
  | .error e, .error e' => e = e'
  | _, _ => False

lemma writeFields_but (ft : FloatText ℝ) {name : Str} (s : Sol ℝ) : ∀ (names : List Str) (field : ℕ) {fs fs' : Files}, SameBut name fs fs' →
    AlikeBut name (s.writeFields ft field names fs) (s.writeFields ft field names fs')
  | [], _, _, _, h => h
  | n :: rest, field, fs, fs', h => by
    unfold Sol.writeFields
    cases s.fieldFile ft field with
    | error e => exact rfl
    | ok text => exact writeFields_but ft s rest (field + 1) (h.write n text)

lemma writeSensors_but (ft : FloatText ℝ) {name : Str} (s : Sol ℝ) (nout : ℕ) {fs fs' : Files} (h : SameBut name fs fs') :
    AlikeBut name (s.writeSensors ft nout fs) (s.writeSensors ft nout fs') := by
  unfold Sol.writeSensors
  split
  · exact h
  · dsimp only
    split_ifs
    · exact rfl
    · exact rfl
    · exact h.write _ _

lemma printer_but (ft : FloatText ℝ) {name : Str} (s : Sol ℝ) (nout : ℕ) {fs fs' : Files} (h : SameBut name fs fs') :
    AlikeBut name (s.printer ft nout fs) (s.printer ft nout fs') := by
  unfold Sol.printer
  have := writeFields_but ft s (formatFnames nout (s.kw.fields.map String.toList)) 0 h
  revert this
  cases s.writeFields ft 0 (formatFnames nout (s.kw.fields.map String.toList)) fs <;>
    cases s.writeFields ft 0 (formatFnames nout (s.kw.fields.map String.toList)) fs' <;> intro this
  · exact this
  · exact this.elim
  · exact this.elim
  · exact writeSensors_but ft s nout this

lemma writeOutputs_but (ft : FloatText ℝ) {name : Str} : ∀ (l : List (OutRec ℝ)) {fs fs' : Files}, SameBut name fs fs' →
    SameBut name (writeOutputs ft l fs).1 (writeOutputs ft l fs').1 ∧ (writeOutputs ft l fs).2 = (writeOutputs ft l fs').2
  | [], _, _, h => ⟨h, rfl⟩
  | o :: l, fs, fs', h => by
    unfold writeOutputs
    have := printer_but ft o.sol o.nout h
    revert this
    cases o.sol.printer ft o.nout fs <;> cases o.sol.printer ft o.nout fs' <;> intro this
    · exact ⟨h, congrArg some this⟩
    · exact this.elim
    · exact this.elim
    · exact writeOutputs_but ft l this

/-- The program does not look at a file that is not its deck. -/
lemma program_but (lib : GaussLib ℝ) (ft : FloatText ℝ) (junk : ℕ → ℝ) {name deck : Str} (hne : deck ≠ name) {fs fs' : Files} (h : SameBut name fs fs') (k : ℕ) :
    SameBut name (program lib ft junk fs deck k).1 (program lib ft junk fs' deck k).1 ∧ (program lib ft junk fs deck k).2 = (program lib ft junk fs' deck k).2 := by
  have hp : (Deck.init : Deck ℝ).parser ft fs deck = Deck.init.parser ft fs' deck := by
    unfold Deck.parser
    rw [h deck hne]
  unfold program
  rw [hp]
  split
  · exact ⟨h, rfl⟩
  · split
    · exact ⟨h, rfl⟩
    · rename_i d _ _ s lm _
      unfold solve
      split_ifs
      · exact ⟨h, rfl⟩
      · dsimp only
        have hw := writeOutputs_but ft (integrate ⟨residual, lm.limit⟩ d.rkDeck s k).log h
        constructor
        · split <;> split <;> simp_all
        · split <;> split <;> simp_all

lemma splitOnP_no_space (s : Str) : ∀ w ∈ s.splitOnP isSpace, ∀ c ∈ w, isSpace c = false := by
  induction s with
  | nil => simp
  | cons a s ih =>
    rw [List.splitOnP_cons_eq_if_modifyHead]
    intro w hw c hc
    split_ifs at hw with ha
    · rcases List.mem_cons.mp hw with rfl | hw
      · simp at hc
      · exact ih w hw c hc
    · cases hs : s.splitOnP isSpace with
      | nil => rw [hs] at hw; simp at hw
      | cons b l =>
        rw [hs, List.modifyHead_cons] at hw
        rw [hs] at ih
        rcases List.mem_cons.mp hw with rfl | hw
        · rcases List.mem_cons.mp hc with rfl | hc
          · simpa using ha
          · exact ih b (by simp) c hc
        · exact ih w (by simp [hw]) c hc

lemma split_no_space {s w : Str} (h : w ∈ split s) : ∀ c ∈ w, isSpace c = false :=
  splitOnP_no_space s w (List.mem_of_mem_filter h)

/-- The command of the driver when its path has no blank. -/
lemma driver_words {codedir : Str} (h : ∀ c ∈ codedir, isSpace c = false) :
    split (codedir ++ "/main.py -d ".toList ++ "deck.inp".toList) = [codedir ++ "/main.py".toList, "-d".toList, "deck.inp".toList] := by
  have e : codedir ++ "/main.py -d ".toList ++ "deck.inp".toList = (codedir ++ "/main.py".toList) ++ ' ' :: "-d deck.inp".toList := by
    rw [List.append_assoc, List.append_assoc]; rfl
  rw [e, split_cons (by simp) _ (by decide)]
  · congr 1
  · intro c hc
    rcases List.mem_append.mp hc with hc | hc
    · exact h c hc
    · have : ∀ c ∈ "/main.py".toList, isSpace c = false := by decide
      exact this c hc

lemma compareFields_but (ft : FloatText ℝ) {fs fs' : Files} : ∀ l : List Str,
    (∀ f ∈ l, fs (f ++ "0000000001.dat".toList) = fs' (f ++ "0000000001.dat".toList) ∧ fs (f ++ "0000000001.gold".toList) = fs' (f ++ "0000000001.gold".toList)) →
    compareFields ft fs l = compareFields ft fs' l
  | [], _ => rfl
  | f :: l, h => by
    unfold compareFields
    have hf : compareField ft fs f = compareField ft fs' f := by
      unfold compareField Files.read
      rw [(h f (by simp)).1, (h f (by simp)).2]
    rw [hf, compareFields_but ft l fun g hg => h g (by simp [hg])]

/-- **C94 (regression tests).** If there is no blank in the path of the checkout and git answers, the test has the result that C84 speaks about, the files are those of the run of the
program, and the log file has its output. -/
theorem C94_launch (E : RegEnv) {version : Str} (hgit : E.git = .ok version) (hpath : ∀ c ∈ E.codedir, isSpace c = false) (fs : Files) :
    ∃ fs', E.launch fs = some (launch E.lib E.ft E.junk fs E.k, fs') ∧ fs' "logfile".toList = some E.log ∧
      ∀ n, n ≠ "logfile".toList → fs' n = (program E.lib E.ft E.junk (removeDat fs) "deck.inp".toList E.k).1 n := by
  have hb : SameBut "logfile".toList ((removeDat fs).write "logfile".toList []) (removeDat fs) := by
    intro n hn
    unfold Files.write
    rw [if_neg hn]
  have hp := (program_but E.lib E.ft E.junk (deck := "deck.inp".toList) (by decide) hb E.k).1
  have hm : mainPy E.git E.lib E.ft E.junk ((removeDat fs).write "logfile".toList []) ["-d".toList, "deck.inp".toList] E.k =
      some (program E.lib E.ft E.junk ((removeDat fs).write "logfile".toList []) "deck.inp".toList E.k) := by
    rw [hgit]
    rfl
  have ho : E.output ["-d".toList, "deck.inp".toList] = E.log := by
    unfold RegEnv.output
    rw [hgit]
    rfl
  set P := (program E.lib E.ft E.junk ((removeDat fs).write "logfile".toList []) "deck.inp".toList E.k) with hP
  have hrun : E.runcode (removeDat fs) "deck.inp".toList = some (P.1.write "logfile".toList E.log) := by
    unfold RegEnv.runcode
    dsimp only
    rw [driver_words hpath]
    dsimp only
    rw [if_pos rfl, hm, ho]
    rfl
  have hsame : ∀ n, n ≠ "logfile".toList → (P.1.write "logfile".toList E.log) n = (program E.lib E.ft E.junk (removeDat fs) "deck.inp".toList E.k).1 n := by
    intro n hn
    unfold Files.write
    rw [if_neg hn]
    exact hp n hn
  refine ⟨P.1.write "logfile".toList E.log, ?_, ?_, hsame⟩
  · unfold RegEnv.launch
    rw [hrun]
    show some (_, _) = some (_, _)
    congr 2
    unfold Dg1d.launch compareWithGolds
    refine compareFields_but E.ft _ fun f hf => ?_
    fin_cases hf <;> exact ⟨hsame _ (by decide), hsame _ (by decide)⟩
  · unfold Files.write
    rw [if_pos rfl]

/-- **C94 (an unpacked archive, or a blank in the path).** If git gives no answer in the directory of the test, or there is a blank in the path of the code, every regression test ends with an
`IOError`, never with a comparison: the files of set 1 have been removed and nothing has been written but an empty log file. -/
theorem C94_not_started (E : RegEnv) (h : (∃ e, E.git = .error e) ∨ ∃ c ∈ E.codedir, isSpace c = true) (fs : Files) :
    E.launch fs = some (.error .ioError, (removeDat fs).write "logfile".toList []) := by
  have hrun : E.runcode (removeDat fs) "deck.inp".toList = some ((removeDat fs).write "logfile".toList []) := by
    by_cases hb : ∃ c ∈ E.codedir, isSpace c = true
    · unfold RegEnv.runcode
      dsimp only
      split
      · rfl
      · rename_i prog args hs
        rw [if_neg]
        rintro rfl
        obtain ⟨c, hc, hcs⟩ := hb
        have := split_no_space (s := E.codedir ++ "/main.py -d ".toList ++ "deck.inp".toList) (w := E.codedir ++ "/main.py".toList) (by rw [hs]; simp) c
          (List.mem_append_left _ hc)
        rw [hcs] at this
        cases this
    · obtain ⟨e, he⟩ := h.resolve_right hb
      have hpath : ∀ c ∈ E.codedir, isSpace c = false := fun c hc => by
        by_contra hx
        exact hb ⟨c, hc, by simpa using hx⟩
      unfold RegEnv.runcode
      dsimp only
      rw [driver_words hpath]
      dsimp only
      rw [if_pos rfl]
      unfold mainPy RegEnv.output
      rw [he]
      show some _ = some _
      congr 1
      funext n
      unfold Files.write
      dsimp only
      split_ifs <;> rfl
  unfold RegEnv.launch
  rw [hrun]
  show some (_, _) = some (_, _)
  congr 2

/-! ## Concrete cases -/

/-- `main.py`, `main.py -d a.inp --deck b.inp`, `main.py a.inp`, `main.py -d`. -/
example : commandLine [] = .deck "deck.inp".toList ∧ commandLine ["-d".toList, "a.inp".toList, "--deck".toList, "b.inp".toList] = .deck "b.inp".toList ∧
    commandLine ["a.inp".toList] = .usage ∧ commandLine ["-d".toList] = .usage := by decide

/-- The options `-d a.inp --deck b.inp`. -/
example (lib : GaussLib ℝ) (ft : FloatText ℝ) (junk : ℕ → ℝ) (fs : Files) (k : ℕ) :
    mainPy (.ok "v1.0".toList) lib ft junk fs ["-d".toList, "a.inp".toList, "--deck".toList, "b.inp".toList] k = some (program lib ft junk fs "b.inp".toList k) :=
  C94_starts lib ft junk fs _ (pairs := [("-d".toList, "a.inp".toList), ("--deck".toList, "b.inp".toList)]) (by unfold DeckOptions; decide) k

/-- A deck named without the option. -/
example (lib : GaussLib ℝ) (ft : FloatText ℝ) (junk : ℕ → ℝ) (fs : Files) (k : ℕ) :
    mainPy (.ok "v1.0".toList) lib ft junk fs ["a.inp".toList] k = some (fs, .failed (.sysExit "usage")) := by
  refine C94_usage lib ft junk fs _ (by decide) ?_ k
  rintro ⟨pairs, -, h⟩
  cases pairs with
  | nil => simp [wordsOf] at h
  | cons q l => simp [wordsOf] at h

/-- Not in a checkout. -/
example (lib : GaussLib ℝ) (ft : FloatText ℝ) (junk : ℕ → ℝ) (fs : Files) (k : ℕ) :
    mainPy (.error .ioError) lib ft junk fs [] k = some (fs, .failed .ioError) := rfl

/-- The uniform tube of C84, in a checkout: there are golds with which the test passes; with the same golds it ends in an error in an unpacked archive, and in a directory called `my code`. -/
example : ∃ (fs : Files) (k : ℕ) (fs' : Files),
    let E : RegEnv := ⟨realGauss, Ex.decReal, fun _ => 0, .ok "v1.0\n".toList, "/home/dg1d/dg1d".toList, "Elapsed time".toList, k⟩
    E.launch fs = some (.pass, fs') ∧ fs' "logfile".toList = some "Elapsed time".toList ∧
      ({ E with git := .error .ioError }.launch fs).map Prod.fst = some (.error .ioError) ∧
      ({ E with codedir := "/home/my code/dg1d".toList }.launch fs).map Prod.fst = some (.error .ioError) := by
  obtain ⟨gold, k, h, -⟩ := Ex.passing
  set fs : Files := fun n => if n = "deck.inp".toList then some Ex.still else
      if n = "rho0000000001.gold".toList then some (gold 0) else if n = "rhou0000000001.gold".toList then some (gold 1) else
      if n = "E0000000001.gold".toList then some (gold 2) else if n = "rho0000000001.dat".toList then some "1, 2".toList else none with hfs
  obtain ⟨fs', h1, h2, -⟩ := C94_launch ⟨realGauss, Ex.decReal, fun _ => 0, .ok "v1.0\n".toList, "/home/dg1d/dg1d".toList, "Elapsed time".toList, k⟩ rfl
    (show ∀ c ∈ "/home/dg1d/dg1d".toList, isSpace c = false by decide) fs
  refine ⟨fs, k, fs', h1.trans ?_, h2, ?_, ?_⟩
  · show some (launch realGauss Ex.decReal (fun _ => 0) fs k, fs') = _
    rw [h]
  · rw [C94_not_started _ (.inl ⟨_, rfl⟩)]
    rfl
  · rw [C94_not_started _ (.inr ⟨' ', show ' ' ∈ "/home/my code/dg1d".toList by decide, by decide⟩)]
    rfl

end Dg1d.Props
