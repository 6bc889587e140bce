import Verif.Props.Study
import Verif.Props.Log

/-!
# The loops of the convergence study (C92)
-/

namespace Dg1d.Props
open Text Spec

lemma natText_inj {m n : ℕ} (h : natText m = natText n) : m = n := by
  have := congrArg intOf h
  rw [intOf_natText, intOf_natText] at this
  exact_mod_cast Option.some.inj this

section
variable (E : StudyEnv) (F : ℕ → ℕ → Files)

/-- The files with a new directory for `N` behind those for `l` turn into `F p N` in it. -/
def Leaves : Prop := ∀ (p : ℕ) (l : List ℕ) (N : ℕ) (D : StudyDisk), D (natText p) = some ((l.map fun M => (natText M, F p M)) ++ [(natText N, fun _ => none)]) →
  E.runcode D p N (writeDeck (fun _ => none) (studyDir E.datadir p N) (studyDefs p N)).1 (writeDeck (fun _ => none) (studyDir E.datadir p N) (studyDefs p N)).2 = F p N

def studyEntries (p : ℕ) (l : List ℕ) : List (Str × Files) := l.map fun N => (natText N, F p N)

def withOrder (D : StudyDisk) (p : ℕ) (l : List ℕ) : StudyDisk := fun n => if n = natText p then some (studyEntries F p l) else D n

lemma studyEntries_fst (p : ℕ) (l : List ℕ) : (studyEntries F p l).map Prod.fst = l.map natText := by
  unfold studyEntries
  rw [List.map_map]
  rfl

lemma mem_names {l : List ℕ} {N : ℕ} : natText N ∈ l.map natText ↔ N ∈ l := by
  constructor
  · intro h
    obtain ⟨M, hM, e⟩ := List.mem_map.mp h
    rw [← natText_inj e]; exact hM
  · exact fun h => List.mem_map_of_mem h

variable {E F}

lemma studyStep_new (H : Leaves E F) {D : StudyDisk} {p : ℕ} {l : List ℕ} (hD : (D (natText p)).getD [] = studyEntries F p l) {N : ℕ} (hN : N ∉ l) :
    E.step p D N = .ok (withOrder F D p (l ++ [N])) := by
  unfold StudyEnv.step StudyDisk.makedirs
  rw [hD]
  dsimp only
  rw [studyEntries_fst, if_neg (fun h => hN (mem_names.mp h))]
  show Except.ok _ = _
  congr 1
  funext n
  unfold StudyDisk.update withOrder
  by_cases hn : n = natText p
  · simp only [if_pos hn, Option.map_some, Option.some.injEq]
    unfold studyEntries
    rw [List.map_append, List.map_append]
    congr 1
    · rw [List.map_map]
      refine List.map_congr_left fun M hM => ?_
      show (if natText M = natText N then _ else _) = _
      rw [if_neg]
      intro e
      exact hN (natText_inj e ▸ hM)
    · simp only [List.map_cons, List.map_nil, if_true]
      rw [H p l N _ (if_pos rfl)]
  · simp only [if_neg hn]

lemma studyStep_old {D : StudyDisk} {p : ℕ} {l : List ℕ} (hD : (D (natText p)).getD [] = studyEntries F p l) {N : ℕ} (hN : N ∈ l) :
    E.step p D N = .error .ioError := by
  unfold StudyEnv.step StudyDisk.makedirs
  rw [hD]
  dsimp only
  rw [studyEntries_fst, if_pos (mem_names.mpr hN)]
  rfl

lemma withOrder_self (D : StudyDisk) (p : ℕ) (l : List ℕ) : withOrder F D p l (natText p) = some (studyEntries F p l) := if_pos rfl

lemma withOrder_twice (D : StudyDisk) (p : ℕ) (l l' : List ℕ) : withOrder F (withOrder F D p l) p l' = withOrder F D p l' := by
  funext n
  unfold withOrder
  split_ifs <;> rfl

lemma studyFold (H : Leaves E F) {p : ℕ} : ∀ (rest : List ℕ) {l : List ℕ} {D : StudyDisk}, (D (natText p)).getD [] = studyEntries F p l → l.Nodup →
    rest ≠ [] → rest.foldlM (E.step p) D = if (l ++ rest).Nodup then .ok (withOrder F D p (l ++ rest)) else .error .ioError
  | [], _, _, _, _, h => absurd rfl h
  | N :: rest, l, D, hD, hl, _ => by
    rw [List.foldlM_cons]
    by_cases hN : N ∈ l
    · rw [studyStep_old hD hN, if_neg]
      · rfl
      · intro h
        exact (List.nodup_append.mp h).2.2 N hN N (by simp) rfl
    · rw [studyStep_new H hD hN]
      have hl' : (l ++ [N]).Nodup := by
        rw [List.nodup_append]
        exact ⟨hl, by simp, by rintro a ha b hb rfl; simp at hb; exact hN (hb ▸ ha)⟩
      show rest.foldlM _ _ = _
      cases hr : rest with
      | nil => rw [if_pos hl']; rfl
      | cons M r =>
        rw [studyFold H (M :: r) (by rw [withOrder_self]; rfl) hl' (by simp), withOrder_twice, List.append_assoc]
        rfl

lemma studyOrder_eq (H : Leaves E F) (D : StudyDisk) (p : ℕ) {resolutions : List ℕ} (hne : resolutions ≠ []) :
    E.order resolutions D p = if resolutions.Nodup then .ok (withOrder F D p resolutions) else .error .ioError := by
  unfold StudyEnv.order
  rw [studyFold H resolutions (l := []) (by unfold StudyDisk.rmtree; rw [if_pos rfl]; rfl) List.nodup_nil hne, List.nil_append]
  have : withOrder F (D.rmtree (natText p)) p resolutions = withOrder F D p resolutions := by
    funext n
    unfold withOrder StudyDisk.rmtree
    split_ifs <;> rfl
  rw [this]

lemma studyScript_eq (H : Leaves E F) {resolutions : List ℕ} (hne : resolutions ≠ []) (hnd : resolutions.Nodup) : ∀ (orders : List ℕ) (D : StudyDisk),
    ∃ D', E.script orders resolutions D = .ok D' ∧ (∀ p ∈ orders, D' (natText p) = some (studyEntries F p resolutions)) ∧
      ∀ n, (∀ p ∈ orders, n ≠ natText p) → D' n = D n
  | [], D => ⟨D, rfl, by simp, by simp⟩
  | p :: orders, D => by
    obtain ⟨D', h1, h2, h3⟩ := studyScript_eq H hne hnd orders (withOrder F D p resolutions)
    refine ⟨D', ?_, ?_, ?_⟩
    · unfold StudyEnv.script at h1 ⊢
      rw [List.foldlM_cons, studyOrder_eq H D p hne, if_pos hnd]
      exact h1
    · intro q hq
      by_cases hqo : q ∈ orders
      · exact h2 q hqo
      · have : q = p := by simpa [hqo] using hq
        subst this
        rw [h3 _ (fun r hr e => hqo (by rw [natText_inj e]; exact hr)), withOrder_self]
    · intro n hn
      rw [h3 n (fun q hq => hn q (List.mem_cons_of_mem _ hq))]
      unfold withOrder
      rw [if_neg (hn p (by simp))]

lemma studyScript_again (H : Leaves E F) {resolutions : List ℕ} (hne : resolutions ≠ []) (hnd : resolutions.Nodup) (orders : List ℕ) (D : StudyDisk) :
    ∃ D', E.script orders resolutions D = .ok D' ∧ (∀ p ∈ orders, D' (natText p) = some (studyEntries F p resolutions)) ∧
      (∀ n, (∀ p ∈ orders, n ≠ natText p) → D' n = D n) ∧ E.script orders resolutions D' = .ok D' := by
  obtain ⟨D, h1, h2, h3⟩ := studyScript_eq H hne hnd orders D
  refine ⟨D, h1, h2, h3, ?_⟩
  obtain ⟨D', g1, g2, g3⟩ := studyScript_eq H hne hnd orders D
  rw [g1]
  congr 1
  funext n
  by_cases hn : ∃ p ∈ orders, n = natText p
  · obtain ⟨p, hp, rfl⟩ := hn
    rw [g2 p hp, h2 p hp]
  · push Not at hn
    exact g3 n hn

end

/-! ### With the program in a place the shell finds -/

/-- The directory of the program is given by its full path (ending in a slash), there are no blanks in the names, and the program is there, outside of the data directory. -/
structure Found (E : StudyEnv) : Prop where
  full : E.codedir.head? = some '/'
  blanks : ∀ c ∈ E.codedir ++ E.datadir, isSpace c = false
  away : ¬ pathParts E.datadir <+: walk [] (pathParts (E.codedir ++ "main.py".toList))
  there : E.outside (walk [] (pathParts (E.codedir ++ "main.py".toList))) = true

/-- The files a run of the program leaves, with its log. -/
noncomputable def runFiles (E : StudyEnv) (p N : ℕ) : Files :=
  ((studyRun E.lib E.ft E.junk (Files.write (fun _ => none) "logfile".toList []) (studyDir E.datadir p N) p N E.k).1).write "logfile".toList (E.log p N)

lemma runFiles_log (E : StudyEnv) (p N : ℕ) : runFiles E p N "logfile".toList = some (E.log p N) := by
  unfold runFiles Files.write
  dsimp only
  rw [if_pos rfl]

lemma deckname_ne (dir : Str) : dir ++ "/deck.inp".toList ≠ "logfile".toList := by
  intro h
  have := congrArg List.getLast? h
  rw [List.getLast?_append_of_ne_nil _ (by decide)] at this
  revert this
  decide

lemma deck_log (dir : Str) (p N : ℕ) : writeDeck (Files.write (fun _ => none) "logfile".toList []) dir (studyDefs p N) =
    ((writeDeck (fun _ => none) dir (studyDefs p N)).1.write "logfile".toList [], (writeDeck (fun _ => none) dir (studyDefs p N)).2) := by
  unfold writeDeck
  dsimp only
  congr 1
  funext n
  unfold Files.write
  by_cases h1 : n = dir ++ "/deck.inp".toList
  · rw [if_pos h1, if_neg (by rw [h1]; exact deckname_ne dir), if_pos h1]
  · rw [if_neg h1, if_neg h1]

lemma command_words {codedir deckname : Str} (h : ∀ c ∈ codedir, isSpace c = false) :
    split (codedir ++ "main.py -d ".toList ++ deckname) = (codedir ++ "main.py".toList) :: "-d".toList :: split deckname := by
  have e : codedir ++ "main.py -d ".toList ++ deckname = (codedir ++ "main.py".toList) ++ ' ' :: ("-d".toList ++ ' ' :: deckname) := by
    simp only [List.append_assoc]
    rfl
  have hm : ∀ c ∈ "main.py".toList, isSpace c = false := by decide
  rw [e, split_cons (by simp) (fun c hc => (List.mem_append.mp hc).elim (h c) (hm c)) (by decide), split_cons (by decide) (by decide) (by decide)]

lemma Found.leaves {E : StudyEnv} (h : Found E) : Leaves E (runFiles E) := by
  intro p l N D _
  have hc : ∀ c ∈ E.codedir, isSpace c = false := fun c hc => h.blanks c (List.mem_append.mpr (.inl hc))
  have hn : ∀ n, ∀ c ∈ natText n, isSpace c = false := fun n c hc => (Clean.natText n c hc).1
  have hdk : ∀ c ∈ studyDir E.datadir p N ++ "/deck.inp".toList, isSpace c = false := by
    have hl : ∀ c ∈ "/deck.inp".toList, isSpace c = false := by decide
    intro c hc
    unfold studyDir at hc
    rcases List.mem_append.mp hc with hc | hc
    · rcases List.mem_append.mp hc with hc | hc
      · rcases List.mem_append.mp hc with hc | hc
        · exact h.blanks c (List.mem_append.mpr (.inr hc))
        · rcases List.mem_cons.mp hc with rfl | hc
          · decide
          · exact hn p c hc
      · rcases List.mem_cons.mp hc with rfl | hc
        · decide
        · exact hn N c hc
    · exact hl c hc
  have hthere : E.mainThere D p N (E.codedir ++ "main.py".toList) = true := by
    have hh : (E.codedir ++ "main.py".toList).head? = some '/' := by
      rcases hcd : E.codedir with _ | ⟨c, s⟩
      · exact absurd h.full (by simp [hcd])
      · have := h.full; rw [hcd] at this; simpa using this
    unfold StudyEnv.mainThere resolvePath
    dsimp only
    rw [if_pos hh, if_neg h.away, h.there]
  unfold StudyEnv.runcode runFiles studyRun
  rw [deck_log]
  dsimp only
  rw [command_words hc]
  have : split (writeDeck (fun _ => none) (studyDir E.datadir p N) (studyDefs p N)).2 = [studyDir E.datadir p N ++ "/deck.inp".toList] :=
    split_word (a := studyDir E.datadir p N ++ "/deck.inp".toList) (by simp) hdk
  rw [this]
  show (if E.mainThere D p N (E.codedir ++ "main.py".toList) = true ∧ "-d".toList = "-d".toList then _ else _) = _
  rw [if_pos ⟨hthere, rfl⟩]
  rfl

/-! ### As committed -/

/-- The files run.py leaves when the program is not started. -/
def deckFiles (E : StudyEnv) (p N : ℕ) : Files := (writeDeck (fun _ => none) (studyDir E.datadir p N) (studyDefs p N)).1.write "logfile".toList []

lemma committed_leaves {E : StudyEnv} (h : E.codedir = committedCodedir) : Leaves E (deckFiles E) := by
  intro p l N D hD
  have hthere : E.mainThere D p N (committedCodedir ++ "main.py".toList) = false := by
    have hq : resolvePath (pathParts E.datadir ++ [natText p, natText N]) (committedCodedir ++ "main.py".toList) = pathParts E.datadir ++ [natText p, "dg1d".toList, "main.py".toList] := by
      have h1 : pathParts (committedCodedir ++ "main.py".toList) = ["..".toList, "dg1d".toList, "main.py".toList] := by decide
      have h2 : (committedCodedir ++ "main.py".toList).head? ≠ some '/' := by decide
      unfold resolvePath
      rw [if_neg h2, h1]
      unfold walk
      rw [if_pos rfl, show pathParts E.datadir ++ [natText p, natText N] = (pathParts E.datadir ++ [natText p]) ++ [natText N] by simp, List.dropLast_concat]
      unfold walk
      rw [if_neg (by decide), if_neg (by decide)]
      unfold walk
      rw [if_neg (by decide), if_neg (by decide)]
      unfold walk
      simp
    unfold StudyEnv.mainThere
    dsimp only
    rw [hq, if_pos (List.prefix_append _ _), List.drop_left]
    show D.hasFile (natText p) "dg1d".toList "main.py".toList = false
    unfold StudyDisk.hasFile
    rw [hD]
    rw [List.any_eq_false]
    intro x hx
    have hname : ∃ M, x.1 = natText M := by
      rcases List.mem_append.mp hx with hx | hx
      · obtain ⟨M, -, rfl⟩ := List.mem_map.mp hx; exact ⟨M, rfl⟩
      · rw [List.mem_singleton.mp hx]; exact ⟨N, rfl⟩
    obtain ⟨M, hM⟩ := hname
    have : x.1 ≠ "dg1d".toList := by
      rw [hM]
      intro e
      have hd : 'd' ∈ natText M := by rw [e]; decide
      obtain ⟨d, hd, e⟩ := mem_natText hd
      interval_cases d <;> revert e <;> decide
    rw [decide_eq_false this]
    simp
  unfold StudyEnv.runcode deckFiles
  dsimp only
  rw [h, command_words (by decide)]
  split
  · rename_i prog flag d e
    rw [← (List.cons.inj e).1, if_neg]
    rw [hthere]
    simp
  · rfl

/-- **C92 (run.py as it is).** `codedir` is `'../dg1d/'`, seen from the directory of the run, which is two levels below: the shell looks for `order/dg1d/main.py`, which is
never there. For all lists of orders and of different resolutions and whatever is on the disk and outside: the script ends without an exception, the program is never started, and each directory holds
the deck and an empty log file, nothing else. Directories of other orders are left alone; running the script again changes nothing. -/
theorem C92_committed (E : StudyEnv) (hE : E.codedir = committedCodedir) (orders resolutions : List ℕ) (hne : resolutions ≠ []) (hnd : resolutions.Nodup) (disk : StudyDisk) :
    ∃ disk', E.script orders resolutions disk = .ok disk' ∧
      (∀ p ∈ orders, ∃ l, disk' (natText p) = some l ∧ l.map Prod.fst = resolutions.map natText ∧ ∀ x ∈ l, ∃ N ∈ resolutions, x.1 = natText N ∧ x.2 "logfile".toList = some [] ∧
        ∀ n, (x.2 n).isSome ↔ n = "logfile".toList ∨ n = E.datadir ++ '/' :: natText p ++ '/' :: natText N ++ "/deck.inp".toList) ∧
      (∀ n, (∀ p ∈ orders, n ≠ natText p) → disk' n = disk n) ∧
      E.script orders resolutions disk' = .ok disk' := by
  obtain ⟨D, h1, h2, h3, h4⟩ := studyScript_again (committed_leaves hE) hne hnd orders disk
  refine ⟨D, h1, fun p hp => ⟨_, h2 p hp, studyEntries_fst _ _ _, fun x hx => ?_⟩, h3, h4⟩
  obtain ⟨N, hN, rfl⟩ := List.mem_map.mp hx
  refine ⟨N, hN, rfl, by unfold deckFiles Files.write; dsimp only; rw [if_pos rfl], fun n => ?_⟩
  unfold deckFiles writeDeck Files.write studyDir
  dsimp only
  split_ifs with a b
  · simp [a]
  · simp only [Option.isSome_some, true_iff]; exact .inr b
  · simp only [Option.isSome_none, Bool.false_eq_true, false_iff, not_or]; exact ⟨a, b⟩

/-- **C92 (run.py with the full path of the program).** For all lists of orders and of different resolutions and whatever is on the disk before: the script ends without an exception; the
directory of each order then holds exactly one directory for each resolution, in it what the program leaves in a directory with the deck and nothing else, and its log: nothing of an earlier
study and nothing of the other runs gets in. Directories of other orders are left alone. Running the script again changes nothing. -/
theorem C92_run (E : StudyEnv) (hE : Found E) (orders resolutions : List ℕ) (hne : resolutions ≠ []) (hnd : resolutions.Nodup) (disk : StudyDisk) :
    ∃ disk', E.script orders resolutions disk = .ok disk' ∧
      (∀ p ∈ orders, disk' (natText p) = some (resolutions.map fun N => (natText N,
        ((studyRun E.lib E.ft E.junk (Files.write (fun _ => none) "logfile".toList []) (E.datadir ++ '/' :: natText p ++ '/' :: natText N) p N E.k).1).write
          "logfile".toList (E.log p N)))) ∧
      (∀ n, (∀ p ∈ orders, n ≠ natText p) → disk' n = disk n) ∧
      E.script orders resolutions disk' = .ok disk' :=
  studyScript_again hE.leaves hne hnd orders disk

/-- **C92 (a resolution twice).** If a resolution is listed twice the script raises, having made the first of the two directories. -/
theorem C92_twice (E : StudyEnv) (hE : Found E ∨ E.codedir = committedCodedir) (orders resolutions : List ℕ) (ho : orders ≠ [])
    (hnd : ¬ resolutions.Nodup) (disk : StudyDisk) : E.script orders resolutions disk = .error .ioError := by
  have hne : resolutions ≠ [] := by rintro rfl; exact hnd List.nodup_nil
  obtain ⟨F, hF⟩ : ∃ F, Leaves E F := hE.elim (fun h => ⟨_, h.leaves⟩) fun h => ⟨_, committed_leaves h⟩
  cases orders with
  | nil => exact absurd rfl ho
  | cons p orders =>
    unfold StudyEnv.script
    rw [List.foldlM_cons, studyOrder_eq hF disk p hne, if_neg hnd]
    rfl

/-! ### plot.py -/

lemma mapM_ok {α β : Type} {f : α → Except PyErr β} {g : α → β} : ∀ {l : List α}, (∀ a ∈ l, f a = .ok (g a)) → l.mapM f = .ok (l.map g)
  | [], _ => rfl
  | a :: l, h => by
    rw [List.mapM_cons, h a (by simp), mapM_ok (l := l) fun b hb => h b (List.mem_cons_of_mem _ hb)]
    rfl

lemma mapM_congr {α β : Type} {f g : α → Except PyErr β} : ∀ {l : List α}, (∀ a ∈ l, f a = g a) → l.mapM f = l.mapM g
  | [], _ => rfl
  | a :: l, h => by
    rw [List.mapM_cons, List.mapM_cons, h a (by simp), mapM_congr (l := l) fun b hb => h b (List.mem_cons_of_mem _ hb)]

lemma mapM_error {α β : Type} {f : α → Except PyErr β} {e : PyErr} : ∀ {l : List α}, (∀ a ∈ l, (∃ b, f a = .ok b) ∨ f a = .error e) → (∃ a ∈ l, f a = .error e) → l.mapM f = .error e
  | [], _, h => by obtain ⟨a, ha, -⟩ := h; cases ha
  | a :: l, h, h' => by
    rw [List.mapM_cons]
    rcases h a (by simp) with ⟨b, hb⟩ | hb
    · have ih := mapM_error (l := l) (fun c hc => h c (List.mem_cons_of_mem _ hc)) (by
        obtain ⟨c, hc, e'⟩ := h'
        rcases List.mem_cons.mp hc with rfl | hc
        · rw [hb] at e'; cases e'
        · exact ⟨c, hc, e'⟩)
      rw [hb, ih]
      rfl
    · rw [hb]; rfl

lemma mapM_fails {α β : Type} {f : α → Except PyErr β} : ∀ {l : List α}, (∃ a ∈ l, ∃ e, f a = .error e) → ∃ e, l.mapM f = .error e
  | [], h => by obtain ⟨a, ha, -⟩ := h; cases ha
  | a :: l, h => by
    rw [List.mapM_cons]
    rcases hb : f a with e | b
    · exact ⟨e, rfl⟩
    · obtain ⟨e, ih⟩ := mapM_fails (f := f) (l := l) (by
        obtain ⟨c, hc, e, he⟩ := h
        rcases List.mem_cons.mp hc with rfl | hc
        · rw [hb] at he; cases he
        · exact ⟨c, hc, e, he⟩)
      exact ⟨e, by rw [ih]; rfl⟩

/-- The resolutions in increasing order. -/
def sorted (l : List ℕ) : List ℕ := l.mergeSort (· ≤ ·)

lemma sorted_perm (l : List ℕ) : (sorted l).Perm l := List.mergeSort_perm l _

lemma sorted_pairwise (l : List ℕ) : (sorted l).Pairwise (· ≤ ·) := by
  have := List.pairwise_mergeSort (le := fun a b : ℕ => decide (a ≤ b)) (by intro a b c; simpa using le_trans) (by intro a b; simpa using le_total a b) l
  unfold sorted
  exact this.imp fun h => by simpa using h

lemma mergeSort_ints {l : List ℕ} {m : List ℤ} (h : m.Perm (l.map fun N : ℕ => (N : ℤ))) : m.mergeSort (· ≤ ·) = (sorted l).map fun N : ℕ => (N : ℤ) := by
  have h1 : (m.mergeSort (· ≤ ·)).Pairwise (· ≤ ·) := by
    have := List.pairwise_mergeSort (le := fun a b : ℤ => decide (a ≤ b)) (by intro a b c; simpa using le_trans) (by intro a b; simpa using le_total a b) m
    exact this.imp fun h => by simpa using h
  have h2 : ((sorted l).map fun N : ℕ => (N : ℤ)).Pairwise (· ≤ ·) := by
    rw [List.pairwise_map]
    exact (sorted_pairwise l).imp fun h => by exact_mod_cast h
  exact List.Perm.eq_of_pairwise (fun _ _ _ _ => le_antisymm) h1 h2 ((List.mergeSort_perm m _).trans (h.trans ((sorted_perm l).symm.map _)))

lemma intText_nat (N : ℕ) : intText (N : ℤ) = natText N := by
  unfold intText
  rw [if_neg (by omega), Int.natAbs_natCast]

/-- What plot.py reads in a directory. -/
noncomputable def readRun (ft : FloatText ℝ) (fs : Files) (N : ℕ) : Except PyErr (ℝ × Option ℝ) := do
  let e ← measure ft fs (N : ℝ)
  let t ← timerOf ft (← fs.read "logfile".toList)
  .ok (e, t)

/-- What plot.py does with the directories of one order. -/
lemma plotOrder_reads {ft : FloatText ℝ} {listdir : List Str → List Str} (hls : ∀ l, (listdir l).Perm l) {disk : StudyDisk} {p : ℕ} {resolutions : List ℕ}
    {F : ℕ → Files} (hd : disk (natText p) = some (resolutions.map fun N => (natText N, F N))) :
    plotOrder ft listdir disk p = ((sorted resolutions).mapM fun N => readRun ft (F N) N).map fun m => ((sorted resolutions).map (fun N : ℕ => (N : ℤ)), m) := by
  have hfst : (resolutions.map fun N => (natText N, F N)).map Prod.fst = resolutions.map natText := by rw [List.map_map]; rfl
  have hp := hls (resolutions.map natText)
  have hnames : ∀ n ∈ listdir (resolutions.map natText), ∃ N ∈ resolutions, natText N = n := fun n hn => List.mem_map.mp (hp.mem_iff.mp hn)
  set val : Str → ℤ := fun n => (intOf n).getD 0 with hval
  have h1 : (listdir (resolutions.map natText)).mapM nameToInt =
      .ok ((listdir (resolutions.map natText)).map val) := by
    refine mapM_ok fun n hn => ?_
    obtain ⟨N, -, rfl⟩ := hnames n hn
    simp only [hval, nameToInt, intOf_natText, Option.getD_some]
  have h2 : ((listdir (resolutions.map natText)).map val).mergeSort (· ≤ ·) = (sorted resolutions).map fun N : ℕ => (N : ℤ) := by
    refine mergeSort_ints ((hp.map val).trans (List.Perm.of_eq ?_))
    rw [List.map_map]
    refine List.map_congr_left fun N _ => ?_
    simp only [hval, Function.comp, intOf_natText, Option.getD_some]
  have h3 : ((sorted resolutions).map fun N : ℕ => (N : ℤ)).mapM (measuredIn ft (resolutions.map fun N => (natText N, F N))) =
      (sorted resolutions).mapM fun N => readRun ft (F N) N := by
    rw [List.mapM_map]
    refine mapM_congr fun N hN => ?_
    have hN' : N ∈ resolutions := (sorted_perm _).mem_iff.mp hN
    have hfind : (resolutions.map fun N => (natText N, F N)).find? (fun x => x.1 = intText (N : ℤ)) = some (natText N, F N) := by
      rw [intText_nat]
      clear hd hfst hp hnames h1 h2 hN
      induction resolutions with
      | nil => cases hN'
      | cons M l ih =>
        rw [List.map_cons, List.find?_cons]
        by_cases hM : M = N
        · subst hM; simp
        · have : natText M ≠ natText N := fun e => hM (natText_inj e)
          simp only [this, decide_false]
          exact ih (by simpa [Ne.symm hM] using hN')
    show measuredIn _ _ _ = _
    unfold measuredIn
    rw [hfind]
    unfold readRun
    simp only [Int.cast_natCast]
  unfold plotOrder
  rw [hd]
  simp only [hfst, bind, Except.bind, h1, h2]
  simp only [h3]
  rfl

lemma plotOrder_eq {ft : FloatText ℝ} {listdir : List Str → List Str} (hls : ∀ l, (listdir l).Perm l) {disk : StudyDisk} {p : ℕ} {resolutions : List ℕ}
    {F : ℕ → Files} (hd : disk (natText p) = some (resolutions.map fun N => (natText N, F N))) {err : ℕ → ℝ} {time : ℕ → Option ℝ}
    (herr : ∀ N ∈ resolutions, measure ft (F N) N = .ok (err N)) (htime : ∀ N ∈ resolutions, ∃ text, F N "logfile".toList = some text ∧ timerOf ft text = .ok (time N)) :
    plotOrder ft listdir disk p = .ok ((sorted resolutions).map (fun N : ℕ => (N : ℤ)), (sorted resolutions).map fun N => (err N, time N)) := by
  rw [plotOrder_reads hls hd, mapM_ok (g := fun N => (err N, time N))]
  · rfl
  · intro N hN
    have hN' : N ∈ resolutions := (sorted_perm _).mem_iff.mp hN
    obtain ⟨text, h1, h2⟩ := htime N hN'
    unfold readRun Files.read
    rw [herr N hN', h1]
    show (do let t ← timerOf ft text; Except.ok (err N, t)) = _
    rw [h2]
    rfl


/-- The logs are the output of runs that took `us p N` and `us' p N` microseconds (see `C93_timer`). -/
def Logs (log : ℕ → ℕ → Str) (us us' : ℕ → ℕ → ℕ) : Prop :=
  ∃ (version : Str) (fm : LogFormats) (d : ℕ → ℕ → Deck ℝ) (outs : ℕ → ℕ → List (OutRec ℝ)), ('\n' ∉ version ∧ '\r' ∉ version) ∧ (¬ "seconds".toList <:+: "Code version:  ".toList ++ version) ∧
    LogFormats.Plain fm ∧ ∀ p N, log p N = runLog version fm (d p N) (outs p N) (us p N) (us' p N)

lemma measure_log (ft : FloatText ℝ) (fs : Files) (text : Str) (res : ℝ) : measure ft (fs.write "logfile".toList text) res = measure ft fs res := by
  have h : ∀ n, n ≠ "logfile".toList → (fs.write "logfile".toList text).read n = fs.read n := by
    intro n hn
    unfold Files.read Files.write
    rw [if_neg hn]
  unfold measure
  rw [h _ (by decide), h _ (by decide)]

lemma found_k {E : StudyEnv} (h : Found E) (k : ℕ) : Found { E with k := k } := ⟨h.full, h.blanks, h.away, h.there⟩

/-- What is claimed about the number plot.py gets for order `p` and resolution `N`. -/
def IsError (E : StudyEnv) (r : ℝ → ℝ) (p N k : ℕ) (x : ℝ) : Prop :=
  ∃ d s lm o, ValidDeck E.lib E.ft d p N IC.sinewave ∧ d.rk = "rk12".toList ∧ d.finaltime = 8 ∧ d.cfl = 1 / 2 ∧
    start E.lib E.ft E.junk d = .ok (s, lm) ∧ (integrate ⟨residual, lm.limit⟩ d.rkDeck s k).log.getLast? = some o ∧ o.sol.t = 8 ∧
    x = 1 / 2 * Real.sqrt ((∑ e ∈ Finset.range N, (r (cellMean s (e + 1) 0) - r (cellMean o.sol (e + 1) 0)) ^ 2) / N)

/-- One bound for all runs. -/
lemma study_measured {E : StudyEnv} (hlib : E.lib.Ok) (hdec : ReadsDecimals E.ft) {r : ℝ → ℝ} (hft : E.ft.Reads r) (orders resolutions : List ℕ)
    (hres : ∀ p ∈ orders, ∀ N ∈ resolutions, 2 ≤ N ∧ (N : ℝ) * (2 * p + 1) ≤ 10 ^ 14) :
    ∃ k₀, ∀ k, k₀ ≤ k → ∃ err : ℕ → ℕ → ℝ, ∀ p ∈ orders, ∀ N ∈ resolutions, measure E.ft (runFiles { E with k := k } p N) N = .ok (err p N) ∧ IsError E r p N k (err p N) := by
  have hex : ∀ p N, ∃ k₀, p ∈ orders → N ∈ resolutions → ∀ k, k₀ ≤ k → ∃ x, measure E.ft (runFiles { E with k := k } p N) N = .ok x ∧ IsError E r p N k x := by
    intro p N
    by_cases h : p ∈ orders ∧ N ∈ resolutions
    · obtain ⟨hN, hb⟩ := hres p h.1 N h.2
      obtain ⟨d, s, lm, -, hd, -, d2, -, -, d5, d6, hst, -, k₀, hk⟩ := C85_study hlib hdec hft E.junk (Files.write (fun _ => none) "logfile".toList []) (studyDir E.datadir p N) hN hb
      refine ⟨k₀, fun _ _ k hk0 => ?_⟩
      obtain ⟨-, -, o, o1, -, o3, o4⟩ := hk k hk0
      unfold runFiles
      rw [measure_log]
      exact ⟨_, o4, d, s, lm, o, hd, d2, d5, d6, hst, o1, o3, rfl⟩
    · exact ⟨0, fun h1 h2 => absurd ⟨h1, h2⟩ h⟩
  choose K hK using hex
  refine ⟨(orders.map fun p => (resolutions.map fun N => K p N).sum).sum, fun k hk => ?_⟩
  have hle : ∀ p ∈ orders, ∀ N ∈ resolutions, K p N ≤ k := by
    intro p hp N hN
    refine le_trans ?_ hk
    refine le_trans (List.single_le_sum (fun _ _ => Nat.zero_le _) _ (List.mem_map_of_mem (f := fun N => K p N) hN)) ?_
    exact List.single_le_sum (fun _ _ => Nat.zero_le _) _ (List.mem_map_of_mem (f := fun p => (resolutions.map fun N => K p N).sum) hp)
  have hx : ∀ p N, ∃ x, p ∈ orders → N ∈ resolutions → measure E.ft (runFiles { E with k := k } p N) N = .ok x ∧ IsError E r p N k x := by
    intro p N
    by_cases h : p ∈ orders ∧ N ∈ resolutions
    · obtain ⟨x, hx⟩ := hK p N h.1 h.2 k (hle p h.1 N h.2)
      exact ⟨x, fun _ _ => hx⟩
    · exact ⟨0, fun h1 h2 => absurd ⟨h1, h2⟩ h⟩
  choose err herr using hx
  exact ⟨err, fun p hp N hN => herr p N hp hN⟩

/-- **C92 (plot.py on the data of run.py with the full path of the program).** For all lists of orders and of different resolutions `N ≥ 2` with `N (2p+1) ≤ 1e14`, whatever is on the disk
and in whatever order the system lists directories: the script's runs all finish, and (if each took less than a day) for each order plot.py gets the resolutions in increasing order and, at the same places,
the elapsed times in seconds and the errors: half the root mean square of the differences of the cell averages (as read back) at the start and at `t = 8`. -/
theorem C92_plot (E : StudyEnv) (hE : Found E) (hlib : E.lib.Ok) (hdec : ReadsDecimals E.ft) (hcol : ∀ s, ':' ∈ s → E.ft.parse s = .error .valueError)
    {r : ℝ → ℝ} (hft : E.ft.Reads r) {us us' : ℕ → ℕ → ℕ} (hlog : Logs E.log us us')
    (listdir : List Str → List Str) (hls : ∀ l, (listdir l).Perm l) (orders resolutions : List ℕ) (hne : resolutions ≠ []) (hnd : resolutions.Nodup)
    (hres : ∀ p ∈ orders, ∀ N ∈ resolutions, 2 ≤ N ∧ (N : ℝ) * (2 * p + 1) ≤ 10 ^ 14) (hday : ∀ p ∈ orders, ∀ N ∈ resolutions, us p N < 24 * 60 * 60 * 10 ^ 6) (disk : StudyDisk) :
    ∃ k₀, ∀ k, k₀ ≤ k → ∃ (disk' : StudyDisk) (err : ℕ → ℕ → ℝ) (l : List ℕ), StudyEnv.script { E with k := k } orders resolutions disk = .ok disk' ∧
      l.Perm resolutions ∧ l.Pairwise (· < ·) ∧
      ∀ p ∈ orders, plotOrder E.ft listdir disk' p = .ok (l.map (fun N : ℕ => (N : ℤ)), l.map fun N => (err p N, some ((us' p N : ℝ) / 10 ^ 6))) ∧
        ∀ N ∈ resolutions, ∃ d s lm o, ValidDeck E.lib E.ft d p N IC.sinewave ∧ d.rk = "rk12".toList ∧ d.finaltime = 8 ∧ d.cfl = 1 / 2 ∧
          start E.lib E.ft E.junk d = .ok (s, lm) ∧ (integrate ⟨residual, lm.limit⟩ d.rkDeck s k).log.getLast? = some o ∧ o.sol.t = 8 ∧
          err p N = 1 / 2 * Real.sqrt ((∑ e ∈ Finset.range N, (r (cellMean s (e + 1) 0) - r (cellMean o.sol (e + 1) 0)) ^ 2) / N) := by
  obtain ⟨k₀, hk⟩ := study_measured hlib hdec hft orders resolutions hres
  refine ⟨k₀, fun k hk0 => ?_⟩
  obtain ⟨err, herr⟩ := hk k hk0
  obtain ⟨D, h1, h2, -⟩ := studyScript_eq (found_k hE k).leaves hne hnd orders disk
  obtain ⟨version, fm, dk, outs, v1, v2, v3, v4⟩ := hlog
  refine ⟨D, err, sorted resolutions, h1, sorted_perm _, ?_, fun p hp => ⟨?_, fun N hN => (herr p hp N hN).2⟩⟩
  · have hn : (sorted resolutions).Nodup := (sorted_perm _).nodup_iff.mpr hnd
    exact (List.pairwise_and_iff.mpr ⟨sorted_pairwise _, hn⟩).imp fun h => lt_of_le_of_ne h.1 h.2
  · exact plotOrder_eq hls (h2 p hp) (fun N hN => (herr p hp N hN).1) (time := fun N => some ((us' p N : ℝ) / 10 ^ 6)) fun N hN =>
      ⟨E.log p N, runFiles_log _ p N, by rw [v4]; exact (C93_timer hdec hcol v1 v2 v3 _ _ _ _).1 (hday p hp N hN)⟩

/-- **C93 (a run of a day).** If one of the runs of an order took a day or longer, plot.py ends with a `ValueError` although all data are there. -/
theorem C93_day (E : StudyEnv) (hE : Found E) (hlib : E.lib.Ok) (hdec : ReadsDecimals E.ft) (hcol : ∀ s, ':' ∈ s → E.ft.parse s = .error .valueError)
    {r : ℝ → ℝ} (hft : E.ft.Reads r) {us us' : ℕ → ℕ → ℕ} (hlog : Logs E.log us us')
    (listdir : List Str → List Str) (hls : ∀ l, (listdir l).Perm l) (orders resolutions : List ℕ) (hne : resolutions ≠ []) (hnd : resolutions.Nodup)
    (hres : ∀ p ∈ orders, ∀ N ∈ resolutions, 2 ≤ N ∧ (N : ℝ) * (2 * p + 1) ≤ 10 ^ 14) {p N : ℕ} (hp : p ∈ orders) (hN : N ∈ resolutions)
    (hday : 24 * 60 * 60 * 10 ^ 6 ≤ us p N) (disk : StudyDisk) :
    ∃ k₀, ∀ k, k₀ ≤ k → ∃ disk', StudyEnv.script { E with k := k } orders resolutions disk = .ok disk' ∧ plotOrder E.ft listdir disk' p = .error .valueError := by
  obtain ⟨k₀, hk⟩ := study_measured hlib hdec hft orders resolutions hres
  refine ⟨k₀, fun k hk0 => ?_⟩
  obtain ⟨err, herr⟩ := hk k hk0
  obtain ⟨D, h1, h2, -⟩ := studyScript_eq (found_k hE k).leaves hne hnd orders disk
  obtain ⟨version, fm, dk, outs, v1, v2, v3, v4⟩ := hlog
  refine ⟨D, h1, ?_⟩
  have hread : ∀ M ∈ resolutions, readRun E.ft (runFiles { E with k := k } p M) M = (timerOf E.ft (E.log p M)).map fun t => (err p M, t) := by
    intro M hM
    have hl : (runFiles { E with k := k } p M).read "logfile".toList = .ok (E.log p M) := by
      unfold Files.read
      rw [runFiles_log]
    unfold readRun
    rw [(herr p hp M hM).1, hl]
    show (do let t ← timerOf E.ft (E.log p M); Except.ok (err p M, t)) = _
    rcases timerOf E.ft (E.log p M) with e | t <;> rfl
  have htimer := fun M => C93_timer hdec hcol v1 v2 v3 (dk p M) (outs p M) (us p M) (us' p M)
  rw [plotOrder_reads hls (h2 p hp), mapM_error (e := .valueError)]
  · rfl
  · intro M hM
    rw [hread M ((sorted_perm _).mem_iff.mp hM), v4]
    rcases lt_or_ge (us p M) (24 * 60 * 60 * 10 ^ 6) with h | h
    · exact .inl ⟨_, by rw [(htimer M).1 h]; rfl⟩
    · exact .inr (by rw [(htimer M).2.1 h]; rfl)
  · exact ⟨N, (sorted_perm _).mem_iff.mpr hN, by rw [hread N hN, v4, (htimer N).2.1 hday]; rfl⟩

/-- **C92 (the scripts as they are).** Only the last of the four assignments in run.py counts, which is order 4. Whatever is on the disk: after run.py, plot.py finds no data of
order 4 and ends with an exception (at the latest there). -/
theorem C92_as_committed (E : StudyEnv) (hE : E.codedir = committedCodedir) (ft : FloatText ℝ) (listdir : List Str → List Str) (hls : ∀ l, (listdir l).Perm l) (disk : StudyDisk)
    (lists : List ℕ × List ℕ) (hlast : studyLists.getLast? = some lists) :
    ∃ disk', E.script lists.1 lists.2 disk = .ok disk' ∧ plotOrder ft listdir disk' 4 = .error .ioError ∧ ∃ e, plotScript ft listdir disk' = .error e := by
  cases hlast
  obtain ⟨D, h1, h2, -⟩ := studyScript_eq (committed_leaves hE) (resolutions := [4, 8, 16, 32, 64]) (by simp) (by decide) [4] disk
  have h4 : plotOrder ft listdir D 4 = .error .ioError := by
    have hread : ∀ N, readRun ft (deckFiles E 4 N) N = .error .ioError := by
      intro N
      have : (deckFiles E 4 N).read "u0000000000.dat".toList = .error .ioError := by
        unfold Files.read deckFiles writeDeck Files.write
        dsimp only
        rw [if_neg (by decide), if_neg]
        intro h
        have := congrArg List.getLast? h
        rw [List.getLast?_append_of_ne_nil _ (by decide)] at this
        revert this
        decide
      unfold readRun measure
      rw [this]
      rfl
    rw [plotOrder_reads hls (h2 4 (by simp)), mapM_error (e := .ioError) (fun N _ => .inr (hread N)) ⟨4, (sorted_perm _).mem_iff.mpr (by simp), hread 4⟩]
    rfl
  refine ⟨D, h1, h4, ?_⟩
  unfold plotScript
  exact mapM_fails ⟨4, by simp, .ioError, by unfold plotCurve; rw [h4]; rfl⟩

lemma sorted_eq {l : List ℕ} (h : l.Pairwise (· < ·)) : sorted l = l :=
  List.Perm.eq_of_pairwise (fun _ _ _ _ => le_antisymm) (sorted_pairwise l) (h.imp le_of_lt) (sorted_perm l)

lemma except_ok_bind {α β : Type} (a : α) (f : α → Except PyErr β) : (Except.ok a >>= f) = f a := rfl

lemma plotCurve_ok {ft : FloatText ℝ} {listdir : List Str → List Str} {disk : StudyDisk} {p N : ℕ} {l : List ℕ} {err : ℕ → ℝ} {time : ℕ → Option ℝ}
    (h : plotOrder ft listdir disk p = .ok ((N :: l).map (fun N : ℕ => (N : ℤ)), (N :: l).map fun N => (err N, time N))) :
    ∃ c, plotCurve ft listdir disk p = .ok c ∧ c.resolutions = (N :: l).map (fun N : ℕ => (N : ℤ)) ∧ c.errors = (N :: l).map err ∧ c.timers = (N :: l).map time := by
  unfold plotCurve
  rw [h]
  refine ⟨_, rfl, rfl, ?_, ?_⟩
  · dsimp only
    rw [List.map_map]; rfl
  · dsimp only
    rw [List.map_map]; rfl

/-- **C92 (all four orders).** When run.py, with the full path of the program, is run once with each of its four assignments, in the order of the file, and no run takes a day, plot.py draws the four curves with the
resolutions of the four lists. -/
theorem C92_four (E : StudyEnv) (hE : Found E) (hlib : E.lib.Ok) (hdec : ReadsDecimals E.ft) (hcol : ∀ s, ':' ∈ s → E.ft.parse s = .error .valueError)
    {r : ℝ → ℝ} (hft : E.ft.Reads r) {us us' : ℕ → ℕ → ℕ} (hlog : Logs E.log us us') (hday : ∀ p N, us p N < 24 * 60 * 60 * 10 ^ 6)
    (listdir : List Str → List Str) (hls : ∀ l, (listdir l).Perm l) (disk : StudyDisk) :
    ∃ k₀, ∀ k, k₀ ≤ k → ∃ disk' curves, studyLists.foldlM (fun d l => StudyEnv.script { E with k := k } l.1 l.2 d) disk = .ok disk' ∧
      plotScript E.ft listdir disk' = .ok curves ∧ curves.map (fun c => c.resolutions) = studyLists.map (fun l => l.2.map fun N : ℕ => (N : ℤ)) ∧
      curves.map (fun c => c.timers) = (List.zipWith (fun p l => l.2.map fun N => some ((us' p N : ℝ) / 10 ^ 6)) [1, 2, 3, 4] studyLists) := by
  obtain ⟨k1, m1⟩ := study_measured hlib hdec hft [1] [4, 8, 16, 32, 64, 128, 256, 512, 1024] (by norm_num)
  obtain ⟨k2, m2⟩ := study_measured hlib hdec hft [2] [4, 8, 16, 32, 64, 128, 256, 512] (by norm_num)
  obtain ⟨k3, m3⟩ := study_measured hlib hdec hft [3] [4, 8, 16, 32, 64, 128] (by norm_num)
  obtain ⟨k4, m4⟩ := study_measured hlib hdec hft [4] [4, 8, 16, 32, 64] (by norm_num)
  obtain ⟨version, fm, dk, outs, v1, v2, v3, v4⟩ := hlog
  refine ⟨k1 + k2 + k3 + k4, fun k hk => ?_⟩
  obtain ⟨e1, m1⟩ := m1 k (by omega)
  obtain ⟨e2, m2⟩ := m2 k (by omega)
  obtain ⟨e3, m3⟩ := m3 k (by omega)
  obtain ⟨e4, m4⟩ := m4 k (by omega)
  have H := (found_k hE k).leaves
  obtain ⟨D1, a1, b1, -⟩ := studyScript_eq H (resolutions := [4, 8, 16, 32, 64, 128, 256, 512, 1024]) (by simp) (by decide) [1] disk
  obtain ⟨D2, a2, b2, c2⟩ := studyScript_eq H (resolutions := [4, 8, 16, 32, 64, 128, 256, 512]) (by simp) (by decide) [2] D1
  obtain ⟨D3, a3, b3, c3⟩ := studyScript_eq H (resolutions := [4, 8, 16, 32, 64, 128]) (by simp) (by decide) [3] D2
  obtain ⟨D4, a4, b4, c4⟩ := studyScript_eq H (resolutions := [4, 8, 16, 32, 64]) (by simp) (by decide) [4] D3
  have hne : ∀ {a b : ℕ}, a ≠ b → ∀ p ∈ [b], natText a ≠ natText p := by
    intro a b hab p hp e
    simp at hp
    exact hab (hp ▸ natText_inj e)
  have q1 := b1 1 (by simp)
  rw [← c2 _ (hne (by norm_num)), ← c3 _ (hne (by norm_num)), ← c4 _ (hne (by norm_num))] at q1
  have q2 := b2 2 (by simp)
  rw [← c3 _ (hne (by norm_num)), ← c4 _ (hne (by norm_num))] at q2
  have q3 := b3 3 (by simp)
  rw [← c4 _ (hne (by norm_num))] at q3
  have q4 := b4 4 (by simp)
  have ht : ∀ p N, ∃ text, runFiles { E with k := k } p N "logfile".toList = some text ∧ timerOf E.ft text = .ok (some ((us' p N : ℝ) / 10 ^ 6)) := fun p N =>
    ⟨E.log p N, runFiles_log _ p N, by rw [v4]; exact (C93_timer hdec hcol v1 v2 v3 _ _ _ _).1 (hday p N)⟩
  have p1 := plotOrder_eq hls q1 (fun N hN => (m1 1 (by simp) N hN).1) fun N _ => ht 1 N
  have p2 := plotOrder_eq hls q2 (fun N hN => (m2 2 (by simp) N hN).1) fun N _ => ht 2 N
  have p3 := plotOrder_eq hls q3 (fun N hN => (m3 3 (by simp) N hN).1) fun N _ => ht 3 N
  have p4 := plotOrder_eq hls q4 (fun N hN => (m4 4 (by simp) N hN).1) fun N _ => ht 4 N
  rw [sorted_eq (by decide)] at p1 p2 p3 p4
  obtain ⟨x1, y1, z1, -, t1⟩ := plotCurve_ok p1
  obtain ⟨x2, y2, z2, -, t2⟩ := plotCurve_ok p2
  obtain ⟨x3, y3, z3, -, t3⟩ := plotCurve_ok p3
  obtain ⟨x4, y4, z4, -, t4⟩ := plotCurve_ok p4
  refine ⟨D4, [x1, x2, x3, x4], ?_, ?_, ?_, ?_⟩
  · unfold studyLists
    rw [List.foldlM_cons, a1, except_ok_bind, List.foldlM_cons, a2, except_ok_bind, List.foldlM_cons, a3, except_ok_bind, List.foldlM_cons, a4, except_ok_bind]
    rfl
  · unfold plotScript
    simp only [List.mapM_cons, List.mapM_nil, y1, y2, y3, y4, bind, Except.bind]
    rfl
  · simp only [List.map_cons, List.map_nil, z1, z2, z3, z4, studyLists]
  · simp only [List.map_cons, List.map_nil, t1, t2, t3, t4, studyLists, List.zipWith_cons_cons, List.zipWith_nil_left]

/-- **C92 (theoretical curve).** The curve drawn for order `p` starts at the first error, and if that is positive and the resolutions increase its rate
is `2p+1` at every refinement. -/
theorem C92_theory (p : ℕ) (r e : ℝ) (rs es : List ℝ) (hpos : ∀ x ∈ r :: rs, 0 < x) (hlt : (r :: rs).Pairwise (· < ·)) (he : 0 < e) :
    ∃ th, theory p (r :: rs) (e :: es) = .ok (e :: th) ∧ rates (e :: th) (r :: rs) = List.replicate rs.length (2 * p + 1 : ℝ) := by
  have hr : 0 < r := hpos r (by simp)
  refine ⟨rs.map fun x => (2 / x) ^ (2 * p + 1) * e / (2 / r) ^ (2 * p + 1), ?_, ?_⟩
  · unfold theory
    simp only [List.map_cons]
    rw [mul_comm, mul_div_assoc, div_self (by positivity), mul_one]
  · have hth : (e :: rs.map fun x => (2 / x) ^ (2 * p + 1) * e / (2 / r) ^ (2 * p + 1)) = (r :: rs).map fun x => e * r ^ (2 * p + 1) / x ^ (2 * p + 1 : ℝ) := by
      have hx : ∀ x : ℝ, 0 < x → (2 / x) ^ (2 * p + 1) * e / (2 / r) ^ (2 * p + 1) = e * r ^ (2 * p + 1) / x ^ (2 * p + 1 : ℝ) := by
        intro x hx
        rw [show (2 * p + 1 : ℝ) = ((2 * p + 1 : ℕ) : ℝ) by push_cast; ring, Real.rpow_natCast, div_pow, div_pow]
        field_simp
      rw [List.map_cons, ← hx r hr]
      congr 1
      · rw [mul_comm, mul_div_assoc, div_self (by positivity), mul_one]
      · exact List.map_congr_left fun x h => hx x (hpos x (List.mem_cons_of_mem _ h))
    rw [hth, C85_rates.2 _ _ (r :: rs) (by positivity) hpos hlt, List.length_cons, Nat.add_sub_cancel]

/-! ### Cases -/


/-- A disk with an old study of order 4 (a stray resolution 7) and one of order 9. -/
noncomputable def Ex.disk : StudyDisk := fun n => if n = "4".toList then some [("7".toList, fun _ => some "old".toList)] else if n = "9".toList then some [] else none

/-- Started in `/home/me/advection_convergence`; the program is at `/home/me/dg1d/main.py`. Each run takes 8.5 seconds, but resolution 1024 more than a day. -/
noncomputable def Ex.study (codedir : String) : StudyEnv where
  lib := realGauss
  ft := Ex.decReal
  junk := fun _ => 0
  datadir := "/home/me/advection_convergence".toList
  codedir := codedir.toList
  outside := fun q => q = ["home".toList, "me".toList, "dg1d".toList, "main.py".toList]
  log := fun _ N => runLog "423f0dc".toList Ex.logFormats Deck.init [] (if N = 1024 then 90061000001 else 8500000) (if N = 1024 then 90061000001 else 8500000)
  k := 0

lemma Ex.study_found : Found (Ex.study "/home/me/dg1d/") where
  full := rfl
  blanks := by
    show ∀ c ∈ "/home/me/dg1d/".toList ++ "/home/me/advection_convergence".toList, isSpace c = false
    decide
  away := by
    show ¬ pathParts "/home/me/advection_convergence".toList <+: walk [] (pathParts ("/home/me/dg1d/".toList ++ "main.py".toList))
    decide
  there := by
    show decide (walk [] (pathParts ("/home/me/dg1d/".toList ++ "main.py".toList)) = ["home".toList, "me".toList, "dg1d".toList, "main.py".toList]) = true
    decide

lemma Ex.study_logs : Logs (Ex.study "/home/me/dg1d/").log (fun _ N => if N = 1024 then 90061000001 else 8500000) (fun _ N => if N = 1024 then 90061000001 else 8500000) :=
  ⟨"423f0dc".toList, Ex.logFormats, fun _ _ => Deck.init, fun _ _ => [], by decide, by decide, Ex.logFormats_plain, fun _ _ => rfl⟩

/-- C92: run.py as it is, although the program is where `../dg1d/` leads from the directory the script is started in: the stray directory is gone, the five resolutions are there,
without output; order 9 is kept. -/
example : ∃ disk', (Ex.study "../dg1d/").script [4] [4, 8, 16, 32, 64] Ex.disk = .ok disk' ∧
    (∃ l, disk' "4".toList = some l ∧ l.map Prod.fst = ["4".toList, "8".toList, "16".toList, "32".toList, "64".toList] ∧ ∀ x ∈ l, x.2 "u0000000000.dat".toList = none ∧ x.2 "logfile".toList = some []) ∧
    disk' "9".toList = some [] := by
  obtain ⟨D, h1, h2, h3, -⟩ := C92_committed (Ex.study "../dg1d/") rfl [4] [4, 8, 16, 32, 64] (by simp) (by decide) Ex.disk
  have h4 : natText 4 = "4".toList := by decide +kernel
  refine ⟨D, h1, ?_, ?_⟩
  · obtain ⟨l, a, b, c⟩ := h2 4 (by simp)
    rw [h4] at a
    refine ⟨l, a, b.trans (by decide +kernel), fun x hx => ?_⟩
    obtain ⟨N, -, -, c2, c3⟩ := c x hx
    refine ⟨?_, c2⟩
    rw [← Option.not_isSome_iff_eq_none, c3, not_or]
    refine ⟨by decide, fun e => ?_⟩
    have := congrArg List.head? e
    revert this
    show some 'u' = some '/' → False
    decide
  · rw [h3 _ (fun p hp => by simp at hp; subst hp; decide +kernel)]
    rfl

/-- … and plot.py ends with an exception, in whatever order directories are listed. -/
example : ∃ disk', (Ex.study "../dg1d/").script [4] [4, 8, 16, 32, 64] Ex.disk = .ok disk' ∧ ∃ e, plotScript Ex.decReal List.reverse disk' = .error e := by
  obtain ⟨D, h1, -, h2⟩ := C92_as_committed (Ex.study "../dg1d/") rfl Ex.decReal List.reverse List.reverse_perm Ex.disk _ rfl
  exact ⟨D, h1, h2⟩

/-- With the full path of the program the log is there. -/
example : ∃ disk' l, (Ex.study "/home/me/dg1d/").script [4] [4, 8] Ex.disk = .ok disk' ∧ disk' (natText 4) = some l ∧ l.map (fun x => (x.1, (x.2 "logfile".toList).isSome)) = [("4".toList, true), ("8".toList, true)] := by
  obtain ⟨D, h1, h2, -, -⟩ := C92_run (Ex.study "/home/me/dg1d/") Ex.study_found [4] [4, 8] (by simp) (by decide) Ex.disk
  refine ⟨D, _, h1, h2 4 (by simp), ?_⟩
  have h4 : natText 4 = "4".toList := by decide +kernel
  have h8 : natText 8 = "8".toList := by decide +kernel
  simp only [List.map_cons, List.map_nil, h4, h8, Files.write, if_true, Option.isSome_some]

example : (Ex.study "../dg1d/").script [4] [4, 8, 4] Ex.disk = .error .ioError :=
  C92_twice _ (.inr rfl) _ _ (by simp) (by decide) _

example : (Ex.study "/home/me/dg1d/").script [4] [4, 8, 4] Ex.disk = .error .ioError :=
  C92_twice _ (.inl Ex.study_found) _ _ (by simp) (by decide) _

/-- Listed backwards, resolutions given out of order: plot.py gets 8, 16, 32 and 8.5 seconds each. -/
example : ∃ k disk' e1 e2 e3, StudyEnv.script { Ex.study "/home/me/dg1d/" with k := k } [2, 3] [16, 8, 32] Ex.disk = .ok disk' ∧
    plotOrder Ex.decReal List.reverse disk' 3 = .ok ([8, 16, 32], [(e1, some (17 / 2)), (e2, some (17 / 2)), (e3, some (17 / 2))]) := by
  obtain ⟨k, h⟩ := C92_plot (Ex.study "/home/me/dg1d/") Ex.study_found realGauss_ok Ex.decReal_reads Ex.decReal_colon Ex.decReal_reads_back Ex.study_logs List.reverse List.reverse_perm
    [2, 3] [16, 8, 32] (by simp) (by decide) (by norm_num) (by decide) Ex.disk
  obtain ⟨D, err, l, h1, h2, h3, h4⟩ := h k le_rfl
  have hl : l = [8, 16, 32] := List.Perm.eq_of_pairwise (fun _ _ _ _ => le_antisymm) (h3.imp le_of_lt) (by decide) (h2.trans (by decide))
  refine ⟨k, D, err 3 8, err 3 16, err 3 32, h1, ?_⟩
  have := (h4 3 (by simp)).1
  rw [hl] at this
  refine this.trans ?_
  simp only [List.map_cons, List.map_nil]
  norm_num

/-- C93: with resolution 1024 in it the same scripts fail. -/
example : ∃ k disk', StudyEnv.script { Ex.study "/home/me/dg1d/" with k := k } [1] [512, 1024] Ex.disk = .ok disk' ∧ plotOrder Ex.decReal id disk' 1 = .error .valueError := by
  obtain ⟨k, h⟩ := C93_day (Ex.study "/home/me/dg1d/") Ex.study_found realGauss_ok Ex.decReal_reads Ex.decReal_colon Ex.decReal_reads_back Ex.study_logs id (fun _ => .refl _)
    [1] [512, 1024] (by simp) (by decide) (by norm_num) (p := 1) (N := 1024) (by simp) (by simp) (by norm_num) Ex.disk
  obtain ⟨D, h1, h2⟩ := h k le_rfl
  exact ⟨k, D, h1, h2⟩

/-- All runs in 8.5 seconds. -/
example : ∃ k disk' curves, studyLists.foldlM (fun d l => StudyEnv.script { Ex.study "/home/me/dg1d/" with log := fun _ _ => runLog "423f0dc".toList Ex.logFormats Deck.init [] 8500000 8500000, k := k } l.1 l.2 d) Ex.disk = .ok disk' ∧
    plotScript Ex.decReal id disk' = .ok curves := by
  have hf := Ex.study_found
  obtain ⟨k, h⟩ := C92_four { Ex.study "/home/me/dg1d/" with log := fun _ _ => runLog "423f0dc".toList Ex.logFormats Deck.init [] 8500000 8500000 } ⟨hf.full, hf.blanks, hf.away, hf.there⟩
    realGauss_ok Ex.decReal_reads Ex.decReal_colon Ex.decReal_reads_back (us := fun _ _ => 8500000) (us' := fun _ _ => 8500000)
    ⟨"423f0dc".toList, Ex.logFormats, fun _ _ => Deck.init, fun _ _ => [], by decide, by decide, Ex.logFormats_plain, fun _ _ => rfl⟩ (fun _ _ => by norm_num) id (fun _ => .refl _) Ex.disk
  obtain ⟨D, c, h1, h2, -⟩ := h k le_rfl
  exact ⟨k, D, c, h1, h2⟩

/-- Order 1, resolutions 4, 8, 16, first error 1/10: rate 3 twice. -/
example : ∃ th, theory 1 [4, 8, 16] [1 / 10, 1 / 50, 1 / 90] = .ok (1 / 10 :: th) ∧ rates (1 / 10 :: th) [4, 8, 16] = [3, 3] := by
  obtain ⟨th, h1, h2⟩ := C92_theory 1 4 (1 / 10) [8, 16] [1 / 50, 1 / 90] (by norm_num) (by norm_num) (by norm_num)
  refine ⟨th, h1, h2.trans ?_⟩
  norm_num [List.replicate]

end Dg1d.Props
