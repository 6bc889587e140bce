import Verif.Model.Helpers
import Mathlib.Data.List.Infix

/-!
# C118 — what `makedir` makes
-/

namespace Dg1d.Props
open Text Helpers

/-- A tree as a file system has it: the working directory is a directory, whatever exists lies in a directory. -/
structure IsTree (fs : Tree) : Prop where
  root : fs [] = some .dir
  parent : ∀ n p, fs (n :: p) ≠ none → fs p = some .dir

/-- `q` is `p` or one of the directories above it (paths have the last name first). -/
def Above (q p : List Str) : Prop := ∃ below, below ++ q = p

lemma above_cons {q head : List Str} {n : Str} : Above q (n :: head) ↔ q = n :: head ∨ Above q head := by
  unfold Above
  exact List.suffix_cons_iff

lemma above_nil {q : List Str} : Above q [] ↔ q = [] := by
  unfold Above
  exact List.suffix_nil

lemma above_self (p : List Str) : Above p p := ⟨[], rfl⟩

lemma not_above {n : Str} {head : List Str} : ¬ Above (n :: head) head := by
  rintro ⟨b, h⟩
  have := congrArg List.length h
  simp at this
  omega

lemma IsTree.above {fs : Tree} (h : IsTree fs) {q p : List Str} (hq : Above q p) (hp : fs p ≠ none) : q = p ∨ fs q = some .dir := by
  induction p with
  | nil => exact .inl (above_nil.mp hq)
  | cons n head ih =>
    rcases above_cons.mp hq with rfl | hq
    · exact .inl rfl
    · have hd := h.parent n head hp
      rcases ih hq (by rw [hd]; simp) with rfl | h'
      · exact .inr hd
      · exact .inr h'

lemma pathExists_iff {fs : Tree} {p : List Str} (hp : p ≠ []) : pathExists fs p = true ↔ fs p ≠ none := by
  unfold pathExists
  simp [hp, Option.isSome_iff_ne_none]

/-- One step of `makedirs`, if the parent is there. -/
lemma mkdir_dir {fs : Tree} {n : Str} {head : List Str} (hn : fs (n :: head) = none) (hd : fs head = some .dir) :
    mkdir fs (n :: head) = (Function.update fs (n :: head) (some .dir), none) := by
  simp [mkdir, hn, hd]

lemma makedirs_spec {fs : Tree} (h : IsTree fs) : ∀ p, p ≠ [] → fs p = none →
    ((∀ q, Above q p → fs q ≠ some .file) → ∃ fs', makedirs fs p = (fs', none) ∧
      ∀ q, (Above q p → fs' q = some .dir) ∧ (¬ Above q p → fs' q = fs q)) ∧
    ((∃ q, Above q p ∧ fs q = some .file) → makedirs fs p = (fs, some .notADirectory)) := by
  classical
  intro p
  induction p with
  | nil => exact fun h => absurd rfl h
  | cons n head ih =>
    intro _ hn
    -- the parent is there
    have direct : fs head = some .dir → (∀ fs', makedirs fs (n :: head) = fs' ↔ mkdir fs (n :: head) = fs') →
        ((∀ q, Above q (n :: head) → fs q ≠ some .file) → ∃ fs', makedirs fs (n :: head) = (fs', none) ∧
          ∀ q, (Above q (n :: head) → fs' q = some .dir) ∧ (¬ Above q (n :: head) → fs' q = fs q)) ∧
        ((∃ q, Above q (n :: head) ∧ fs q = some .file) → makedirs fs (n :: head) = (fs, some .notADirectory)) := by
      intro hd hm
      have hall : ∀ q, Above q head → fs q = some .dir := by
        intro q hq
        rcases h.above hq (by rw [hd]; simp) with rfl | h'
        · exact hd
        · exact h'
      refine ⟨fun _ => ⟨_, (hm _).mpr (mkdir_dir hn hd), fun q => ⟨fun hq => ?_, fun hq => ?_⟩⟩, fun ⟨q, hq, hf⟩ => ?_⟩
      · rcases above_cons.mp hq with rfl | hq'
        · exact Function.update_self ..
        · rw [Function.update_of_ne (fun e => not_above (e ▸ hq')), hall q hq']
      · exact Function.update_of_ne (fun e : q = n :: head => hq (e ▸ above_self q)) ..
      · rcases above_cons.mp hq with rfl | hq'
        · rw [hn] at hf; cases hf
        · rw [hall q hq'] at hf; cases hf
    by_cases hh : head = []
    · subst hh
      refine direct h.root fun fs' => ?_
      unfold makedirs
      rw [if_neg (by simp)]
    rcases hf : fs head with _ | (_ | _)
    · obtain ⟨ok, bad⟩ := ih hh hf
      have hne : pathExists fs head = false := by
        rw [Bool.eq_false_iff]
        exact fun e => (pathExists_iff hh).mp e hf
      constructor
      · intro hfree
        obtain ⟨fs', e, hfs'⟩ := ok fun q hq => hfree q (above_cons.mpr (.inr hq))
        have h1 : fs' (n :: head) = none := by rw [(hfs' _).2 not_above, hn]
        have h2 : fs' head = some .dir := (hfs' _).1 (above_self _)
        refine ⟨Function.update fs' (n :: head) (some .dir), ?_, fun q => ⟨fun hq => ?_, fun hq => ?_⟩⟩
        · unfold makedirs
          rw [if_pos ⟨hh, hne⟩, e]
          exact mkdir_dir h1 h2
        · rcases above_cons.mp hq with rfl | hq'
          · exact Function.update_self ..
          · rw [Function.update_of_ne (fun e => not_above (e ▸ hq')), (hfs' q).1 hq']
        · rw [Function.update_of_ne (fun e : q = n :: head => hq (e ▸ above_self q))]
          exact (hfs' q).2 fun hq' => hq (above_cons.mpr (.inr hq'))
      · rintro ⟨q, hq, hqf⟩
        have hq' : Above q head := by
          rcases above_cons.mp hq with rfl | hq'
          · rw [hn] at hqf; cases hqf
          · exact hq'
        unfold makedirs
        rw [if_pos ⟨hh, hne⟩, bad ⟨q, hq', hqf⟩]
    · have hm : makedirs fs (n :: head) = (fs, some .notADirectory) := by
        unfold makedirs
        rw [if_neg (by rw [(pathExists_iff hh).mpr (by rw [hf]; simp)]; simp)]
        simp [mkdir, hn, hf]
      exact ⟨fun hfree => absurd hf (hfree head (above_cons.mpr (.inr (above_self _)))), fun _ => hm⟩
    · refine direct hf fun fs' => ?_
      unfold makedirs
      rw [if_neg (by rw [(pathExists_iff hh).mpr (by rw [hf]; simp)]; simp)]

/-- **C118 (made).** If the path does not exist and no file is in the way, `makedir` raises nothing; afterwards the path and all the paths above it are directories, everything else is as before,
and the result is a tree again. -/
theorem C118_made {fs : Tree} (h : IsTree fs) {p : List Str} (hp : p ≠ []) (hn : fs p = none) (hfree : ∀ q, Above q p → fs q ≠ some .file) :
    ∃ fs', makedir fs p = (fs', none) ∧ (∀ q, Above q p → fs' q = some .dir) ∧ (∀ q, ¬ Above q p → fs' q = fs q) ∧ IsTree fs' := by
  obtain ⟨fs', e, hfs'⟩ := (makedirs_spec h p hp hn).1 hfree
  refine ⟨fs', ?_, fun q => (hfs' q).1, fun q => (hfs' q).2, ?_, fun n q hq => ?_⟩
  · unfold makedir
    rw [if_neg (fun e => (pathExists_iff hp).mp e hn), e]
  · exact (hfs' []).1 ⟨p, by simp⟩
  · classical
    by_cases ha : Above (n :: q) p
    · refine (hfs' q).1 ?_
      obtain ⟨b, hb⟩ := ha
      exact ⟨b ++ [n], by rw [← hb]; simp⟩
    · rw [(hfs' _).2 ha] at hq
      have hd := h.parent n q hq
      by_cases ha' : Above q p
      · exact (hfs' q).1 ha'
      · rw [(hfs' q).2 ha', hd]

/-- **C118 (nothing to do).** If the path exists, `makedir` changes nothing and raises nothing, also if it is a file: then there is no directory afterwards. -/
theorem C118_exists {fs : Tree} {p : List Str} (hp : p ≠ []) (hx : fs p ≠ none) : makedir fs p = (fs, none) ∧ (fs p = some .file → (makedir fs p).1 p ≠ some .dir) := by
  have e : makedir fs p = (fs, none) := by
    unfold makedir
    rw [if_pos ((pathExists_iff hp).mpr hx)]
  refine ⟨e, fun hf => ?_⟩
  rw [e]
  simp [hf]

/-- **C118 (a file in the way).** If one of the paths above is a file, or the argument is the empty string, an exception is raised and nothing is made. -/
theorem C118_fails {fs : Tree} (h : IsTree fs) (p : List Str) : (p ≠ [] → (∃ q, Above q p ∧ q ≠ p ∧ fs q = some .file) → makedir fs p = (fs, some .notADirectory)) ∧
    makedir fs [] = (fs, some .notFound) := by
  refine ⟨fun hp ⟨q, hq, hne, hf⟩ => ?_, rfl⟩
  have hn : fs p = none := by
    by_contra hx
    rcases h.above hq hx with h' | h'
    · exact hne h'
    · rw [hf] at h'; cases h'
  unfold makedir
  rw [if_neg (fun e => (pathExists_iff hp).mp e hn), (makedirs_spec h p hp hn).2 ⟨q, hq, hf⟩]

/-- **C118 (twice).** A second call does nothing: no exception if there was none, the same tree in any case. -/
theorem C118_twice {fs : Tree} (h : IsTree fs) (p : List Str) : makedir (makedir fs p).1 p = makedir fs p := by
  by_cases hp : p = []
  · subst hp
    rfl
  by_cases hx : fs p = none
  · by_cases hfree : ∀ q, Above q p → fs q ≠ some .file
    · obtain ⟨fs', e, hd, -, -⟩ := C118_made h hp hx hfree
      rw [e]
      exact (C118_exists hp (by simp [hd p (above_self p)])).1
    · push Not at hfree
      obtain ⟨q, hq, hf⟩ := hfree
      have hne : q ≠ p := by
        rintro rfl
        rw [hx] at hf
        cases hf
      have e := (C118_fails h p).1 hp ⟨q, hq, hne, hf⟩
      rw [e]
      exact e
  · rw [(C118_exists hp hx).1]
    exact (C118_exists hp hx).1

/-! ### Cases -/

/-- A working directory with one file `run.log` and one directory `out`. -/
def Ex.tree : Tree := fun p => if p = [] then some .dir else if p = ["run.log".toList] then some .file else if p = ["out".toList] then some .dir else none

lemma Ex.tree_ok : IsTree Ex.tree := by
  refine ⟨rfl, fun n p hp => ?_⟩
  unfold Ex.tree at hp ⊢
  by_cases h : p = []
  · rw [if_pos h]
  · simp [h] at hp

/-- `C118_made`: `out/a/b` needs two new directories. -/
example : ∃ fs', makedir Ex.tree ["b".toList, "a".toList, "out".toList] = (fs', none) ∧ fs' ["a".toList, "out".toList] = some .dir ∧ fs' ["run.log".toList] = some .file := by
  obtain ⟨fs', e, h1, h2, -⟩ := C118_made Ex.tree_ok (p := ["b".toList, "a".toList, "out".toList]) (by simp) (by decide) (by
    intro q hq
    rcases above_cons.mp hq with rfl | hq
    · decide
    rcases above_cons.mp hq with rfl | hq
    · decide
    rcases above_cons.mp hq with rfl | hq
    · decide
    rw [above_nil.mp hq]
    decide)
  refine ⟨fs', e, h1 _ ⟨["b".toList], rfl⟩, ?_⟩
  rw [h2 _ fun hq => ?_]
  · decide
  · rcases above_cons.mp hq with h | hq
    · exact absurd h (by decide)
    rcases above_cons.mp hq with h | hq
    · exact absurd h (by decide)
    rcases above_cons.mp hq with h | hq
    · exact absurd h (by decide)
    exact absurd (above_nil.mp hq) (by decide)

/-- `C118_exists` and `C118_fails`: a file of that name, a file in the way. -/
example : makedir Ex.tree ["run.log".toList] = (Ex.tree, none) ∧ makedir Ex.tree ["a".toList, "run.log".toList] = (Ex.tree, some .notADirectory) :=
  ⟨(C118_exists (by simp) (by decide)).1, (C118_fails Ex.tree_ok _).1 (by simp) ⟨["run.log".toList], ⟨["a".toList], rfl⟩, by decide, by decide⟩⟩

end Dg1d.Props
