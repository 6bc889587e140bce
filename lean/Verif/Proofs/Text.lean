import Verif.Model.Text
import Mathlib.Data.Nat.Digits.Lemmas
import Mathlib.Tactic.IntervalCases

/-! Helper lemmas: text. -/

namespace Dg1d.Text

lemma digitChar_facts {d : ℕ} (h : d < 10) : isDigit (digitChar d) = true ∧ digitVal (digitChar d) = d ∧ isSpace (digitChar d) = false ∧
    digitChar d ≠ '_' ∧ digitChar d ≠ '-' ∧ digitChar d ≠ '+' ∧ digitChar d ≠ ',' ∧ digitChar d ≠ '=' ∧ digitChar d ≠ '#' ∧
    digitChar d ≠ '.' ∧ digitChar d ≠ 'e' := by
  interval_cases d <;> decide

lemma mem_natText {n : ℕ} {c : Char} (h : c ∈ natText n) : ∃ d < 10, c = digitChar d := by
  unfold natText at h
  split at h
  · exact ⟨0, by norm_num, (List.mem_singleton.mp h).trans (by decide)⟩
  · obtain ⟨d, hd, rfl⟩ := List.mem_map.mp h
    exact ⟨d, Nat.digits_lt_base (by norm_num) (List.mem_reverse.mp hd), rfl⟩

lemma natText_ne_nil (n : ℕ) : natText n ≠ [] := by
  unfold natText
  split
  · simp
  · rename_i h
    simp only [ne_eq, List.map_eq_nil_iff, List.reverse_eq_nil_iff]
    exact Nat.digits_ne_nil_iff_ne_zero.mpr h

lemma digitsVal_zeros (k : ℕ) (s : Str) : digitsVal (List.replicate k '0' ++ s) = digitsVal s := by
  unfold digitsVal
  induction k with
  | zero => rfl
  | succ k ih => rw [List.replicate_succ, List.cons_append, List.foldl_cons]; exact ih

lemma digitsVal_natText (n : ℕ) : digitsVal (natText n) = n := by
  unfold natText
  split
  · rename_i h; subst h; rfl
  · unfold digitsVal
    rw [List.foldl_map, List.foldl_reverse]
    have : ∀ l : List ℕ, (∀ d ∈ l, d < 10) → List.foldr (fun d a => 10 * a + digitVal (digitChar d)) 0 l = Nat.ofDigits 10 l := by
      intro l hl
      induction l with
      | nil => rfl
      | cons d l ih =>
        rw [List.foldr_cons, ih (fun d hd => hl d (List.mem_cons_of_mem _ hd)), Nat.ofDigits_cons,
          (digitChar_facts (hl d (List.mem_cons_self ..))).2.1]
        simp [add_comm]
    exact (this _ fun d hd => Nat.digits_lt_base (by norm_num) hd).trans (Nat.ofDigits_digits 10 n)

lemma natTextPad_inj {w m n : ℕ} (h : natTextPad w m = natTextPad w n) : m = n := by
  have := congrArg digitsVal h
  unfold natTextPad at this
  rwa [digitsVal_zeros, digitsVal_zeros, digitsVal_natText, digitsVal_natText] at this

lemma lstrip_id {s : Str} (h : ∀ c, s.head? = some c → isSpace c = false) : lstrip s = s := by
  unfold lstrip
  cases s with
  | nil => rfl
  | cons c s => rw [List.dropWhile_cons_of_neg]; rw [h c rfl]; simp

lemma rstrip_id {s : Str} (h : ∀ c, s.getLast? = some c → isSpace c = false) : rstrip s = s := by
  unfold rstrip
  have := lstrip_id (s := s.reverse) (by intro c hc; apply h; rwa [List.head?_reverse] at hc)
  unfold lstrip at this
  rw [this, List.reverse_reverse]

/-- `rstrip` of a text followed by white space. -/
lemma rstrip_append {s t : Str} (ht : ∀ c ∈ t, isSpace c = true) : rstrip (s ++ t) = rstrip s := by
  unfold rstrip
  rw [List.reverse_append]
  congr 1
  have : ∀ r : Str, (∀ c ∈ r, isSpace c = true) → List.dropWhile isSpace (r ++ s.reverse) = List.dropWhile isSpace s.reverse := by
    intro r hr
    induction r with
    | nil => rfl
    | cons c r ih =>
      rw [List.cons_append, List.dropWhile_cons_of_pos (hr c (List.mem_cons_self ..))]
      exact ih fun c hc => hr c (List.mem_cons_of_mem _ hc)
  exact this _ fun c hc => ht c (List.mem_reverse.mp hc)

lemma strip_id {s : Str} (h : ∀ c ∈ s, isSpace c = false) : strip s = s := by
  unfold strip
  rw [rstrip_id fun c hc => h c (List.mem_of_getLast? hc), lstrip_id fun c hc => h c (List.mem_of_head? hc)]

lemma digitsOk_of {s : Str} (h0 : s ≠ []) (h : ∀ c ∈ s, isDigit c = true ∧ c ≠ '_') : digitsOk s = true := by
  induction s with
  | nil => exact absurd rfl h0
  | cons c s ih =>
    cases s with
    | nil => exact (h c (List.mem_cons_self ..)).1
    | cons d s =>
      have hd := (h d (by simp)).2
      rw [digitsOk]
      · rw [(h c (List.mem_cons_self ..)).1, Bool.true_and]
        exact ih (by simp) fun c hc => h c (List.mem_cons_of_mem _ hc)
      · intro hh; simp at hh
      · intro s' hh
        exact hd (by injection hh)

lemma natOf_digits {s : Str} (h0 : s ≠ []) (h : ∀ c ∈ s, ∃ d < 10, c = digitChar d) : natOf s = some (digitsVal s) := by
  have hd : ∀ c ∈ s, isDigit c = true ∧ c ≠ '_' := by
    intro c hc
    obtain ⟨d, hd, rfl⟩ := h c hc
    exact ⟨(digitChar_facts hd).1, (digitChar_facts hd).2.2.2.1⟩
  unfold natOf
  rw [if_pos (digitsOk_of h0 hd), List.filter_eq_self.mpr fun c hc => (hd c hc).1]

/-- `int('{:d}'.format(n)) = n`, also with white space around it. -/
lemma intOf_natText (n : ℕ) : intOf (natText n) = some (n : ℤ) := by
  have h := @mem_natText n
  have hs : strip (natText n) = natText n := strip_id fun c hc => by
    obtain ⟨d, hd, rfl⟩ := h hc; exact (digitChar_facts hd).2.2.1
  have hv := natOf_digits (natText_ne_nil n) (fun c hc => h hc)
  rw [digitsVal_natText] at hv
  unfold intOf
  rw [hs]
  rcases e : natText n with _ | ⟨c, t⟩
  · exact absurd e (natText_ne_nil n)
  · obtain ⟨d, hd, rfl⟩ := h (c := c) (by rw [e]; simp)
    obtain ⟨-, -, -, -, h1, h2, -⟩ := digitChar_facts hd
    rw [e] at hv
    split
    · rename_i hh; injection hh with hh; exact absurd hh h1
    · rename_i hh; injection hh with hh; exact absurd hh h2
    · rw [hv]; rfl

lemma splitOnP_cons_of {p : Char → Bool} {a : Str} (h : ∀ c ∈ a, p c = false) {sep : Char} (hs : p sep = true) (b : Str) :
    (a ++ sep :: b).splitOnP p = a :: b.splitOnP p := List.splitOnP_append_cons_of_forall_mem h sep hs b

/-- A word without white space comes first. -/
lemma split_cons {a b : Str} (h0 : a ≠ []) (h : ∀ c ∈ a, isSpace c = false) {sep : Char} (hs : isSpace sep = true) :
    split (a ++ sep :: b) = a :: split b := by
  unfold split
  rw [splitOnP_cons_of h hs, List.filter_cons_of_pos (by simpa using h0)]

lemma split_word {a : Str} (h0 : a ≠ []) (h : ∀ c ∈ a, isSpace c = false) : split a = [a] := by
  unfold split
  rw [List.splitOnP_eq_singleton h, List.filter_cons_of_pos (by simpa using h0)]
  rfl

lemma lines_cons {a : Str} (h : '\n' ∉ a) (b : Str) : lines (a ++ '\n' :: b) = (a ++ ['\n']) :: lines b := by
  induction a with
  | nil => simp [lines]
  | cons c a ih =>
    have hc : c ≠ '\n' := fun hh => h (by simp [hh])
    rw [List.cons_append, lines, if_neg hc, ih (fun hh => h (List.mem_cons_of_mem _ hh))]
    rfl

lemma universalNewlines_id {s : Str} (h : '\r' ∉ s) : universalNewlines s = s := by
  induction s with
  | nil => rfl
  | cons c s ih =>
    have hc : c ≠ '\r' := fun hh => h (by simp [hh])
    rw [universalNewlines]
    · rw [ih fun hh => h (List.mem_cons_of_mem _ hh)]
    · intro s' hh _; exact hc hh
    · intro hh; exact hc hh

end Dg1d.Text
