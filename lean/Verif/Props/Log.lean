import Verif.Model.Log
import Verif.Proofs.Text
import Verif.Spec.Decimal
import Verif.Props.Regressions

/-!
# The log file and the timer (C93)
-/

namespace Dg1d.Props
open Text Spec

/-! ### Lines -/

lemma lines_flatten : ∀ {ls : List Str}, (∀ l ∈ ls, ∃ a, l = a ++ ['\n'] ∧ '\n' ∉ a) → lines ls.flatten = ls
  | [], _ => rfl
  | l :: ls, h => by
    obtain ⟨a, rfl, ha⟩ := h l (by simp)
    rw [List.flatten_cons, List.append_assoc, List.singleton_append, lines_cons ha, lines_flatten fun m hm => h m (List.mem_cons_of_mem _ hm)]

/-- No `d` is followed by an `s`. -/
def NoDs (s : Str) : Prop := s.IsChain fun a b => ¬ (a = 'd' ∧ b = 's')

instance (s : Str) : Decidable (NoDs s) := by unfold NoDs; infer_instance

lemma noDs_of {s : Str} (h : 'd' ∉ s) : NoDs s := by
  unfold NoDs
  refine List.Pairwise.isChain ?_
  rw [List.pairwise_iff_forall_sublist]
  intro a b hab hh
  exact h (hh.1 ▸ hab.subset (by simp))

lemma noDs_append {s t : Str} (hs : NoDs s) (ht : NoDs t) (h : s.getLast? ≠ some 'd') : NoDs (s ++ t) := by
  unfold NoDs at *
  rw [List.isChain_append]
  refine ⟨hs, ht, fun a ha b _ hh => h ?_⟩
  rw [Option.mem_def] at ha
  rw [ha, hh.1]

lemma not_isIn {s : Str} (h : NoDs s) : isIn "seconds".toList s = false := by
  unfold isIn
  rw [decide_eq_false_iff_not]
  intro hi
  have := List.IsChain.infix h hi
  revert this
  decide

lemma printer_line {efmt : ℝ → Str} (hE : ∀ x, ∀ c ∈ efmt x, c ≠ '\n' ∧ c ≠ '\r' ∧ c ≠ 'd') (o : OutRec ℝ) :
    (∃ a, printerLine efmt o = a ++ ['\n'] ∧ '\n' ∉ a) ∧ isIn "seconds".toList (printerLine efmt o) = false ∧ '\r' ∉ printerLine efmt o := by
  have hn : ∀ c ∈ natText o.sol.n, c ≠ '\n' ∧ c ≠ '\r' ∧ c ≠ 'd' := by
    intro c hc
    obtain ⟨d, hd, rfl⟩ := mem_natText hc
    interval_cases d <;> decide
  have hs : ∀ c ∈ List.replicate (7 - (natText o.sol.n).length) ' ', c = ' ' := fun c hc => (List.mem_replicate.mp hc).2
  have hX : ∀ c ∈ "Solution written to file at step ".toList, c ≠ '\n' ∧ c ≠ '\r' ∧ c ≠ 'd' := by decide
  have hY : ∀ c ∈ " (current time step:".toList, c ≠ '\n' ∧ c ≠ '\r' ∧ c ≠ 'd' := by decide
  set X := "Solution written to file at step ".toList ++ (List.replicate (7 - (natText o.sol.n).length) ' ' ++ natText o.sol.n) with hXd
  set Y := efmt o.sol.t ++ " (current time step:".toList ++ efmt o.dt with hYd
  have X1 : ∀ c ∈ X, c ≠ '\n' ∧ c ≠ '\r' ∧ c ≠ 'd' := by
    intro c hc
    rw [hXd, List.mem_append, List.mem_append] at hc
    rcases hc with hc | hc | hc
    · exact hX c hc
    · rw [hs c hc]; decide
    · exact hn c hc
  have Y1 : ∀ c ∈ Y, c ≠ '\n' ∧ c ≠ '\r' ∧ c ≠ 'd' := by
    intro c hc
    rw [hYd, List.mem_append, List.mem_append] at hc
    rcases hc with (hc | hc) | hc
    · exact hE _ c hc
    · exact hY c hc
    · exact hE _ c hc
  have e : printerLine efmt o = X ++ (" and time ".toList ++ (Y ++ ").".toList)) ++ ['\n'] := by
    rw [hXd, hYd]
    unfold printerLine
    simp only [List.append_assoc]
    rfl
  refine ⟨⟨_, e, ?_⟩, ?_, ?_⟩
  · intro h
    rcases List.mem_append.mp h with h | h
    · exact (X1 _ h).1 rfl
    · rcases List.mem_append.mp h with h | h
      · revert h; decide
      · rcases List.mem_append.mp h with h | h
        · exact (Y1 _ h).1 rfl
        · revert h; decide
  · refine not_isIn ?_
    rw [e, List.append_assoc]
    refine noDs_append (noDs_of fun h => (X1 _ h).2.2 rfl) ?_ ?_
    · rw [List.append_assoc]
      refine noDs_append (by decide) (noDs_of ?_) (by decide)
      intro h
      rcases List.mem_append.mp h with h | h
      · rcases List.mem_append.mp h with h | h
        · exact (Y1 _ h).2.2 rfl
        · revert h; decide
      · revert h; decide
    · intro h
      exact (X1 _ (List.mem_of_getLast? h)).2.2 rfl
  · rw [e]
    intro h
    rcases List.mem_append.mp h with h | h
    · rcases List.mem_append.mp h with h | h
      · exact (X1 _ h).2.1 rfl
      · rcases List.mem_append.mp h with h | h
        · revert h; decide
        · rcases List.mem_append.mp h with h | h
          · exact (Y1 _ h).2.1 rfl
          · revert h; decide
    · revert h; decide

/-! ### The last line -/

/-- Digits, points and colons. -/
def clockChar (c : Char) : Bool := isDigit c || c == '.' || c == ':'

lemma clockChar_facts {c : Char} (h : clockChar c = true) : isSpace c = false ∧ c ≠ '\n' ∧ c ≠ '\r' := by
  unfold clockChar at h
  rw [Bool.or_eq_true, Bool.or_eq_true, beq_iff_eq, beq_iff_eq] at h
  rcases h with (h | rfl) | rfl
  · unfold isDigit at h
    rw [Bool.and_eq_true, decide_eq_true_eq, decide_eq_true_eq] at h
    refine ⟨?_, ?_, ?_⟩
    · unfold isSpace
      have h1 := h.1
      have h2 := h.2
      simp only [Bool.or_eq_false_iff, Bool.and_eq_false_iff, decide_eq_false_iff_not, beq_eq_false_iff_ne]
      omega
    · rintro rfl; exact absurd h.1 (by decide)
    · rintro rfl; exact absurd h.1 (by decide)
  · decide
  · decide

lemma clock_digit {d : ℕ} (h : d < 10) : clockChar (digitChar d) = true := by
  unfold clockChar
  rw [(digitChar_facts h).1]
  rfl

lemma clock_natText {n : ℕ} {c : Char} (h : c ∈ natText n) : clockChar c = true := by
  obtain ⟨d, hd, rfl⟩ := mem_natText h
  exact clock_digit hd

lemma mem_pad {w n : ℕ} {c : Char} (h : c ∈ natTextPad w n) : ∃ d < 10, c = digitChar d := by
  unfold natTextPad at h
  rcases List.mem_append.mp h with h | h
  · exact ⟨0, by norm_num, (List.mem_replicate.mp h).2.trans (by decide)⟩
  · exact mem_natText h

lemma clock_pad {w n : ℕ} {c : Char} (h : c ∈ natTextPad w n) : clockChar c = true := by
  obtain ⟨d, hd, rfl⟩ := mem_pad h
  exact clock_digit hd

/-- The part of the text of a `timedelta` after the days. -/
def clockText (us : ℕ) : Str :=
  natText (us / 10 ^ 6 % 86400 / 3600) ++ ':' :: natTextPad 2 (us / 10 ^ 6 % 3600 / 60) ++ ':' :: natTextPad 2 (us / 10 ^ 6 % 60) ++
    if us % 10 ^ 6 = 0 then [] else '.' :: natTextPad 6 (us % 10 ^ 6)

lemma clockText_chars {us : ℕ} : ∀ c ∈ clockText us, clockChar c = true := by
  intro c h
  unfold clockText at h
  rcases List.mem_append.mp h with h | h
  · rcases List.mem_append.mp h with h | h
    · rcases List.mem_append.mp h with h | h
      · exact clock_natText h
      · rcases List.mem_cons.mp h with rfl | h
        · rfl
        · exact clock_pad h
    · rcases List.mem_cons.mp h with rfl | h
      · rfl
      · exact clock_pad h
  · split at h
    · cases h
    · rcases List.mem_cons.mp h with rfl | h
      · rfl
      · exact clock_pad h

lemma clockText_colon (us : ℕ) : ':' ∈ clockText us := by
  unfold clockText
  simp

lemma fixedText_chars {us : ℕ} : ∀ c ∈ fixedText us, clockChar c = true := by
  intro c h
  unfold fixedText at h
  rcases List.mem_append.mp h with h | h
  · exact clock_natText h
  · rcases List.mem_cons.mp h with rfl | h
    · rfl
    · exact clock_pad h

lemma timedelta_short {us : ℕ} (h : us < 86400 * 10 ^ 6) : timedeltaText us = clockText us := by
  unfold timedeltaText clockText
  have : us / 10 ^ 6 / 86400 = 0 := by omega
  simp only [this, if_true, List.nil_append]

lemma timedelta_long {us : ℕ} (h : 86400 * 10 ^ 6 ≤ us) : ∃ w ∈ ["day,".toList, "days,".toList],
    timedeltaText us = natText (us / 10 ^ 6 / 86400) ++ ' ' :: (w ++ ' ' :: clockText us) := by
  have h0 : us / 10 ^ 6 / 86400 ≠ 0 := by omega
  unfold timedeltaText
  by_cases h1 : us / 10 ^ 6 / 86400 = 1
  · refine ⟨"day,".toList, by simp, ?_⟩
    simp only [h1, if_neg (by decide : ¬ (1 : ℕ) = 0), if_true, clockText, List.append_assoc]
    rfl
  · refine ⟨"days,".toList, by simp, ?_⟩
    simp only [h1, h0, if_false, clockText, List.append_assoc]
    rfl

lemma elapsed_line (us us' : ℕ) : (∃ a, elapsedLine us us' = a ++ ['\n'] ∧ '\n' ∉ a) ∧ isIn "seconds".toList (elapsedLine us us') = true ∧ '\r' ∉ elapsedLine us us' := by
  have ht : ∀ c ∈ timedeltaText us, c ≠ '\n' ∧ c ≠ '\r' := by
    intro c hc
    by_cases h : us < 86400 * 10 ^ 6
    · rw [timedelta_short h] at hc
      exact (clockChar_facts (clockText_chars c hc)).2
    · obtain ⟨w, hw, e⟩ := timedelta_long (not_lt.mp h)
      rw [e] at hc
      rcases List.mem_append.mp hc with hc | hc
      · exact (clockChar_facts (clock_natText hc)).2
      · rcases List.mem_cons.mp hc with rfl | hc
        · decide
        · rcases List.mem_append.mp hc with hc | hc
          · have : ∀ w ∈ ["day,".toList, "days,".toList], ∀ c ∈ w, c ≠ '\n' ∧ c ≠ '\r' := by decide
            exact this w hw c hc
          · rcases List.mem_cons.mp hc with rfl | hc
            · decide
            · exact (clockChar_facts (clockText_chars c hc)).2
  have hf : ∀ c ∈ fixedText us', c ≠ '\n' ∧ c ≠ '\r' := fun c hc => (clockChar_facts (fixedText_chars c hc)).2
  have e : elapsedLine us us' = ("Elapsed time ".toList ++ (timedeltaText us ++ (" (or ".toList ++ (fixedText us' ++ " seconds)".toList)))) ++ ['\n'] := by
    unfold elapsedLine
    simp only [List.append_assoc]
    rfl
  have l1 : ∀ c ∈ "Elapsed time ".toList, c ≠ '\n' ∧ c ≠ '\r' := by decide
  have l2 : ∀ c ∈ " (or ".toList, c ≠ '\n' ∧ c ≠ '\r' := by decide
  have l3 : ∀ c ∈ " seconds)".toList, c ≠ '\n' ∧ c ≠ '\r' := by decide
  have hall : ∀ c ∈ "Elapsed time ".toList ++ (timedeltaText us ++ (" (or ".toList ++ (fixedText us' ++ " seconds)".toList))), c ≠ '\n' ∧ c ≠ '\r' := by
    intro c hc
    rcases List.mem_append.mp hc with hc | hc
    · exact l1 c hc
    · rcases List.mem_append.mp hc with hc | hc
      · exact ht c hc
      · rcases List.mem_append.mp hc with hc | hc
        · exact l2 c hc
        · rcases List.mem_append.mp hc with hc | hc
          · exact hf c hc
          · exact l3 c hc
  refine ⟨⟨_, e, fun h => (hall _ h).1 rfl⟩, ?_, ?_⟩
  · unfold isIn
    rw [decide_eq_true_eq]
    refine ⟨"Elapsed time ".toList ++ timedeltaText us ++ " (or ".toList ++ fixedText us' ++ " ".toList, ")\n".toList, ?_⟩
    unfold elapsedLine
    simp only [List.append_assoc]
    rfl
  · rw [e]
    intro h
    rcases List.mem_append.mp h with h | h
    · exact (hall _ h).2 rfl
    · revert h; decide

lemma split_nil : split [] = [] := rfl

lemma elapsed_words_short {us us' : ℕ} (h : us < 86400 * 10 ^ 6) :
    split (elapsedLine us us') = ["Elapsed".toList, "time".toList, clockText us, "(or".toList, fixedText us', "seconds)".toList] := by
  unfold elapsedLine
  rw [timedelta_short h]
  have e : "Elapsed time ".toList ++ clockText us ++ " (or ".toList ++ fixedText us' ++ " seconds)\n".toList =
      "Elapsed".toList ++ ' ' :: ("time".toList ++ ' ' :: (clockText us ++ ' ' :: ("(or".toList ++ ' ' :: (fixedText us' ++ ' ' :: ("seconds)".toList ++ '\n' :: []))))) := by
    simp only [List.append_assoc]
    rfl
  have hc0 : clockText us ≠ [] := List.ne_nil_of_mem (clockText_colon us)
  have hf0 : fixedText us' ≠ [] := by unfold fixedText; simp
  rw [e, split_cons (by decide) (by decide) (by decide), split_cons (by decide) (by decide) (by decide),
    split_cons hc0 (fun c hc => (clockChar_facts (clockText_chars c hc)).1) (by decide), split_cons (by decide) (by decide) (by decide),
    split_cons hf0 (fun c hc => (clockChar_facts (fixedText_chars c hc)).1) (by decide), split_cons (by decide) (by decide) (by decide), split_nil]

lemma elapsed_words_long {us us' : ℕ} (h : 86400 * 10 ^ 6 ≤ us) : ∃ w1 w2 rest,
    split (elapsedLine us us') = "Elapsed".toList :: "time".toList :: w1 :: w2 :: clockText us :: rest := by
  obtain ⟨w, hw, ht⟩ := timedelta_long h
  have hw' : w ≠ [] ∧ ∀ c ∈ w, isSpace c = false := by
    revert w
    have : ∀ w ∈ ["day,".toList, "days,".toList], w ≠ [] ∧ ∀ c ∈ w, isSpace c = false := by decide
    intro w hw _
    exact this w hw
  unfold elapsedLine
  rw [ht]
  have e : "Elapsed time ".toList ++ (natText (us / 10 ^ 6 / 86400) ++ ' ' :: (w ++ ' ' :: clockText us)) ++ " (or ".toList ++ fixedText us' ++ " seconds)\n".toList =
      "Elapsed".toList ++ ' ' :: ("time".toList ++ ' ' :: (natText (us / 10 ^ 6 / 86400) ++ ' ' :: (w ++ ' ' :: (clockText us ++ ' ' :: ("(or ".toList ++ (fixedText us' ++ " seconds)\n".toList)))))) := by
    simp only [List.append_assoc, List.cons_append]
    rfl
  have hc0 : clockText us ≠ [] := List.ne_nil_of_mem (clockText_colon us)
  rw [e, split_cons (by decide) (by decide) (by decide), split_cons (by decide) (by decide) (by decide),
    split_cons (natText_ne_nil _) (fun c hc => (clockChar_facts (clock_natText hc)).1) (by decide), split_cons hw'.1 hw'.2 (by decide),
    split_cons hc0 (fun c hc => (clockChar_facts (clockText_chars c hc)).1) (by decide)]
  exact ⟨_, _, _, rfl⟩

/-! ### Reading it -/

lemma natText_length_le {n w : ℕ} (hw : 0 < w) (h : n < 10 ^ w) : (natText n).length ≤ w := by
  unfold natText
  split
  · exact hw
  · rw [List.length_map, List.length_reverse]
    exact (Nat.digits_length_le_iff (by norm_num) n).mpr h

lemma pad_length {n w : ℕ} (hw : 0 < w) (h : n < 10 ^ w) : (natTextPad w n).length = w := by
  unfold natTextPad
  rw [List.length_append, List.length_replicate]
  have := natText_length_le hw h
  omega

lemma fixedText_decimal (us : ℕ) : decimal (fixedText us) = some ((us : ℚ) / 10 ^ 6) := by
  have hd : ∀ c ∈ natText (us / 10 ^ 6), isDigit c = true := fun c hc => by
    obtain ⟨d, hd, rfl⟩ := mem_natText hc
    exact (digitChar_facts hd).1
  have hb : ∀ c ∈ natTextPad 6 (us % 10 ^ 6), isDigit c = true := fun c hc => by
    obtain ⟨d, hd, rfl⟩ := mem_pad hc
    exact (digitChar_facts hd).1
  have hu : unsigned (fixedText us) = some ((us : ℚ) / 10 ^ 6) := by
    have htake : (fixedText us).takeWhile isDigit = natText (us / 10 ^ 6) := by
      unfold fixedText
      rw [List.takeWhile_append_of_pos hd, List.takeWhile_cons_of_neg (by decide), List.append_nil]
    have hdrop : (fixedText us).dropWhile isDigit = '.' :: natTextPad 6 (us % 10 ^ 6) := by
      unfold fixedText
      rw [List.dropWhile_append_of_pos hd, List.dropWhile_cons_of_neg (by decide)]
    unfold unsigned
    rw [hdrop, htake]
    have hl : (natTextPad 6 (us % 10 ^ 6)).length = 6 := pad_length (by norm_num) (Nat.mod_lt _ (by norm_num))
    have h0 : natTextPad 6 (us % 10 ^ 6) ≠ [] := fun h => by rw [h] at hl; simp at hl
    have hv : digitsVal (natTextPad 6 (us % 10 ^ 6)) = us % 10 ^ 6 := by
      unfold natTextPad
      rw [digitsVal_zeros, digitsVal_natText]
    show (if natText (us / 10 ^ 6) ≠ [] ∧ natTextPad 6 (us % 10 ^ 6) ≠ [] ∧ (natTextPad 6 (us % 10 ^ 6)).all isDigit then
      some ((digitsVal (natText (us / 10 ^ 6)) : ℚ) + digitsVal (natTextPad 6 (us % 10 ^ 6)) / 10 ^ (natTextPad 6 (us % 10 ^ 6)).length) else none) = _
    rw [if_pos ⟨natText_ne_nil _, h0, List.all_eq_true.mpr hb⟩, hl, hv, digitsVal_natText]
    congr 1
    have := Nat.div_add_mod us (10 ^ 6)
    have h : (us : ℚ) = 10 ^ 6 * ((us / 10 ^ 6 : ℕ) : ℚ) + ((us % 10 ^ 6 : ℕ) : ℚ) := by exact_mod_cast this.symm
    rw [eq_div_iff (by norm_num)]
    rw [add_mul, div_mul_cancel₀ _ (by norm_num), h]
    ring
  cases hf : fixedText us with
  | nil => rw [hf] at hu; exact hu
  | cons c s =>
    have hc : c ≠ '-' := by
      have h1 := List.exists_cons_of_ne_nil (natText_ne_nil (us / 10 ^ 6))
      obtain ⟨d, t, hdt⟩ := h1
      have : c = d := by
        have : fixedText us = d :: (t ++ '.' :: natTextPad 6 (us % 10 ^ 6)) := by unfold fixedText; rw [hdt]; rfl
        rw [hf] at this
        injection this
      rw [this]
      rintro rfl
      exact absurd (hd '-' (by rw [hdt]; simp)) (by decide)
    rw [hf] at hu
    unfold decimal
    split
    · rename_i hh; injection hh with hh; exact absurd hh hc
    · exact hu

/-! ### The whole file -/

/-- The texts of the numbers in the log have no line breaks and no letter `d`. -/
def LogFormats.Plain (fm : LogFormats) : Prop := ∀ x, (∀ c ∈ fm.e x, c ≠ '\n' ∧ c ≠ '\r' ∧ c ≠ 'd') ∧ ∀ c ∈ fm.share x, c ≠ '\n' ∧ c ≠ '\r' ∧ c ≠ 'd'

lemma share_line {share : ℝ → Str} (hE : ∀ x, ∀ c ∈ share x, c ≠ '\n' ∧ c ≠ '\r' ∧ c ≠ 'd') (s : Sol ℝ) (sn : Sensor ℝ) :
    (∃ a, shareLine share s sn = a ++ ['\n'] ∧ '\n' ∉ a) ∧ isIn "seconds".toList (shareLine share s sn) = false ∧ '\r' ∉ shareLine share s sn := by
  have e : shareLine share s sn = ("\tsensors on in ".toList ++ (share (sensorShare s sn) ++ "% of the domain".toList)) ++ ['\n'] := by
    unfold shareLine
    simp only [List.append_assoc]
    rfl
  have l1 : ∀ c ∈ "\tsensors on in ".toList, c ≠ '\n' ∧ c ≠ '\r' ∧ c ≠ 'd' := by decide
  have l2 : ∀ c ∈ "% of the domain".toList, c ≠ '\n' ∧ c ≠ '\r' := by decide
  have hall : ∀ c ∈ "\tsensors on in ".toList ++ (share (sensorShare s sn) ++ "% of the domain".toList), c ≠ '\n' ∧ c ≠ '\r' := by
    intro c hc
    rcases List.mem_append.mp hc with hc | hc
    · exact ⟨(l1 c hc).1, (l1 c hc).2.1⟩
    · rcases List.mem_append.mp hc with hc | hc
      · exact ⟨(hE _ c hc).1, (hE _ c hc).2.1⟩
      · exact l2 c hc
  refine ⟨⟨_, e, fun h => (hall _ h).1 rfl⟩, not_isIn ?_, ?_⟩
  · rw [e, List.append_assoc, List.append_assoc]
    refine noDs_append (by decide) (noDs_append (noDs_of fun h => (hE _ _ h).2.2 rfl) (by decide) fun h => (hE _ _ (List.mem_of_getLast? h)).2.2 rfl) (by decide)
  · rw [e]
    intro h
    rcases List.mem_append.mp h with h | h
    · exact (hall _ h).2 rfl
    · revert h; decide

/-- The lines of a log that do not depend on numbers. -/
def fixedLines : List Str := [['\n'], "Parsing the deck file.\n".toList, "Generating the solution.\n".toList, "Generating the basis functions.\n".toList,
  "Generating the enhancement procedure.\n".toList, "Setting up the sensors.\n".toList, "Initializing the DG solver.\n".toList, "Setting up the limiter:\n".toList,
  "\tAdaptive limiting with hierarchical reconstruction\n".toList, "\tNo limiting.\n".toList, "Integrating the solution in time.\n".toList,
  "Unrecognized RK option, default to RK4\n".toList]

lemma mem_linesBefore {version : Str} {d : Deck ℝ} {l : Str} (h : l ∈ linesBefore version d) : l = "Code version:  ".toList ++ version ++ ['\n'] ∨ l ∈ fixedLines := by
  unfold linesBefore at h
  simp only [List.mem_append] at h
  have sub : ∀ {m : List Str}, (∀ x ∈ m, x ∈ fixedLines) → l ∈ m → l ∈ fixedLines := fun hm => hm l
  rcases h with ((((((h | h) | h) | h) | h) | h) | h)
  · rcases List.mem_cons.mp h with h | h
    · exact .inl h
    · exact .inr (sub (by decide) h)
  · split_ifs at h
    · cases h
    · exact .inr (sub (by decide) h)
  · split_ifs at h
    · cases h
    · exact .inr (sub (by decide) h)
  · exact .inr (sub (by decide) h)
  · split_ifs at h
    · exact .inr (sub (by decide) h)
    · exact .inr (sub (by decide) h)
  · exact .inr (sub (by decide) h)
  · split_ifs at h
    · cases h
    · exact .inr (sub (by decide) h)

lemma mem_printerLines {fm : LogFormats} (hE : LogFormats.Plain fm) {outs : List (OutRec ℝ)} {l : Str} (h : l ∈ outs.flatMap (printerLines fm)) :
    (∃ a, l = a ++ ['\n'] ∧ '\n' ∉ a) ∧ isIn "seconds".toList l = false ∧ '\r' ∉ l := by
  obtain ⟨o, -, ho⟩ := List.mem_flatMap.mp h
  unfold printerLines at ho
  rcases List.mem_cons.mp ho with rfl | ho
  · exact printer_line (fun x => (hE x).1) o
  · split at ho
    · cases ho
    · rw [List.mem_singleton.mp ho]
      exact share_line (fun x => (hE x).2) _ _

/-- The output of a run, line by line. -/
lemma runLog_lines {version : Str} (hv : '\n' ∉ version ∧ '\r' ∉ version) {fm : LogFormats} (hE : LogFormats.Plain fm) (d : Deck ℝ)
    (outs : List (OutRec ℝ)) (last : List Str) (hlast : ∀ l ∈ last, (∃ a, l = a ++ ['\n'] ∧ '\n' ∉ a) ∧ '\r' ∉ l) :
    lines (universalNewlines (linesBefore version d ++ outs.flatMap (printerLines fm) ++ last).flatten) = linesBefore version d ++ outs.flatMap (printerLines fm) ++ last := by
  have hall : ∀ l ∈ linesBefore version d ++ outs.flatMap (printerLines fm) ++ last, (∃ a, l = a ++ ['\n'] ∧ '\n' ∉ a) ∧ '\r' ∉ l := by
    intro l hl
    rcases List.mem_append.mp hl with hl | hl
    · rcases List.mem_append.mp hl with hl | hl
      · rcases mem_linesBefore hl with rfl | hl
        · refine ⟨⟨_, rfl, ?_⟩, ?_⟩
          · rw [List.mem_append, not_or]; exact ⟨by decide, hv.1⟩
          · rw [List.mem_append, List.mem_append, not_or, not_or]; exact ⟨⟨by decide, hv.2⟩, by decide⟩
        · have h : ∀ l ∈ fixedLines, l = l.dropLast ++ ['\n'] ∧ '\n' ∉ l.dropLast ∧ '\r' ∉ l := by decide
          obtain ⟨h1, h2, h3⟩ := h l hl
          exact ⟨⟨_, h1, h2⟩, h3⟩
      · exact ⟨(mem_printerLines hE hl).1, (mem_printerLines hE hl).2.2⟩
    · exact hlast l hl
  rw [universalNewlines_id, lines_flatten fun l hl => (hall l hl).1]
  intro h
  obtain ⟨l, hl, hr⟩ := List.mem_flatten.mp h
  exact (hall l hl).2 hr

lemma before_find {version : Str} (hv : ¬ "seconds".toList <:+: "Code version:  ".toList ++ version) {fm : LogFormats}
    (hE : LogFormats.Plain fm) (d : Deck ℝ) (outs : List (OutRec ℝ)) :
    (linesBefore version d ++ outs.flatMap (printerLines fm)).find? (fun l => isIn "seconds".toList l) = none := by
  rw [List.find?_eq_none]
  intro l hl
  rw [Bool.not_eq_true]
  rcases List.mem_append.mp hl with hl | hl
  · rcases mem_linesBefore hl with rfl | hl
    · unfold isIn
      rw [decide_eq_false_iff_not]
      intro h
      rcases List.infix_concat_iff.mp h with h | h
      · have := h.getLast (by decide)
        rw [List.getLast_append_of_ne_nil _ (by simp : ['\n'] ≠ [])] at this
        revert this
        decide
      · exact hv h
    · have h : ∀ l ∈ fixedLines, isIn "seconds".toList l = false := by decide
      exact h l hl
  · exact (mem_printerLines hE hl).2.1

/-- **C93 (the timer).** plot.py looks for the first line of the log with the word `seconds` and takes its fifth word. Whatever the deck, whatever outputs
a run prints and whatever time it takes:
* under a day, the number stored is the elapsed time in seconds;
* from one day on, `str(timedelta)` has blanks in it, the fifth word is the clock `h:mm:ss`, and plot.py ends with a `ValueError`;
* if the run was stopped before the last line, NaN is stored.
Assumed are: git's version is one line that does not bring in the word `seconds`, the texts of numbers have neither line breaks nor the letter `d`, `float` reads decimals and refuses colons. -/
theorem C93_timer {ft : FloatText ℝ} (hdec : ReadsDecimals ft) (hcol : ∀ s, ':' ∈ s → ft.parse s = .error .valueError) {version : Str}
    (hv : '\n' ∉ version ∧ '\r' ∉ version) (hsec : ¬ "seconds".toList <:+: "Code version:  ".toList ++ version) {fm : LogFormats}
    (hE : LogFormats.Plain fm) (d : Deck ℝ) (outs : List (OutRec ℝ)) (us us' : ℕ) :
    (us < 24 * 60 * 60 * 10 ^ 6 → timerOf ft (runLog version fm d outs us us') = .ok (some ((us' : ℝ) / 10 ^ 6))) ∧
    (24 * 60 * 60 * 10 ^ 6 ≤ us → timerOf ft (runLog version fm d outs us us') = .error .valueError) ∧
    timerOf ft (linesBefore version d ++ outs.flatMap (printerLines fm)).flatten = .ok none := by
  have hfind := before_find hsec hE d outs
  have hget : getTimer (runLog version fm d outs us us') = (item (split (elapsedLine us us')) 4).map some := by
    unfold getTimer runLog
    rw [runLog_lines hv hE d outs _ (by rintro l hl; rw [List.mem_singleton.mp hl]; exact ⟨(elapsed_line us us').1, (elapsed_line us us').2.2⟩),
      List.find?_append, hfind, List.find?_singleton, if_pos (elapsed_line us us').2.1]
    rfl
  refine ⟨fun h => ?_, fun h => ?_, ?_⟩
  · unfold timerOf
    rw [hget, elapsed_words_short (by omega)]
    show (ft.float (fixedText us')).map some = _
    unfold FloatText.float
    rw [strip_id fun c hc => (clockChar_facts (fixedText_chars c hc)).1, hdec _ _ (fixedText_decimal us')]
    show Except.ok (some (((us' : ℚ) / 10 ^ 6 : ℚ) : ℝ)) = _
    push_cast
    rfl
  · obtain ⟨w1, w2, rest, e⟩ := elapsed_words_long (us' := us') (by omega : 86400 * 10 ^ 6 ≤ us)
    unfold timerOf
    rw [hget, e]
    show (ft.float (clockText us)).map some = _
    unfold FloatText.float
    rw [strip_id fun c hc => (clockChar_facts (clockText_chars c hc)).1, hcol _ (clockText_colon us)]
    rfl
  · have := runLog_lines hv hE d outs [] (by simp)
    rw [List.append_nil] at this
    unfold timerOf getTimer
    rw [this, hfind]

/-! ### Cases -/

/-- Formats that always give the same. -/
def Ex.logFormats : LogFormats := ⟨fun _ => "1.250000e-01".toList, fun _ => " 12.50".toList⟩

lemma Ex.logFormats_plain : LogFormats.Plain Ex.logFormats := by
  refine fun x => ⟨?_, ?_⟩
  · show ∀ c ∈ "1.250000e-01".toList, c ≠ '\n' ∧ c ≠ '\r' ∧ c ≠ 'd'
    decide
  · show ∀ c ∈ " 12.50".toList, c ≠ '\n' ∧ c ≠ '\r' ∧ c ≠ 'd'
    decide

lemma Ex.decReal_colon (s : Str) (h : ':' ∈ s) : Ex.decReal.parse s = .error .valueError := by
  have hu : ∀ t : Str, ':' ∈ t → unsigned t = none := by
    intro t ht
    have hsplit := List.takeWhile_append_dropWhile (p := isDigit) (l := t)
    have ha : ':' ∉ t.takeWhile isDigit := fun hc => absurd (List.all_eq_true.mp (List.all_takeWhile (l := t) (p := isDigit)) _ hc) (by decide)
    have hb : ':' ∈ t.dropWhile isDigit := by
      rw [← hsplit, List.mem_append] at ht
      exact ht.resolve_left ha
    unfold unsigned
    dsimp only
    split
    · rename_i e; rw [e] at hb; cases hb
    · rename_i b e
      rw [e] at hb
      have hb : ':' ∈ b := by simpa using hb
      rw [if_neg]
      rintro ⟨-, -, hall⟩
      exact absurd (List.all_eq_true.mp hall _ hb) (by decide)
    · rfl
  have hd : decimal s = none := by
    unfold decimal
    split
    · rw [hu _ (by simpa using h)]; rfl
    · exact hu _ h
  unfold Ex.decReal
  simp only [hd]

/-- 1 day, 1 hour, 1 minute, 1 second and 1 microsecond; 8 seconds and a half; 2 days sharp. -/
example : elapsedLine 90061000001 90061000001 = "Elapsed time 1 day, 1:01:01.000001 (or 90061.000001 seconds)\n".toList ∧
    elapsedLine 8500000 8500000 = "Elapsed time 0:00:08.500000 (or 8.500000 seconds)\n".toList ∧
    elapsedLine 172800000000 172800000000 = "Elapsed time 2 days, 0:00:00 (or 172800.000000 seconds)\n".toList := by decide +kernel

/-- The log of an enhanced and limited run with two outputs, an unknown RK scheme and a sensor, that took 8.5 seconds gives 17/2, of one that took a day and a bit an exception,
of one that was stopped NaN. -/
example (s : Sol ℝ) : let d : Deck ℝ := { Deck.init with limiting := "adaptive_hr".toList, sensorThresholds := [1 / 10], enhance := "full 0 1".toList, rk := "rk7".toList }
    let outs : List (OutRec ℝ) := [⟨0, 0, { s with sensors := some ⟨[1 / 10], ⟨4, fun _ => 1⟩⟩ }⟩, ⟨1, 1 / 8, { s with sensors := some ⟨[1 / 10], ⟨4, fun _ => 0⟩⟩ }⟩]
    timerOf Ex.decReal (runLog "423f0dc".toList Ex.logFormats d outs 8500000 8500000) = .ok (some (17 / 2)) ∧
    timerOf Ex.decReal (runLog "423f0dc".toList Ex.logFormats d outs 90061000001 90061000001) = .error .valueError ∧
    timerOf Ex.decReal (linesBefore "423f0dc".toList d ++ outs.flatMap (printerLines Ex.logFormats)).flatten = .ok none := by
  intro d outs
  have H := C93_timer Ex.decReal_reads Ex.decReal_colon (version := "423f0dc".toList) (by decide) (by decide) Ex.logFormats_plain d outs
  refine ⟨((H 8500000 8500000).1 (by norm_num)).trans ?_, (H _ _).2.1 (by norm_num), (H 0 0).2.2⟩
  norm_num

end Dg1d.Props
