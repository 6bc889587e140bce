import Verif.Spec.Plot
import Verif.Proofs.DgSpec
import Verif.Proofs.IO

/-! # Lemmas on the plot tool -/

open Polynomial

namespace Dg1d
open Text Spec

/-- The columns of `primitiveColumns`, for three fields. -/
lemma primitiveColumns_val {A : Arr ℝ} {N : ℕ} (hA : A.cols = N * 3) (r e : ℕ) (he : e < N) :
    (primitiveColumns 3 A).val r (e * 3 + 0) = A.val r (e * 3) ∧
    (primitiveColumns 3 A).val r (e * 3 + 1) = A.val r (e * 3 + 1) / A.val r (e * 3) ∧
    (primitiveColumns 3 A).val r (e * 3 + 2) = 2 / 5 * (A.val r (e * 3 + 2) - 1 / 2 * A.val r (e * 3) * (A.val r (e * 3 + 1) / A.val r (e * 3)) ^ 2) := by
  have hi : ∀ j : ℕ, j ≤ 2 → pyIdx A.cols (j : ℤ) = j := by
    intro j hj
    unfold pyIdx
    rw [if_neg (by omega), Int.toNat_natCast]
    omega
  have h0 : pyIdx A.cols 0 = 0 := hi 0 (by omega)
  have h1 : pyIdx A.cols 1 = 1 := hi 1 (by omega)
  have h2 : pyIdx A.cols 2 = 2 := hi 2 (by omega)
  have hc : pyIdx A.cols (A.cols : ℤ) = A.cols := by unfold pyIdx; rw [if_neg (by omega), Int.toNat_natCast, min_self]
  unfold primitiveColumns Arr.setColSliceStep Arr.colSliceStep Arr.zip3
  simp only [h0, h1, h2, hc]
  refine ⟨?_, ?_, ?_⟩
  · rw [if_neg (by omega), if_neg (by omega)]; rfl
  · rw [if_neg (by omega), if_pos (by omega), show (e * 3 + 1 - 1) / 3 = e by omega]
    congr 2 <;> omega
  · rw [if_pos (by omega), show (e * 3 + 2 - 2) / 3 = e by omega, show 0 + e * 3 = e * 3 by omega, show 1 + e * 3 = e * 3 + 1 by omega, show 2 + e * 3 = e * 3 + 2 by omega]
    ring

/-- Data lines of a file whose rows may have inner white space. -/
lemma dataLines_savetxt' {h1 : Str} (n1 : '\n' ∉ h1 ∧ '\r' ∉ h1) (p : ℕ) {rows : List Str} (h0 : ∀ r ∈ rows, r ≠ [])
    (hr' : ∀ r ∈ rows, '\n' ∉ r ∧ '\r' ∉ r) (hs : ∀ r ∈ rows, strip r = r ∧ '#' ∉ r) : dataLines (savetxt (h1 ++ '\n' :: head2 p) rows) = rows := by
  unfold dataLines
  rw [lines_savetxt n1 p hr', List.map_cons, List.map_cons]
  have e : ∀ h : Str, strip (List.takeWhile (fun c => decide (c ≠ '#')) ("# ".toList ++ h ++ ['\n'])) = [] := by
    intro h
    have : "# ".toList = ['#', ' '] := by decide
    rw [this]
    rfl
  rw [e, e, List.filter_cons_of_neg (by simp), List.filter_cons_of_neg (by simp)]
  induction rows with
  | nil => rfl
  | cons r rows ih =>
    have hrr := hs r (by simp)
    have e2 : strip (List.takeWhile (fun c => decide (c ≠ '#')) (r ++ ['\n'])) = r := by
      rw [List.takeWhile_append_of_pos (p := fun c => decide (c ≠ '#')) (fun c hc => decide_eq_true fun h : c = '#' => hrr.2 (h ▸ hc))]
      have : List.takeWhile (fun c => decide (c ≠ '#')) ['\n'] = ['\n'] := by decide
      rw [this, strip_newline, hrr.1]
    rw [List.map_cons, List.map_cons, e2, List.filter_cons_of_pos (by simpa using h0 r (by simp)),
      ih (fun r h => h0 r (by simp [h])) (fun r h => hr' r (by simp [h])) (fun r h => hs r (by simp [h]))]

/-- A row of a sensor file. -/
lemma sensorRow_facts {w : Str} (hw : Clean w) (h0 : w ≠ []) (n : ℕ) :
    let row := w ++ ", ".toList ++ natText n
    row ≠ [] ∧ ('\n' ∉ row ∧ '\r' ∉ row) ∧ (strip row = row ∧ '#' ∉ row) ∧ splitComma row = [w, ' ' :: natText n] := by
  have hn := Clean.natText n
  have hsep : ", ".toList = [',', ' '] := by decide
  intro row
  have hrow : row = w ++ [',', ' '] ++ natText n := by rw [← hsep]
  refine ⟨?_, ?_, ?_, ?_⟩
  · rw [hrow]; simp
  · rw [hrow]
    simp only [List.mem_append, not_or]
    exact ⟨⟨⟨hw.no.1, by decide⟩, hn.no.1⟩, ⟨hw.no.2.1, by decide⟩, hn.no.2.1⟩
  · constructor
    · unfold strip
      rw [rstrip_id, lstrip_id]
      · intro c hc
        rw [hrow] at hc
        obtain ⟨a, w', rfl⟩ := List.exists_cons_of_ne_nil h0
        simp only [List.cons_append, List.head?_cons, Option.some.injEq] at hc
        exact hc ▸ (hw a (by simp)).1
      · intro c hc
        rw [hrow, List.getLast?_append_of_ne_nil _ (natText_ne_nil n)] at hc
        exact (hn c (List.mem_of_getLast? hc)).1
    · rw [hrow]
      simp only [List.mem_append, not_or]
      exact ⟨⟨hw.no.2.2.2.2, by decide⟩, hn.no.2.2.2.2⟩
  · have : row = join [','] [w, ' ' :: natText n] := by
      rw [hrow]; simp [join]
    rw [this, splitComma_join]
    intro v hv c hc
    simp only [List.mem_cons, List.not_mem_nil, or_false] at hv
    rcases hv with rfl | rfl
    · exact (hw c hc).2.1
    · rcases List.mem_cons.mp hc with rfl | hc
      · decide
      · exact (hn c hc).2.1

lemma strip_space (n : ℕ) : strip (' ' :: natText n) = natText n := by
  have hn := Clean.natText n
  unfold strip
  rw [rstrip_id]
  · show (' ' :: natText n).dropWhile isSpace = _
    rw [List.dropWhile_cons_of_pos (by decide)]
    exact lstrip_id fun c hc => (hn c (List.mem_of_head? hc)).1
  · intro c hc
    have : ' ' :: natText n = [' '] ++ natText n := rfl
    rw [this, List.getLast?_append_of_ne_nil _ (natText_ne_nil n)] at hc
    exact (hn c (List.mem_of_getLast? hc)).1

end Dg1d
