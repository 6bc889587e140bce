import Verif.Model.IO
import Verif.Proofs.Text
import Verif.Proofs.Deck
import Verif.Proofs.Dg
import Verif.Spec.Mesh
import Mathlib.Tactic.FieldSimp
import Mathlib.Algebra.CharZero.Defs

/-! Helper lemmas: output files. -/

namespace Dg1d
open Text

variable {K : Type}

/-! ### File names -/

lemma fname_inj {f g : Str} {m n : ℕ} (hf : ∀ c, f.getLast? = some c → isDigit c = false) (hg : ∀ c, g.getLast? = some c → isDigit c = false)
    (h : f ++ (natTextPad 10 m ++ ".dat".toList) = g ++ (natTextPad 10 n ++ ".dat".toList)) : f = g ∧ m = n := by
  rw [← List.append_assoc, ← List.append_assoc] at h
  have h := List.append_cancel_right h
  have dig : ∀ n : ℕ, ∀ c ∈ natTextPad 10 n, isDigit c = true := by
    intro n c hc
    unfold natTextPad at hc
    rcases List.mem_append.mp hc with hc | hc
    · rw [List.eq_of_mem_replicate hc]; decide
    · obtain ⟨d, hd, rfl⟩ := mem_natText hc
      exact (digitChar_facts hd).1
  have drop : ∀ (f t : Str), (∀ c, f.getLast? = some c → isDigit c = false) → (∀ c ∈ t, isDigit c = true) →
      ((f ++ t).reverse.dropWhile isDigit).reverse = f := by
    intro f t hf ht
    rw [List.reverse_append, List.dropWhile_append_of_pos (fun c hc => ht c (List.mem_reverse.mp hc))]
    cases hr : f.reverse with
    | nil => rw [List.reverse_eq_nil_iff.mp hr]; rfl
    | cons c r =>
      have : f.getLast? = some c := by rw [← List.head?_reverse, hr]; rfl
      rw [List.dropWhile_cons_of_neg (by rw [hf c this]; simp), ← hr, List.reverse_reverse]
  have h1 := drop f _ hf (dig m)
  rw [h, drop g _ hg (dig n)] at h1
  subst h1
  exact ⟨rfl, natTextPad_inj (List.append_cancel_left h)⟩

/-! ### Joining and splitting -/

lemma join_eq (sep : Char) (a : Str) (l : List Str) : join [sep] (a :: l) = a ++ l.flatMap (sep :: ·) := by
  induction l generalizing a with
  | nil => simp [join]
  | cons b l ih => rw [join, ih, List.flatMap_cons]; · simp
                   · simp

lemma splitOnP_flatMap {p : Char → Bool} {sep : Char} (hs : p sep = true) {z : Str} (hz : ∀ c ∈ z, p c = false) {l : List Str}
    (hl : ∀ w ∈ l, ∀ c ∈ w, p c = false) {a : Str} (ha : ∀ c ∈ a, p c = false) :
    ((a ++ l.flatMap (sep :: ·) ++ z).splitOnP p).length = l.length + 1 ∧ (z = [] → (a ++ l.flatMap (sep :: ·) ++ z).splitOnP p = a :: l) := by
  induction l generalizing a with
  | nil =>
    have h : (a ++ z).splitOnP p = [a ++ z] := List.splitOnP_eq_singleton (fun c hc => by
      rcases List.mem_append.mp hc with h | h
      · exact ha c h
      · exact hz c h)
    rw [List.flatMap_nil, List.append_nil, h]
    exact ⟨rfl, fun h => by rw [h, List.append_nil]⟩
  | cons b l ih =>
    have e : a ++ (b :: l).flatMap (sep :: ·) ++ z = a ++ sep :: (b ++ l.flatMap (sep :: ·) ++ z) := by simp
    obtain ⟨i1, i2⟩ := ih (fun w hw => hl w (by simp [hw])) (hl b (by simp))
    rw [e, splitOnP_cons_of ha hs]
    exact ⟨by rw [List.length_cons, i1]; rfl, fun h => by rw [i2 h]⟩

lemma splitComma_join {a : Str} {l : List Str} (h : ∀ w ∈ a :: l, ∀ c ∈ w, c ≠ ',') : splitComma (join [','] (a :: l)) = a :: l := by
  rw [join_eq]
  have := (splitOnP_flatMap (p := fun c => c == ',') (sep := ',') rfl (z := []) (by simp) (l := l)
    (fun w hw c hc => by simpa using h w (by simp [hw]) c hc) (a := a) (fun c hc => by simpa using h a (by simp) c hc)).2 rfl
  rwa [List.append_nil] at this

lemma mem_join {c : Char} {a : Str} {l : List Str} (h : c ∈ join [','] (a :: l)) : c = ',' ∨ ∃ w ∈ a :: l, c ∈ w := by
  rw [join_eq] at h
  rcases List.mem_append.mp h with h | h
  · exact Or.inr ⟨a, by simp, h⟩
  · obtain ⟨w, hw, hc⟩ := List.mem_flatMap.mp h
    rcases List.mem_cons.mp hc with hc | hc
    · exact Or.inl hc
    · exact Or.inr ⟨w, by simp [hw], hc⟩

/-! ### The text of a file -/

lemma savetxt_eq {h1 h2 : Str} (n1 : '\n' ∉ h1) (n2 : '\n' ∉ h2) (rows : List Str) :
    savetxt (h1 ++ '\n' :: h2) rows = ("# ".toList ++ h1) ++ '\n' :: (("# ".toList ++ h2) ++ '\n' :: rows.flatMap (· ++ ['\n'])) := by
  have e : ∀ h : Str, '\n' ∉ h → h.flatMap (fun c => if c = '\n' then "\n# ".toList else [c]) = h := by
    intro h hn
    induction h with
    | nil => rfl
    | cons c h ih =>
      have hc : c ≠ '\n' := fun hh => hn (by simp [hh])
      rw [List.flatMap_cons, if_neg hc, ih fun hh => hn (by simp [hh])]
      rfl
  unfold savetxt
  rw [List.flatMap_append, List.flatMap_cons, e h1 n1, e h2 n2, if_pos rfl]
  have : "\n# ".toList = '\n' :: "# ".toList := by decide
  rw [this]
  simp

lemma lines_rows {rows : List Str} (h : ∀ r ∈ rows, '\n' ∉ r) : lines (rows.flatMap (· ++ ['\n'])) = rows.map (· ++ ['\n']) := by
  induction rows with
  | nil => rfl
  | cons r rows ih =>
    rw [List.flatMap_cons, List.append_assoc, List.singleton_append, lines_cons (h r (by simp)), ih fun r hr => h r (by simp [hr])]
    rfl

/-- A word that does not disturb the file format: no white space, separator or comment sign. -/
def Clean (w : Str) : Prop := ∀ c ∈ w, isSpace c = false ∧ c ≠ ',' ∧ c ≠ '=' ∧ c ≠ '#'

lemma Clean.natText (n : ℕ) : Clean (natText n) := by
  intro c hc
  obtain ⟨d, hd, rfl⟩ := mem_natText hc
  obtain ⟨-, -, h3, -, -, -, h7, h8, h9, -⟩ := digitChar_facts hd
  exact ⟨h3, h7, h8, h9⟩

lemma Clean.no {w : Str} (h : Clean w) : '\n' ∉ w ∧ '\r' ∉ w ∧ ',' ∉ w ∧ '=' ∉ w ∧ '#' ∉ w := by
  refine ⟨fun hc => ?_, fun hc => ?_, fun hc => (h _ hc).2.1 rfl, fun hc => (h _ hc).2.2.1 rfl, fun hc => (h _ hc).2.2.2 rfl⟩
  · exact absurd (h _ hc).1 (by decide)
  · exact absurd (h _ hc).1 (by decide)

lemma not_mem_natText (n : ℕ) : '\n' ∉ natText n ∧ '\r' ∉ natText n ∧ ',' ∉ natText n ∧ '=' ∉ natText n ∧ '#' ∉ natText n := (Clean.natText n).no

/-- First and second header line. -/
def head1 (n t bl br : Str) : Str := "n=".toList ++ n ++ ", t=".toList ++ t ++ ", bc_l=".toList ++ bl ++ ", bc_r=".toList ++ br
def head2 (p : ℕ) : Str := "xc".toList ++ (List.range (p + 1)).flatMap fun i => ", u".toList ++ natText i

lemma header_eq (ft : FloatText K) (s : Sol K) :
    s.header ft = head1 (natText s.n) (ft.fmt s.t) s.bcl.val.toList s.bcr.val.toList ++ '\n' :: head2 s.basis.p := by
  unfold Sol.header head1 head2
  have : "\nxc".toList = '\n' :: "xc".toList := by decide
  rw [this]
  simp only [List.append_assoc, List.cons_append]

lemma head2_no (p : ℕ) : '\n' ∉ head2 p ∧ '\r' ∉ head2 p := by
  unfold head2
  constructor <;>
  · intro h
    rcases List.mem_append.mp h with h | h
    · revert h; decide
    · obtain ⟨i, -, hc⟩ := List.mem_flatMap.mp h
      rcases List.mem_append.mp hc with hc | hc
      · revert hc; decide
      · first | exact (not_mem_natText i).1 hc | exact (not_mem_natText i).2.1 hc

lemma head1_no {n t bl br : Str} (hn : Clean n) (ht : Clean t) (hl : Clean bl) (hr : Clean br) : '\n' ∉ head1 n t bl br ∧ '\r' ∉ head1 n t bl br := by
  unfold head1
  constructor <;>
  · simp only [List.mem_append, not_or]
    refine ⟨⟨⟨⟨⟨⟨⟨by decide, ?_⟩, by decide⟩, ?_⟩, by decide⟩, ?_⟩, by decide⟩, ?_⟩
    · first | exact hn.no.1 | exact hn.no.2.1
    · first | exact ht.no.1 | exact ht.no.2.1
    · first | exact hl.no.1 | exact hl.no.2.1
    · first | exact hr.no.1 | exact hr.no.2.1

/-- The lines of an output file. -/
lemma lines_savetxt {h1 : Str} (n1 : '\n' ∉ h1 ∧ '\r' ∉ h1) (p : ℕ) {rows : List Str} (hr : ∀ r ∈ rows, '\n' ∉ r ∧ '\r' ∉ r) :
    lines (universalNewlines (savetxt (h1 ++ '\n' :: head2 p) rows)) =
      ("# ".toList ++ h1 ++ ['\n']) :: ("# ".toList ++ head2 p ++ ['\n']) :: rows.map (· ++ ['\n']) := by
  obtain ⟨n2, r2⟩ := head2_no p
  rw [savetxt_eq n1.1 n2, universalNewlines_id, lines_cons, lines_cons, lines_rows fun r h => (hr r h).1]
  · rw [List.mem_append, not_or]; exact ⟨by decide, n2⟩
  · rw [List.mem_append, not_or]; exact ⟨by decide, n1.1⟩
  · intro h
    simp only [List.mem_append, List.mem_cons, List.mem_flatMap] at h
    rcases h with (h | h) | h | (h | h) | h | ⟨r, hr', h | h⟩
    · revert h; decide
    · exact n1.2 h
    · revert h; decide
    · revert h; decide
    · exact r2 h
    · revert h; decide
    · exact (hr r hr').2 h
    · revert h; simp

lemma dataLines_savetxt {h1 : Str} (n1 : '\n' ∉ h1 ∧ '\r' ∉ h1) (p : ℕ) {rows : List Str} (h0 : ∀ r ∈ rows, r ≠ [])
    (hr : ∀ r ∈ rows, ∀ c ∈ r, isSpace c = false ∧ c ≠ '#') : dataLines (savetxt (h1 ++ '\n' :: head2 p) rows) = rows := by
  have hr' : ∀ r ∈ rows, '\n' ∉ r ∧ '\r' ∉ r := by
    intro r h
    exact ⟨fun hc => absurd (hr r h _ hc).1 (by decide), fun hc => absurd (hr r h _ hc).1 (by decide)⟩
  unfold dataLines
  rw [lines_savetxt n1 p hr', List.map_cons, List.map_cons]
  have e : ∀ h : Str, strip (List.takeWhile (fun c => decide (c ≠ '#')) ("# ".toList ++ h ++ ['\n'])) = [] := by
    intro h
    have : "# ".toList = ['#', ' '] := by decide
    rw [this]
    rfl
  rw [e, e, List.filter_cons_of_neg (by simp), List.filter_cons_of_neg (by simp)]
  induction rows with
  | nil => rfl
  | cons r rows ih =>
    have hrr := hr r (by simp)
    have e2 : strip (List.takeWhile (fun c => decide (c ≠ '#')) (r ++ ['\n'])) = r := by
      rw [List.takeWhile_append_of_pos (fun c hc => by simpa using (hrr c hc).2)]
      have : List.takeWhile (fun c => decide (c ≠ '#')) ['\n'] = ['\n'] := by decide
      rw [this, strip_newline, strip_id fun c hc => (hrr c hc).1]
    rw [List.map_cons, List.map_cons, e2, List.filter_cons_of_pos (by simpa using h0 r (by simp)),
      ih (fun r h => h0 r (by simp [h])) (fun r h => hr r (by simp [h])) (fun r h => hr' r (by simp [h]))]

lemma mapM_ok {α β : Type*} {f : α → Except PyErr β} {g : α → β} {l : List α} (h : ∀ a ∈ l, f a = .ok (g a)) : l.mapM f = .ok (l.map g) := by
  induction l with
  | nil => rfl
  | cons a l ih =>
    rw [List.mapM_cons, h a (by simp), ih fun a ha => h a (by simp [ha])]
    rfl

lemma mapM_map_ok {α β γ : Type*} {f : β → Except PyErr γ} {h : α → β} {g : α → γ} {l : List α} (hl : ∀ a ∈ l, f (h a) = .ok (g a)) :
    (l.map h).mapM f = .ok (l.map g) := by
  induction l with
  | nil => rfl
  | cons a l ih =>
    rw [List.map_cons, List.mapM_cons, hl a (by simp), ih fun a ha => hl a (by simp [ha])]
    rfl

lemma float_clean (ft : FloatText K) {w : Str} (h : Clean w) : ft.float w = ft.parse w := by
  unfold FloatText.float
  rw [strip_id fun c hc => (h c hc).1]

/-- What the loader gets from the two header lines. -/
lemma parseHeader_eq (ft : FloatText K) {n t bl br : Str} (hn : Clean n) (ht : Clean t) (hl : Clean bl) (hr : Clean br) {nv : ℕ} (hnv : intOf n = some (nv : ℤ)) {tv : K}
    (htv : ft.parse t = .ok tv) (p : ℕ) {rows : List Str} (hrows : ∀ r ∈ rows, '\n' ∉ r ∧ '\r' ∉ r) :
    parseHeader ft (savetxt (head1 n t bl br ++ '\n' :: head2 p) rows) = .ok ((nv : ℤ), tv, bl, br, ((p + 1 : ℕ) : ℤ)) := by
  have hw : splitEqComma ("# ".toList ++ head1 n t bl br ++ ['\n']) =
      ["# n".toList, n, " t".toList, t, " bc_l".toList, bl, " bc_r".toList, br ++ ['\n']] := by
    unfold splitEqComma
    have e : "# ".toList ++ head1 n t bl br ++ ['\n'] = "# n".toList ++ '=' :: (n ++ ',' :: (" t".toList ++ '=' :: (t ++ ',' ::
        (" bc_l".toList ++ '=' :: (bl ++ ',' :: (" bc_r".toList ++ '=' :: (br ++ ['\n']))))))) := by
      unfold head1
      have e1 : "# ".toList = ['#', ' '] := by decide
      have e2 : "n=".toList = ['n', '='] := by decide
      have e3 : ", t=".toList = [',', ' ', 't', '='] := by decide
      have e4 : ", bc_l=".toList = [',', ' ', 'b', 'c', '_', 'l', '='] := by decide
      have e5 : ", bc_r=".toList = [',', ' ', 'b', 'c', '_', 'r', '='] := by decide
      have e6 : "# n".toList = ['#', ' ', 'n'] := by decide
      have e7 : " t".toList = [' ', 't'] := by decide
      have e8 : " bc_l".toList = [' ', 'b', 'c', '_', 'l'] := by decide
      have e9 : " bc_r".toList = [' ', 'b', 'c', '_', 'r'] := by decide
      rw [e1, e2, e3, e4, e5, e6, e7, e8, e9]
      simp
    have cl : ∀ {w : Str}, Clean w → ∀ c ∈ w, (c == '=' || c == ',') = false := by
      intro w h c hc
      obtain ⟨-, h1, h2, -⟩ := h c hc
      simp [h1, h2]
    rw [e, splitOnP_cons_of (by decide) rfl, splitOnP_cons_of (cl hn) rfl, splitOnP_cons_of (by decide) rfl, splitOnP_cons_of (cl ht) rfl,
      splitOnP_cons_of (by decide) rfl, splitOnP_cons_of (cl hl) rfl, splitOnP_cons_of (by decide) rfl, List.splitOnP_eq_singleton]
    intro c hc
    rcases List.mem_append.mp hc with hc | hc
    · exact cl hr c hc
    · rw [List.mem_singleton.mp hc]; rfl
  have hc : (splitComma ("# ".toList ++ head2 p ++ ['\n'])).length = p + 2 := by
    unfold splitComma head2
    have e : "# ".toList ++ ("xc".toList ++ (List.range (p + 1)).flatMap fun i => ", u".toList ++ natText i) ++ ['\n'] =
        ("# ".toList ++ "xc".toList) ++ ((List.range (p + 1)).map fun i => " u".toList ++ natText i).flatMap (',' :: ·) ++ ['\n'] := by
      have e3 : ", u".toList = ',' :: " u".toList := by decide
      rw [e3, List.flatMap_map]
      simp
    rw [e, (splitOnP_flatMap (p := fun c => c == ',') (sep := ',') rfl (z := ['\n']) (by decide) (l := (List.range (p + 1)).map fun i => " u".toList ++ natText i)
      ?_ (a := "# ".toList ++ "xc".toList) (by decide)).1]
    · simp
    · intro w hw c hc
      obtain ⟨i, -, rfl⟩ := List.mem_map.mp hw
      rcases List.mem_append.mp hc with hc | hc
      · clear hw
        have : ∀ c ∈ " u".toList, (c == ',') = false := by decide
        exact this c hc
      · simpa using ((Clean.natText i) c hc).2.1
  unfold parseHeader
  rw [lines_savetxt (head1_no hn ht hl hr) p hrows]
  simp only [List.getD_cons_zero, List.getD_cons_succ, hw, hc]
  have i1 : item ["# n".toList, n, " t".toList, t, " bc_l".toList, bl, " bc_r".toList, br ++ ['\n']] 1 = .ok n := rfl
  have i3 : item ["# n".toList, n, " t".toList, t, " bc_l".toList, bl, " bc_r".toList, br ++ ['\n']] 3 = .ok t := rfl
  have i5 : item ["# n".toList, n, " t".toList, t, " bc_l".toList, bl, " bc_r".toList, br ++ ['\n']] 5 = .ok bl := rfl
  have i7 : item ["# n".toList, n, " t".toList, t, " bc_l".toList, bl, " bc_r".toList, br ++ ['\n']] 7 = .ok (br ++ ['\n']) := rfl
  have hp : pyInt n = .ok (nv : ℤ) := by unfold pyInt; rw [hnv]
  have rs : ∀ {w : Str}, Clean w → rstrip w = w := fun h => rstrip_id fun c hc => (h c (List.mem_of_getLast? hc)).1
  have rb : rstrip (br ++ ['\n']) = br := by rw [rstrip_append (by simp; decide), rs hr]
  rw [i1, i3, i5, i7]
  simp only [bind, Except.bind, hp, float_clean ft ht, htv, pure, Except.pure, rb, rs hl]
  congr 5
  push_cast
  ring

/-! ### Columns -/

lemma slice_bounds {cols NE NF field : ℕ} (hc : cols = (NE + 2) * NF) (hf : field < NF) :
    pyIdx cols ((NF : ℤ) + field) = NF + field ∧ pyIdx cols (-2 * (NF : ℤ) + 1 + field) = NE * NF + 1 + field ∧
    (NE * NF + 1 + field - (NF + field) + NF - 1) / NF = NE := by
  have hcols : cols = NE * NF + 2 * NF := by rw [hc]; ring
  refine ⟨?_, ?_, ?_⟩
  · unfold pyIdx
    rw [if_neg (by omega)]
    have : ((NF : ℤ) + field).toNat = NF + field := by omega
    rw [this]
    omega
  · unfold pyIdx
    rw [if_pos (by omega)]
    generalize NE * NF = q at *
    omega
  · rcases NE with _ | NE
    · have : 0 * NF + 1 + field - (NF + field) + NF - 1 = NF - 1 := by omega
      rw [this]
      exact Nat.div_eq_of_lt (by omega)
    · have : (NE + 1) * NF + 1 + field - (NF + field) + NF - 1 = (NE + 1) * NF := by
        have : (NE + 1) * NF = NE * NF + NF := by ring
        rw [this]
        generalize NE * NF = q
        omega
      rw [this]
      exact Nat.mul_div_cancel _ (by omega)

/-- The row of cell `i` in the file of a field. -/
def rowText (ft : FloatText K) (s : Sol K) (field i : ℕ) : Str :=
  join [','] (ft.fmt (s.xc.val i) :: (List.range s.u.rows).map fun r => ft.fmt (s.u.val r ((i + 1) * s.NF + field)))

lemma fieldFile_eq (ft : FloatText K) {s : Sol K} (hc : s.u.cols = (s.NE + 2) * s.NF) (hx : s.xc.len = s.NE) {field : ℕ} (hf : field < s.NF) :
    s.fieldFile ft field = .ok (savetxt (s.header ft) ((List.range s.NE).map (rowText ft s field))) := by
  obtain ⟨b1, b2, b3⟩ := slice_bounds hc hf
  unfold Sol.fieldFile Arr.colSliceStep
  simp only [b1, b2, b3, hx]
  rw [if_neg (by simp)]
  congr 2
  apply List.map_congr_left
  intro i _
  unfold rowText
  congr 2
  apply List.map_congr_left
  intro r _
  congr 2
  ring

lemma writeFields_ok (ft : FloatText K) {s : Sol K} (text : ℕ → Str) : ∀ (names : List Str) (k : ℕ) (fs : Files), names.Nodup →
    (∀ j < names.length, s.fieldFile ft (k + j) = .ok (text (k + j))) →
    ∃ fs', s.writeFields ft k names fs = .ok fs' ∧ (∀ j (h : j < names.length), fs' names[j] = some (text (k + j))) ∧ ∀ n, n ∉ names → fs' n = fs n := by
  intro names
  induction names with
  | nil => exact fun k fs _ _ => ⟨fs, rfl, fun j h => absurd h (by simp), fun _ _ => rfl⟩
  | cons a names ih =>
    intro k fs hn hf
    obtain ⟨ha, hn⟩ := List.nodup_cons.mp hn
    have h0 := hf 0 (by simp)
    rw [add_zero] at h0
    obtain ⟨fs', e1, e2, e3⟩ := ih (k + 1) (fs.write a (text k)) hn (fun j hj => by
      have := hf (j + 1) (by simp; omega)
      rwa [show k + (j + 1) = k + 1 + j by ring] at this)
    refine ⟨fs', by rw [Sol.writeFields, h0]; exact e1, ?_, ?_⟩
    · intro j hj
      rcases j with _ | j
      · rw [List.getElem_cons_zero, e3 a ha]
        exact if_pos rfl
      · rw [List.getElem_cons_succ, e2 j (by simpa using hj), show k + (j + 1) = k + 1 + j by ring]
    · intro n hn'
      rw [e3 n (fun h => hn' (by simp [h]))]
      exact if_neg (fun h => hn' (by simp [h]))

/-! ### Reading the data back -/

lemma storeField_ok [Zero K] {NF NE field p : ℕ} {u : Arr K} (hr : u.rows = p + 1) (hc : u.cols = (NE + 2) * NF) (hf : field < NF) (h2 : 2 ≤ NE)
    {x : ℕ → K} {w : ℕ → ℕ → K} :
    ∃ u', storeField NF field u ((List.range NE).map fun i => x i :: (List.range (p + 1)).map fun r => w r i) = .ok u' ∧ u'.rows = u.rows ∧ u'.cols = u.cols ∧
      ∀ r < p + 1, ∀ e g, g < NF → e < NE + 2 → u'.val r (e * NF + g) = if g = field ∧ 1 ≤ e ∧ e ≤ NE then w r (e - 1) else u.val r (e * NF + g) := by
  obtain ⟨b1, b2, b3⟩ := slice_bounds hc hf
  set dat : List (List K) := (List.range NE).map fun i => x i :: (List.range (p + 1)).map fun r => w r i with hdat
  have hlen : dat.length = NE := by simp [hdat]
  have hhead : (dat.headD []).length = p + 2 := by
    obtain ⟨m, rfl⟩ : ∃ m, NE = m + 1 := ⟨NE - 1, by omega⟩
    have e : dat = (x 0 :: (List.range (p + 1)).map fun r => w r 0) :: ((List.range m).map Nat.succ).map fun i => x i :: (List.range (p + 1)).map fun r => w r i := by
      rw [hdat, List.range_succ_eq_map (n := m), List.map_cons]
    rw [e, List.headD_cons, List.length_cons, List.length_map, List.length_range]
  have hcols : (u.colSliceStep ((NF : ℤ) + field) (-2 * (NF : ℤ) + 1 + field) NF).cols = NE := by
    unfold Arr.colSliceStep
    simp only [b1, b2, b3]
  have hget : ∀ c < NE, ∀ r < p + 1, (dat.getD c []).getD (1 + r) 0 = w r c := by
    intro c hc r hr
    have e : dat.getD c [] = x c :: (List.range (p + 1)).map fun r => w r c := by
      rw [hdat, List.getD_eq_getElem?_getD, List.getElem?_map, List.getElem?_range hc]
      rfl
    rw [e, add_comm 1 r, List.getD_cons_succ, List.getD_eq_getElem?_getD, List.getElem?_map, List.getElem?_range hr]
    rfl
  unfold storeField
  simp only [hhead, hlen, hcols, hr]
  rw [if_neg (by omega), if_pos ⟨Or.inl (by omega), trivial⟩]
  refine ⟨_, rfl, hr ▸ rfl, rfl, ?_⟩
  intro r hr' e g hg he
  unfold Arr.setColSliceStep
  simp only [b1, b2]
  have hNF : 0 < NF := by omega
  by_cases h : g = field ∧ 1 ≤ e ∧ e ≤ NE
  · obtain ⟨rfl, h1, h3⟩ := h
    obtain ⟨m, rfl⟩ : ∃ m, e = m + 1 := ⟨e - 1, by omega⟩
    have e1 : (m + 1) * NF + g - (NF + g) = m * NF := by
      have : (m + 1) * NF = m * NF + NF := by ring
      omega
    have hle : m * NF ≤ NE * NF - NF := by
      have : (m + 1) * NF ≤ NE * NF := Nat.mul_le_mul_right _ h3
      have e2 : (m + 1) * NF = m * NF + NF := by ring
      omega
    have hNE : NF ≤ NE * NF := Nat.le_mul_of_pos_left _ (by omega)
    rw [if_pos (show g = g ∧ 1 ≤ m + 1 ∧ m + 1 ≤ NE from ⟨rfl, h1, h3⟩), if_pos, e1, Nat.mul_div_cancel _ hNF, Nat.add_sub_cancel]
    · by_cases hp : p + 2 - 1 = 1
      · rw [if_pos hp]
        have : r = 0 := by omega
        subst this
        exact hget m (by omega) 0 hr'
      · rw [if_neg hp]
        exact hget m (by omega) r hr'
    · refine ⟨?_, ?_, ?_⟩
      · have e2 : (m + 1) * NF = m * NF + NF := by ring
        omega
      · have e2 : (m + 1) * NF = m * NF + NF := by ring
        omega
      · rw [e1]; exact Nat.mul_mod_left m NF
  · rw [if_neg h, if_neg]
    rintro ⟨q1, q2, q3⟩
    apply h
    have e1 : 1 ≤ e := by
      rcases Nat.eq_zero_or_pos e with rfl | he0
      · omega
      · exact he0
    obtain ⟨m, rfl⟩ : ∃ m, e = m + 1 := ⟨e - 1, by omega⟩
    have e2 : (m + 1) * NF = m * NF + NF := by ring
    rw [e2] at q1 q2 q3
    have hd : NF ∣ (m * NF + NF + g - (NF + field)) := Nat.dvd_of_mod_eq_zero q3
    have hg' : g = field := by
      obtain ⟨k, hk⟩ := hd
      have hk' : m * NF + g = k * NF + field := by rw [mul_comm k]; omega
      have a1 : (m * NF + g) % NF = g := by rw [add_comm, Nat.add_mul_mod_self_right, Nat.mod_eq_of_lt hg]
      have a2 : (k * NF + field) % NF = field := by rw [add_comm, Nat.add_mul_mod_self_right, Nat.mod_eq_of_lt hf]
      rw [← a1, hk', a2]
    refine ⟨hg', by omega, ?_⟩
    by_contra hgt
    have : NE * NF ≤ m * NF := Nat.mul_le_mul_right _ (by omega)
    omega

lemma loadFields_ok [Zero K] (ft : FloatText K) {fs : Files} {NF NE p : ℕ} (h2 : 2 ≤ NE) {x : ℕ → K} {w : ℕ → ℕ → ℕ → K} :
    ∀ (names : List Str) (k : ℕ) (u : Arr K), k + names.length = NF → u.rows = p + 1 → u.cols = (NE + 2) * NF →
    (∀ j (h : j < names.length), ∃ text, fs names[j] = some text ∧
      loadtxt ft text = .ok ((List.range NE).map fun i => x i :: (List.range (p + 1)).map fun r => w (k + j) r i)) →
    ∃ u', loadFields ft fs NF k names u = .ok u' ∧ u'.rows = p + 1 ∧ u'.cols = (NE + 2) * NF ∧
      ∀ r < p + 1, ∀ e g, g < NF → e < NE + 2 → u'.val r (e * NF + g) = if k ≤ g ∧ 1 ≤ e ∧ e ≤ NE then w g r (e - 1) else u.val r (e * NF + g) := by
  intro names
  induction names with
  | nil =>
    intro k u hk hr hc _
    refine ⟨u, rfl, hr, hc, ?_⟩
    intro r _ e g hg _
    rw [if_neg (by simp at hk; omega)]
  | cons a names ih =>
    intro k u hk hr hc hf
    rw [List.length_cons] at hk
    obtain ⟨text, t1, t2⟩ := hf 0 (by simp)
    rw [List.getElem_cons_zero] at t1
    rw [add_zero] at t2
    obtain ⟨u1, a1, a2, a3, a4⟩ := storeField_ok hr hc (show k < NF by omega) h2 (x := x) (w := w k)
    obtain ⟨u2, b1, b2, b3, b4⟩ := ih (k + 1) u1 (by omega) (by rw [a2, hr]) (by rw [a3, hc]) (fun j hj => by
      have := hf (j + 1) (by simp; omega)
      rwa [List.getElem_cons_succ, show k + (j + 1) = k + 1 + j by ring] at this)
    refine ⟨u2, ?_, b2, b3, ?_⟩
    · rw [loadFields]
      have hrd : fs.read a = .ok text := by unfold Files.read; rw [t1]
      simp only [hrd, bind, Except.bind, t2, a1]
      exact b1
    · intro r hr' e g hg he
      rw [b4 r hr' e g hg he, a4 r hr' e g hg he]
      by_cases hk1 : k + 1 ≤ g ∧ 1 ≤ e ∧ e ≤ NE
      · rw [if_pos hk1, if_pos ⟨by omega, hk1.2⟩]
      · rw [if_neg hk1]
        by_cases hk2 : g = k ∧ 1 ≤ e ∧ e ≤ NE
        · rw [if_pos hk2, if_pos ⟨by omega, hk2.2⟩, hk2.1]
        · rw [if_neg hk2, if_neg (by omega)]

lemma linspace_affine [Field K] [CharZero K] {A B : K} {N : ℕ} (h : 0 < N) {i : ℕ} :
    (linspace A B (N + 1)).val i = A + (i : K) * ((B - A) / (N : K)) := by
  have hN : (N : K) ≠ 0 := Nat.cast_ne_zero.mpr (by omega)
  unfold linspace
  simp only [Nat.add_sub_cancel]
  split
  · rename_i hh
    rw [hh.1]
    field_simp
    ring
  · rfl

/-- the empty array `loader` starts from -/
def blank [Zero K] (p NE NF : ℕ) : Arr K :=
  ⟨p + 1, NF + NE * NF + NF, fun _ c => if c < NF then 0 else if c < NF + NE * NF then 0 else 0⟩

theorem blank_val [Zero K] (p NE NF r c : ℕ) : (blank p NE NF : Arr K).val r c = 0 := by
  unfold blank
  simp only
  split_ifs <;> rfl

/-- what `loader` builds once the header and the centres are read -/
def Sol.reloaded [Field K] (s : Sol K) (lib : GaussLib K) (p : ℕ) (xc : List K) (n : ℕ) (t : K) (bl br : Str) (u : Arr K) : Sol K :=
  { s with
    xc := ⟨xc.length, fun i => xc.getD i 0⟩, n := n, t := t, bcl := .made bl, bcr := .made br, basis := Basis.init lib p, NE := xc.length,
    x := linspace (xc.getD 0 0 - 1 / 2 * (xc.getD 1 0 - xc.getD 0 0)) (xc.getD (xc.length - 1) 0 + 1 / 2 * (xc.getD 1 0 - xc.getD 0 0)) (xc.length + 1),
    dx := ((xc.getD (xc.length - 1) 0 + 1 / 2 * (xc.getD 1 0 - xc.getD 0 0)) - (xc.getD 0 0 - 1 / 2 * (xc.getD 1 0 - xc.getD 0 0))) / xc.length,
    u := u }

theorem loader_ok [Field K] {lib : GaussLib K} {ft : FloatText K} {fs : Files} {s : Sol K} {k p : ℕ} {f0 : Str} {rest : List Str} {text : Str}
    {xc : List K} {n : ℕ} {t : K} {bl br : Str} {u : Arr K} (hf : formatFnames k (s.kw.fields.map String.toList) = f0 :: rest)
    (hr : fs.read f0 = .ok text) (hx : loadtxtFirst ft text = .ok xc) (hh : parseHeader ft text = .ok ((n : ℤ), t, bl, br, ((p + 1 : ℕ) : ℤ)))
    (h2 : 2 ≤ xc.length) (hl : loadFields ft fs s.NF 0 (f0 :: rest) (blank p xc.length s.NF) = .ok u) :
    s.loader lib ft fs k = .ok (s.reloaded lib p xc n t bl br u) := by
  unfold Sol.loader
  have h0 : ¬ (((p + 1 : ℕ) : ℤ) - 1 < 0) := by push_cast; omega
  have h3 : (((p + 1 : ℕ) : ℤ) - 1).toNat = p := by push_cast; omega
  have h4 : ((p + 1 : ℕ) : ℤ).toNat = p + 1 := Int.toNat_natCast _
  have h5 : (n : ℤ).toNat = n := Int.toNat_natCast _
  simp only [hf, hr, hx, hh, bind, Except.bind]
  rw [if_neg h0]
  simp only [pure, Except.pure]
  rw [if_neg (by omega)]
  rw [if_neg (by omega)]
  rw [h3, h4, h5]
  have hl' : loadFields ft fs s.NF 0 (f0 :: rest) ((Sol.addGhosts (s.reloaded lib p xc n t bl br (Arr.zeros (p + 1) (xc.length * s.NF)))).u) = .ok u := hl
  unfold Sol.reloaded at hl'
  rw [hl']
  rfl

end Dg1d
