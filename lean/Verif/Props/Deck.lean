import Verif.Proofs.Deck

/-! # Decks (C35, C36) -/

open Dg1d.Spec

namespace Dg1d.Props
open Text

variable {K : Type*}

/-- The text value given last for a keyword, or the default. -/
def given (k : String) (defs : List (Str × Str)) (default : String) : Str := (lastValue k.toList defs).getD default.toList

/-- The number read from the value given last, or the default. -/
def GivenAs {α : Type*} (k : String) (defs : List (Str × Str)) (rd : Str → α → Prop) (default x : α) : Prop :=
  (lastValue k.toList defs = none → x = default) ∧ ∀ v, lastValue k.toList defs = some v → rd v x

lemma givenAs_of_reads {α : Type*} {k : String} {defs : List (Str × Str)} {rd : Str → α → Prop} {d0 x : α}
    (hrd : ∀ v x, rd (v ++ ['\n']) x → rd v x) (h : Reads k (defs.map fun l => (l.1, l.2 ++ ['\n'])) rd d0 x) : GivenAs k defs rd d0 x := by
  unfold Reads at h
  rw [lastValue_map k.toList defs (fun v => v ++ ['\n'])] at h
  constructor
  · intro hl; rw [hl] at h; exact h
  · intro v hl; rw [hl] at h; exact hrd v x h

/-- **C35.** Writing recognised (keyword, value) pairs with `write_deck` and parsing the file with a fresh `Deck` sets every
field to the value given last for it and every other field to its default. Values are arbitrary one-line texts without
trailing white space (they may contain `#` and keywords). -/
theorem C35_round_trip [Field K] (ft : FloatText K) (fs : Files) (workdir : Str) {defs : List (Str × Str)} (hk : ∀ e ∈ defs, e.1 ∈ keywords)
    (hline : ∀ e ∈ defs, '\n' ∉ e.2 ∧ '\r' ∉ e.2 ∧ ∀ c, e.2.getLast? = some c → isSpace c = false) (hval : ∀ e ∈ defs, ValidValue ft e) :
    ∃ d : Deck K, Deck.init.parser ft (writeDeck fs workdir defs).1 (writeDeck fs workdir defs).2 = .ok d ∧
      d.system = given "PDE system" defs "advection" ∧ d.rk = given "RK scheme" defs "" ∧ d.riemann = given "riemann solver" defs "roe" ∧
      d.ic = given "initial condition" defs "sinewave" ∧ d.limiting = given "limiting" defs "" ∧ d.enhance = given "enhancement" defs "" ∧
      GivenAs "number of outputs" defs IsInt 10 d.nout ∧ GivenAs "order" defs IsInt 1 d.order ∧
      GivenAs "final time" defs (IsFloat ft) 1 d.finaltime ∧ GivenAs "Courant-Friedrichs-Lewy condition" defs (IsFloat ft) (1 / 2) d.cfl ∧
      GivenAs "sensor thresholds" defs (AreFloats ft) [] d.sensorThresholds := by
  set es := defs.map fun l => (l.1, l.2 ++ ['\n']) with hes
  have hke : ∀ e ∈ es, e.1 ∈ keywords := by
    intro e he
    obtain ⟨l, hl, rfl⟩ := List.mem_map.mp he
    exact hk l hl
  have hve : ∀ e ∈ es, ValidValue ft e := by
    intro e he
    obtain ⟨l, hl, rfl⟩ := List.mem_map.mp he
    exact (validValue_newline ft l).mpr (hval l hl)
  obtain ⟨d, hd⟩ := setAll_ok ft hke hve (Deck.init : Deck K)
  have hD := setAll_deckIs ft hd
  have hpar : Deck.init.parser ft (writeDeck fs workdir defs).1 (writeDeck fs workdir defs).2 = .ok d := by
    unfold Deck.parser writeDeck Files.write
    simp only [if_true]
    rw [universalNewlines_id, lines_deck fun e he => ⟨(keyword_chars (hk e he)).1, (hline e he).1⟩]
    · have := parse_entries ft (entries_deck hk) [] (Deck.init : Deck K)
      rw [List.append_nil, ← hes, hd] at this
      rw [this]; rfl
    · intro hr
      obtain ⟨l, hl, hm⟩ := List.mem_flatMap.mp hr
      have h1 := (keyword_chars (hk l hl)).2
      have h2 := (hline l hl).2.1
      simp [h1, h2] at hm
  have hlast : ∀ k, lastValue k es = (lastValue k defs).map (· ++ ['\n']) := fun k => lastValue_map k defs (fun v => v ++ ['\n'])
  have hmem : ∀ {k v}, lastValue k defs = some v → ∃ e ∈ defs, e.2 = v := by
    intro k v h
    unfold lastValue at h
    rw [Option.map_eq_some_iff] at h
    obtain ⟨e, he, rfl⟩ := h
    exact ⟨e, List.mem_of_mem_filter (List.mem_of_getLast? he), rfl⟩
  have str : ∀ (k : String) (d0 : String) {x : Str}, Reads k es Trimmed d0.toList x → x = given k defs d0 := by
    intro k d0 x h
    unfold Reads at h
    rw [hlast] at h
    unfold given
    cases hl : lastValue k.toList defs with
    | none => rw [hl] at h; exact h
    | some v =>
      rw [hl] at h
      obtain ⟨e, he, rfl⟩ := hmem hl
      exact (trimmed_newline (hline e he).2.2).mp h
  exact ⟨d, hpar, str _ _ hD.system, str _ "" hD.rk, str _ _ hD.riemann, str _ _ hD.ic, str _ "" hD.limiting, str _ "" hD.enhance,
    givenAs_of_reads (fun v n => (isInt_newline v n).mp) hD.nout, givenAs_of_reads (fun v n => (isInt_newline v n).mp) hD.order,
    givenAs_of_reads (fun v n => (isFloat_newline ft v n).mp) hD.finaltime, givenAs_of_reads (fun v n => (isFloat_newline ft v n).mp) hD.cfl,
    givenAs_of_reads (fun v n => (areFloats_newline ft v n).mp) hD.thresholds⟩

/-- **C35 (bad values).** If some value cannot be read as the number its keyword asks for, parsing raises. -/
theorem C35_bad_value (ft : FloatText K) (fs : Files) (workdir : Str) {defs : List (Str × Str)} (hk : ∀ e ∈ defs, e.1 ∈ keywords)
    (hline : ∀ e ∈ defs, '\n' ∉ e.2 ∧ '\r' ∉ e.2) (hval : ∃ e ∈ defs, ¬ ValidValue ft e) (d0 : Deck K) :
    ∃ e, d0.parser ft (writeDeck fs workdir defs).1 (writeDeck fs workdir defs).2 = .error e := by
  unfold Deck.parser writeDeck Files.write
  simp only [if_true]
  rw [universalNewlines_id, lines_deck fun e he => ⟨(keyword_chars (hk e he)).1, (hline e he).1⟩]
  · have h := parse_entries ft (entries_deck hk) [] d0
    obtain ⟨e, he, hb⟩ := hval
    obtain ⟨x, hx⟩ := setAll_bad ft (es := defs.map fun l => (l.1, l.2 ++ ['\n'])) ⟨_, List.mem_map_of_mem he, fun h => hb ((validValue_newline ft e).mp h)⟩ d0
    rw [List.append_nil, hx] at h
    exact ⟨x, h⟩
  · intro hr
    obtain ⟨l, hl, hm⟩ := List.mem_flatMap.mp hr
    have h1 := (keyword_chars (hk l hl)).2
    have h2 := (hline l hl).2
    simp [h1, h2] at hm

/-- **C36 (entries).** A file that is cut into entries (skipped lines, and pairs of a keyword line and the line after it)
gives the deck overridden by exactly these entries. -/
theorem C36_entries (ft : FloatText K) {ls : List Str} {es : List (Str × Str)} (h : Entries ls es) (hv : ∀ e ∈ es, ValidValue ft e) (d0 : Deck K) :
    ∃ d, Deck.parseLines ft ls d0 = .ok d ∧ DeckIs ft es d0 d := by
  obtain ⟨d, hd⟩ := setAll_ok ft (entries_keywords h) hv d0
  refine ⟨d, ?_, setAll_deckIs ft hd⟩
  have := parse_entries ft h [] d0
  rw [List.append_nil, hd] at this
  rw [this]; rfl

/-- **C36 (keyword at the end).** A keyword on the last line is an error: `StopIteration`, unless an earlier value was
already in error. -/
theorem C36_keyword_last (ft : FloatText K) {pre : List Str} {es : List (Str × Str)} (h : Entries pre es) {l k : Str} (hl : keywordOf l = some k)
    (d0 : Deck K) : (∃ e, Deck.parseLines ft (pre ++ [l]) d0 = .error e) ∧
      ((∀ e ∈ es, ValidValue ft e) → Deck.parseLines ft (pre ++ [l]) d0 = .error .stopIteration) := by
  rw [parse_entries ft h]
  constructor
  · cases setAll ft es d0 with
    | error e => exact ⟨e, rfl⟩
    | ok d => exact ⟨_, parse_last ft hl d⟩
  · intro hv
    obtain ⟨d, hd⟩ := setAll_ok ft (entries_keywords h) hv d0
    rw [hd]
    exact parse_last ft hl d

/-- **C36 (the two cases are all).** Every file is cut into entries in one way only, or ends in a keyword line without
value, and not both. -/
theorem C36_cover (ls : List Str) :
    ((∃ es, Entries ls es) ∨ ∃ pre l k es, ls = pre ++ [l] ∧ Entries pre es ∧ keywordOf l = some k) ∧
    (∀ es es', Entries ls es → Entries ls es' → es = es') ∧
    ¬ ((∃ es, Entries ls es) ∧ ∃ pre l k es, ls = pre ++ [l] ∧ Entries pre es ∧ keywordOf l = some k) := by
  refine ⟨?_, ?_, ?_⟩
  · suffices h : ∀ n, ∀ ls : List Str, ls.length ≤ n → (∃ es, Entries ls es) ∨ ∃ pre l k es, ls = pre ++ [l] ∧ Entries pre es ∧ keywordOf l = some k from
      h _ ls le_rfl
    intro n
    induction n with
    | zero => intro ls h; rw [List.length_eq_zero_iff.mp (Nat.le_zero.mp h)]; exact Or.inl ⟨[], .nil⟩
    | succ n ih =>
      intro ls h
      rcases ls with _ | ⟨l, ls⟩
      · exact Or.inl ⟨[], .nil⟩
      cases hk : keywordOf l with
      | none =>
        rcases ih ls (by simpa using h) with ⟨es, he⟩ | ⟨pre, l', k, es, rfl, he, hk'⟩
        · exact Or.inl ⟨es, .skip hk he⟩
        · exact Or.inr ⟨l :: pre, l', k, es, rfl, .skip hk he, hk'⟩
      | some k =>
        rcases ls with _ | ⟨v, ls⟩
        · exact Or.inr ⟨[], l, k, [], rfl, .nil, hk⟩
        rcases ih ls (by simp at h; omega) with ⟨es, he⟩ | ⟨pre, l', k', es, rfl, he, hk'⟩
        · exact Or.inl ⟨_, .entry hk he⟩
        · exact Or.inr ⟨l :: v :: pre, l', k', _, rfl, .entry hk he, hk'⟩
  · intro es es' h
    induction h generalizing es' with
    | nil => intro h'; cases h'; rfl
    | skip hk _ ih =>
      intro h'
      cases h' with
      | skip _ h' => exact ih _ h'
      | entry hk' _ => rw [hk] at hk'; cases hk'
    | entry hk _ ih =>
      intro h'
      cases h' with
      | skip hk' _ => rw [hk] at hk'; cases hk'
      | entry hk' h' => rw [hk] at hk'; cases hk'; rw [ih _ h']
  · rintro ⟨⟨es, h⟩, pre, l, k, es', rfl, he, hk⟩
    have inv1 : ∀ {l t es}, keywordOf l = none → Entries (l :: t) es → Entries t es := by
      intro l t es hk h
      cases h with
      | skip _ h => exact h
      | entry hk' _ => rw [hk] at hk'; cases hk'
    have inv2 : ∀ {l k v t es}, keywordOf l = some k → Entries (l :: v :: t) es → ∃ es', Entries t es' := by
      intro l k v t es hk h
      cases h with
      | skip hk' _ => rw [hk] at hk'; cases hk'
      | entry _ h => exact ⟨_, h⟩
    induction he generalizing es with
    | nil =>
      cases h with
      | skip hk' _ => rw [hk] at hk'; cases hk'
    | skip hk' _ ih => exact ih _ (inv1 hk' h)
    | entry hk' _ ih => obtain ⟨es', h'⟩ := inv2 hk' h; exact ih _ h'

/-- **C36 (bad values).** An entry whose value cannot be read makes the parser raise. -/
theorem C36_bad_value (ft : FloatText K) {ls : List Str} {es : List (Str × Str)} (h : Entries ls es) (hv : ∃ e ∈ es, ¬ ValidValue ft e) (d0 : Deck K) :
    ∃ e, Deck.parseLines ft ls d0 = .error e := by
  obtain ⟨e, he⟩ := setAll_bad ft hv d0
  have := parse_entries ft h [] d0
  rw [List.append_nil, he] at this
  exact ⟨e, this⟩

/-- **C36 (files).** The lines are those of the file: line bodies without line ends, each followed by a newline, with or
without a newline at the end of the last one; `\r\n` ends a line as well. A missing file raises. -/
theorem C36_file (ft : FloatText K) (fs : Files) (fname : Str) (d0 : Deck K) :
    (fs fname = none → d0.parser ft fs fname = .error .ioError) ∧
    (∀ (bodies : List Str) (last : Str), (∀ b ∈ last :: bodies, '\n' ∉ b ∧ '\r' ∉ b) → last ≠ [] →
      (fs fname = some (bodies.flatMap (· ++ ['\n']) ++ last) → d0.parser ft fs fname = Deck.parseLines ft (bodies.map (· ++ ['\n']) ++ [last]) d0) ∧
      (fs fname = some (bodies.flatMap (· ++ ['\n'])) → d0.parser ft fs fname = Deck.parseLines ft (bodies.map (· ++ ['\n'])) d0) ∧
      (fs fname = some (bodies.flatMap (· ++ ['\r', '\n'])) → d0.parser ft fs fname = Deck.parseLines ft (bodies.map (· ++ ['\n'])) d0)) := by
  refine ⟨fun h => by unfold Deck.parser; rw [h], ?_⟩
  intro bodies last hb hne
  have hlines : ∀ (bodies : List Str), (∀ b ∈ bodies, '\n' ∉ b) → ∀ tl, lines (bodies.flatMap (· ++ ['\n']) ++ tl) = bodies.map (· ++ ['\n']) ++ lines tl := by
    intro bodies hb tl
    induction bodies with
    | nil => rfl
    | cons b bodies ih =>
      rw [List.flatMap_cons, List.append_assoc, List.append_assoc, List.singleton_append, lines_cons (hb b (by simp)), ih fun b h => hb b (by simp [h])]
      rfl
  have hlast : ∀ s : Str, '\n' ∉ s → s ≠ [] → lines s = [s] := by
    intro s hs h0
    induction s with
    | nil => exact absurd rfl h0
    | cons c s ih =>
      have hc : c ≠ '\n' := fun h => hs (by simp [h])
      rw [lines, if_neg hc]
      rcases s with _ | ⟨c', s⟩
      · rfl
      · rw [ih (fun h => hs (by simp [List.mem_cons.mp h])) (by simp)]
  have hnr : ∀ (bodies : List Str), (∀ b ∈ bodies, '\r' ∉ b) → '\r' ∉ bodies.flatMap (· ++ ['\n']) := by
    intro bodies hb hr
    obtain ⟨l, hl, hm⟩ := List.mem_flatMap.mp hr
    have := hb l hl
    simp [this] at hm
  have hcr : ∀ (bodies : List Str), (∀ b ∈ bodies, '\r' ∉ b) → universalNewlines (bodies.flatMap (· ++ ['\r', '\n'])) = bodies.flatMap (· ++ ['\n']) := by
    intro bodies hb
    have one : ∀ (b tl : Str), '\r' ∉ b → universalNewlines (b ++ '\r' :: '\n' :: tl) = b ++ '\n' :: universalNewlines tl := by
      intro b tl hb
      induction b with
      | nil => rw [List.nil_append, universalNewlines, List.nil_append]
      | cons c b ih =>
        have hc : c ≠ '\r' := fun h => hb (by simp [h])
        rw [List.cons_append, universalNewlines, ih fun h => hb (by simp [h]), List.cons_append]
        · exact fun _ h => absurd h hc
        · exact fun h => absurd h hc
    induction bodies with
    | nil => rfl
    | cons b bodies ih =>
      rw [List.flatMap_cons, List.flatMap_cons, List.append_assoc, List.append_assoc]
      show universalNewlines (b ++ '\r' :: '\n' :: List.flatMap (· ++ ['\r', '\n']) bodies) = b ++ '\n' :: List.flatMap (· ++ ['\n']) bodies
      rw [one _ _ (hb b (by simp)), ih fun b h => hb b (by simp [h])]
  have hb' : ∀ b ∈ bodies, '\n' ∉ b := fun b h => (hb b (by simp [h])).1
  have hbr : ∀ b ∈ bodies, '\r' ∉ b := fun b h => (hb b (by simp [h])).2
  have hend : lines (bodies.flatMap (· ++ ['\n'])) = bodies.map (· ++ ['\n']) := by
    have := hlines bodies hb' []
    simpa [lines] using this
  refine ⟨fun h => ?_, fun h => ?_, fun h => ?_⟩
  · unfold Deck.parser
    rw [h]
    simp only
    rw [universalNewlines_id (by
      rw [List.mem_append, not_or]
      exact ⟨hnr bodies hbr, (hb last (by simp)).2⟩), hlines bodies hb', hlast last (hb last (by simp)).1 hne]
  · unfold Deck.parser
    rw [h]
    simp only
    rw [universalNewlines_id (hnr bodies hbr), hend]
  · unfold Deck.parser
    rw [h]
    simp only
    rw [hcr bodies hbr, hend]

/-! ### Concrete cases -/

/-- Numbers read as integers: enough to have valid values. -/
def intFloat : FloatText ℚ where
  fmt _ := []
  parse s := match intOf s with | none => .error .valueError | some n => .ok n

/-- The deck written by advection_convergence/run.py (with the integer final time 8), order twice, and a value that looks
like a keyword. -/
def runDefs : List (Str × Str) :=
  [("PDE system".toList, "advection".toList), ("RK scheme".toList, "rk12".toList), ("order".toList, "2".toList),
    ("initial condition".toList, "sinewave 32".toList), ("number of outputs".toList, "11".toList), ("final time".toList, "8".toList),
    ("order".toList, "3".toList), ("sensor thresholds".toList, "1 2".toList), ("limiting".toList, "#order".toList)]

lemma runDefs_valid : ∀ e ∈ runDefs, ValidValue intFloat e := by
  have h : ∀ e ∈ runDefs, (e.1 = "number of outputs".toList ∨ e.1 = "order".toList → (intOf e.2).isSome) ∧
      (e.1 = "final time".toList ∨ e.1 = "Courant-Friedrichs-Lewy condition".toList → (intOf (strip e.2)).isSome) ∧
      (e.1 = "sensor thresholds".toList → e.2 = "1 2".toList) := by decide +kernel
  intro e he
  obtain ⟨h1, h2, h3⟩ := h e he
  refine ⟨fun h => Option.isSome_iff_exists.mp (h1 h), fun h => ?_, fun h => ?_⟩
  · obtain ⟨n, hn⟩ := Option.isSome_iff_exists.mp (h2 h)
    refine ⟨(n : ℚ), ?_⟩
    unfold IsFloat FloatText.float intFloat
    simp only [hn]
  · rw [h3 h]
    refine ⟨[1, 2], ?_⟩
    unfold AreFloats
    rw [show split "1 2".toList = ["1".toList, "2".toList] by decide +kernel]
    refine .cons ?_ (.cons ?_ .nil)
    · unfold FloatText.float intFloat
      simp only [show intOf (strip "1".toList) = some 1 by decide +kernel, Int.cast_one]
    · unfold FloatText.float intFloat
      simp only [show intOf (strip "2".toList) = some 2 by decide +kernel, Int.cast_ofNat]

example : ∃ d : Deck ℚ, Deck.init.parser intFloat (writeDeck (fun _ => none) "run".toList runDefs).1 (writeDeck (fun _ => none) "run".toList runDefs).2 = .ok d ∧
    d.order = 3 ∧ d.limiting = "#order".toList ∧ d.riemann = "roe".toList ∧ d.cfl = 1 / 2 ∧ d.sensorThresholds.length = 2 := by
  obtain ⟨d, h0, -, -, h3, -, h5, -, -, h8, -, h10, h11⟩ := C35_round_trip intFloat (fun _ => none) "run".toList (defs := runDefs) (by decide +kernel) (by decide +kernel) runDefs_valid
  refine ⟨d, h0, ?_, h5.trans (by decide +kernel), h3.trans (by decide +kernel), h10.1 (by decide +kernel), ?_⟩
  · have : intOf "3".toList = some d.order := h8.2 "3".toList (by decide +kernel)
    rw [show intOf "3".toList = some 3 by decide +kernel] at this
    exact (Option.some.inj this).symm
  · have : AreFloats intFloat "1 2".toList d.sensorThresholds := h11.2 "1 2".toList (by decide +kernel)
    unfold AreFloats at this
    rw [← this.length_eq]
    decide +kernel

/-- A comment, an entry whose value looks like a keyword, and a dangling keyword. -/
example : Entries ["a comment\n".toList, "#order\n".toList, "#limiting\n".toList] [("order".toList, "#limiting\n".toList)] :=
  .skip (by decide +kernel) (.entry (by decide +kernel) .nil)

example : Deck.parseLines intFloat ["a comment\n".toList, "#order".toList] (Deck.init : Deck ℚ) = .error .stopIteration :=
  (C36_keyword_last intFloat (.skip (by decide +kernel) .nil : Entries ["a comment\n".toList] []) (l := "#order".toList) (k := "order".toList)
    (by decide +kernel) Deck.init).2 (by simp)

end Dg1d.Props
