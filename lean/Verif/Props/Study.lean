import Verif.Model.Study
import Verif.Props.RegressionTests
import Verif.Props.Deck

/-!
# The convergence study (C85)
-/

namespace Dg1d.Props
open Text Spec

/-! ### The norms -/

lemma sum_zipWith (f : ℝ → ℝ → ℝ) : ∀ {a b : List ℝ}, a.length = b.length →
    (List.zipWith f a b).sum = ∑ i ∈ Finset.range a.length, f (a.getD i 0) (b.getD i 0)
  | [], [], _ => by simp
  | [], _ :: _, h => by cases h
  | _ :: _, [], h => by cases h
  | x :: a, y :: b, h => by
    rw [List.zipWith_cons_cons, List.sum_cons, sum_zipWith f (by simpa using h), List.length_cons, Finset.sum_range_succ']
    simp [add_comm]

/-- **C85 (norms).** For arrays of `n` cell averages, what is reported is half the root mean square, half the mean absolute
value and half the largest absolute value of their differences. -/
theorem C85_norms {a b : List ℝ} {n : ℕ} (ha : a.length = n) (hb : b.length = n) (hn : 0 < n) :
    errorNorm "L2" n a b = .ok (1 / 2 * Real.sqrt ((∑ i ∈ Finset.range n, (a.getD i 0 - b.getD i 0) ^ 2) / n)) ∧
    errorNorm "L1" n a b = .ok (1 / 2 * ((∑ i ∈ Finset.range n, |a.getD i 0 - b.getD i 0|) / n)) ∧
    (∃ m, errorNorm "Linf" n a b = .ok (1 / 2 * m) ∧ IsGreatest {x | ∃ i < n, x = |a.getD i 0 - b.getD i 0|} m) ∧
    ∀ etype, etype ≠ "L1" → etype ≠ "Linf" → errorNorm etype n a b = errorNorm "L2" n a b := by
  have hab : a.length = b.length := ha.trans hb.symm
  refine ⟨?_, ?_, ?_, ?_⟩
  · unfold errorNorm sumDiff
    rw [if_neg (by simp [hab]), if_pos rfl, sum_zipWith (fun x y => (1 / 2 * x - 1 / 2 * y) ^ 2) hab, ha]
    congr 1
    have : ∑ i ∈ Finset.range n, (1 / 2 * a.getD i 0 - 1 / 2 * b.getD i 0) ^ 2 = (1 / 2) ^ 2 * ∑ i ∈ Finset.range n, (a.getD i 0 - b.getD i 0) ^ 2 := by
      rw [Finset.mul_sum]
      exact Finset.sum_congr rfl fun i _ => by ring
    rw [this, mul_div_assoc, Real.sqrt_mul (by positivity), Real.sqrt_sq (by norm_num)]
  · unfold errorNorm sumDiff
    rw [if_neg (by simp [hab]), if_neg (by decide), if_pos rfl, sum_zipWith (fun x y => |1 / 2 * x - 1 / 2 * y|) hab, ha, ← mul_div_assoc, Finset.mul_sum]
    congr 2
    refine Finset.sum_congr rfl fun i _ => ?_
    rw [← mul_sub, abs_mul, abs_of_pos (by norm_num : (0 : ℝ) < 1 / 2)]
  · have hmax : ∀ (l : List ℝ) (z : ℝ), l.foldl max z ∈ z :: l ∧ ∀ x ∈ z :: l, x ≤ l.foldl max z := by
      intro l
      induction l with
      | nil => intro z; simp
      | cons y l ih =>
        intro z
        obtain ⟨h1, h2⟩ := ih (max z y)
        rw [List.foldl_cons]
        constructor
        · rcases List.mem_cons.mp h1 with h | h
          · rw [h]; rcases max_choice z y with e | e <;> rw [e] <;> simp
          · simp [h]
        · intro x hx
          have h0 := h2 (max z y) (by simp)
          rcases List.mem_cons.mp hx with rfl | hx
          · exact (le_max_left _ _).trans h0
          rcases List.mem_cons.mp hx with rfl | hx
          · exact (le_max_right _ _).trans h0
          · exact h2 x (by simp [hx])
    set L := List.zipWith (fun x y => |1 / 2 * x - 1 / 2 * y|) a b with hL
    have hlen : L.length = n := by rw [hL, List.length_zipWith, ha, hb, min_self]
    have hget : ∀ i (h : i < L.length), L[i] = 1 / 2 * |a.getD i 0 - b.getD i 0| := by
      intro i h
      have ia : i < a.length := by omega
      have ib : i < b.length := by omega
      simp only [hL, List.getElem_zipWith]
      rw [← List.getElem_eq_getD (h := ia) 0, ← List.getElem_eq_getD (h := ib) 0, ← mul_sub, abs_mul, abs_of_pos (by norm_num : (0 : ℝ) < 1 / 2)]
    rcases hz : L with _ | ⟨z, l⟩
    · rw [hz] at hlen; simp at hlen; omega
    obtain ⟨h1, h2⟩ := hmax l z
    rw [← hz] at h1 h2
    refine ⟨2 * l.foldl max z, ?_, ?_, ?_⟩
    · unfold errorNorm
      rw [if_neg (by simp [hab]), if_neg (by decide), if_neg (by decide), if_pos rfl, ← hL, hz]
      simp only
      congr 1
      ring
    · obtain ⟨i, hi, e⟩ := List.mem_iff_getElem.mp h1
      refine ⟨i, by omega, ?_⟩
      rw [← e, hget i hi]; ring
    · rintro x ⟨i, hi, rfl⟩
      have := h2 L[i] (List.getElem_mem (by omega))
      rw [hget i (by omega)] at this
      linarith
  · intro etype h1 h2
    unfold errorNorm
    rw [if_neg h1, if_neg h2, if_pos (rfl : "L2" = "L2"), ite_self]


/-! ### The runs -/

/-- A property of all values `run.py` writes, keyword by keyword. -/
lemma forall_studyDefs {p N : ℕ} {P : Str × Str → Prop} (h1 : P ("PDE system".toList, "advection".toList)) (h2 : P ("RK scheme".toList, "rk12".toList))
    (h3 : P ("initial condition".toList, "sinewave ".toList ++ natText N)) (h4 : P ("number of outputs".toList, "11".toList)) (h5 : P ("final time".toList, "8".toList))
    (h6 : P ("Courant-Friedrichs-Lewy condition".toList, "0.5".toList)) (h7 : P ("order".toList, natText p)) (h8 : P ("limiting".toList, "0".toList)) :
    ∀ e ∈ studyDefs p N, P e := by
  unfold studyDefs
  simp only [List.forall_mem_cons]
  exact ⟨h1, h2, h3, h4, h5, h6, h7, h8, fun e he => absurd he (List.not_mem_nil)⟩

lemma clean_line {w : Str} (h : ∀ c ∈ w, isSpace c = false) : '\n' ∉ w ∧ '\r' ∉ w ∧ ∀ c, w.getLast? = some c → isSpace c = false :=
  ⟨fun hc => absurd (h _ hc) (by decide), fun hc => absurd (h _ hc) (by decide), fun c hc => h c (List.mem_of_getLast? hc)⟩

lemma study_lines (p N : ℕ) : ∀ e ∈ studyDefs p N, '\n' ∉ e.2 ∧ '\r' ∉ e.2 ∧ ∀ c, e.2.getLast? = some c → isSpace c = false := by
  have hnat : ∀ n, ∀ c ∈ natText n, isSpace c = false := fun n c hc => (Clean.natText n c hc).1
  refine forall_studyDefs (clean_line (by decide)) (clean_line (by decide)) ?_ (clean_line (by decide)) (clean_line (by decide)) (clean_line (by decide))
    (clean_line (hnat p)) (clean_line (by decide))
  obtain ⟨a, b, c⟩ := clean_line (hnat N)
  show '\n' ∉ "sinewave ".toList ++ natText N ∧ '\r' ∉ "sinewave ".toList ++ natText N ∧ ∀ c, ("sinewave ".toList ++ natText N).getLast? = some c → _
  refine ⟨?_, ?_, ?_⟩
  · rw [List.mem_append, not_or]; exact ⟨by decide, a⟩
  · rw [List.mem_append, not_or]; exact ⟨by decide, b⟩
  · intro x hx
    rw [List.getLast?_append_of_ne_nil _ (natText_ne_nil N)] at hx
    exact c x hx

lemma study_values {ft : FloatText ℝ} (hdec : ReadsDecimals ft) (p N : ℕ) : ∀ e ∈ studyDefs p N, ValidValue ft e := by
  have hfl : ∀ {s : Str} {q : ℚ}, decimal s = some q → (∀ c ∈ s, isSpace c = false) → IsFloat ft s (q : ℝ) := by
    intro s q h hs
    unfold IsFloat FloatText.float
    rw [strip_id hs]
    exact hdec s q h
  have hint : ∀ {k v : Str} {n : ℤ}, intOf v = some n → k ≠ "sensor thresholds".toList → k ≠ "final time".toList ∧ k ≠ "Courant-Friedrichs-Lewy condition".toList → ValidValue ft (k, v) :=
    fun h h1 h2 => ⟨fun _ => ⟨_, h⟩, fun h' => (h'.elim h2.1 h2.2).elim, fun h' => (h1 h').elim⟩
  have hnum : ∀ {k v : Str} {x : ℝ}, IsFloat ft v x → k ≠ "sensor thresholds".toList → k ≠ "number of outputs".toList ∧ k ≠ "order".toList → ValidValue ft (k, v) :=
    fun h h1 h2 => ⟨fun h' => (h'.elim h2.1 h2.2).elim, fun _ => ⟨_, h⟩, fun h' => (h1 h').elim⟩
  have htext : ∀ {k v : Str}, k ≠ "sensor thresholds".toList → k ≠ "number of outputs".toList ∧ k ≠ "order".toList →
      k ≠ "final time".toList ∧ k ≠ "Courant-Friedrichs-Lewy condition".toList → ValidValue ft (k, v) :=
    fun h1 h2 h3 => ⟨fun h' => (h'.elim h2.1 h2.2).elim, fun h' => (h'.elim h3.1 h3.2).elim, fun h' => (h1 h').elim⟩
  exact forall_studyDefs (htext (by decide) (by decide) (by decide)) (htext (by decide) (by decide) (by decide)) (htext (by decide) (by decide) (by decide))
    (hint (n := 11) (by decide +kernel) (by decide) (by decide)) (hnum (hfl (q := 8) (by decide +kernel) (by decide)) (by decide) (by decide))
    (hnum (hfl (q := 1 / 2) (by decide +kernel) (by decide)) (by decide) (by decide)) (hint (intOf_natText p) (by decide) (by decide)) (htext (by decide) (by decide) (by decide))

/-- The deck `run.py` writes, parsed. -/
lemma study_deck {ft : FloatText ℝ} (hdec : ReadsDecimals ft) (lib : GaussLib ℝ) (fs : Files) (workdir : Str) (p N : ℕ) (hN : 0 < N) :
    ∃ d : Deck ℝ, Deck.init.parser ft (writeDeck fs workdir (studyDefs p N)).1 (writeDeck fs workdir (studyDefs p N)).2 = .ok d ∧
      ValidDeck lib ft d p N IC.sinewave ∧ d.system = "advection".toList ∧ d.rk = "rk12".toList ∧ d.limiting = "0".toList ∧ d.nout = 11 ∧ d.finaltime = 8 ∧ d.cfl = 1 / 2 := by
  obtain ⟨d, hd, g1, g2, -, g4, g5, g6, g7, g8, g9, g10, -⟩ := C35_round_trip ft fs workdir (defs := studyDefs p N)
    (forall_studyDefs (by decide) (by decide) (show "initial condition".toList ∈ keywords by decide) (by decide) (by decide) (by decide)
      (show "order".toList ∈ keywords by decide) (by decide)) (study_lines p N) (study_values hdec p N)
  have e1 : d.system = "advection".toList := g1
  have e2 : d.rk = "rk12".toList := g2
  have e4 : d.ic = "sinewave ".toList ++ natText N := g4
  have e5 : d.limiting = "0".toList := g5
  have e6 : d.enhance = [] := g6
  have e7 : d.nout = 11 := by
    have := g7.2 "11".toList rfl
    have h : intOf "11".toList = some 11 := by decide +kernel
    unfold IsInt at this
    rw [h] at this
    exact (Option.some.inj this).symm
  have e8 : d.order = p := by
    have := g8.2 (natText p) rfl
    unfold IsInt at this
    rw [intOf_natText] at this
    exact (Option.some.inj this).symm
  have hfl : ∀ {s : Str} {q : ℚ} {x : ℝ}, IsFloat ft s x → decimal s = some q → (∀ c ∈ s, isSpace c = false) → x = (q : ℝ) := by
    intro s q x hx h hs
    unfold IsFloat FloatText.float at hx
    rw [strip_id hs, hdec s q h] at hx
    exact (Except.ok.inj hx).symm
  have e9 : d.finaltime = 8 := by
    rw [hfl (q := 8) (g9.2 "8".toList rfl) (by decide +kernel) (by decide)]; norm_num
  have e10 : d.cfl = 1 / 2 := by
    rw [hfl (q := 1 / 2) (g10.2 "0.5".toList rfl) (by decide +kernel) (by decide)]; norm_num
  refine ⟨d, hd, ⟨e8, hN, ⟨"sinewave".toList, natText N, [], ?_, intOf_natText N, by unfold setupOf; rw [if_pos rfl], ?_⟩, ?_, ?_⟩, e1, e2, e5, e7, e9, e10⟩
  · rw [e4]
    have := split_cons (a := "sinewave".toList) (b := natText N) (sep := ' ') (by decide) (by decide) (by decide)
    rw [split_word (natText_ne_nil N) fun c hc => (Clean.natText N c hc).1] at this
    exact this
  · rw [e1]; intro h; exact absurd h (by decide)
  · rw [e6]; exact C67_no_enhancement _ _
  · rw [e5]; intro h; exact absurd h (by decide)

/-- The second column of a file: the cell averages. -/
lemma secondColumn_table (r : ℝ → ℝ) {s : Sol ℝ} (hr : 0 < s.u.rows) (hN : 2 ≤ s.NE) :
    secondColumn (table r s 0) = .ok ((List.range s.NE).map fun i => r (cellMean s (i + 1) 0)) := by
  have hlen : (table r s 0).length = s.NE := by unfold table; rw [List.length_map, List.length_range]
  have hrow : ((table r s 0).headD []).length = s.u.rows + 1 := by
    obtain ⟨n, hn⟩ : ∃ n, s.NE = n + 1 := ⟨s.NE - 1, by omega⟩
    unfold table
    rw [hn, List.range_succ_eq_map]
    simp
  unfold secondColumn
  rw [if_pos ⟨by omega, by omega⟩]
  unfold table
  rw [List.map_map]
  congr 1
  refine List.map_congr_left fun i _ => ?_
  rw [cellMean_eq hr]
  obtain ⟨n, hn⟩ : ∃ n, s.u.rows = n + 1 := ⟨s.u.rows - 1, by omega⟩
  simp [hn, List.range_succ_eq_map]

/-- **C85.** The convergence study, for every order `p` and every resolution `N ≥ 2` with `N (2p+1) ≤ 1e14`, whatever is in the
directory: the deck `run.py` writes is read as the one meant, the run finishes, output `i` (of 0..10) is at the time `0.8 i`, the last
one at `t = 8`, a whole number of periods, so that the initial condition is the exact solution; and the error `plot.py` takes from
the files is half the root mean square of the differences of the cell averages at the start and at the end (as read back). -/
theorem C85_study {lib : GaussLib ℝ} (hlib : lib.Ok) {ft : FloatText ℝ} (hdec : ReadsDecimals ft) {r : ℝ → ℝ} (hft : ft.Reads r) (junk : ℕ → ℝ) (fs : Files)
    (workdir : Str) {p N : ℕ} (hN : 2 ≤ N) (hp : (N : ℝ) * (2 * p + 1) ≤ 10 ^ 14) :
    ∃ d s lm, Deck.init.parser ft (writeDeck fs workdir (studyDefs p N)).1 (writeDeck fs workdir (studyDefs p N)).2 = .ok d ∧
      ValidDeck lib ft d p N IC.sinewave ∧ d.system = "advection".toList ∧ d.rk = "rk12".toList ∧ d.limiting = "0".toList ∧ d.nout = 11 ∧ d.finaltime = 8 ∧ d.cfl = 1 / 2 ∧
      start lib ft junk d = .ok (s, lm) ∧ (∀ γ x, IC.sinewave.f γ (x - 8) = IC.sinewave.f γ x) ∧
      ∃ k₀, ∀ k, k₀ ≤ k → (studyRun lib ft junk fs workdir p N k).2 = .done ∧
        (integrate ⟨residual, lm.limit⟩ d.rkDeck s k).log.map (fun o => (o.nout, o.sol.t)) = (List.range 11).map (fun i : ℕ => (i, (i : ℝ) * (8 / 10))) ∧
        ∃ o, (integrate ⟨residual, lm.limit⟩ d.rkDeck s k).log.getLast? = some o ∧ o.nout = 10 ∧ o.sol.t = 8 ∧
          measure ft (studyRun lib ft junk fs workdir p N k).1 N =
            .ok (1 / 2 * Real.sqrt ((∑ e ∈ Finset.range N, (r (cellMean s (e + 1) 0) - r (cellMean o.sol (e + 1) 0)) ^ 2) / N)) := by
  obtain ⟨d, hparse, hd, d1, d2, d3, d4, d5, d6⟩ := study_deck hdec lib fs workdir p N (by omega)
  have hnl : ∀ x, '\n' ∉ ft.fmt x := fun x h => absurd (hft.chars x _ h).1 (by decide)
  have hsys : d.system ≠ "euler".toList := by rw [d1]; decide
  have hN0 : (2 : ℝ) ≤ N := by exact_mod_cast hN
  have hp0 : (0 : ℝ) ≤ p := Nat.cast_nonneg p
  have hstep : (IC.sinewave.B - IC.sinewave.A) / N * d.cfl / (2 * p + 1) = 1 / (N * (2 * p + 1)) := by
    show ((1 : ℝ) - -1) / N * d.cfl / (2 * p + 1) = _
    rw [d6]
    field_simp
    norm_num
  obtain ⟨c, s, lm, -, hst, S⟩ := C69_starts hlib junk hd
  obtain ⟨s', lm', hst', k₀, hk⟩ := C71_advection_finishes hlib junk hd hsys (by omega) (by rw [d5]; norm_num)
    (by rw [hstep]; exact one_div_le_one_div_of_le (by positivity) hp) hnl hparse
  rw [hst] at hst'
  cases hst'
  refine ⟨d, s, lm, hparse, hd, d1, d2, d3, d4, d5, d6, hst, fun γ x => ?_, k₀, fun k hk0 => ?_⟩
  · show [Real.sin (2 * Real.pi * (x - 8))] = [Real.sin (2 * Real.pi * x)]
    have : 2 * Real.pi * (x - 8) = 2 * Real.pi * x - (8 : ℕ) * (2 * Real.pi) := by push_cast; ring
    rw [this, Real.sin_sub_nat_mul_two_pi]
  obtain ⟨h1, -, -⟩ := hk k hk0
  obtain ⟨s', lm', hst', st, hstd, f1, f2, ⟨l, hl⟩, f4, -⟩ := C70_files hlib junk hd (by omega) hnl hparse k
  rw [hst] at hst'
  cases hst'
  have hkinv := (kin_invariant S.built S.physics S.limiter).run d.rkDeck (schemeFor d.rkDeck.rk) (Kin.refl s)
  have hkin : ∀ o ∈ st.log, Kin o.sol s := by rw [hstd]; exact (hkinv k).2
  have hdone : st.status = .done := by rw [← f1]; exact h1
  have hN11 : d.rkDeck.nout = 11 := by show d.nout.toNat = 11; rw [d4]; rfl
  have hT : d.rkDeck.finaltime = 8 := d5
  have hlog : st.log.map (fun o => (o.nout, o.sol.t)) = (List.range 11).map (fun i : ℕ => (i, (i : ℝ) * (8 / 10))) := by
    have := C03_outputs_partial (schemeFor d.rkDeck.rk) ⟨residual, lm.limit⟩ limit_clock d.rkDeck s (by rw [S.clock.1, hT]; norm_num) (fun j hj x hx => ?_) k
      (by rw [hstd] at hdone; exact hdone)
    · rw [hN11, hT, S.clock.1] at this
      rw [hstd]
      refine this.trans (List.map_congr_left fun i _ => ?_)
      norm_num
    · have hkj : Kin ((schemeFor d.rkDeck.rk).run ⟨residual, lm.limit⟩ d.rkDeck s j).sol s := (hkinv j).1
      set a := ((schemeFor d.rkDeck.rk).run ⟨residual, lm.limit⟩ d.rkDeck s j).sol
      have hb := hkj.like.built S.built
      have hden : (1 : ℝ) * (2 * (a.basis.p : ℝ) + 1) ≠ 0 := by positivity
      unfold cflTimeStep at hx
      rw [((hkj.physics S.physics).advection hsys).1] at hx
      have hx' : (if (1 : ℝ) * (2 * (a.basis.p : ℝ) + 1) = 0 then _ else Except.ok (Fl.fin (a.dx * d.rkDeck.cfl / (1 * (2 * (a.basis.p : ℝ) + 1))))) = .ok x := hx
      rw [if_neg hden] at hx'
      refine ⟨_, (Except.ok.inj hx').symm, ?_⟩
      rw [hkj.like.setup.dx, hb.basis, S.mesh.width, one_mul, hT, S.clock.1, hN11]
      show (IC.sinewave.B - IC.sinewave.A) / N * d.cfl / (2 * p + 1) ≤ _
      rw [hstep, div_le_iff₀ (by positivity)]
      norm_num
      nlinarith
  rw [← hstd]
  refine ⟨h1, hlog, ?_⟩
  obtain ⟨o, ho⟩ : ∃ o, st.log.getLast? = some o := by
    rw [hl]; exact ⟨_, List.getLast?_eq_some_getLast (List.cons_ne_nil _ _)⟩
  have hmem : o ∈ st.log := List.mem_of_getLast? ho
  have hlast := congrArg List.getLast? hlog
  rw [List.getLast?_map, ho] at hlast
  have hlast : some (o.nout, o.sol.t) = some (10, ((10 : ℕ) : ℝ) * (8 / 10)) := hlast
  have hlast := Prod.mk.inj (Option.some.inj hlast)
  refine ⟨o, ho, hlast.1, by rw [hlast.2]; norm_num, ?_⟩
  -- the two files
  have hfile : ∀ q ∈ st.log, ∃ text, (studyRun lib ft junk fs workdir p N k).1 (nameOf "u" q.nout) = some text ∧ ∃ rows, loadtxt ft text = .ok rows ∧
      secondColumn rows = .ok ((List.range N).map fun i => r (cellMean q.sol (i + 1) 0)) := by
    intro q hq
    obtain ⟨o1, o2, o3, -⟩ := f4 q hq
    rw [if_neg hsys] at o2
    have hlo := hkin q hq
    have c1 : Clean "periodic".toList := by unfold Clean; decide
    refine ⟨fieldText ft q.sol 0, file_named o2 o3 0 (by simp), table r q.sol 0, loadtxt_fieldText hft q.sol ?_ ?_ 0, ?_⟩
    · rw [hlo.like.setup.bcl, S.bc.1]; exact c1
    · rw [hlo.like.setup.bcr, S.bc.2]; exact c1
    · rw [secondColumn_table r (by rw [hlo.like.rows, S.built.rows]; omega) (by rw [o1]; exact hN), o1]
  obtain ⟨t0, a1, rows0, a2, a3⟩ := hfile ⟨0, 0, s⟩ (by rw [hl]; simp)
  obtain ⟨t1, b1, rows1, b2, b3⟩ := hfile o hmem
  rw [hlast.1] at b1
  have n0 : nameOf "u" 0 = "u0000000000.dat".toList := by decide
  have n10 : nameOf "u" 10 = "u0000000010.dat".toList := by decide +kernel
  have r0 : (studyRun lib ft junk fs workdir p N k).1.read "u0000000000.dat".toList = .ok t0 := by unfold Files.read; rw [← n0, a1]
  have r1 : (studyRun lib ft junk fs workdir p N k).1.read "u0000000010.dat".toList = .ok t1 := by unfold Files.read; rw [← n10, b1]
  unfold measure
  rw [r0, r1]
  simp only [bind, Except.bind, a2, a3, b2, b3]
  rw [(C85_norms (by simp) (by simp) (by omega)).1]
  congr 4
  refine Finset.sum_congr rfl fun i hi => ?_
  have hi := Finset.mem_range.mp hi
  simp [hi]

example : ∃ k x, (studyRun realGauss Ex.decReal (fun _ => 0) (fun _ => none) "run".toList 3 64 k).2 = .done ∧
    measure Ex.decReal (studyRun realGauss Ex.decReal (fun _ => 0) (fun _ => none) "run".toList 3 64 k).1 64 = .ok x := by
  obtain ⟨d, s, lm, -, -, -, -, -, -, -, -, -, -, k, hk⟩ := C85_study realGauss_ok Ex.decReal_reads Ex.decReal_reads_back (fun _ => 0) (fun _ => none) "run".toList
    (p := 3) (N := 64) (by norm_num) (by norm_num)
  obtain ⟨h1, -, o, -, -, -, h2⟩ := hk k le_rfl
  exact ⟨k, _, h1, h2⟩

/-! ### The rates -/

lemma diff_log_mul {c : ℝ} (hc : 0 < c) : ∀ {l : List ℝ}, (∀ x ∈ l, 0 < x) → diff ((l.map (c * ·)).map Real.log) = diff (l.map Real.log)
  | [], _ => rfl
  | [_], _ => rfl
  | a :: b :: l, h => by
    have ih := diff_log_mul hc (l := b :: l) (fun x hx => h x (List.mem_cons_of_mem _ hx))
    simp only [List.map_cons, diff] at ih ⊢
    rw [ih, Real.log_mul hc.ne' (h a (by simp)).ne', Real.log_mul hc.ne' (h b (by simp)).ne', add_sub_add_left_eq_sub]

/-- **C85 (rates).** A constant factor in the errors does not change the rates, and errors `C / res^q` on increasing
resolutions give the rate `q` at every refinement. -/
theorem C85_rates : (∀ (c : ℝ) (errors resolutions : List ℝ), 0 < c → (∀ x ∈ errors, 0 < x) → rates (errors.map (c * ·)) resolutions = rates errors resolutions) ∧
    ∀ (C q : ℝ) (resolutions : List ℝ), 0 < C → (∀ x ∈ resolutions, 0 < x) → resolutions.Pairwise (· < ·) →
      rates (resolutions.map fun x => C / x ^ q) resolutions = List.replicate (resolutions.length - 1) q := by
  refine ⟨fun c errors resolutions hc he => ?_, ?_⟩
  · unfold rates
    rw [diff_log_mul hc he]
  · intro C q resolutions hC
    induction resolutions with
    | nil => intros; rfl
    | cons a l ih =>
      intro hpos hlt
      cases l with
      | nil => rfl
      | cons b l =>
        have ih := ih (fun x hx => hpos x (List.mem_cons_of_mem _ hx)) (List.pairwise_cons.mp hlt).2
        unfold rates at ih ⊢
        simp only [List.map_cons, diff, List.zipWith_cons_cons, List.length_cons, Nat.add_sub_cancel] at ih ⊢
        rw [ih, List.replicate_succ]
        congr 1
        have ha := hpos a (by simp)
        have hb := hpos b (by simp)
        have hab : a < b := (List.pairwise_cons.mp hlt).1 b (by simp)
        have hl : Real.log a < Real.log b := Real.log_lt_log ha hab
        rw [Real.log_div hC.ne' (Real.rpow_pos_of_pos hb q).ne', Real.log_div hC.ne' (Real.rpow_pos_of_pos ha q).ne', Real.log_rpow ha, Real.log_rpow hb,
          div_eq_iff (by linarith)]
        ring

example : rates [1 / 4, 1 / 32, 1 / 256] [1, 2, 4] = [3, 3] := by
  have := C85_rates.2 (1 / 4) 3 [1, 2, 4] (by norm_num) (by simp) (by norm_num)
  norm_num at this ⊢
  exact this

end Dg1d.Props
