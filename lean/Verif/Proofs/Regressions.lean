import Verif.Model.Regressions
import Verif.Spec.Regressions
import Verif.Props.Main

/-!
# Helpers for the regression tests
-/

namespace Dg1d
open Text

/-- The table of field `g` in the files of a solution: centroid and coefficients of every interior cell, as read back. -/
def table (r : ℝ → ℝ) (s : Sol ℝ) (g : ℕ) : List (List ℝ) :=
  (List.range s.NE).map fun i => r (s.xc.val i) :: (List.range s.u.rows).map fun j => r (s.u.val j ((i + 1) * s.NF + g))

namespace Props

lemma loadtxt_fieldText {ft : FloatText ℝ} {r : ℝ → ℝ} (hft : ft.Reads r) (s : Sol ℝ) (hbl : Clean s.bcl.val.toList) (hbr : Clean s.bcr.val.toList) (g : ℕ) :
    loadtxt ft (fieldText ft s g) = .ok (table r s g) := by
  have hcl : ∀ x, Clean (ft.fmt x) := fun x c hc => hft.chars x c hc
  have hfl : ∀ x, ft.float (ft.fmt x) = .ok (r x) := fun x => by rw [float_clean ft (hcl x), hft.round]
  have htx : fieldText ft s g = savetxt (head1 (natText s.n) (ft.fmt s.t) s.bcl.val.toList s.bcr.val.toList ++ '\n' :: head2 s.basis.p)
      ((List.range s.NE).map (rowText ft s g)) := by
    have nl : "\n".toList = ['\n'] := by decide
    rw [savetxt_eq (head1_no (Clean.natText _) (hcl _) hbl hbr).1 (head2_no _).1, List.flatMap_map]
    unfold fieldText headText head1 head2 rowText
    have e1 : "# n=".toList = "# ".toList ++ "n=".toList := by decide
    have e2 : "\n# xc".toList = '\n' :: ("# ".toList ++ "xc".toList) := by decide
    rw [e1, e2, nl]
    simp only [List.append_assoc, List.cons_append, List.nil_append, join_eq, List.flatMap_map]
  have hw : ∀ i, ∀ w ∈ ft.fmt (s.xc.val i) :: (List.range s.u.rows).map (fun j => ft.fmt (s.u.val j ((i + 1) * s.NF + g))), Clean w := by
    intro i w hw
    rcases List.mem_cons.mp hw with rfl | hw
    · exact hcl _
    · obtain ⟨j, -, rfl⟩ := List.mem_map.mp hw
      exact hcl _
  have hrow : ∀ x ∈ (List.range s.NE).map (rowText ft s g), x ≠ [] ∧ ∀ c ∈ x, isSpace c = false ∧ c ≠ '#' := by
    intro x hx
    obtain ⟨i, -, rfl⟩ := List.mem_map.mp hx
    constructor
    · unfold rowText
      rw [join_eq]
      intro h0
      exact hft.nonempty _ (List.append_eq_nil_iff.mp h0).1
    · intro c hc
      rcases mem_join hc with rfl | ⟨w, hw', hc⟩
      · decide
      · exact ⟨(hw i w hw' c hc).1, (hw i w hw' c hc).2.2.2⟩
  have hsp : ∀ i, splitComma (rowText ft s g i) = ft.fmt (s.xc.val i) :: (List.range s.u.rows).map fun j => ft.fmt (s.u.val j ((i + 1) * s.NF + g)) := by
    intro i
    unfold rowText
    rw [splitComma_join fun w hw' c hc => (hw i w hw' c hc).2.1]
  unfold loadtxt
  rw [htx, dataLines_savetxt (head1_no (Clean.natText _) (hcl _) hbl hbr) s.basis.p (fun x hx => (hrow x hx).1) (fun x hx => (hrow x hx).2),
    mapM_map_ok (g := fun i => r (s.xc.val i) :: (List.range s.u.rows).map fun j => r (s.u.val j ((i + 1) * s.NF + g)))]
  · simp only
    rw [if_pos]
    · rfl
    have hl : ∀ l ∈ table r s g, l.length = s.u.rows + 1 := by
      intro l hl
      obtain ⟨i, -, rfl⟩ := List.mem_map.mp hl
      simp
    intro l hl'
    rw [hl l hl']
    revert hl hl'
    show (∀ l ∈ table r s g, _) → l ∈ table r s g → _ = (List.headD (table r s g) []).length
    generalize table r s g = rows
    intro hl hl'
    rcases rows with _ | ⟨a, rows⟩
    · cases hl'
    · rw [List.headD_cons, hl a (by simp)]
  · intro i _
    rw [hsp i, List.mapM_cons, hfl, mapM_map_ok (g := fun j => r (s.u.val j ((i + 1) * s.NF + g))) (fun j _ => hfl _)]
    rfl

/-- Flattened tables with equal row lengths. -/
lemma close_flatten {tol : ℝ} {c : ℕ} : ∀ {a b : List (List ℝ)}, a.length = b.length → (∀ l ∈ a, l.length = c) → (∀ l ∈ b, l.length = c) →
    ((∀ q ∈ a.flatten.zip b.flatten, |q.2 - q.1| < tol) ↔ Spec.TablesClose tol a b)
  | [], [], _, _, _ => by simp [Spec.TablesClose]
  | [], _ :: _, h, _, _ => by cases h
  | _ :: _, [], h, _, _ => by cases h
  | x :: a, y :: b, h, ha, hb => by
    have hxy : x.length = y.length := by rw [ha x (by simp), hb y (by simp)]
    have ih := close_flatten (tol := tol) (a := a) (b := b) (by simpa using h) (fun l hl => ha l (by simp [hl])) (fun l hl => hb l (by simp [hl]))
    unfold Spec.TablesClose at ih ⊢
    rw [List.forall₂_cons, ← ih, List.flatten_cons, List.flatten_cons, List.zip_append hxy, List.forall₂_iff_zip]
    simp only [List.mem_append]
    constructor
    · intro H
      refine ⟨⟨hxy, fun {u v} huv => ?_⟩, fun q hq => H q (Or.inr hq)⟩
      rw [abs_sub_comm]; exact H (u, v) (Or.inl huv)
    · rintro ⟨⟨-, H1⟩, H2⟩ q (hq | hq)
      · rw [abs_sub_comm]; exact H1 (a := q.1) (b := q.2) hq
      · exact H2 q hq

/-- For a table with at least two rows and columns and a gold table with at least two rows, the comparison is entry by entry. -/
lemma almostEqual_iff {a b : List (List ℝ)} {c : ℕ} (ha : ∀ l ∈ a, l.length = c) (hc : 2 ≤ c) (h2 : 2 ≤ a.length) (hb : ∀ l ∈ b, l.length = (b.headD []).length)
    (hb2 : 2 ≤ b.length) : almostEqual a b ↔ Spec.TablesClose (15 / 10 * (1 / 10 ^ 10)) a b := by
  have hsa : loadedShape a = [a.length, c] := by
    unfold loadedShape
    have : (a.headD []).length = c := by
      cases a with
      | nil => simp at h2
      | cons x a => exact ha x (by simp)
    rw [if_neg (by omega), this]
    simp only [List.filter_cons, decide_not, List.filter_nil]
    rw [if_pos (by simp; omega), if_pos (by simp; omega)]
  have hsb : loadedShape b = [b.length] ∨ loadedShape b = [b.length, (b.headD []).length] := by
    unfold loadedShape
    rw [if_neg (by omega)]
    simp only [List.filter_cons, decide_not, List.filter_nil]
    rw [if_pos (by simp; omega)]
    by_cases h : (b.headD []).length = 1
    · left; rw [if_neg (by rw [h]; decide)]
    · right; rw [if_pos (by simpa using h)]
  unfold almostEqual
  rw [if_neg (by rw [hsa]; simp), if_neg (by rcases hsb with h | h <;> rw [h] <;> simp)]
  constructor
  · rintro ⟨h, H⟩
    rw [hsa] at h
    rcases hsb with h' | h' <;> rw [h'] at h
    · simp at h
    · simp only [List.cons.injEq, and_true] at h
      exact (close_flatten h.1 ha (fun l hl => by rw [hb l hl, ← h.2])).mp H
  · intro H
    have hlen : a.length = b.length := List.Forall₂.length_eq H
    have hcol : (b.headD []).length = c := by
      cases a with
      | nil => simp at h2
      | cons x a =>
        cases b with
        | nil => simp at hb2
        | cons y b =>
          have := (List.forall₂_cons.mp H).1.length_eq
          rw [List.headD_cons, ← this, ha x (by simp)]
    refine ⟨?_, (close_flatten hlen ha (fun l hl => by rw [hb l hl, hcol])).mpr H⟩
    rw [hsa]
    unfold loadedShape
    rw [if_neg (by omega), hcol, hlen]
    simp only [List.filter_cons, decide_not, List.filter_nil]
    rw [if_pos (by simp; omega), if_pos (by simp; omega)]

/-- The comparison of one field, files and tables given. -/
lemma compareField_eq {ft : FloatText ℝ} {fs : Files} {field a b : Str} {x y : List (List ℝ)} (ha : fs (field ++ "0000000001.dat".toList) = some a)
    (hb : fs (field ++ "0000000001.gold".toList) = some b) (hx : loadtxt ft a = .ok x) (hy : loadtxt ft b = .ok y) :
    ∃ v, compareField ft fs field = .ok v ∧ (v = true ↔ almostEqual x y) := by
  classical
  refine ⟨decide (almostEqual x y), ?_, decide_eq_true_iff⟩
  have ra : fs.read (field ++ "0000000001.dat".toList) = .ok a := by unfold Files.read; rw [ha]
  have rb : fs.read (field ++ "0000000001.gold".toList) = .ok b := by unfold Files.read; rw [hb]
  unfold compareField
  rw [ra, rb]
  simp only [bind, Except.bind, hx, hy, pure, Except.pure]

lemma loadtxt_rows {ft : FloatText ℝ} {a : Str} {x : List (List ℝ)} (h : loadtxt ft a = .ok x) : ∀ l ∈ x, l.length = (x.headD []).length := by
  unfold loadtxt at h
  split at h
  · cases h
  · split at h
    · cases h; assumption
    · cases h

lemma compareFields_three {ft : FloatText ℝ} {fs : Files} {f0 f1 f2 : Str} {b0 b1 b2 : Bool} (e0 : compareField ft fs f0 = .ok b0)
    (e1 : compareField ft fs f1 = .ok b1) (e2 : compareField ft fs f2 = .ok b2) :
    compareFields ft fs [f0, f1, f2] = .pass ↔ b0 = true ∧ b1 = true ∧ b2 = true := by
  cases b0 <;> cases b1 <;> cases b2 <;> simp [compareFields, e0, e1, e2]

/-- A run that has not finished has written fewer sets than asked for. -/
lemma full_done {K : Type} [Field K] [LinearOrder K] [IsStrictOrderedRing K] {env : Env K} (hk : env.KeepsClock) (sch : Scheme K) (deck : RkDeck K) (sol : Sol K)
    (h0 : sol.t ≤ deck.finaltime) (hN : 2 ≤ deck.nout) (k : ℕ) :
    (sch.run env deck sol k).status ≠ .done → (sch.run env deck sol k).log.length + 1 ≤ deck.nout := by
  induction k with
  | zero =>
    intro _
    obtain ⟨l, hl⟩ := (NumInv.init deck sol).head
    have hr : (sch.run env deck sol 0).log.length = 1 := by
      show (initLoop deck sol).log.length = 1
      unfold initLoop
      simp only
      split <;> rfl
    omega
  | succ k ih =>
    have hE : sch.run env deck sol (k + 1) = loopBody env deck (sch.inner env) (sch.run env deck sol k) := by
      unfold Scheme.run; rw [runLoop_succ]
    rw [hE]
    by_cases hr : (sch.run env deck sol k).status = .running
    swap
    · rw [loopBody_stopped hr]; exact ih
    have hnum := numInv_run hk sch deck sol k
    obtain ⟨r1, r2, r3, r4, r5, r6⟩ := (timeInv_run hk sch deck sol h0 k).run hr
    have hlen := hnum.run hr
    rcases loopBody_cases (deck := deck) hk (sch.inner_keepsClock env) hr with ⟨e, hs, hl, -⟩ | ⟨dt, o, d, st1, sol', hn, hsame, ht, hnn, heq⟩
    · intro _; rw [hl]; omega
    · rw [heq]
      obtain ⟨h1, h2, h3, h4, h5⟩ := hsame
      rcases getNext_cases hn with ⟨ho, hd, e⟩ | ⟨ho, hd, e, x, x1, x2, x3, _⟩ | ⟨ho, hd, a, b, c, _⟩
      · subst ho hd
        simp [outputPhase]
      · intro _
        have hlt : (sch.run env deck sol k).nout + 2 ≤ deck.nout := by
          by_contra hc
          have e' : (sch.run env deck sol k).nout = deck.nout - 1 := by omega
          rw [r3, e', outTime_last _ _ hN] at x3
          exact absurd x2 (not_le.2 x3)
        subst ho hd
        have : (outputPhase st1 sol' dt true false).log.length = (sch.run env deck sol k).log.length + 1 := by
          unfold outputPhase
          simp only [if_true, Bool.false_eq_true, if_false]
          cases st1.touts <;> simp [h5]
        omega
      · intro _
        subst ho hd
        have : (outputPhase st1 sol' dt false false).log = (sch.run env deck sol k).log := by
          unfold outputPhase; simp [h5]
        rw [this]; omega

/-- A finished run with two outputs has written two sets. -/
lemma done_length {K : Type} [Field K] [LinearOrder K] [IsStrictOrderedRing K] {env : Env K} (hk : env.KeepsClock) (sch : Scheme K) (deck : RkDeck K) (sol : Sol K)
    (h0 : sol.t ≤ deck.finaltime) (hN : deck.nout = 2) (k : ℕ) :
    (sch.run env deck sol k).status = .done → (sch.run env deck sol k).log.length ≤ 2 ∧ 2 ≤ (sch.run env deck sol k).log.length := by
  induction k with
  | zero => exact fun h => absurd h (init_status_ne_done deck sol)
  | succ k ih =>
    have hE : sch.run env deck sol (k + 1) = loopBody env deck (sch.inner env) (sch.run env deck sol k) := by
      unfold Scheme.run; rw [runLoop_succ]
    rw [hE]
    by_cases hr : (sch.run env deck sol k).status = .running
    swap
    · rw [loopBody_stopped hr]; exact ih
    have hnum := numInv_run hk sch deck sol k
    obtain ⟨r1, r2, -⟩ := (timeInv_run hk sch deck sol h0 k).run hr
    have hlen := hnum.run hr
    rcases loopBody_cases (deck := deck) hk (sch.inner_keepsClock env) hr with ⟨e, hs, hl, -⟩ | ⟨dt, o, d, st1, sol', hn, ⟨h1, h2, h3, h4, h5⟩, ht, hnn, heq⟩
    · rw [hs]; intro h; cases h
    · rw [heq]
      rcases getNext_cases hn with ⟨ho, hd, e⟩ | ⟨ho, hd, -⟩ | ⟨ho, hd, -⟩
      · subst ho hd
        intro _
        simp only [outputPhase, if_true, h5, List.length_append, List.length_singleton]
        omega
      · subst ho hd
        simp only [outputPhase, if_true, Bool.false_eq_true, if_false]
        cases st1.touts <;> simp [h4, hr]
      · subst ho hd
        simp [outputPhase, h4, hr]

end Props
end Dg1d
