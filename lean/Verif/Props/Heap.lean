import Verif.Proofs.Heap
import Verif.Props.ExamplesReal

/-!
# C91: arrays updated in place and shared references do not change the result
-/

namespace Dg1d.Props
open HeapRep Spec
variable {K : Type*} [Field K] [LinearOrder K]

/-- For every scheme, limiter and deck: the integrators run on a store, with `+=`, slice assignments and preallocated arrays working in
place, give after any number of iterations the same status, output times and `printer` records as the model that passes values;
unless an exception has ended the run, the three objects hold the same solutions and the increments the same arrays. -/
theorem C91_run (sch : Scheme K) (lm : Limiter K) (deck : RkDeck K) {h : Heap K} {o Q : ℕ} (A : StandsAlone h o Q) (k : ℕ) :
    let st := sch.run ⟨residual, lm.limit⟩ deck (h.view o) k
    let hs := sch.heapRun lm deck h o Q k
    hs.status = st.status ∧ hs.nout = st.nout ∧ hs.tout = st.tout ∧ hs.touts = st.touts ∧ hs.log = st.log ∧
      ((∀ e, st.status ≠ .failed e) → hs.heap.view hs.refs.sol = st.sol ∧ hs.heap.view hs.refs.us = st.us ∧
        hs.heap.view hs.refs.work = st.work ∧ ∀ j < sch.increments, hs.heap.arr (hs.incr j) = st.incr j) := by
  intro st hs
  have L := run_agree sch lm deck A k
  exact ⟨L.status, L.nout, L.tout, L.touts, L.log, fun hst =>
    have R := L.rep hst
    ⟨R.view 0, R.view 1, R.view 2, R.incv⟩⟩

/-- At the head of the loop `solution`, `us` and `uk` are three objects that share no array with one another, with the increments or
with the array `Q` of the DG solver. -/
theorem C91_separate (sch : Scheme K) (lm : Limiter K) (deck : RkDeck K) {h : Heap K} {o Q : ℕ} (A : StandsAlone h o Q) (k : ℕ)
    (hst : ∀ e, (sch.heapRun lm deck h o Q k).status ≠ .failed e) :
    let hs := sch.heapRun lm deck h o Q k
    Separate hs.heap [hs.refs.sol, hs.refs.us, hs.refs.work] ((List.range sch.increments).map hs.incr) Q := by
  intro hs
  have L := run_agree sch lm deck A k
  have R := L.rep (by rw [← L.status]; exact hst)
  have S := rep_separate R
  rw [L.Q] at S
  exact S

/-- The run writes to nothing that was on the store before, except the solution, its own arrays and the array `Q`. -/
theorem C91_frame (sch : Scheme K) (lm : Limiter K) (deck : RkDeck K) {h : Heap K} {o Q : ℕ} (A : StandsAlone h o Q) (k : ℕ)
    (hst : ∀ e, (sch.heapRun lm deck h o Q k).status ≠ .failed e) : Frame h (sch.heapRun lm deck h o Q k).heap o Q := by
  have L := run_agree sch lm deck A k
  have R := L.rep (by rw [← L.status]; exact hst)
  have h1 := R.frame
  rw [L.sol, L.Q] at h1
  exact h1

/-- The whole program with references writes the same files and ends in the same way as the program with values, for every input. -/
theorem C91_program (lib : GaussLib ℝ) (ft : FloatText ℝ) (junk : ℕ → ℝ) (fs : Files) (deckname : Text.Str) (k : ℕ) :
    heapProgram lib ft junk fs deckname k = program lib ft junk fs deckname k := by
  rw [heapProgram, program]
  cases Deck.init.parser ft fs deckname with
  | error e => rfl
  | ok d =>
    simp only
    have S := start_agree lib ft junk d
    generalize start lib ft junk d = x, heapStart lib ft junk d = y at S
    cases S with
    | error e => rfl
    | ok p q hpq =>
      obtain ⟨s, lm⟩ := p
      obtain ⟨h, Q, lm'⟩ := q
      obtain ⟨hv, hl, A⟩ := hpq
      simp only at hv hl A
      subst hl
      have L := C91_run (schemeFor d.rkDeck.rk) lm' d.rkDeck A k
      simp only [hv] at L
      simp only [solve, integrate]
      rw [L.2.2.2.2.1, L.1]
      rfl

/-- The separation is needed: if `o'` has the same array as `o`, then `smart_axpy` on `o` adds to both. -/
theorem C91_shared {h : Heap K} {o o' : ℕ} (hs : (h.obj o').u = (h.obj o).u) (a : K) (x : ℕ) :
    (h.smartAxpy o a x).view o' = (h.view o').smartAxpy a (h.arr x) := by
  rw [Heap.smartAxpy, Sol.smartAxpy]
  split_ifs
  · set A := (h.arr (h.obj o).u).add ((h.arr x).smul a) with hA
    have e : (h.setArr (h.obj o).u A).arr ((h.setArr (h.obj o).u A).obj o').u = A := by
      change Function.update h.arr (h.obj o).u A (h.obj o').u = A
      rw [hs, Function.update_self]
    rw [view_def, e, hA, ← hs]
    rfl
  · rfl

namespace Ex

/-- A store with the periodic example solution, and the array `Q` at 4. -/
noncomputable def store (p : ℕ) : Heap ℝ := ((Heap.ofSol (Dg1d.Ex.solR p)).newArr (Arr.zeros (p + 1) 3)).2

theorem store_alone (p : ℕ) : StandsAlone (store p) 3 4 := alone_newArr (ofSol_alone _) _

end Ex

/-- The hypotheses hold for the solution of `main.py`; one iteration from an unlimited rk4 run. -/
example (p : ℕ) (deck : RkDeck ℝ) : ((schemeFor "rk4").heapRun none deck (Ex.store p) 3 4 1).log =
    ((schemeFor "rk4").run ⟨residual, Limiter.limit none⟩ deck (Dg1d.Ex.solR p) 1).log := by
  have h := (C91_run (schemeFor "rk4") none deck (Ex.store_alone p) 1).2.2.2.2.1
  rw [show (Ex.store p).view 3 = Dg1d.Ex.solR p from (newArr_view (show (0 : ℕ) < 4 by decide) _).trans (ofSol_view _)] at h
  exact h

/-- At the first pass of the loop with three outputs no exception has been raised and the four arrays of rk4 are distinct from those
of the objects. -/
example (p : ℕ) : let hs := (schemeFor "rk4").heapRun none ⟨"rk4", 1, 3, 1 / 2⟩ (Ex.store p) 3 4 0
    Separate hs.heap [hs.refs.sol, hs.refs.us, hs.refs.work] ((List.range (schemeFor "rk4").increments).map hs.incr) 4 :=
  C91_separate _ none _ (Ex.store_alone p) 0 fun e h => by
    rw [(C91_run (schemeFor "rk4") none ⟨"rk4", 1, 3, 1 / 2⟩ (Ex.store_alone p) 0).1] at h
    simp [Scheme.run, runLoop, initLoop, List.range_succ] at h

end Dg1d.Props
