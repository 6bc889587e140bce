import Verif.Model.FloatClock
import Verif.Proofs.Clock

/-!
# Helper lemmas for the clock with rounding
-/

set_option linter.unusedSectionVars false

namespace Dg1d.FloatClock

variable {K : Type*} [Field K] [LinearOrder K]
variable {rnd : K → K} {tf : K} {cfl : Fl K} {st : State K}

/-- The four things that can happen in an iteration. -/
lemma body_cases (hr : st.status = .running) :
    (∃ e, body rnd tf cfl st = { st with status := .failed e } ∧ e ≠ .stopIteration ∧
      (cfl = .nan ∨ cfl = .ninf ∨ ∃ x, cfl = .fin x ∧ x < rnd (1 / 10 ^ 14))) ∨
    ((cfl = .pinf ∨ ∃ x, cfl = .fin x ∧ rnd (1 / 10 ^ 14) ≤ x ∧ rnd (tf - st.t) < x) ∧
      body rnd tf cfl st = ⟨rnd (st.t + rnd (tf - st.t)), st.n + 1, st.nout, st.tout, st.touts, .done,
        st.log ++ [(st.nout, rnd (tf - st.t), rnd (st.t + rnd (tf - st.t)))]⟩) ∨
    (∃ x, cfl = .fin x ∧ rnd (1 / 10 ^ 14) ≤ x ∧ x ≤ rnd (tf - st.t) ∧ rnd (st.tout - st.t) < x ∧
      body rnd tf cfl st = output { st with t := rnd (st.t + rnd (st.tout - st.t)), n := st.n + 1 }
        (rnd (st.tout - st.t)) true false) ∨
    (∃ x, cfl = .fin x ∧ rnd (1 / 10 ^ 14) ≤ x ∧ x ≤ rnd (tf - st.t) ∧ x ≤ rnd (st.tout - st.t) ∧
      body rnd tf cfl st = { st with t := rnd (st.t + x), n := st.n + 1 }) := by
  unfold body
  rw [hr]
  cases cfl with
  | nan => left; exact ⟨_, rfl, by simp, Or.inl rfl⟩
  | ninf => left; exact ⟨_, rfl, by simp, Or.inr (Or.inl rfl)⟩
  | pinf =>
    right; left
    exact ⟨Or.inl rfl, by simp [sanityCheckDt, adjustForOutput, output]⟩
  | fin x =>
    by_cases h1 : x < rnd (1 / 10 ^ 14)
    · left
      refine ⟨.sysExit "Next time step is too small", ?_, by simp, Or.inr (Or.inr ⟨x, rfl, h1⟩)⟩
      simp only [sanityCheckDt, if_pos h1]
    · right
      have h1' := not_lt.1 h1
      simp only [sanityCheckDt, if_neg h1, adjustForOutput]
      by_cases h2 : x > rnd (tf - st.t)
      · left
        exact ⟨Or.inr ⟨x, rfl, h1', h2⟩, by simp [h2, output]⟩
      · right
        by_cases h3 : x > rnd (st.tout - st.t)
        · left
          exact ⟨x, rfl, h1', not_lt.1 h2, h3, by simp only [if_neg h2, if_pos h3]⟩
        · right
          refine ⟨x, rfl, h1', not_lt.1 h2, not_lt.1 h3, ?_⟩
          simp only [if_neg h2, if_neg h3, output]
          simp

lemma body_stopped (h : st.status ≠ .running) : body rnd tf cfl st = st := by
  unfold body
  split
  · contradiction
  · rfl

/-- The output times after the first. -/
def times (rnd : K → K) (t0 tf : K) (N : ℕ) : List K :=
  (List.range' 1 (N - 1)).map (linspace rnd t0 tf N)

lemma times_eq (rnd : K → K) (t0 tf : K) (N : ℕ) :
    ((List.range N).map (linspace rnd t0 tf N)).tail = times rnd t0 tf N := by
  unfold times
  rw [← List.map_tail, List.range_eq_range', List.tail_range']

lemma times_length (rnd : K → K) (t0 tf : K) (N : ℕ) : (times rnd t0 tf N).length = N - 1 := by simp [times]

lemma linspace_last (rnd : K → K) (t0 tf : K) {N : ℕ} (h : 2 ≤ N) : linspace rnd t0 tf N (N - 1) = tf := by
  unfold linspace; rw [if_pos ⟨rfl, by omega⟩]

lemma times_drop (rnd : K → K) (t0 tf : K) (N i : ℕ) (h : i + 1 < N) :
    (times rnd t0 tf N).drop i = linspace rnd t0 tf N (i + 1) :: (times rnd t0 tf N).drop (i + 1) := by
  have hl : i < (times rnd t0 tf N).length := by rw [times_length]; omega
  rw [List.drop_eq_getElem_cons hl]
  congr 1
  simp [times, add_comm]

lemma init_eq (rnd : K → K) (tf : K) (N : ℕ) (t : K) (n : ℕ) (h : 2 ≤ N) :
    init rnd tf N t n = ⟨t, n, 1, linspace rnd t tf N 1, (times rnd t tf N).drop 1, .running, [(0, 0, t)]⟩ := by
  unfold init
  have := times_drop rnd t tf N 0 (by omega)
  rw [List.drop_zero] at this
  conv_lhs => rw [times_eq, this]

/-- What the number of outputs says about the output times left. -/
structure OutInv (rnd : K → K) (t0 tf : K) (N : ℕ) (st : State K) : Prop where
  nums : st.log.map Prod.fst = List.range st.log.length
  head : ∃ l, st.log = (0, 0, t0) :: l
  len : st.log.length ≤ N
  noStop : st.status ≠ .failed .stopIteration
  run : st.status = .running →
    st.log.length = st.nout ∧ st.nout + 1 ≤ N ∧ st.tout = linspace rnd t0 tf N st.nout ∧
      st.touts = (times rnd t0 tf N).drop st.nout
  last : st.status = .done → ∃ o, st.log.getLast? = some o ∧ o.2.2 = st.t

lemma OutInv.init (rnd : K → K) (t0 tf : K) (N n : ℕ) (h : 2 ≤ N) : OutInv rnd t0 tf N (init rnd tf N t0 n) := by
  rw [init_eq _ _ _ _ _ h]
  exact ⟨by simp, ⟨[], rfl⟩, by simp; omega, by simp, fun _ => ⟨rfl, h, rfl, rfl⟩, by simp⟩

/-- An output before the end: the next output time is there. -/
lemma OutInv.output {t0 : K} {N : ℕ} (hN : 2 ≤ N) (h : OutInv rnd t0 tf N st) (hr : st.status = .running) {x : K}
    (h1 : x ≤ rnd (tf - st.t)) (h2 : rnd (st.tout - st.t) < x) (t' dt : K) (n' : ℕ) :
    st.nout + 2 ≤ N ∧ FloatClock.output { st with t := t', n := n' } dt true false =
      ⟨t', n', st.nout + 1, linspace rnd t0 tf N (st.nout + 1), (times rnd t0 tf N).drop (st.nout + 1), .running,
        st.log ++ [(st.nout, dt, t')]⟩ := by
  obtain ⟨r1, r2, r3, r4⟩ := h.run hr
  have hlt : st.nout + 2 ≤ N := by
    by_contra hc
    have e : st.nout = N - 1 := by omega
    rw [r3, e, linspace_last _ _ _ hN] at h2
    exact absurd h1 (not_le.2 h2)
  refine ⟨hlt, ?_⟩
  rw [times_drop _ _ _ _ _ (by omega)] at r4
  unfold FloatClock.output
  simp only [if_true, r4, hr]
  simp

lemma OutInv.step {t0 : K} {N : ℕ} (hN : 2 ≤ N) (h : OutInv rnd t0 tf N st) :
    OutInv rnd t0 tf N (body rnd tf cfl st) ∧ st.log <+: (body rnd tf cfl st).log := by
  by_cases hr : st.status = .running
  swap
  · rw [body_stopped hr]; exact ⟨h, List.prefix_rfl⟩
  obtain ⟨r1, r2, r3, r4⟩ := h.run hr
  have happ : ∀ dt t' : K, (st.log ++ [(st.nout, dt, t')]).map Prod.fst =
      List.range (st.log ++ [(st.nout, dt, t')]).length := by
    intro dt t'
    rw [List.map_append, h.nums, List.length_append, List.length_singleton, List.range_succ, r1]; rfl
  have hhead : ∀ o, ∃ l, st.log ++ [o] = (0, 0, t0) :: l := by
    intro o; obtain ⟨l, hl⟩ := h.head; exact ⟨l ++ [o], by rw [hl]; rfl⟩
  rcases body_cases (rnd := rnd) (tf := tf) (cfl := cfl) hr with
    ⟨e, hb, he, -⟩ | ⟨-, hb⟩ | ⟨x, -, -, h1, h2, hb⟩ | ⟨x, -, -, h1, h2, hb⟩
  · rw [hb]
    exact ⟨⟨h.nums, h.head, h.len, by simpa using he, by simp, by simp⟩, List.prefix_rfl⟩
  · rw [hb]
    refine ⟨⟨happ _ _, hhead _, ?_, by simp, by simp, fun _ => ⟨_, List.getLast?_concat, rfl⟩⟩, List.prefix_append _ _⟩
    simp only [List.length_append, List.length_singleton]; omega
  · obtain ⟨hlt, ho⟩ := h.output hN hr h1 h2 (rnd (st.t + rnd (st.tout - st.t))) (rnd (st.tout - st.t)) (st.n + 1)
    rw [hb, ho]
    refine ⟨⟨happ _ _, hhead _, ?_, by simp, fun _ => ⟨?_, hlt, rfl, rfl⟩, by simp⟩, List.prefix_append _ _⟩
    · simp only [List.length_append, List.length_singleton]; omega
    · simp only [List.length_append, List.length_singleton]; omega
  · rw [hb]
    exact ⟨⟨h.nums, h.head, h.len, by simp [hr], fun _ => ⟨r1, r2, r3, r4⟩, by simp [hr]⟩, List.prefix_rfl⟩

lemma outInv_run (rnd : K → K) (tf : K) {N : ℕ} (t0 : K) (n : ℕ) (cfl : ℕ → Fl K) (hN : 2 ≤ N) (k : ℕ) :
    OutInv rnd t0 tf N (run rnd tf N t0 n cfl k) := by
  induction k with
  | zero => exact OutInv.init rnd t0 tf N n hN
  | succ k ih => exact (ih.step hN).1

lemma run_one (rnd : K → K) (tf : K) {N : ℕ} (t0 : K) (n : ℕ) (cfl : ℕ → Fl K) (hN : N ≤ 1) (k : ℕ) :
    (run rnd tf N t0 n cfl k).status = .failed .stopIteration ∧ (run rnd tf N t0 n cfl k).log = [(0, 0, t0)] := by
  induction k with
  | zero =>
    have : ((List.range N).map (linspace rnd t0 tf N)).tail = [] := by
      apply List.eq_nil_of_length_eq_zero; simp; omega
    simp [run, init, this]
  | succ k ih =>
    have e : run rnd tf N t0 n cfl (k + 1) = run rnd tf N t0 n cfl k := by
      show body rnd tf (cfl k) (run rnd tf N t0 n cfl k) = _
      exact body_stopped (by rw [ih.1]; simp)
    rw [e]; exact ih

/-- A running state comes from a running state. -/
lemma running_prev {k : ℕ} {N : ℕ} {t0 : K} {n : ℕ} {cfl : ℕ → Fl K}
    (h : (run rnd tf N t0 n cfl (k + 1)).status = .running) : (run rnd tf N t0 n cfl k).status = .running := by
  by_contra hc
  have e : run rnd tf N t0 n cfl (k + 1) = run rnd tf N t0 n cfl k := body_stopped hc
  rw [e] at h
  exact hc h

/-! ### Exact arithmetic -/

variable [IsStrictOrderedRing K]

lemma linspace_id (a b : K) {N : ℕ} (hN : 2 ≤ N) (i : ℕ) : linspace id a b N i = (Dg1d.linspace a b N).val i := by
  have h0 : ((N - 1 : ℕ) : K) ≠ 0 := by exact_mod_cast (by omega : N - 1 ≠ 0)
  unfold linspace Dg1d.linspace
  simp only [id]
  split_ifs with h1 h2
  · rfl
  · have : b - a = 0 := by
      rcases div_eq_zero_iff.1 h2 with h | h
      · exact h
      · exact absurd h h0
    rw [this]; simp
  · ring

/-- What the clock sees of a state of the main loop. -/
def view (st : LoopState K) : State K :=
  ⟨st.sol.t, st.sol.n, st.nout, st.tout, st.touts, st.status, st.log.map fun o => (o.nout, o.dt, o.sol.t)⟩

lemma view_init (deck : RkDeck K) (sol : Sol K) :
    view (initLoop deck sol) = init id deck.finaltime deck.nout sol.t sol.n := by
  by_cases hN : 2 ≤ deck.nout
  · have e : (Dg1d.linspace sol.t deck.finaltime deck.nout).val = linspace id sol.t deck.finaltime deck.nout :=
      funext fun i => (linspace_id _ _ hN i).symm
    unfold initLoop init
    simp only [e]
    generalize ((List.range deck.nout).map (linspace id sol.t deck.finaltime deck.nout)).tail = L
    cases L <;> rfl
  · have e : ∀ f : ℕ → K, ((List.range deck.nout).map f).tail = [] := by
      intro f; apply List.eq_nil_of_length_eq_zero; simp; omega
    unfold initLoop init
    simp only [e]
    rfl

/-- The CFL step of a state of the main loop (irrelevant if computing it fails). -/
def cflOf (deck : RkDeck K) (st : LoopState K) : Fl K :=
  match cflTimeStep st.sol deck.cfl with
  | .ok x => x
  | .error _ => .nan

lemma getNext_ok {s : Sol K} {tout cfl tf : K} {r : K × Bool × Bool} (h : getNextTimeStep s tout cfl tf = .ok r) :
    ∃ x, cflTimeStep s cfl = .ok x ∧ sanityCheckDt id x = .ok () ∧ adjustForOutput id x s.t tf tout = r := by
  have hsan : ∀ x : Fl K, sanityCheckDt id x = Dg1d.sanityCheckDt x := by
    intro x; cases x <;> rfl
  unfold getNextTimeStep at h
  rcases hc : cflTimeStep s cfl with e | x
  · rw [hc] at h; cases h
  rw [hc] at h
  simp only at h
  rcases hs : Dg1d.sanityCheckDt x with e | u
  · rw [hs] at h; cases h
  rw [hs] at h
  refine ⟨x, rfl, by rw [hsan, hs], ?_⟩
  cases x <;> exact Except.ok.inj h

lemma view_body {env : Env K} (hk : env.KeepsClock) {deck : RkDeck K} {inner : Inner K} (hi : InnerKeepsClock inner)
    (st : LoopState K) (hnf : ∀ e, (loopBody env deck inner st).status ≠ .failed e) :
    view (loopBody env deck inner st) = body id deck.finaltime (cflOf deck st) (view st) := by
  by_cases hr : st.status = .running
  swap
  · rw [loopBody_stopped hr, body_stopped (st := view st) hr]
  unfold loopBody at hnf ⊢
  rw [hr] at hnf ⊢
  unfold body
  rw [show (view st).status = .running from hr]
  simp only at hnf ⊢
  rcases hg : getNextTimeStep st.sol st.tout deck.cfl deck.finaltime with e | ⟨dt, o, d⟩
  · rw [hg] at hnf; exact absurd rfl (hnf e)
  rw [hg] at hnf
  simp only at hnf ⊢
  obtain ⟨x, hx1, hx2, hx3⟩ := getNext_ok hg
  have hcx : cflOf deck st = x := by unfold cflOf; rw [hx1]
  rw [hcx, hx2]
  simp only
  rw [show adjustForOutput id x (view st).t deck.finaltime (view st).tout = (dt, o, d) from hx3]
  rcases hin : inner (st.us.copyDataOnly st.sol) dt { work := st.work, sol := st.sol, incr := st.incr } with e | ss
  · rw [hin] at hnf; exact absurd rfl (hnf e)
  rw [hin] at hnf
  simp only at hnf ⊢
  obtain ⟨ht, hn⟩ := hi _ _ _ _ hin
  simp only at ht hn
  rcases hl : env.limit ({ ss.sol with t := ss.sol.t + dt, n := ss.sol.n + 1 } : Sol K).applyBc with e | sol'
  · rw [hl] at hnf; exact absurd rfl (hnf e)
  simp only
  obtain ⟨h1, h2⟩ := hk _ _ hl
  have h1' : sol'.t = st.sol.t + dt := by rw [h1, ← ht]; exact applyBc_t _
  have h2' : sol'.n = st.sol.n + 1 := by rw [h2, ← hn]; exact applyBc_n _
  unfold outputPhase output view
  simp only [id]
  cases o with
  | false => simp [h1', h2']
  | true =>
    cases d with
    | true => simp [h1', h2']
    | false =>
      simp only [if_true]
      rcases htl : st.touts with _ | ⟨a, l⟩
      · simp [h1', h2']
      · simp [h1', h2']

end Dg1d.FloatClock
