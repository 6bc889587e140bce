import Verif.Model.Integrate
import Mathlib.Tactic.Linarith
import Mathlib.Tactic.FieldSimp
import Mathlib.Tactic.Ring

/-! Helper lemmas about the main time loop (clock, output schedule, termination). -/

namespace Dg1d
variable {K : Type*} [Field K] [LinearOrder K]

/-- The limiter changes neither the time nor the step counter of the solution it is given. -/
def Env.KeepsClock (env : Env K) : Prop :=
  ∀ s s', env.limit s = .ok s' → s'.t = s.t ∧ s'.n = s.n

/-- The inner loop leaves time and step counter of `solution` alone. -/
def InnerKeepsClock (inner : Inner K) : Prop :=
  ∀ us dt ss ss', inner us dt ss = .ok ss' → ss'.sol.t = ss.sol.t ∧ ss'.sol.n = ss.sol.n

@[simp] lemma smartAxpy_t (s : Sol K) (a : K) (x : Arr K) : (s.smartAxpy a x).t = s.t := by
  unfold Sol.smartAxpy; split <;> rfl
@[simp] lemma smartAxpy_n (s : Sol K) (a : K) (x : Arr K) : (s.smartAxpy a x).n = s.n := by
  unfold Sol.smartAxpy; split <;> rfl

omit [Field K] [LinearOrder K] in
@[simp] lemma applyBc_t (s : Sol K) : s.applyBc.t = s.t := by
  unfold Sol.applyBc Sol.applyBcRight Sol.applyBcLeft; split_ifs <;> rfl
omit [Field K] [LinearOrder K] in
@[simp] lemma applyBc_n (s : Sol K) : s.applyBc.n = s.n := by
  unfold Sol.applyBc Sol.applyBcRight Sol.applyBcLeft; split_ifs <;> rfl

lemma classicStage_clock {env : Env K} {tab us dt k c alpha} {st st' : StageState K}
    (h : classicStage env tab us dt k c alpha st = .ok st') :
    st'.sol.t = st.sol.t ∧ st'.sol.n = st.sol.n := by
  unfold classicStage at h
  simp only at h
  split at h
  · cases h
  · split at h
    · cases h
    · cases h; simp

lemma classicStages_clock {env : Env K} {tab us dt} (l : List (K × K)) :
    ∀ {k} {st st' : StageState K}, classicStages env tab us dt k l st = .ok st' →
    st'.sol.t = st.sol.t ∧ st'.sol.n = st.sol.n := by
  induction l with
  | nil => intro k st st' h; cases h; simp
  | cons a l ih =>
    obtain ⟨c, alpha⟩ := a
    intro k st st' h
    unfold classicStages at h
    split at h
    · cases h
    · rename_i heq
      have := ih h
      have h2 := classicStage_clock heq
      exact ⟨this.1.trans h2.1, this.2.trans h2.2⟩

lemma lowStage_clock {env : Env K} {us dt k b g} {st st' : StageState K}
    (h : lowStage env us dt k b g st = .ok st') :
    st'.sol.t = st.sol.t ∧ st'.sol.n = st.sol.n := by
  unfold lowStage at h
  simp only at h
  split at h
  · cases h
  · split at h
    · cases h
    · cases h; simp

lemma lowStages_clock {env : Env K} {us dt} (l : List (K × K)) :
    ∀ {k} {st st' : StageState K}, lowStages env us dt k l st = .ok st' →
    st'.sol.t = st.sol.t ∧ st'.sol.n = st.sol.n := by
  induction l with
  | nil => intro k st st' h; cases h; simp
  | cons a l ih =>
    obtain ⟨c, alpha⟩ := a
    intro k st st' h
    unfold lowStages at h
    split at h
    · cases h
    · rename_i heq
      have := ih h
      have h2 := lowStage_clock heq
      exact ⟨this.1.trans h2.1, this.2.trans h2.2⟩

lemma Scheme.inner_keepsClock (env : Env K) (sch : Scheme K) : InnerKeepsClock (sch.inner env) := by
  intro us dt ss ss' h
  cases sch with
  | low => exact lowStages_clock _ h
  | classic tab => exact classicStages_clock _ h

/-- The state the output phase starts from: everything but `sol` as at the loop head. -/
def SameSchedule (a b : LoopState K) : Prop :=
  a.nout = b.nout ∧ a.tout = b.tout ∧ a.touts = b.touts ∧ a.status = b.status ∧ a.log = b.log

lemma loopBody_cases {env : Env K} {deck : RkDeck K} {inner : Inner K} (hk : env.KeepsClock)
    (hi : InnerKeepsClock inner) {st : LoopState K} (h : st.status = .running) :
    (∃ e, (loopBody env deck inner st).status = .failed e ∧ (loopBody env deck inner st).log = st.log ∧
      ((loopBody env deck inner st).sol = st.sol ∨
        ∃ dt o d, getNextTimeStep st.sol st.tout deck.cfl deck.finaltime = .ok (dt, o, d) ∧
          (loopBody env deck inner st).sol.t = st.sol.t + dt ∧
          (loopBody env deck inner st).sol.n = st.sol.n + 1)) ∨
    (∃ dt o d st1 sol', getNextTimeStep st.sol st.tout deck.cfl deck.finaltime = .ok (dt, o, d) ∧
      SameSchedule st1 st ∧ sol'.t = st.sol.t + dt ∧ sol'.n = st.sol.n + 1 ∧
      loopBody env deck inner st = outputPhase st1 sol' dt o d) := by
  unfold loopBody
  rw [h]
  simp only
  split
  · rename_i e heq
    left; exact ⟨e, rfl, rfl, Or.inl rfl⟩
  · rename_i dt o d heq
    split
    · rename_i e heq2
      left; exact ⟨e, rfl, rfl, Or.inl rfl⟩
    · rename_i ss heq2
      have hc := hi _ _ _ _ heq2
      simp only at hc
      split
      · rename_i e heq3
        left
        refine ⟨e, rfl, rfl, Or.inr ⟨dt, o, d, heq, ?_, ?_⟩⟩
        · simp [hc.1]
        · simp [hc.2]
      · rename_i sol' heq3
        have hl := hk _ _ heq3
        right
        refine ⟨dt, o, d, _, sol', heq, ?_, ?_, ?_, rfl⟩
        · exact ⟨rfl, rfl, rfl, h.symm, rfl⟩
        · rw [hl.1]; simp [hc.1]
        · rw [hl.2]; simp [hc.2]

lemma loopBody_stopped {env : Env K} {deck : RkDeck K} {inner : Inner K} {st : LoopState K}
    (h : st.status ≠ .running) : loopBody env deck inner st = st := by
  unfold loopBody
  split
  · contradiction
  · rfl

lemma getNext_cases {s : Sol K} {tout cfl tf dt : K} {o d : Bool}
    (h : getNextTimeStep s tout cfl tf = .ok (dt, o, d)) :
    (o = true ∧ d = true ∧ dt = tf - s.t) ∨
    (o = true ∧ d = false ∧ dt = tout - s.t ∧ ∃ x, 1 / 10 ^ 14 ≤ x ∧ x ≤ tf - s.t ∧ tout - s.t < x ∧
      cflTimeStep s cfl = .ok (.fin x)) ∨
    (o = false ∧ d = false ∧ 1 / 10 ^ 14 ≤ dt ∧ dt ≤ tf - s.t ∧ dt ≤ tout - s.t ∧
      cflTimeStep s cfl = .ok (.fin dt)) := by
  unfold getNextTimeStep at h
  split at h
  · cases h
  · rename_i dt' heq
    split at h
    · cases h
    · rename_i heq2
      split at h
      · rename_i x
        simp only [sanityCheckDt] at heq2
        split at heq2
        · cases heq2
        · rename_i hx
          rw [not_lt] at hx
          unfold adjustForOutput at h
          split_ifs at h with h1 h2
          · cases h; left; exact ⟨rfl, rfl, rfl⟩
          · cases h; right; left
            exact ⟨rfl, rfl, rfl, x, hx, not_lt.mp h1, h2, heq⟩
          · cases h; right; right
            exact ⟨rfl, rfl, hx, not_lt.mp h1, not_lt.mp h2, heq⟩
      · cases h; left; exact ⟨rfl, rfl, rfl⟩

/-- The requested output times `t0 + i (tf-t0)/(N-1)`. -/
def outTime (t0 tf : K) (N i : ℕ) : K := t0 + (i : K) * ((tf - t0) / ((N - 1 : ℕ) : K))

section
variable [IsStrictOrderedRing K]

lemma linspace_val (t0 tf : K) {N i : ℕ} (h : 2 ≤ N) :
    (linspace t0 tf N).val i = outTime t0 tf N i := by
  unfold linspace outTime
  simp only
  split_ifs with hi
  · have : ((N - 1 : ℕ) : K) ≠ 0 := by exact_mod_cast (by omega : N - 1 ≠ 0)
    rw [hi.1]; field_simp; ring
  · rfl

lemma outTime_last (t0 tf : K) {N : ℕ} (h : 2 ≤ N) : outTime t0 tf N (N - 1) = tf := by
  have : ((N - 1 : ℕ) : K) ≠ 0 := by exact_mod_cast (by omega : N - 1 ≠ 0)
  unfold outTime; field_simp; ring

omit [LinearOrder K] [IsStrictOrderedRing K] in
@[simp] lemma outTime_zero (t0 tf : K) (N : ℕ) : outTime t0 tf N 0 = t0 := by simp [outTime]

lemma outTime_mono {t0 tf : K} (N : ℕ) (h : t0 ≤ tf) {i j : ℕ} (hij : i ≤ j) :
    outTime t0 tf N i ≤ outTime t0 tf N j := by
  unfold outTime
  have h1 : (0 : K) ≤ (tf - t0) / ((N - 1 : ℕ) : K) := div_nonneg (by linarith) (Nat.cast_nonneg _)
  have h2 : (i : K) ≤ j := by exact_mod_cast hij
  nlinarith [mul_le_mul_of_nonneg_right h2 h1]

/-- Numbering invariant: no assumption on the times at all. -/
structure NumInv (sol0 : Sol K) (st : LoopState K) : Prop where
  run : st.status = .running → st.log.length = st.nout
  nums : st.log.map (·.nout) = List.range st.log.length
  head : ∃ l, st.log = ⟨0, 0, sol0⟩ :: l
  ns : (st.log.map (·.sol.n)).Pairwise (· ≤ ·)
  last : ∀ r ∈ st.log, r.sol.n ≤ st.sol.n

omit [LinearOrder K] [IsStrictOrderedRing K] in
lemma NumInv.init (deck : RkDeck K) (sol0 : Sol K) : NumInv sol0 (initLoop deck sol0) := by
  unfold initLoop
  simp only
  split
  · constructor <;> simp
  · constructor <;> simp

omit [IsStrictOrderedRing K] in
lemma NumInv.step {env : Env K} {deck : RkDeck K} {inner : Inner K} (hk : env.KeepsClock)
    (hi : InnerKeepsClock inner) {sol0 : Sol K} {st : LoopState K} (h : NumInv sol0 st) :
    NumInv sol0 (loopBody env deck inner st) := by
  by_cases hr : st.status = .running
  swap
  · rw [loopBody_stopped hr]; exact h
  rcases loopBody_cases (deck := deck) hk hi hr with ⟨e, hs, hl, hsol⟩ | ⟨dt, o, d, st1, sol', hn, hsame, ht, hnn, heq⟩
  · refine ⟨by simp [hs], by rw [hl]; exact h.nums, by rw [hl]; exact h.head, by rw [hl]; exact h.ns, ?_⟩
    rw [hl]
    intro r hrm
    have := h.last r hrm
    rcases hsol with hsol | ⟨_, _, _, _, _, hsn⟩
    · rw [hsol]; exact this
    · rw [hsn]; omega
  · rw [heq]
    obtain ⟨h1, h2, h3, h4, h5⟩ := hsame
    have hlen := h.run hr
    obtain ⟨l, hl⟩ := h.head
    have key : ∀ st' : LoopState K, st'.log = st.log ++ [⟨st.nout, dt, sol'⟩] → st'.sol = sol' →
        (st'.status = .running → st'.nout = st.nout + 1) → NumInv sol0 st' := by
      intro st' hlog hsol hno
      refine ⟨?_, ?_, ?_, ?_, ?_⟩
      · intro hs; rw [hlog, hno hs]; simp [hlen]
      · rw [hlog]; simp [h.nums, List.range_succ, hlen]
      · exact ⟨l ++ [⟨st.nout, dt, sol'⟩], by rw [hlog, hl]; rfl⟩
      · rw [hlog]; simp only [List.map_append, List.map_cons, List.map_nil]
        rw [List.pairwise_append]
        refine ⟨h.ns, by simp, ?_⟩
        intro a ha b hb
        simp only [List.mem_singleton] at hb
        subst hb
        obtain ⟨r, hrm, rfl⟩ := List.mem_map.mp ha
        have := h.last r hrm; omega
      · rw [hlog, hsol]
        intro r hrm
        rcases List.mem_append.mp hrm with hrm | hrm
        · have := h.last r hrm; omega
        · simp only [List.mem_singleton] at hrm; subst hrm; exact le_rfl
    unfold outputPhase
    split_ifs with ho hd
    · apply key <;> simp [h5, h1]
    · split
      · apply key <;> simp [h5, h1]
      · apply key <;> simp [h5, h1]
    · refine ⟨?_, ?_, ?_, ?_, ?_⟩
      · intro _; simp [h5, h1, hlen]
      · simp only [h5]; exact h.nums
      · simp only [h5]; exact h.head
      · simp only [h5]; exact h.ns
      · simp only [h5]; intro r hrm; have := h.last r hrm; omega

/-- Time invariant, for a start time not after the final time. -/
structure TimeInv (sol0 : Sol K) (tf : K) (N : ℕ) (st : LoopState K) : Prop where
  lo : sol0.t ≤ st.sol.t
  hi : st.sol.t ≤ tf
  fin : st.status = .done → st.sol.t = tf
  run : st.status = .running → 1 ≤ st.nout ∧ st.nout + 1 ≤ N ∧ st.tout = outTime sol0.t tf N st.nout ∧
    st.touts = (List.range' (st.nout + 1) (N - 1 - st.nout)).map (outTime sol0.t tf N) ∧
    st.sol.t ≤ st.tout ∧ outTime sol0.t tf N (st.nout - 1) ≤ st.sol.t
  times : (st.log.map (·.sol.t)).Pairwise (· ≤ ·)
  last : ∀ r ∈ st.log, r.sol.t ≤ st.sol.t
  outT : ∀ r ∈ st.log, r.sol.t = outTime sol0.t tf N r.nout ∨
    (st.status = .done ∧ st.log.getLast? = some r ∧ r.sol.t = tf)

lemma touts_init (t0 tf : K) {N : ℕ} (h : 2 ≤ N) :
    ((List.range N).map (linspace t0 tf N).val).tail =
      (List.range' 1 (N - 1)).map (outTime t0 tf N) := by
  have : (linspace t0 tf N).val = outTime t0 tf N := funext fun i => linspace_val t0 tf h
  rw [this, ← List.map_tail, List.range_eq_range', List.tail_range']

lemma TimeInv.init (deck : RkDeck K) (sol0 : Sol K) (h0 : sol0.t ≤ deck.finaltime) :
    TimeInv sol0 deck.finaltime deck.nout (initLoop deck sol0) := by
  unfold initLoop
  simp only
  split
  · constructor <;> simp [h0]
  · rename_i tout rest heq
    have hN : 2 ≤ deck.nout := by
      by_contra hc
      have : deck.nout = 0 ∨ deck.nout = 1 := by omega
      rcases this with h | h <;> rw [h] at heq <;> simp [List.range_succ] at heq
    rw [touts_init _ _ hN] at heq
    obtain ⟨m, hm⟩ : ∃ m, deck.nout - 1 = m + 1 := ⟨deck.nout - 2, by omega⟩
    rw [hm, List.range'_succ] at heq
    simp only [List.map_cons, List.cons.injEq] at heq
    obtain ⟨rfl, rfl⟩ := heq
    refine ⟨?_, h0, ?_, ?_, ?_, ?_, ?_⟩ <;> simp
    refine ⟨by omega, ?_, ?_⟩
    · rw [hm]; simp
    · have := outTime_mono deck.nout h0 (Nat.zero_le 1)
      rwa [outTime_zero] at this

lemma TimeInv.step {env : Env K} {deck : RkDeck K} {inner : Inner K} (hk : env.KeepsClock)
    (hi : InnerKeepsClock inner) {sol0 : Sol K} {st : LoopState K} (h0 : sol0.t ≤ deck.finaltime)
    (h : TimeInv sol0 deck.finaltime deck.nout st) (hnum : NumInv sol0 st) :
    TimeInv sol0 deck.finaltime deck.nout (loopBody env deck inner st) ∧
      st.sol.t ≤ (loopBody env deck inner st).sol.t := by
  by_cases hr : st.status = .running
  swap
  · rw [loopBody_stopped hr]; exact ⟨h, le_rfl⟩
  obtain ⟨r1, r2, r3, r4, r5, r6⟩ := h.run hr
  have hN : 2 ≤ deck.nout := by omega
  -- facts about a computed step
  have hdt : ∀ dt o d, getNextTimeStep st.sol st.tout deck.cfl deck.finaltime = .ok (dt, o, d) →
      0 ≤ dt ∧ st.sol.t + dt ≤ deck.finaltime := by
    intro dt o d hn
    have htl : st.tout ≤ deck.finaltime := by
      have := outTime_mono deck.nout h0 (i := st.nout) (j := deck.nout - 1) (by omega)
      rw [outTime_last _ _ hN] at this; rw [r3]; exact this
    have h14 : (0 : K) < 1 / 10 ^ 14 := by positivity
    have hhi := h.hi
    rcases getNext_cases hn with ⟨_, _, e⟩ | ⟨_, _, e, _⟩ | ⟨_, _, a, b, c, _⟩
    · subst e; constructor <;> linarith
    · subst e; constructor <;> linarith
    · constructor <;> linarith
  rcases loopBody_cases (deck := deck) hk hi hr with ⟨e, hs, hl, hsol⟩ | ⟨dt, o, d, st1, sol', hn, hsame, ht, hnn, heq⟩
  · have ht : st.sol.t ≤ (loopBody env deck inner st).sol.t ∧
        (loopBody env deck inner st).sol.t ≤ deck.finaltime := by
      rcases hsol with hsol | ⟨dt, o, d, hn, hsn, _⟩
      · rw [hsol]; exact ⟨le_rfl, h.hi⟩
      · have := hdt dt o d hn
        rw [hsn]; exact ⟨by linarith [this.1], this.2⟩
    refine ⟨⟨h.lo.trans ht.1, ht.2, by simp [hs], by simp [hs], by rw [hl]; exact h.times, ?_, ?_⟩, ht.1⟩
    · rw [hl]; intro r hrm; exact (h.last r hrm).trans ht.1
    · rw [hl]; intro r hrm
      rcases h.outT r hrm with h1 | h1
      · exact Or.inl h1
      · simp [hr] at h1
  · rw [heq]
    obtain ⟨h1, h2, h3, h4, h5⟩ := hsame
    have hd2 := hdt dt o d hn
    have hlen := hnum.run hr
    have hpw : ((st.log ++ [(⟨st.nout, dt, sol'⟩ : OutRec K)]).map (fun r => r.sol.t)).Pairwise (· ≤ ·) := by
      simp only [List.map_append, List.map_cons, List.map_nil]
      rw [List.pairwise_append]
      refine ⟨h.times, by simp, ?_⟩
      intro a ha b hb
      simp only [List.mem_singleton] at hb
      subst hb
      obtain ⟨r, hrm, rfl⟩ := List.mem_map.mp ha
      have := h.last r hrm
      rw [ht]; linarith [hd2.1]
    have hla : ∀ r ∈ st.log ++ [(⟨st.nout, dt, sol'⟩ : OutRec K)], r.sol.t ≤ sol'.t := by
      intro r hrm
      rcases List.mem_append.mp hrm with hrm | hrm
      · have := h.last r hrm; rw [ht]; linarith [hd2.1]
      · simp only [List.mem_singleton] at hrm; subst hrm; exact le_rfl
    have hold : ∀ r ∈ st.log, r.sol.t = outTime sol0.t deck.finaltime deck.nout r.nout := by
      intro r hrm
      rcases h.outT r hrm with h1 | h1
      · exact h1
      · simp [hr] at h1
    have hlo : sol0.t ≤ sol'.t := by rw [ht]; linarith [h.lo, hd2.1]
    have hhi : sol'.t ≤ deck.finaltime := by rw [ht]; exact hd2.2
    rcases getNext_cases hn with ⟨ho, hd, e⟩ | ⟨ho, hd, e, x, x1, x2, x3, _⟩ | ⟨ho, hd, a, b, c, _⟩
    · subst ho hd
      have htf : sol'.t = deck.finaltime := by rw [ht, e]; ring
      simp only [outputPhase, if_true, h5, h1]
      refine ⟨⟨hlo, hhi, fun _ => htf, by simp, hpw, hla, ?_⟩, by show st.sol.t ≤ sol'.t; rw [ht]; linarith [hd2.1]⟩
      intro r hrm
      rcases List.mem_append.mp hrm with hrm | hrm
      · left; exact hold r hrm
      · right
        simp only [List.mem_singleton] at hrm; subst hrm
        exact ⟨rfl, by simp, htf⟩
    · subst ho hd
      have hto : sol'.t = st.tout := by rw [ht, e]; ring
      -- not the last requested time
      have hlt : st.nout < deck.nout - 1 := by
        by_contra hc
        have hE : st.nout = deck.nout - 1 := by omega
        rw [hE, outTime_last _ _ hN] at r3
        rw [r3] at x3; linarith
      obtain ⟨m, hm⟩ : ∃ m, deck.nout - 1 - st.nout = m + 1 := ⟨deck.nout - 2 - st.nout, by omega⟩
      rw [hm, List.range'_succ, List.map_cons] at r4
      simp only [outputPhase, if_true, Bool.false_eq_true, if_false, h5, h1, h3, r4]
      have hstat : st1.status = .running := by rw [h4, hr]
      refine ⟨⟨hlo, hhi, by simp [hstat], ?_, hpw, hla, ?_⟩, by show st.sol.t ≤ sol'.t; rw [ht]; linarith [hd2.1]⟩
      · intro _
        simp only
        refine ⟨by omega, by omega, trivial, ?_, ?_, ?_⟩
        · congr 2; omega
        · rw [hto, r3]; exact outTime_mono _ h0 (by omega)
        · rw [Nat.add_sub_cancel, hto, r3]
      · intro r hrm
        rcases List.mem_append.mp hrm with hrm | hrm
        · left; exact hold r hrm
        · simp only [List.mem_singleton] at hrm; subst hrm
          left; simp only; rw [hto, r3]
    · subst ho hd
      simp only [outputPhase]
      have hstat : st1.status = .running := by rw [h4, hr]
      refine ⟨⟨hlo, hhi, by simp [hstat], ?_, ?_, ?_, ?_⟩, by simp; rw [ht]; linarith [hd2.1]⟩
      · intro _
        simp only [Bool.false_eq_true, if_false]
        rw [h1, h2, h3]
        refine ⟨r1, r2, r3, r4, ?_, ?_⟩
        · rw [ht]; linarith
        · rw [ht]; linarith [hd2.1]
      · simp only [Bool.false_eq_true, if_false, h5]; exact h.times
      · simp only [Bool.false_eq_true, if_false, h5]; intro r hrm
        rw [ht]; linarith [h.last r hrm, hd2.1]
      · simp only [Bool.false_eq_true, if_false, h5]; intro r hrm
        left; exact hold r hrm

end
end Dg1d

namespace Dg1d
variable {K : Type*} [Field K] [LinearOrder K]

lemma done_time_step {env : Env K} {deck : RkDeck K} {inner : Inner K} (hk : env.KeepsClock)
    (hi : InnerKeepsClock inner) {st : LoopState K}
    (h : st.status = .done → st.sol.t = deck.finaltime) :
    (loopBody env deck inner st).status = .done →
      (loopBody env deck inner st).sol.t = deck.finaltime := by
  by_cases hr : st.status = .running
  swap
  · rw [loopBody_stopped hr]; exact h
  rcases loopBody_cases (deck := deck) hk hi hr with ⟨e, hs, _⟩ | ⟨dt, o, d, st1, sol', hn, hsame, ht, hnn, heq⟩
  · simp [hs]
  · rw [heq]
    obtain ⟨h1, h2, h3, h4, h5⟩ := hsame
    rcases getNext_cases hn with ⟨ho, hd, e⟩ | ⟨ho, hd, _⟩ | ⟨ho, hd, _⟩
    · subst ho hd; intro _; simp only [outputPhase, if_true]; rw [ht, e]; ring
    · subst ho hd; simp only [outputPhase, if_true, Bool.false_eq_true, if_false]
      split <;> simp [h4, hr]
    · subst ho hd; simp [outputPhase, h4, hr]

lemma log_prefix_step {env : Env K} {deck : RkDeck K} {inner : Inner K} (st : LoopState K) :
    st.log <+: (loopBody env deck inner st).log := by
  unfold loopBody
  simp only
  split
  · split
    · exact List.prefix_rfl
    · split
      · exact List.prefix_rfl
      · split
        · exact List.prefix_rfl
        · unfold outputPhase
          simp only
          split_ifs
          · exact List.prefix_append _ _
          · split <;> exact List.prefix_append _ _
          · exact List.prefix_rfl
  · exact List.prefix_rfl

lemma runLoop_succ (env : Env K) (deck : RkDeck K) (inner : Inner K) (sol : Sol K) (k : ℕ) :
    runLoop env deck inner sol (k + 1) = loopBody env deck inner (runLoop env deck inner sol k) := by
  unfold runLoop; rw [Function.iterate_succ_apply']

omit [LinearOrder K] in
lemma init_status_ne_done (deck : RkDeck K) (sol : Sol K) : (initLoop deck sol).status ≠ .done := by
  unfold initLoop; simp only; split <;> simp

lemma numInv_run {env : Env K} (hk : env.KeepsClock) (sch : Scheme K) (deck : RkDeck K) (sol : Sol K)
    (k : ℕ) : NumInv sol (sch.run env deck sol k) := by
  induction k with
  | zero => exact NumInv.init deck sol
  | succ k ih =>
    unfold Scheme.run at *
    rw [runLoop_succ]
    exact NumInv.step hk (sch.inner_keepsClock env) ih

lemma timeInv_run [IsStrictOrderedRing K] {env : Env K} (hk : env.KeepsClock) (sch : Scheme K)
    (deck : RkDeck K) (sol : Sol K) (h0 : sol.t ≤ deck.finaltime)
    (k : ℕ) : TimeInv sol deck.finaltime deck.nout (sch.run env deck sol k) := by
  induction k with
  | zero => exact TimeInv.init deck sol h0
  | succ k ih =>
    have hnum := numInv_run hk sch deck sol k
    unfold Scheme.run at *
    rw [runLoop_succ]
    exact (TimeInv.step hk (sch.inner_keepsClock env) h0 ih hnum).1

lemma time_mono_run [IsStrictOrderedRing K] {env : Env K} (hk : env.KeepsClock) (sch : Scheme K)
    (deck : RkDeck K) (sol : Sol K) (h0 : sol.t ≤ deck.finaltime) (k : ℕ) :
    (sch.run env deck sol k).sol.t ≤ (sch.run env deck sol (k + 1)).sol.t := by
  have h := timeInv_run hk sch deck sol h0 k
  have hnum := numInv_run hk sch deck sol k
  unfold Scheme.run at *
  rw [runLoop_succ]
  exact (TimeInv.step hk (sch.inner_keepsClock env) h0 h hnum).2

/-- Each step that writes no output advances the clock by at least 1e-14. -/
lemma step_budget [IsStrictOrderedRing K] {env : Env K} (hk : env.KeepsClock) (sch : Scheme K)
    (deck : RkDeck K) (sol : Sol K) (h0 : sol.t ≤ deck.finaltime) (k : ℕ)
    (hr : (sch.run env deck sol k).status = .running) :
    ((k : K) - ((sch.run env deck sol k).nout - 1)) * (1 / 10 ^ 14) ≤
      (sch.run env deck sol k).sol.t - sol.t := by
  induction k with
  | zero =>
    have := (timeInv_run hk sch deck sol h0 0)
    have h1 := (this.run hr).1
    have h2 := this.lo
    have h3 : (1 : K) ≤ (sch.run env deck sol 0).nout := by exact_mod_cast h1
    have h14 : (0 : K) < 1 / 10 ^ 14 := by positivity
    push_cast
    nlinarith
  | succ k ih =>
    have hinv := timeInv_run hk sch deck sol h0 k
    have hmono := time_mono_run hk sch deck sol h0 k
    have hr0 : (sch.run env deck sol k).status = .running := by
      by_contra hc
      have : sch.run env deck sol (k + 1) = sch.run env deck sol k := by
        unfold Scheme.run at *; rw [runLoop_succ, loopBody_stopped hc]
      rw [this] at hr; exact hc hr
    have ih := ih hr0
    have hE : sch.run env deck sol (k + 1) = loopBody env deck (sch.inner env) (sch.run env deck sol k) := by
      unfold Scheme.run; rw [runLoop_succ]
    rcases loopBody_cases (deck := deck) hk (sch.inner_keepsClock env) hr0 with
      ⟨e, hs, _⟩ | ⟨dt, o, d, st1, sol', hn, hsame, ht, hnn, heq⟩
    · rw [hE, hs] at hr; simp at hr
    · have hE' := hE
      rw [heq] at hE
      obtain ⟨h1, h2, h3, h4, h5⟩ := hsame
      have h14 : (0 : K) < 1 / 10 ^ 14 := by positivity
      rcases getNext_cases hn with ⟨ho, hd, e⟩ | ⟨ho, hd, e, x, x1, x2, x3, _⟩ | ⟨ho, hd, a, b, c, _⟩
      · subst ho hd
        rw [hE] at hr
        simp [outputPhase] at hr
      · subst ho hd
        rw [hE] at hr hmono ⊢
        simp only [outputPhase, if_true, Bool.false_eq_true, if_false] at hr hmono ⊢
        split at hr
        · simp at hr
        · rename_i heqt
          simp only [heqt] at hmono ⊢
          rw [h1]
          push_cast
          nlinarith
      · subst ho hd
        rw [hE]
        simp only [outputPhase, Bool.false_eq_true, if_false]
        rw [h1, ht]
        push_cast
        nlinarith

end Dg1d
