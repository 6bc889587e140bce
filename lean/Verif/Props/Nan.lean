import Verif.Proofs.NanRun
import Verif.Props.RunsLimited
import Verif.Props.Contact
import Verif.Props.EntropyWave

/-!
# C106 — a gas that leaves the states with real sound speed

numpy computes NaN there and goes on. Compared are the run of the model, which stops with `notReal` at that place, and the run with
NaN of `Model/Nan.lean`.
-/

open Dg1d.Spec

namespace Dg1d.Props
open Text

/-- No number of the array is NaN. -/
def NanFree (u : Arr Nan.Num) : Prop := ∀ r < u.rows, ∀ c < u.cols, u.val r c ≠ .nan

/-- Both arrays have the same shape and hold the same numbers, none of them NaN. -/
def SameNumbers (u : Arr Nan.Num) (v : Arr ℝ) : Prop :=
  u.rows = v.rows ∧ u.cols = v.cols ∧ ∀ r < u.rows, ∀ c < u.cols, u.val r c = .num (v.val r c)

/-- Some conserved quantity of some interior cell has the average NaN. -/
def NanAverage (s : Sol ℝ) (u : Arr Nan.Num) : Prop := ∃ e, 1 ≤ e ∧ e ≤ s.NE ∧ ∃ f < 3, u.val 0 (e * 3 + f) = .nan

/-- An Euler solution of the constructor without enhancement whose Riemann solver is not 'godunov'. -/
structure GasStart (γ : ℝ) (riemann : Str) (lib : GaussLib ℝ) (p : ℕ) (s : Sol ℝ) : Prop where
  built : s.Built lib p
  physics : CodePhysics γ "euler".toList riemann s
  solver : riemann ≠ "godunov".toList
  enh : s.enhance = none
  bc : s.BcKnown

variable {γ : ℝ} {riemann : Str} {s : Sol ℝ} {lib : GaussLib ℝ} {p : ℕ}

lemma GasStart.ready (h : GasStart γ riemann lib p s) : Nan.Ready γ (String.ofList riemann) s where
  wf := h.built.wf
  NF := (h.physics.euler rfl).2
  kw := (h.physics.euler rfl).1
  solver := by
    intro he
    exact h.solver (by rw [← he]; simp)
  enh := h.enh
  bcl := h.bc.1
  bcr := h.bc.2
  pts := by rw [h.built.ng]; omega
  ns := by rw [h.built.ns]; omega

lemma same_numbers {u : Arr Nan.Num} {v : Arr ℝ} (h : Nan.Same u v) : SameNumbers u v :=
  ⟨h.rows, h.cols, fun r hr c hc => h.val r (by rw [← h.rows]; exact hr) c (by rw [← h.cols]; exact hc)⟩

lemma same_free {u : Arr Nan.Num} {v : Arr ℝ} (h : Nan.Same u v) : NanFree u := by
  intro r hr c hc
  rw [h.val r (by rw [← h.rows]; exact hr) c (by rw [← h.cols]; exact hc)]
  simp

lemma same_log {l : List Nan.OutRec} {m : List (OutRec ℝ)} (h : List.Forall₂ Nan.SameOut l m) : ∀ o ∈ l, NanFree o.u := by
  induction h with
  | nil => simp
  | cons hab _ ih =>
    intro o ho
    rcases List.mem_cons.1 ho with rfl | ho
    · exact same_free hab.u
    · exact ih o ho

/-- The run of the model with the limiter `limM`, stopped with `notReal` where numpy computes NaN. -/
noncomputable abbrev modelRunWith (limM : Sol ℝ → Except PyErr (Sol ℝ)) (s : Sol ℝ) (deck : RkDeck ℝ) (k : ℕ) : LoopState ℝ :=
  integrate ⟨Euler.checkedResidual, limM⟩ deck s k

/-- The run with NaN and the limiter `lim`. -/
noncomputable abbrev nanRunWith (γ : ℝ) (riemann : Str) (lim : Arr Nan.Num → Arr Nan.Num) (s : Sol ℝ) (deck : RkDeck ℝ) (k : ℕ) : Nan.Loop :=
  Nan.run γ (String.ofList riemann) lim s deck k

/-- The run of the model without limiter. -/
noncomputable abbrev modelRun (s : Sol ℝ) (deck : RkDeck ℝ) (k : ℕ) : LoopState ℝ := modelRunWith (Limiter.limit none) s deck k

/-- The run with NaN and without limiter. -/
noncomputable abbrev nanRun (γ : ℝ) (riemann : Str) (s : Sol ℝ) (deck : RkDeck ℝ) (k : ℕ) : Nan.Loop := nanRunWith γ riemann id s deck k

variable {lim : Arr Nan.Num → Arr Nan.Num} {limM : Sol ℝ → Except PyErr (Sol ℝ)}

lemma modelRunWith_succ (limM : Sol ℝ → Except PyErr (Sol ℝ)) (s : Sol ℝ) (deck : RkDeck ℝ) (k : ℕ) :
    modelRunWith limM s deck (k + 1) = loopBody (Nan.env limM) deck ((schemeFor deck.rk).inner (Nan.env limM)) (modelRunWith limM s deck k) :=
  runLoop_succ (Nan.env limM) deck ((schemeFor deck.rk).inner (Nan.env limM)) s k

lemma nanRunWith_succ (γ : ℝ) (riemann : Str) (lim : Arr Nan.Num → Arr Nan.Num) (s : Sol ℝ) (deck : RkDeck ℝ) (k : ℕ) :
    nanRunWith γ riemann lim s deck (k + 1) = Nan.loopBody γ (String.ofList riemann) lim s deck (nanRunWith γ riemann lim s deck k) := by
  unfold nanRunWith Nan.run; rw [Function.iterate_succ_apply']

lemma modelRun_succ (s : Sol ℝ) (deck : RkDeck ℝ) (k : ℕ) : modelRun s deck (k + 1) =
    loopBody (Nan.env (Limiter.limit none)) deck ((schemeFor deck.rk).inner (Nan.env (Limiter.limit none))) (modelRun s deck k) :=
  modelRunWith_succ _ s deck k

lemma nanRun_succ (γ : ℝ) (riemann : Str) (s : Sol ℝ) (deck : RkDeck ℝ) (k : ℕ) :
    nanRun γ riemann s deck (k + 1) = Nan.loopBody γ (String.ofList riemann) id s deck (nanRun γ riemann s deck k) :=
  nanRunWith_succ γ riemann id s deck k

/-- The two runs agree, or the model has stopped and the data of the other hold NaN; only its last output can. -/
lemma runs (h : GasStart γ riemann lib p s) (H : Nan.LimOk s lim limM) (deck : RkDeck ℝ) (k : ℕ) :
    (Nan.LoopSame s (nanRunWith γ riemann lim s deck k) (modelRunWith limM s deck k) ∧ (modelRunWith limM s deck k).status ≠ .failed .notReal) ∨
    ((modelRunWith limM s deck k).status = .failed .notReal ∧ (nanRunWith γ riemann lim s deck k).u.cols = (s.NE + 2) * 3 ∧
      (∃ e, Nan.BadCell s (nanRunWith γ riemann lim s deck k).u e) ∧
      ∃ pre : List Nan.OutRec, (∀ o ∈ pre, NanFree o.u) ∧
        ((nanRunWith γ riemann lim s deck k).log = pre ∨ ∃ o, (nanRunWith γ riemann lim s deck k).log = pre ++ [o])) := by
  induction k with
  | zero =>
    left
    refine ⟨Nan.init_same deck s, ?_⟩
    show (initLoop deck s).status ≠ _
    unfold initLoop
    simp only
    split <;> simp
  | succ k ih =>
    rw [modelRunWith_succ, nanRunWith_succ]
    rcases ih with ⟨h1, h2⟩ | ⟨h1, h2, ⟨e, he⟩, h4⟩
    · rcases Nan.body_same h.ready H deck h1 with ⟨h3, h4⟩ | ⟨h3, h4, h5, h6, h7, h8⟩
      · left
        refine ⟨h3, ?_⟩
        by_cases hr : (modelRunWith limM s deck k).status = .running
        · exact h4 hr
        · rw [loopBody_stopped hr]; exact h2
      · right
        have hpre : ∀ o ∈ (nanRunWith γ riemann lim s deck k).log, NanFree o.u :=
          same_log h1.log
        refine ⟨h4, h6, h7, _, hpre, ?_⟩
        rcases h8.log with h8 | ⟨_, _, h8⟩
        · exact .inl h8
        · exact .inr ⟨_, h8⟩
    · right
      have hstop : loopBody (Nan.env limM) deck ((schemeFor deck.rk).inner (Nan.env limM)) (modelRunWith limM s deck k) = modelRunWith limM s deck k :=
        loopBody_stopped (by rw [h1]; simp)
      rw [hstop]
      refine ⟨h1, ?_⟩
      unfold Nan.loopBody
      cases hst : (nanRunWith γ riemann lim s deck k).status with
      | done => exact ⟨h2, ⟨e, he⟩, h4⟩
      | failed e' => exact ⟨h2, ⟨e, he⟩, h4⟩
      | running =>
        simp only
        rw [Nan.nextStep_bad h2 he]
        exact ⟨h2, ⟨e, he⟩, h4⟩

lemma run_real (h : GasStart γ riemann lib p s) (H : Nan.LimOk s lim limM) (deck : RkDeck ℝ) (k : ℕ) (hk : (modelRunWith limM s deck k).status ≠ .failed .notReal) :
    (nanRunWith γ riemann lim s deck k).status = (modelRunWith limM s deck k).status ∧
    (nanRunWith γ riemann lim s deck k).t = (modelRunWith limM s deck k).sol.t ∧
    SameNumbers (nanRunWith γ riemann lim s deck k).u (modelRunWith limM s deck k).sol.u ∧
    List.Forall₂ (fun a b => a.nout = b.nout ∧ a.dt = b.dt ∧ a.t = b.sol.t ∧ a.n = b.sol.n ∧ SameNumbers a.u b.sol.u)
      (nanRunWith γ riemann lim s deck k).log (modelRunWith limM s deck k).log := by
  rcases runs h H deck k with ⟨h1, -⟩ | ⟨h1, -⟩
  · exact ⟨h1.status, h1.t, same_numbers h1.u, h1.log.imp fun a b hab => ⟨hab.nout, hab.dt, hab.t, hab.n, same_numbers hab.u⟩⟩
  · exact absurd h1 hk

lemma run_stops (h : GasStart γ riemann lib p s) (H : Nan.LimOk s lim limM) (deck : RkDeck ℝ) (k : ℕ) (hk : (modelRunWith limM s deck k).status = .running)
    (hk' : (modelRunWith limM s deck (k + 1)).status = .failed .notReal) :
    NanAverage s (nanRunWith γ riemann lim s deck (k + 1)).u ∧
    ((nanRunWith γ riemann lim s deck (k + 1)).log = (nanRunWith γ riemann lim s deck k).log ∨
      ∃ o : Nan.OutRec, (nanRunWith γ riemann lim s deck (k + 1)).log = (nanRunWith γ riemann lim s deck k).log ++ [o] ∧
        o.u = (nanRunWith γ riemann lim s deck (k + 1)).u) ∧
    ((nanRunWith γ riemann lim s deck (k + 1)).status = .running → ∀ j, k + 2 ≤ j →
      (nanRunWith γ riemann lim s deck j).status = .failed (.sysExit "Time step is NaN") ∧
      (nanRunWith γ riemann lim s deck j).log = (nanRunWith γ riemann lim s deck (k + 1)).log) := by
  have h0 : Nan.LoopSame s (nanRunWith γ riemann lim s deck k) (modelRunWith limM s deck k) := by
    rcases runs h H deck k with ⟨h1, -⟩ | ⟨h1, -⟩
    · exact h1
    · rw [hk] at h1; cases h1
  rw [modelRunWith_succ] at hk'
  rcases Nan.body_same h.ready H deck h0 with ⟨-, h4⟩ | ⟨-, -, -, h6, ⟨e, he⟩, h8⟩
  · exact absurd hk' (h4 hk)
  rw [← nanRunWith_succ] at h6 he h8
  refine ⟨⟨e, he⟩, ?_, ?_⟩
  · rcases h8.log with h8 | ⟨_, _, h8⟩
    · exact .inl h8
    · exact .inr ⟨_, h8, rfl⟩
  · intro hr j hj
    obtain ⟨i, rfl⟩ := Nat.exists_eq_add_of_le hj
    have h2 : nanRunWith γ riemann lim s deck (k + 2) = { nanRunWith γ riemann lim s deck (k + 1) with status := .failed (.sysExit "Time step is NaN") } := by
      rw [show k + 2 = (k + 1) + 1 from rfl, nanRunWith_succ γ riemann lim s deck (k + 1)]
      conv_lhs => unfold Nan.loopBody
      rw [hr]
      simp only
      rw [Nan.nextStep_bad h6 he]
    have h3 : nanRunWith γ riemann lim s deck (k + 2 + i) = nanRunWith γ riemann lim s deck (k + 2) := by
      induction i with
      | zero => rfl
      | succ i ih =>
        rw [← add_assoc, nanRunWith_succ, ih (by omega), h2]
        rfl
    rw [h3, h2]
    exact ⟨rfl, rfl⟩

lemma run_outputs (h : GasStart γ riemann lib p s) (H : Nan.LimOk s lim limM) (deck : RkDeck ℝ) (k : ℕ) : ∀ o ∈ (nanRunWith γ riemann lim s deck k).log.dropLast, NanFree o.u := by
  rcases runs h H deck k with ⟨h1, -⟩ | ⟨-, -, -, pre, hp, hl⟩
  · exact fun o ho => same_log h1.log o (List.mem_of_mem_dropLast ho)
  · intro o ho
    rcases hl with hl | ⟨o', hl⟩
    · exact hp o (by rw [← hl]; exact List.mem_of_mem_dropLast ho)
    · rw [hl, List.dropLast_concat] at ho
      exact hp o ho

lemma run_detect (h : GasStart γ riemann lib p s) (H : Nan.LimOk s lim limM) (deck : RkDeck ℝ) (k : ℕ) (hk : ¬ NanAverage s (nanRunWith γ riemann lim s deck k).u) :
    (modelRunWith limM s deck k).status ≠ .failed .notReal ∧ NanFree (nanRunWith γ riemann lim s deck k).u ∧
      ∀ o ∈ (nanRunWith γ riemann lim s deck k).log, NanFree o.u := by
  rcases runs h H deck k with ⟨h1, h2⟩ | ⟨-, -, he, -⟩
  · exact ⟨h2, same_free h1.u, same_log h1.log⟩
  · exact absurd he hk

/-- C106: as long as the model does not stop with `notReal`, the run with NaN is its run: same numbers, same outputs, same status, no NaN. -/
theorem C106_real (h : GasStart γ riemann lib p s) (deck : RkDeck ℝ) (k : ℕ) (hk : (modelRun s deck k).status ≠ .failed .notReal) :
    (nanRun γ riemann s deck k).status = (modelRun s deck k).status ∧
    (nanRun γ riemann s deck k).t = (modelRun s deck k).sol.t ∧
    SameNumbers (nanRun γ riemann s deck k).u (modelRun s deck k).sol.u ∧
    List.Forall₂ (fun a b => a.nout = b.nout ∧ a.dt = b.dt ∧ a.t = b.sol.t ∧ a.n = b.sol.n ∧ SameNumbers a.u b.sol.u)
      (nanRun γ riemann s deck k).log (modelRun s deck k).log :=
  run_real h (Nan.limOk_none s) deck k hk

/-- C106: where the model stops with `notReal`, the run with NaN ends the step with NaN in the average of some cell, having printed at most
once in it. If this was not the last step, the next one stops with the message on the time step and prints nothing. -/
theorem C106_stops (h : GasStart γ riemann lib p s) (deck : RkDeck ℝ) (k : ℕ) (hk : (modelRun s deck k).status = .running)
    (hk' : (modelRun s deck (k + 1)).status = .failed .notReal) :
    NanAverage s (nanRun γ riemann s deck (k + 1)).u ∧
    ((nanRun γ riemann s deck (k + 1)).log = (nanRun γ riemann s deck k).log ∨
      ∃ o : Nan.OutRec, (nanRun γ riemann s deck (k + 1)).log = (nanRun γ riemann s deck k).log ++ [o] ∧
        o.u = (nanRun γ riemann s deck (k + 1)).u) ∧
    ((nanRun γ riemann s deck (k + 1)).status = .running → ∀ j, k + 2 ≤ j →
      (nanRun γ riemann s deck j).status = .failed (.sysExit "Time step is NaN") ∧
      (nanRun γ riemann s deck j).log = (nanRun γ riemann s deck (k + 1)).log) :=
  run_stops h (Nan.limOk_none s) deck k hk hk'

/-- C106: of all outputs of a run only the last can hold NaN. -/
theorem C106_outputs (h : GasStart γ riemann lib p s) (deck : RkDeck ℝ) (k : ℕ) : ∀ o ∈ (nanRun γ riemann s deck k).log.dropLast, NanFree o.u :=
  run_outputs h (Nan.limOk_none s) deck k

/-- C106: the averages of the interior cells tell: if none of them is NaN at some point of a run, no NaN has occurred up to there, neither in
the data nor in any output, and the run is that of the model. -/
theorem C106_detect (h : GasStart γ riemann lib p s) (deck : RkDeck ℝ) (k : ℕ) (hk : ¬ NanAverage s (nanRun γ riemann s deck k).u) :
    (modelRun s deck k).status ≠ .failed .notReal ∧ NanFree (nanRun γ riemann s deck k).u ∧
      ∀ o ∈ (nanRun γ riemann s deck k).log, NanFree o.u :=
  run_detect h (Nan.limOk_none s) deck k hk

/-- C106 applies to decks: every valid Euler deck without enhancement and with another solver than 'godunov' starts from such a solution. -/
theorem C106_deck {ft : FloatText ℝ} {d : Deck ℝ} {N : ℕ} {ic : IC.Setup} (hlib : lib.Ok) (junk : ℕ → ℝ) (hd : ValidDeck lib ft d p N ic)
    (hsys : d.system = "euler".toList) (hg : d.riemann ≠ "godunov".toList) (hen : d.enhance = []) :
    ∃ s lm, start lib ft junk d = .ok (s, lm) ∧ GasStart (ic.gamma.getD (7 / 5)) d.riemann lib p s := by
  obtain ⟨c, s, lm, hc, hst, S⟩ := C69_starts hlib junk hd
  obtain ⟨name, p0, rest, -, -, l3, -⟩ := hd.line
  have hbc := (setupOf_facts l3).2.1
  refine ⟨s, lm, hst, S.built, ?_, hg, ?_, ?_⟩
  · have := S.physics
    rw [hsys] at this
    exact this
  · have := S.enhance
    rw [hen] at this
    unfold enhancementOf at this
    rw [if_pos rfl] at this
    cases h : s.enhance with
    | none => rfl
    | some x => rw [h] at this; cases this
  · unfold Sol.BcKnown
    rw [S.bc.1, S.bc.2]
    rcases hbc with h | h <;> rw [h]
    · exact ⟨.inl ⟨rfl, rfl⟩, .inl ⟨rfl, rfl⟩⟩
    · exact ⟨.inr ⟨rfl, rfl⟩, .inr ⟨rfl, rfl⟩⟩

/-- C106: the entropy wave on fine meshes (C100) runs to the end without any NaN. -/
theorem C106_wave (hlib : lib.Ok) (p : ℕ) (T : ℝ) (hT : 0 ≤ T) :
    ∃ N0 : ℕ, ∀ (N : ℕ) (ft : FloatText ℝ) (junk : ℕ → ℝ) (d : Deck ℝ), ValidDeck lib ft d p N IC.entrpyw → d.system = "euler".toList →
      d.riemann ≠ "rusanov".toList → d.riemann ≠ "godunov".toList → d.rk = "rk3".toList → d.limiting ≠ "adaptive_hr".toList → d.enhance = [] →
      0 ≤ d.cfl → d.cfl ≤ (2 * p + 1) / (3 * (p + 1) ^ 2) → 0 ≤ d.finaltime → d.finaltime ≤ T → N0 ≤ N → 2 ≤ d.nout →
      1 / 10 ^ 14 ≤ 2 / N * d.cfl / ((1 + √(7 / 2)) * (2 * p + 1)) →
      ∃ s lm, start lib ft junk d = .ok (s, lm) ∧
        (∀ k, NanFree (nanRun (7 / 5) d.riemann s d.rkDeck k).u ∧ ∀ o ∈ (nanRun (7 / 5) d.riemann s d.rkDeck k).log, NanFree o.u) ∧
        ∃ k, (nanRun (7 / 5) d.riemann s d.rkDeck k).status = .done := by
  obtain ⟨C, -, N0, h⟩ := C100_deck hlib p T hT
  refine ⟨N0, ?_⟩
  intro N ft junk d hd hsys hr hg hrk hlim hen hc0 hc1 ht0 htT hN hnout hdt
  obtain ⟨s, lm, hst, -, h2⟩ := h N ft junk d hd hsys hr hrk hlim hen hc0 hc1 ht0 htT
  obtain ⟨h3, h4⟩ := h2 hN hnout
  obtain ⟨h5, kd, h6⟩ := h4 hdt
  obtain ⟨s', lm', hst', hl, -⟩ := wave_deck hlib junk hd hsys hr hlim hen
  rw [hst] at hst'
  cases hst'
  obtain ⟨s', lm', hst', hs⟩ := C106_deck hlib junk hd hsys hg hen
  rw [hst] at hst'
  cases hst'
  have hgas : GasStart (7 / 5) d.riemann lib p s := hs
  have hM : ∀ k, modelRun s d.rkDeck k = integrate ⟨residual, lm.limit⟩ d.rkDeck s k := by
    intro k
    rw [(h3 k).1, hl]
  refine ⟨s, lm, hst, fun k => ?_, kd, ?_⟩
  · have hk : (modelRun s d.rkDeck k).status ≠ .failed .notReal := by rw [hM]; exact h5 k _
    rcases runs hgas (Nan.limOk_none s) d.rkDeck k with ⟨h1, -⟩ | ⟨h1, -⟩
    · exact ⟨same_free h1.u, same_log h1.log⟩
    · exact absurd h1 hk
  · have hk : (modelRun s d.rkDeck kd).status ≠ .failed .notReal := by rw [hM]; exact h5 kd _
    rw [(C106_real hgas d.rkDeck kd hk).1, hM, h6]

/-! ### A gas with admissible averages and an inadmissible face -/

/-- Three periodic cells at order 1 of a resting gas of density 1; in each the energy is `1 + 2 ξ`: average 1, and `-1` at the left end. -/
noncomputable def Ex.rough : Sol ℝ :=
  { Ex.solR 1 with
    kw := Euler.physics (7 / 5) (String.ofList "rusanov".toList), NF := 3
    u := ⟨2, 15, fun n c => if c % 3 = 0 then (if n = 0 then 1 else 0) else if c % 3 = 1 then 0 else (if n = 0 then 1 else 2)⟩ }

lemma Ex.rough_start : GasStart (7 / 5) "rusanov".toList realGauss 1 Ex.rough where
  built :=
    { nodes := (Ex.solR_built 1).nodes
      gauss := (Ex.solR_built 1).gauss
      basis := rfl
      NF := Nat.succ_pos 2
      NE := Nat.succ_pos 2
      rows := rfl
      cols := rfl
      dx := (Ex.solR_built 1).dx
      minv := (Ex.solR_built 1).minv
      enh := fun en h => by cases h }
  physics := ⟨by unfold manipulationFunctions; rw [if_pos rfl]; rfl, by unfold manipulationFunctions; rw [if_pos rfl]; rfl⟩
  solver := by decide
  enh := rfl
  bc := ⟨.inl ⟨rfl, rfl⟩, .inl ⟨rfl, rfl⟩⟩

lemma Ex.rough_state (i : ℕ) : Euler.stateAt (Ex.rough.u.val 0) i = ⟨1, 0, 1⟩ := by
  unfold Euler.stateAt Ex.rough
  simp only
  rw [show (0 + 3 * i) % 3 = 0 by omega, show (1 + 3 * i) % 3 = 1 by omega, show (2 + 3 * i) % 3 = 2 by omega]
  simp

lemma Ex.rough_speed : Euler.maxWaveSpeed (7 / 5) Ex.rough.u = .ok (.fin √(14 / 25)) := by
  have hN : (Ex.rough.u.cols + 2) / 3 = 5 := rfl
  unfold Euler.maxWaveSpeed
  simp only [hN, Ex.rough_state]
  rw [if_neg (by norm_num), if_neg]
  · have ha : |(⟨1, 0, 1⟩ : Euler.St).v| + (⟨1, 0, 1⟩ : Euler.St).a (7 / 5) = √(14 / 25) := by
      unfold Euler.St.a Euler.St.p Euler.St.v
      norm_num
    simp [ha, List.range_succ]
  · rintro ⟨i, -, h⟩
    unfold Euler.St.p Euler.St.v at h
    norm_num at h

lemma Ex.rough_fill {x : Sol ℝ} (hx : Like x Ex.rough) (hu : x.u = Ex.rough.u) (n : ℕ) {c : ℕ} (hc : c < 15) :
    x.applyBc.u.val n c = if c % 3 = 0 then (if n = 0 then 1 else 0) else if c % 3 = 1 then 0 else (if n = 0 then 1 else 2) := by
  have hr := Ex.rough_start.ready.like hx
  rw [applyBc_eq x hr.wf.NF hr.wf.NE hr.wf.cols]
  show x.u.val n (x.bcCol c) = _
  rw [hu, Nan.bcCol_like hx]
  have := Ex.rough_start.ready.bcCol (c := c) (by exact hc)
  show (if Ex.rough.bcCol c % 3 = 0 then _ else _) = _
  rw [this.2.2]

lemma Ex.rough_residual {x : Sol ℝ} (hx : Like x Ex.rough) (hu : x.u = Ex.rough.u) : Euler.checkedResidual x = .error .notReal := by
  unfold Euler.checkedResidual
  split_ifs
  · rfl
  · refine (Nan.real_residual (Ex.rough_start.ready.like hx)).1 ⟨0, by omega, ?_⟩
    unfold Nan.SolverReal
    rw [if_pos (by simp)]
    rintro ⟨-, h⟩
    have hv : ∀ c < 12, (x.basis.psi.dot x.applyBc.u).val 0 (3 + c) = if c % 3 = 0 then 1 else if c % 3 = 1 then 0 else -1 := by
      intro c hc
      show ∑ k ∈ Finset.range x.basis.psi.cols, x.basis.psi.val 0 k * x.applyBc.u.val k (3 + c) = _
      rw [hx.setup.basis, Ex.rough_start.built.wf.psi, Ex.rough_start.built.ns, Finset.sum_range_succ, Finset.sum_range_one,
        Ex.rough_start.built.psi0, Ex.rough_start.built.psi0, Ex.rough_fill hx hu 0 (by omega), Ex.rough_fill hx hu 1 (by omega),
        show (3 + c) % 3 = c % 3 by omega, legendre_zero, legendre_one]
      split_ifs <;> simp_all
      norm_num
    unfold Nan.rightSt Euler.stateAt at h
    simp only at h
    rw [hv _ (by norm_num), hv _ (by norm_num), hv _ (by norm_num)] at h
    have := h.2
    unfold Euler.St.p Euler.St.v at this
    norm_num at this

/-- One step of the low storage scheme to the time `tf`. -/
noncomputable def Ex.roughDeck (tf : ℝ) : RkDeck ℝ := ⟨"low_storage_rk4", tf, 2, 1⟩

lemma Ex.rough_next {tf : ℝ} : getNextTimeStep (initLoop (Ex.roughDeck tf) Ex.rough).sol (initLoop (Ex.roughDeck tf) Ex.rough).tout 1 tf =
    .ok (adjustForOutput (1 / 2 / (√(14 / 25) * 3)) 0 tf (initLoop (Ex.roughDeck tf) Ex.rough).tout) := by
  have hs : (initLoop (Ex.roughDeck tf) Ex.rough).sol = Ex.rough := rfl
  have h1 : √(14 / 25) ≤ (1 : ℝ) := Real.sqrt_le_one.2 (by norm_num)
  have h0 : (0 : ℝ) < √(14 / 25) := Real.sqrt_pos.2 (by norm_num)
  have hc : cflTimeStep Ex.rough 1 = .ok (.fin (1 / 2 / (√(14 / 25) * 3))) := by
    unfold cflTimeStep
    rw [show Ex.rough.kw.maxWaveSpeed = Euler.maxWaveSpeed (7 / 5) from rfl, Ex.rough_speed]
    simp only
    rw [show Ex.rough.basis.p = 1 from rfl, show Ex.rough.dx = 1 / 2 from rfl, if_neg (by push_cast; positivity)]
    norm_num
  have hd : (1 / 10 ^ 14 : ℝ) ≤ 1 / 2 / (√(14 / 25) * 3) := by
    rw [le_div_iff₀ (by positivity)]
    nlinarith
  unfold getNextTimeStep
  rw [hs, hc]
  simp only [sanityCheckDt]
  rw [if_neg (not_lt.2 hd)]
  rfl

lemma Ex.rough_stops (tf : ℝ) : (modelRun Ex.rough (Ex.roughDeck tf) 0).status = .running ∧
    (modelRun Ex.rough (Ex.roughDeck tf) 1).status = .failed .notReal := by
  have h0 : modelRun Ex.rough (Ex.roughDeck tf) 0 = initLoop (Ex.roughDeck tf) Ex.rough := rfl
  refine ⟨by rw [h0]; rfl, ?_⟩
  rw [modelRun_succ, h0]
  unfold loopBody
  rw [show (initLoop (Ex.roughDeck tf) Ex.rough).status = .running from rfl]
  simp only
  rw [show (Ex.roughDeck tf).cfl = 1 from rfl, show (Ex.roughDeck tf).finaltime = tf from rfl, Ex.rough_next]
  obtain ⟨dt, output, done⟩ := adjustForOutput (1 / 2 / (√(14 / 25) * 3)) 0 tf (initLoop (Ex.roughDeck tf) Ex.rough).tout
  simp only
  have hin : (schemeFor (Ex.roughDeck tf).rk).inner (Nan.env (Limiter.limit none)) ((initLoop (Ex.roughDeck tf) Ex.rough).us.copyDataOnly (initLoop (Ex.roughDeck tf) Ex.rough).sol) dt
      ⟨(initLoop (Ex.roughDeck tf) Ex.rough).work, (initLoop (Ex.roughDeck tf) Ex.rough).sol, (initLoop (Ex.roughDeck tf) Ex.rough).incr⟩ = .error .notReal := by
    have hsch : schemeFor (Ex.roughDeck tf).rk = .low := if_pos rfl
    rw [hsch]
    show lowStages (Nan.env (Limiter.limit none)) _ dt 0 ((0, 1 / 6) :: _) _ = _
    unfold lowStages lowStage
    have hz : ¬ |(0 : ℝ)| > 1 / 10 ^ 15 := by rw [abs_zero]; norm_num
    simp only [Sol.smartAxpy, if_neg hz, gt_iff_lt, lt_irrefl, if_false]
    rw [Ex.rough_residual]
    · refine Like.clock (a := (Sol.copyDataOnly _ _)) ?_ _ _
      exact Like.copy (Like.refl _) (Like.copy (Like.refl _) (Like.refl _))
    · rfl
  rw [hin]

/-- C106, the other side: a run may end normally with NaN in its last output, although all averages were admissible at the start. The NaN of the
last step meets no further check. -/
theorem C106_silent : ∃ (s : Sol ℝ) (deck : RkDeck ℝ), GasStart (7 / 5) "rusanov".toList realGauss 1 s ∧
    (∀ e ≤ s.NE + 1, 0 < (Euler.stateAt (s.u.val 0) e).rho ∧ 0 < (Euler.stateAt (s.u.val 0) e).p (7 / 5)) ∧
    (nanRun (7 / 5) "rusanov".toList s deck 1).status = .done ∧
    ∃ o, (nanRun (7 / 5) "rusanov".toList s deck 1).log.getLast? = some o ∧ NanAverage s o.u := by
  refine ⟨Ex.rough, Ex.roughDeck (1 / 1000), Ex.rough_start, ?_, ?_⟩
  · intro e _
    rw [Ex.rough_state]
    unfold Euler.St.p Euler.St.v
    norm_num
  · have hs := Ex.rough_stops (1 / 1000)
    have hb := (C106_stops Ex.rough_start (Ex.roughDeck (1 / 1000)) 0 hs.1 hs.2).1
    have h1 : √(14 / 25) ≤ (1 : ℝ) := Real.sqrt_le_one.2 (by norm_num)
    have h0 : (0 : ℝ) < √(14 / 25) := Real.sqrt_pos.2 (by norm_num)
    have hd : (1 / 1000 - 0 : ℝ) < 1 / 2 / (√(14 / 25) * 3) := by
      rw [lt_div_iff₀ (by positivity)]
      nlinarith
    have hn : Nan.nextStep (7 / 5) Ex.rough (Ex.roughDeck (1 / 1000)) (Nan.initLoop (Ex.roughDeck (1 / 1000)) Ex.rough) = .ok (1 / 1000 - 0, true, true) := by
      rw [Nan.nextStep_same Ex.rough_start.ready _ (Nan.init_same _ _)]
      rw [show (Ex.roughDeck (1 / 1000)).cfl = 1 from rfl, show (Ex.roughDeck (1 / 1000)).finaltime = 1 / 1000 from rfl, Ex.rough_next]
      unfold adjustForOutput
      rw [if_pos hd]
    have hz : nanRun (7 / 5) "rusanov".toList Ex.rough (Ex.roughDeck (1 / 1000)) 1 =
        Nan.loopBody (7 / 5) (String.ofList "rusanov".toList) id Ex.rough (Ex.roughDeck (1 / 1000)) (Nan.initLoop (Ex.roughDeck (1 / 1000)) Ex.rough) :=
      nanRun_succ (7 / 5) "rusanov".toList Ex.rough (Ex.roughDeck (1 / 1000)) 0
    rw [zero_add] at hb
    rw [hz] at hb ⊢
    unfold Nan.loopBody at hb ⊢
    rw [show (Nan.initLoop (Ex.roughDeck (1 / 1000)) Ex.rough).status = .running from rfl] at hb ⊢
    simp only at hb ⊢
    rw [hn] at hb ⊢
    simp only [Nan.outputPhase, if_true] at hb ⊢
    exact ⟨trivial, _, by rw [List.getLast?_append]; rfl, hb⟩

/-- C106: the solvers differ in what they accept. Between a gas of energy 1 and one of energy `-1/10`, density 1 and at rest, the second with
negative pressure, 'roe' computes real fluxes and 'rusanov' only NaN. -/
theorem C106_solvers : ∃ L R : Euler.St, R.p (7 / 5) < 0 ∧ Nan.rusanov1 (7 / 5) (Nan.liftSt L) (Nan.liftSt R) = ⟨.nan, .nan, .nan⟩ ∧
    ∃ F : Euler.St, Nan.roe1 (7 / 5) (Nan.liftSt L) (Nan.liftSt R) = Nan.liftSt F := by
  refine ⟨⟨1, 0, 1⟩, ⟨1, 0, -1 / 10⟩, ?_, ?_, ?_⟩
  · unfold Euler.St.p Euler.St.v; norm_num
  · refine Nan.rusanov_nan ?_
    rintro ⟨L, R, -, hR, -, h⟩
    have : R = ⟨1, 0, -1 / 10⟩ := by
      unfold Nan.liftSt at hR
      cases R
      simp only [Nan.St.mk.injEq, Nan.Num.num.injEq] at hR
      rw [← hR.1, ← hR.2.1, ← hR.2.2]
    subst this
    have := h.2
    unfold Euler.St.p Euler.St.v at this
    norm_num at this
  · refine ⟨_, Nan.roe_real ?_⟩
    unfold Euler.RoeReal Euler.roeAverages Euler.St.H Euler.St.p Euler.St.v
    norm_num

/-- `C106_stops` with a run that goes on after the bad step: to the time 10, the first step is shorter. -/
example : (∀ j, 2 ≤ j → (nanRun (7 / 5) "rusanov".toList Ex.rough (Ex.roughDeck 10) j).status = .failed (.sysExit "Time step is NaN")) ∧
    NanAverage Ex.rough (nanRun (7 / 5) "rusanov".toList Ex.rough (Ex.roughDeck 10) 1).u := by
  have hs := Ex.rough_stops 10
  obtain ⟨h1, -, h2⟩ := C106_stops Ex.rough_start (Ex.roughDeck 10) 0 hs.1 hs.2
  refine ⟨fun j hj => (h2 ?_ j hj).1, h1⟩
  have h0 : (1 / 2 : ℝ) < √(14 / 25) := by rw [Real.lt_sqrt (by norm_num)]; norm_num
  have hd : 1 / 2 / (√(14 / 25) * 3) ≤ (10 - 0 : ℝ) := by
    rw [div_le_iff₀ (by positivity)]
    linarith
  have hn : Nan.nextStep (7 / 5) Ex.rough (Ex.roughDeck 10) (Nan.initLoop (Ex.roughDeck 10) Ex.rough) = .ok (1 / 2 / (√(14 / 25) * 3), false, false) := by
    rw [Nan.nextStep_same Ex.rough_start.ready _ (Nan.init_same _ _)]
    rw [show (Ex.roughDeck 10).cfl = 1 from rfl, show (Ex.roughDeck 10).finaltime = 10 from rfl, Ex.rough_next]
    have ht : (initLoop (Ex.roughDeck 10) Ex.rough).tout = 10 := by
      show (linspace (0 : ℝ) 10 2).val 1 = 10
      unfold linspace
      norm_num
    unfold adjustForOutput
    rw [ht, if_neg (not_lt.2 hd), if_neg (not_lt.2 hd)]
  rw [nanRun_succ, show nanRun (7 / 5) "rusanov".toList Ex.rough (Ex.roughDeck 10) 0 = Nan.initLoop (Ex.roughDeck 10) Ex.rough from rfl]
  unfold Nan.loopBody
  rw [show (Nan.initLoop (Ex.roughDeck 10) Ex.rough).status = .running from rfl]
  simp only
  rw [hn]
  rfl

/-- `C106_outputs` and `C106_detect` with the same gas. -/
example (k : ℕ) : ∀ o ∈ (nanRun (7 / 5) "rusanov".toList Ex.rough (Ex.roughDeck (1 / 1000)) k).log.dropLast, NanFree o.u :=
  C106_outputs Ex.rough_start _ k

example (k : ℕ) (tf : ℝ) (hk : ¬ NanAverage Ex.rough (nanRun (7 / 5) "rusanov".toList Ex.rough (Ex.roughDeck tf) k).u) : k = 0 := by
  by_contra h0
  have h := (C106_detect Ex.rough_start (Ex.roughDeck tf) k hk).1
  obtain ⟨j, rfl⟩ := Nat.exists_eq_succ_of_ne_zero h0
  apply h
  induction j with
  | zero => exact (Ex.rough_stops tf).2
  | succ j ih =>
    have hj : (modelRun Ex.rough (Ex.roughDeck tf) (j + 1)).status = .failed .notReal := by
      clear hk h ih
      induction j with
      | zero => exact (Ex.rough_stops tf).2
      | succ j ih => rw [modelRun_succ, loopBody_stopped (by rw [ih (by omega)]; simp)]; exact ih (by omega)
    show (modelRun Ex.rough (Ex.roughDeck tf) (j + 1 + 1)).status = _
    rw [modelRun_succ, loopBody_stopped (by rw [hj]; simp), hj]

/-- `C106_real`, `C106_deck` and `C106_wave`: the entropy wave with Roe's solver, order 1, `cfl` 1/5, to the time 1. -/
example : ∃ N0 : ℕ, ∀ N, 0 < N → N0 ≤ N → N ≤ 10 ^ 9 → ∃ s lm, start realGauss Ex.decReal (fun _ => 0) (Ex.waveDeck N) = .ok (s, lm) ∧
    (∀ k, NanFree (nanRun (7 / 5) "roe".toList s (Ex.waveDeck N).rkDeck k).u) ∧ ∃ k, (nanRun (7 / 5) "roe".toList s (Ex.waveDeck N).rkDeck k).status = .done := by
  obtain ⟨N0, h⟩ := C106_wave realGauss_ok 1 1 zero_le_one
  refine ⟨N0, fun N hN hle hmax => ?_⟩
  obtain ⟨s, lm, hst, h1, h2⟩ := h N Ex.decReal (fun _ => 0) (Ex.waveDeck N) (Ex.wave_valid hN) rfl (show "roe".toList ≠ "rusanov".toList by decide)
    (show "roe".toList ≠ "godunov".toList by decide) rfl
    (show ([] : Str) ≠ "adaptive_hr".toList by decide) rfl (show (0 : ℝ) ≤ 1 / 5 by norm_num)
    (show (1 / 5 : ℝ) ≤ (2 * (1 : ℕ) + 1) / (3 * ((1 : ℕ) + 1) ^ 2) by norm_num) (show (0 : ℝ) ≤ 1 by norm_num) (show (1 : ℝ) ≤ 1 by norm_num)
    hle (show (2 : ℤ) ≤ 10 by norm_num) (by
      show (1 / 10 ^ 14 : ℝ) ≤ 2 / N * (1 / 5) / ((1 + √(7 / 2)) * (2 * (1 : ℕ) + 1))
      have h3 : √(7 / 2) ≤ (2 : ℝ) := by rw [Real.sqrt_le_left (by norm_num)]; norm_num
      have hN' : (0 : ℝ) < N := by exact_mod_cast hN
      have hm : (N : ℝ) ≤ 10 ^ 9 := by exact_mod_cast hmax
      have h4 : (2 / 10 ^ 9 : ℝ) ≤ 2 / N := div_le_div_of_nonneg_left (by norm_num) hN' hm
      rw [le_div_iff₀ (by positivity)]
      push_cast
      linarith)
  exact ⟨s, lm, hst, fun k => (h1 k).1, h2⟩

end Dg1d.Props
