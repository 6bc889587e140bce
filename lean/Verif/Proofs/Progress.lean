import Verif.Proofs.Simulation
import Verif.Proofs.Clock
import Verif.Props.Clock

/-! Helper lemmas: a run whose residual, limiter and time step cannot fail reaches the final time. -/

set_option linter.unusedSectionVars false

namespace Dg1d
variable {K : Type*} [Field K] [LinearOrder K]

/-- An invariant under which nothing raises. -/
structure Progress (env : Env K) (cfl : K) (S H : Sol K → Prop) (F : Arr K → Prop) : Prop extends Invariant env S H F where
  limOk : ∀ s, S s → ∃ v, env.limit s = .ok v
  resOk : ∀ s, S s → ∃ v A, env.residual s = .ok (v, A)
  dtOk : ∀ s, H s → ∃ dt, cflTimeStep s cfl = .ok dt ∧ sanityCheckDt dt = .ok ()

/-- Two invariants together. -/
lemma Invariant.and {env : Env K} {S H S' H' : Sol K → Prop} {F F' : Arr K → Prop} (h : Invariant env S H F) (h' : Invariant env S' H' F') :
    Invariant env (fun s => S s ∧ S' s) (fun s => H s ∧ H' s) (fun A => F A ∧ F' A) where
  zero := fun s hs => ⟨h.zero s hs.1, h'.zero s hs.2⟩
  smul := fun a A hA => ⟨h.smul a A hA.1, h'.smul a A hA.2⟩
  axpy := fun a s A hs hA => ⟨h.axpy a s A hs.1 hA.1, h'.axpy a s A hs.2 hA.2⟩
  copy := fun w s hw hs => ⟨h.copy w s hw.1 hs.1, h'.copy w s hw.2 hs.2⟩
  clock := fun s a m hs => ⟨h.clock s a m hs.1, h'.clock s a m hs.2⟩
  head := fun s hs => ⟨h.head s hs.1, h'.head s hs.2⟩
  bc := fun s hs => ⟨h.bc s hs.1, h'.bc s hs.2⟩
  headLimit := fun s v hs hv => ⟨h.headLimit s v hs.1 hv, h'.headLimit s v hs.2 hv⟩
  stageLimit := fun s v hs hv => ⟨h.stageLimit s v hs.1 hv, h'.stageLimit s v hs.2 hv⟩
  res := fun s v A hs hv => ⟨⟨(h.res s v A hs.1 hv).1, (h'.res s v A hs.2 hv).1⟩, (h.res s v A hs.1 hv).2, (h'.res s v A hs.2 hv).2⟩

section
variable {env : Env K} {cfl : K} {S H : Sol K → Prop} {F : Arr K → Prop}

/-- The simulation of a run by itself that carries the invariant. -/
lemma Invariant.sim (h : Invariant env S H F) :
    Simulates Eq env env (fun a b => a = b ∧ S a) (fun a b => a = b ∧ H a) (fun A B => A = B ∧ F A) where
  errRefl := fun _ => rfl
  zero := by rintro a _ ⟨rfl, ha⟩; exact ⟨rfl, h.zero a ha⟩
  smul := by rintro a A _ ⟨rfl, hA⟩; exact ⟨rfl, h.smul a A hA⟩
  axpy := by rintro a s _ A _ ⟨rfl, hs⟩ ⟨rfl, hA⟩; exact ⟨rfl, h.axpy a s A hs hA⟩
  copy := by rintro w _ s _ ⟨rfl, hw⟩ ⟨rfl, hs⟩; exact ⟨rfl, h.copy w s hw hs⟩
  clock := by rintro s _ a m ⟨rfl, hs⟩; exact ⟨rfl, h.clock s a m hs⟩
  head := by rintro s _ ⟨rfl, hs⟩; exact ⟨rfl, h.head s hs⟩
  bc := by rintro s _ ⟨rfl, hs⟩; exact ⟨rfl, h.bc s hs⟩
  cfl := by rintro s _ c ⟨rfl, hs⟩; rfl
  headLimit := by
    rintro s _ ⟨rfl, hs⟩ _ _
    exact ExRel.of_eq (fun _ => rfl) rfl fun v hv => ⟨⟨rfl, h.headLimit s v hs hv⟩, rfl, rfl⟩
  stageLimit := by
    rintro s _ ⟨rfl, hs⟩
    exact ExRel.of_eq (fun _ => rfl) rfl fun v hv => ⟨rfl, h.stageLimit s v hs hv⟩
  res := by
    rintro s _ ⟨rfl, hs⟩
    exact ExRel.of_eq (fun _ => rfl) rfl fun v hv => ⟨⟨rfl, (h.res s v.1 v.2 hs hv).1⟩, rfl, (h.res s v.1 v.2 hs hv).2⟩

/-- The stage state satisfies the invariant. -/
structure StageInv (S : Sol K → Prop) (F : Arr K → Prop) (x : StageState K) : Prop where
  work : S x.work
  sol : S x.sol
  incr : ∀ j, F (x.incr j)

lemma StageInv.sim {x : StageState K} (h : StageInv S F x) : StageSim (fun a b => a = b ∧ S a) (fun A B => A = B ∧ F A) x x :=
  ⟨⟨rfl, h.work⟩, ⟨rfl, h.sol⟩, fun j => ⟨rfl, h.incr j⟩⟩

lemma StageInv.of_sim {x y : StageState K} (h : StageSim (fun a b => a = b ∧ S a) (fun A B => A = B ∧ F A) x y) : StageInv S F x :=
  ⟨h.work.2, h.sol.2, fun j => (h.incr j).2⟩

lemma Progress.classicStage (h : Progress env cfl S H F) (tab : Tableau K) {us : Sol K} (hu : S us) (dt : K) (k : ℕ) (c alpha : K)
    {x : StageState K} (hx : StageInv S F x) : ∃ y, classicStage env tab us dt k c alpha x = .ok y ∧ StageInv S F y := by
  have hsim := h.toInvariant.sim.classicStage tab ⟨rfl, hu⟩ dt k c alpha hx.sim
  have hok : ∃ y, Dg1d.classicStage env tab us dt k c alpha x = .ok y := by
    unfold Dg1d.classicStage
    simp only
    have h1 := (h.toInvariant.sim.acc tab k (fun j => ⟨rfl, hx.incr j⟩) (h.toInvariant.sim.copy _ _ _ _ ⟨rfl, hx.work⟩ ⟨rfl, hu⟩)).2
    have h2 := h.clock _ (alpha * dt) 0 h1
    generalize ({ accumulate tab k x.incr (x.work.copyDataOnly us) with t := (accumulate tab k x.incr (x.work.copyDataOnly us)).t + alpha * dt } : Sol K) = v at h2 ⊢
    have h3 : ∃ w, (if k > 0 then env.limit v else .ok v) = .ok w ∧ S w := by
      split
      · obtain ⟨w, hw⟩ := h.limOk _ h2
        exact ⟨w, hw, h.stageLimit _ _ h2 hw⟩
      · exact ⟨v, rfl, h2⟩
    obtain ⟨w, hw, hS⟩ := h3
    obtain ⟨z, A, hr⟩ := h.resOk w hS
    rw [hw]
    simp only
    rw [hr]
    exact ⟨_, rfl⟩
  obtain ⟨y, hy⟩ := hok
  rw [hy] at hsim
  exact ⟨y, hy, .of_sim hsim.1⟩

lemma Progress.lowStage (h : Progress env cfl S H F) {us : Sol K} (hu : S us) (dt : K) (k : ℕ) (beta gamma : K)
    {x : StageState K} (hx : StageInv S F x) : ∃ y, lowStage env us dt k beta gamma x = .ok y ∧ StageInv S F y := by
  have hsim := h.toInvariant.sim.lowStage ⟨rfl, hu⟩ dt k beta gamma hx.sim
  have hok : ∃ y, Dg1d.lowStage env us dt k beta gamma x = .ok y := by
    unfold Dg1d.lowStage
    simp only
    have h1 := (h.toInvariant.sim.smart beta (h.toInvariant.sim.copy _ _ _ _ ⟨rfl, hx.work⟩ ⟨rfl, hu⟩) (⟨rfl, hx.incr 0⟩ : _ ∧ _)).2
    have h2 := h.clock _ (beta * dt) 0 h1
    generalize ({ (x.work.copyDataOnly us).smartAxpy beta (x.incr 0) with t := ((x.work.copyDataOnly us).smartAxpy beta (x.incr 0)).t + beta * dt } : Sol K) = v at h2 ⊢
    have h3 : ∃ w, (if k > 0 then env.limit v else .ok v) = .ok w ∧ S w := by
      split
      · obtain ⟨w, hw⟩ := h.limOk _ h2
        exact ⟨w, hw, h.stageLimit _ _ h2 hw⟩
      · exact ⟨v, rfl, h2⟩
    obtain ⟨w, hw, hS⟩ := h3
    obtain ⟨z, A, hr⟩ := h.resOk w hS
    rw [hw]
    simp only
    rw [hr]
    exact ⟨_, rfl⟩
  obtain ⟨y, hy⟩ := hok
  rw [hy] at hsim
  exact ⟨y, hy, .of_sim hsim.1⟩

lemma Progress.inner (h : Progress env cfl S H F) (sch : Scheme K) {us : Sol K} (hu : S us) (dt : K)
    {x : StageState K} (hx : StageInv S F x) : ∃ y, sch.inner env us dt x = .ok y ∧ StageInv S F y := by
  cases sch with
  | low =>
    have : ∀ (l : List (K × K)) (k : ℕ) (x : StageState K), StageInv S F x → ∃ y, lowStages env us dt k l x = .ok y ∧ StageInv S F y := by
      intro l
      induction l with
      | nil => exact fun k x hx => ⟨x, rfl, hx⟩
      | cons a l ih =>
        intro k x hx
        obtain ⟨y, hy, hyi⟩ := h.lowStage hu dt k a.1 a.2 hx
        unfold lowStages
        rw [hy]
        exact ih (k + 1) y hyi
    exact this _ 0 x hx
  | classic tab =>
    have : ∀ (l : List (K × K)) (k : ℕ) (x : StageState K), StageInv S F x → ∃ y, classicStages env tab us dt k l x = .ok y ∧ StageInv S F y := by
      intro l
      induction l with
      | nil => exact fun k x hx => ⟨x, rfl, hx⟩
      | cons a l ih =>
        intro k x hx
        obtain ⟨y, hy, hyi⟩ := h.classicStage tab hu dt k a.1 a.2 hx
        unfold classicStages
        rw [hy]
        exact ih (k + 1) y hyi
    exact this _ 0 x hx

variable [IsStrictOrderedRing K]

/-- Nothing raises during the run. -/
lemma Progress.never_fails {deck : RkDeck K} (h : Progress env deck.cfl S H F) (hk : env.KeepsClock) (sch : Scheme K) {s : Sol K} (hs : H s)
    (h0 : s.t ≤ deck.finaltime) (hN : 2 ≤ deck.nout) (k : ℕ) (e : PyErr) : (sch.run env deck s k).status ≠ .failed e := by
  induction k with
  | zero =>
    show (initLoop deck s).status ≠ _
    unfold initLoop
    simp only
    rw [touts_init _ _ hN]
    obtain ⟨m, hm⟩ : ∃ m, deck.nout - 1 = m + 1 := ⟨deck.nout - 2, by omega⟩
    rw [hm, List.range'_succ]
    simp
  | succ k ih =>
    have hE : sch.run env deck s (k + 1) = loopBody env deck (sch.inner env) (sch.run env deck s k) := by
      unfold Scheme.run; rw [runLoop_succ]
    rw [hE]
    by_cases hr : (sch.run env deck s k).status = .running
    swap
    · rw [loopBody_stopped hr]; exact ih
    have hsim := h.toInvariant.sim.run deck sch ⟨rfl, hs⟩ rfl rfl k
    have htime := timeInv_run hk sch deck s h0 k
    obtain ⟨r1, r2, r3, r4, r5, r6⟩ := htime.run hr
    set st := sch.run env deck s k with hst
    have hus := (h.toInvariant.sim.copy _ _ _ _ hsim.us (h.toInvariant.sim.head _ _ hsim.sol)).2
    obtain ⟨dt, hd1, hd2⟩ := h.dtOk _ hsim.sol.2
    obtain ⟨x, o, d, hnext⟩ : ∃ x o d, getNextTimeStep st.sol st.tout deck.cfl deck.finaltime = .ok (x, o, d) := by
      unfold getNextTimeStep
      rw [hd1]
      simp only
      rw [hd2]
      cases dt <;> exact ⟨_, _, _, rfl⟩
    obtain ⟨ss, hin, hss⟩ := h.inner sch hus x (x := ⟨st.work, st.sol, st.incr⟩) ⟨hsim.work.2, h.head _ hsim.sol.2, fun j => (hsim.incr j).2⟩
    have hbc := h.bc _ (h.clock _ x 1 hss.sol)
    obtain ⟨v, hv⟩ := h.limOk _ (h.head _ hbc)
    unfold loopBody
    rw [hr]
    simp only
    rw [hnext]
    simp only
    rw [hin]
    simp only
    rw [hv]
    simp only
    unfold outputPhase
    simp only
    split
    · split
      · simp
      · rename_i ho hd
        have htout : st.tout < deck.finaltime := by
          rcases getNext_cases hnext with ⟨_, h2, _⟩ | ⟨_, _, _, y, _, h1, h2, _⟩ | ⟨h1, _⟩
          · exact absurd h2 hd
          · linarith
          · rw [h1] at ho; simp at ho
        rw [r4]
        have hlt : st.nout < deck.nout - 1 := by
          by_contra hc
          have : st.nout = deck.nout - 1 := by omega
          rw [r3, this, outTime_last _ _ hN] at htout
          exact lt_irrefl _ htout
        obtain ⟨m, hm⟩ : ∃ m, deck.nout - 1 - st.nout = m + 1 := ⟨deck.nout - 1 - st.nout - 1, by omega⟩
        rw [hm, List.range'_succ]
        simp
    · simp

/-- The run reaches the final time. -/
lemma Progress.finishes [Archimedean K] {deck : RkDeck K} (h : Progress env deck.cfl S H F) (hk : env.KeepsClock) (sch : Scheme K) {s : Sol K} (hs : H s)
    (h0 : s.t ≤ deck.finaltime) (hN : 2 ≤ deck.nout) : ∃ k, (sch.run env deck s k).status = .done := by
  obtain ⟨k, hr⟩ := Props.C02_terminates_exists sch env hk deck s
  refine ⟨k, ?_⟩
  rcases he : (sch.run env deck s k).status with _ | _ | e
  · exact absurd he hr
  · rfl
  · exact absurd he (h.never_fails hk sch hs h0 hN k e)

end

end Dg1d
