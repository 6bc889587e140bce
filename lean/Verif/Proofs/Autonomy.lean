import Verif.Model.Dg
import Verif.Model.Limiter
import Verif.Proofs.RkStep
import Verif.Proofs.Clock
import Verif.Proofs.Progress

/-! The time loop does not look at the clock except to place the outputs, and it overwrites its work arrays before it
reads them. Simulation between two runs that differ in the clock and in the work arrays. -/

set_option linter.unusedSectionVars false

namespace Dg1d
variable {K : Type*} [Field K] [LinearOrder K] [IsStrictOrderedRing K]

/-- What the limiter reads of the sensor object: thresholds and length. -/
def sensorShape (s : Sol K) : Option (List K × ℕ) := s.sensors.map fun sn => (sn.thresholds, sn.sensors.len)

/-- Same discretisation and sensor shape. -/
structure Frame (a b : Sol K) : Prop extends SameSetup a b where
  shape : sensorShape a = sensorShape b

/-- `Frame` and the same coefficients. -/
structure Alike (a b : Sol K) : Prop extends Frame a b where
  u : a.u = b.u

lemma Frame.symm {a b : Sol K} (h : Frame a b) : Frame b a := ⟨h.toSameSetup.symm, h.shape.symm⟩
lemma Frame.trans {a b c : Sol K} (h : Frame a b) (g : Frame b c) : Frame a c :=
  ⟨h.toSameSetup.trans g.toSameSetup, h.shape.trans g.shape⟩
lemma Frame.refl (a : Sol K) : Frame a a := ⟨SameSetup.refl a, rfl⟩

lemma Alike.eq {a b : Sol K} (h : Alike a b) : b = { a with t := b.t, n := b.n, sensors := b.sensors } := by
  obtain ⟨⟨⟨h1, h2, h3, h4, h5, h6, h7, h8, h9, h10, h11⟩, _⟩, h12⟩ := h
  cases a; cases b; simp_all

lemma Alike.of_eq {a b : Sol K} (h : b = { a with t := b.t, n := b.n, sensors := b.sensors }) (hs : sensorShape a = sensorShape b) :
    Alike a b := by
  refine ⟨⟨?_, hs⟩, ?_⟩
  · rw [h]; constructor <;> rfl
  · rw [h]

lemma applyBc_with (s : Sol K) (t : K) (n : ℕ) (sn : Option (Sensor K)) :
    ({ s with t := t, n := n, sensors := sn } : Sol K).applyBc = { s.applyBc with t := t, n := n, sensors := sn } := by
  unfold Sol.applyBc Sol.applyBcRight Sol.applyBcLeft
  simp only
  split_ifs <;> rfl

lemma Alike.axpy {a b : Sol K} (h : Alike a b) (g : K) (x : Arr K) : Alike (a.smartAxpy g x) (b.smartAxpy g x) := by
  unfold Sol.smartAxpy
  split_ifs
  · obtain ⟨⟨⟨h1, h2, h3, h4, h5, h6, h7, h8, h9, h10, h11⟩, hs⟩, hu⟩ := h
    exact ⟨⟨⟨h1, h2, h3, h4, h5, h6, h7, h8, h9, h10, h11⟩, hs⟩, by simp only [hu]⟩
  · exact h

lemma applyBc_sensors (s : Sol K) : s.applyBc.sensors = s.sensors := by
  unfold Sol.applyBc Sol.applyBcRight Sol.applyBcLeft; split_ifs <;> rfl
lemma smartAxpy_sensors (s : Sol K) (a : K) (x : Arr K) : (s.smartAxpy a x).sensors = s.sensors := by
  unfold Sol.smartAxpy; split <;> rfl

/-- The outcome of a call on two alike solutions. -/
inductive Both {α : Type*} (R : α → α → Prop) : Except PyErr α → Except PyErr α → Prop
  | err (e : PyErr) : Both R (.error e) (.error e)
  | ok {x y : α} (h : R x y) : Both R (.ok x) (.ok y)

/-- The relation between what a call leaves behind, for arguments `a`, `b`. -/
structure Kept (a b a' b' : Sol K) : Prop extends Alike a' b' where
  sensors : a.sensors = b.sensors → a'.sensors = b'.sensors
  ta : a'.t = a.t
  na : a'.n = a.n
  tb : b'.t = b.t
  nb : b'.n = b.n

lemma limit_alike (lm : Limiter K) {a b : Sol K} (h : Alike a b) : Both (Kept a b) (lm.limit a) (lm.limit b) := by
  cases lm with
  | none => exact .ok ⟨h, id, rfl, rfl, rfl, rfl⟩
  | some lm =>
    have he := h.eq
    have hs := h.shape
    generalize hbt : b.t = bt at he
    generalize hbn : b.n = bn at he
    generalize hbs : b.sensors = bs at he
    subst he
    unfold Limiter.limit HrLimiter.adaptiveHr
    simp only [sensorShape] at hs ⊢
    cases bs with
    | none =>
      cases ha : a.sensors with
      | none => exact .err _
      | some sn => rw [ha] at hs; cases hs
    | some sb =>
      cases ha : a.sensors with
      | none => rw [ha] at hs; cases hs
      | some sn =>
        rw [ha] at hs
        simp only [Option.map_some, Option.some.injEq, Prod.mk.injEq] at hs
        unfold Sensor.sensing
        simp only [hs.1, hs.2]
        cases hv : a.kw.sensing sb.thresholds a.u a.NF ⟨sb.sensors.len, fun _ => 0⟩ with
        | error e => exact .err _
        | ok v =>
          simp only
          have hf : ∀ e ulim, lm.limitFields ({ a with t := bt, n := bn, sensors := some sb } : Sol K) e ulim = lm.limitFields a e ulim := fun _ _ => rfl
          simp only [hf]
          cases hr : (List.range' 1 a.NE).foldlM (fun ulim e => if v.val e ≠ 0 then lm.limitFields a e ulim else Except.ok ulim) a.u with
          | error e => exact .err _
          | ok ulim =>
            simp only
            refine .ok ?_
            have e1 : (Sol.mk a.basis a.kw bt bn a.NE a.NF a.x a.xc a.dx ulim a.scaledMinv a.bcl a.bcr a.enhance (some ⟨sb.thresholds, v⟩)).applyBc =
                { ({ a with u := ulim, sensors := some ⟨sb.thresholds, v⟩ } : Sol K).applyBc with t := bt, n := bn, sensors := some ⟨sb.thresholds, v⟩ } :=
              applyBc_with { a with u := ulim, sensors := some ⟨sb.thresholds, v⟩ } bt bn (some ⟨sb.thresholds, v⟩)
            rw [e1]
            have e3 := applyBc_sensors ({ a with u := ulim, sensors := some ⟨sb.thresholds, v⟩ } : Sol K)
            simp only at e3
            refine ⟨Alike.of_eq rfl ?_, fun _ => ?_, ?_, ?_, rfl, rfl⟩
            · unfold sensorShape; rw [e3]
            · rw [e3]
            · simp
            · simp

lemma residual_alike {a b : Sol K} (h : Alike a b) :
    Both (fun x y => Kept a b x.1 y.1 ∧ x.2 = y.2) (residual a) (residual b) := by
  have he := h.eq
  have hs := h.shape
  generalize hbt : b.t = bt at he
  generalize hbn : b.n = bn at he
  generalize hbs : b.sensors = bs at he
  subst he
  unfold residual
  simp only [applyBc_with]
  have hE : (Sol.evaluateFaces { a.applyBc with t := bt, n := bn, sensors := bs }) = a.applyBc.evaluateFaces := rfl
  rw [hE]
  cases hf : a.applyBc.evaluateFaces with
  | error e => exact .err _
  | ok uf =>
    simp only
    cases hq : interfaceFluxes a.applyBc.kw uf a.applyBc.NF with
    | error e => exact .err _
    | ok q =>
      refine .ok ⟨⟨Alike.of_eq rfl ?_, fun h => ?_, by simp, by simp, rfl, rfl⟩, rfl⟩
      · simpa [sensorShape, applyBc_sensors] using hs
      · simpa [applyBc_sensors] using h

/-- The objects the time loop is given by dg1d.py: residual and limiter. -/
abbrev codeEnv (lm : Limiter K) : Env K := ⟨residual, lm.limit⟩

/-- The same solution on a clock that reads `c` more, with a step counter `d` higher. -/
def delayed (c : K) (d : ℕ) (s : Sol K) : Sol K := { s with t := s.t + c, n := s.n + d }

lemma smartAxpy_delayed (c : K) (d : ℕ) (s : Sol K) (a : K) (x : Arr K) :
    (delayed c d s).smartAxpy a x = delayed c d (s.smartAxpy a x) := by
  unfold Sol.smartAxpy delayed; split_ifs <;> rfl

/-- Stage states before stage `k`. -/
structure StageLag (c : K) (d : ℕ) (low : Bool) (k : ℕ) (A B : StageState K) : Prop where
  work : Frame A.work B.work
  sol : A.sol = delayed c d B.sol
  incr : ∀ j < (if low then (if k = 0 then 0 else 1) else k), A.incr j = B.incr j

lemma foldl_frame (β : ℕ → K) (i j : ℕ → Arr K) (l : List ℕ) : ∀ (a b : Sol K), (∀ m ∈ l, i m = j m) → Alike a b →
    Alike (l.foldl (fun uk m => uk.smartAxpy (β m) (i m)) a) (l.foldl (fun uk m => uk.smartAxpy (β m) (j m)) b) := by
  induction l with
  | nil => intro a b _ h; exact h
  | cons m l ih =>
    intro a b hij h
    simp only [List.foldl_cons]
    refine ih _ _ (fun q hq => hij q (List.mem_cons_of_mem _ hq)) ?_
    rw [hij m List.mem_cons_self]
    exact h.axpy _ _

lemma Frame.copy {a b us vs : Sol K} (h : Frame a b) (hu : us.u = vs.u) : Alike (a.copyDataOnly us) (b.copyDataOnly vs) := by
  obtain ⟨⟨h1, h2, h3, h4, h5, h6, h7, h8, h9, h10, h11⟩, hs⟩ := h
  unfold Sol.copyDataOnly
  exact ⟨⟨⟨h1, h2, h3, h4, h5, h6, h7, h8, h9, h10, h11⟩, hs⟩, hu⟩

lemma Alike.clock {a b : Sol K} (h : Alike a b) (t t' : K) : Alike { a with t := t } { b with t := t' } := by
  obtain ⟨⟨⟨h1, h2, h3, h4, h5, h6, h7, h8, h9, h10, h11⟩, hs⟩, hu⟩ := h
  exact ⟨⟨⟨h1, h2, h3, h4, h5, h6, h7, h8, h9, h10, h11⟩, hs⟩, hu⟩

/-- limit (after the first stage) and residual. -/
lemma limit_residual_alike (lm : Limiter K) (k : ℕ) {a b : Sol K} (h : Alike a b) :
    (∃ e, (if k > 0 then lm.limit a else .ok a) = .error e ∧ (if k > 0 then lm.limit b else .ok b) = .error e) ∨
    (∃ a' b', (if k > 0 then lm.limit a else .ok a) = .ok a' ∧ (if k > 0 then lm.limit b else .ok b) = .ok b' ∧
      ((∃ e, residual a' = .error e ∧ residual b' = .error e) ∨
       (∃ a'' b'' F, residual a' = .ok (a'', F) ∧ residual b' = .ok (b'', F) ∧ Frame a'' b''))) := by
  have hl : Both (Kept a b) (if k > 0 then lm.limit a else .ok a) (if k > 0 then lm.limit b else .ok b) := by
    by_cases hk : k > 0
    · rw [if_pos hk, if_pos hk]; exact limit_alike lm h
    · rw [if_neg hk, if_neg hk]; exact .ok ⟨h, id, rfl, rfl, rfl, rfl⟩
  generalize (if k > 0 then lm.limit a else .ok a) = x at hl
  generalize (if k > 0 then lm.limit b else .ok b) = y at hl
  cases hl with
  | err e => exact .inl ⟨e, rfl, rfl⟩
  | @ok a' b' hk =>
    refine .inr ⟨a', b', rfl, rfl, ?_⟩
    have hr := residual_alike hk.toAlike
    generalize residual a' = x at hr
    generalize residual b' = y at hr
    cases hr with
    | err e => exact .inl ⟨e, rfl, rfl⟩
    | @ok p q hk =>
      obtain ⟨a'', F⟩ := p
      obtain ⟨b'', G⟩ := q
      obtain ⟨h1, h2⟩ := hk
      simp only at h1 h2
      subst h2
      exact .inr ⟨a'', b'', F, rfl, rfl, h1.toFrame⟩

lemma classicStage_sim (lm : Limiter K) (tab : Tableau K) {us vs : Sol K} (hu : us.u = vs.u) (dt : K) (k : ℕ) (g al c : K) (d : ℕ)
    {A B : StageState K} (h : StageLag c d false k A B) :
    Both (StageLag c d false (k + 1)) (classicStage (codeEnv lm) tab us dt k g al A) (classicStage (codeEnv lm) tab vs dt k g al B) := by
  have hacc : Alike (accumulate tab k A.incr (A.work.copyDataOnly us)) (accumulate tab k B.incr (B.work.copyDataOnly vs)) := by
    unfold accumulate
    refine foldl_frame (fun j => tab.beta k j) _ _ _ _ _ (fun m hm => h.incr m ?_) (h.work.copy hu)
    simpa using List.mem_range.mp hm
  have hclk := hacc.clock ((accumulate tab k A.incr (A.work.copyDataOnly us)).t + al * dt) ((accumulate tab k B.incr (B.work.copyDataOnly vs)).t + al * dt)
  unfold classicStage
  simp only
  rcases limit_residual_alike lm k hclk with ⟨e, h1, h2⟩ | ⟨a', b', h1, h2, ⟨e, h3, h4⟩ | ⟨a'', b'', F, h3, h4, hfr⟩⟩
  · rw [h1, h2]; exact .err e
  · rw [h1, h2]; simp only [h3, h4]; exact .err e
  · rw [h1, h2]; simp only [h3, h4]
    refine .ok ⟨hfr, ?_, fun j hj => ?_⟩
    · simp only [Function.update_self]; rw [h.sol, smartAxpy_delayed]
    · simp only [Bool.false_eq_true, if_false] at hj
      by_cases hjk : j = k
      · subst hjk; simp
      · simp only [Function.update_of_ne hjk]
        exact h.incr j (by simp only [Bool.false_eq_true, if_false]; omega)

lemma lowStage_sim (lm : Limiter K) {us vs : Sol K} (hu : us.u = vs.u) (dt : K) (k : ℕ) (be g c : K) (d : ℕ) (h0 : k = 0 → be = 0)
    {A B : StageState K} (h : StageLag c d true k A B) :
    Both (StageLag c d true (k + 1)) (lowStage (codeEnv lm) us dt k be g A) (lowStage (codeEnv lm) vs dt k be g B) := by
  have hacc : Alike ((A.work.copyDataOnly us).smartAxpy be (A.incr 0)) ((B.work.copyDataOnly vs).smartAxpy be (B.incr 0)) := by
    by_cases hk : k = 0
    · rw [h0 hk, smartAxpy_zero, smartAxpy_zero]; exact h.work.copy hu
    · exact foldl_frame (fun _ => be) A.incr B.incr [0] _ _ (fun m hm => h.incr m (by simp at hm; simp [hk, hm])) (h.work.copy hu)
  have hclk := hacc.clock (((A.work.copyDataOnly us).smartAxpy be (A.incr 0)).t + be * dt) (((B.work.copyDataOnly vs).smartAxpy be (B.incr 0)).t + be * dt)
  unfold lowStage
  simp only
  rcases limit_residual_alike lm k hclk with ⟨e, h1, h2⟩ | ⟨a', b', h1, h2, ⟨e, h3, h4⟩ | ⟨a'', b'', F, h3, h4, hfr⟩⟩
  · rw [h1, h2]; exact .err e
  · rw [h1, h2]; simp only [h3, h4]; exact .err e
  · rw [h1, h2]; simp only [h3, h4]
    refine .ok ⟨hfr, ?_, fun j hj => ?_⟩
    · simp only; rw [h.sol, smartAxpy_delayed]
    · simp only [if_true, Nat.add_eq_zero_iff, one_ne_zero, and_false, if_false] at hj
      obtain rfl : j = 0 := by omega
      simp

lemma classicStages_sim (lm : Limiter K) (tab : Tableau K) {us vs : Sol K} (hu : us.u = vs.u) (dt : K) (c : K) (d : ℕ) (l : List (K × K)) :
    ∀ (k : ℕ) {A B : StageState K}, StageLag c d false k A B →
    Both (fun x y => Frame x.work y.work ∧ x.sol = delayed c d y.sol) (classicStages (codeEnv lm) tab us dt k l A) (classicStages (codeEnv lm) tab vs dt k l B) := by
  induction l with
  | nil => intro k A B h; exact .ok ⟨h.work, h.sol⟩
  | cons a l ih =>
    obtain ⟨g, al⟩ := a
    intro k A B h
    have hs := classicStage_sim lm tab hu dt k g al c d h
    unfold classicStages
    generalize classicStage (codeEnv lm) tab us dt k g al A = x at hs
    generalize classicStage (codeEnv lm) tab vs dt k g al B = y at hs
    cases hs with
    | err e => exact .err e
    | ok h' => exact ih _ h'

lemma lowStages_sim (lm : Limiter K) {us vs : Sol K} (hu : us.u = vs.u) (dt : K) (c : K) (d : ℕ) (l : List (K × K)) :
    ∀ (k : ℕ), (k = 0 → ∀ a ∈ l.head?, a.1 = 0) → ∀ {A B : StageState K}, StageLag c d true k A B →
    Both (fun x y => Frame x.work y.work ∧ x.sol = delayed c d y.sol) (lowStages (codeEnv lm) us dt k l A) (lowStages (codeEnv lm) vs dt k l B) := by
  induction l with
  | nil => intro k _ A B h; exact .ok ⟨h.work, h.sol⟩
  | cons a l ih =>
    obtain ⟨be, g⟩ := a
    intro k h0 A B h
    have hs := lowStage_sim lm hu dt k be g c d (fun hk => h0 hk (be, g) rfl) h
    unfold lowStages
    generalize lowStage (codeEnv lm) us dt k be g A = x at hs
    generalize lowStage (codeEnv lm) vs dt k be g B = y at hs
    cases hs with
    | err e => exact .err e
    | ok h' => exact ih (k + 1) (fun hk => absurd hk (Nat.succ_ne_zero k)) h'

lemma inner_sim (lm : Limiter K) (sch : Scheme K) {us vs : Sol K} (hu : us.u = vs.u) (dt : K) (c : K) (d : ℕ) {A B : StageState K}
    (hw : Frame A.work B.work) (hs : A.sol = delayed c d B.sol) :
    Both (fun x y => Frame x.work y.work ∧ x.sol = delayed c d y.sol) (sch.inner (codeEnv lm) us dt A) (sch.inner (codeEnv lm) vs dt B) := by
  cases sch with
  | low =>
    refine lowStages_sim lm hu dt c d _ 0 (fun _ a ha => ?_) ⟨hw, hs, fun j hj => absurd hj (by simp)⟩
    simp [lowStorageBetas, lowStorageGammas] at ha
    rw [← ha]
  | classic tab => exact classicStages_sim lm tab hu dt c d _ 0 ⟨hw, hs, fun j hj => absurd hj (by simp)⟩

/-- Output record on the other clock, numbered `m` higher. -/
def renumbered (c : K) (d m : ℕ) (o : OutRec K) : OutRec K := ⟨o.nout + m, o.dt, delayed c d o.sol⟩

/-- Two runs, the clock of `A` reading `c` more, its step counter `d` more, its outputs numbered `m` higher; `pre` is what
`A` had written when `B` started. -/
structure LoopLag (c : K) (d m : ℕ) (pre : List (OutRec K)) (A B : LoopState K) : Prop where
  sol : A.sol = delayed c d B.sol
  work : Frame A.work B.work
  nout : A.nout = B.nout + m
  tout : B.status = .running → A.tout = B.tout + c
  touts : A.touts = B.touts.map (· + c)
  status : A.status = B.status
  log : A.log = pre ++ (B.log.tail.map (renumbered c d m))
  ne : B.log ≠ []

lemma getNext_sim (s : Sol K) (c : K) (d : ℕ) (tout cfl tf : K) :
    getNextTimeStep (delayed c d s) (tout + c) cfl (tf + c) = getNextTimeStep s tout cfl tf := by
  have e1 : cflTimeStep (delayed c d s) cfl = cflTimeStep s cfl := rfl
  have e2 : (delayed c d s).t = s.t + c := rfl
  unfold getNextTimeStep
  rw [e1, e2]
  have e3 : tf + c - (s.t + c) = tf - s.t := by ring
  have e4 : tout + c - (s.t + c) = tout - s.t := by ring
  unfold adjustForOutput
  rw [e3, e4]

lemma tail_append_single {α : Type*} {l : List α} (h : l ≠ []) (a : α) : (l ++ [a]).tail = l.tail ++ [a] := by
  cases l with
  | nil => contradiction
  | cons b l => rfl

lemma loop_sim (lm : Limiter K) (sch : Scheme K) {c : K} {d m : ℕ} {pre : List (OutRec K)} {da db : RkDeck K}
    (hcfl : da.cfl = db.cfl) (htf : da.finaltime = db.finaltime + c) {A B : LoopState K} (h : LoopLag c d m pre A B) :
    LoopLag c d m pre (loopBody (codeEnv lm) da (sch.inner (codeEnv lm)) A) (loopBody (codeEnv lm) db (sch.inner (codeEnv lm)) B) := by
  by_cases hr : B.status = .running
  swap
  · rw [loopBody_stopped hr, loopBody_stopped (by rw [h.status]; exact hr)]; exact h
  have hra : A.status = .running := h.status.trans hr
  unfold loopBody
  rw [hr, hra]
  simp only
  rw [h.tout hr, h.sol, hcfl, htf, getNext_sim]
  cases hn : getNextTimeStep B.sol B.tout db.cfl db.finaltime with
  | error e =>
    exact ⟨rfl, h.work, h.nout, fun hc => by simp at hc, h.touts, rfl, h.log, h.ne⟩
  | ok v =>
    obtain ⟨dt, o, dn⟩ := v
    simp only
    have hin := inner_sim lm sch (us := A.us.copyDataOnly (delayed c d B.sol)) (vs := B.us.copyDataOnly B.sol) rfl dt c d
      (A := ⟨A.work, delayed c d B.sol, A.incr⟩) (B := ⟨B.work, B.sol, B.incr⟩) h.work rfl
    generalize sch.inner (codeEnv lm) (A.us.copyDataOnly (delayed c d B.sol)) dt ⟨A.work, delayed c d B.sol, A.incr⟩ = x at hin
    generalize sch.inner (codeEnv lm) (B.us.copyDataOnly B.sol) dt ⟨B.work, B.sol, B.incr⟩ = y at hin
    cases hin with
    | err e => exact ⟨rfl, h.work, h.nout, fun hc => by simp at hc, h.touts, rfl, h.log, h.ne⟩
    | @ok x y hxy =>
      obtain ⟨hw, hs⟩ := hxy
      simp only
      have hbc : (Sol.applyBc { x.sol with t := x.sol.t + dt, n := x.sol.n + 1 }) =
          delayed c d (Sol.applyBc { y.sol with t := y.sol.t + dt, n := y.sol.n + 1 }) := by
        rw [hs]
        have e1 : ({ delayed c d y.sol with t := (delayed c d y.sol).t + dt, n := (delayed c d y.sol).n + 1 } : Sol K) =
            { ({ y.sol with t := y.sol.t + dt, n := y.sol.n + 1 } : Sol K) with t := y.sol.t + dt + c, n := y.sol.n + 1 + d, sensors := y.sol.sensors } := by
          simp only [delayed, Sol.mk.injEq, true_and, and_true]
          exact ⟨by ring, by omega⟩
        rw [e1, applyBc_with]
        simp only [delayed, applyBc_t, applyBc_n, Sol.mk.injEq, true_and]
        exact (applyBc_sensors ({ y.sol with t := y.sol.t + dt, n := y.sol.n + 1 } : Sol K)).symm
      rw [hbc]
      set s := Sol.applyBc { y.sol with t := y.sol.t + dt, n := y.sol.n + 1 } with hsdef
      have hl := limit_alike lm (a := delayed c d s) (b := s) (by refine ⟨⟨?_, rfl⟩, rfl⟩; constructor <;> rfl)
      generalize lm.limit (delayed c d s) = p at hl
      generalize lm.limit s = q at hl
      cases hl with
      | err e => exact ⟨rfl, hw, h.nout, fun hc => by simp at hc, h.touts, rfl, h.log, h.ne⟩
      | @ok p q hpq =>
        have hp : p = delayed c d q := by
          have := hpq.toAlike.eq
          have h1 := hpq.sensors rfl
          have h2 := hpq.ta
          have h3 := hpq.na
          have h4 := hpq.tb
          have h5 := hpq.nb
          rw [this]
          simp only [delayed] at h2 h3 ⊢
          rw [h4, h5, ← h2, ← h3, ← h1]
        subst hp
        simp only
        unfold outputPhase
        cases o with
        | false =>
          simp only [Bool.false_eq_true, if_false]
          exact ⟨rfl, hw, h.nout, fun _ => rfl, h.touts, rfl, h.log, h.ne⟩
        | true =>
          have hlog : A.log ++ [⟨A.nout, dt, delayed c d q⟩] = pre ++ ((B.log ++ [(⟨B.nout, dt, q⟩ : OutRec K)]).tail.map (renumbered c d m)) := by
            rw [tail_append_single h.ne, h.log, List.map_append, List.append_assoc, h.nout]
            rfl
          have hne : B.log ++ [(⟨B.nout, dt, q⟩ : OutRec K)] ≠ [] := by simp
          simp only [if_true]
          cases dn with
          | true =>
            simp only [if_true]
            exact ⟨rfl, hw, h.nout, fun hc => by simp at hc, h.touts, rfl, hlog, hne⟩
          | false =>
            simp only [Bool.false_eq_true, if_false]
            have ht := h.touts
            cases hb : B.touts with
            | nil =>
              rw [hb] at ht
              simp only [List.map_nil] at ht
              rw [ht]
              refine ⟨rfl, hw, ?_, fun hc => by simp at hc, rfl, rfl, hlog, hne⟩
              simp only [h.nout]; omega
            | cons t ts =>
              rw [hb] at ht
              simp only [List.map_cons] at ht
              rw [ht]
              refine ⟨rfl, hw, ?_, fun _ => rfl, rfl, rfl, hlog, hne⟩
              simp only [h.nout]; omega

lemma iterate_sim (lm : Limiter K) (sch : Scheme K) {c : K} {d m : ℕ} {pre : List (OutRec K)} {da db : RkDeck K}
    (hcfl : da.cfl = db.cfl) (htf : da.finaltime = db.finaltime + c) (k : ℕ) {A B : LoopState K} (h : LoopLag c d m pre A B) :
    LoopLag c d m pre ((loopBody (codeEnv lm) da (sch.inner (codeEnv lm)))^[k] A) ((loopBody (codeEnv lm) db (sch.inner (codeEnv lm)))^[k] B) := by
  induction k with
  | zero => exact h
  | succ k ih => rw [Function.iterate_succ_apply', Function.iterate_succ_apply']; exact loop_sim lm sch hcfl htf ih

/-- The working copy keeps the shape of the solution, if the sensor of the physics keeps the length of its array. -/
lemma frame_invariant (lm : Limiter K) {s0 : Sol K}
    (hlen : ∀ th u NF v v', s0.kw.sensing th u NF v = .ok v' → v'.len = v.len) :
    Invariant (codeEnv lm) (fun s => Frame s s0) (fun s => Frame s s0) (fun _ => True) := by
  have hbc : ∀ s : Sol K, Frame s s0 → Frame s.applyBc s0 := fun s h =>
    Frame.trans ⟨applyBc_setup s, by unfold sensorShape; rw [applyBc_sensors]⟩ h
  have hset : ∀ (s : Sol K) (u : Arr K) (t : K) (n : ℕ), Frame s s0 → Frame { s with u := u, t := t, n := n } s0 := by
    intro s u t n h
    obtain ⟨⟨h1, h2, h3, h4, h5, h6, h7, h8, h9, h10, h11⟩, hs⟩ := h
    exact ⟨⟨h1, h2, h3, h4, h5, h6, h7, h8, h9, h10, h11⟩, hs⟩
  have hlim : ∀ s v : Sol K, Frame s s0 → lm.limit s = .ok v → Frame v s0 := by
    intro s v h hv
    cases lm with
    | none => cases hv; exact h
    | some lm =>
      unfold Limiter.limit HrLimiter.adaptiveHr at hv
      simp only at hv
      cases hs : s.sensors with
      | none => rw [hs] at hv; cases hv
      | some sn =>
        rw [hs] at hv
        simp only at hv
        unfold Sensor.sensing at hv
        cases hq : s.kw.sensing sn.thresholds s.u s.NF ⟨sn.sensors.len, fun _ => 0⟩ with
        | error e => rw [hq] at hv; cases hv
        | ok w =>
          rw [hq] at hv
          simp only at hv
          split at hv
          · cases hv
          · cases hv
            refine hbc _ ?_
            have hl := hlen _ _ _ _ _ (h.kw ▸ hq)
            obtain ⟨⟨h1, h2, h3, h4, h5, h6, h7, h8, h9, h10, h11⟩, hsh⟩ := h
            refine ⟨⟨h1, h2, h3, h4, h5, h6, h7, h8, h9, h10, h11⟩, ?_⟩
            rw [← hsh]
            unfold sensorShape
            rw [hs]
            simp [hl]
  exact
    { zero := fun _ _ => trivial
      smul := fun _ _ _ => trivial
      axpy := fun a s A h _ => hset s _ s.t s.n h
      copy := fun w s hw _ => hset w _ w.t w.n hw
      clock := fun s a m h => hset s s.u _ _ h
      head := fun _ h => h
      bc := hbc
      headLimit := hlim
      stageLimit := hlim
      res := by
        intro s v A h hv
        change residual s = _ at hv
        unfold residual at hv
        simp only at hv
        split at hv
        · cases hv
        · split at hv
          · cases hv
          · cases hv; exact ⟨hbc _ h, trivial⟩ }

lemma run_frame (lm : Limiter K) (sch : Scheme K) (deck : RkDeck K) {s0 : Sol K}
    (hlen : ∀ th u NF v v', s0.kw.sensing th u NF v = .ok v' → v'.len = v.len) (k : ℕ) :
    Frame (sch.run (codeEnv lm) deck s0 k).work (sch.run (codeEnv lm) deck s0 k).sol := by
  have h := (frame_invariant lm hlen).sim.run deck sch ⟨rfl, Frame.refl s0⟩ rfl rfl k
  exact h.work.2.trans h.sol.2.symm

lemma delayed_zero (s : Sol K) : delayed 0 0 s = s := by cases s; simp [delayed]

lemma initLoop_lag (deck : RkDeck K) (sol : Sol K) (c : K) (d : ℕ) :
    LoopLag c d 0 [⟨0, 0, delayed c d sol⟩] (initLoop { deck with finaltime := deck.finaltime + c } (delayed c d sol)) (initLoop deck sol) := by
  have ht : ((List.range deck.nout).map (linspace (sol.t + c) (deck.finaltime + c) deck.nout).val).tail =
      (((List.range deck.nout).map (linspace sol.t deck.finaltime deck.nout).val).tail).map (· + c) := by
    rw [← List.map_tail, ← List.map_tail, List.map_map]
    apply List.map_congr_left
    intro i _
    unfold linspace
    simp only [Function.comp_apply, add_sub_add_right_eq_sub]
    split_ifs <;> ring
  unfold initLoop
  simp only
  rw [show (delayed c d sol).t = sol.t + c from rfl, ht]
  have hfr : Frame (delayed c d sol) sol := ⟨by constructor <;> rfl, rfl⟩
  cases (((List.range deck.nout).map (linspace sol.t deck.finaltime deck.nout).val).tail) with
  | nil => exact ⟨rfl, hfr, rfl, fun hc => by simp at hc, rfl, rfl, rfl, by simp⟩
  | cons t ts => exact ⟨rfl, hfr, rfl, fun _ => rfl, rfl, rfl, rfl, by simp⟩

/-- Requested times from output `m` on are those of a run started there. -/
lemma outTime_rest (t0 tf : K) {N m i : ℕ} (h : m + 2 ≤ N) : outTime (outTime t0 tf N m) tf (N - m) i = outTime t0 tf N (m + i) := by
  unfold outTime
  have h1 : ((N - m - 1 : ℕ) : K) ≠ 0 := by exact_mod_cast (by omega : N - m - 1 ≠ 0)
  have h2 : ((N - 1 : ℕ) : K) ≠ 0 := by exact_mod_cast (by omega : N - 1 ≠ 0)
  have h3 : ((N - 1 : ℕ) : K) = ((N - m - 1 : ℕ) : K) + m := by rw [← Nat.cast_add]; congr 1; omega
  have h4 : ((N - m - 1 : ℕ) : K) + m ≠ 0 := h3 ▸ h2
  rw [h3]
  field_simp
  push_cast
  ring

end Dg1d
