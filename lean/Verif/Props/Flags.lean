import Verif.Model.Log
import Verif.Proofs.Autonomy
import Verif.Props.Limiter
import Verif.Props.Sensor
import Verif.Props.Main
import Verif.Props.LimitedLinear
import Verif.Props.Mute
import Verif.Props.NanLimited

/-!
# C112 — the sensor flags of an output are those of the data printed with them
-/

open Dg1d.Spec

namespace Dg1d.Props
open Text

variable {lib : GaussLib ℝ} {p N : ℕ} {lm : HrLimiter ℝ} {s s₀ x x' : Sol ℝ} {ft : FloatText ℝ} {d : Deck ℝ} {ic : IC.Setup}

/-- Running the sensor on the solution would leave its flags as they are. -/
def OwnFlags (s : Sol ℝ) : Prop := ∃ sn, s.sensors = some sn ∧ sn.sensing s = .ok sn

lemma limit_own (hok : LimiterOk lm p) (hb : x.Built lib p) (hkw : MeanSensing x.kw) (hg : ∀ c, x.u.val 0 (x.bcCol c) = x.u.val 0 c)
    (h : Limiter.limit (some lm) x = .ok x') : Like x' x ∧ sensorShape x' = sensorShape x ∧ OwnFlags x' := by
  obtain ⟨l1, -, -, l4⟩ := limit_row0 hok hb h
  obtain ⟨sn, sn', v, U, h1, h2, h3, -, -, -, -⟩ := limit_form hok hb h
  have hsn : x'.sensors = some sn' := by rw [h3, applyBc_sensors]
  have hrow : ∀ c, x'.u.val 0 c = x.u.val 0 c := fun c => by rw [l4, hg]
  unfold Sensor.sensing at h2
  rcases hk : x.kw.sensing sn.thresholds x.u x.NF ⟨sn.sensors.len, fun _ => 0⟩ with err | w
  · rw [hk] at h2; cases h2
  rw [hk] at h2
  cases h2
  have hlen := hkw.len _ _ _ _ _ hk
  dsimp only at hlen
  refine ⟨l1, ?_, _, hsn, ?_⟩
  · unfold sensorShape
    rw [hsn, h1]
    simp [hlen]
  · unfold Sensor.sensing
    rw [l1.setup.kw, l1.setup.NF, hkw.row _ _ _ _ _ l1.cols hrow]
    dsimp only
    rw [hlen, hk]

lemma filled_row (hb : x.Built lib p) (c : ℕ) : x.applyBc.u.val 0 (x.applyBc.bcCol c) = x.applyBc.u.val 0 c := by
  have hbc : x.applyBc.bcCol c = x.bcCol c := by
    have h := applyBc_setup x
    unfold Sol.bcCol
    rw [h.NF, h.NE, h.bcl, h.bcr]
  rw [hbc, applyBc_eq x hb.NF hb.NE hb.cols]
  show x.u.val 0 (x.bcCol (x.bcCol c)) = x.u.val 0 (x.bcCol c)
  rw [bcCol_idem x hb.NE]

/-- `a` has the setup and the sensors of `b`. -/
structure Twin (a b : Sol ℝ) : Prop where
  like : Like a b
  sens : a.sensors = b.sensors

lemma Twin.axpy {a b : Sol ℝ} (h : Twin a b) (c : ℝ) (A : Arr ℝ) : Twin (a.smartAxpy c A) b :=
  ⟨by unfold Sol.smartAxpy; split_ifs
      · exact h.like.axpy c A
      · exact h.like, (smartAxpy_sensors a c A).trans h.sens⟩

lemma classic_twin {env : Env ℝ} {tab : Tableau ℝ} {us : Sol ℝ} {dt : ℝ} {b : Sol ℝ} :
    ∀ {l : List (ℝ × ℝ)} {k : ℕ} {st st' : StageState ℝ}, Twin st.sol b → classicStages env tab us dt k l st = .ok st' → Twin st'.sol b
  | [], _, _, _, h, e => by cases e; exact h
  | (c, alpha) :: l, k, st, st', h, e => by
    unfold classicStages at e
    rcases h1 : classicStage env tab us dt k c alpha st with err | st1
    · rw [h1] at e; cases e
    rw [h1] at e
    refine classic_twin (l := l) ?_ e
    unfold classicStage at h1
    simp only at h1
    split at h1
    · cases h1
    · split at h1
      · cases h1
      · cases h1; exact h.axpy _ _

lemma low_twin {env : Env ℝ} {us : Sol ℝ} {dt : ℝ} {b : Sol ℝ} :
    ∀ {l : List (ℝ × ℝ)} {k : ℕ} {st st' : StageState ℝ}, Twin st.sol b → lowStages env us dt k l st = .ok st' → Twin st'.sol b
  | [], _, _, _, h, e => by cases e; exact h
  | (c, alpha) :: l, k, st, st', h, e => by
    unfold lowStages at e
    rcases h1 : lowStage env us dt k c alpha st with err | st1
    · rw [h1] at e; cases e
    rw [h1] at e
    refine low_twin (l := l) ?_ e
    unfold lowStage at h1
    simp only at h1
    split at h1
    · cases h1
    · split at h1
      · cases h1
      · cases h1; exact h.axpy _ _

lemma inner_twin {env : Env ℝ} (sch : Scheme ℝ) {us : Sol ℝ} {dt : ℝ} {b : Sol ℝ} {st st' : StageState ℝ} (h : Twin st.sol b)
    (e : sch.inner env us dt st = .ok st') : Twin st'.sol b := by
  cases sch with
  | low => exact low_twin h e
  | classic tab => exact classic_twin h e

/-- What holds for the start and is re-established by step and limiter holds for all outputs. -/
lemma outputs_inv {P : Sol ℝ → Prop} {env : Env ℝ} (h0 : P s)
    (hstep : ∀ a b c t n, P a → Twin b a → env.limit (Sol.applyBc { b with t := t, n := n }) = .ok c → P c) (deck : RkDeck ℝ) (k : ℕ) :
    ∀ o ∈ (integrate env deck s k).log, P o.sol := by
  have key : (((integrate env deck s k).status = .running → P (integrate env deck s k).sol) ∧ ∀ o ∈ (integrate env deck s k).log, P o.sol) := by
    unfold integrate Scheme.run
    generalize schemeFor deck.rk = sch
    induction k with
    | zero =>
      have h1 : (runLoop env deck (sch.inner env) s 0).sol = s ∧ (runLoop env deck (sch.inner env) s 0).log = [⟨0, 0, s⟩] := by
        show (initLoop deck s).sol = s ∧ (initLoop deck s).log = _
        unfold initLoop
        dsimp only
        split <;> exact ⟨rfl, rfl⟩
      refine ⟨fun _ => by rw [h1.1]; exact h0, fun o ho => ?_⟩
      rw [h1.2, List.mem_singleton] at ho
      rw [ho]
      exact h0
    | succ k ih =>
      rw [runLoop_succ]
      obtain ⟨ih1, ih2⟩ := ih
      by_cases hr : (runLoop env deck (sch.inner env) s k).status = .running
      swap
      · rw [loopBody_stopped hr]; exact ⟨ih1, ih2⟩
      unfold loopBody
      rw [hr]
      simp only
      split
      · exact ⟨fun h => by simp at h, ih2⟩
      · rename_i dt output done _
        split
        · exact ⟨fun h => by simp at h, ih2⟩
        · rename_i ss hss
          split
          · exact ⟨fun h => by simp at h, ih2⟩
          · rename_i c hc
            have hP : P c := hstep _ ss.sol c _ _ (ih1 hr) (inner_twin sch ⟨Like.refl _, rfl⟩ hss) hc
            have hlog : ∀ r, ∀ o ∈ (runLoop env deck (sch.inner env) s k).log ++ [⟨r, dt, c⟩], P o.sol := by
              intro r o ho
              rcases List.mem_append.mp ho with ho | ho
              · exact ih2 o ho
              · rw [List.mem_singleton.mp ho]; exact hP
            unfold outputPhase
            split
            · dsimp only
              split
              · exact ⟨fun _ => hP, hlog _⟩
              · split
                · exact ⟨fun _ => hP, hlog _⟩
                · exact ⟨fun _ => hP, hlog _⟩
            · exact ⟨fun _ => hP, ih2⟩
  exact key.2

/-- **C112 (limited runs).** From a solution with its own flags, every output of a limited run has its own flags, whatever the residual is. -/
theorem C112_own (hs : s₀.Built lib p) (hi : Limiter.init "adaptive_hr" s₀ = .ok (some lm)) (hb : s.Built lib p) (hkw : MeanSensing s.kw)
    (h0 : OwnFlags s) (res : Sol ℝ → Except PyErr (Sol ℝ × Arr ℝ)) (deck : RkDeck ℝ) (k : ℕ) :
    ∀ o ∈ (integrate ⟨res, Limiter.limit (some lm)⟩ deck s k).log, OwnFlags o.sol ∧ Like o.sol s ∧ sensorShape o.sol = sensorShape s := by
  have h := outputs_inv (s := s) (P := fun x => Like x s ∧ sensorShape x = sensorShape s ∧ OwnFlags x) (env := ⟨res, Limiter.limit (some lm)⟩)
    ⟨Like.refl s, rfl, h0⟩ (fun a b c t n ha hba hc => by
      have hl : Like ({ b with t := t, n := n } : Sol ℝ) s := (hba.like.trans ha.1).clock t n
      have hl2 := hl.applyBc
      obtain ⟨g1, g2, g3⟩ := limit_own (ok_of_init hs hi) (hl2.built hb) (by rw [hl2.setup.kw]; exact hkw) (filled_row (hl.built hb)) hc
      refine ⟨g1.trans hl2, g2.trans ?_, g3⟩
      unfold sensorShape at ha ⊢
      rw [applyBc_sensors, ← ha.2.1, ← hba.sens]) deck k
  exact fun o ho => ⟨(h o ho).2.2, (h o ho).1, (h o ho).2.1⟩

/-- **C112 (unlimited runs).** Without limiter the flags never change. -/
theorem C112_off (res : Sol ℝ → Except PyErr (Sol ℝ × Arr ℝ)) (deck : RkDeck ℝ) (k : ℕ) :
    ∀ o ∈ (integrate ⟨res, Limiter.limit none⟩ deck s k).log, o.sol.sensors = s.sensors :=
  outputs_inv (s := s) (P := fun x => x.sensors = s.sensors) (env := ⟨res, Limiter.limit none⟩) rfl (fun a b c t n ha hba hc => by
    have : c = Sol.applyBc { b with t := t, n := n } := by
      simp only [Limiter.limit] at hc
      exact (Except.ok.inj hc).symm
    rw [this, applyBc_sensors]
    exact hba.sens.trans ha) deck k

lemma code_sensing {γ : ℝ} {system riemann : Str} (h : CodePhysics γ system riemann s) : MeanSensing s.kw := by
  by_cases he : system = "euler".toList
  · rw [(h.euler he).1]; exact C55_euler _ _
  · rw [(h.advection he).1]; exact C55_advection

/-- **C112 (decks with limiter).** Every output of a run of a valid deck with the limiter carries flags, with the thresholds of the deck, that the
sensor would compute from the data of that output. -/
theorem C112_deck (hlib : lib.Ok) (junk : ℕ → ℝ) (hd : ValidDeck lib ft d p N ic) (hlim : d.limiting = "adaptive_hr".toList) :
    ∃ s lm, start lib ft junk d = .ok (s, lm) ∧ ∀ k, ∀ o ∈ (integrate ⟨residual, lm.limit⟩ d.rkDeck s k).log,
      CodePhysics (ic.gamma.getD (7 / 5)) d.system d.riemann o.sol ∧ o.sol.Built lib p ∧ o.sol.NE = N ∧ o.sol.xc.len = N ∧
      ∃ v : Vec ℕ, o.sol.sensors = some ⟨d.sensorThresholds, v⟩ ∧ v.len = N + 2 ∧
        (⟨d.sensorThresholds, v⟩ : Sensor ℝ).sensing o.sol = .ok ⟨d.sensorThresholds, v⟩ := by
  obtain ⟨c, s, lm, -, hst, S⟩ := C69_starts hlib junk hd
  have hl := S.limiter
  rw [hlim, show String.ofList "adaptive_hr".toList = "adaptive_hr" by simp] at hl
  obtain ⟨lm', hi, -⟩ := limiter_init S.built.basis S.built.gauss
  rw [hi] at hl
  cases hl
  have hne : d.sensorThresholds ≠ [] := by
    intro h0
    have := (hd.limiter hlim).2
    rw [h0] at this
    split_ifs at this <;> simp at this
  obtain ⟨v, hv, hvl⟩ := S.sensors hne
  obtain ⟨hcb, hkin⟩ := S.kin
  have hkw : MeanSensing s.kw := code_sensing S.physics
  have hkc : MeanSensing c.sol.applyBc.kw := by rw [(applyBc_setup c.sol).kw, ← hkin.like.setup.kw]; exact hkw
  obtain ⟨-, -, h0⟩ := limit_own (ok_of_init S.built hi) ((Like.refl c.sol).applyBc.built hcb) hkc (filled_row hcb) S.limited
  refine ⟨s, some lm', hst, fun k o ho => ?_⟩
  obtain ⟨⟨sn, g1, g2⟩, g3, g4⟩ := C112_own S.built hi S.built hkw h0 residual d.rkDeck k o ho
  unfold sensorShape at g4
  rw [g1, hv] at g4
  simp only [Option.map_some, Option.some.injEq, Prod.mk.injEq] at g4
  obtain ⟨e1, e2⟩ := g4
  obtain ⟨th, w⟩ := sn
  dsimp only at e1 e2
  subst e1
  exact ⟨⟨by rw [g3.setup.kw]; exact S.physics.kw, by rw [g3.setup.NF]; exact S.physics.NF⟩, g3.built S.built, by rw [g3.setup.NE]; exact S.NE, by rw [g3.setup.xc]; exact S.xc, w, g1,
    e2.trans hvl, g2⟩

/-- **C112 (linear decks with limiter).** The flag of a cell in an output is 1 if the printed cell averages jump, at one of the faces of the cell,
above the threshold, and 0 otherwise. -/
theorem C112_advection (hlib : lib.Ok) (junk : ℕ → ℝ) (hd : ValidDeck lib ft d p N ic) (hsys : d.system ≠ "euler".toList)
    (hlim : d.limiting = "adaptive_hr".toList) :
    ∃ s lm th rest, start lib ft junk d = .ok (s, lm) ∧ d.sensorThresholds = th :: rest ∧
      ∀ k, ∀ o ∈ (integrate ⟨residual, lm.limit⟩ d.rkDeck s k).log, ∃ v : Vec ℕ, o.sol.sensors = some ⟨th :: rest, v⟩ ∧ v.len = N + 2 ∧
        ∀ e, (NextTo N (fun i => psi |cellMean o.sol (i + 1) 0 - cellMean o.sol i 0| > th) e → v.val e = 1) ∧
          (¬ NextTo N (fun i => psi |cellMean o.sol (i + 1) 0 - cellMean o.sol i 0| > th) e → v.val e = 0) := by
  obtain ⟨s, lm, hst, h⟩ := C112_deck hlib junk hd hlim
  have hlen := (hd.limiter hlim).2
  rw [if_neg hsys] at hlen
  obtain ⟨th, rest, hth⟩ : ∃ th rest, d.sensorThresholds = th :: rest := by
    cases hc : d.sensorThresholds with
    | nil => rw [hc] at hlen; simp at hlen
    | cons a l => exact ⟨a, l, rfl⟩
  refine ⟨s, lm, th, rest, hst, hth, fun k o ho => ?_⟩
  obtain ⟨hp, hb, hN, -, v, h1, h2, h3⟩ := h k o ho
  rw [hth] at h1 h3
  have hA : AdvectionSol o.sol := by
    obtain ⟨a1, a2⟩ := hp.advection hsys
    exact ⟨a1, a2, by rw [hb.rows]; omega, by rw [hb.cols, a2, mul_one]⟩
  obtain ⟨sn', g1, -, -, g2⟩ := C48_flags hA ⟨th :: rest, v⟩ th rest rfl
  rw [h3] at g1
  cases g1
  rw [hN] at g2
  exact ⟨v, h1, h2, g2⟩

/-- **C112 (Euler decks with limiter).** The flag of a cell in an output with physical cell averages `W` is 2 next to a shock of the printed averages,
else 1 next to a discontinuity of them, else 0. -/
theorem C112_euler (hlib : lib.Ok) (junk : ℕ → ℝ) (hd : ValidDeck lib ft d p N ic) (hsys : d.system = "euler".toList)
    (hlim : d.limiting = "adaptive_hr".toList) (hγ : 1 < ic.gamma.getD (7 / 5)) :
    ∃ s lm th0 th1 rest, start lib ft junk d = .ok (s, lm) ∧ d.sensorThresholds = th0 :: th1 :: rest ∧
      ∀ k, ∀ o ∈ (integrate ⟨residual, lm.limit⟩ d.rkDeck s k).log, ∃ v : Vec ℕ, o.sol.sensors = some ⟨th0 :: th1 :: rest, v⟩ ∧ v.len = N + 2 ∧
        ∀ W : ℕ → Prim, (∀ e ≤ N + 1, (W e).Phys ∧ ∀ k : Fin 3, cellMean o.sol e k = (W e).cons (ic.gamma.getD (7 / 5)) k) →
          ∀ e, (NextTo N (ShockFace (ic.gamma.getD (7 / 5)) th1 W) e → v.val e = 2) ∧
            (¬ NextTo N (ShockFace (ic.gamma.getD (7 / 5)) th1 W) e → NextTo N (ContactFace (ic.gamma.getD (7 / 5)) th0 W) e → v.val e = 1) ∧
            (¬ NextTo N (ShockFace (ic.gamma.getD (7 / 5)) th1 W) e → ¬ NextTo N (ContactFace (ic.gamma.getD (7 / 5)) th0 W) e → v.val e = 0) := by
  obtain ⟨s, lm, hst, h⟩ := C112_deck hlib junk hd hlim
  have hlen := (hd.limiter hlim).2
  rw [if_pos hsys] at hlen
  obtain ⟨th0, th1, rest, hth⟩ : ∃ th0 th1 rest, d.sensorThresholds = th0 :: th1 :: rest := by
    rcases hc : d.sensorThresholds with _ | ⟨a, _ | ⟨b, l⟩⟩
    · rw [hc] at hlen; simp at hlen
    · rw [hc] at hlen; simp at hlen
    · exact ⟨a, b, l, rfl⟩
  refine ⟨s, lm, th0, th1, rest, hst, hth, fun k o ho => ?_⟩
  obtain ⟨hp, hb, hN, -, v, h1, h2, h3⟩ := h k o ho
  rw [hth] at h1 h3
  refine ⟨v, h1, h2, fun W hW => ?_⟩
  have hE : EulerSol (ic.gamma.getD (7 / 5)) o.sol W := by
    obtain ⟨a1, a2⟩ := hp.euler hsys
    exact ⟨⟨_, a1⟩, a2, by rw [hb.rows]; omega, by rw [hb.cols, a2], fun e he => (hW e (by omega)).1, fun e he => (hW e (by omega)).2⟩
  obtain ⟨sn', g1, -, -, g2⟩ := C49_flags hγ hE ⟨th0 :: th1 :: rest, v⟩ th0 th1 rest rfl
  rw [h3] at g1
  cases g1
  rw [hN] at g2
  exact g2

/-- **C112 (decks without limiter).** All flags of all outputs are zero, whatever the data does: the sensor is never run. -/
theorem C112_silent (hlib : lib.Ok) (junk : ℕ → ℝ) (hd : ValidDeck lib ft d p N ic) (hlim : d.limiting ≠ "adaptive_hr".toList)
    (hth : d.sensorThresholds ≠ []) :
    ∃ s lm, start lib ft junk d = .ok (s, lm) ∧ ∀ k, ∀ o ∈ (integrate ⟨residual, lm.limit⟩ d.rkDeck s k).log,
      o.sol.sensors = some ⟨d.sensorThresholds, ⟨N + 2, fun _ => 0⟩⟩ := by
  obtain ⟨c, s, lm, hc, hst, S⟩ := C69_starts hlib junk hd
  have hl : lm = none := by
    have h := S.limiter
    unfold Limiter.init at h
    rw [if_neg (by
      intro h'
      exact hlim (by rw [← h', String.toList_ofList]))] at h
    exact (Except.ok.inj h).symm
  subst hl
  refine ⟨s, none, hst, fun k o ho => ?_⟩
  rw [C112_off residual d.rkDeck k o ho, S.unlimited hlim, applyBc_sensors]
  obtain ⟨name, p0, rest, l1, l2, l3, l4⟩ := hd.line
  obtain ⟨c', h1, -, -, -, -, -, -, -, -, -, -, -, -, -, -, -, h2, -⟩ :=
    C67_construct hlib junk (riemann := d.riemann) (enhLine := d.enhance) (th := d.sensorThresholds) l1 l2 hd.cells l3 l4 hd.enhance
  rw [← hd.order, hc] at h1
  cases h1
  exact h2 hth

/-- **C112 (the share).** The percentage printed with an output is that of the flagged cells inside the domain: between 0 and 100, 0 without flag,
100 with all cells flagged; a flag of a ghost cell does not count. -/
theorem C112_share (x : Sol ℝ) (sn : Sensor ℝ) (hx : 0 < x.xc.len) (hl : sn.sensors.len = x.xc.len + 2) :
    sensorShare x sn = 100 * ((Finset.Icc 1 x.xc.len).filter fun e => sn.sensors.val e ≠ 0).card / x.xc.len ∧
    0 ≤ sensorShare x sn ∧ sensorShare x sn ≤ 100 ∧
    (sensorShare x sn = 0 ↔ ∀ e, 1 ≤ e → e ≤ x.xc.len → sn.sensors.val e = 0) ∧
    (sensorShare x sn = 100 ↔ ∀ e, 1 ≤ e → e ≤ x.xc.len → sn.sensors.val e ≠ 0) := by
  set M := x.xc.len with hM
  set F := (Finset.Icc 1 M).filter fun e => sn.sensors.val e ≠ 0 with hF
  have hlen : (sn.sensors.slice 1 (-1)).len = M := by
    unfold Vec.slice pyIdx
    dsimp only
    rw [hl]
    split_ifs <;> omega
  have hval : ∀ i, (sn.sensors.slice 1 (-1)).val i = sn.sensors.val (i + 1) := by
    intro i
    unfold Vec.slice pyIdx
    dsimp only
    rw [hl]
    congr 1
    split_ifs <;> omega
  have hcount : (List.range (sn.sensors.slice 1 (-1)).len).countP (fun i => (sn.sensors.slice 1 (-1)).val i ≠ 0) = F.card := by
    rw [hlen, hF]
    simp only [hval]
    have e : (Finset.Icc 1 M).filter (fun e => sn.sensors.val e ≠ 0) = ((Finset.range M).filter fun i => sn.sensors.val (i + 1) ≠ 0).map ⟨(· + 1), add_left_injective 1⟩ := by
      ext a
      simp only [Finset.mem_filter, Finset.mem_Icc, Finset.mem_map, Finset.mem_range, Function.Embedding.coeFn_mk]
      constructor
      · rintro ⟨⟨h1, h2⟩, h3⟩
        exact ⟨a - 1, ⟨by omega, by rw [show a - 1 + 1 = a by omega]; exact h3⟩, by omega⟩
      · rintro ⟨i, ⟨h1, h2⟩, rfl⟩
        exact ⟨by omega, h2⟩
    rw [e, Finset.card_map, List.countP_eq_length_filter]
    rfl
  have hM0 : (0 : ℝ) < M := by exact_mod_cast hx
  have hsh : sensorShare x sn = 100 * F.card / M := by
    unfold sensorShare
    dsimp only
    rw [hcount]
    ring
  have hle : F.card ≤ M := (Finset.card_filter_le _ _).trans (by simp)
  have hle' : (F.card : ℝ) ≤ M := by exact_mod_cast hle
  refine ⟨hsh, by rw [hsh]; positivity, by rw [hsh, div_le_iff₀ hM0]; linarith, ?_, ?_⟩
  · rw [hsh, div_eq_zero_iff, or_iff_left hM0.ne', mul_eq_zero, or_iff_right (by norm_num), Nat.cast_eq_zero, Finset.card_eq_zero, hF, Finset.filter_eq_empty_iff]
    simp only [Finset.mem_Icc, not_not, and_imp]
  · rw [hsh, div_eq_iff hM0.ne', mul_right_inj' (by norm_num), Nat.cast_inj]
    constructor
    · intro h
      have : F = Finset.Icc 1 M := Finset.eq_of_subset_of_card_le (Finset.filter_subset _ _) (by rw [h]; simp)
      intro e h1 h2
      have he : e ∈ F := by rw [this]; exact Finset.mem_Icc.mpr ⟨h1, h2⟩
      exact (Finset.mem_filter.mp he).2
    · intro h
      rw [hF, Finset.filter_true_of_mem fun e he => h e (Finset.mem_Icc.mp he).1 (Finset.mem_Icc.mp he).2]
      simp

/-! ### Cases -/

/-- `C112_deck`, `C112_advection`, `C112_share`: with the threshold -1 every cell of every output is flagged, and 100 % are printed. -/
example (k : ℕ) : ∃ s lm, start realGauss Ex.decReal (fun _ => 0) Ex.shuAdv = .ok (s, lm) ∧
    ∀ o ∈ (integrate ⟨residual, lm.limit⟩ Ex.shuAdv.rkDeck s k).log, ∃ v : Vec ℕ, o.sol.sensors = some ⟨[-1], v⟩ ∧ (∀ e ≤ 9, v.val e = 1) ∧
      sensorShare o.sol ⟨[-1], v⟩ = 100 := by
  obtain ⟨s, lm, th, rest, hst, hth, h⟩ := C112_advection realGauss_ok (fun _ => 0) Ex.shuAdv_valid (show "advection".toList ≠ "euler".toList by decide) rfl
  obtain ⟨s', lm', hst', h'⟩ := C112_deck realGauss_ok (fun _ => 0) Ex.shuAdv_valid rfl
  rw [hst] at hst'
  obtain ⟨rfl, rfl⟩ := Prod.mk.inj (Except.ok.inj hst')
  obtain ⟨rfl, rfl⟩ := List.cons.inj (show [(-1 : ℝ)] = th :: rest from hth)
  refine ⟨s, lm, hst, fun o ho => ?_⟩
  obtain ⟨v, h1, h2, h3⟩ := h k o ho
  obtain ⟨-, -, -, hxc, -⟩ := h' k o ho
  have h4 : ∀ e ≤ 9, v.val e = 1 := fun e he => (h3 e).1 (by
    have hpsi : ∀ i, psi |cellMean o.sol (i + 1) 0 - cellMean o.sol i 0| > -1 := fun i =>
      lt_of_lt_of_le (by norm_num) (show (0 : ℝ) ≤ 2 * _ / (1 + _) ^ 2 by positivity)
    by_cases h9 : e = 9
    · exact ⟨8, le_rfl, hpsi _, .inr h9⟩
    · exact ⟨e, by omega, hpsi _, .inl rfl⟩)
  refine ⟨v, h1, h4, (C112_share o.sol ⟨[-1], v⟩ (by rw [hxc]; norm_num) (by rw [hxc]; exact h2)).2.2.2.2.mpr fun e _ he => ?_⟩
  show v.val e ≠ 0
  rw [h4 e (by omega)]
  norm_num

/-- `C112_euler`: the entropy wave with thresholds 0.01 and 0.02. -/
example {N : ℕ} (hN : 0 < N) (k : ℕ) : ∃ s lm, start realGauss Ex.decReal (fun _ => 0) (Ex.waveLim N) = .ok (s, lm) ∧
    ∀ o ∈ (integrate ⟨residual, lm.limit⟩ (Ex.waveLim N).rkDeck s k).log, ∃ v : Vec ℕ, o.sol.sensors = some ⟨[1 / 100, 1 / 50], v⟩ ∧
      ∀ W : ℕ → Prim, (∀ e ≤ N + 1, (W e).Phys ∧ ∀ k : Fin 3, cellMean o.sol e k = (W e).cons (7 / 5) k) →
        ∀ e, NextTo N (ShockFace (7 / 5) (1 / 50) W) e → v.val e = 2 := by
  have hd : ValidDeck realGauss Ex.decReal (Ex.waveLim N) 1 N IC.entrpyw :=
    ⟨(Ex.wave_valid hN).order, (Ex.wave_valid hN).cells, (Ex.wave_valid hN).line, (Ex.wave_valid hN).enhance,
      fun _ => ⟨le_rfl, by rw [if_pos (show (Ex.waveLim N).system = "euler".toList from rfl)]; exact le_rfl⟩⟩
  have hγ : IC.entrpyw.gamma.getD (7 / 5) = 7 / 5 := rfl
  obtain ⟨s, lm, th0, th1, rest, hst, hth, h⟩ := C112_euler realGauss_ok (fun _ => 0) hd rfl rfl (by rw [hγ]; norm_num)
  have hth : [(1 / 100 : ℝ), 1 / 50] = th0 :: th1 :: rest := hth
  injection hth with e1 e2
  injection e2 with e2 e3
  subst e1 e2 e3
  rw [hγ] at h
  refine ⟨s, lm, hst, fun o ho => ?_⟩
  obtain ⟨v, h1, -, h3⟩ := h k o ho
  exact ⟨v, h1, fun W hW e => (h3 W hW e).1⟩

/-- `C112_silent` and `C112_off`: the sine wave with a sensor but without limiter. -/
example (k : ℕ) : ∃ s lm, start realGauss Ex.decReal (fun _ => 0) Ex.sineHalf = .ok (s, lm) ∧
    ∀ o ∈ (integrate ⟨residual, lm.limit⟩ Ex.sineHalf.rkDeck s k).log, o.sol.sensors = some ⟨[1 / 2], ⟨10, fun _ => 0⟩⟩ := by
  obtain ⟨s, lm, hst, h⟩ := C112_silent realGauss_ok (fun _ => 0) Ex.sineHalf_valid (show ([] : Str) ≠ "adaptive_hr".toList by decide)
    (show [(1 / 2 : ℝ)] ≠ [] by simp)
  exact ⟨s, lm, hst, h k⟩

/-- `C112_share`: 3 of 4 cells and both ghosts. -/
example (s : Sol ℝ) (h : s.xc.len = 4) : sensorShare s ⟨[1 / 2], ⟨6, fun e => if e = 2 then 0 else 1⟩⟩ = 75 := by
  rw [(C112_share s ⟨[1 / 2], ⟨6, fun e => if e = 2 then 0 else 1⟩⟩ (by rw [h]; norm_num) (by rw [h])).1, h]
  have : ((Finset.Icc 1 4).filter fun e : ℕ => (if e = 2 then (0 : ℕ) else 1) ≠ 0).card = 3 := by decide
  rw [this]
  norm_num

end Dg1d.Props
