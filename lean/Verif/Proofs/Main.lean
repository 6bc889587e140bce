import Verif.Model.Main
import Verif.Proofs.Progress
import Verif.Props.RunsLimited
import Verif.Props.IO

/-! Helper lemmas about the whole program: what every solution of a run has in common, and the files written. -/

open Polynomial Dg1d.Spec

namespace Dg1d.Props
open Text

variable {γ : ℝ} {system riemann : Str} {s a b : Sol ℝ} {lib : GaussLib ℝ} {p : ℕ}

lemma sensors_applyBc (s : Sol ℝ) : s.applyBc.sensors = s.sensors := by
  unfold Sol.applyBc Sol.applyBcRight Sol.applyBcLeft; split_ifs <;> rfl

lemma sensors_thresholds (h : a.sensors.map (fun x => (x.thresholds, x.sensors.len)) = s.sensors.map fun x => (x.thresholds, x.sensors.len)) :
    a.thresholds = s.thresholds := by
  unfold Sol.thresholds
  have := congrArg (Option.map Prod.fst) h
  simpa [Option.map_map, Function.comp_def] using this

/-- Like `s`, with sensors of the same thresholds and length. -/
structure Kin (a s : Sol ℝ) : Prop where
  like : Like a s
  sens : a.sensors.map (fun x => (x.thresholds, x.sensors.len)) = s.sensors.map fun x => (x.thresholds, x.sensors.len)

lemma Kin.refl (s : Sol ℝ) : Kin s s := ⟨Like.refl s, rfl⟩

lemma Kin.applyBc (h : Kin a s) : Kin a.applyBc s := ⟨h.like.applyBc, by rw [sensors_applyBc]; exact h.sens⟩

lemma Kin.trans {c : Sol ℝ} (h : Kin a b) (g : Kin b c) : Kin a c := ⟨h.like.trans g.like, h.sens.trans g.sens⟩

lemma Kin.physics (h : Kin a s) (hp : CodePhysics γ system riemann s) : CodePhysics γ system riemann a :=
  ⟨by rw [h.like.setup.kw, hp.kw], by rw [h.like.setup.NF, hp.NF]⟩

/-- The number of thresholds the sensor reads. -/
def thresholdCount (system : Str) : ℕ := if system = "euler".toList then 2 else 1

lemma raise_len (P : ℕ → Bool) (n k : ℕ) (v : Vec ℕ) : (raiseSensors P n k v).len = v.len := rfl

/-- Sensing works as soon as there are enough thresholds, on any data. -/
lemma sensing_ok (hp : CodePhysics γ system riemann a) (sn : Sensor ℝ) (h : thresholdCount system ≤ sn.thresholds.length) :
    ∃ sn', sn.sensing a = .ok sn' := by
  unfold thresholdCount at h
  unfold Sensor.sensing
  by_cases he : system = "euler".toList
  · rw [if_pos he] at h
    rw [(hp.euler he).1]
    rcases hth : sn.thresholds with _ | ⟨x, _ | ⟨y, l⟩⟩
    · rw [hth] at h; simp at h
    · rw [hth] at h; simp at h
    · exact ⟨_, rfl⟩
  · rw [if_neg he] at h
    rw [(hp.advection he).1]
    rcases hth : sn.thresholds with _ | ⟨x, l⟩
    · rw [hth] at h; simp at h
    · exact ⟨_, rfl⟩

lemma sensing_keeps (hp : CodePhysics γ system riemann a) {sn sn' : Sensor ℝ} (h : sn.sensing a = .ok sn') :
    sn'.thresholds = sn.thresholds ∧ sn'.sensors.len = sn.sensors.len := by
  unfold Sensor.sensing at h
  by_cases he : system = "euler".toList
  · rw [(hp.euler he).1] at h
    change (match Euler.sensing γ sn.thresholds a.u a.NF ⟨sn.sensors.len, fun _ => 0⟩ with | .error e => _ | .ok v => _) = _ at h
    rcases hth : sn.thresholds with _ | ⟨x, _ | ⟨y, l⟩⟩
    · rw [hth] at h; cases h
    · rw [hth] at h; cases h
    · rw [hth] at h; cases h; exact ⟨rfl, rfl⟩
  · rw [(hp.advection he).1] at h
    change (match Advection.sensing sn.thresholds a.u a.NF ⟨sn.sensors.len, fun _ => 0⟩ with | .error e => _ | .ok v => _) = _ at h
    rcases hth : sn.thresholds with _ | ⟨x, l⟩
    · rw [hth] at h; cases h
    · rw [hth] at h; cases h; exact ⟨rfl, rfl⟩

lemma limiter_type {limiting : String} {lm : HrLimiter ℝ} (hi : Limiter.init limiting s = .ok (some lm)) : limiting = "adaptive_hr" := by
  by_contra hne
  unfold Limiter.init at hi
  rw [if_neg hne] at hi
  cases hi

lemma limit_clock {lm : Limiter ℝ} : ∀ a b, lm.limit a = .ok b → b.t = a.t ∧ b.n = a.n := by
  intro a b h
  cases lm with
  | none => cases h; exact ⟨rfl, rfl⟩
  | some lm =>
    change lm.adaptiveHr a = _ at h
    unfold HrLimiter.adaptiveHr at h
    split at h
    · cases h
    split at h
    · cases h
    split at h
    · cases h
    · cases h; exact ⟨applyBc_t _, applyBc_n _⟩

lemma limit_kin (h : s.Built lib p) (hp : CodePhysics γ system riemann s) {limiting : String} {lm : Limiter ℝ} (hi : Limiter.init limiting s = .ok lm)
    (ha : Kin a s) (hb : lm.limit a = .ok b) : Kin b s := by
  cases lm with
  | none => cases hb; exact ha
  | some lm =>
    obtain rfl := limiter_type hi
    obtain ⟨sn, sn', v, U, h1, h2, rfl, h4, h5, -, -⟩ := limit_form (ok_of_init h hi) (ha.like.built h) hb
    refine ⟨(limited_like h4 h5).trans ha.like, ?_⟩
    obtain ⟨e1, e2⟩ := sensing_keeps (ha.physics hp) h2
    rw [sensors_applyBc, ← ha.sens, h1]
    simp [e1, e2]

/-- Enough thresholds for the sensor and an order the reconstruction can handle, if there is a limiter. -/
def LimiterFits (limiting : String) (system : Str) (p : ℕ) (s : Sol ℝ) : Prop :=
  limiting = "adaptive_hr" → 1 ≤ p ∧ ∃ th, s.thresholds = some th ∧ thresholdCount system ≤ th.length

lemma limit_ok (h : s.Built lib p) (hp : CodePhysics γ system riemann s) {limiting : String} {lm : Limiter ℝ} (hi : Limiter.init limiting s = .ok lm)
    (hf : LimiterFits limiting system p s) (ha : Kin a s) : ∃ b, lm.limit a = .ok b := by
  cases lm with
  | none => exact ⟨a, rfl⟩
  | some lm =>
    obtain rfl := limiter_type hi
    obtain ⟨hp1, th, h1, h2⟩ := hf rfl
    rw [← sensors_thresholds ha.sens] at h1
    unfold Sol.thresholds at h1
    rcases hsn : a.sensors with _ | sn
    · rw [hsn] at h1; cases h1
    rw [hsn] at h1
    have h1' : sn.thresholds = th := Option.some.inj h1
    obtain ⟨sn', h3⟩ := sensing_ok (ha.physics hp) sn (by rw [h1']; exact h2)
    exact C60_works_partial h hi (ha.like.built h) hsn h3 (.inl hp1)

/-- Every solution in a run of the code is of the kind of the first. -/
lemma kin_invariant (h : s.Built lib p) (hp : CodePhysics γ system riemann s) {limiting : String} {lm : Limiter ℝ} (hi : Limiter.init limiting s = .ok lm) :
    Invariant (K := ℝ) ⟨residual, lm.limit⟩ (Kin · s) (Kin · s) (fun _ => True) where
  zero := fun _ _ => trivial
  smul := fun _ _ _ => trivial
  axpy := fun a x A hx _ => ⟨hx.like.axpy a A, hx.sens⟩
  copy := fun w x hw hx => ⟨hw.like.copy hx.like, hw.sens⟩
  clock := fun x a m hx => ⟨hx.like.clock _ _, hx.sens⟩
  head := fun _ hx => hx
  bc := fun _ hx => hx.applyBc
  headLimit := fun _ _ ha hb => limit_kin h hp hi ha hb
  stageLimit := fun _ _ ha hb => limit_kin h hp hi ha hb
  res := fun x v A hx hr => by
    rw [residual_sol hr]
    exact ⟨hx.applyBc, trivial⟩

/-! ### Files -/

lemma code_fields (hp : CodePhysics γ system riemann s) : GoodFields s := by
  obtain ⟨d, n⟩ := C31_fields γ (String.ofList riemann)
  by_cases he : system = "euler".toList
  · obtain ⟨h1, h2⟩ := hp.euler he
    constructor
    · rw [h1, h2]; rfl
    · rw [h1]; show ["rho", "rhou", "E"].Nodup; decide
    · rw [h1]; exact fun f hf => d f (by simp [hf])
    · rw [h1]; show "sensor" ∉ ["rho", "rhou", "E"]; decide
  · obtain ⟨h1, h2⟩ := hp.advection he
    constructor
    · rw [h1, h2]; rfl
    · rw [h1]; show ["u"].Nodup; decide
    · rw [h1]; exact fun f hf => d f (by simp [hf])
    · rw [h1]; show "sensor" ∉ ["u"]; decide

/-- What `printer` needs of a solution. -/
structure Printable (ft : FloatText ℝ) (s : Sol ℝ) : Prop where
  cols : s.u.cols = (s.NE + 2) * s.NF
  xc : s.xc.len = s.NE
  fields : GoodFields s
  time : '\n' ∉ ft.fmt s.t
  names : '\n' ∉ s.bcl.val.toList ∧ '\n' ∉ s.bcr.val.toList
  sens : ∀ sen, s.sensors = some sen → sen.sensors.len = s.NE + 2 ∧ 0 < s.NE

lemma nameOf_inj {f g : String} {m n : ℕ} (hf : NoDigitEnd f.toList) (hg : NoDigitEnd g.toList) (h : nameOf f m = nameOf g n) : f = g ∧ m = n := by
  obtain ⟨h1, h2⟩ := fname_inj hf hg h
  exact ⟨String.toList_injective h1, h2⟩

lemma sensor_noDigit : NoDigitEnd "sensor".toList := by
  intro c hc
  have : "sensor".toList.getLast? = some 'r' := by decide
  rw [this] at hc
  cases hc
  decide

/-- The text `printer` writes for field `g`. -/
def fieldText (ft : FloatText ℝ) (s : Sol ℝ) (g : ℕ) : Str :=
  headText ft s ++ (List.range s.NE).flatMap fun i => ft.fmt (s.xc.val i) ++
    (List.range s.u.rows).flatMap (fun r => ',' :: ft.fmt (s.u.val r ((i + 1) * s.NF + g))) ++ "\n".toList

/-- The text `printer` writes for the sensors. -/
def sensorText (ft : FloatText ℝ) (s : Sol ℝ) (sen : Sensor ℝ) : Str :=
  headText ft s ++ (List.range s.NE).flatMap fun i => ft.fmt (s.xc.val i) ++ ", ".toList ++ natText (sen.sensors.val (i + 1)) ++ "\n".toList

/-- A name of an output of `o`. -/
def OutName (o : OutRec ℝ) (n : Str) : Prop := (∃ f ∈ o.sol.kw.fields, n = nameOf f o.nout) ∨ o.sol.sensors ≠ none ∧ n = nameOf "sensor" o.nout

lemma outName_num {o o' : OutRec ℝ} {n : Str} (ho : GoodFields o.sol) (ho' : GoodFields o'.sol) (h : OutName o n) (h' : OutName o' n) : o.nout = o'.nout := by
  rcases h with ⟨f, hf, rfl⟩ | ⟨-, rfl⟩ <;> rcases h' with ⟨f', hf', h⟩ | ⟨-, h⟩
  · exact (nameOf_inj (ho.digits f hf) (ho'.digits f' hf') h).2
  · exact (nameOf_inj (ho.digits f hf) sensor_noDigit h).2
  · exact (nameOf_inj sensor_noDigit (ho'.digits f' hf') h).2
  · exact (nameOf_inj sensor_noDigit sensor_noDigit h).2

/-- Outputs with different numbers do not overwrite each other. -/
lemma writeOutputs_ok (ft : FloatText ℝ) (l : List (OutRec ℝ)) (hl : ∀ o ∈ l, Printable ft o.sol) (hn : (l.map (·.nout)).Nodup) (fs : Files) :
    ∃ fs', writeOutputs ft l fs = (fs', none) ∧
      (∀ o ∈ l, (∀ g (h : g < o.sol.kw.fields.length), fs' (nameOf o.sol.kw.fields[g] o.nout) = some (fieldText ft o.sol g)) ∧
        ∀ sen, o.sol.sensors = some sen → fs' (nameOf "sensor" o.nout) = some (sensorText ft o.sol sen)) ∧
      ∀ n, (∀ o ∈ l, ¬ OutName o n) → fs' n = fs n := by
  induction l generalizing fs with
  | nil => exact ⟨fs, rfl, by simp, fun _ _ => rfl⟩
  | cons o l ih =>
    have ho := hl o (by simp)
    obtain ⟨fs1, h1, h2, h3, h4⟩ := C32_files ft ho.cols ho.xc ho.fields ho.time ho.names ho.sens o.nout fs
    rw [List.map_cons, List.nodup_cons] at hn
    obtain ⟨fs', g1, g2, g3⟩ := ih (fun o' ho' => hl o' (by simp [ho'])) hn.2 fs1
    have keep : ∀ n, OutName o n → fs' n = fs1 n := by
      intro n hname
      refine g3 n fun o' ho' hname' => hn.1 ?_
      rw [List.mem_map]
      exact ⟨o', ho', outName_num (hl o' (by simp [ho'])).fields ho.fields hname' hname⟩
    refine ⟨fs', ?_, ?_, ?_⟩
    · unfold writeOutputs
      rw [h1]
      exact g1
    · intro o' ho'
      rcases List.mem_cons.mp ho' with rfl | ho'
      · refine ⟨fun g h => ?_, fun sen hs => ?_⟩
        · rw [keep _ (.inl ⟨_, List.getElem_mem h, rfl⟩)]
          exact h2 g (by rw [← ho.fields.count]; exact h)
        · rw [keep _ (.inr ⟨by rw [hs]; simp, rfl⟩)]
          exact h3 sen hs
      · exact g2 o' ho'
    · intro n hnn
      rw [g3 n fun o' ho' => hnn o' (by simp [ho'])]
      refine h4 n (fun f hf hx => hnn o (by simp) (.inl ⟨f, hf, hx⟩)) fun hs hx => hnn o (by simp) (.inr ⟨hs, hx⟩)

lemma limiter_init_congr {a b : Sol ℝ} (h : a.basis = b.basis) (n : String) : Limiter.init n a = Limiter.init n b := by
  unfold Limiter.init
  rw [h]

lemma ofList_hr {l : Str} : String.ofList l = "adaptive_hr" ↔ l = "adaptive_hr".toList :=
  ⟨fun h => by rw [← h, String.toList_ofList], fun h => by rw [h, String.ofList_toList]⟩

lemma run_stays (sch : Scheme ℝ) (env : Env ℝ) (deck : RkDeck ℝ) (s : Sol ℝ) {k : ℕ} (h : (sch.run env deck s k).status ≠ .running) (m : ℕ) :
    sch.run env deck s (k + m) = sch.run env deck s k := by
  induction m with
  | zero => rfl
  | succ m ih =>
    have : sch.run env deck s (k + (m + 1)) = loopBody env deck (sch.inner env) (sch.run env deck s (k + m)) := by
      unfold Scheme.run; rw [← add_assoc, runLoop_succ]
    rw [this, ih, loopBody_stopped h]

end Dg1d.Props
