import Verif.Proofs.Mute
import Verif.Props.Main
import Verif.Props.Regressions
import Verif.Props.Limiter
import Verif.Props.Sensor
import Verif.Props.ExamplesReal

/-!
# C97: from one half on, the sensor thresholds switch the limiter off

The indicators of both sensors have the form `2 x / (1 + x)^2`, which is never above one half. A threshold of one half or more is
therefore never exceeded; the limiter then does nothing, and the run is that of a deck without limiter. Below one half there are
states that are flagged.
-/

namespace Dg1d.Props
open Dg1d Text Spec

lemma code_mute {γ : ℝ} {system riemann : Str} {s : Sol ℝ} (hp : CodePhysics γ system riemann s) {th : List ℝ}
    (hn : (if system = "euler".toList then 2 else 1) ≤ th.length) (hth : ∀ x ∈ th, 1 / 2 ≤ x) : s.kw.Mute th := by
  by_cases he : system = "euler".toList
  · rw [(hp.euler he).1]
    rw [if_pos he] at hn
    match th, hn, hth with
    | x :: y :: l, _, hth => exact euler_mute (hth x (by simp)) (hth y (by simp))
  · rw [(hp.advection he).1]
    rw [if_neg he] at hn
    match th, hn, hth with
    | x :: l, _, hth => exact advection_mute (hth x (by simp))

/-- **C97 (one call).** No cell is flagged and the limiter returns its argument with the ghost cells filled, whatever the
solution holds (also where it is not a physical state), if all thresholds are at least one half. -/
theorem C97_limit {γ : ℝ} {system riemann : Str} {s : Sol ℝ} (hp : CodePhysics γ system riemann s) {th : List ℝ} {v : Vec ℕ}
    (hs : s.sensors = some ⟨th, v⟩) (hn : (if system = "euler".toList then 2 else 1) ≤ th.length) (hth : ∀ x ∈ th, 1 / 2 ≤ x)
    (lm : HrLimiter ℝ) :
    Limiter.limit (some lm) s = .ok { s.applyBc with sensors := some ⟨th, ⟨v.len, fun _ => 0⟩⟩ } := by
  rw [mute_limit lm hs (code_mute hp hn hth)]
  congr 1
  unfold Sol.applyBc Sol.applyBcRight Sol.applyBcLeft
  split_ifs <;> rfl

/-- **C97 (a run).** Thresholds of at least one half, flags down and ghost cells filled at the start: with any integrator, any deck and after
any number of iterations, the run with the limiter is in every respect the run without. -/
theorem C97_run {γ : ℝ} {system riemann : Str} {s : Sol ℝ} (hp : CodePhysics γ system riemann s) (hF : 0 < s.NF) (hE : 0 < s.NE)
    (hc : s.u.cols = (s.NE + 2) * s.NF) (hbc : s.applyBc = s) {th : List ℝ} {len : ℕ} (hs : s.sensors = some ⟨th, ⟨len, fun _ => 0⟩⟩)
    (hn : (if system = "euler".toList then 2 else 1) ≤ th.length) (hth : ∀ x ∈ th, 1 / 2 ≤ x) (lm : HrLimiter ℝ)
    (sch : Scheme ℝ) (deck : RkDeck ℝ) (k : ℕ) :
    let A := sch.run ⟨residual, Limiter.limit (some lm)⟩ deck s k
    let B := sch.run ⟨residual, Limiter.limit none⟩ deck s k
    A.status = B.status ∧ A.sol = B.sol ∧ A.log = B.log := by
  intro A B
  have h : LoopSim Eq (MuteStage s) (MuteHead s) Eq A B :=
    (mute_simulates hF hE hc hs (code_mute hp hn hth) lm).run deck sch (mute_start hF hE hc hbc) rfl rfl k
  refine ⟨?_, h.sol.eq, ?_⟩
  · rcases h.status with e | ⟨e, e', h1, h2, rfl⟩
    · exact e
    · rw [h1, h2]
  · refine List.forall₂_eq_eq_eq ▸ h.log.imp ?_
    rintro ⟨n, dt, x⟩ ⟨n', dt', x'⟩ ⟨h1, h2, h3, -, -⟩
    simp only at h1 h2 h3
    rw [h1, h2, h3.eq]

variable {lib : GaussLib ℝ} {ft : FloatText ℝ} {d : Deck ℝ} {p N : ℕ} {ic : IC.Setup}

/-- **C97 (the program).** A deck without limiter that starts, and whose thresholds are enough and all at least one half: write any word
after the `limiting` keyword (at order 0 too) and the program writes the same files and ends the same way. -/
theorem C97_program (hlib : lib.Ok) (junk : ℕ → ℝ) (hd : ValidDeck lib ft d p N ic) (hno : d.limiting ≠ "adaptive_hr".toList)
    (hn : (if d.system = "euler".toList then 2 else 1) ≤ d.sensorThresholds.length) (hth : ∀ x ∈ d.sensorThresholds, 1 / 2 ≤ x) (L : Str) :
    ∃ s lm lm', start lib ft junk d = .ok (s, lm) ∧ start lib ft junk { d with limiting := L } = .ok (s, lm') ∧
      ∀ fs k, solve ft { d with limiting := L } s lm' fs k = solve ft d s lm fs k := by
  obtain ⟨c, s, lm, h1, h2, S⟩ := C69_starts hlib junk hd
  obtain ⟨name, p0, rest, l1, l2, l3, l4⟩ := hd.line
  obtain ⟨c', g1, -, gE, -, -, -, -, -, -, -, -, -, -, -, -, -, hsn, -⟩ :=
    C67_construct hlib junk (riemann := d.riemann) (enhLine := d.enhance) (th := d.sensorThresholds) l1 l2 hd.cells l3 l4 hd.enhance
  rw [← hd.order, h1] at g1
  cases g1
  have hne : d.sensorThresholds ≠ [] := fun h0 => by rw [h0] at hn; split at hn <;> simp at hn
  have hsc := S.unlimited hno
  have hss : s.sensors = some ⟨d.sensorThresholds, ⟨N + 2, fun _ => 0⟩⟩ := by rw [hsc, bc_sensors, hsn hne]
  have hB := S.built
  have hbc : s.applyBc = s := by
    rw [hsc]
    exact applyBc_twice S.kin.1.NF S.kin.1.NE S.kin.1.cols
  have hlm : lm = none := by
    have := S.limiter
    unfold Limiter.init at this
    rw [if_neg (fun h => hno (ofList_hr.mp h))] at this
    cases this; rfl
  subst hlm
  have hstart : ∀ lm', Limiter.init (String.ofList L) c.sol.applyBc = .ok lm' → lm'.limit c.sol.applyBc = .ok s →
      start lib ft junk { d with limiting := L } = .ok (s, lm') := by
    intro lm' hi hl
    unfold start
    simp only
    rw [h1]
    simp only
    unfold dgInit
    rw [if_neg (by show ¬ c.nE < 0; rw [gE]; omega)]
    simp only [hi, hl]
  by_cases hL : L = "adaptive_hr".toList
  · obtain ⟨lm', hi⟩ := C60_init (s₀ := c.sol.applyBc) (lib := lib) (p := p) (hsc ▸ hB)
    refine ⟨s, none, some lm', h2, hstart _ ?_ ?_, fun fs k => ?_⟩
    · rw [ofList_hr.mpr hL]; exact hi
    · rw [← hsc, C97_limit S.physics hss hn hth lm', hbc, ← hss]
    · obtain ⟨e1, -, e3⟩ := C97_run S.physics hB.NF hB.NE hB.cols hbc hss hn hth lm' (schemeFor d.rkDeck.rk) d.rkDeck k
      show (if d.nout < 0 then _ else _) = (if d.nout < 0 then _ else _)
      have e1' : (integrate ⟨residual, Limiter.limit (some lm')⟩ d.rkDeck s k).status = (integrate ⟨residual, Limiter.limit none⟩ d.rkDeck s k).status := e1
      have e3' : (integrate ⟨residual, Limiter.limit (some lm')⟩ d.rkDeck s k).log = (integrate ⟨residual, Limiter.limit none⟩ d.rkDeck s k).log := e3
      have hdk : Deck.rkDeck { d with limiting := L } = d.rkDeck := rfl
      simp only [hdk, e1', e3']
  · refine ⟨s, none, none, h2, hstart _ ?_ ?_, fun fs k => rfl⟩
    · unfold Limiter.init
      rw [if_neg (fun h => hL (ofList_hr.mp h))]
    · rw [← hsc]; rfl

/-- **C97 (one half is the limit, advection).** With any threshold below one half, a jump of height one flags the cells on both sides. -/
theorem C97_sharp_advection {K : Type*} [Field K] [LinearOrder K] [IsStrictOrderedRing K] {s : Sol K} (hs : AdvectionSol s) (sn : Sensor K)
    {x : K} {rest : List K} (hth : sn.thresholds = x :: rest)
    (hx : x < 1 / 2) {i : ℕ} (hi : i ≤ s.NE) (hj : jumpAt s i = 1) :
    ∃ sn', sn.sensing s = .ok sn' ∧ sn'.sensors.val i = 1 ∧ sn'.sensors.val (i + 1) = 1 := by
  obtain ⟨sn', h1, -, -, h2⟩ := C48_flags hs sn x rest hth
  have hf : psi (jumpAt s i) > x := by rw [hj]; unfold psi; norm_num; linarith
  exact ⟨sn', h1, (h2 i).1 ⟨i, hi, hf, .inl rfl⟩, (h2 (i + 1)).1 ⟨i, hi, hf, .inr rfl⟩⟩

/-- **C97 (one half is the limit, Euler).** With a first threshold below one half, a contact (equal velocity and pressure) with a large
enough density ratio `r` flags the cells on both sides. -/
theorem C97_sharp_euler {γ : ℝ} (hγ : 1 < γ) {s : Sol ℝ} {W : ℕ → Prim} (hs : EulerSol γ s W) (sn : Sensor ℝ) {x y : ℝ} {rest : List ℝ}
    (hth : sn.thresholds = x :: y :: rest) {r : ℝ} (hr : 1 < r) (hx : 1 < (1 - 2 * x) * r ^ 2) {i : ℕ} (hi : i ≤ s.NE)
    (hrho : (W (i + 1)).rho = r * (W i).rho) (hp : (W (i + 1)).p = (W i).p) :
    ∃ sn', sn.sensing s = .ok sn' ∧ sn'.sensors.val i ≠ 0 ∧ sn'.sensors.val (i + 1) ≠ 0 := by
  obtain ⟨sn', h1, -, -, h2⟩ := C49_flags hγ hs sn x y rest hth
  have hW := (hs.phys i (by omega)).1
  have hf : ContactFace γ x W i := by
    unfold ContactFace contactJump
    rw [hp, sub_self, zero_div, sub_zero, hrho]
    have e1 : |r * (W i).rho - (W i).rho| / ((W i).rho + r * (W i).rho) = (r - 1) / (1 + r) := by
      rw [abs_of_nonneg (by nlinarith)]
      have : (W i).rho + r * (W i).rho ≠ 0 := by positivity
      have : 1 + r ≠ 0 := by positivity
      field_simp
    rw [e1]
    unfold psi
    have h0 : (1 : ℝ) + r ≠ 0 := by positivity
    have e2 : 2 * ((r - 1) / (1 + r)) / (1 + (r - 1) / (1 + r)) ^ 2 = (r ^ 2 - 1) / (2 * r ^ 2) := by
      have h3 : 1 + (r - 1) / (1 + r) = 2 * r / (1 + r) := by field_simp; ring
      rw [h3]
      have : r ≠ 0 := by positivity
      field_simp
      ring
    rw [e2, gt_iff_lt, lt_div_iff₀ (by positivity)]
    nlinarith
  have hn : ∀ e, (e = i ∨ e = i + 1) → sn'.sensors.val e ≠ 0 := by
    intro e he
    by_cases hS : NextTo s.NE (ShockFace γ y W) e
    · rw [(h2 e).1 hS]; decide
    · rw [(h2 e).2.1 hS ⟨i, hi, hf, he⟩]; decide
  exact ⟨sn', h1, hn _ (.inl rfl), hn _ (.inr rfl)⟩

/-! Concrete cases. -/

/-- `Ex.solR p` with a threshold of one half and filled ghost cells. -/
noncomputable def solHalf (p : ℕ) : Sol ℝ := Sol.applyBc { Ex.solR p with sensors := some ⟨[1 / 2], ⟨5, fun _ => 0⟩⟩ }

/-- A run of every order whose limiter never acts, although the data jump by 3. -/
example (p : ℕ) (lm : HrLimiter ℝ) (deck : RkDeck ℝ) (k : ℕ) :
    (Scheme.run .low ⟨residual, Limiter.limit (some lm)⟩ deck (solHalf p) k).sol =
      (Scheme.run .low ⟨residual, Limiter.limit none⟩ deck (solHalf p) k).sol := by
  set s : Sol ℝ := { Ex.solR p with sensors := some ⟨[1 / 2], ⟨5, fun _ => 0⟩⟩ } with hs
  have hl : Like (solHalf p) s := Like.applyBc' ⟨by constructor <;> rfl, rfl, rfl⟩
  have hb : s.Built realGauss p := (Ex.solR_built p).congr (by constructor <;> rfl) rfl rfl
  have hp : CodePhysics (7 / 5) "advection".toList "roe".toList (solHalf p) := by
    refine ⟨by rw [hl.setup.kw]; rfl, by rw [hl.setup.NF]; rfl⟩
  refine (C97_run hp ?_ ?_ ?_ (applyBc_twice hb.NF hb.NE hb.cols) (th := [1 / 2]) (len := 5) ?_ ?_ ?_ lm .low deck k).2.1
  · rw [hl.setup.NF]; exact hb.NF
  · rw [hl.setup.NE]; exact hb.NE
  · rw [hl.cols, hl.setup.NE, hl.setup.NF]; exact hb.cols
  · exact bc_sensors s
  · simp
  · simp

/-- The sine wave with a threshold of one half. -/
noncomputable def Ex.sineHalf : Deck ℝ := { Ex.sineDeck with limiting := [], sensorThresholds := [1 / 2] }

lemma Ex.sineHalf_valid : ValidDeck realGauss Ex.decReal Ex.sineHalf 1 8 IC.sinewave where
  order := rfl
  cells := by norm_num
  line := Ex.sine_valid.line
  enhance := C67_no_enhancement _ _
  limiter := fun h => absurd (show ([] : Str) = "adaptive_hr".toList from h) (by decide)

example (fs : Files) (k : ℕ) : ∃ s lm lm', start realGauss Ex.decReal (fun _ => 0) Ex.sineHalf = .ok (s, lm) ∧
    start realGauss Ex.decReal (fun _ => 0) { Ex.sineHalf with limiting := "adaptive_hr".toList } = .ok (s, lm') ∧
    solve Ex.decReal { Ex.sineHalf with limiting := "adaptive_hr".toList } s lm' fs k = solve Ex.decReal Ex.sineHalf s lm fs k := by
  obtain ⟨s, lm, lm', h1, h2, h3⟩ := C97_program realGauss_ok (fun _ => 0) Ex.sineHalf_valid (show ([] : Str) ≠ "adaptive_hr".toList by decide)
    (by rw [if_neg (show ¬ Ex.sineHalf.system = "euler".toList from (by decide : "advection".toList ≠ "euler".toList))]; exact le_rfl)
    (fun x hx => by have hx : x ∈ [(1 / 2 : ℝ)] := hx; simp at hx; rw [hx]; norm_num) "adaptive_hr".toList
  exact ⟨s, lm, lm', h1, h2, h3 fs k⟩

/-- A jump of one with threshold 49/100. -/
example : ∃ sn', Sensor.sensing ⟨[49 / 100], ⟨3, fun _ => 0⟩⟩ (stepSol 1) = .ok sn' ∧ sn'.sensors.val 0 = 1 ∧ sn'.sensors.val 1 = 1 :=
  C97_sharp_advection (stepSol_adv 1) _ rfl (by norm_num) (by decide) (by rw [(stepSol_jump 1).1]; norm_num)

/-- A density ratio of ten with threshold 49/100. -/
example : ∃ sn', Sensor.sensing ⟨[49 / 100, 1], ⟨3, fun _ => 0⟩⟩ (gasSol (7 / 5) fun e => if e = 0 then ⟨1, 0, 1⟩ else ⟨10, 0, 1⟩) = .ok sn' ∧
    sn'.sensors.val 0 ≠ 0 ∧ sn'.sensors.val 1 ≠ 0 := by
  refine C97_sharp_euler (by norm_num) (gasSol_euler fun e _ => ?_) _ rfl (r := 10) (by norm_num) (by norm_num) (i := 0) (by decide) ?_ ?_
  · split <;> constructor <;> norm_num
  · norm_num
  · norm_num

end Dg1d.Props
