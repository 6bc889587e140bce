import Verif.Proofs.Sensor
import Verif.Props.ExamplesReal

/-! # Sensors (C48 – C51) -/

set_option linter.unusedSectionVars false

open Dg1d.Spec

namespace Dg1d.Props

section Advection
variable {K : Type*} [Field K] [LinearOrder K] [IsStrictOrderedRing K]

/-- `s` is a scalar advection solution with ghost cells. -/
structure AdvectionSol (s : Sol K) : Prop where
  kw : s.kw = Advection.physics
  NF : s.NF = 1
  rows : 0 < s.u.rows
  cols : s.u.cols = s.NE + 2

/-- Absolute jump of the cell averages at face `i`. -/
noncomputable def jumpAt (s : Sol K) (i : ℕ) : K := |cellMean s (i + 1) 0 - cellMean s i 0|

/-- **C48.** Whatever the flags were before, afterwards a cell `e` (ghosts `0` and `N_E+1` included) has flag 1 if one
of its faces has `2|j|/(1+|j|)²` above the threshold, `j` the jump of the cell averages, and flag 0 otherwise. -/
theorem C48_flags {s : Sol K} (hs : AdvectionSol s) (sn : Sensor K) (th : K) (rest : List K)
    (hth : sn.thresholds = th :: rest) :
    ∃ sn', sn.sensing s = .ok sn' ∧ sn'.thresholds = sn.thresholds ∧ sn'.sensors.len = sn.sensors.len ∧
      ∀ e, (NextTo s.NE (fun i => psi (jumpAt s i) > th) e → sn'.sensors.val e = 1) ∧
        (¬ NextTo s.NE (fun i => psi (jumpAt s i) > th) e → sn'.sensors.val e = 0) := by
  have hc : s.u.cols = (s.NE + 2) * 1 := by rw [hs.cols, mul_one]
  have hl := slice_left s.u hc
  have hr := slice_right s.u hc
  unfold Sensor.sensing
  rw [hs.kw, hth, hs.NF]
  have hlen : ((s.u.row 0).slice 0 (-((1 : ℕ) : ℤ))).len = s.NE + 1 := by rw [hl.1, mul_one]
  simp only [Advection.physics, Advection.sensing]
  refine ⟨_, rfl, rfl, rfl, fun e => ?_⟩
  rw [hlen]
  have hm : ∀ e, cellMean s e 0 = s.u.val 0 e := by
    intro e
    rw [cellMean_eq hs.rows, hs.NF]
    congr 1
    omega
  apply raiseSensors_val _ _ _ _ ⟨sn.sensors.len, fun _ => 0⟩
  intro i hi
  rw [decide_eq_true_iff, indicator_eq, hl.2, hr, jumpAt, hm, hm, add_comm 1 i]

/-- **C48 (threshold at least 1/2).** Nothing is ever flagged. -/
theorem C48_none {s : Sol K} (hs : AdvectionSol s) (sn sn' : Sensor K) (th : K) (rest : List K)
    (hth : sn.thresholds = th :: rest) (h : 1 / 2 ≤ th) (hsn : sn.sensing s = .ok sn') (e : ℕ) : sn'.sensors.val e = 0 := by
  obtain ⟨sn'', h1, _, _, h4⟩ := C48_flags hs sn th rest hth
  rw [h1] at hsn
  cases hsn
  refine (h4 e).2 ?_
  rintro ⟨i, _, hi, _⟩
  exact absurd hi (not_lt.mpr ((psi_le_half (abs_nonneg _)).trans h))

/-- **C48 (no threshold).** `thresholds[0]` raises. -/
theorem C48_no_threshold {s : Sol K} (hs : AdvectionSol s) (sn : Sensor K) (hth : sn.thresholds = []) :
    sn.sensing s = .error .indexError := by
  unfold Sensor.sensing
  rw [hs.kw, hth]
  rfl

/-- **C50 (advection, jumps up to 1).** If every jump of `s'` is at least the one of `s` at the same face and none
exceeds 1, every cell flagged for `s` is flagged for `s'`. -/
theorem C50_advection_partial {s s' : Sol K} (hs : AdvectionSol s) (hs' : AdvectionSol s') (hNE : s'.NE = s.NE) (sn a b : Sensor K)
    (hj : ∀ i ≤ s.NE, jumpAt s i ≤ jumpAt s' i ∧ jumpAt s' i ≤ 1)
    (ha : sn.sensing s = .ok a) (hb : sn.sensing s' = .ok b) (e : ℕ) : a.sensors.val e ≤ b.sensors.val e := by
  rcases hth : sn.thresholds with _ | ⟨th, rest⟩
  · rw [C48_no_threshold hs sn hth] at ha; cases ha
  obtain ⟨a', h1, _, _, h2⟩ := C48_flags hs sn th rest hth
  obtain ⟨b', h3, _, _, h4⟩ := C48_flags hs' sn th rest hth
  rw [h1] at ha; rw [h3] at hb
  cases ha; cases hb
  by_cases hn : NextTo s.NE (fun i => psi (jumpAt s i) > th) e
  · have hn' : NextTo s'.NE (fun i => psi (jumpAt s' i) > th) e := by
      obtain ⟨i, hi, hp, he⟩ := hn
      exact ⟨i, by omega, lt_of_lt_of_le hp (psi_mono (abs_nonneg _) (hj i hi).1 (hj i hi).2), he⟩
    rw [(h2 e).1 hn, (h4 e).1 hn']
  · rw [(h2 e).2 hn]; exact Nat.zero_le _

end Advection

/-! ### Concrete advection data -/

/-- One cell of order 0 with average `a`, left ghost 0, right ghost `a`. -/
def stepSol (a : ℚ) : Sol ℚ := { Ex.sol0 with NE := 1, u := ⟨1, 3, fun _ e => if e = 0 then 0 else a⟩ }

lemma stepSol_adv (a : ℚ) : AdvectionSol (stepSol a) := ⟨rfl, rfl, Nat.one_pos, rfl⟩

lemma stepSol_jump (a : ℚ) : jumpAt (stepSol a) 0 = |a| ∧ jumpAt (stepSol a) 1 = 0 := by
  have h : ∀ e, cellMean (stepSol a) e 0 = if e = 0 then 0 else a := by
    intro e
    rw [cellMean_eq (stepSol_adv a).rows]
    simp [stepSol, Ex.sol0]
  unfold jumpAt
  rw [h, h, h]
  simp

/-- C48 and C50 hypotheses hold: jump 1 is flagged with threshold 2/5 although all flags were set to 7 before. -/
lemma stepSol_one : ∃ b, Sensor.sensing ⟨[2/5], ⟨3, fun _ => 7⟩⟩ (stepSol 1) = .ok b ∧ b.sensors.val 0 = 1 ∧
    b.sensors.val 1 = 1 ∧ b.sensors.val 2 = 0 := by
  obtain ⟨b, h1, -, -, h2⟩ := C48_flags (stepSol_adv 1) ⟨[2/5], ⟨3, fun _ => 7⟩⟩ (2/5) [] rfl
  have hP : ∀ i, psi (jumpAt (stepSol 1) i) > 2/5 ↔ i ≠ 1 ∧ psi (jumpAt (stepSol 1) i) > 2/5 := by
    intro i
    refine ⟨fun h => ⟨?_, h⟩, fun h => h.2⟩
    rintro rfl
    rw [(stepSol_jump 1).2] at h
    norm_num [psi] at h
  have h0 : psi (jumpAt (stepSol 1) 0) > 2/5 := by rw [(stepSol_jump 1).1]; norm_num [psi]
  refine ⟨b, h1, (h2 0).1 ⟨0, by decide, h0, .inl rfl⟩, (h2 1).1 ⟨0, by decide, h0, .inr rfl⟩, (h2 2).2 ?_⟩
  rintro ⟨i, hi, hp, he⟩
  have hi : i ≤ 1 := hi
  have := ((hP i).mp hp).1
  omega

/-- **C50 (advection, counterexample).** With threshold 2/5 a jump of 1 is flagged and a jump of 9 is not. -/
theorem C50_advection_counterexample : ∃ (sn a b : Sensor ℚ), jumpAt (stepSol 1) 0 < jumpAt (stepSol 9) 0 ∧
    (∀ i ≤ 1, jumpAt (stepSol 1) i ≤ jumpAt (stepSol 9) i) ∧ sn.sensing (stepSol 1) = .ok a ∧
    sn.sensing (stepSol 9) = .ok b ∧ a.sensors.val 1 = 1 ∧ ∀ e, b.sensors.val e = 0 := by
  obtain ⟨a, ha, _, ha1, _⟩ := stepSol_one
  obtain ⟨b, h1, -, -, h2⟩ := C48_flags (stepSol_adv 9) ⟨[2/5], ⟨3, fun _ => 7⟩⟩ (2/5) [] rfl
  refine ⟨_, a, b, ?_, ?_, ha, h1, ha1, fun e => (h2 e).2 ?_⟩
  · rw [(stepSol_jump 1).1, (stepSol_jump 9).1]; norm_num [abs_of_pos]
  · intro i hi
    interval_cases i
    · rw [(stepSol_jump 1).1, (stepSol_jump 9).1]; norm_num [abs_of_pos]
    · rw [(stepSol_jump 1).2, (stepSol_jump 9).2]
  · rintro ⟨i, hi, hp, -⟩
    have hi : i ≤ 1 := hi
    interval_cases i
    · rw [(stepSol_jump 9).1] at hp
      norm_num [psi, abs_of_pos] at hp
    · rw [(stepSol_jump 9).2] at hp
      norm_num [psi] at hp

/-- C50: its hypotheses are met by the jumps 1/2 and 1, and the larger one is flagged. -/
example : (∀ i ≤ 1, jumpAt (stepSol (1/2)) i ≤ jumpAt (stepSol 1) i ∧ jumpAt (stepSol 1) i ≤ 1) := by
  intro i hi
  interval_cases i
  · rw [(stepSol_jump _).1, (stepSol_jump 1).1]; norm_num [abs_of_pos]
  · rw [(stepSol_jump _).2, (stepSol_jump 1).2]; norm_num

/-! ### C49: Euler -/

section Euler
variable {γ : ℝ}

/-- An Euler solution with ghost cells whose cell averages are the physical states `W 0, …, W (N_E+1)`. -/
structure EulerSol (γ : ℝ) (s : Sol ℝ) (W : ℕ → Prim) : Prop where
  kw : ∃ name, s.kw = Euler.physics γ name
  NF : s.NF = 3
  rows : 0 < s.u.rows
  cols : s.u.cols = (s.NE + 2) * 3
  phys : ∀ e ≤ s.NE + 1, (W e).Phys
  state : ∀ e ≤ s.NE + 1, ∀ k : Fin 3, cellMean s e k = (W e).cons γ k

/-- Face `i` is a detected discontinuity. -/
def ContactFace (γ th : ℝ) (W : ℕ → Prim) (i : ℕ) : Prop := psi (contactJump γ (W i) (W (i + 1))) > th

/-- Face `i` is a detected shock. -/
def ShockFace (γ th : ℝ) (W : ℕ → Prim) (i : ℕ) : Prop :=
  psi (pressureJump (W i) (W (i + 1))) > th ∧ Compressive γ (W i) (W (i + 1))

/-- **C49.** Flag 2 next to a detected shock, else 1 next to a detected discontinuity, else 0. -/
theorem C49_flags (hγ : 1 < γ) {s : Sol ℝ} {W : ℕ → Prim} (hs : EulerSol γ s W) (sn : Sensor ℝ) (th0 th1 : ℝ) (rest : List ℝ)
    (hth : sn.thresholds = th0 :: th1 :: rest) :
    ∃ sn', sn.sensing s = .ok sn' ∧ sn'.thresholds = sn.thresholds ∧ sn'.sensors.len = sn.sensors.len ∧
      ∀ e, (NextTo s.NE (ShockFace γ th1 W) e → sn'.sensors.val e = 2) ∧
        (¬ NextTo s.NE (ShockFace γ th1 W) e → NextTo s.NE (ContactFace γ th0 W) e → sn'.sensors.val e = 1) ∧
        (¬ NextTo s.NE (ShockFace γ th1 W) e → ¬ NextTo s.NE (ContactFace γ th0 W) e → sn'.sensors.val e = 0) := by
  obtain ⟨name, hkw⟩ := hs.kw
  have hst : ∀ e ≤ s.NE + 1, fieldsAt 3 (s.u.val 0) e = (W e).cons γ := by
    intro e he
    funext k
    rw [← hs.state e he k, cellMean_eq hs.rows, hs.NF]
    rfl
  have hl := slice_left s.u hs.cols
  unfold Sensor.sensing
  rw [hkw, hth, hs.NF]
  simp only [Euler.physics, Euler.sensing]
  refine ⟨_, rfl, rfl, rfl, fun e => ?_⟩
  have hn : (((s.u.row 0).slice 0 (-((3 : ℕ) : ℤ))).len + 2) / 3 = s.NE + 1 := by rw [hl.1]; omega
  rw [hn]
  have hD : ∀ i ≤ s.NE, (Euler.isDiscontinuity γ th0 (Euler.faceStates s.u 3 i).1 (Euler.faceStates s.u 3 i).2 ↔
      ContactFace γ th0 W i) := by
    intro i hi
    rw [faceStates_eq hs.cols, hst i (by omega), hst (i + 1) (by omega),
      isDiscontinuity_iff hγ (hs.phys i (by omega)) (hs.phys (i + 1) (by omega))]
    rfl
  have hS : ∀ i ≤ s.NE, (Euler.isShock γ th1 (Euler.faceStates s.u 3 i).1 (Euler.faceStates s.u 3 i).2 ↔
      ShockFace γ th1 W i) := by
    intro i hi
    rw [faceStates_eq hs.cols, hst i (by omega), hst (i + 1) (by omega),
      isShock_iff hγ (hs.phys i (by omega)) (hs.phys (i + 1) (by omega))]
    rfl
  classical
  have r1 := raiseSensors_val _ _ s.NE 1 ⟨sn.sensors.len, fun _ => 0⟩ (fun i hi => decide_eq_true_iff.trans (hD i hi)) e
  have r2 := fun v => raiseSensors_val _ _ s.NE 2 v (fun i hi => decide_eq_true_iff.trans (hS i hi)) e
  refine ⟨(r2 _).1, fun h1 h2 => ?_, fun h1 h2 => ?_⟩
  · rw [(r2 _).2 h1, r1.1 h2]
  · rw [(r2 _).2 h1, r1.2 h2]

/-- **C49 (too few thresholds).** `thresholds[0]` or `thresholds[1]` raises. -/
theorem C49_thresholds {s : Sol ℝ} {W : ℕ → Prim} (hs : EulerSol γ s W) (sn : Sensor ℝ) (hth : sn.thresholds.length < 2) :
    sn.sensing s = .error .indexError := by
  obtain ⟨name, hkw⟩ := hs.kw
  unfold Sensor.sensing
  rw [hkw]
  rcases h : sn.thresholds with _ | ⟨a, _ | ⟨b, l⟩⟩
  · rfl
  · rfl
  · rw [h] at hth; simp at hth

/-- **C49 (uniform regions).** A cell whose neighbours have the same state is not flagged. -/
theorem C49_uniform (hγ : 1 < γ) {s : Sol ℝ} {W : ℕ → Prim} (hs : EulerSol γ s W) (sn sn' : Sensor ℝ) (th0 th1 : ℝ) (rest : List ℝ)
    (hth : sn.thresholds = th0 :: th1 :: rest) (h0 : 0 ≤ th0) (h1 : 0 ≤ th1) (hsn : sn.sensing s = .ok sn') (e : ℕ)
    (hl : 1 ≤ e → W (e - 1) = W e) (hr : e ≤ s.NE → W (e + 1) = W e) : sn'.sensors.val e = 0 := by
  obtain ⟨sn'', h2, _, _, h4⟩ := C49_flags hγ hs sn th0 th1 rest hth
  rw [h2] at hsn
  cases hsn
  have hW : ∀ i ≤ s.NE, (e = i ∨ e = i + 1) → W (i + 1) = W i := by
    rintro i hi (rfl | rfl)
    · exact hr hi
    · exact (hl (by omega)).symm
  refine (h4 e).2.2 ?_ ?_
  · rintro ⟨i, hi, ⟨hp, _⟩, he⟩
    rw [hW i hi he] at hp
    simp [pressureJump, psi] at hp
    linarith
  · rintro ⟨i, hi, hp, he⟩
    unfold ContactFace at hp
    rw [hW i hi he, contactJump_same, psi_zero] at hp
    linarith

/-- **C49 (contacts are not shocks).** A cell across whose faces velocity and pressure are equal never gets flag 2. -/
theorem C49_contact (hγ : 1 < γ) {s : Sol ℝ} {W : ℕ → Prim} (hs : EulerSol γ s W) (sn sn' : Sensor ℝ) (th0 th1 : ℝ) (rest : List ℝ)
    (hth : sn.thresholds = th0 :: th1 :: rest) (h1 : 0 ≤ th1) (hsn : sn.sensing s = .ok sn') (e : ℕ)
    (hl : 1 ≤ e → (W (e - 1)).p = (W e).p) (hr : e ≤ s.NE → (W (e + 1)).p = (W e).p) : sn'.sensors.val e ≠ 2 := by
  obtain ⟨sn'', h2, _, _, h4⟩ := C49_flags hγ hs sn th0 th1 rest hth
  rw [h2] at hsn
  cases hsn
  have hns : ¬ NextTo s.NE (ShockFace γ th1 W) e := by
    rintro ⟨i, hi, ⟨hp, _⟩, he⟩
    have : (W (i + 1)).p = (W i).p := by
      rcases he with rfl | rfl
      · exact hr hi
      · exact (hl (by omega)).symm
    simp [pressureJump, psi, this] at hp
    linarith
  by_cases hc : NextTo s.NE (ContactFace γ th0 W) e
  · rw [(h4 e).2.1 hns hc]; decide
  · rw [(h4 e).2.2 hns hc]; decide

/-- **C50 (Euler shock flag).** If every pressure jump of `W'` is at least that of `W` and wherever `W` is compressive so
is `W'`, every cell with flag 2 for `W` has it for `W'`: the indicator is monotone for physical pressures. -/
theorem C50_shock (hγ : 1 < γ) {s s' : Sol ℝ} {W W' : ℕ → Prim} (hs : EulerSol γ s W) (hs' : EulerSol γ s' W')
    (hNE : s'.NE = s.NE) (sn a b : Sensor ℝ)
    (hj : ∀ i ≤ s.NE, pressureJump (W i) (W (i + 1)) ≤ pressureJump (W' i) (W' (i + 1)))
    (hC : ∀ i ≤ s.NE, Compressive γ (W i) (W (i + 1)) → Compressive γ (W' i) (W' (i + 1)))
    (ha : sn.sensing s = .ok a) (hb : sn.sensing s' = .ok b) (e : ℕ) (h2 : a.sensors.val e = 2) : b.sensors.val e = 2 := by
  by_cases hl : sn.thresholds.length < 2
  · rw [C49_thresholds hs sn hl] at ha; cases ha
  obtain ⟨th0, th1, rest, hth⟩ : ∃ th0 th1 rest, sn.thresholds = th0 :: th1 :: rest := by
    rcases h : sn.thresholds with _ | ⟨x, _ | ⟨y, l⟩⟩
    · rw [h] at hl; simp at hl
    · rw [h] at hl; simp at hl
    · exact ⟨x, y, l, rfl⟩
  obtain ⟨a', h3, _, _, h4⟩ := C49_flags hγ hs sn th0 th1 rest hth
  obtain ⟨b', h5, _, _, h6⟩ := C49_flags hγ hs' sn th0 th1 rest hth
  rw [h3] at ha; rw [h5] at hb
  cases ha; cases hb
  have hn : NextTo s.NE (ShockFace γ th1 W) e := by
    by_contra hx
    by_cases hc : NextTo s.NE (ContactFace γ th0 W) e
    · have := (h4 e).2.1 hx hc; omega
    · have := (h4 e).2.2 hx hc; omega
  refine (h6 e).1 ?_
  obtain ⟨i, hi, ⟨hp, hc⟩, he⟩ := hn
  refine ⟨i, by omega, ⟨lt_of_lt_of_le hp ?_, hC i hi hc⟩, he⟩
  exact psi_mono (pressureJump_lt (hs.phys i (by omega)) (hs.phys (i + 1) (by omega))).1 (hj i hi)
    (pressureJump_lt (hs'.phys i (by omega)) (hs'.phys (i + 1) (by omega))).2.le

/-- **C51 (discontinuity flag).** With the shock sensor off (threshold at least 1/2), mirroring the flow mirrors the
flags. -/
theorem C51_contact_partial (hγ : 1 < γ) {s s' : Sol ℝ} {W : ℕ → Prim} (hs : EulerSol γ s W)
    (hs' : EulerSol γ s' fun e => (W (s.NE + 1 - e)).mirror) (hNE : s'.NE = s.NE) (sn a b : Sensor ℝ)
    (th0 th1 : ℝ) (rest : List ℝ) (hth : sn.thresholds = th0 :: th1 :: rest) (h1 : 1 / 2 ≤ th1)
    (ha : sn.sensing s = .ok a) (hb : sn.sensing s' = .ok b) (e : ℕ) (he : e ≤ s.NE + 1) :
    b.sensors.val e = a.sensors.val (s.NE + 1 - e) := by
  obtain ⟨a', h3, _, _, h4⟩ := C49_flags hγ hs sn th0 th1 rest hth
  obtain ⟨b', h5, _, _, h6⟩ := C49_flags hγ hs' sn th0 th1 rest hth
  rw [h3] at ha; rw [h5] at hb
  cases ha; cases hb
  have noS : ∀ {s : Sol ℝ} {W : ℕ → Prim}, EulerSol γ s W → ∀ e, ¬ NextTo s.NE (ShockFace γ th1 W) e := by
    rintro s W hs e ⟨i, hi, ⟨hp, _⟩, _⟩
    have := pressureJump_lt (hs.phys i (by omega)) (hs.phys (i + 1) (by omega))
    have := psi_lt_half this.1 this.2
    linarith
  have hface : ∀ i ≤ s.NE, (ContactFace γ th0 (fun e => (W (s.NE + 1 - e)).mirror) i ↔ ContactFace γ th0 W (s.NE - i)) := by
    intro i hi
    unfold ContactFace
    have e1 : s.NE + 1 - i = s.NE - i + 1 := by omega
    have e2 : s.NE + 1 - (i + 1) = s.NE - i := by omega
    simp only
    rw [e1, e2, contactJump_mirror]
  have hc : NextTo s'.NE (ContactFace γ th0 fun e => (W (s.NE + 1 - e)).mirror) e ↔
      NextTo s.NE (ContactFace γ th0 W) (s.NE + 1 - e) := by
    constructor
    · rintro ⟨i, hi, hp, h⟩
      exact ⟨s.NE - i, by omega, (hface i (by omega)).mp hp, by omega⟩
    · rintro ⟨i, hi, hp, h⟩
      refine ⟨s.NE - i, by omega, (hface _ (by omega)).mpr ?_, by omega⟩
      rwa [show s.NE - (s.NE - i) = i by omega]
  by_cases hn : NextTo s.NE (ContactFace γ th0 W) (s.NE + 1 - e)
  · rw [(h6 e).2.1 (noS hs' e) (hc.mpr hn), (h4 _).2.1 (noS hs _) hn]
  · rw [(h6 e).2.2 (noS hs' e) (fun h => hn (hc.mp h)), (h4 _).2.2 (noS hs _) hn]

/-! ### Concrete Euler data -/

/-- One cell of order 0 and its two ghosts, holding the states `W 0`, `W 1`, `W 2`. -/
noncomputable def gasSol (γ : ℝ) (W : ℕ → Prim) : Sol ℝ :=
  { Ex.solR 0 with kw := Euler.physics γ "roe", NE := 1, NF := 3
                   u := ⟨1, 9, fun _ j => (W (j / 3)).cons γ ⟨j % 3, Nat.mod_lt _ (by omega)⟩⟩ }

lemma gasSol_euler {W : ℕ → Prim} (h : ∀ e ≤ 2, (W e).Phys) : EulerSol γ (gasSol γ W) W where
  kw := ⟨"roe", rfl⟩
  NF := rfl
  rows := by simp [gasSol]
  cols := rfl
  phys := h
  state := by
    intro e _ k
    rw [cellMean_eq (by simp [gasSol])]
    simp only [gasSol]
    have hk := k.isLt
    have h1 : (e * 3 + (k : ℕ)) / 3 = e := by omega
    have h2 : (e * 3 + (k : ℕ)) % 3 = k := by omega
    simp only [h1]
    congr 1
    exact Fin.ext h2

/-- A left-moving pressure jump: sound speeds 1 and 2, velocities 1/4 and -1/4 (γ = 7/5). -/
noncomputable def wave (e : ℕ) : Prim := if e = 0 then ⟨1, 1/4, 5/7⟩ else ⟨1, -1/4, 20/7⟩

lemma wave_phys (e : ℕ) : (wave e).Phys := by
  unfold wave; split <;> constructor <;> norm_num

lemma wave_roe : roeV (wave 0) (wave 1) = 0 ∧ roeC (7/5) (wave 0) (wave 1) = √(201/80) ∧ (wave 0).c (7/5) = 1 ∧
    (wave 1).c (7/5) = 2 := by
  refine ⟨by norm_num [roeV, roeMean, wave], ?_, by norm_num [Prim.c, wave], ?_⟩
  · unfold roeC
    congr 1
    norm_num [roeV, roeH, roeMean, wave, Prim.enthalpy]
  · rw [show (2 : ℝ) = √(2 ^ 2) by simp]
    unfold Prim.c
    congr 1
    norm_num [wave]

lemma sqrt_bounds : 3/4 < √(201/80 : ℝ) ∧ √(201/80 : ℝ) < 7/4 := by
  constructor
  · rw [Real.lt_sqrt (by norm_num)]; norm_num
  · rw [Real.sqrt_lt' (by norm_num)]; norm_num

lemma wave_shock : ShockFace (7/5) (1/10) wave 0 := by
  obtain ⟨h1, h2, h3, h4⟩ := wave_roe
  obtain ⟨h5, h6⟩ := sqrt_bounds
  rw [← h2] at h5 h6
  have v0 : (wave 0).v = 1 / 4 := by simp [wave]
  have v1 : (wave 1).v = -1 / 4 := by simp [wave]
  refine ⟨by norm_num [pressureJump, wave, psi, abs_of_pos], ?_, ?_⟩
  · rw [zero_add, h1, h3, v0]; linarith
  · rw [zero_add, h1, h4, v1]; linarith

/-- C49 on these states: cells 0 and 1 get flag 2, cell 2 (uniform right side) gets 0. -/
lemma wave_flags : ∃ a, Sensor.sensing ⟨[1/10, 1/10], ⟨3, fun _ => 1⟩⟩ (gasSol (7/5) wave) = .ok a ∧
    a.sensors.val 0 = 2 ∧ a.sensors.val 1 = 2 ∧ a.sensors.val 2 = 0 := by
  have hs : EulerSol (7/5) (gasSol (7/5) wave) wave := gasSol_euler fun e _ => wave_phys e
  obtain ⟨a, h1, -, -, h2⟩ := C49_flags (by norm_num) hs ⟨[1/10, 1/10], ⟨3, fun _ => 1⟩⟩ (1/10) (1/10) [] rfl
  refine ⟨a, h1, (h2 0).1 ⟨0, by decide, wave_shock, .inl rfl⟩, (h2 1).1 ⟨0, by decide, wave_shock, .inr rfl⟩, ?_⟩
  refine C49_uniform (by norm_num) hs ⟨[1/10, 1/10], ⟨3, fun _ => 1⟩⟩ a (1/10) (1/10) [] rfl (by norm_num) (by norm_num) h1 2
    (fun _ => by simp [wave]) (fun h => ?_)
  have : (2 : ℕ) ≤ 1 := h
  omega

/-- The mirror image of `wave`. -/
noncomputable def waveMirror (e : ℕ) : Prim := (wave (2 - e)).mirror

/-- **C51 (counterexample).** A jump is flagged as a shock, its mirror image is not. -/
theorem C51_counterexample : ∃ (s s' : Sol ℝ) (W : ℕ → Prim) (sn a b : Sensor ℝ), EulerSol (7/5) s W ∧ s'.NE = s.NE ∧
    EulerSol (7/5) s' (fun e => (W (s.NE + 1 - e)).mirror) ∧ sn.sensing s = .ok a ∧ sn.sensing s' = .ok b ∧
    a.sensors.val 1 = 2 ∧ ∀ e, b.sensors.val e ≠ 2 := by
  obtain ⟨a, ha, _, ha1, _⟩ := wave_flags
  have hs : EulerSol (7/5) (gasSol (7/5) wave) wave := gasSol_euler fun e _ => wave_phys e
  have hm : ∀ e ≤ 2, (waveMirror e).Phys := fun e _ => wave_phys (2 - e)
  have hs' : EulerSol (7/5) (gasSol (7/5) waveMirror) waveMirror := gasSol_euler hm
  obtain ⟨b, h1, -, -, h2⟩ := C49_flags (by norm_num) hs' ⟨[1/10, 1/10], ⟨3, fun _ => 1⟩⟩ (1/10) (1/10) [] rfl
  refine ⟨_, gasSol (7/5) waveMirror, wave, _, a, b, hs, rfl, hs', ha, h1, ha1, fun e => ?_⟩
  have hns : ¬ NextTo 1 (ShockFace (7/5) (1/10) waveMirror) e := by
    rintro ⟨i, hi, ⟨hp, hc⟩, -⟩
    interval_cases i
    · have e0 : waveMirror 0 = (wave 1).mirror := by unfold waveMirror; simp [wave]
      have e1 : waveMirror (0 + 1) = (wave 1).mirror := rfl
      rw [e0, e1] at hp
      norm_num [pressureJump, psi] at hp
    · have e0 : waveMirror 1 = (wave 1).mirror := rfl
      have e1 : waveMirror (1 + 1) = (wave 0).mirror := rfl
      rw [e0, e1] at hc
      obtain ⟨hc1, -⟩ := hc
      rw [roeV_mirror, roeC_mirror, wave_roe.1, wave_roe.2.1] at hc1
      have : (wave 1).mirror.c (7/5) = 2 := wave_roe.2.2.2
      rw [this] at hc1
      have : (wave 1).mirror.v = 1/4 := by norm_num [wave, Prim.mirror]
      rw [this] at hc1
      have := sqrt_bounds.2
      linarith
  by_cases hn : NextTo 1 (ContactFace (7/5) (1/10) waveMirror) e
  · rw [(h2 e).2.1 hns hn]; decide
  · rw [(h2 e).2.2 hns hn]; decide

/-- C51 (discontinuity flag) and C49: a contact discontinuity is flagged 1, and so is its mirror image. -/
example : ∃ a b, Sensor.sensing ⟨[1/10, 1/2], ⟨3, fun _ => 2⟩⟩ (gasSol (7/5) fun e => if e = 0 then ⟨1, 1, 1⟩ else ⟨3, 1, 1⟩) = .ok a ∧
    Sensor.sensing ⟨[1/10, 1/2], ⟨3, fun _ => 2⟩⟩ (gasSol (7/5) fun e => if 2 - e = 0 then ⟨1, -1, 1⟩ else ⟨3, -1, 1⟩) = .ok b ∧
    a.sensors.val 0 = 1 ∧ a.sensors.val 2 = 0 ∧ b.sensors.val 2 = 1 ∧ b.sensors.val 0 = 0 := by
  set W : ℕ → Prim := fun e => if e = 0 then ⟨1, 1, 1⟩ else ⟨3, 1, 1⟩ with hW
  have hp : ∀ e ≤ 2, (W e).Phys := by
    intro e _; simp only [hW]; split <;> constructor <;> norm_num
  have hs : EulerSol (7/5) (gasSol (7/5) W) W := gasSol_euler hp
  have hs' : EulerSol (7/5) (gasSol (7/5) fun e => if 2 - e = 0 then ⟨1, -1, 1⟩ else ⟨3, -1, 1⟩)
      (fun e => (W ((gasSol (7/5) W).NE + 1 - e)).mirror) := by
    have e1 : (fun e => (W ((gasSol (7/5) W).NE + 1 - e)).mirror) = fun e => if 2 - e = 0 then ⟨1, -1, 1⟩ else ⟨3, -1, 1⟩ := by
      funext e
      have : (gasSol (7/5) W).NE + 1 - e = 2 - e := rfl
      rw [this]
      simp only [hW]
      split <;> rfl
    rw [e1]
    apply gasSol_euler
    intro e _; split <;> constructor <;> norm_num
  obtain ⟨a, h1, -, -, h2⟩ := C49_flags (by norm_num) hs ⟨[1/10, 1/2], ⟨3, fun _ => 2⟩⟩ (1/10) (1/2) [] rfl
  obtain ⟨b, h3, -⟩ := C49_flags (by norm_num) hs' ⟨[1/10, 1/2], ⟨3, fun _ => 2⟩⟩ (1/10) (1/2) [] rfl
  have hm := C51_contact_partial (by norm_num) hs hs' rfl _ a b (1/10) (1/2) [] rfl (le_refl _) h1 h3
  have h20 : a.sensors.val 2 = 0 := by
    refine C49_uniform (by norm_num) hs ⟨[1/10, 1/2], ⟨3, fun _ => 2⟩⟩ a (1/10) (1/2) [] rfl (by norm_num) (by norm_num) h1 2
      (fun _ => by simp [hW]) (fun h => ?_)
    have : (2 : ℕ) ≤ 1 := h
    omega
  have hc : ContactFace (7/5) (1/10) W 0 := by
    unfold ContactFace contactJump
    norm_num [hW, psi, abs_of_pos]
  have h21 : a.sensors.val 0 = 1 := by
    refine (h2 0).2.1 ?_ ⟨0, by decide, hc, .inl rfl⟩
    rintro ⟨i, hi, ⟨hp, _⟩, he⟩
    have : i = 0 := by omega
    subst this
    norm_num [hW, pressureJump, psi] at hp
  exact ⟨a, b, h1, h3, h21, h20, by rw [hm 2 (by decide)]; exact h21, by rw [hm 0 (by decide)]; exact h20⟩

end Euler

end Dg1d.Props
