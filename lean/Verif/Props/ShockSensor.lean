import Verif.Proofs.ShockSensor
import Verif.Props.Sensor
import Verif.Props.Steady

/-! # The shock sensor at single waves (C107), and more on C48, C50, C51

The sensor tests the characteristics `v - c` only, against the Roe average, so it is not symmetric (C51). At a discontinuity that
moves as one wave (Rankine-Hugoniot conditions) it is nevertheless right, for both families, if `γ ≤ 5/3`: what it finds are
exactly the shocks (Lax's entropy condition) whose pressure ratio exceeds `1/√(1 - 2 th)`. For every `γ > 5/3` there are strong
right-running shocks it misses. -/

open Dg1d.Spec

namespace Dg1d.Props

section
variable {γ : ℝ} {wL wR : Prim}

/-- **C107 (face).** `1 < γ ≤ 5/3`, threshold not negative. A discontinuity moving with speed `S` passes both tests of the sensor exactly
if it is a shock, of the first or the third family, with `min p < √(1 - 2 th) max p`. -/
theorem C107_face (hγ : 1 < γ) (hγ' : γ ≤ 5 / 3) {S th : ℝ} (hth : 0 ≤ th) (hL : wL.Phys) (hR : wR.Phys)
    (h : RankineHugoniot γ S wL wR) :
    (psi (pressureJump wL wR) > th ∧ Compressive γ wL wR) ↔ LaxShock γ S wL wR ∧ StrongerThan (√(1 - 2 * th)) wL wR := by
  by_cases hm : wL.v - S = 0 ∨ wL.v = wR.v
  · obtain ⟨hp, -, hn⟩ := still_wave hγ hL hR h hm
    constructor
    · rintro ⟨h1, -⟩
      simp [pressureJump, psi, hp] at h1
      linarith
    · rintro ⟨h1, -⟩
      exact absurd h1 hn
  · push Not at hm
    rw [psi_pressure_gt hL hR, compressive_iff hγ hγ' hL hR h hm.1 hm.2, lax_iff hγ hL hR h hm.1 hm.2]
    tauto

/-- **C107 (shocks are found).** `1 < γ ≤ 5/3`. Whatever the rest of the flow and the old flags: both cells next to a shock of either family
whose pressures satisfy `min p < √(1 - 2 th) max p` get flag 2. -/
theorem C107_found (hγ : 1 < γ) (hγ' : γ ≤ 5 / 3) {s : Sol ℝ} {W : ℕ → Prim} (hs : EulerSol γ s W) (sn : Sensor ℝ) (th0 th1 : ℝ) (rest : List ℝ)
    (hth : sn.thresholds = th0 :: th1 :: rest) (h1 : 0 ≤ th1) {i : ℕ} (hi : i ≤ s.NE) {S : ℝ} (hS : LaxShock γ S (W i) (W (i + 1)))
    (hr : StrongerThan (√(1 - 2 * th1)) (W i) (W (i + 1))) :
    ∃ sn', sn.sensing s = .ok sn' ∧ sn'.sensors.val i = 2 ∧ sn'.sensors.val (i + 1) = 2 := by
  obtain ⟨sn', h2, -, -, h3⟩ := C49_flags hγ hs sn th0 th1 rest hth
  have hf : ShockFace γ th1 W i := (C107_face hγ hγ' h1 (hs.phys i (by omega)) (hs.phys (i + 1) (by omega)) hS.1).mpr ⟨hS, hr⟩
  exact ⟨sn', h2, (h3 i).1 ⟨i, hi, hf, .inl rfl⟩, (h3 (i + 1)).1 ⟨i, hi, hf, .inr rfl⟩⟩

/-- **C107 (nothing else is).** `1 < γ ≤ 5/3`. If the faces of cell `e` carry single waves (or nothing), it gets flag 2 exactly if one of
them is a shock with `min p < √(1 - 2 th) max p`: contacts, weaker shocks and jumps that violate the entropy condition do not count. -/
theorem C107_flags (hγ : 1 < γ) (hγ' : γ ≤ 5 / 3) {s : Sol ℝ} {W : ℕ → Prim} (hs : EulerSol γ s W) (sn : Sensor ℝ) (th0 th1 : ℝ) (rest : List ℝ)
    (hth : sn.thresholds = th0 :: th1 :: rest) (h1 : 0 ≤ th1) (S : ℕ → ℝ) (e : ℕ)
    (hW : ∀ i ≤ s.NE, (e = i ∨ e = i + 1) → RankineHugoniot γ (S i) (W i) (W (i + 1))) :
    ∃ sn', sn.sensing s = .ok sn' ∧ (sn'.sensors.val e = 2 ↔
      NextTo s.NE (fun i => LaxShock γ (S i) (W i) (W (i + 1)) ∧ StrongerThan (√(1 - 2 * th1)) (W i) (W (i + 1))) e) := by
  obtain ⟨sn', h2, -, -, h3⟩ := C49_flags hγ hs sn th0 th1 rest hth
  have key : NextTo s.NE (ShockFace γ th1 W) e ↔
      NextTo s.NE (fun i => LaxShock γ (S i) (W i) (W (i + 1)) ∧ StrongerThan (√(1 - 2 * th1)) (W i) (W (i + 1))) e := by
    constructor
    · rintro ⟨i, hi, hp, he⟩
      exact ⟨i, hi, (C107_face hγ hγ' h1 (hs.phys i (by omega)) (hs.phys (i + 1) (by omega)) (hW i hi he)).mp hp, he⟩
    · rintro ⟨i, hi, hp, he⟩
      exact ⟨i, hi, (C107_face hγ hγ' h1 (hs.phys i (by omega)) (hs.phys (i + 1) (by omega)) (hW i hi he)).mpr hp, he⟩
  refine ⟨sn', h2, ?_⟩
  rw [← key]
  constructor
  · intro h
    by_contra hx
    by_cases hc : NextTo s.NE (ContactFace γ th0 W) e
    · have := (h3 e).2.1 hx hc; omega
    · have := (h3 e).2.2 hx hc; omega
  · exact (h3 e).1

/-- **C51 (when the tests agree).** If at every face whose pressure indicator exceeds the threshold the test on the characteristics has
the same outcome for the mirror image, mirroring the flow mirrors all flags. -/
theorem C51_mirror_partial (hγ : 1 < γ) {s s' : Sol ℝ} {W : ℕ → Prim} (hs : EulerSol γ s W)
    (hs' : EulerSol γ s' fun e => (W (s.NE + 1 - e)).mirror) (hNE : s'.NE = s.NE) (sn a b : Sensor ℝ)
    (th0 th1 : ℝ) (rest : List ℝ) (hth : sn.thresholds = th0 :: th1 :: rest)
    (hC : ∀ i ≤ s.NE, psi (pressureJump (W i) (W (i + 1))) > th1 →
      (Compressive γ (W (i + 1)).mirror (W i).mirror ↔ Compressive γ (W i) (W (i + 1))))
    (ha : sn.sensing s = .ok a) (hb : sn.sensing s' = .ok b) (e : ℕ) (he : e ≤ s.NE + 1) :
    b.sensors.val e = a.sensors.val (s.NE + 1 - e) := by
  obtain ⟨a', h3, _, _, h4⟩ := C49_flags hγ hs sn th0 th1 rest hth
  obtain ⟨b', h5, _, _, h6⟩ := C49_flags hγ hs' sn th0 th1 rest hth
  rw [h3] at ha; rw [h5] at hb
  cases ha; cases hb
  have swap : ∀ P Q : ℕ → Prop, (∀ i ≤ s.NE, (P i ↔ Q (s.NE - i))) → (NextTo s'.NE P e ↔ NextTo s.NE Q (s.NE + 1 - e)) := by
    intro P Q hPQ
    constructor
    · rintro ⟨i, hi, hp, h⟩
      exact ⟨s.NE - i, by omega, (hPQ i (by omega)).mp hp, by omega⟩
    · rintro ⟨i, hi, hp, h⟩
      refine ⟨s.NE - i, by omega, (hPQ _ (by omega)).mpr ?_, by omega⟩
      rwa [show s.NE - (s.NE - i) = i by omega]
  have e1 : ∀ i ≤ s.NE, s.NE + 1 - i = s.NE - i + 1 := by intro i hi; omega
  have e2 : ∀ i ≤ s.NE, s.NE + 1 - (i + 1) = s.NE - i := by intro i hi; omega
  have hc := swap (ContactFace γ th0 fun e => (W (s.NE + 1 - e)).mirror) (ContactFace γ th0 W) (by
    intro i hi
    unfold ContactFace
    simp only
    rw [e1 i hi, e2 i hi, contactJump_mirror])
  have hsh := swap (ShockFace γ th1 fun e => (W (s.NE + 1 - e)).mirror) (ShockFace γ th1 W) (by
    intro i hi
    unfold ShockFace
    simp only
    rw [e1 i hi, e2 i hi]
    have hp : pressureJump (W (s.NE - i + 1)).mirror (W (s.NE - i)).mirror = pressureJump (W (s.NE - i)) (W (s.NE - i + 1)) := by
      unfold pressureJump Prim.mirror
      simp only
      rw [abs_sub_comm, add_comm (W (s.NE - i + 1)).p]
    rw [hp]
    constructor
    · rintro ⟨h1, h2⟩
      exact ⟨h1, (hC _ (by omega) h1).mp h2⟩
    · rintro ⟨h1, h2⟩
      exact ⟨h1, (hC _ (by omega) h1).mpr h2⟩)
  by_cases hx : NextTo s.NE (ShockFace γ th1 W) (s.NE + 1 - e)
  · rw [(h6 e).1 (hsh.mpr hx), (h4 _).1 hx]
  · have hx' := fun h => hx (hsh.mp h)
    by_cases hn : NextTo s.NE (ContactFace γ th0 W) (s.NE + 1 - e)
    · rw [(h6 e).2.1 hx' (hc.mpr hn), (h4 _).2.1 hx hn]
    · rw [(h6 e).2.2 hx' (fun h => hn (hc.mp h)), (h4 _).2.2 hx hn]

lemma phys_mirror (h : wL.Phys) : wL.mirror.Phys := h

lemma mirror_c : wL.mirror.c γ = wL.c γ := rfl

/-- The mirror image of a wave runs the other way. -/
lemma rh_mirror {S : ℝ} (h : RankineHugoniot γ S wL wR) : RankineHugoniot γ (-S) wR.mirror wL.mirror := by
  have h0 := h 0
  have h1 := h 1
  have h2 := h 2
  simp [Prim.flux, Prim.cons, Prim.energy] at h0 h1 h2
  intro k
  fin_cases k
  · simp [Prim.flux, Prim.cons, Prim.energy, Prim.mirror]; linear_combination h0
  · simp [Prim.flux, Prim.cons, Prim.energy, Prim.mirror]; linear_combination -h1
  · simp [Prim.flux, Prim.cons, Prim.energy, Prim.mirror]; linear_combination h2

/-- The mirror image of a shock is a shock (of the other family). -/
lemma lax_mirror {S : ℝ} (h : LaxShock γ S wL wR) : LaxShock γ (-S) wR.mirror wL.mirror := by
  refine ⟨rh_mirror h.1, ?_⟩
  rw [mirror_c, mirror_c]
  simp only [Prim.mirror]
  rcases h.2 with ⟨h1, h2⟩ | ⟨h1, h2⟩
  · exact .inr ⟨by linarith, by linarith⟩
  · exact .inl ⟨by linarith, by linarith⟩

lemma mirror_mirror (w : Prim) : w.mirror.mirror = w := by simp [Prim.mirror]

/-- **C51 (single waves).** `1 < γ ≤ 5/3`, thresholds not negative. If every face carries a single wave (shock, contact, or nothing),
mirroring the flow mirrors all flags. -/
theorem C51_waves_partial (hγ : 1 < γ) (hγ' : γ ≤ 5 / 3) {s s' : Sol ℝ} {W : ℕ → Prim} (hs : EulerSol γ s W)
    (hs' : EulerSol γ s' fun e => (W (s.NE + 1 - e)).mirror) (hNE : s'.NE = s.NE) (sn a b : Sensor ℝ)
    (th0 th1 : ℝ) (rest : List ℝ) (hth : sn.thresholds = th0 :: th1 :: rest) (h1 : 0 ≤ th1) (S : ℕ → ℝ)
    (hW : ∀ i ≤ s.NE, RankineHugoniot γ (S i) (W i) (W (i + 1)))
    (ha : sn.sensing s = .ok a) (hb : sn.sensing s' = .ok b) (e : ℕ) (he : e ≤ s.NE + 1) :
    b.sensors.val e = a.sensors.val (s.NE + 1 - e) := by
  refine C51_mirror_partial hγ hs hs' hNE sn a b th0 th1 rest hth (fun i hi hp => ?_) ha hb e he
  have p1 := hs.phys i (by omega)
  have p2 := hs.phys (i + 1) (by omega)
  have hm : ¬ ((W i).v - S i = 0 ∨ (W i).v = (W (i + 1)).v) := by
    intro hm
    obtain ⟨h2, -⟩ := still_wave hγ p1 p2 (hW i hi) hm
    simp [pressureJump, psi, h2] at hp
    linarith
  push Not at hm
  have hm2 : (W (i + 1)).v - S i ≠ 0 := by
    intro h0
    have := (rh_frame hγ p1 p2 (hW i hi)).1
    rw [h0, mul_zero] at this
    rcases mul_eq_zero.mp this.symm with h | h
    · exact p1.1.ne' h
    · exact hm.1 h
  rw [compressive_iff hγ hγ' p1 p2 (hW i hi) hm.1 hm.2,
    compressive_iff hγ hγ' (phys_mirror p2) (phys_mirror p1) (rh_mirror (hW i hi)) (by simp only [Prim.mirror]; intro h; apply hm2; linarith)
      (by simp only [Prim.mirror]; intro h; apply hm.2; linarith)]
  simp only [Prim.mirror]
  constructor <;> intro h <;> linarith

/-- The right-running shock into gas at rest with density ratio `t²`. -/
noncomputable def strongL (γ t : ℝ) : Prim := ⟨t ^ 2, t - 1 / t, ((γ + 1) * t ^ 2 - (γ - 1)) / (2 * γ)⟩

/-- The gas at rest in front of it. -/
noncomputable def strongR (γ t : ℝ) : Prim := ⟨1, 0, ((γ + 1) - (γ - 1) * t ^ 2) / (2 * γ)⟩

lemma strong_phys {t : ℝ} (hγ : 1 < γ) (ht : 1 < t) (ht' : t ^ 2 < (γ + 1) / (γ - 1)) : (strongL γ t).Phys ∧ (strongR γ t).Phys := by
  have hg : 0 < γ - 1 := by linarith
  rw [lt_div_iff₀ hg] at ht'
  refine ⟨⟨?_, ?_⟩, ⟨?_, ?_⟩⟩
  · simp only [strongL]; positivity
  · simp only [strongL]
    apply div_pos _ (by linarith)
    nlinarith [mul_pos (by linarith : 0 < γ + 1) (by nlinarith : 0 < t ^ 2 - 1)]
  · simp [strongR]
  · simp only [strongR]
    apply div_pos _ (by linarith)
    linarith

lemma strong_rh {t : ℝ} (hγ : 1 < γ) (ht : 1 < t) : RankineHugoniot γ t (strongL γ t) (strongR γ t) := by
  have hg : γ - 1 ≠ 0 := by linarith
  have h0 : γ ≠ 0 := by linarith
  have ht0 : t ≠ 0 := by linarith
  intro k
  fin_cases k
  · simp [Prim.flux, Prim.cons, Prim.energy, strongL, strongR]; field_simp; ring
  · simp [Prim.flux, Prim.cons, Prim.energy, strongL, strongR]; field_simp; ring
  · simp [Prim.flux, Prim.cons, Prim.energy, strongL, strongR]; field_simp; ring

lemma strong_lax {t : ℝ} (hγ : 1 < γ) (ht : 1 < t) (ht' : t ^ 2 < (γ + 1) / (γ - 1)) : LaxShock γ t (strongL γ t) (strongR γ t) := by
  obtain ⟨p1, p2⟩ := strong_phys hγ ht ht'
  have h1 : 1 / t < 1 := by rw [div_lt_one (by linarith)]; exact ht
  have h2 : 0 < 1 / t := by positivity
  rw [lax_iff hγ p1 p2 (strong_rh hγ ht) (by simp [strongL]; linarith) (by simp only [strongL, strongR]; linarith)]
  simp only [strongL, strongR]
  linarith

/-- **C107 (sharp).** For every `γ > 5/3` there is a right-running shock into gas at rest that the sensor misses with every threshold; its
mirror image passes the test on the characteristics. -/
theorem C107_missed (hγ : 5 / 3 < γ) : ∃ (S : ℝ) (wL wR : Prim), wL.Phys ∧ wR.Phys ∧ wR.v = 0 ∧ 0 < S ∧ LaxShock γ S wL wR ∧
    ¬ Compressive γ wL wR ∧ Compressive γ wR.mirror wL.mirror ∧
    ∀ (sn : Sensor ℝ) (th0 th1 : ℝ) (rest : List ℝ), sn.thresholds = th0 :: th1 :: rest → 0 ≤ th1 →
      ∃ a, sn.sensing (gasSol γ fun e => if e = 0 then wL else wR) = .ok a ∧ ∀ e, a.sensors.val e ≠ 2 := by
  have h1 : 1 < γ := by linarith
  have hg : 0 < γ - 1 := by linarith
  obtain ⟨t, ht1, ht2⟩ : ∃ t, max 1 ((7 - γ) / (γ + 1)) < t ∧ t < √((γ + 1) / (γ - 1)) := by
    apply exists_between
    apply max_lt
    · rw [Real.lt_sqrt (by norm_num), lt_div_iff₀ hg]; linarith
    · by_cases h7 : (7 - γ) / (γ + 1) < 0
      · exact lt_of_lt_of_le h7 (Real.sqrt_nonneg _)
      · rw [Real.lt_sqrt (not_lt.mp h7), div_pow, div_lt_div_iff₀ (by positivity) hg]
        have : 0 < (3 * γ - 5) ^ 2 := by have : 0 < 3 * γ - 5 := by linarith
                                         positivity
        nlinarith
  obtain ⟨ht, ht3⟩ := max_lt_iff.mp ht1
  rw [Real.lt_sqrt (by linarith)] at ht2
  rw [div_lt_iff₀ (by linarith)] at ht3
  obtain ⟨p1, p2⟩ := strong_phys h1 ht ht2
  have hlax := strong_lax h1 ht ht2
  have hi1 : 1 / t < 1 := by rw [div_lt_one (by linarith)]; exact ht
  have hi0 : 0 < 1 / t := by positivity
  have hm : (strongL γ t).v - t ≠ 0 := by simp [strongL]; linarith
  have hne : (strongL γ t).v ≠ (strongR γ t).v := by simp only [strongL, strongR]; linarith
  have hnot : ¬ Compressive γ (strongL γ t) (strongR γ t) := by
    obtain ⟨W, hV, hC, hW2, hx, hy, hW0, eL, eR⟩ := roe_wave h1 p1 p2 hlax.1 hm hne
    have cR := sound_pos h1 p2
    have v1 : (strongL γ t).v - t = -(1 / t) := by simp [strongL]
    have v2 : (strongR γ t).v - t = -t := by simp [strongR]
    rw [v1, v2] at hW2
    rw [v1] at hx
    rw [v2] at eR
    have hW1 : W ^ 2 = 1 := by rw [hW2]; field_simp
    have hWn : W < 0 := lt_of_le_of_ne (not_lt.mp fun h => by linarith [hx.mp h]) hW0
    have hWe : W = -1 := by nlinarith
    rintro ⟨-, h2⟩
    rw [hV, hC, hWe] at h2
    have v3 : (strongR γ t).v = 0 := rfl
    rw [v3, abs_neg, abs_one] at h2
    have ht4 : t < 2 := by
      rw [lt_div_iff₀ hg] at ht2
      nlinarith
    have : (2 - t) ^ 2 < (strongR γ t).c γ ^ 2 := by nlinarith
    rw [eR, hWe] at this
    nlinarith [mul_pos (by linarith : 0 < t - 1) (by linarith : 0 < t * (γ + 1) - (7 - γ))]
  have hmir : Compressive γ (strongR γ t).mirror (strongL γ t).mirror := by
    obtain ⟨W, hV, hC, hW2, hx, hy, hW0, eL, eR⟩ := roe_wave h1 (phys_mirror p2) (phys_mirror p1) (lax_mirror hlax).1
      (by simp [strongR, Prim.mirror]; linarith) (by simp only [strongR, strongL, Prim.mirror]; linarith)
    have v1 : (strongL γ t).mirror.v - -t = 1 / t := by simp [strongL, Prim.mirror]
    have v2 : (strongR γ t).mirror.v - -t = t := by simp [strongR, Prim.mirror]
    have hWp : 0 < W := hx.mpr (by rw [v2]; linarith)
    unfold Compressive
    rw [hV, hC, abs_of_pos hWp]
    have := compress_right h1 (hx.mp hWp) (hy.mp hWp) hW2 (sound_pos h1 (phys_mirror p2)) (sound_pos h1 (phys_mirror p1)) eL eR
    rw [v1, v2] at this
    have a1 := this.1.mpr (by linarith)
    have a2 := this.2.mpr (by linarith)
    exact ⟨by linarith, by linarith⟩
  refine ⟨t, strongL γ t, strongR γ t, p1, p2, rfl, by linarith, hlax, hnot, hmir, ?_⟩
  intro sn th0 th1 rest hth h0
  have hs : EulerSol γ (gasSol γ fun e => if e = 0 then strongL γ t else strongR γ t) (fun e => if e = 0 then strongL γ t else strongR γ t) :=
    gasSol_euler (by intro e _; split <;> assumption)
  obtain ⟨a, h2, -, -, h3⟩ := C49_flags h1 hs sn th0 th1 rest hth
  refine ⟨a, h2, fun e => ?_⟩
  have hns : ¬ NextTo (gasSol γ fun e => if e = 0 then strongL γ t else strongR γ t).NE
      (ShockFace γ th1 fun e => if e = 0 then strongL γ t else strongR γ t) e := by
    rintro ⟨i, hi, ⟨hp, hc⟩, -⟩
    have hi : i ≤ 1 := hi
    interval_cases i
    · exact hnot (by simpa using hc)
    · simp [pressureJump, psi] at hp
      linarith
  by_cases hn : NextTo (gasSol γ fun e => if e = 0 then strongL γ t else strongR γ t).NE (ContactFace γ th0 fun e => if e = 0 then strongL γ t else strongR γ t) e
  · rw [(h3 e).2.1 hns hn]; decide
  · rw [(h3 e).2.2 hns hn]; decide

end

/-! ### C48 and C50: the window of the advection sensor -/

section Advection
variable {K : Type*} [Field K] [LinearOrder K] [IsStrictOrderedRing K]

/-- The indicator exceeds a positive threshold exactly inside a window around `(1 - th)/th`. -/
lemma psi_gt_iff {th x : K} (hth : 0 < th) (hx : 0 ≤ x) : psi x > th ↔ (th * x - (1 - th)) ^ 2 < 1 - 2 * th := by
  have h1 : 0 < (1 + x) ^ 2 := by positivity
  unfold psi
  rw [gt_iff_lt, lt_div_iff₀ h1]
  have e : (1 - 2 * th) - (th * x - (1 - th)) ^ 2 = th * (2 * x - th * (1 + x) ^ 2) := by ring
  rw [← sub_pos (b := (th * x - (1 - th)) ^ 2), e, mul_pos_iff_of_pos_left hth, sub_pos]

/-- **C48 (window).** With a positive threshold a cell is flagged exactly if the jump `j` at one of its faces satisfies
`|th j - (1 - th)| < √(1 - 2 th)`: jumps that are too small are not flagged, nor are jumps that are too large. -/
theorem C48_window {s : Sol K} (hs : AdvectionSol s) (sn : Sensor K) (th : K) (rest : List K) (hth : sn.thresholds = th :: rest) (h0 : 0 < th) :
    ∃ sn', sn.sensing s = .ok sn' ∧
      ∀ e, (sn'.sensors.val e = 1 ↔ NextTo s.NE (fun i => (th * jumpAt s i - (1 - th)) ^ 2 < 1 - 2 * th) e) ∧ sn'.sensors.val e ≤ 1 := by
  obtain ⟨sn', h1, -, -, h2⟩ := C48_flags hs sn th rest hth
  refine ⟨sn', h1, fun e => ?_⟩
  have key : NextTo s.NE (fun i => psi (jumpAt s i) > th) e ↔ NextTo s.NE (fun i => (th * jumpAt s i - (1 - th)) ^ 2 < 1 - 2 * th) e := by
    constructor
    · rintro ⟨i, hi, hp, he⟩
      exact ⟨i, hi, (psi_gt_iff h0 (abs_nonneg _)).mp hp, he⟩
    · rintro ⟨i, hi, hp, he⟩
      exact ⟨i, hi, (psi_gt_iff h0 (abs_nonneg _)).mpr hp, he⟩
  rw [← key]
  by_cases hn : NextTo s.NE (fun i => psi (jumpAt s i) > th) e
  · have := (h2 e).1 hn
    exact ⟨⟨fun _ => hn, fun _ => this⟩, by omega⟩
  · have := (h2 e).2 hn
    exact ⟨⟨fun h => by omega, fun h => absurd h hn⟩, by omega⟩

/-- The indicator does not decrease from `x` to `y` exactly if their product is at most 1. -/
lemma psi_le_iff {x y : K} (hx : 0 ≤ x) (hxy : x < y) : psi x ≤ psi y ↔ x * y ≤ 1 := by
  have h1 : 0 < (1 + x) ^ 2 := by positivity
  have h2 : 0 < (1 + y) ^ 2 := by have : 0 < y := lt_of_le_of_lt hx hxy; positivity
  unfold psi
  rw [div_le_div_iff₀ h1 h2, ← sub_nonneg]
  have e : 2 * y * (1 + x) ^ 2 - 2 * x * (1 + y) ^ 2 = 2 * (y - x) * (1 - x * y) := by ring
  rw [e, mul_nonneg_iff_of_pos_left (by linarith), sub_nonneg]

/-- **C50 (advection, which jumps).** If at every face the jump of `s'` equals that of `s`, or exceeds it and the product of the two is at
most 1, every cell flagged for `s` is flagged for `s'`, whatever the threshold. -/
theorem C50_advection_product_partial {s s' : Sol K} (hs : AdvectionSol s) (hs' : AdvectionSol s') (hNE : s'.NE = s.NE) (sn a b : Sensor K)
    (hj : ∀ i ≤ s.NE, jumpAt s i = jumpAt s' i ∨ jumpAt s i < jumpAt s' i ∧ jumpAt s i * jumpAt s' i ≤ 1)
    (ha : sn.sensing s = .ok a) (hb : sn.sensing s' = .ok b) (e : ℕ) : a.sensors.val e ≤ b.sensors.val e := by
  rcases hth : sn.thresholds with _ | ⟨th, rest⟩
  · rw [C48_no_threshold hs sn hth] at ha; cases ha
  obtain ⟨a', h1, _, _, h2⟩ := C48_flags hs sn th rest hth
  obtain ⟨b', h3, _, _, h4⟩ := C48_flags hs' sn th rest hth
  rw [h1] at ha; rw [h3] at hb
  cases ha; cases hb
  by_cases hn : NextTo s.NE (fun i => psi (jumpAt s i) > th) e
  · have hn' : NextTo s'.NE (fun i => psi (jumpAt s' i) > th) e := by
      obtain ⟨i, hi, hp, he⟩ := hn
      refine ⟨i, by omega, lt_of_lt_of_le hp ?_, he⟩
      rcases hj i hi with h | ⟨h, h'⟩
      · rw [h]
      · exact (psi_le_iff (abs_nonneg _) h).mpr h'
    rw [(h2 e).1 hn, (h4 e).1 hn']
  · rw [(h2 e).2 hn]; exact Nat.zero_le _

end Advection

/-- **C50 (advection, the condition is needed).** For any two jumps `0 < x < y` whose product exceeds 1 there is a threshold with which a
step of height `x` is flagged and one of height `y` is not. -/
theorem C50_advection_fails (x y : ℚ) (hx : 0 < x) (hxy : x < y) (h1 : 1 < x * y) : ∃ (th : ℚ) (a b : Sensor ℚ), 0 < th ∧ th < 1 / 2 ∧
    jumpAt (stepSol x) 0 = x ∧ jumpAt (stepSol y) 0 = y ∧
    Sensor.sensing ⟨[th], ⟨3, fun _ => 0⟩⟩ (stepSol x) = .ok a ∧ Sensor.sensing ⟨[th], ⟨3, fun _ => 0⟩⟩ (stepSol y) = .ok b ∧
    a.sensors.val 0 = 1 ∧ a.sensors.val 1 = 1 ∧ ∀ e, b.sensors.val e = 0 := by
  have hy : 0 < y := hx.trans hxy
  have hlt : psi y < psi x := not_le.mp fun h => absurd ((psi_le_iff hx.le hxy).mp h) (not_le.mpr h1)
  have hpy : 0 < psi y := by unfold psi; positivity
  obtain ⟨a, ha, -, -, ha2⟩ := C48_flags (stepSol_adv x) ⟨[psi y], ⟨3, fun _ => 0⟩⟩ (psi y) [] rfl
  obtain ⟨b, hb, -, -, hb2⟩ := C48_flags (stepSol_adv y) ⟨[psi y], ⟨3, fun _ => 0⟩⟩ (psi y) [] rfl
  have jx : jumpAt (stepSol x) 0 = x := by rw [(stepSol_jump x).1, abs_of_pos hx]
  have jy : jumpAt (stepSol y) 0 = y := by rw [(stepSol_jump y).1, abs_of_pos hy]
  have hf : psi (jumpAt (stepSol x) 0) > psi y := by rw [jx]; exact hlt
  refine ⟨psi y, a, b, hpy, lt_of_lt_of_le hlt (psi_le_half hx.le), jx, jy, ha, hb, (ha2 0).1 ⟨0, Nat.zero_le _, hf, .inl rfl⟩,
    (ha2 1).1 ⟨0, Nat.zero_le _, hf, .inr rfl⟩, fun e => (hb2 e).2 ?_⟩
  rintro ⟨i, hi, hp, -⟩
  have hi : i ≤ 1 := hi
  interval_cases i
  · rw [jy] at hp
    exact lt_irrefl _ hp
  · rw [(stepSol_jump y).2, psi_zero] at hp
    linarith

/-! ### Examples -/

/-- C48 (window): with threshold 2/5 a step of height 1 is flagged, as (2/5 - 3/5)² < 1/5. -/
example : ∃ b, Sensor.sensing ⟨[2/5], ⟨3, fun _ => 7⟩⟩ (stepSol 1) = .ok b ∧ b.sensors.val 1 = 1 := by
  obtain ⟨b, h1, h2⟩ := C48_window (stepSol_adv 1) ⟨[2/5], ⟨3, fun _ => 7⟩⟩ (2/5) [] rfl (by norm_num)
  refine ⟨b, h1, (h2 1).1.mpr ⟨0, by decide, ?_, .inr rfl⟩⟩
  beta_reduce
  rw [(stepSol_jump 1).1]
  norm_num

/-- C50: the jumps 1/4 and 4 meet the hypotheses although 4 is beyond 1. -/
example : ∀ i ≤ 1, jumpAt (stepSol (1/4)) i = jumpAt (stepSol 4) i ∨
    jumpAt (stepSol (1/4)) i < jumpAt (stepSol 4) i ∧ jumpAt (stepSol (1/4)) i * jumpAt (stepSol 4) i ≤ 1 := by
  intro i hi
  interval_cases i
  · right
    rw [(stepSol_jump _).1, (stepSol_jump 4).1]
    norm_num [abs_of_pos]
  · left
    rw [(stepSol_jump _).2, (stepSol_jump 4).2]

/-- C50: the jumps 1/2 and 3 do not. -/
example : ∃ (th : ℚ) (a b : Sensor ℚ), 0 < th ∧ th < 1 / 2 ∧ jumpAt (stepSol (1/2)) 0 = 1/2 ∧ jumpAt (stepSol 3) 0 = 3 ∧
    Sensor.sensing ⟨[th], ⟨3, fun _ => 0⟩⟩ (stepSol (1/2)) = .ok a ∧ Sensor.sensing ⟨[th], ⟨3, fun _ => 0⟩⟩ (stepSol 3) = .ok b ∧
    a.sensors.val 0 = 1 ∧ a.sensors.val 1 = 1 ∧ ∀ e, b.sensors.val e = 0 :=
  C50_advection_fails (1/2) 3 (by norm_num) (by norm_num) (by norm_num)

/-- The standing shock of Mach number 2 obeys Lax's condition strictly. -/
lemma Ex.up_lax : LaxShock (7 / 5) 0 Ex.up Ex.down := by
  refine ⟨Ex.shock_standing.1, .inl ⟨?_, ?_⟩⟩
  · rw [Ex.up_c]; norm_num [Ex.up]
  · have : 21 / 20 < Ex.down.c (7 / 5) := by
      unfold Prim.c Ex.down
      rw [Real.lt_sqrt (by norm_num)]
      norm_num
    have v : Ex.down.v = 21 / 20 := rfl
    rw [v]; linarith

lemma Ex.up_phys : Ex.up.Phys ∧ Ex.down.Phys := ⟨by norm_num [Prim.Phys, Ex.up], by norm_num [Prim.Phys, Ex.down]⟩

/-- Its pressure ratio is enough for the threshold 1/100 of the regression decks. -/
lemma Ex.up_strong : StrongerThan (√(1 - 2 * (1 / 100))) Ex.up Ex.down := by
  have h : (9 / 10 : ℝ) < √(1 - 2 * (1 / 100)) := by rw [Real.lt_sqrt (by norm_num)]; norm_num
  unfold StrongerThan
  have e1 : min Ex.up.p Ex.down.p = 21 / 5 := by rw [min_eq_left] <;> norm_num [Ex.up, Ex.down]
  have e2 : max Ex.up.p Ex.down.p = 189 / 10 := by rw [max_eq_right] <;> norm_num [Ex.up, Ex.down]
  rw [e1, e2]
  linarith

/-- One cell and its ghosts: the shock between the left ghost and the cell. -/
noncomputable def Ex.tube (e : ℕ) : Prim := if e = 0 then Ex.up else Ex.down

lemma Ex.tube_euler : EulerSol (7 / 5) (gasSol (7 / 5) Ex.tube) Ex.tube :=
  gasSol_euler fun e _ => by unfold Ex.tube; split <;> [exact Ex.up_phys.1; exact Ex.up_phys.2]

lemma Ex.tube_mirror : EulerSol (7 / 5) (gasSol (7 / 5) fun e => (Ex.tube (2 - e)).mirror) (fun e => (Ex.tube ((gasSol (7 / 5) Ex.tube).NE + 1 - e)).mirror) :=
  gasSol_euler (W := fun e => (Ex.tube (2 - e)).mirror) fun e _ => phys_mirror (by unfold Ex.tube; split <;> [exact Ex.up_phys.1; exact Ex.up_phys.2])

lemma Ex.tube_waves (i : ℕ) : RankineHugoniot (7 / 5) 0 (Ex.tube i) (Ex.tube (i + 1)) := by
  unfold Ex.tube
  rw [if_neg (Nat.succ_ne_zero i)]
  split
  · exact Ex.up_lax.1
  · intro k; simp

/-- C107 and C51: the shock, of the first family, is flagged next to face 0; its mirror image, of the third family, next to face 1. -/
example : ∃ a b, Sensor.sensing ⟨[1/100, 1/100], ⟨3, fun _ => 1⟩⟩ (gasSol (7 / 5) Ex.tube) = .ok a ∧
    Sensor.sensing ⟨[1/100, 1/100], ⟨3, fun _ => 1⟩⟩ (gasSol (7 / 5) fun e => (Ex.tube (2 - e)).mirror) = .ok b ∧
    a.sensors.val 0 = 2 ∧ a.sensors.val 1 = 2 ∧ a.sensors.val 2 ≠ 2 ∧ b.sensors.val 2 = 2 ∧ b.sensors.val 1 = 2 ∧ b.sensors.val 0 ≠ 2 := by
  obtain ⟨a, h1, h2, h3⟩ := C107_found (by norm_num) (by norm_num) Ex.tube_euler ⟨[1/100, 1/100], ⟨3, fun _ => 1⟩⟩ (1/100) (1/100) [] rfl (by norm_num)
    (i := 0) (by decide) (S := 0) Ex.up_lax Ex.up_strong
  obtain ⟨b, h4, -⟩ := C49_flags (by norm_num) Ex.tube_mirror ⟨[1/100, 1/100], ⟨3, fun _ => 1⟩⟩ (1/100) (1/100) [] rfl
  have hm := C51_waves_partial (by norm_num) (by norm_num) Ex.tube_euler Ex.tube_mirror rfl ⟨[1/100, 1/100], ⟨3, fun _ => 1⟩⟩ a b (1/100) (1/100) [] rfl
    (by norm_num) (fun _ => 0) (fun i _ => Ex.tube_waves i) h1 h4
  obtain ⟨a', h5, h6⟩ := C107_flags (by norm_num) (by norm_num) Ex.tube_euler ⟨[1/100, 1/100], ⟨3, fun _ => 1⟩⟩ (1/100) (1/100) [] rfl (by norm_num)
    (fun _ => 0) 2 (fun i _ _ => Ex.tube_waves i)
  rw [h1] at h5
  cases h5
  have h20 : a.sensors.val 2 ≠ 2 := by
    rw [ne_eq, h6]
    rintro ⟨i, hi, ⟨-, hw⟩, he⟩
    have hi : i ≤ 1 := hi
    have : i = 1 := by omega
    subst this
    have hs : √(1 - 2 * (1 / 100) : ℝ) ≤ 1 := Real.sqrt_le_one.2 (by norm_num)
    simp [StrongerThan, Ex.tube, Ex.down] at hw
    norm_num at hs hw
    linarith
  refine ⟨a, b, h1, h4, h2, h3, h20, ?_, ?_, ?_⟩
  · rw [hm 2 (by decide)]; exact h2
  · rw [hm 1 (by decide)]; exact h3
  · rw [hm 0 (by decide)]; exact h20

/-- C107 (sharp): for `γ = 2` some right-running shock is missed. -/
example : ∃ (S : ℝ) (wL wR : Prim), LaxShock 2 S wL wR ∧ ¬ Compressive 2 wL wR := by
  obtain ⟨S, wL, wR, -, -, -, -, h1, h2, -⟩ := C107_missed (γ := 2) (by norm_num)
  exact ⟨S, wL, wR, h1, h2⟩

end Dg1d.Props
