import Verif.Model.InitialConditions
import Verif.Spec.InitialConditions
import Verif.Proofs.Euler

/-! # The initial conditions are physical (C28) -/

open Dg1d.Spec Real

namespace Dg1d.Props

/-- The code's list of fields is the list of conserved variables of `w`, and the code's own velocity and pressure
formulas give back those of `w`. -/
def Holds (γ : ℝ) (l : List ℝ) (w : Prim) : Prop :=
  l = [w.cons γ 0, w.cons γ 1, w.cons γ 2] ∧
  ∀ s : Euler.St, l = [s.rho, s.m, s.E] → s.rho = w.rho ∧ s.v = w.v ∧ s.p γ = w.p

lemma holds_of {γ : ℝ} (hγ : 1 < γ) {l : List ℝ} {w : Prim} (hw : w.Phys)
    (h : l = [w.rho, w.rho * w.v, w.p / (γ - 1) + w.rho * w.v ^ 2 / 2]) : Holds γ l w := by
  have hr : w.rho ≠ 0 := hw.1.ne'
  have hg : γ - 1 ≠ 0 := by linarith
  refine ⟨by rw [h]; simp [Prim.cons, Prim.energy], fun s hs => ?_⟩
  rw [h] at hs
  simp only [List.cons.injEq, and_true] at hs
  obtain ⟨h1, h2, h3⟩ := hs
  have hv : s.v = w.v := by
    unfold Euler.St.v
    rw [← h1, ← h2]; field_simp
  refine ⟨h1.symm, hv, ?_⟩
  unfold Euler.St.p
  rw [hv, ← h1, ← h3]
  field_simp
  ring

/-- **C28 (entropy wave).** -/
theorem C28_entrpyw {γ : ℝ} (hγ : 1 < γ) (x : ℝ) : (entropyWave x).Phys ∧ Holds γ (IC.entrpyw.f γ x) (entropyWave x) := by
  have hp : (entropyWave x).Phys := by
    have := neg_one_le_sin (π * x)
    exact ⟨by simp only [entropyWave]; linarith, by norm_num [entropyWave]⟩
  refine ⟨hp, holds_of hγ hp ?_⟩
  simp only [IC.entrpyw, IC.entrpywF, entropyWave, List.cons.injEq, and_true]
  refine ⟨by ring, by ring, by ring⟩

/-- **C28 (acoustic pulse).** -/
theorem C28_acsticw {γ : ℝ} (hγ : 1 < γ) (x : ℝ) : (acousticPulse γ x).Phys ∧ Holds γ (IC.acsticw.f γ x) (acousticPulse γ x) := by
  have hc : 0 ≤ cos (π * x / 2) ^ 8 := by positivity
  have hg : 0 < 1 / γ := by positivity
  have hp : (acousticPulse γ x).Phys :=
    ⟨by simp only [acousticPulse]; linarith, by simp only [acousticPulse]; linarith⟩
  refine ⟨hp, holds_of hγ hp ?_⟩
  have e : 1 / 2 * π * x = π * x / 2 := by ring
  simp only [IC.acsticw, IC.acsticwF, acousticPulse, List.cons.injEq, and_true, e]
  refine ⟨by ring, by ring, by ring⟩

/-- **C28 (shock tube).** Positive left and right states. -/
theorem C28_scktube {γ : ℝ} (hγ : 1 < γ) (xd : ℝ) {wL wR : Prim} (hL : wL.Phys) (hR : wR.Phys) (x : ℝ) :
    (shockTube xd wL wR x).Phys ∧
      Holds γ ((IC.scktube xd wL.rho wL.v wL.p wR.rho wR.v wR.p).f γ x) (shockTube xd wL wR x) := by
  have hp : (shockTube xd wL wR x).Phys := by unfold shockTube; split <;> assumption
  refine ⟨hp, holds_of hγ hp ?_⟩
  simp only [IC.scktube, IC.scktubeF, shockTube]
  split <;> simp only [List.cons.injEq, and_true] <;> refine ⟨trivial, trivial, by ring⟩

/-- **C28 (Shu-Osher).** The flow is that of a gas with ratio of specific heats 1.4, whatever gamma was before. -/
theorem C28_shuoshe (γ x : ℝ) : (shuOsher x).Phys ∧ Holds (7 / 5) (IC.shuoshe.f γ x) (shuOsher x) := by
  have hp : (shuOsher x).Phys := by
    unfold shuOsher
    split
    · constructor <;> norm_num
    · have := neg_one_le_sin (5 * (x - 5))
      exact ⟨by simp only; linarith, by norm_num⟩
  refine ⟨hp, holds_of (by norm_num) hp ?_⟩
  simp only [IC.shuoshe, IC.shuosheF, shuOsher]
  split <;> simp only [List.cons.injEq, and_true] <;> refine ⟨by ring, by ring, by ring⟩

/-- **C28 (simple wave, coverage).** Some region of `simplew` applies at every point. -/
theorem C28_simplew_covers (γ x : ℝ) : IC.simplewVelocity γ x ≠ none := by
  unfold IC.simplewVelocity
  simp only
  split_ifs with h1 h2 h3 h4 h5 <;> simp only [ne_eq, reduceCtorEq, not_false_eq_true]
  push Not at *
  have a2 := h2 h1
  have a3 := h3 a2
  have a4 := h4 a3
  linarith

/-- **C28 (simple wave).** -/
theorem C28_simplew {γ : ℝ} (hγ : 1 < γ) (x : ℝ) :
    ∃ w : Prim, w.Phys ∧ IsSimpleWave γ x w ∧ Holds γ (IC.simplew.f γ x) w := by
  have hg : 0 < γ := by linarith
  have key : ∃ u, IC.simplewVelocity γ x = some u ∧ |u| ≤ 2 / γ ∧ (|x| ≤ 1 / 2 → u = 0) ∧ (x ≤ -3 / 2 → u = -(2 / γ)) ∧
      (3 / 2 ≤ x → u = 2 / γ) ∧ (1 / 2 < |x| → |x| < 3 / 2 → 0 < u * x ∧ |u| < 2 / γ) := by
    have hu0 : 0 < 2 / γ := by positivity
    unfold IC.simplewVelocity
    simp only
    by_cases h1 : x ≤ -3 / 2
    · rw [if_pos h1]
      have hx : |x| = -x := abs_of_nonpos (by linarith)
      refine ⟨_, rfl, by rw [abs_neg, abs_of_pos hu0], fun h => ?_, fun _ => rfl, fun h => by linarith, fun _ h => ?_⟩ <;> (rw [hx] at h; linarith)
    rw [if_neg h1]
    push Not at h1
    by_cases h2 : x < -1 / 2
    · rw [if_pos ⟨h1, h2⟩]
      set t := tanh ((x + 1) / (1 / 4 - (x + 1) ^ 2))
      have ht1 : t < 1 := tanh_lt_one _
      have ht2 : -1 < t := neg_one_lt_tanh _
      have hx : |x| = -x := abs_of_nonpos (by linarith)
      have hneg : -1 / γ * (1 - t) < 0 := by
        have : 0 < 1 / γ * (1 - t) := mul_pos (by positivity) (by linarith)
        have e : -1 / γ * (1 - t) = -(1 / γ * (1 - t)) := by ring
        linarith
      have habs : |-1 / γ * (1 - t)| < 2 / γ := by
        rw [abs_of_neg hneg, show -(-1 / γ * (1 - t)) = (1 - t) / γ by ring]
        exact div_lt_div_of_pos_right (by linarith) hg
      refine ⟨_, rfl, habs.le, fun h => ?_, fun h => by linarith, fun h => by linarith, fun _ _ => ⟨mul_pos_of_neg_of_neg hneg (by linarith), habs⟩⟩
      rw [hx] at h; linarith
    rw [if_neg (fun h => h2 h.2)]
    push Not at h2
    by_cases h3 : x ≤ 1 / 2
    · rw [if_pos ⟨h2, h3⟩]
      have hx : |x| ≤ 1 / 2 := abs_le.mpr ⟨by linarith, h3⟩
      exact ⟨0, rfl, by rw [abs_zero]; exact hu0.le, fun _ => rfl, fun h => by linarith, fun h => by linarith, fun h => by linarith⟩
    rw [if_neg (fun h => h3 h.2)]
    push Not at h3
    have hx : |x| = x := abs_of_nonneg (by linarith)
    by_cases h4 : x < 3 / 2
    · rw [if_pos ⟨h3, h4⟩]
      set t := tanh ((x - 1) / (1 / 4 - (x - 1) ^ 2))
      have ht1 : t < 1 := tanh_lt_one _
      have ht2 : -1 < t := neg_one_lt_tanh _
      have hpos : 0 < 1 / γ * (1 + t) := mul_pos (by positivity) (by linarith)
      have habs : |1 / γ * (1 + t)| < 2 / γ := by
        rw [abs_of_pos hpos, show 1 / γ * (1 + t) = (1 + t) / γ by ring]
        exact div_lt_div_of_pos_right (by linarith) hg
      refine ⟨_, rfl, habs.le, fun h => ?_, fun h => by linarith, fun h => by linarith, fun _ _ => ⟨mul_pos hpos (by linarith), habs⟩⟩
      rw [hx] at h; linarith
    · rw [if_neg (fun h => h4 h.2)]
      push Not at h4
      rw [if_pos h4]
      refine ⟨_, rfl, by rw [abs_of_pos hu0], fun h => ?_, fun h => by linarith, fun _ => rfl, fun _ h => ?_⟩ <;> (rw [hx] at h; linarith)
  obtain ⟨u, hu, hb, k1, k2, k3, k4⟩ := key
  set a := 1 - (γ - 1) / 2 * |u| with ha
  have hapos : 0 < a := by
    have : (γ - 1) / 2 * |u| ≤ (γ - 1) / 2 * (2 / γ) := mul_le_mul_of_nonneg_left hb (by linarith)
    have e : (γ - 1) / 2 * (2 / γ) = 1 - 1 / γ := by field_simp
    have : 0 < 1 / γ := by positivity
    linarith
  set rho := γ * a ^ (2 / (γ - 1)) with hrho
  have hrpos : 0 < rho := mul_pos hg (rpow_pos_of_pos hapos _)
  set w : Prim := ⟨rho, u, rho * a * a / γ⟩ with hw
  have hwp : w.Phys := ⟨hrpos, by simp only [hw]; positivity⟩
  have hc : w.c γ = a := by
    unfold Prim.c
    simp only [hw]
    rw [show γ * (rho * a * a / γ) / rho = a ^ 2 by field_simp, sqrt_sq hapos.le]
  refine ⟨w, hwp, ⟨by rw [hc, ha]; ring, by rw [hc], k1, k2, k3, k4⟩, holds_of hγ hwp ?_⟩
  simp only [IC.simplew, IC.simplewF, hu, hw, List.cons.injEq, and_true]
  refine ⟨rfl, rfl, ?_⟩
  rw [← ha, ← hrho]
  ring

/-- Sod's shock tube at a point of its left half. -/
example : (IC.scktube 0 1 0 1 (1 / 8) 0 (1 / 10)).f (7 / 5) (-1 / 2) = [1, 0, 5 / 2] := by
  norm_num [IC.scktube, IC.scktubeF]
example : IC.simplewVelocity 3 2 = some (2 / 3) ∧ IC.simplewVelocity 3 0 = some 0 := by
  constructor <;> norm_num [IC.simplewVelocity]
example : 1 < (3 : ℝ) ∧ (⟨1, 0, 1⟩ : Prim).Phys := by constructor <;> norm_num [Prim.Phys]

end Dg1d.Props
