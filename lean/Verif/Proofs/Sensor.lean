import Verif.Model.Limiter
import Verif.Spec.Sensor
import Verif.Proofs.Runs
import Verif.Proofs.Euler

/-! Helper lemmas on the sensors. -/

set_option linter.unusedSectionVars false

open Dg1d.Spec

namespace Dg1d

lemma raiseSensors_val (flag : ℕ → Bool) (P : ℕ → Prop) (NE v : ℕ) (s : Vec ℕ) (h : ∀ i ≤ NE, flag i = true ↔ P i) (e : ℕ) :
    (NextTo NE P e → (raiseSensors flag (NE + 1) v s).val e = v) ∧
    (¬ NextTo NE P e → (raiseSensors flag (NE + 1) v s).val e = s.val e) := by
  have key : ((e < NE + 1 ∧ flag e = true) ∨ (1 ≤ e ∧ e - 1 < NE + 1 ∧ flag (e - 1) = true)) ↔ NextTo NE P e := by
    constructor
    · rintro (⟨h1, h2⟩ | ⟨h1, h2, h3⟩)
      · exact ⟨e, by omega, (h e (by omega)).mp h2, .inl rfl⟩
      · exact ⟨e - 1, by omega, (h _ (by omega)).mp h3, .inr (by omega)⟩
    · rintro ⟨i, hi, hP, rfl | rfl⟩
      · exact .inl ⟨by omega, (h _ hi).mpr hP⟩
      · exact .inr ⟨by omega, by simpa using by omega, by simpa using (h _ hi).mpr hP⟩
  exact ⟨fun hx => if_pos (key.mpr hx), fun hx => if_neg (fun h => hx (key.mp h))⟩

section
variable {K : Type*} [Field K] [LinearOrder K] [IsStrictOrderedRing K]

lemma psi_mono {x y : K} (hx : 0 ≤ x) (hxy : x ≤ y) (hy : y ≤ 1) : psi x ≤ psi y := by
  unfold psi
  have h1 : 0 < (1 + x) ^ 2 := by positivity
  have h2 : 0 < (1 + y) ^ 2 := by have : 0 ≤ y := hx.trans hxy; positivity
  rw [div_le_div_iff₀ h1 h2]
  have h3 : 0 ≤ (y - x) * (1 - x * y) := by
    apply mul_nonneg (by linarith)
    nlinarith
  nlinarith

lemma psi_le_half {x : K} (hx : 0 ≤ x) : psi x ≤ 1 / 2 := by
  unfold psi
  have h1 : 0 < (1 + x) ^ 2 := by positivity
  rw [div_le_div_iff₀ h1 (by norm_num)]
  nlinarith [sq_nonneg (1 - x)]

lemma psi_zero : psi (0 : K) = 0 := by simp [psi]

lemma indicator_eq (a b : K) : Advection.indicator a b = psi |b - a| := by
  unfold Advection.indicator psi
  simp only [sq]

end

/-- `u[0, :-NF]`. -/
lemma slice_left {K : Type*} (u : Arr K) {NE NF : ℕ} (hc : u.cols = (NE + 2) * NF) :
    ((u.row 0).slice 0 (-(NF : ℤ))).len = (NE + 1) * NF ∧ ∀ j, ((u.row 0).slice 0 (-(NF : ℤ))).val j = u.val 0 j := by
  have h2 : (NE + 2) * NF = (NE + 1) * NF + NF := by ring
  have h1 : pyIdx u.cols (-(NF : ℤ)) = (NE + 1) * NF := by
    unfold pyIdx
    rw [hc, h2]
    rcases Nat.eq_zero_or_pos NF with rfl | h
    · simp
    · rw [if_pos (by omega)]
      generalize (NE + 1) * NF = M
      omega
  have h0 : pyIdx u.cols 0 = 0 := by simp [pyIdx]
  exact ⟨by simp [Vec.slice, Arr.row, h1, h0], fun j => by simp [Vec.slice, Arr.row, h0]⟩

/-- `u[0, NF:]`. -/
lemma slice_right {K : Type*} (u : Arr K) {NE NF : ℕ} (hc : u.cols = (NE + 2) * NF) (j : ℕ) :
    ((u.row 0).slice NF u.cols).val j = u.val 0 (NF + j) := by
  have h2 : (NE + 2) * NF = (NE + 1) * NF + NF := by ring
  have h1 : pyIdx u.cols (NF : ℤ) = NF := by
    unfold pyIdx
    rw [hc, h2, if_neg (by omega)]
    simp
  simp [Vec.slice, Arr.row, h1]

open Euler

lemma faceStates_eq {u : Arr ℝ} {NE : ℕ} (hc : u.cols = (NE + 2) * 3) (i : ℕ) :
    faceStates u 3 i = (stOf (fieldsAt 3 (u.val 0) i), stOf (fieldsAt 3 (u.val 0) (i + 1))) := by
  unfold faceStates
  have h1 := (slice_left u hc).2
  have h2 := slice_right u hc
  simp only [stateAt, stOf, fieldsAt]
  rw [h1, h1, h1, h2, h2, h2]
  simp only [Fin.val_zero, Fin.val_one, Fin.val_two]
  congr 3 <;> ring

lemma isDiscontinuity_iff {γ : ℝ} (hγ : 1 < γ) {wL wR : Prim} (hL : wL.Phys) (hR : wR.Phys) (th : ℝ) :
    isDiscontinuity γ th (stOf (wL.cons γ)) (stOf (wR.cons γ)) ↔ psi (contactJump γ wL wR) > th := by
  unfold isDiscontinuity
  rw [roeAverages_cons hγ hL hR]
  simp only
  rw [p_cons hγ hL.1.ne', p_cons hγ hR.1.ne']
  have e1 : (stOf (wL.cons γ)).rho = wL.rho := rfl
  have e2 : (stOf (wR.cons γ)).rho = wR.rho := rfl
  rw [e1, e2]
  have hj : |wR.rho - wL.rho - (wR.p - wL.p) / (roeC γ wL wR * roeC γ wL wR)| / (wL.rho + wR.rho) = contactJump γ wL wR := by
    unfold contactJump; rw [sq]
  rw [hj]
  have h0 : 0 ≤ contactJump γ wL wR := by
    unfold contactJump; have := hL.1; have := hR.1; positivity
  have h3 : 0 < (γ - 1) * (roeH γ wL wR - 1 / 2 * roeV wL wR * roeV wL wR) := by
    have := roeC_arg hγ hL hR
    convert this using 3; ring
  have hg : wL.rho ≠ 0 ∧ wR.rho ≠ 0 ∧ 0 ≤ wR.rho / wL.rho ∧ 0 < (γ - 1) * (roeH γ wL wR - 1 / 2 * roeV wL wR * roeV wL wR) ∧
      1 + contactJump γ wL wR ≠ 0 := ⟨hL.1.ne', hR.1.ne', (div_pos hR.1 hL.1).le, h3, by positivity⟩
  simp only [hg, true_and, psi, sq, ne_eq, not_false_eq_true]

lemma isShock_iff {γ : ℝ} (hγ : 1 < γ) {wL wR : Prim} (hL : wL.Phys) (hR : wR.Phys) (th : ℝ) :
    isShock γ th (stOf (wL.cons γ)) (stOf (wR.cons γ)) ↔ psi (pressureJump wL wR) > th ∧ Compressive γ wL wR := by
  unfold isShock
  rw [roeAverages_cons hγ hL hR]
  simp only
  rw [p_cons hγ hL.1.ne', p_cons hγ hR.1.ne', v_cons γ hL.1.ne', v_cons γ hR.1.ne', a_cons hγ hL.1.ne', a_cons hγ hR.1.ne']
  have e1 : (stOf (wL.cons γ)).rho = wL.rho := rfl
  have e2 : (stOf (wR.cons γ)).rho = wR.rho := rfl
  rw [e1, e2]
  have hj : |wR.p - wL.p| / (wL.p + wR.p) = pressureJump wL wR := rfl
  rw [hj]
  have h0 : 0 ≤ pressureJump wL wR := by
    unfold pressureJump; have := hL.2; have := hR.2; positivity
  have h3 : 0 < (γ - 1) * (roeH γ wL wR - 1 / 2 * roeV wL wR * roeV wL wR) := by
    have := roeC_arg hγ hL hR
    convert this using 3; ring
  have hp : wL.p + wR.p ≠ 0 := by have := hL.2; have := hR.2; positivity
  have hg : (stOf (wL.cons γ)).IsReal γ ∧ (stOf (wR.cons γ)).IsReal γ ∧ 0 ≤ wR.rho / wL.rho ∧
      0 ≤ (γ - 1) * (roeH γ wL wR - 1 / 2 * roeV wL wR * roeV wL wR) ∧ wL.p + wR.p ≠ 0 ∧
      1 + pressureJump wL wR ≠ 0 := ⟨isReal_cons hγ hL, isReal_cons hγ hR, (div_pos hR.1 hL.1).le, h3.le, hp, by positivity⟩
  simp only [hg, true_and, psi, sq, ne_eq, not_false_eq_true, Compressive]

lemma pressureJump_lt {wL wR : Prim} (hL : wL.Phys) (hR : wR.Phys) : 0 ≤ pressureJump wL wR ∧ pressureJump wL wR < 1 := by
  have h1 := hL.2
  have h2 := hR.2
  unfold pressureJump
  refine ⟨by positivity, ?_⟩
  rw [div_lt_one (by positivity), abs_lt]
  constructor <;> linarith

lemma psi_lt_half {x : ℝ} (hx : 0 ≤ x) (h1 : x < 1) : psi x < 1 / 2 := by
  unfold psi
  have h : 0 < (1 + x) ^ 2 := by positivity
  rw [div_lt_div_iff₀ h (by norm_num)]
  nlinarith [mul_pos (sub_pos.mpr h1) (sub_pos.mpr h1)]

lemma contactJump_same {γ : ℝ} (w : Prim) : contactJump γ w w = 0 := by simp [contactJump]

lemma roeV_mirror (wL wR : Prim) : roeV wR.mirror wL.mirror = - roeV wL wR := by
  unfold roeV roeMean Prim.mirror
  simp only
  rw [add_comm (√wR.rho), ← neg_div]
  congr 1
  ring

lemma roeC_mirror (γ : ℝ) (wL wR : Prim) : roeC γ wR.mirror wL.mirror = roeC γ wL wR := by
  unfold roeC
  rw [roeV_mirror]
  have : roeH γ wR.mirror wL.mirror = roeH γ wL wR := by
    unfold roeH roeMean Prim.enthalpy Prim.mirror
    simp only [neg_sq]
    rw [add_comm (√wR.rho)]
    congr 1
    ring
  rw [this, neg_sq]

lemma contactJump_mirror (γ : ℝ) (wL wR : Prim) : contactJump γ wR.mirror wL.mirror = contactJump γ wL wR := by
  unfold contactJump
  rw [roeC_mirror]
  simp only [Prim.mirror]
  rw [← abs_neg, add_comm wR.rho]
  congr 2
  ring

end Dg1d
