import Verif.Props.Euler
import Verif.Proofs.Godunov

/-! # Euler physics: the Godunov solver (C38, C40-C42, C44, C45) -/

set_option linter.unusedSectionVars false

open Dg1d.Spec Dg1d.Euler

namespace Dg1d.Props

variable {γ : ℝ} (hγ : 1 < γ) {wL wR w : Prim} (hL : wL.Phys) (hR : wR.Phys)

include hγ in
lemma fluxAt_godunov {F : Fin 3 → ℝ}
    (h : ∃ f U, godunov1 γ (stOf (wL.cons γ)) (stOf (wR.cons γ)) none = .ok (f, U) ∧ vecOf f = F) :
    FluxAt γ "godunov" wL wR F := by
  obtain ⟨f, U, h1, h2⟩ := h
  refine fluxAt_of (godunov_pointwise hγ) ?_ ?_
  · rintro ⟨e, he⟩; rw [h1] at he; cases he
  · simp only [godunovSpec, h1, h2]

/-- At an interface with states `wL | wR` the solver ends in an error: `e` when it is the only interface, and no array
with such an interface gets a flux. -/
def RaisesAt (γ : ℝ) (name : String) (wL wR : Prim) (e : PyErr) : Prop :=
  (physics γ name).riemann (oneState γ wL) (oneState γ wR) = .error e ∧
  ∀ (ul ur : Vec ℝ) (m : ℕ), ul.len = m * 3 → ur.len = m * 3 → (∃ i < m, StatesAt γ ul ur i wL wR) →
    ∀ q, (physics γ name).riemann ul ur ≠ .ok q

lemma RaisesAt.not_fluxAt {name : String} {e : PyErr} (h : RaisesAt γ name wL wR e) (F : Fin 3 → ℝ) : ¬ FluxAt γ name wL wR F := by
  rintro ⟨⟨q, hq⟩, _⟩
  rw [h.1] at hq; cases hq

lemma stateAt_oneState (w : Prim) : stateAt (oneState γ w).val 0 = stOf (w.cons γ) := by
  unfold stateAt stOf oneState
  simp

include hγ in
lemma raisesAt_godunov {e : PyErr} (h : godunov1 γ (stOf (wL.cons γ)) (stOf (wR.cons γ)) none = .error e) :
    RaisesAt γ "godunov" wL wR e := by
  constructor
  · show (if "godunov" = "rusanov" then rusanov γ else if "godunov" = "godunov" then godunov γ else roe γ) _ _ = _
    rw [if_neg (by decide), if_pos rfl]
    unfold godunov
    rw [show ((oneState γ wL).len + 2) / 3 = 1 by simp [oneState]]
    unfold godunovLoop
    rw [stateAt_oneState, stateAt_oneState, h]
  · rintro ul ur m h1 h2 ⟨i, hi, hs⟩ q hq
    obtain ⟨e1, e2⟩ := fieldsAt_of γ hs
    obtain ⟨er, _, he⟩ := (godunov_pointwise hγ).riemannErr ul ur m h1 h2 ⟨i, hi, by rw [e1, e2]; exact ⟨e, h⟩⟩
    rw [he] at hq; cases hq

/-! ### C41: supersonic shortcuts -/

include hγ hL hR in
/-- **C41 (Godunov, left).** -/
theorem C41_godunov_left (h : wL.c γ ≤ wL.v) : FluxAt γ "godunov" wL wR (wL.flux γ) := by
  obtain ⟨f, h1, h2⟩ := godunov1_left hγ hL hR h none
  exact fluxAt_godunov hγ ⟨f, _, h1, h2⟩

include hγ hL hR in
/-- **C41 (Godunov, right).** -/
theorem C41_godunov_right (h0 : wL.v < wL.c γ) (h : wR.v ≤ -wR.c γ) : FluxAt γ "godunov" wL wR (wR.flux γ) := by
  obtain ⟨f, h1, h2⟩ := godunov1_right hγ hL hR h0 h none
  exact fluxAt_godunov hγ ⟨f, _, h1, h2⟩

/-! ### C44: the iteration -/

include hγ hL hR in
/-- **C44.** Physical states, neither supersonic shortcut, velocities below the onset of vacuum. Let `P 0` be the
two-expansion pressure and `P (j+1)` the image of `P j` under the fixed point map. Either some `j ≤ 100` is the first
index with `|P (j+1) - P j| < 1e-6`, all pressures up to it are non-negative, `P (j+1)` is positive and the flux is that
of the interface state of this pressure; or no such index exists and the process exits with the message that the
iteration did not converge. No other outcome is possible; in particular no variable is used unassigned. -/
theorem C44_iteration (h1 : wL.v < wL.c γ) (h2 : -wR.c γ < wR.v) (hvac : wR.v - wL.v < 2 / (γ - 1) * (wL.c γ + wR.c γ)) :
    (∃ j ≤ 100, (∀ i ≤ j, 0 ≤ pressureIter γ wL wR i) ∧
      |pressureIter γ wL wR (j + 1) - pressureIter γ wL wR j| < 1 / 10 ^ 6 ∧
      (∀ i < j, 1 / 10 ^ 6 ≤ |pressureIter γ wL wR (i + 1) - pressureIter γ wL wR i|) ∧
      0 < pressureIter γ wL wR (j + 1) ∧
      FluxAt γ "godunov" wL wR ((interfaceState γ wL wR (pressureIter γ wL wR (j + 1))).flux γ)) ∨
    ((∀ j ≤ 100, (∀ i ≤ j, 0 ≤ pressureIter γ wL wR i) →
        1 / 10 ^ 6 ≤ |pressureIter γ wL wR (j + 1) - pressureIter γ wL wR j|) ∧
      RaisesAt γ "godunov" wL wR (.sysExit "Godunov fixed-point iteration did not converge. Exiting.")) := by
  have hb := (startBase_pos hγ hL hR).mpr hvac
  obtain ⟨m1, m2, m3⟩ := godunov1_middle hγ hL hR h1 h2 none
  rw [pmStart_cons hγ hL hR, if_neg (fun h => absurd h.1 (not_lt.mpr hb.le))] at m1 m2 m3
  simp only [pressureIter_eq]
  rcases pmLoop_some hγ hL hR 102 0 rfl (by norm_num) (twoExpansionPressure γ wL wR) with
    ⟨j, j1, j2, j3, j4, j5⟩ | ⟨j1, j2⟩
  · left
    have hpos := iter_pos hγ hL hR hvac j (by simpa only [pressureIter_eq] using j2)
      (by simpa only [pressureIter_eq] using j3) (by simpa only [pressureIter_eq] using j4)
    rw [pressureIter_eq] at hpos
    exact ⟨j, by omega, j2, j3, j4, hpos, fluxAt_godunov hγ (m1 _ j5 hpos)⟩
  · right
    refine ⟨fun j hj => j1 j (by omega), raisesAt_godunov hγ (m3 _ j2)⟩

include hγ hL hR in
/-- **C44 (vacuum).** At and beyond the onset of vacuum the solver never returns a flux. -/
theorem C44_vacuum (h1 : wL.v < wL.c γ) (h2 : -wR.c γ < wR.v) (hvac : 2 / (γ - 1) * (wL.c γ + wR.c γ) ≤ wR.v - wL.v) :
    ∃ e, RaisesAt γ "godunov" wL wR e := by
  obtain ⟨m1, m2, m3⟩ := godunov1_middle hγ hL hR h1 h2 none
  rw [pmStart_cons hγ hL hR] at m1 m2 m3
  by_cases hn : startBase γ wL wR < 0 ∧ ¬ ∃ n : ℤ, 1 / isoExp γ = n
  · rw [if_pos hn] at m3
    exact ⟨_, raisesAt_godunov hγ (m3 _ (pmLoop_none hγ hL hR 102 0 rfl (by norm_num)))⟩
  rw [if_neg hn] at m1 m2 m3
  rcases pmLoop_some hγ hL hR 102 0 rfl (by norm_num) (twoExpansionPressure γ wL wR) with
    ⟨j, j1, j2, j3, j4, j5⟩ | ⟨j1, j2⟩
  · have hx := j2 j le_rfl
    have hle : iter γ wL wR (twoExpansionPressure γ wL wR) (j + 1) ≤ 0 := by
      rw [iter_succ]
      by_contra hc
      push Not at hc
      rw [pressureMap_pos hγ hL hR hx] at hc
      have hz := quot_zero hγ hL hR
      unfold vacuumJump at hz
      rcases hx.eq_or_lt with h0 | h0
      · rw [← h0] at hc; linarith
      · have := quot_lt hγ hL le_rfl (y := iter γ wL wR (twoExpansionPressure γ wL wR) j) (by linarith)
        have := quot_lt hγ hR le_rfl (y := iter γ wL wR (twoExpansionPressure γ wL wR) j) (by linarith)
        linarith
    exact ⟨_, raisesAt_godunov hγ (m2 _ j5 hle)⟩
  · exact ⟨_, raisesAt_godunov hγ (m3 _ j2)⟩

include hγ hL hR in
/-- **C44 (onset of vacuum).** Exactly at the onset the iteration converges to pressure zero, the sound speeds in the
middle are `0/0`, none of the three cases applies and the solver reads unassigned variables. So the sentence "the three
sonic cases cover every situation" is false of the code at this one velocity jump. -/
theorem C44_onset (h1 : wL.v < wL.c γ) (h2 : -wR.c γ < wR.v) (hvac : wR.v - wL.v = 2 / (γ - 1) * (wL.c γ + wR.c γ)) :
    RaisesAt γ "godunov" wL wR .unboundLocal := by
  obtain ⟨m1, m2, m3⟩ := godunov1_middle hγ hL hR h1 h2 none
  have hb1 : ¬ startBase γ wL wR < 0 := by rw [startBase_neg hγ hL hR]; exact not_lt.mpr hvac.le
  have hb2 : ¬ 0 < startBase γ wL wR := by rw [startBase_pos hγ hL hR]; exact not_lt.mpr hvac.ge
  have hb : startBase γ wL wR = 0 := le_antisymm (not_lt.mp hb2) (not_lt.mp hb1)
  have hg := isoExp_pos hγ
  have hp : twoExpansionPressure γ wL wR = 0 := by
    show startBase γ wL wR ^ (1 / isoExp γ) = 0
    rw [hb, Real.zero_rpow (by positivity)]
  rw [pmStart_cons hγ hL hR, if_neg (fun h => hb1 h.1), hp] at m2
  have hG : pressureMap γ wL wR 0 = 0 := by
    rw [pressureMap_eq hγ hL hR le_rfl, quot_zero hγ hL hR]
    unfold vacuumJump
    rw [hvac, sub_self, mul_zero]
  have hloop : pmLoop γ (stOf (wL.cons γ)) (stOf (wR.cons γ)) 102 0 (some 0) = .ok (some 0) := by
    unfold pmLoop
    rw [show (some (0 : ℝ)).bind (pmNext γ (stOf (wL.cons γ)) (stOf (wR.cons γ))) = some 0 by
      show pmNext γ _ _ 0 = _
      rw [pmNext_cons hγ hL hR le_rfl, hG]]
    simp only
    rw [if_pos (show Converged (some 0) (some 0) by show |(0 : ℝ) - 0| < _; norm_num)]
  have := m2 0 hloop le_rfl
  rw [if_pos rfl] at this
  exact raisesAt_godunov hγ this

/-- C44 at the onset of vacuum: γ = 3, two states of density 3 and pressure 1 (sound speed 1) separating with
velocities -1 and 1. -/
theorem C44_onset_witness : RaisesAt 3 "godunov" ⟨3, -1, 1⟩ ⟨3, 1, 1⟩ .unboundLocal := by
  have hc : ∀ v, (⟨3, v, 1⟩ : Prim).c 3 = 1 := fun v => by simp [Prim.c]
  refine C44_onset (by norm_num) (by norm_num [Prim.Phys]) (by norm_num [Prim.Phys]) ?_ ?_ ?_
  · rw [hc]; norm_num
  · rw [hc]; norm_num
  · rw [hc, hc]; norm_num

/-! ### C38, C42: exact states -/

include hγ hL hR in
/-- When the first pressure is already a fixed point, the flux is that of its interface state. -/
lemma godunov_fixed (h1 : wL.v < wL.c γ) (h2 : -wR.c γ < wR.v) {P : ℝ} (hP : 0 < P)
    (hs : startBase γ wL wR = P ^ isoExp γ) (hG : pressureMap γ wL wR P = P) :
    FluxAt γ "godunov" wL wR ((interfaceState γ wL wR P).flux γ) := by
  obtain ⟨m1, _, _⟩ := godunov1_middle hγ hL hR h1 h2 none
  have hg := isoExp_pos hγ
  have hpp := Real.rpow_pos_of_pos hP (isoExp γ)
  have hp : twoExpansionPressure γ wL wR = P := by
    show startBase γ wL wR ^ (1 / isoExp γ) = P
    rw [hs, ← Real.rpow_mul hP.le, mul_one_div_cancel hg.ne', Real.rpow_one]
  rw [pmStart_cons hγ hL hR, if_neg (fun h => absurd h.1 (by rw [hs]; exact not_lt.mpr hpp.le)), hp] at m1
  refine fluxAt_godunov hγ (m1 P ?_ hP)
  unfold pmLoop
  rw [show (some P).bind (pmNext γ (stOf (wL.cons γ)) (stOf (wR.cons γ))) = some P by
    show pmNext γ _ _ P = _
    rw [pmNext_cons hγ hL hR hP.le, hG]]
  simp only
  rw [if_pos (show Converged (some P) (some P) by show |P - P| < _; simp)]

include hγ in
/-- Equal pressures and velocities: the pressure is the fixed point the iteration starts from. -/
lemma contact_fixed {P V r1 r2 : ℝ} (hL : (⟨r1, V, P⟩ : Prim).Phys) (hR : (⟨r2, V, P⟩ : Prim).Phys) :
    startBase γ ⟨r1, V, P⟩ ⟨r2, V, P⟩ = P ^ isoExp γ ∧ pressureMap γ ⟨r1, V, P⟩ ⟨r2, V, P⟩ P = P ∧
    starV γ ⟨r1, V, P⟩ ⟨r2, V, P⟩ P = V := by
  have c1 := c_pos hγ hL
  have c2 := c_pos hγ hR
  have m1 := waveFlux_pos hγ hL hL.2.le
  have m2 := waveFlux_pos hγ hR hR.2.le
  have hpp := Real.rpow_pos_of_pos hL.2 (isoExp γ)
  unfold startBase pressureMap starV
  simp only at *
  refine ⟨?_, ?_, ?_⟩
  · rw [sub_self, mul_zero, sub_zero, ← add_div, div_div_eq_mul_div, mul_div_assoc, mul_comm, div_mul_cancel₀]
    positivity
  · rw [sub_self, mul_zero, sub_zero, div_eq_iff (by positivity)]; ring
  · rw [sub_self, sub_zero, div_eq_iff (by positivity)]; ring

lemma waveRho_self (hγ : 1 < γ) (hw : w.Phys) : waveRho γ w w.p = w.rho := by
  unfold waveRho
  rw [if_pos le_rfl]
  have := hw.2
  have h2 : 0 < γ := by linarith
  rw [show (γ + 1) * w.p + (γ - 1) * w.p = 2 * γ * w.p by ring, show (γ - 1) * w.p + (γ + 1) * w.p = 2 * γ * w.p by ring]
  field_simp

include hγ in
/-- **C38 (Godunov).** -/
theorem C38_godunov (hw : w.Phys) : FluxAt γ "godunov" w w (w.flux γ) := by
  by_cases h1 : w.c γ ≤ w.v
  · exact C41_godunov_left hγ hw hw h1
  push Not at h1
  by_cases h2 : w.v ≤ -w.c γ
  · exact C41_godunov_right hγ hw hw h1 h2
  push Not at h2
  obtain ⟨r, V, P⟩ := w
  obtain ⟨a, b, c⟩ := contact_fixed hγ (r1 := r) (r2 := r) (V := V) (P := P) hw hw
  have := godunov_fixed hγ hw hw h1 h2 hw.2 a b
  have hst : behind γ ⟨r, V, P⟩ V P = ⟨r, V, P⟩ := by
    unfold behind
    rw [show waveRho γ ⟨r, V, P⟩ P = r from waveRho_self hγ hw]
  unfold interfaceState at this
  simp only [c, hst] at this
  rw [if_neg (by linarith), if_neg (by linarith), ite_self] at this
  exact this

include hγ in
/-- **C42 (Godunov).** Two states at rest with equal pressure: the flux is `(0, p, 0)`. -/
theorem C42_godunov_contact {P r1 r2 : ℝ} (h1 : 0 < r1) (h2 : 0 < r2) (hP : 0 < P) :
    FluxAt γ "godunov" ⟨r1, 0, P⟩ ⟨r2, 0, P⟩ ![0, P, 0] := by
  have p1 : (⟨r1, 0, P⟩ : Prim).Phys := ⟨h1, hP⟩
  have p2 : (⟨r2, 0, P⟩ : Prim).Phys := ⟨h2, hP⟩
  have c1 := c_pos hγ p1
  have c2 := c_pos hγ p2
  obtain ⟨a, b, c⟩ := contact_fixed hγ p1 p2
  have := godunov_fixed hγ p1 p2 c1 (by show -_ < (0 : ℝ); linarith) hP a b
  have e1 : behind γ ⟨r1, 0, P⟩ 0 P = ⟨r1, 0, P⟩ := by
    unfold behind
    rw [show waveRho γ ⟨r1, 0, P⟩ P = r1 from waveRho_self hγ p1]
  have e2 : behind γ ⟨r2, 0, P⟩ 0 P = ⟨r2, 0, P⟩ := by
    unfold behind
    rw [show waveRho γ ⟨r2, 0, P⟩ P = r2 from waveRho_self hγ p2]
  unfold interfaceState at this
  simp only [c, e1, e2] at this
  rw [if_neg (by linarith), if_neg (by linarith), if_pos le_rfl] at this
  have hf : Prim.flux γ ⟨r1, 0, P⟩ = ![0, P, 0] := by
    unfold Prim.flux
    simp
  rwa [hf] at this

/-- C38 and C42 with γ = 7/5: the state `wB` (moving at 2, supersonic), `wA` (at rest) and the contact between density 1
and density 1/8. -/
example : FluxAt (7 / 5) "godunov" Ex.wB Ex.wB ![1 / 4, 3 / 5, 6 / 5] := by
  have := C38_godunov (γ := 7 / 5) (by norm_num) Ex.wB_phys
  rwa [show Ex.wB.flux (7 / 5) = ![1 / 4, 3 / 5, 6 / 5] by
    funext k; fin_cases k <;> norm_num [Prim.flux, Prim.energy, Ex.wB]] at this
example : FluxAt (7 / 5) "godunov" ⟨1, 0, 1⟩ ⟨1 / 8, 0, 1⟩ ![0, 1, 0] :=
  C42_godunov_contact (by norm_num) (by norm_num) (by norm_num) (by norm_num)

/-- C41 with γ = 7/5: `wB` moves to the right faster than sound. -/
example : FluxAt (7 / 5) "godunov" Ex.wB Ex.wA (Ex.wB.flux (7 / 5)) ∧
    FluxAt (7 / 5) "godunov" Ex.wA Ex.wB.mirror (Ex.wB.mirror.flux (7 / 5)) := by
  have hc : Ex.wB.c (7 / 5) ≤ 2 := by
    unfold Prim.c Ex.wB
    rw [Real.sqrt_le_iff]; norm_num
  have hc' : Ex.wB.mirror.c (7 / 5) ≤ 2 := hc
  have h := c_pos (γ := 7 / 5) (by norm_num) Ex.wA_phys
  constructor
  · exact C41_godunov_left (by norm_num) Ex.wB_phys Ex.wA_phys (by show _ ≤ (2 : ℝ); exact hc)
  · exact C41_godunov_right (by norm_num) Ex.wA_phys (mirror_phys Ex.wB_phys) h (by show -(2 : ℝ) ≤ _; linarith)

/-! ### C40: mirror symmetry -/

lemma waveFlux_mirror (P : ℝ) : waveFlux γ w.mirror P = waveFlux γ w P := rfl

lemma pressureMap_mirror (P : ℝ) : pressureMap γ wR.mirror wL.mirror P = pressureMap γ wL wR P := by
  unfold pressureMap
  rw [waveFlux_mirror, waveFlux_mirror]
  congr 1
  · show _ * wL.p + _ * wR.p - _ * (-wL.v - -wR.v) = _
    ring
  · ring

lemma startBase_mirror : startBase γ wR.mirror wL.mirror = startBase γ wL wR := by
  show (wR.c γ + wL.c γ - (γ - 1) / 2 * (-wL.v - -wR.v)) / (wR.c γ / wR.p ^ isoExp γ + wL.c γ / wL.p ^ isoExp γ) = _
  unfold startBase
  congr 1 <;> ring

lemma starV_mirror (P : ℝ) : starV γ wR.mirror wL.mirror P = -starV γ wL wR P := by
  unfold starV
  rw [waveFlux_mirror, waveFlux_mirror]
  show (_ * -wR.v + _ * -wL.v - (wL.p - wR.p)) / _ = _
  rw [← neg_div]
  congr 1 <;> ring

lemma flux_mirror (w : Prim) : w.mirror.flux γ = mirrorFlux (w.flux γ) := by
  funext k
  unfold Prim.flux mirrorFlux Prim.energy Prim.mirror
  fin_cases k
  · simp
  · simp
  · simp

lemma sonicPoint_mirror (σ : ℝ) (w s : Prim) : sonicPoint γ (-σ) w.mirror s.mirror = (sonicPoint γ σ w s).mirror := by
  unfold sonicPoint Prim.mirror
  have hc : ∀ w : Prim, Prim.c γ ⟨w.rho, -w.v, w.p⟩ = w.c γ := fun _ => rfl
  simp only [hc]
  have e : ((-s.v + -σ * s.c γ) * w.c γ - (-w.v + -σ * w.c γ) * s.c γ) / (-s.v + -σ * s.c γ - (-w.v + -σ * w.c γ)) =
      ((s.v + σ * s.c γ) * w.c γ - (w.v + σ * w.c γ) * s.c γ) / (s.v + σ * s.c γ - (w.v + σ * w.c γ)) := by
    rw [← neg_div_neg_eq]
    congr 1 <;> ring
  rw [e]
  congr 1
  ring

include hγ hL hR in
lemma interfaceState_mirror {P : ℝ} (hP : 0 < P) :
    (interfaceState γ wR.mirror wL.mirror P).flux γ = mirrorFlux ((interfaceState γ wL wR P).flux γ) := by
  rw [← flux_mirror]
  unfold interfaceState
  rw [starV_mirror]
  have b : ∀ w : Prim, behind γ w.mirror (-starV γ wL wR P) P = (behind γ w (starV γ wL wR P) P).mirror := fun _ => rfl
  have hc : ∀ w : Prim, w.mirror.c γ = w.c γ := fun _ => rfl
  have cL := c_pos hγ (w := behind γ wL (starV γ wL wR P) P) ⟨waveRho_pos hγ hL hP, hP⟩
  have cR := c_pos hγ (w := behind γ wR (starV γ wL wR P) P) ⟨waveRho_pos hγ hR hP, hP⟩
  simp only [b, hc]
  have s1 := sonicPoint_mirror (γ := γ) 1 wR (behind γ wR (starV γ wL wR P) P)
  have s2 := sonicPoint_mirror (γ := γ) (-1) wL (behind γ wL (starV γ wL wR P) P)
  rw [neg_neg] at s2
  by_cases g1 : 0 < starV γ wL wR P - (behind γ wL (starV γ wL wR P) P).c γ
  · rw [if_pos g1, if_neg (by linarith), if_pos (by linarith), s2]
  rw [if_neg g1]
  by_cases g2 : starV γ wL wR P + (behind γ wR (starV γ wL wR P) P).c γ < 0
  · rw [if_pos g2, if_pos (by linarith), s1]
  rw [if_neg g2, if_neg (by linarith), if_neg (by linarith)]
  rcases lt_trichotomy (starV γ wL wR P) 0 with h | h | h
  · rw [if_pos (by linarith), if_neg (by linarith)]
  · rw [if_pos (by linarith), if_pos (by linarith)]
    funext k
    fin_cases k <;> simp [Prim.flux, Prim.mirror, behind, h]
  · rw [if_neg (by linarith), if_pos (by linarith)]

lemma pmLoop_congr {L R L' R' : St} (h : ∀ P, pmNext γ L R P = pmNext γ L' R' P) (n k : ℕ) (x : Option ℝ) :
    pmLoop γ L R n k x = pmLoop γ L' R' n k x := by
  have : pmNext γ L R = pmNext γ L' R' := funext h
  induction n generalizing k x with
  | zero => rfl
  | succ n ih => unfold pmLoop; rw [this]; simp only [ih]

include hγ hL hR in
lemma pmLoop_mirror : pmLoop γ (stOf (wR.mirror.cons γ)) (stOf (wL.mirror.cons γ)) 102 0
      (pmStart γ (stOf (wR.mirror.cons γ)) (stOf (wL.mirror.cons γ))) =
    pmLoop γ (stOf (wL.cons γ)) (stOf (wR.cons γ)) 102 0 (pmStart γ (stOf (wL.cons γ)) (stOf (wR.cons γ))) := by
  rw [pmStart_cons hγ hL hR, pmStart_cons hγ (mirror_phys hR) (mirror_phys hL), startBase_mirror,
    show twoExpansionPressure γ wR.mirror wL.mirror = twoExpansionPressure γ wL wR from
      congrArg (· ^ (1 / isoExp γ)) startBase_mirror]
  refine pmLoop_congr (fun P => ?_) _ _ _
  by_cases hP : P < 0
  · rw [pmNext_neg hP, pmNext_neg hP]
  · push Not at hP
    rw [pmNext_cons hγ hL hR hP, pmNext_cons hγ (mirror_phys hR) (mirror_phys hL) hP, pressureMap_mirror]

include hγ hL hR in
/-- **C40 (Godunov).** Mirror symmetry unless the left state is supersonic to the right and the right state supersonic
to the left. -/
theorem C40_godunov_mirror (hcol : ¬ (wL.c γ ≤ wL.v ∧ wR.v ≤ -wR.c γ)) (F : Fin 3 → ℝ)
    (hF : FluxAt γ "godunov" wL wR F) : FluxAt γ "godunov" wR.mirror wL.mirror (mirrorFlux F) := by
  have hc : ∀ w : Prim, w.mirror.c γ = w.c γ := fun _ => rfl
  have hv : ∀ w : Prim, w.mirror.v = -w.v := fun _ => rfl
  by_cases h1 : wL.c γ ≤ wL.v
  · rw [hF.unique (C41_godunov_left hγ hL hR h1), ← flux_mirror]
    have h2 : -wR.c γ < wR.v := by by_contra hx; exact hcol ⟨h1, not_lt.mp hx⟩
    exact C41_godunov_right hγ (mirror_phys hR) (mirror_phys hL) (by rw [hc, hv]; linarith) (by rw [hc, hv]; linarith)
  push Not at h1
  by_cases h2 : wR.v ≤ -wR.c γ
  · rw [hF.unique (C41_godunov_right hγ hL hR h1 h2), ← flux_mirror]
    exact C41_godunov_left hγ (mirror_phys hR) (mirror_phys hL) (by rw [hc, hv]; linarith)
  push Not at h2
  obtain ⟨m1, m2, m3⟩ := godunov1_middle hγ hL hR h1 h2 none
  obtain ⟨n1, _, _⟩ := godunov1_middle hγ (mirror_phys hR) (mirror_phys hL) (by rw [hc, hv]; linarith)
    (by rw [hc, hv]; linarith) none
  rw [pmLoop_mirror hγ hL hR] at n1
  cases hp : pmLoop γ (stOf (wL.cons γ)) (stOf (wR.cons γ)) 102 0 (pmStart γ (stOf (wL.cons γ)) (stOf (wR.cons γ))) with
  | error e => exact absurd hF ((raisesAt_godunov hγ (m3 e hp)).not_fluxAt F)
  | ok o =>
    cases o with
    | none =>
      exfalso
      rw [pmStart_cons hγ hL hR] at hp
      split_ifs at hp with hb
      · rw [pmLoop_none hγ hL hR 102 0 rfl (by norm_num)] at hp; cases hp
      · rcases pmLoop_some hγ hL hR 102 0 rfl (by norm_num) (twoExpansionPressure γ wL wR) with
          ⟨j, _, _, _, _, j5⟩ | ⟨_, j2⟩
        · rw [j5] at hp; cases hp
        · rw [j2] at hp; cases hp
    | some P =>
      by_cases hP : 0 < P
      · rw [hF.unique (fluxAt_godunov hγ (m1 P hp hP)), ← interfaceState_mirror hγ hL hR hP]
        exact fluxAt_godunov hγ (n1 P hp hP)
      · exact absurd hF ((raisesAt_godunov hγ (m2 P hp (not_lt.mp hP))).not_fluxAt F)

/-- **C40 (Godunov, false in general).** Two equal gases colliding at twice the speed of sound (γ = 3, density 3,
pressure 1, velocities 2 and -2): the configuration is its own mirror image, but the mass flux is 6, not 0. -/
theorem C40_godunov_not_mirror : ∃ wL wR : Prim, wL.Phys ∧ wR.Phys ∧ wR.mirror = wL ∧ wL.mirror = wR ∧
    ∃ F, FluxAt 3 "godunov" wL wR F ∧ F 0 = 6 ∧ ¬ FluxAt 3 "godunov" wR.mirror wL.mirror (mirrorFlux F) := by
  have hc : ∀ v, (⟨3, v, 1⟩ : Prim).c 3 = 1 := fun v => by simp [Prim.c]
  have p : ∀ v, (⟨3, v, 1⟩ : Prim).Phys := fun v => by norm_num [Prim.Phys]
  have e1 : (⟨3, -2, 1⟩ : Prim).mirror = ⟨3, 2, 1⟩ := by simp [Prim.mirror]
  have e2 : (⟨3, 2, 1⟩ : Prim).mirror = ⟨3, -2, 1⟩ := by simp [Prim.mirror]
  have hF := C41_godunov_left (γ := 3) (by norm_num) (p 2) (p (-2)) (by rw [hc]; norm_num)
  refine ⟨⟨3, 2, 1⟩, ⟨3, -2, 1⟩, p _, p _, e1, e2, _, hF, by norm_num [Prim.flux], fun h => ?_⟩
  rw [e1, e2] at h
  have := congrFun (hF.unique h) 0
  norm_num [Prim.flux, mirrorFlux] at this

/-- C40 in a case meeting the hypotheses: the contact of C42. -/
example : FluxAt (7 / 5) "godunov" (⟨1 / 8, 0, 1⟩ : Prim).mirror (⟨1, 0, 1⟩ : Prim).mirror (mirrorFlux ![0, 1, 0]) := by
  have p1 : (⟨1, 0, 1⟩ : Prim).Phys := by norm_num [Prim.Phys]
  have p2 : (⟨1 / 8, 0, 1⟩ : Prim).Phys := by norm_num [Prim.Phys]
  refine C40_godunov_mirror (by norm_num) p1 p2 (fun h => ?_) _ (C42_godunov_contact (by norm_num) (by norm_num) (by norm_num) (by norm_num))
  exact absurd h.1 (not_le.mpr (c_pos (by norm_num) p1))

/-! ### C45: the waves of the star state -/

include hγ hL hR in
/-- **C45 (one velocity).** At a fixed point of the pressure map both waves lead to the velocity the code computes. -/
theorem C45_velocity {P : ℝ} (hP : 0 ≤ P) (hfix : pressureMap γ wL wR P = P) :
    wL.v - (P - wL.p) / waveFlux γ wL P = starV γ wL wR P ∧ wR.v + (P - wR.p) / waveFlux γ wR P = starV γ wL wR P := by
  have h1 := waveFlux_pos hγ hL hP
  have h2 := waveFlux_pos hγ hR hP
  unfold pressureMap at hfix
  unfold starV
  generalize waveFlux γ wL P = a at *
  generalize waveFlux γ wR P = b at *
  rw [div_eq_iff (by positivity)] at hfix
  constructor
  · rw [eq_div_iff (by positivity)]
    field_simp
    linear_combination hfix
  · rw [eq_div_iff (by positivity)]
    field_simp
    linear_combination (-1) * hfix

/-- Rankine-Hugoniot with a signed mass flux. -/
lemma rankineHugoniot_aux (hγ : 1 < γ) (hw : w.Phys) {P m : ℝ} (hP : w.p ≤ P) (hm : m ≠ 0)
    (hm2 : m ^ 2 = w.rho * ((γ + 1) * P + (γ - 1) * w.p) / 2) :
    RankineHugoniot γ (w.v - m / w.rho) w (behind γ w (w.v - (P - w.p) / m) P) := by
  obtain ⟨r, v, p⟩ := w
  obtain ⟨h1, h2⟩ := hw
  simp only at *
  have hγ1 : 0 < γ - 1 := by linarith
  have hA : 0 < (γ + 1) * P + (γ - 1) * p := by nlinarith
  have hB : 0 < (γ - 1) * P + (γ + 1) * p := by nlinarith
  have hr : r = 2 * m ^ 2 / ((γ + 1) * P + (γ - 1) * p) := by
    rw [hm2]; field_simp
  have hrho : waveRho γ ⟨r, v, p⟩ P = 2 * m ^ 2 / ((γ - 1) * P + (γ + 1) * p) := by
    unfold waveRho
    rw [if_pos hP, hm2]
    simp only
    congr 1
    ring
  have hγ1' := hγ1.ne'
  have hγ0' : γ ≠ 0 := by linarith
  unfold behind
  rw [hrho]
  have eP : P = (((γ + 1) * P + (γ - 1) * p) + ((γ - 1) * P + (γ + 1) * p)) / (4 * γ) +
      (((γ + 1) * P + (γ - 1) * p) - ((γ - 1) * P + (γ + 1) * p)) / 4 := by field_simp; ring
  have ep : p = (((γ + 1) * P + (γ - 1) * p) + ((γ - 1) * P + (γ + 1) * p)) / (4 * γ) -
      (((γ + 1) * P + (γ - 1) * p) - ((γ - 1) * P + (γ + 1) * p)) / 4 := by field_simp; ring
  clear hm2 hrho
  generalize (γ + 1) * P + (γ - 1) * p = A at *
  generalize (γ - 1) * P + (γ + 1) * p = B at *
  have hA' := hA.ne'
  have hB' := hB.ne'
  clear hP h2
  subst hr eP ep
  intro k
  unfold Prim.flux Prim.cons Prim.energy
  fin_cases k
  · simp only [Fin.zero_eta, Matrix.cons_val]
    field_simp
    ring
  · simp only [Fin.mk_one, Matrix.cons_val]
    field_simp
    ring
  · simp only [Fin.reduceFinMk, Matrix.cons_val]
    field_simp
    ring

include hγ in
lemma shock_sq (hw : w.Phys) {P : ℝ} (hP : w.p ≤ P) :
    waveFlux γ w P ^ 2 = w.rho * ((γ + 1) * P + (γ - 1) * w.p) / 2 := by
  have h1 := hw.1; have h2 := hw.2
  have hγ1 : 0 < γ - 1 := by linarith
  unfold waveFlux
  rw [if_neg (by nlinarith [show (0 : ℝ) < 1 / 10 ^ 15 by positivity])]
  unfold shockFlux
  rw [Real.sq_sqrt]
  have : 0 < P := by linarith
  positivity

include hγ in
/-- **C45 (shocks).** A compression, `P ≥ p`, satisfies the Rankine-Hugoniot conditions for mass, momentum and energy:
a left wave with speed `v - m/ρ`, a right wave with speed `v + m/ρ`. -/
theorem C45_shock (hw : w.Phys) {P : ℝ} (hP : w.p ≤ P) :
    RankineHugoniot γ (w.v - waveFlux γ w P / w.rho) w (behind γ w (w.v - (P - w.p) / waveFlux γ w P) P) ∧
    RankineHugoniot γ (w.v + waveFlux γ w P / w.rho) w (behind γ w (w.v + (P - w.p) / waveFlux γ w P) P) := by
  have hm := waveFlux_pos hγ hw (hw.2.le.trans hP)
  have h2 := shock_sq hγ hw hP
  refine ⟨rankineHugoniot_aux hγ hw hP hm.ne' h2, ?_⟩
  have := rankineHugoniot_aux hγ hw hP (m := -waveFlux γ w P) (by linarith) (by rw [neg_sq, h2])
  rwa [show w.v - -waveFlux γ w P / w.rho = w.v + waveFlux γ w P / w.rho by ring,
    show w.v - (P - w.p) / -waveFlux γ w P = w.v + (P - w.p) / waveFlux γ w P by rw [div_neg, sub_neg_eq_add]] at this

include hγ in
/-- Sound speed behind an expansion. -/
lemma expansion_c (hw : w.Phys) {P V : ℝ} (hP : 0 < P) (h : P < w.p) :
    (behind γ w V P).c γ = w.c γ * (P / w.p) ^ isoExp γ := by
  have h1 := hw.1; have h2 := hw.2
  have hγ0 : 0 < γ := by linarith
  have hz : 0 < P / w.p := by positivity
  have hg := Real.rpow_pos_of_pos hz (isoExp γ)
  have hg2 := Real.rpow_pos_of_pos hz (1 / γ)
  unfold behind Prim.c
  simp only
  unfold waveRho
  rw [if_neg (not_le.mpr h)]
  have e : γ * P / (w.rho * (P / w.p) ^ (1 / γ)) = γ * w.p / w.rho * ((P / w.p) ^ isoExp γ) ^ 2 := by
    have : ((P / w.p) ^ isoExp γ) ^ 2 * (P / w.p) ^ (1 / γ) = P / w.p := by
      rw [← Real.rpow_natCast, ← Real.rpow_mul hz.le, ← Real.rpow_add hz]
      conv_rhs => rw [← Real.rpow_one (P / w.p)]
      congr 1
      unfold isoExp
      push_cast
      field_simp
      ring
    rw [div_eq_iff (by positivity)]
    rw [show γ * w.p / w.rho * ((P / w.p) ^ isoExp γ) ^ 2 * (w.rho * (P / w.p) ^ (1 / γ)) =
      γ * w.p / w.rho * w.rho * (((P / w.p) ^ isoExp γ) ^ 2 * (P / w.p) ^ (1 / γ)) by ring, this]
    field_simp
  rw [e, Real.sqrt_mul (by positivity), Real.sqrt_sq hg.le]

include hγ in
/-- **C45 (expansions).** An expansion, `P < (1 - 1e-15) p`, keeps `p / ρ^γ` and the Riemann invariant: `v + 2c/(γ-1)`
for a left wave, `v - 2c/(γ-1)` for a right wave. -/
theorem C45_expansion (hw : w.Phys) {P : ℝ} (hP : 0 < P) (h : P < (1 - 1 / 10 ^ 15) * w.p) :
    P / waveRho γ w P ^ γ = w.p / w.rho ^ γ ∧
    (∀ V, V = w.v - (P - w.p) / waveFlux γ w P → V + 2 * (behind γ w V P).c γ / (γ - 1) = w.v + 2 * w.c γ / (γ - 1)) ∧
    (∀ V, V = w.v + (P - w.p) / waveFlux γ w P → V - 2 * (behind γ w V P).c γ / (γ - 1) = w.v - 2 * w.c γ / (γ - 1)) := by
  have h1 := hw.1; have h2 := hw.2
  have hγ0 : 0 < γ := by linarith
  have hγ1 : γ - 1 ≠ 0 := by linarith
  have hPp : P < w.p := by nlinarith [show (0 : ℝ) < 1 / 10 ^ 15 by positivity]
  have hz : 0 < P / w.p := by positivity
  have hquot : (P - w.p) / waveFlux γ w P = -expansionJump γ w P := by
    unfold waveFlux
    rw [if_pos h, div_div_eq_mul_div, div_eq_iff (by linarith)]
    ring
  refine ⟨?_, ?_, ?_⟩
  · unfold waveRho
    rw [if_neg (not_le.mpr hPp), Real.mul_rpow h1.le (Real.rpow_nonneg hz.le _), ← Real.rpow_mul hz.le,
      one_div_mul_cancel hγ0.ne', Real.rpow_one]
    have := Real.rpow_pos_of_pos h1 γ
    field_simp
  · rintro V rfl
    rw [expansion_c hγ hw hP hPp, hquot]
    unfold expansionJump
    field_simp
    ring
  · rintro V rfl
    rw [expansion_c hγ hw hP hPp, hquot]
    unfold expansionJump
    field_simp
    ring

include hγ in
/-- **C45 (sonic points).** The characteristic speed `v + σ c` (`σ = -1` for left, `σ = 1` for right waves) changes sign
between the state `w` ahead and the state `s` behind: the sonic state is physical, moves with its own speed of sound,
keeps `p / ρ^γ`, and keeps the Riemann invariant if `s` does. -/
theorem C45_sonic {s : Prim} (hw : w.Phys) (hs : s.Phys) (σ : ℝ) (hσ : σ ^ 2 = 1)
    (h : (w.v + σ * w.c γ < 0 ∧ 0 < s.v + σ * s.c γ) ∨ (0 < w.v + σ * w.c γ ∧ s.v + σ * s.c γ < 0)) :
    (sonicPoint γ σ w s).Phys ∧ (sonicPoint γ σ w s).v + σ * (sonicPoint γ σ w s).c γ = 0 ∧
    |(sonicPoint γ σ w s).v| = (sonicPoint γ σ w s).c γ ∧
    (sonicPoint γ σ w s).p / (sonicPoint γ σ w s).rho ^ γ = w.p / w.rho ^ γ ∧
    (s.v - σ * (2 * s.c γ / (γ - 1)) = w.v - σ * (2 * w.c γ / (γ - 1)) →
      (sonicPoint γ σ w s).v - σ * (2 * (sonicPoint γ σ w s).c γ / (γ - 1)) = w.v - σ * (2 * w.c γ / (γ - 1))) := by
  obtain ⟨hc, hr, hp⟩ := sonicPoint_pos hγ hw hs σ h
  have h1 := hw.1; have h2 := hw.2
  have hγ0 : 0 < γ := by linarith
  have hγ1 : γ - 1 ≠ 0 := by linarith
  have cw := c_pos hγ hw
  have cw2 := c_sq hγ hw
  set c := ((s.v + σ * s.c γ) * w.c γ - (w.v + σ * w.c γ) * s.c γ) / (s.v + σ * s.c γ - (w.v + σ * w.c γ)) with hcdef
  set P := w.p * (c / w.c γ) ^ (1 / isoExp γ) with hPdef
  have hsp : sonicPoint γ σ w s = ⟨γ * P / c ^ 2, -σ * c, P⟩ := rfl
  have hP : 0 < P := by rw [hsp] at hp; exact hp
  have hcc : (sonicPoint γ σ w s).c γ = c := by
    rw [hsp]
    unfold Prim.c
    simp only
    rw [show γ * P / (γ * P / c ^ 2) = c ^ 2 by field_simp, Real.sqrt_sq hc.le]
  have habs : |σ| = 1 := by
    have : |σ| ^ 2 = 1 := by rw [sq_abs]; exact hσ
    nlinarith [abs_nonneg σ]
  refine ⟨⟨hr, hp⟩, ?_, ?_, ?_, ?_⟩
  · rw [hcc, hsp]; ring
  · rw [hcc, hsp]
    simp only
    rw [abs_mul, abs_neg, habs, one_mul, abs_of_pos hc]
  · rw [hsp]
    simp only
    have hq : 0 < c / w.c γ := by positivity
    have hrho : γ * P / c ^ 2 = w.rho * (c / w.c γ) ^ (1 / isoExp γ - 2) := by
      rw [Real.rpow_sub hq, hPdef, show (2 : ℝ) = ((2 : ℕ) : ℝ) by norm_num, Real.rpow_natCast, div_pow c, cw2]
      field_simp
    rw [hrho, Real.mul_rpow h1.le (Real.rpow_nonneg hq.le _), ← Real.rpow_mul hq.le,
      show (1 / isoExp γ - 2) * γ = 1 / isoExp γ by rw [inv_isoExp hγ]; field_simp; ring, hPdef]
    have := Real.rpow_pos_of_pos h1 γ
    have := Real.rpow_pos_of_pos hq (1 / isoExp γ)
    field_simp
  · intro hinv
    rw [hcc, hsp]
    simp only
    have hd : s.v + σ * s.c γ - (w.v + σ * w.c γ) ≠ 0 := by
      rcases h with ⟨a, b⟩ | ⟨a, b⟩
      · exact ne_of_gt (by linarith)
      · exact ne_of_lt (by linarith)
    have hsv : s.v = w.v - σ * (2 * w.c γ / (γ - 1)) + σ * (2 * s.c γ / (γ - 1)) := by linarith
    have : c = -σ * ((γ - 1) / (γ + 1)) * (w.v - σ * (2 * w.c γ / (γ - 1))) := by
      rw [hcdef, div_eq_iff hd, hsv]
      have : γ + 1 ≠ 0 := by linarith
      field_simp
      linear_combination (-((w.c γ - s.c γ) * (γ + 1) * ((γ - 1) * w.v - 2 * σ * w.c γ))) * hσ
    rw [this]
    have : γ + 1 ≠ 0 := by linarith
    field_simp
    rw [hσ]
    ring

include hγ hL hR in
/-- **C45 (two expansions).** When the two-expansion pressure lies below both pressures, it is a fixed point of the map,
so the iteration stops at once and the flux is that of the exact solution of the Riemann problem with two expansions. -/
theorem C45_two_expansions (h1 : wL.v < wL.c γ) (h2 : -wR.c γ < wR.v) (hvac : wR.v - wL.v < 2 / (γ - 1) * (wL.c γ + wR.c γ))
    (hl : twoExpansionPressure γ wL wR < (1 - 1 / 10 ^ 15) * wL.p) (hr : twoExpansionPressure γ wL wR < (1 - 1 / 10 ^ 15) * wR.p) :
    pressureMap γ wL wR (twoExpansionPressure γ wL wR) = twoExpansionPressure γ wL wR ∧
    FluxAt γ "godunov" wL wR ((interfaceState γ wL wR (twoExpansionPressure γ wL wR)).flux γ) := by
  obtain ⟨hP, hJ⟩ := jump_sum hγ hL hR hvac
  have hb := (startBase_pos hγ hL hR).mpr hvac
  have hg := isoExp_pos hγ
  have hs : startBase γ wL wR = twoExpansionPressure γ wL wR ^ isoExp γ := by
    show _ = (startBase γ wL wR ^ (1 / isoExp γ)) ^ isoExp γ
    rw [← Real.rpow_mul hb.le, one_div_mul_cancel hg.ne', Real.rpow_one]
  have key : ∀ w : Prim, w.Phys → twoExpansionPressure γ wL wR < (1 - 1 / 10 ^ 15) * w.p →
      w.p / waveFlux γ w (twoExpansionPressure γ wL wR) - expansionJump γ w (twoExpansionPressure γ wL wR) =
        twoExpansionPressure γ wL wR / waveFlux γ w (twoExpansionPressure γ wL wR) := by
    intro w hw hlt
    have hm := waveFlux_pos hγ hw hP.le
    have hJm : expansionJump γ w (twoExpansionPressure γ wL wR) * waveFlux γ w (twoExpansionPressure γ wL wR) =
        w.p - twoExpansionPressure γ wL wR := by
      have hne : expansionJump γ w (twoExpansionPressure γ wL wR) ≠ 0 := by
        intro h0
        unfold waveFlux at hm
        rw [if_pos hlt, h0, div_zero] at hm
        exact lt_irrefl _ hm
      unfold waveFlux
      rw [if_pos hlt, mul_div_cancel₀ _ hne]
    rw [eq_div_iff hm.ne', sub_mul, hJm, div_mul_cancel₀ _ hm.ne']
    ring
  have hfix : pressureMap γ wL wR (twoExpansionPressure γ wL wR) = twoExpansionPressure γ wL wR := by
    have mL := waveFlux_pos hγ hL hP.le
    have mR := waveFlux_pos hγ hR hP.le
    have k1 := key wL hL hl
    have k2 := key wR hR hr
    rw [pressureMap_eq hγ hL hR hP.le, ← hJ]
    generalize waveFlux γ wL _ = a at *
    generalize waveFlux γ wR _ = b at *
    rw [show wL.p / a + wR.p / b - (expansionJump γ wL (twoExpansionPressure γ wL wR) + expansionJump γ wR (twoExpansionPressure γ wL wR))
      = twoExpansionPressure γ wL wR / a + twoExpansionPressure γ wL wR / b by linarith]
    field_simp
    ring
  exact ⟨hfix, godunov_fixed hγ hL hR h1 h2 hP hs hfix⟩

/-- C44, C45 on a genuine expansion: γ = 3, two states of density 3, pressure 1 separating with velocities -1/2 and 1/2.
The pressure in the middle is 1/8, the flux `(0, 1/8, 0)`. -/
example : FluxAt 3 "godunov" ⟨3, -1 / 2, 1⟩ ⟨3, 1 / 2, 1⟩ ![0, 1 / 8, 0] := by
  have hc : ∀ v, (⟨3, v, 1⟩ : Prim).c 3 = 1 := fun v => by simp [Prim.c]
  have p : ∀ v, (⟨3, v, 1⟩ : Prim).Phys := fun v => by norm_num [Prim.Phys]
  have hP : twoExpansionPressure 3 ⟨3, -1 / 2, 1⟩ ⟨3, 1 / 2, 1⟩ = 1 / 8 := by
    unfold twoExpansionPressure isoExp
    rw [hc, hc]
    norm_num
  have h := (C45_two_expansions (γ := 3) (by norm_num) (p (-1 / 2)) (p (1 / 2)) (by rw [hc]; norm_num) (by rw [hc]; norm_num)
    (by rw [hc, hc]; norm_num) (by rw [hP]; norm_num) (by rw [hP]; norm_num)).2
  rw [hP] at h
  have hV : starV 3 ⟨3, -1 / 2, 1⟩ ⟨3, 1 / 2, 1⟩ (1 / 8) = 0 := by
    unfold starV
    rw [show waveFlux 3 ⟨3, -1 / 2, 1⟩ (1 / 8) = waveFlux 3 ⟨3, 1 / 2, 1⟩ (1 / 8) from rfl]
    norm_num
  unfold interfaceState at h
  have c1 := c_pos (γ := 3) (by norm_num) (w := behind 3 ⟨3, -1 / 2, 1⟩ 0 (1 / 8)) ⟨waveRho_pos (by norm_num) (p _) (by norm_num), by norm_num [behind]⟩
  have c2 := c_pos (γ := 3) (by norm_num) (w := behind 3 ⟨3, 1 / 2, 1⟩ 0 (1 / 8)) ⟨waveRho_pos (by norm_num) (p _) (by norm_num), by norm_num [behind]⟩
  simp only [hV] at h
  rw [if_neg (by linarith), if_neg (by linarith), if_pos le_rfl] at h
  convert h using 1
  funext k
  fin_cases k <;> simp [Prim.flux, behind]

/-- The hypotheses of `C44_iteration` and `C44_vacuum` hold for γ = 3, density 3, pressure 1 (sound speed 1) and suitable
velocities. -/
example : (∃ e, RaisesAt 3 "godunov" ⟨3, -2, 1⟩ ⟨3, 1, 1⟩ e) := by
  have hc : ∀ v, (⟨3, v, 1⟩ : Prim).c 3 = 1 := fun v => by simp [Prim.c]
  have p : ∀ v, (⟨3, v, 1⟩ : Prim).Phys := fun v => by norm_num [Prim.Phys]
  exact C44_vacuum (by norm_num) (p _) (p _) (by rw [hc]; norm_num) (by rw [hc]; norm_num) (by rw [hc, hc]; norm_num)
example : (⟨3, -1 / 2, 1⟩ : Prim).v < (⟨3, -1 / 2, 1⟩ : Prim).c 3 ∧ -(⟨3, 9 / 10, 1⟩ : Prim).c 3 < (⟨3, 9 / 10, 1⟩ : Prim).v ∧
    (9 / 10 : ℝ) - (-1 / 2) < 2 / (3 - 1) * ((⟨3, -1 / 2, 1⟩ : Prim).c 3 + (⟨3, 9 / 10, 1⟩ : Prim).c 3) := by
  have hc : ∀ v, (⟨3, v, 1⟩ : Prim).c 3 = 1 := fun v => by simp [Prim.c]
  rw [hc, hc]; norm_num

/-- C45 on a shock: γ = 3, density 3, pressure 1, velocity 0, compressed to pressure 7: mass flux `√45`,
density 5. -/
example : waveFlux 3 ⟨3, 0, 1⟩ 7 = √45 ∧ waveRho 3 ⟨3, 0, 1⟩ 7 = 5 ∧
    RankineHugoniot 3 (0 - √45 / 3) ⟨3, 0, 1⟩ ⟨5, 0 - 6 / √45, 7⟩ := by
  have p : (⟨3, 0, 1⟩ : Prim).Phys := by norm_num [Prim.Phys]
  have h1 : waveFlux 3 ⟨3, 0, 1⟩ 7 = √45 := by
    unfold waveFlux shockFlux
    rw [if_neg (by norm_num)]
    norm_num
  have h2 : waveRho 3 ⟨3, 0, 1⟩ 7 = 5 := by
    unfold waveRho
    rw [if_pos (by norm_num)]
    norm_num
  have h := (C45_shock (γ := 3) (by norm_num) p (P := 7) (by norm_num)).1
  unfold behind at h
  rw [h1, h2] at h
  norm_num at h ⊢
  exact ⟨h1, h2, h⟩

end Dg1d.Props
