import Verif.Proofs.Contact
import Verif.Proofs.Strict
import Verif.Proofs.AdvConv
import Verif.Model.Checked
import Verif.Spec.Contact
import Verif.Props.Godunov
import Verif.Props.Mirror
import Verif.Props.ExamplesReal

/-! # C99: a gas with the same velocity and pressure everywhere keeps them -/

set_option linter.unusedSectionVars false

open Polynomial Dg1d.Spec Dg1d.Euler

namespace Dg1d.Props
open Text

variable {γ : ℝ} (hγ : 1 < γ)

/-- The flux of a state is the flux carried by its own mass flux. -/
lemma flux_carried (hγ : 1 < γ) (r v P : ℝ) : Prim.flux γ ⟨r, v, P⟩ = carriedFlux γ v P (v * r) := by
  have : γ - 1 ≠ 0 := by linarith
  unfold Prim.flux carriedFlux Prim.energy
  funext k
  fin_cases k
  · simp [mul_comm]
  · simp; ring
  · simp; field_simp; ring

lemma rusanov_contact (hγ : 1 < γ) (rL rR v P : ℝ) :
    rusanovFlux γ ⟨rL, v, P⟩ ⟨rR, v, P⟩ = carriedFlux γ v P (rusanovMass γ v P rL rR) := by
  have hg : γ - 1 ≠ 0 := by linarith
  unfold rusanovFlux
  rw [flux_carried hγ, flux_carried hγ]
  have hs : max (Prim.speed γ ⟨rL, v, P⟩) (Prim.speed γ ⟨rR, v, P⟩) = |v| + max √(γ * P / rL) √(γ * P / rR) := by
    unfold Prim.speed Prim.c
    simp only [max_add_add_left]
  rw [hs]
  unfold rusanovMass
  generalize |v| + max √(γ * P / rL) √(γ * P / rR) = m
  funext k
  fin_cases k <;> simp [carriedFlux, Prim.cons, Prim.energy] <;> ring

lemma roe_contact (hγ : 1 < γ) {rL rR : ℝ} (hL : 0 < rL) (hR : 0 < rR) (v P : ℝ) :
    roeFlux γ ⟨rL, v, P⟩ ⟨rR, v, P⟩ = carriedFlux γ v P (upwindMass v rL rR) := by
  have hV : roeV ⟨rL, v, P⟩ ⟨rR, v, P⟩ = v := by
    have h1 := Real.sqrt_pos.mpr hL
    have h2 := Real.sqrt_pos.mpr hR
    unfold roeV roeMean
    simp only
    rw [← add_mul, mul_div_cancel_left₀]
    positivity
  have hw : fixWidth γ ⟨rL, v, P⟩ ⟨rR, v, P⟩ 1 = 0 := rfl
  unfold roeFlux
  rw [flux_carried hγ, flux_carried hγ]
  funext k
  rw [Fin.sum_univ_three, hw]
  have a0 : roeAlpha γ ⟨rL, v, P⟩ ⟨rR, v, P⟩ 0 = 0 := by simp [roeAlpha]
  have a1 : roeAlpha γ ⟨rL, v, P⟩ ⟨rR, v, P⟩ 1 = rR - rL := by simp [roeAlpha]
  have a2 : roeAlpha γ ⟨rL, v, P⟩ ⟨rR, v, P⟩ 2 = 0 := by simp [roeAlpha]
  have l1 : hartenAbs 0 (roeLambda γ ⟨rL, v, P⟩ ⟨rR, v, P⟩ 1) = |v| := by
    simp only [roeLambda, hV, Matrix.cons_val]
    unfold hartenAbs
    rw [if_neg (by simp)]
  have hr : ∀ k, roeVec γ ⟨rL, v, P⟩ ⟨rR, v, P⟩ 1 k = ![1, v, v ^ 2 / 2] k := fun k => by simp [roeVec, hV]
  rw [a0, a1, a2, l1, hr]
  unfold upwindMass
  rcases le_or_gt 0 v with h | h
  · rw [if_pos h, abs_of_nonneg h]
    fin_cases k <;> simp [carriedFlux] <;> ring
  · rw [if_neg (by linarith), abs_of_neg h]
    fin_cases k <;> simp [carriedFlux] <;> ring

lemma behind_self (hγ : 1 < γ) {r V P : ℝ} (hw : (⟨r, V, P⟩ : Prim).Phys) : behind γ ⟨r, V, P⟩ V P = ⟨r, V, P⟩ := by
  unfold behind
  rw [show waveRho γ ⟨r, V, P⟩ P = r from waveRho_self hγ hw]

lemma godunov_contact (hγ : 1 < γ) {rL rR v P : ℝ} (hL : 0 < rL) (hR : 0 < rR) (hP : 0 < P) :
    FluxAt γ "godunov" ⟨rL, v, P⟩ ⟨rR, v, P⟩ (carriedFlux γ v P (upwindMass v rL rR)) := by
  have p1 : (⟨rL, v, P⟩ : Prim).Phys := ⟨hL, hP⟩
  have p2 : (⟨rR, v, P⟩ : Prim).Phys := ⟨hR, hP⟩
  have c1 := c_pos hγ p1
  have c2 := c_pos hγ p2
  by_cases h1 : Prim.c γ ⟨rL, v, P⟩ ≤ v
  · have := C41_godunov_left hγ p1 p2 h1
    rwa [flux_carried hγ, show v * rL = upwindMass v rL rR by unfold upwindMass; rw [if_pos (by linarith)]] at this
  push Not at h1
  by_cases h2 : v ≤ -Prim.c γ ⟨rR, v, P⟩
  · have := C41_godunov_right hγ p1 p2 h1 h2
    rwa [flux_carried hγ, show v * rR = upwindMass v rL rR by unfold upwindMass; rw [if_neg (by linarith)]] at this
  push Not at h2
  obtain ⟨a, b, c⟩ := contact_fixed hγ p1 p2
  have := godunov_fixed hγ p1 p2 h1 h2 hP a b
  unfold interfaceState at this
  simp only [c, behind_self hγ p1, behind_self hγ p2] at this
  rw [if_neg (by linarith), if_neg (by linarith)] at this
  unfold upwindMass
  split_ifs at this ⊢ with h
  · rwa [flux_carried hγ] at this
  · rwa [flux_carried hγ] at this

include hγ in
/-- **C99 (flux).** Between two gases of the same velocity and pressure every solver of the code returns the flux carried
by one mass flux: the upwind one for Godunov and Roe (any name but 'rusanov' and 'godunov'), the Rusanov one for 'rusanov'. -/
theorem C99_flux {rL rR P : ℝ} (hL : 0 < rL) (hR : 0 < rR) (hP : 0 < P) (v : ℝ) (name : String) :
    FluxAt γ name ⟨rL, v, P⟩ ⟨rR, v, P⟩ (carriedFlux γ v P (contactMass γ name v P rL rR)) := by
  unfold contactMass
  by_cases h1 : name = "rusanov"
  · subst h1
    rw [if_pos rfl, ← rusanov_contact hγ]
    exact C39_rusanov hγ ⟨hL, hP⟩ ⟨hR, hP⟩
  rw [if_neg h1]
  by_cases h2 : name = "godunov"
  · subst h2
    exact godunov_contact hγ hL hR hP
  · rw [← roe_contact hγ hL hR]
    exact C39_roe hγ h1 h2 ⟨hL, hP⟩ ⟨hR, hP⟩

/-- A flux determines the point-by-point description of the solver there. -/
lemma num_of_fluxAt {name : String} {ps : PhysSpec ℝ 3} (hps : (physics γ name).Pointwise ps) {wL wR : Prim} {F : Fin 3 → ℝ}
    (hF : FluxAt γ name wL wR F) : ps.num (wL.cons γ) (wR.cons γ) = F := by
  obtain ⟨h1, h2⟩ := fieldsAt_of γ (oneState_at γ wL wR)
  by_cases hf : ps.fails (wL.cons γ) (wR.cons γ)
  · obtain ⟨e, -, he⟩ := hps.riemannErr (oneState γ wL) (oneState γ wR) 1 rfl rfl ⟨0, by norm_num, by rw [h1, h2]; exact hf⟩
    obtain ⟨q, hq⟩ := hF.1
    rw [hq] at he; cases he
  · obtain ⟨q, hq, hlen, hval⟩ := hps.riemannOk (oneState γ wL) (oneState γ wR) 1 rfl rfl (by
      intro i hi
      obtain rfl : i = 0 := by omega
      rw [h1, h2]; exact hf)
    funext k
    have a := hval 0 (by norm_num) k
    have b := (hF.2 (oneState γ wL) (oneState γ wR) 1 rfl rfl q hq).2 0 (by norm_num) (oneState_at γ wL wR) k
    rw [h1, h2] at a
    rw [← a, b]

/-- The state of density `r` in a gas of velocity `v` and pressure `P`. -/
lemma drift_cons (v P r : ℝ) : (fun k : Fin 3 => drift v (P / (γ - 1)) r k) = (⟨r, v, P⟩ : Prim).cons γ := by
  funext k
  fin_cases k <;> simp [drift, Prim.cons, Prim.energy, mul_comm]
  ring

/-- The flux of the constant part. -/
noncomputable def driftPart (γ v P : ℝ) (f : ℕ) : ℝ := if f = 0 then 0 else if f = 1 then P else γ / (γ - 1) * P * v

lemma drift_carried (v P g : ℝ) (f : Fin 3) : carriedFlux γ v P g f = drift v 0 g f + driftPart γ v P f := by
  fin_cases f <;> simp [drift, carriedFlux, driftPart]

lemma isReal_pos (hγ : 1 < γ) {P : ℝ} (hP : 0 < P) {v r : ℝ} (h : (stOf ((⟨r, v, P⟩ : Prim).cons γ)).IsReal γ) : 0 < r := by
  obtain ⟨h1, h2⟩ := h
  have h1 : r ≠ 0 := h1
  rw [p_cons hγ h1] at h2
  have h2 : 0 ≤ γ * P / r := h2
  rcases lt_or_gt_of_ne h1 with h | h
  · have : γ * P / r < 0 := div_neg_of_pos_of_neg (by nlinarith) h
    linarith
  · exact h

lemma roeReal_pos (hγ : 1 < γ) {P : ℝ} (hP : 0 < P) {v rL rR : ℝ}
    (h : RoeReal γ (stOf ((⟨rL, v, P⟩ : Prim).cons γ)) (stOf ((⟨rR, v, P⟩ : Prim).cons γ))) : 0 < rL ∧ 0 < rR := by
  obtain ⟨h1, h2, h3, h4⟩ := h
  have h1 : rL ≠ 0 := h1
  have h2 : rR ≠ 0 := h2
  have h3 : 0 ≤ rR / rL := h3
  unfold roeAverages at h4
  simp only at h4
  rw [v_cons γ h1, v_cons γ h2, H_cons hγ h1, H_cons hγ h2] at h4
  change 0 < (γ - 1) * (((⟨rL, v, P⟩ : Prim).enthalpy γ + √(rR / rL) * (⟨rR, v, P⟩ : Prim).enthalpy γ) / (1 + √(rR / rL)) -
    1 / 2 * ((v + √(rR / rL) * v) / (1 + √(rR / rL))) * ((v + √(rR / rL) * v) / (1 + √(rR / rL)))) at h4
  have hT : 0 ≤ √(rR / rL) := Real.sqrt_nonneg _
  generalize √(rR / rL) = T at h4 hT
  have hT1 : 1 + T ≠ 0 := by positivity
  have hγ1 : γ - 1 ≠ 0 := by linarith
  have he : (γ - 1) * (((⟨rL, v, P⟩ : Prim).enthalpy γ + T * (⟨rR, v, P⟩ : Prim).enthalpy γ) / (1 + T) -
      1 / 2 * ((v + T * v) / (1 + T)) * ((v + T * v) / (1 + T))) = γ * P * (1 / rL + T * (1 / rR)) / (1 + T) := by
    rw [show (v + T * v) / (1 + T) = v by field_simp]
    unfold Prim.enthalpy
    simp only
    field_simp
    ring
  rw [he] at h4
  have hneg : ¬ (rL < 0 ∧ rR < 0) := by
    rintro ⟨a, b⟩
    have ha : 1 / rL < 0 := one_div_neg.mpr a
    have hb : T * (1 / rR) ≤ 0 := mul_nonpos_of_nonneg_of_nonpos hT (one_div_neg.mpr b).le
    have hg : 0 < γ * P := by nlinarith
    have : γ * P * (1 / rL + T * (1 / rR)) / (1 + T) < 0 :=
      div_neg_of_neg_of_pos (mul_neg_of_pos_of_neg hg (by linarith)) (by positivity)
    linarith
  rcases lt_or_gt_of_ne h1 with a | a
  · rcases lt_or_gt_of_ne h2 with b | b
    · exact absurd ⟨a, b⟩ hneg
    · exact absurd h3 (not_le.mpr (div_neg_of_pos_of_neg b a))
  · rcases lt_or_gt_of_ne h2 with b | b
    · exact absurd h3 (not_le.mpr (div_neg_of_neg_of_pos b a))
    · exact ⟨a, b⟩

/-- The physics of the code on a gas of velocity `v` and pressure `P`. -/
lemma euler_drift (hγ : 1 < γ) {n : ℕ} (hn : n = 3) (name : String) {P : ℝ} (hP : 0 < P) (v : ℝ) :
    ∃ ps : PhysSpec ℝ n, (Euler.physics γ name).Pointwise ps ∧
      ps.Drift v (P / (γ - 1)) (driftPart γ v P) (contactMass γ name v P) ∧
      ∀ rL rR, ¬ ps.fails (fun k => drift v (P / (γ - 1)) rL k) (fun k => drift v (P / (γ - 1)) rR k) ↔ 0 < rL ∧ 0 < rR := by
  subst hn
  have core : ∀ ps : PhysSpec ℝ 3, (Euler.physics γ name).Pointwise ps → (∀ u, ps.flux u = vecOf (flux1 γ (stOf u))) →
      (∀ rL rR, ¬ ps.fails ((⟨rL, v, P⟩ : Prim).cons γ) ((⟨rR, v, P⟩ : Prim).cons γ) → 0 < rL ∧ 0 < rR) →
      ps.Drift v (P / (γ - 1)) (driftPart γ v P) (contactMass γ name v P) ∧
      ∀ rL rR, ¬ ps.fails (fun k => drift v (P / (γ - 1)) rL k) (fun k => drift v (P / (γ - 1)) rR k) ↔ 0 < rL ∧ 0 < rR := by
    intro ps hps hflux hpos
    refine ⟨⟨rfl, ?_, ?_⟩, ?_⟩
    · intro r hr f
      rw [drift_cons, hflux, flux_cons hγ hr, flux_carried hγ, drift_carried]
    · intro rL rR hf f
      rw [drift_cons, drift_cons] at hf ⊢
      obtain ⟨h1, h2⟩ := hpos rL rR hf
      rw [num_of_fluxAt hps (C99_flux hγ h1 h2 hP v name), drift_carried]
    · intro rL rR
      rw [drift_cons, drift_cons]
      refine ⟨hpos rL rR, ?_⟩
      rintro ⟨h1, h2⟩ hf
      obtain ⟨a, b⟩ := fieldsAt_of γ (oneState_at γ ⟨rL, v, P⟩ ⟨rR, v, P⟩)
      obtain ⟨e, -, he⟩ := hps.riemannErr (oneState γ ⟨rL, v, P⟩) (oneState γ ⟨rR, v, P⟩) 1 rfl rfl ⟨0, by norm_num, by rw [a, b]; exact hf⟩
      obtain ⟨q, hq⟩ := (C99_flux hγ h1 h2 hP v name).1
      rw [hq] at he; cases he
  by_cases h1 : name = "rusanov"
  · subst h1
    refine ⟨rusanovSpec γ, rusanov_pointwise γ, core _ (rusanov_pointwise γ) (fun _ => rfl) fun rL rR hf => ?_⟩
    obtain ⟨a, b⟩ := not_not.mp hf
    exact ⟨isReal_pos hγ hP a, isReal_pos hγ hP b⟩
  by_cases h2 : name = "godunov"
  · subst h2
    refine ⟨godunovSpec γ, godunov_pointwise hγ, core _ (godunov_pointwise hγ) (fun _ => rfl) fun rL rR hf => ?_⟩
    by_contra hc
    refine hf ⟨.notReal, ?_⟩
    unfold godunov1
    rw [if_pos]
    rintro ⟨a, -, b, -⟩
    exact hc ⟨a, b⟩
  · refine ⟨roeSpec γ, roe_pointwise γ h1 h2, core _ (roe_pointwise γ h1 h2) (fun _ => rfl) fun rL rR hf => ?_⟩
    exact roeReal_pos hγ hP (not_not.mp hf)

variable {s a : Sol ℝ} {lib : GaussLib ℝ} {p : ℕ} {riemann : Str}

lemma sameVP_iff (ha : Like a s) (hr : s.u.rows = p + 1) (hF : s.NF = 3) (v P : ℝ) :
    SameVP γ v P a ↔ Drifting s.NF (p + 1) 1 s.NE v (P / (γ - 1)) a.u.val := by
  have hser : ∀ e f, ∀ ξ : ℝ, drift v (P / (γ - 1)) ((legSeries (p + 1) fun n => a.u.val n (e * s.NF)).eval ξ) f =
      (legSeries (p + 1) fun n => drift v (if n = 0 then P / (γ - 1) else 0) (a.u.val n (e * s.NF)) f).eval ξ := by
    intro e f ξ
    rw [legSeries_eval, legSeries_eval]
    have : ∀ n ∈ Finset.range (p + 1), drift v (if n = 0 then P / (γ - 1) else 0) (a.u.val n (e * s.NF)) f * (legendre ℝ n).eval ξ =
        drift v (if n = 0 then P / (γ - 1) else 0) (a.u.val n (e * s.NF) * (legendre ℝ n).eval ξ) f := by
      intro n _
      rw [mul_comm, drift_mul]
      by_cases h0 : n = 0
      · subst h0; simp [legendre_zero]
      · rw [if_neg h0, mul_zero, mul_comm]
    rw [Finset.sum_congr rfl this, drift_sum, Finset.sum_ite_eq' _ 0, if_pos (Finset.mem_range.mpr (by omega))]
  have hcons : ∀ r (k : Fin 3), (⟨r, v, P⟩ : Prim).cons γ k = drift v (P / (γ - 1)) r k := fun r k => by rw [← drift_cons]
  unfold SameVP Drifting cellPoly
  rw [ha.rows, hr, ha.setup.NF, ha.setup.NE]
  constructor
  · intro h n hn e h1 h2 f hf
    refine legSeries_injective (p + 1) (fun n => a.u.val n (e * s.NF + f))
      (fun n => drift v (if n = 0 then P / (γ - 1) else 0) (a.u.val n (e * s.NF)) f) (Polynomial.funext (R := ℝ) fun ξ => ?_) n hn
    have := h e h1 h2 ξ ⟨f, by omega⟩
    rw [hcons] at this
    rw [this, ← hser]
    rfl
  · intro h e h1 h2 ξ k
    rw [hcons]
    show _ = drift v (P / (γ - 1)) ((legSeries (p + 1) fun n => a.u.val n (e * s.NF)).eval ξ) k
    rw [hser, legSeries_eval, legSeries_eval]
    refine Finset.sum_congr rfl fun n hn => ?_
    rw [h n (Finset.mem_range.mp hn) e h1 h2 k (by have := k.2; omega)]

/-- The densities that the check looks at. -/
lemma vacuum_gaussRho (h : s.Built lib p) (ha : Like a s) (hF : s.NF = 3) :
    VacuumPoint a ↔ ∃ g < p + 1, ∃ e ≤ s.NE + 1, s.gaussRho a.applyBc.u.val e g = 0 := by
  have hb := ha.applyBc
  have hset := hb.setup
  have e1 : a.applyBc.collocate.rows = p + 1 := by
    show a.applyBc.basis.phi.rows = _
    rw [hset.basis, h.wf.phi.1, h.ng]
  have e2 : (a.applyBc.collocate.cols + 2) / 3 = s.NE + 2 := by
    show (a.applyBc.u.cols + 2) / 3 = _
    rw [hb.cols, h.cols, hF]
    omega
  have e3 : ∀ g i, (stateAt (a.applyBc.collocate.val g) i).rho = s.gaussRho a.applyBc.u.val i g := by
    intro g i
    unfold Sol.gaussRho
    show a.applyBc.collocate.val g (0 + 3 * i) = _
    unfold Sol.collocate Arr.dot
    simp only [hset.basis, h.wf.phi.2, hF]
    refine Finset.sum_congr rfl fun k _ => ?_
    rw [show 0 + 3 * i = i * 3 by ring]
  unfold VacuumPoint
  rw [e1, e2]
  simp only [e3, show ∀ i, i < s.NE + 2 ↔ i ≤ s.NE + 1 from fun i => by omega]

lemma checked_ok {x : Sol ℝ × Arr ℝ} (hx : checkedResidual a = .ok x) : ¬ VacuumPoint a ∧ residual a = .ok x := by
  unfold checkedResidual at hx
  split_ifs at hx with hv
  exact ⟨hv, hx⟩

/-- The run that stops at densities of zero is the run of the code up to there. -/
theorem C99_checked (lm : Sol ℝ → Except PyErr (Sol ℝ)) (deck : RkDeck ℝ) (s : Sol ℝ) (k : ℕ) :
    let r := integrate ⟨checkedResidual, lm⟩ deck s k
    let r' := integrate ⟨residual, lm⟩ deck s
    r = r' k ∨ (∃ e, r.status = .failed e) ∧ ∃ j ≤ k, r.sol = (r' j).sol ∧ r.log = (r' j).log := by
  have hst : Env.Stricter (K := ℝ) ⟨checkedResidual, lm⟩ ⟨residual, lm⟩ := ⟨rfl, fun s x hx => (checked_ok hx).2⟩
  exact run_strict hst (schemeFor deck.rk) deck s k

include hγ in
/-- **C99 (run).** Euler equations, any of the three Riemann solvers, any enhancement built by the code, any order, scheme,
number of iterations, periodic or zero-gradient boundaries, limiter off: a gas that starts with the same velocity and
pressure everywhere has exactly these at every point of every output and of the current solution, whatever its density does
(until an interface or quadrature point has no admissible density, where the run stops). -/
theorem C99_run (h : s.Built lib p) (hp : CodePhysics γ "euler".toList riemann s) (hk : s.BcKnown)
    (hen : ∀ en, s.enhance = some en → ∃ modes, Enhance.init lib p modes = .ok en ∧ ∀ m ∈ modes, m ≤ p)
    {v P : ℝ} (hP : 0 < P) (h0 : SameVP γ v P s) (deck : RkDeck ℝ) (k : ℕ) :
    let r := integrate ⟨checkedResidual, Limiter.limit none⟩ deck s k
    SameVP γ v P r.sol ∧ ∀ o ∈ r.log, SameVP γ v P o.sol := by
  obtain ⟨hkw, hF⟩ := hp.euler rfl
  obtain ⟨ps, hps, hdr, -⟩ := euler_drift hγ hF (String.ofList riemann) hP v
  rw [← hkw] at hps
  have henc : ∀ en, s.enhance = some en → EnhanceConst en := by
    intro en he
    obtain ⟨modes, h1, h2⟩ := hen en he
    exact enhance_const h1 h2
  have inv : Invariant (K := ℝ) ⟨checkedResidual, Limiter.limit none⟩
      (fun a => Like a s ∧ Drifting s.NF (p + 1) 1 s.NE v (P / (γ - 1)) a.u.val)
      (fun a => Like a s ∧ Drifting s.NF (p + 1) 1 s.NE v (P / (γ - 1)) a.u.val)
      (fun A => Drifting s.NF (p + 1) 1 s.NE v 0 A.val) :=
    { zero := fun _ _ n _ e _ _ f _ => by simp [Arr.zeros, drift]
      smul := fun a A hA n hn e h1 h2 f hf => by
        simp only [Arr.smul]
        rw [hA n hn e h1 h2 f hf, drift_mul, ite_self, mul_zero]
      axpy := by
        rintro a x A ⟨hx, hd⟩ hA
        refine ⟨hx.axpy a A, fun n hn e h1 h2 f hf => ?_⟩
        simp only [Arr.add, Arr.smul]
        rw [hd n hn e h1 h2 f hf, hA n hn e h1 h2 f hf, drift_mul, drift_add, ite_self, mul_zero, add_zero]
      copy := fun w x hw hx => ⟨hw.1.copy hx.1, hx.2⟩
      clock := fun x a m hx => ⟨hx.1.clock _ _, hx.2⟩
      head := fun x hx => hx
      bc := fun x hx => ⟨hx.1.applyBc, fun n hn e h1 h2 => drifting_fill h hx.1 hk hx.2 n hn e (by omega) (by omega)⟩
      headLimit := fun x y hx hy => by cases hy; exact hx
      stageLimit := fun x y hx hy => by cases hy; exact hx
      res := by
        rintro x y A ⟨hx, hd⟩ hr
        obtain ⟨hv, hr⟩ := checked_ok hr
        rw [vacuum_gaussRho h hx hF] at hv
        obtain ⟨r1, r2⟩ := residual_drift h hx ps hps hdr henc hk hd (by
          intro e h1 h2 g hg h0
          refine hv ⟨g, hg, e, by omega, ?_⟩
          rw [← h0]
          unfold Sol.gaussRho
          refine Finset.sum_congr rfl fun k _ => ?_
          have := bcCol_interior s h1 h2 h.NF
          rw [hx.applyBc_val h.wf, show e * s.NF = e * s.NF + 0 from rfl, this])
        by_cases hf : ∃ i < s.NE + 1, ps.fails (fun f => drift v (P / (γ - 1)) (s.faceRho 1 x.applyBc.u.val i) f)
            (fun f => drift v (P / (γ - 1)) (s.faceRho 0 x.applyBc.u.val i) f)
        · obtain ⟨e, -, he⟩ := r1 hf
          rw [he] at hr; cases hr
        · push Not at hf
          obtain ⟨F, hF', -, -, hD, -⟩ := r2 hf
          rw [hF'] at hr
          cases hr
          exact ⟨⟨hx.applyBc, fun n hn e h1 h2 => drifting_fill h hx hk hd n hn e (by omega) (by omega)⟩, hD⟩ }
  obtain ⟨h1, h2⟩ := inv.run deck (schemeFor deck.rk) ⟨Like.refl s, (sameVP_iff (Like.refl s) h.rows hF v P).mp h0⟩ k
  exact ⟨(sameVP_iff h1.1 h.rows hF v P).mpr h1.2, fun o ho => (sameVP_iff (h2 o ho).1 h.rows hF v P).mpr (h2 o ho).2⟩


lemma gaussRho_eval (h : s.Built lib p) (ha : Like a s) (e g : ℕ) :
    s.gaussRho a.u.val e g = (cellPoly a e 0).eval (s.basis.x.val g) := by
  unfold Sol.gaussRho cellPoly
  rw [legSeries_eval, ha.rows, h.rows, h.ns, ha.setup.NF]
  refine Finset.sum_congr rfl fun k _ => ?_
  rw [h.phi, mul_comm, add_zero]

lemma faceRho_left (h : s.Built lib p) (hen : s.enhance = none) (ha : Like a s) (i : ℕ) :
    s.faceRho 1 a.u.val i = (cellPoly a i 0).eval 1 := by
  unfold Sol.faceRho Sol.faceW cellPoly
  rw [legSeries_eval, ha.rows, h.rows, h.ns, ha.setup.NF, hen]
  refine Finset.sum_congr rfl fun k _ => ?_
  rw [h.psi1]
  simp [mul_comm]

lemma faceRho_right (h : s.Built lib p) (hen : s.enhance = none) (ha : Like a s) (i : ℕ) :
    s.faceRho 0 a.u.val i = (cellPoly a (i + 1) 0).eval (-1) := by
  unfold Sol.faceRho Sol.faceW cellPoly
  rw [legSeries_eval, ha.rows, h.rows, h.ns, ha.setup.NF, hen]
  refine Finset.sum_congr rfl fun k _ => ?_
  rw [h.psi0]
  simp [mul_comm]

include hγ in
/-- **C99 (density).** Without enhancement and with a density that is positive all over the cells, the residual exists, and the
density in it is the discontinuous Galerkin discretisation of `ρ_t + v ρ_x = 0` with the mass flux of the solver: against
the test function `P_n`, `∫ P_n' v ρ - [P_n g]`. -/
theorem C99_density (h : s.Built lib p) (hp : CodePhysics γ "euler".toList riemann s) (hk : s.BcKnown) (hen : s.enhance = none)
    {v P : ℝ} (hP : 0 < P) (h0 : SameVP γ v P s) (hpos : ∀ e, 1 ≤ e → e ≤ s.NE → ∀ ξ ∈ Set.Icc (-1 : ℝ) 1, 0 < (cellPoly s e 0).eval ξ) :
    ∃ F : Arr ℝ, checkedResidual s = .ok (s.applyBc, F) ∧ residual s = .ok (s.applyBc, F) ∧ ∀ n ≤ p, ∀ e, 1 ≤ e → e ≤ s.NE →
      let g := fun i => contactMass γ (String.ofList riemann) v P ((cellPoly s.applyBc i 0).eval 1) ((cellPoly s.applyBc (i + 1) 0).eval (-1))
      s.dx / (2 * n + 1) * F.val n (e * 3) = v * intPoly (derivative (legendre ℝ n) * cellPoly s e 0) - (g e - (-1) ^ n * g (e - 1)) := by
  obtain ⟨hkw, hF⟩ := hp.euler rfl
  obtain ⟨ps, hps, hdr, hfail⟩ := euler_drift hγ hF (String.ofList riemann) hP v
  rw [← hkw] at hps
  have hl := (Like.refl s).applyBc
  -- ghost cells repeat interior cells
  have hcell : ∀ e ≤ s.NE + 1, ∃ e', 1 ≤ e' ∧ e' ≤ s.NE ∧ cellPoly s.applyBc e 0 = cellPoly s e' 0 := by
    intro e he
    obtain ⟨e', h1, h2, h3⟩ := bc_cell hk h.NE e he
    refine ⟨e', h1, h2, ?_⟩
    unfold cellPoly
    rw [hl.rows, hl.setup.NF]
    congr 1
    funext n
    rw [(Like.refl s).applyBc_val h.wf, h3 0 h.NF]
  have hin : ∀ e, 1 ≤ e → e ≤ s.NE → cellPoly s.applyBc e 0 = cellPoly s e 0 := by
    intro e h1 h2
    unfold cellPoly
    rw [hl.rows, hl.setup.NF]
    congr 1
    funext n
    rw [(Like.refl s).applyBc_val h.wf, bcCol_interior s h1 h2 h.NF]
  have hpos' : ∀ e ≤ s.NE + 1, ∀ ξ ∈ Set.Icc (-1 : ℝ) 1, 0 < (cellPoly s.applyBc e 0).eval ξ := by
    intro e he ξ hξ
    obtain ⟨e', h1, h2, h3⟩ := hcell e he
    rw [h3]; exact hpos e' h1 h2 ξ hξ
  have hnode : ∀ g < p + 1, s.basis.x.val g ∈ Set.Icc (-1 : ℝ) 1 := fun g hg => Set.Ioo_subset_Icc_self (Approx.gauss_nodes h.gaussS hg)
  have hv : ¬ VacuumPoint s := by
    rw [vacuum_gaussRho h (Like.refl s) hF]
    rintro ⟨g, hg, e, he, h0⟩
    rw [gaussRho_eval h hl] at h0
    exact (hpos' e he _ (hnode g hg)).ne' h0
  obtain ⟨-, r2⟩ := residual_drift h (Like.refl s) ps hps hdr (fun en he => by rw [hen] at he; cases he) hk
    ((sameVP_iff (Like.refl s) h.rows hF v P).mp h0) (by
      intro e h1 h2 g hg
      rw [gaussRho_eval h (Like.refl s)]
      exact (hpos e h1 h2 _ (hnode g hg)).ne')
  obtain ⟨F, hFr, -, -, -, hval⟩ := r2 (fun i hi => by
    rw [hfail, faceRho_left h hen hl, faceRho_right h hen hl]
    exact ⟨hpos' i (by omega) 1 (by norm_num), hpos' (i + 1) (by omega) (-1) (by norm_num)⟩)
  refine ⟨F, by unfold checkedResidual; rw [if_neg hv, hFr], hFr, fun n hn e h1 h2 => ?_⟩
  intro g
  have hvol : ∑ q ∈ Finset.range (p + 1), s.basis.dphiW.val n q * (v * s.gaussRho s.applyBc.u.val e q) =
      v * intPoly (derivative (legendre ℝ n) * cellPoly s e 0) := by
    have hdeg : (derivative (legendre ℝ n) * cellPoly s e 0).degree < 2 * ((p + 1 : ℕ) : WithBot ℕ) := by
      unfold cellPoly; rw [h.rows]; exact degree_deriv_mul (by omega) _
    rw [← gauss_int h _ hdeg, Finset.mul_sum]
    refine Finset.sum_congr rfl fun q _ => ?_
    rw [h.dphi, gaussRho_eval h hl, hin e h1 h2, eval_mul]
    ring
  have hFv := hval n (by omega) e h1 h2
  rw [hF] at hFv
  rw [hFv]
  unfold Sol.rhoRes
  rw [h.ng, hvol, h.minv n (by omega), faceRho_left h hen hl, faceRho_right h hen hl, faceRho_left h hen hl, faceRho_right h hen hl,
    show e - 1 + 1 = e by omega, neg_one_pow_parity]
  have hdx := h.dx
  have hn : (2 * (n : ℝ) + 1) ≠ 0 := by positivity
  show _ = _ - (g e - _ * g (e - 1))
  simp only [g, show e - 1 + 1 = e by omega]
  split_ifs <;> field_simp
  ring

include hγ in
/-- **C99 (reading).** Where such a gas has a density, velocity and pressure computed from its conserved variables are `v` and `P`. -/
theorem C99_reading {v P : ℝ} (h0 : SameVP γ v P s) {e : ℕ} (h1 : 1 ≤ e) (h2 : e ≤ s.NE) {ξ : ℝ} (hr : (cellPoly s e 0).eval ξ ≠ 0) :
    let ρ := (cellPoly s e 0).eval ξ
    let m := (cellPoly s e 1).eval ξ
    let E := (cellPoly s e 2).eval ξ
    m / ρ = v ∧ (γ - 1) * (E - m ^ 2 / (2 * ρ)) = P := by
  intro ρ m E
  have hm : m = ρ * v := h0 e h1 h2 ξ 1
  have hE : E = P / (γ - 1) + ρ * v ^ 2 / 2 := h0 e h1 h2 ξ 2
  have hr : ρ ≠ 0 := hr
  have hg : γ - 1 ≠ 0 := by linarith
  rw [hm, hE]
  constructor
  · field_simp
  · field_simp
    ring


/-- Three periodic cells of a gas of velocity 3 and pressure 1 with the densities 3, 4, 5 and (from order 1 on) slopes 1, `γ = 7/5`. -/
noncomputable def Ex.contact (p : ℕ) (riemann : Str) : Sol ℝ :=
  { Ex.solR p with
    kw := Euler.physics (7 / 5) (String.ofList riemann), NF := 3
    u := ⟨p + 1, 15, fun n c => drift 3 (if n = 0 then 5 / 2 else 0) (if n = 0 then 2 + (c / 3 : ℕ) else if n = 1 then 1 else 0) (c % 3)⟩ }

lemma Ex.contact_built (p : ℕ) (riemann : Str) : (Ex.contact p riemann).Built realGauss p where
  nodes := (Ex.solR_built p).nodes
  gauss := (Ex.solR_built p).gauss
  basis := rfl
  NF := Nat.succ_pos 2
  NE := Nat.succ_pos 2
  rows := rfl
  cols := rfl
  dx := (Ex.solR_built p).dx
  minv := (Ex.solR_built p).minv
  enh := fun en h => by cases h

lemma Ex.contact_val (p : ℕ) (riemann : Str) (n e f : ℕ) (hf : f < 3) : (Ex.contact p riemann).u.val n (e * 3 + f) =
    drift 3 (if n = 0 then 5 / 2 else 0) (if n = 0 then 2 + (e : ℝ) else if n = 1 then 1 else 0) f := by
  show drift 3 _ (if n = 0 then 2 + (((e * 3 + f) / 3 : ℕ) : ℝ) else if n = 1 then 1 else 0) ((e * 3 + f) % 3) = _
  rw [show (e * 3 + f) / 3 = e by omega, show (e * 3 + f) % 3 = f by omega]

lemma Ex.contact_same (p : ℕ) (riemann : Str) : SameVP (7 / 5) 3 1 (Ex.contact p riemann) := by
  rw [sameVP_iff (Like.refl _) (Ex.contact_built p riemann).rows rfl]
  intro n _ e _ _ f hf
  have hf : f < 3 := hf
  have e1 := Ex.contact_val p riemann n e f hf
  have e2 := Ex.contact_val p riemann n e 0 (by norm_num)
  show (Ex.contact p riemann).u.val n (e * 3 + f) = drift 3 _ ((Ex.contact p riemann).u.val n (e * 3 + 0)) f
  rw [e1, e2]
  norm_num [drift]

lemma Ex.contact_rho (p : ℕ) (riemann : Str) (e : ℕ) (ξ : ℝ) :
    (cellPoly (Ex.contact p riemann) e 0).eval ξ = 2 + e + if 1 ≤ p then ξ else 0 := by
  unfold cellPoly
  rw [legSeries_eval]
  show ∑ n ∈ Finset.range (p + 1), (Ex.contact p riemann).u.val n (e * 3 + 0) * _ = _
  have : ∀ n ∈ Finset.range (p + 1), (Ex.contact p riemann).u.val n (e * 3 + 0) * (legendre ℝ n).eval ξ =
      (if n = 0 then 2 + (e : ℝ) else 0) + if n = 1 then ξ else 0 := by
    intro n _
    rw [Ex.contact_val p riemann n e 0 (by norm_num)]
    rcases n with _ | _ | n
    · simp [drift, legendre_zero]
    · simp [drift, legendre_one]
    · simp [drift]
  rw [Finset.sum_congr rfl this, Finset.sum_add_distrib, Finset.sum_ite_eq', Finset.sum_ite_eq', if_pos (Finset.mem_range.mpr (by omega))]
  simp only [Finset.mem_range, show 1 < p + 1 ↔ 1 ≤ p by omega]

/-- C99 applies to this gas, all orders and solver names: the residual exists, and all outputs have velocity 3 and pressure 1. -/
example (p : ℕ) (riemann : Str) (deck : RkDeck ℝ) (k : ℕ) :
    (∃ x, checkedResidual (Ex.contact p riemann) = .ok x) ∧
    ∀ o ∈ (integrate ⟨checkedResidual, Limiter.limit none⟩ deck (Ex.contact p riemann) k).log, SameVP (7 / 5) 3 1 o.sol := by
  have hp : CodePhysics (7 / 5) "euler".toList riemann (Ex.contact p riemann) :=
    ⟨by unfold manipulationFunctions; rw [if_pos rfl]; rfl, by unfold manipulationFunctions; rw [if_pos rfl]; rfl⟩
  have hk : (Ex.contact p riemann).BcKnown := ⟨.inl ⟨rfl, rfl⟩, .inl ⟨rfl, rfl⟩⟩
  refine ⟨?_, (C99_run (by norm_num) (Ex.contact_built p riemann) hp hk (fun en h => by cases h) one_pos (Ex.contact_same p riemann) deck k).2⟩
  obtain ⟨F, hF, -⟩ := C99_density (by norm_num) (Ex.contact_built p riemann) hp hk rfl one_pos (Ex.contact_same p riemann) (by
    intro e h1 _ ξ hξ
    have he : (1 : ℝ) ≤ e := by exact_mod_cast h1
    rw [Ex.contact_rho]
    split_ifs
    · linarith [hξ.1]
    · linarith)
  exact ⟨_, hF⟩

/-- Its density is not constant, so the statement is not that of a uniform flow. -/
example (p : ℕ) (riemann : Str) : (cellPoly (Ex.contact p riemann) 1 0).eval 0 ≠ (cellPoly (Ex.contact p riemann) 2 0).eval 0 := by
  rw [Ex.contact_rho, Ex.contact_rho]
  norm_num

/-- The flux of a contact moving with velocity 3 between the densities 3 and 4: mass flux 9 with Roe and Godunov. -/
example : FluxAt (7 / 5) "godunov" ⟨3, 3, 1⟩ ⟨4, 3, 1⟩ ![9, 28, 51] ∧ FluxAt (7 / 5) "roe" ⟨3, 3, 1⟩ ⟨4, 3, 1⟩ ![9, 28, 51] := by
  have e : ∀ name, name ≠ "rusanov" → carriedFlux (7 / 5) 3 1 (contactMass (7 / 5) name 3 1 3 4) = ![9, 28, 51] := by
    intro name hn
    unfold contactMass upwindMass carriedFlux
    rw [if_neg hn]
    norm_num
  have a := C99_flux (γ := 7 / 5) (by norm_num) (rL := 3) (rR := 4) (P := 1) (by norm_num) (by norm_num) (by norm_num) 3 "godunov"
  have b := C99_flux (γ := 7 / 5) (by norm_num) (rL := 3) (rR := 4) (P := 1) (by norm_num) (by norm_num) (by norm_num) 3 "roe"
  rw [e _ (by decide)] at a b
  exact ⟨a, b⟩

end Dg1d.Props
