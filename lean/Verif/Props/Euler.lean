import Verif.Proofs.Euler
import Mathlib.Tactic.IntervalCases
import Mathlib.Topology.Instances.Real.Lemmas

/-! # Euler physics: interior flux, Rusanov and Roe fluxes, wave speed

`FluxAt γ name wL wR F` is the statement form used for the Riemann solvers: the solver stored under `name` accepts the
pair of states `wL | wR`, and at every interface of every pair of arrays with these two states it returns `F`. -/

set_option linter.unusedSectionVars false

open Dg1d.Spec Dg1d.Euler

namespace Dg1d.Props

/-- Interface `i` of the arrays `ul`, `ur` has the states `wL`, `wR` (three interleaved conserved variables). -/
def StatesAt (γ : ℝ) (ul ur : Vec ℝ) (i : ℕ) (wL wR : Prim) : Prop :=
  ∀ k : Fin 3, ul.val (i * 3 + k) = wL.cons γ k ∧ ur.val (i * 3 + k) = wR.cons γ k

/-- The array of one state. -/
noncomputable def oneState (γ : ℝ) (w : Prim) : Vec ℝ := ⟨3, fun j => if h : j < 3 then w.cons γ ⟨j, h⟩ else 0⟩

/-- At an interface with states `wL | wR` the solver returns the flux `F`. -/
def FluxAt (γ : ℝ) (name : String) (wL wR : Prim) (F : Fin 3 → ℝ) : Prop :=
  (∃ q, (physics γ name).riemann (oneState γ wL) (oneState γ wR) = .ok q) ∧
  ∀ (ul ur : Vec ℝ) (m : ℕ), ul.len = m * 3 → ur.len = m * 3 → ∀ q, (physics γ name).riemann ul ur = .ok q →
    q.len = m * 3 ∧ ∀ i < m, StatesAt γ ul ur i wL wR → ∀ k : Fin 3, q.val (i * 3 + k) = F k

lemma fieldsAt_of (γ : ℝ) {ul ur : Vec ℝ} {i : ℕ} {wL wR : Prim} (h : StatesAt γ ul ur i wL wR) :
    fieldsAt 3 ul.val i = wL.cons γ ∧ fieldsAt 3 ur.val i = wR.cons γ :=
  ⟨funext fun k => (h k).1, funext fun k => (h k).2⟩

lemma oneState_at (γ : ℝ) (wL wR : Prim) : StatesAt γ (oneState γ wL) (oneState γ wR) 0 wL wR := by
  intro k
  have := k.isLt
  simp [oneState, this]

lemma fluxAt_of {γ : ℝ} {name : String} {ps : PhysSpec ℝ 3} (hps : (physics γ name).Pointwise ps) {wL wR : Prim}
    (hf : ¬ ps.fails (wL.cons γ) (wR.cons γ)) {F : Fin 3 → ℝ} (hF : ps.num (wL.cons γ) (wR.cons γ) = F) :
    FluxAt γ name wL wR F := by
  constructor
  · obtain ⟨q, hq, _⟩ := hps.riemannOk (oneState γ wL) (oneState γ wR) 1 rfl rfl (by
      intro i hi
      obtain rfl : i = 0 := by omega
      obtain ⟨h1, h2⟩ := fieldsAt_of γ (oneState_at γ wL wR)
      rw [h1, h2]; exact hf)
    exact ⟨q, hq⟩
  · intro ul ur m h1 h2 q hq
    have hall : ∀ i < m, ¬ ps.fails (fieldsAt 3 ul.val i) (fieldsAt 3 ur.val i) := by
      intro i hi hx
      obtain ⟨e, _, he⟩ := hps.riemannErr ul ur m h1 h2 ⟨i, hi, hx⟩
      rw [he] at hq; cases hq
    obtain ⟨q', hq', hlen, hval⟩ := hps.riemannOk ul ur m h1 h2 hall
    rw [hq'] at hq
    cases hq
    refine ⟨hlen, fun i hi hs k => ?_⟩
    obtain ⟨e1, e2⟩ := fieldsAt_of γ hs
    rw [hval i hi k, e1, e2, hF]

/-- `FluxAt` determines the flux (it is not a vacuous statement). -/
lemma FluxAt.unique {γ : ℝ} {name : String} {wL wR : Prim} {F G : Fin 3 → ℝ} (hF : FluxAt γ name wL wR F)
    (hG : FluxAt γ name wL wR G) : F = G := by
  obtain ⟨⟨q, hq⟩, hF⟩ := hF
  obtain ⟨_, hG⟩ := hG
  funext k
  rw [← (hF _ _ 1 rfl rfl q hq).2 0 (by omega) (oneState_at γ wL wR) k,
    ← (hG _ _ 1 rfl rfl q hq).2 0 (by omega) (oneState_at γ wL wR) k]

variable {γ : ℝ} (hγ : 1 < γ) {wL wR w : Prim}

/-- A concrete gas: density 1, velocity 0, pressure 1, and density 1/8, velocity 2, pressure 1/10. -/
noncomputable def Ex.wA : Prim := ⟨1, 0, 1⟩
noncomputable def Ex.wB : Prim := ⟨1 / 8, 2, 1 / 10⟩
lemma Ex.wA_phys : Ex.wA.Phys := by norm_num [Prim.Phys, Ex.wA]
lemma Ex.wB_phys : Ex.wB.Phys := by norm_num [Prim.Phys, Ex.wB]

/-! ### C37 -/

include hγ in
/-- **C37 (Euler).** At every row (quadrature point) `r` and cell `i` holding the conserved variables of the
primitive state `w`, `interior_flux` gives the Euler flux of `w`; the shape is kept. -/
theorem C37_interior_flux (name : String) (ug : Arr ℝ) :
    ((physics γ name).interiorFlux ug).rows = ug.rows ∧ ((physics γ name).interiorFlux ug).cols = ug.cols ∧
    ∀ r i (w : Prim), w.rho ≠ 0 → (∀ k : Fin 3, ug.val r (i * 3 + k) = w.cons γ k) →
      ∀ k : Fin 3, ((physics γ name).interiorFlux ug).val r (i * 3 + k) = w.flux γ k := by
  refine ⟨rfl, rfl, fun r i w hw h k => ?_⟩
  show (interiorFlux γ ug).val r (i * 3 + k) = _
  rw [interiorFlux_val, show fieldsAt 3 (ug.val r) i = w.cons γ from funext h, flux_cons hγ hw]

/-- **C37 (advection).** The flux is the state. -/
theorem C37_advection {K : Type*} [Field K] [LinearOrder K] (ug : Arr K) (r j : ℕ) :
    ((Advection.physics (K := K)).interiorFlux ug).val r j = ug.val r j := rfl

/-- C37 on two cells with the states `wA`, `wB` (γ = 7/5). -/
example : ∀ k : Fin 3, ((physics (7 / 5) "roe").interiorFlux
    ⟨1, 6, fun _ j => (if j < 3 then oneState (7 / 5) Ex.wA else oneState (7 / 5) Ex.wB).val (j % 3)⟩).val 0 (1 * 3 + k) =
      ![1 / 4, 3 / 5, 6 / 5] k := by
  intro k
  rw [(C37_interior_flux (γ := 7 / 5) (by norm_num) "roe" _).2.2 0 1 Ex.wB (by norm_num [Ex.wB]) (fun k => ?_)]
  · fin_cases k <;> norm_num [Prim.flux, Prim.energy, Ex.wB]
  · fin_cases k <;> simp [oneState]

/-! ### C38, C39: Rusanov and Roe -/

include hγ in
/-- **C39 (Rusanov).** -/
theorem C39_rusanov (hL : wL.Phys) (hR : wR.Phys) : FluxAt γ "rusanov" wL wR (rusanovFlux γ wL wR) :=
  fluxAt_of (rusanov_pointwise γ) (not_not.mpr ⟨isReal_cons hγ hL, isReal_cons hγ hR⟩) (rusanov1_cons hγ hL hR)

include hγ in
/-- **C39 (Roe).** Any name other than "rusanov" and "godunov" selects Roe's flux. -/
theorem C39_roe {name : String} (h1 : name ≠ "rusanov") (h2 : name ≠ "godunov") (hL : wL.Phys) (hR : wR.Phys) :
    FluxAt γ name wL wR (roeFlux γ wL wR) :=
  fluxAt_of (roe_pointwise γ h1 h2) (not_not.mpr (roeReal_cons hγ hL hR)) (roe1_cons hγ hL hR)

include hγ in
/-- **C39 (Roe's property).** The waves `α_k r_k` add up to the jump of the conserved variables, and with the
eigenvalues as factors to the jump of the flux. -/
theorem C39_roe_property (hL : wL.Phys) (hR : wR.Phys) (i : Fin 3) :
    ∑ k, roeAlpha γ wL wR k * roeVec γ wL wR k i = wR.cons γ i - wL.cons γ i ∧
    ∑ k, roeLambda γ wL wR k * (roeAlpha γ wL wR k * roeVec γ wL wR k i) = wR.flux γ i - wL.flux γ i := by
  have hc := roeC_pos hγ hL hR
  have hc2 := roeC_sq hγ hL hR
  have hg : γ - 1 ≠ 0 := by linarith
  have h1 := Real.sqrt_pos.mpr hL.1
  have h2 := Real.sqrt_pos.mpr hR.1
  have e1 : wL.rho = √wL.rho ^ 2 := (Real.sq_sqrt hL.1.le).symm
  have e2 : wR.rho = √wR.rho ^ 2 := (Real.sq_sqrt hR.1.le).symm
  have e3 : roeRho wL wR = √wL.rho * √wR.rho := Real.sqrt_mul hL.1.le _
  have eV : roeV wL wR = (√wL.rho * wL.v + √wR.rho * wR.v) / (√wL.rho + √wR.rho) := rfl
  have eH : roeH γ wL wR = (√wL.rho * (γ / (γ - 1) * (wL.p / √wL.rho ^ 2) + wL.v ^ 2 / 2) +
      √wR.rho * (γ / (γ - 1) * (wR.p / √wR.rho ^ 2) + wR.v ^ 2 / 2)) / (√wL.rho + √wR.rho) := by
    rw [← e1, ← e2]; rfl
  simp only [Fin.sum_univ_three, roeAlpha, roeVec, roeLambda, Prim.cons, Prim.flux, Prim.energy]
  rw [e3]
  generalize roeC γ wL wR = c at *
  generalize roeV wL wR = V at *
  generalize roeH γ wL wR = H at *
  generalize √wL.rho = x at *
  generalize √wR.rho = y at *
  rw [e1, e2]
  have hxy : x + y ≠ 0 := by positivity
  have hH : H = c ^ 2 / (γ - 1) + V ^ 2 / 2 := by rw [hc2]; field_simp; ring
  have hV : V * (x + y) = x * wL.v + y * wR.v := by rw [eV]; field_simp
  set s := (wR.p - wL.p) / c ^ 2 with hs
  set d := x * y * (wR.v - wL.v) / c with hd
  have hsc : s * c ^ 2 = wR.p - wL.p := by rw [hs]; field_simp
  have hdc : d * c = x * y * (wR.v - wL.v) := by rw [hd]; field_simp
  have a0 : ((wR.p - wL.p) - x * y * c * (wR.v - wL.v)) / (2 * c ^ 2) = (s - d) / 2 := by
    rw [hs, hd]; field_simp
  have a2 : ((wR.p - wL.p) + x * y * c * (wR.v - wL.v)) / (2 * c ^ 2) = (s + d) / 2 := by
    rw [hs, hd]; field_simp
  have m1 : y ^ 2 * wR.v - x ^ 2 * wL.v = V * (y ^ 2 - x ^ 2) + x * y * (wR.v - wL.v) := by
    linear_combination (y - x) * -hV
  have m2 : y ^ 2 * wR.v ^ 2 - x ^ 2 * wL.v ^ 2 = V ^ 2 * (y ^ 2 - x ^ 2) + 2 * V * (x * y * (wR.v - wL.v)) := by
    linear_combination -(V * (y - x) + (y * wR.v - x * wL.v)) * hV
  obtain ⟨HL, hHL⟩ : ∃ HL, HL = γ / (γ - 1) * (wL.p / x ^ 2) + wL.v ^ 2 / 2 := ⟨_, rfl⟩
  obtain ⟨HR, hHR⟩ : ∃ HR, HR = γ / (γ - 1) * (wR.p / y ^ 2) + wR.v ^ 2 / 2 := ⟨_, rfl⟩
  have hHs : H * (x + y) = x * HL + y * HR := by rw [eH, hHL, hHR]; field_simp
  have m3 : y ^ 2 * wR.v * HR - x ^ 2 * wL.v * HL = V * (y ^ 2 * HR - x ^ 2 * HL) + H * (x * y * (wR.v - wL.v)) := by
    apply mul_left_cancel₀ hxy
    linear_combination -(y ^ 2 * HR - x ^ 2 * HL) * hV - (x * y * (wR.v - wL.v)) * hHs
  have hpL : wL.p / (γ - 1) + wL.p = x ^ 2 * HL - x ^ 2 * wL.v ^ 2 / 2 := by rw [hHL]; field_simp; ring
  have hpR : wR.p / (γ - 1) + wR.p = y ^ 2 * HR - y ^ 2 * wR.v ^ 2 / 2 := by rw [hHR]; field_simp; ring
  have hE : s * (H - V ^ 2 / 2) = (wR.p - wL.p) / (γ - 1) := by
    rw [hH, ← hsc]; field_simp; ring
  rw [a0, a2]
  fin_cases i
  · constructor
    · simp; ring
    · simp
      linear_combination hdc - m1
  · constructor
    · simp
      linear_combination hdc - m1
    · simp
      linear_combination hsc + 2 * V * hdc - m2
  · constructor
    · simp
      linear_combination hE + V * hdc - m2 / 2
    · simp
      linear_combination V * hE + V * hsc + (H + V ^ 2) * hdc - m3 + (V - wR.v) * hpR - (V - wL.v) * hpL - V * m2 / 2

/-- C39 on the states `wA | wB`: the hypotheses hold, so the sum of the waves is the jump (density jump −7/8). -/
example : ∑ k, roeAlpha (7 / 5) Ex.wA Ex.wB k * roeVec (7 / 5) Ex.wA Ex.wB k 0 = -(7 / 8) := by
  rw [(C39_roe_property (by norm_num) Ex.wA_phys Ex.wB_phys 0).1]
  norm_num [Prim.cons, Ex.wA, Ex.wB]

lemma rusanovFlux_self (w : Prim) : rusanovFlux γ w w = w.flux γ := by
  funext k; simp only [rusanovFlux, sub_self]; ring

lemma roeFlux_self (w : Prim) : roeFlux γ w w = w.flux γ := by
  have h0 : ∀ j, roeAlpha γ w w j = 0 := by intro j; fin_cases j <;> simp [roeAlpha]
  funext k
  simp only [roeFlux, h0, mul_zero, zero_mul, Finset.sum_const_zero]
  ring

include hγ in
/-- **C38 (Rusanov, Roe).** Equal states on both sides: the physical flux. (Godunov: `C38_godunov`.) -/
theorem C38_consistent {name : String} (h2 : name ≠ "godunov") (hw : w.Phys) : FluxAt γ name w w (w.flux γ) := by
  by_cases h1 : name = "rusanov"
  · rw [h1]
    have := C39_rusanov hγ hw hw
    rwa [rusanovFlux_self] at this
  · have := C39_roe hγ h1 h2 hw hw
    rwa [roeFlux_self] at this

/-- **C38 (upwind advection).** -/
theorem C38_advection {K : Type*} [Field K] [LinearOrder K] (ul ur : Vec K) :
    ∃ q, (Advection.physics (K := K)).riemann ul ur = .ok q ∧ q.len = ul.len ∧
      ∀ i < q.len, ul.val i = ur.val i → q.val i = ul.val i := ⟨_, rfl, rfl, fun _ _ _ => rfl⟩

example : FluxAt (7 / 5) "rusanov" Ex.wB Ex.wB ![1 / 4, 3 / 5, 6 / 5] := by
  have := C38_consistent (γ := 7 / 5) (by norm_num) (name := "rusanov") (by decide) Ex.wB_phys
  convert this using 1
  funext k; fin_cases k <;> norm_num [Prim.flux, Prim.energy, Ex.wB]

/-! ### C40 -/

lemma mirror_phys (h : w.Phys) : w.mirror.Phys := h

lemma rusanovFlux_mirror : rusanovFlux γ wR.mirror wL.mirror = mirrorFlux (rusanovFlux γ wL wR) := by
  have hs : ∀ w : Prim, w.mirror.speed γ = w.speed γ := fun w => by simp [Prim.speed, Prim.mirror, Prim.c]
  funext k
  simp only [rusanovFlux, mirrorFlux, hs, max_comm (wR.speed γ)]
  fin_cases k
  · simp [Prim.flux, Prim.cons, Prim.mirror]; ring
  · simp [Prim.flux, Prim.cons, Prim.mirror]; ring
  · simp [Prim.flux, Prim.cons, Prim.mirror, Prim.energy]; ring

lemma hartenAbs_neg (d x : ℝ) : hartenAbs d (-x) = hartenAbs d x := by simp [hartenAbs]

lemma roeFlux_mirror : roeFlux γ wR.mirror wL.mirror = mirrorFlux (roeFlux γ wL wR) := by
  have hV : roeV wR.mirror wL.mirror = -roeV wL wR := by
    simp only [roeV, roeMean, Prim.mirror]
    rw [← neg_div]; congr 1 <;> ring
  have hH : roeH γ wR.mirror wL.mirror = roeH γ wL wR := by
    simp only [roeH, roeMean, Prim.mirror, Prim.enthalpy, neg_sq]
    congr 1 <;> ring
  have hr : roeRho wR.mirror wL.mirror = roeRho wL wR := by simp only [roeRho, Prim.mirror, mul_comm]
  have hC : roeC γ wR.mirror wL.mirror = roeC γ wL wR := by unfold roeC; rw [hV, hH, neg_sq]
  have hc : ∀ w : Prim, w.mirror.c γ = w.c γ := fun _ => rfl
  have hv : ∀ w : Prim, w.mirror.v = -w.v := fun _ => rfl
  have w0 : fixWidth γ wR.mirror wL.mirror 0 = fixWidth γ wL wR 2 := by
    simp only [fixWidth, hc, hv, Matrix.cons_val]; congr 1; ring
  have w2 : fixWidth γ wR.mirror wL.mirror 2 = fixWidth γ wL wR 0 := by
    simp only [fixWidth, hc, hv, Matrix.cons_val]; congr 1; ring
  have w1 : fixWidth γ wR.mirror wL.mirror 1 = fixWidth γ wL wR 1 := rfl
  have l0 : roeLambda γ wR.mirror wL.mirror 0 = -roeLambda γ wL wR 2 := by
    simp only [roeLambda, hV, hC, Matrix.cons_val]; ring
  have l1 : roeLambda γ wR.mirror wL.mirror 1 = -roeLambda γ wL wR 1 := by
    simp only [roeLambda, hV, Matrix.cons_val]
  have l2 : roeLambda γ wR.mirror wL.mirror 2 = -roeLambda γ wL wR 0 := by
    simp only [roeLambda, hV, hC, Matrix.cons_val]; ring
  funext k
  simp only [roeFlux, mirrorFlux, Fin.sum_univ_three, w0, w1, w2, l0, l1, l2, hartenAbs_neg]
  generalize hartenAbs _ _ = h0
  generalize hartenAbs _ _ = h1
  generalize hartenAbs _ _ = h2
  simp only [roeAlpha, roeVec, hV, hH, hC, hr]
  fin_cases k
  · simp [Prim.flux, Prim.mirror]; ring
  · simp [Prim.flux, Prim.mirror]; ring
  · simp [Prim.flux, Prim.mirror, Prim.energy]; ring

include hγ in
/-- **C40 (Rusanov, Roe).** Mirroring the two states mirrors the flux. -/
theorem C40_mirror {name : String} (h2 : name ≠ "godunov") (hL : wL.Phys) (hR : wR.Phys) (F : Fin 3 → ℝ)
    (hF : FluxAt γ name wL wR F) : FluxAt γ name wR.mirror wL.mirror (mirrorFlux F) := by
  by_cases h1 : name = "rusanov"
  · rw [h1] at hF ⊢
    rw [hF.unique (C39_rusanov hγ hL hR), ← rusanovFlux_mirror]
    exact C39_rusanov hγ (mirror_phys hR) (mirror_phys hL)
  · rw [hF.unique (C39_roe hγ h1 h2 hL hR), ← roeFlux_mirror]
    exact C39_roe hγ h1 h2 (mirror_phys hR) (mirror_phys hL)

example : ∃ F, FluxAt (7 / 5) "roe" Ex.wA Ex.wB F ∧ FluxAt (7 / 5) "roe" Ex.wB.mirror Ex.wA.mirror (mirrorFlux F) := by
  have h : (1 : ℝ) < 7 / 5 := by norm_num
  have hF := C39_roe h (name := "roe") (by decide) (by decide) Ex.wA_phys Ex.wB_phys
  exact ⟨_, hF, C40_mirror h (by decide) Ex.wA_phys Ex.wB_phys _ hF⟩

/-! ### C41: Roe -/

lemma hartenAbs_off {d x : ℝ} (h : d / 2 ≤ |x|) : hartenAbs d x = |x| := by
  unfold hartenAbs; rw [if_neg (not_lt.mpr h)]

include hγ in
/-- **C41 (Roe).** All eigenvalues non-negative and no entropy fix: the flux of the left state; all non-positive: the
flux of the right state. -/
theorem C41_roe_supersonic {name : String} (h1 : name ≠ "rusanov") (h2 : name ≠ "godunov") (hL : wL.Phys) (hR : wR.Phys)
    (hfix : ∀ k, fixWidth γ wL wR k / 2 ≤ |roeLambda γ wL wR k|) :
    ((∀ k, 0 ≤ roeLambda γ wL wR k) → FluxAt γ name wL wR (wL.flux γ)) ∧
    ((∀ k, roeLambda γ wL wR k ≤ 0) → FluxAt γ name wL wR (wR.flux γ)) := by
  have hroe := C39_roe hγ h1 h2 hL hR
  constructor
  · intro hpos
    convert hroe using 1
    funext i
    have := (C39_roe_property hγ hL hR i).2
    simp only [roeFlux, hartenAbs_off (hfix _), abs_of_nonneg (hpos _), mul_assoc]
    rw [this]; ring
  · intro hneg
    convert hroe using 1
    funext i
    have := (C39_roe_property hγ hL hR i).2
    simp only [roeFlux, hartenAbs_off (hfix _), abs_of_nonpos (hneg _), mul_assoc, neg_mul, Finset.sum_neg_distrib]
    rw [this]; ring

/-- C41 on two equal fast states (γ = 7/5, density 1, velocity 3, pressure 1/2). -/
example : FluxAt (7 / 5) "roe" ⟨1, 3, 1 / 2⟩ ⟨1, 3, 1 / 2⟩ (Prim.flux (7 / 5) ⟨1, 3, 1 / 2⟩) := by
  have hp : (⟨1, 3, 1 / 2⟩ : Prim).Phys := by norm_num [Prim.Phys]
  have hV : roeV ⟨1, 3, 1 / 2⟩ ⟨1, 3, 1 / 2⟩ = 3 := by norm_num [roeV, roeMean]
  have hC : roeC (7 / 5) ⟨1, 3, 1 / 2⟩ ⟨1, 3, 1 / 2⟩ ≤ 1 := by
    unfold roeC
    rw [hV, Real.sqrt_le_iff]
    norm_num [roeH, roeMean, Prim.enthalpy]
  have hC0 : 0 ≤ roeC (7 / 5) ⟨1, 3, 1 / 2⟩ ⟨1, 3, 1 / 2⟩ := Real.sqrt_nonneg _
  refine (C41_roe_supersonic (by norm_num) (by decide) (by decide) hp hp ?_).1 ?_
  · intro k
    refine le_trans (le_of_eq ?_) (abs_nonneg _)
    fin_cases k <;> simp [fixWidth]
  · intro k
    fin_cases k <;> simp [roeLambda] <;> linarith

/-! ### C42: stationary contacts -/

include hγ in
/-- **C42 (Roe).** Two states at rest with equal pressure `P`: the flux is `(0, P, 0)`. (Godunov: `C42_godunov_contact`.) -/
theorem C42_roe_contact {name : String} (h1 : name ≠ "rusanov") (h2 : name ≠ "godunov") {r r' P : ℝ} (hr : 0 < r) (hr' : 0 < r')
    (hP : 0 < P) : FluxAt γ name ⟨r, 0, P⟩ ⟨r', 0, P⟩ ![0, P, 0] := by
  have hroe := C39_roe hγ h1 h2 (wL := ⟨r, 0, P⟩) (wR := ⟨r', 0, P⟩) ⟨hr, hP⟩ ⟨hr', hP⟩
  convert hroe using 1
  have hV : roeV ⟨r, 0, P⟩ ⟨r', 0, P⟩ = 0 := by simp [roeV, roeMean]
  have h0 : hartenAbs 0 0 = 0 := by simp [hartenAbs]
  funext k
  simp only [roeFlux, Fin.sum_univ_three, roeAlpha, roeLambda, roeVec, fixWidth, hV]
  fin_cases k <;> simp [Prim.flux, h0]

include hγ in
/-- **C42 (Rusanov).** Rusanov smears a contact at rest unless the densities agree. -/
theorem C42_rusanov_contact {r r' P : ℝ} (hr : 0 < r) (hr' : 0 < r') (hP : 0 < P) :
    FluxAt γ "rusanov" ⟨r, 0, P⟩ ⟨r', 0, P⟩ ![0, P, 0] ↔ r = r' := by
  have hL : (⟨r, 0, P⟩ : Prim).Phys := ⟨hr, hP⟩
  have hR : (⟨r', 0, P⟩ : Prim).Phys := ⟨hr', hP⟩
  have hrus := C39_rusanov hγ hL hR
  constructor
  · intro h
    have := congrFun (h.unique hrus) 0
    simp [rusanovFlux, Prim.flux, Prim.cons] at this
    rcases this with h | h
    · exfalso
      have h3 := c_pos hγ hL
      have h4 : 0 < max (Prim.speed γ ⟨r, 0, P⟩) (Prim.speed γ ⟨r', 0, P⟩) := by
        apply lt_max_of_lt_left
        unfold Prim.speed
        have := abs_nonneg (0 : ℝ)
        linarith
      linarith
    · linarith
  · rintro rfl
    have := C38_consistent hγ (name := "rusanov") (by decide) hL
    convert this using 1
    funext k; fin_cases k <;> simp [Prim.flux]

example : FluxAt (7 / 5) "roe" ⟨1, 0, 3⟩ ⟨8, 0, 3⟩ ![0, 3, 0] ∧ ¬ FluxAt (7 / 5) "rusanov" ⟨1, 0, 3⟩ ⟨8, 0, 3⟩ ![0, 3, 0] :=
  ⟨C42_roe_contact (by norm_num) (by decide) (by decide) (by norm_num) (by norm_num) (by norm_num),
   fun h => by have := (C42_rusanov_contact (by norm_num) (by norm_num) (by norm_num) (by norm_num)).mp h; norm_num at this⟩

/-! ### C43: the entropy fix -/

/-- **C43.** `ws = |λ|` is the modulus of a Roe eigenvalue, `cL`, `cR` the characteristic speed on the two sides,
`Da = max(0, 4 (cR - cL))`. Active fix: positive denominator, result at least `ws` and at least `Da / 4 > 0`; the fix
is continuous at the switching point and off for compressive and uniform waves. -/
theorem C43_entropy_fix (ws cL cR : ℝ) (hws : 0 ≤ ws) :
    let Da := max 0 (4 * (cR - cL))
    (ws < Da / 2 → 0 < Da ∧ entropyFix ws cL cR = ws ^ 2 / Da + Da / 4 ∧ ws ≤ entropyFix ws cL cR ∧
      Da / 4 ≤ entropyFix ws cL cR ∧ 0 < entropyFix ws cL cR) ∧
    (Da / 2 ≤ ws → entropyFix ws cL cR = ws) ∧
    (0 < Da → Filter.Tendsto (fun x => entropyFix x cL cR) (nhdsWithin (Da / 2) (Set.Iio (Da / 2))) (nhds (entropyFix (Da / 2) cL cR))) ∧
    (cR ≤ cL → entropyFix ws cL cR = ws) := by
  intro Da
  have hDa0 : 0 ≤ Da := le_max_left _ _
  have hform : ∀ x, entropyFix x cL cR = if x < Da / 2 then x ^ 2 / Da + Da / 4 else x := by
    intro x
    unfold entropyFix
    simp only
    rw [show 1 / 2 * max 0 (4 * (cR - cL)) = Da / 2 by simp only [Da]; ring, ← sq,
      show 1 / 4 * max 0 (4 * (cR - cL)) = Da / 4 by simp only [Da]; ring]
  refine ⟨fun h => ?_, fun h => ?_, fun h => ?_, fun h => ?_⟩
  · have hDa : 0 < Da := by linarith
    have e := hform ws
    rw [if_pos h] at e
    have h1 : 0 ≤ ws ^ 2 / Da := by positivity
    refine ⟨hDa, e, ?_, ?_, ?_⟩
    · rw [e]
      have : ws ^ 2 / Da + Da / 4 - ws = (ws - Da / 2) ^ 2 / Da := by field_simp; ring
      have h2 : 0 ≤ (ws - Da / 2) ^ 2 / Da := by positivity
      linarith
    · rw [e]; linarith
    · rw [e]; linarith
  · rw [hform, if_neg (not_lt.mpr h)]
  · rw [hform (Da / 2), if_neg (lt_irrefl _)]
    have h1 : Filter.Tendsto (fun x : ℝ => x ^ 2 / Da + Da / 4) (nhdsWithin (Da / 2) (Set.Iio (Da / 2))) (nhds (Da / 2)) := by
      have hc : Continuous fun x : ℝ => x ^ 2 / Da + Da / 4 := by fun_prop
      have := (hc.tendsto (Da / 2)).mono_left (nhdsWithin_le_nhds (s := Set.Iio (Da / 2)))
      convert this using 2
      field_simp; ring
    refine h1.congr' ?_
    filter_upwards [self_mem_nhdsWithin] with x hx
    rw [hform x, if_pos (Set.mem_Iio.mp hx)]
  · have : Da = 0 := max_eq_left (by linarith)
    rw [hform, if_neg (by rw [this]; linarith)]

/-- C43: an active case: λ = 1/2, expansion from speed 0 to 1, so Da = 4. -/
example : entropyFix (1 / 2) 0 1 = 17 / 16 := by
  have h : (max 0 (4 * (1 - 0)) : ℝ) = 4 := by norm_num
  have := (C43_entropy_fix (1 / 2) 0 1 (by norm_num)).1 (by rw [h]; norm_num)
  rw [this.2.1, h]; norm_num

/-! ### C46: wave speed -/

include hγ in
/-- **C46 (Euler).** With physical averages in all `N` cells (ghosts included) `max_wave_speed` returns the largest
`|v| + c`: it bounds every cell and is attained. -/
theorem C46_bound (name : String) (u : Arr ℝ) (N : ℕ) (hN : 0 < N) (hc : u.cols = N * 3) (W : ℕ → Prim)
    (hW : ∀ i < N, (W i).Phys ∧ ∀ k : Fin 3, u.val 0 (i * 3 + k) = (W i).cons γ k) :
    ∃ c, (physics γ name).maxWaveSpeed u = .ok (.fin c) ∧ (∀ i < N, |(W i).v| + (W i).c γ ≤ c) ∧
      ∃ i < N, |(W i).v| + (W i).c γ = c := by
  have hst : ∀ i < N, stOf (fieldsAt 3 (u.val 0) i) = stOf ((W i).cons γ) := fun i hi => by
    rw [show fieldsAt 3 (u.val 0) i = (W i).cons γ from funext (hW i hi).2]
  have hsp : ∀ i < N, (stOf (fieldsAt 3 (u.val 0) i)).speed γ = |(W i).v| + (W i).c γ := fun i hi => by
    rw [hst i hi]; unfold St.speed; rw [v_cons γ (hW i hi).1.1.ne', a_cons hγ (hW i hi).1.1.ne']
  obtain ⟨c, h1, h2, i, hi, h3⟩ := (maxWaveSpeed_eq γ u N hc hN).2 fun i hi => by
    rw [hst i hi]; exact isReal_cons hγ (hW i hi).1
  exact ⟨c, h1, fun i hi => by rw [← hsp i hi]; exact h2 i hi, i, hi, by rw [← hsp i hi]; exact h3⟩

/-- **C46 (breakdown).** One cell average with zero density, or with a negative quotient `γ p / rho`: the wave speed
is NaN, and asking for the next time step ends the run. -/
theorem C46_breakdown (γ : ℝ) (name : String) (u : Arr ℝ) (N : ℕ) (hc : u.cols = N * 3) (i : ℕ) (hi : i < N)
    (h : u.val 0 (i * 3) = 0 ∨ γ * ((γ - 1) * (u.val 0 (i * 3 + 2) - u.val 0 (i * 3 + 1) ^ 2 / (2 * u.val 0 (i * 3)))) / u.val 0 (i * 3) < 0) :
    (physics γ name).maxWaveSpeed u = .ok .nan ∧
    ∀ (s : Sol ℝ) (tout cfl tf : ℝ), s.kw = physics γ name → s.u = u → ∃ msg, getNextTimeStep s tout cfl tf = .error (.sysExit msg) := by
  have h1 : (physics γ name).maxWaveSpeed u = .ok .nan := by
    refine (maxWaveSpeed_eq γ u N hc (by omega)).1 ⟨i, hi, fun hr => ?_⟩
    obtain ⟨hr1, hr2⟩ := hr
    rcases h with h | h
    · exact hr1 h
    · refine absurd h (not_lt.mpr ?_)
      have hr1' : u.val 0 (i * 3) ≠ 0 := hr1
      change 0 ≤ γ * ((γ - 1) * (u.val 0 (i * 3 + 2) - 1 / 2 * u.val 0 (i * 3) * (u.val 0 (i * 3 + 1) / u.val 0 (i * 3)) *
        (u.val 0 (i * 3 + 1) / u.val 0 (i * 3)))) / u.val 0 (i * 3) at hr2
      rw [show u.val 0 (i * 3 + 1) ^ 2 / (2 * u.val 0 (i * 3)) = 1 / 2 * u.val 0 (i * 3) *
        (u.val 0 (i * 3 + 1) / u.val 0 (i * 3)) * (u.val 0 (i * 3 + 1) / u.val 0 (i * 3)) by field_simp]
      exact hr2
  refine ⟨h1, fun s tout cfl tf hk hu => ?_⟩
  unfold getNextTimeStep cflTimeStep
  rw [hk, hu, h1]
  exact ⟨_, rfl⟩

/-- **C46 (advection).** -/
theorem C46_advection {K : Type*} [Field K] [LinearOrder K] (u : Arr K) :
    (Advection.physics (K := K)).maxWaveSpeed u = .ok (.fin 1) := rfl

/-- C46 on two cells, `wA` and `wB` with γ = 7/5. -/
example : ∃ c, (physics (7 / 5) "roe").maxWaveSpeed
    ⟨1, 6, fun _ j => (if j < 3 then oneState (7 / 5) Ex.wA else oneState (7 / 5) Ex.wB).val (j % 3)⟩ = .ok (.fin c) ∧
      2 + Ex.wB.c (7 / 5) ≤ c := by
  obtain ⟨c, h1, h2, _⟩ := C46_bound (γ := 7 / 5) (by norm_num) "roe"
    ⟨1, 6, fun _ j => (if j < 3 then oneState (7 / 5) Ex.wA else oneState (7 / 5) Ex.wB).val (j % 3)⟩ 2 (by norm_num) rfl
    (fun i => if i = 0 then Ex.wA else Ex.wB) (fun i hi => by
      interval_cases i
      · exact ⟨Ex.wA_phys, fun k => by fin_cases k <;> simp [oneState]⟩
      · exact ⟨Ex.wB_phys, fun k => by fin_cases k <;> simp [oneState]⟩)
  refine ⟨c, h1, ?_⟩
  have := h2 1 (by norm_num)
  simpa [Ex.wB] using this

/-! ### C47 -/

lemma euler_pointwise {γ : ℝ} (hγ : 1 < γ) (name : String) : ∃ ps : PhysSpec ℝ 3, (physics γ name).Pointwise ps := by
  by_cases h1 : name = "rusanov"
  · exact ⟨_, h1 ▸ rusanov_pointwise γ⟩
  · by_cases h2 : name = "godunov"
    · exact ⟨_, h2 ▸ godunov_pointwise hγ⟩
    · exact ⟨_, roe_pointwise γ h1 h2⟩

include hγ in
/-- **C47.** Interface `i` of one pair of arrays and interface `j` of another with the same two states get the same
flux, whatever the other interfaces hold and however many there are; for every solver. -/
theorem C47_local (name : String) (ul ur ul' ur' : Vec ℝ) (m m' : ℕ) (h1 : ul.len = m * 3) (h2 : ur.len = m * 3)
    (h3 : ul'.len = m' * 3) (h4 : ur'.len = m' * 3) (q q' : Vec ℝ) (hq : (physics γ name).riemann ul ur = .ok q)
    (hq' : (physics γ name).riemann ul' ur' = .ok q') (i j : ℕ) (hi : i < m) (hj : j < m')
    (hl : ∀ k < 3, ul.val (i * 3 + k) = ul'.val (j * 3 + k)) (hr : ∀ k < 3, ur.val (i * 3 + k) = ur'.val (j * 3 + k)) :
    ∀ k < 3, q.val (i * 3 + k) = q'.val (j * 3 + k) := by
  obtain ⟨ps, hps⟩ := euler_pointwise hγ name
  have key : ∀ (a b : Vec ℝ) (n : ℕ) (r : Vec ℝ), a.len = n * 3 → b.len = n * 3 → (physics γ name).riemann a b = .ok r →
      ∀ i < n, ∀ k : Fin 3, r.val (i * 3 + k) = ps.num (fieldsAt 3 a.val i) (fieldsAt 3 b.val i) k := by
    intro a b n r ha hb hr i hi k
    have hall : ∀ i < n, ¬ ps.fails (fieldsAt 3 a.val i) (fieldsAt 3 b.val i) := by
      intro i hi hx
      obtain ⟨e, _, he⟩ := hps.riemannErr a b n ha hb ⟨i, hi, hx⟩
      rw [he] at hr; cases hr
    obtain ⟨r', hr', _, hval⟩ := hps.riemannOk a b n ha hb hall
    rw [hr'] at hr
    cases hr
    exact hval i hi k
  intro k hk
  have e1 := key ul ur m q h1 h2 hq i hi ⟨k, hk⟩
  have e2 := key ul' ur' m' q' h3 h4 hq' j hj ⟨k, hk⟩
  simp only at e1 e2
  rw [e1, e2, show fieldsAt 3 ul.val i = fieldsAt 3 ul'.val j from funext fun f => hl f f.2,
    show fieldsAt 3 ur.val i = fieldsAt 3 ur'.val j from funext fun f => hr f f.2]

include hγ in
/-- **C47 (one failing interface).** Whether the solver raises also depends on the interfaces one by one: it raises iff
it raises on one of the interfaces taken alone. -/
theorem C47_fails (name : String) (ul ur : Vec ℝ) (m : ℕ) (h1 : ul.len = m * 3) (h2 : ur.len = m * 3) :
    (∃ e, (physics γ name).riemann ul ur = .error e) ↔
      ∃ i < m, ∃ e, (physics γ name).riemann ⟨3, fun k => ul.val (i * 3 + k)⟩ ⟨3, fun k => ur.val (i * 3 + k)⟩ = .error e := by
  obtain ⟨ps, hps⟩ := euler_pointwise hγ name
  have key : ∀ (a b : Vec ℝ) (n : ℕ), a.len = n * 3 → b.len = n * 3 →
      ((∃ e, (physics γ name).riemann a b = .error e) ↔ ∃ i < n, ps.fails (fieldsAt 3 a.val i) (fieldsAt 3 b.val i)) := by
    intro a b n ha hb
    constructor
    · rintro ⟨e, he⟩
      by_contra hx
      push Not at hx
      obtain ⟨r', hr', _⟩ := hps.riemannOk a b n ha hb hx
      rw [hr'] at he; cases he
    · intro hx
      obtain ⟨e, _, he⟩ := hps.riemannErr a b n ha hb hx
      exact ⟨e, he⟩
  rw [key ul ur m h1 h2]
  refine exists_congr fun i => and_congr_right fun hi => ?_
  rw [key _ _ 1 rfl rfl]
  constructor
  · intro h
    refine ⟨0, by omega, ?_⟩
    convert h using 1
    · funext f; simp [fieldsAt]
    · funext f; simp [fieldsAt]
  · rintro ⟨j, hj, h⟩
    obtain rfl : j = 0 := by omega
    convert h using 1
    · funext f; simp [fieldsAt]
    · funext f; simp [fieldsAt]

/-- **C47 (advection).** -/
theorem C47_advection {K : Type*} [Field K] [LinearOrder K] (ul ur : Vec K) :
    ∃ q, (Advection.physics (K := K)).riemann ul ur = .ok q ∧ q.len = ul.len ∧ ∀ i, q.val i = ul.val i := ⟨_, rfl, rfl, fun _ => rfl⟩

end Dg1d.Props
