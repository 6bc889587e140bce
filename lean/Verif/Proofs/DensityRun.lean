import Verif.Proofs.Contact
import Verif.Proofs.Strict
import Verif.Proofs.Energy
import Verif.Model.Checked
import Verif.Props.Contact

/-! Helper lemmas: the density of a gas of uniform velocity and pressure, run as a scalar equation. -/

set_option linter.unusedSectionVars false

open Polynomial Dg1d.Spec Dg1d.Euler

namespace Dg1d
open Text

variable {γ v b P : ℝ} {s : Sol ℝ} {lib : GaussLib ℝ} {p : ℕ}

/-- The conserved variables of a gas with the densities `B`. -/
noncomputable def liftArr (v b : ℝ) (B : Arr ℝ) : Arr ℝ := ⟨B.rows, B.cols * 3, fun n c => drift v b (B.val n (c / 3)) (c % 3)⟩

/-- The densities of `s` alone: one field; its fastest signal is that of the gas. -/
noncomputable def Sol.rho (s : Sol ℝ) (γ v b : ℝ) : Sol ℝ :=
  { s with
    kw := { (Advection.physics : Physics ℝ) with maxWaveSpeed := fun B => Euler.maxWaveSpeed γ (liftArr v b B) }
    NF := 1
    u := ⟨s.u.rows, s.NE + 2, fun n e => s.u.val n (e * s.NF)⟩ }

/-- The same with the physics of linear advection. -/
noncomputable def Sol.adv (s : Sol ℝ) : Sol ℝ := { s with kw := Advection.physics }

lemma rho_built (h : s.Built lib p) : (s.rho γ v b).Built lib p where
  nodes := h.nodes
  gauss := h.gauss
  basis := h.basis
  NF := Nat.one_pos
  NE := h.NE
  rows := h.rows
  cols := (mul_one _).symm
  dx := h.dx
  minv := h.minv
  enh := h.enh

lemma adv_built (h : s.Built lib p) : s.adv.Built lib p where
  nodes := h.nodes
  gauss := h.gauss
  basis := h.basis
  NF := h.NF
  NE := h.NE
  rows := h.rows
  cols := h.cols
  dx := h.dx
  minv := h.minv
  enh := h.enh

lemma adv_like {a : Sol ℝ} (h : Like a s) : Like a.adv s.adv :=
  ⟨⟨h.setup.basis, rfl, h.setup.NE, h.setup.NF, h.setup.x, h.setup.xc, h.setup.dx, h.setup.scaledMinv, h.setup.bcl, h.setup.bcr, h.setup.enhance⟩, h.rows, h.cols⟩

lemma advArr_adv (s : Sol ℝ) (B : Arr ℝ) : advArr s.adv B = advArr s B := rfl

lemma bcArr_adv (s : Sol ℝ) (B : Arr ℝ) : bcArr s.adv B = bcArr s B := by
  unfold bcArr Sol.adv Sol.applyBc Sol.applyBcRight Sol.applyBcLeft
  split_ifs <;> rfl

lemma advLin_adv (s : Sol ℝ) (h : s.WF) (h' : s.adv.WF) : advLin s.adv h' = advLin s h := by
  ext w n c
  show (advArr s.adv (bcArr s.adv { s.u with val := w })).val n c = (advArr s (bcArr s { s.u with val := w })).val n c
  rw [bcArr_adv, advArr_adv]

/-- The residual of linear advection, entry by entry. -/
lemma advArr_val (h : s.Built lib p) (hen : s.enhance = none) {a : Sol ℝ} (ha : Like a s) {n : ℕ} (hn : n < p + 1) {e : ℕ} (h1 : 1 ≤ e) (h2 : e ≤ s.NE) :
    (advArr s (bcArr s a.u)).val n (e * s.NF) = s.rhoRes 1 (fun rL _ => rL) a.applyBc.u.val n e := by
  have hk : s.adv.kw = Advection.physics := rfl
  have hps : s.adv.kw.Pointwise (Advection.spec s.adv.NF) := Advection.pointwise _
  obtain ⟨-, r2⟩ := residual_like (adv_built h).wf (adv_like ha) hps
  obtain ⟨F, hF, -, -, hv, -⟩ := r2 fun i _ hf => hf
  have hr := advArr_residual (s := s.adv) rfl hen (adv_like ha).setup
  rw [hF] at hr
  injection hr with hr
  have hF' : F = advArr s.adv (bcArr s.adv a.adv.u) := congrArg Prod.snd hr
  rw [advArr_adv, bcArr_adv] at hF'
  have hu : a.adv.applyBc.u = a.applyBc.u := by
    unfold Sol.adv Sol.applyBc Sol.applyBcRight Sol.applyBcLeft
    split_ifs <;> rfl
  have := hv n (by show n < s.basis.Ns; rw [h.ns]; exact hn) e h1 h2 ⟨0, h.NF⟩
  rw [hF', hu] at this
  have e1 : (advArr s (bcArr s a.u)).val n (e * s.NF) = (advArr s (bcArr s a.adv.u)).val n (e * s.adv.NF + 0) := rfl
  rw [e1]
  refine this.trans ?_
  unfold Sol.rhoRes Sol.vol Sol.q Sol.face Sol.faceRho Sol.gaussRho Advection.spec
  simp only [one_mul]
  rfl

lemma bc_cell_two {s σ : Sol ℝ} (hb : s.BcKnown) (hl : σ.bcl = s.bcl) (hr : σ.bcr = s.bcr) (hN : σ.NE = s.NE) (hE : 0 < s.NE) (e : ℕ) (he : e ≤ s.NE + 1) :
    ∃ e', 1 ≤ e' ∧ e' ≤ s.NE ∧ (∀ f < s.NF, s.bcCol (e * s.NF + f) = e' * s.NF + f) ∧ ∀ f < σ.NF, σ.bcCol (e * σ.NF + f) = e' * σ.NF + f := by
  by_cases h0 : e = 0
  · subst h0
    by_cases hp : s.bcl.isLit "periodic"
    · exact ⟨s.NE, hE, le_rfl, fun f hf => by rw [zero_mul, zero_add, bcCol_left s hf, if_pos hp, add_comm],
        fun f hf => by rw [zero_mul, zero_add, bcCol_left σ hf, hl, if_pos hp, add_comm, hN]⟩
    · exact ⟨1, le_rfl, hE, fun f hf => by
        rw [zero_mul, zero_add, bcCol_left s hf, if_neg hp, if_pos (hb.1.resolve_left hp), one_mul, add_comm], fun f hf => by
        rw [zero_mul, zero_add, bcCol_left σ hf, hl, if_neg hp, if_pos (hb.1.resolve_left hp), one_mul, add_comm]⟩
  · by_cases h1 : e = s.NE + 1
    · subst h1
      by_cases hp : s.bcr.isLit "periodic"
      · exact ⟨1, le_rfl, hE, fun f hf => by rw [bcCol_right s hf, if_pos hp, one_mul], fun f hf => by rw [← hN, bcCol_right σ hf, hr, if_pos hp, one_mul]⟩
      · exact ⟨s.NE, hE, le_rfl, fun f hf => by
          rw [bcCol_right s hf, if_neg hp, if_pos (hb.2.resolve_left hp)], fun f hf => by
          rw [← hN, bcCol_right σ hf, hr, if_neg hp, if_pos (hb.2.resolve_left hp)]⟩
    · exact ⟨e, by omega, by omega, fun f hf => bcCol_interior s (by omega) (by omega) hf, fun f hf => bcCol_interior σ (by omega) (by omega) hf⟩

/-- The scalar equation `ρ_t + v ρ_x = 0` on the densities, limiter off. -/
noncomputable def rhoEnv (σ : Sol ℝ) (v : ℝ) : Env ℝ := ⟨fun a => .ok (a.applyBc, (advArr σ (bcArr σ a.u)).smul v), Limiter.limit none⟩

/-- Some interface density is not positive or some density at a quadrature point is zero. -/
def BadDensity (σ : Sol ℝ) (p : ℕ) (a : Sol ℝ) : Prop :=
  (∃ g < p + 1, ∃ e ≤ σ.NE + 1, σ.gaussRho a.applyBc.u.val e g = 0) ∨
  ∃ i < σ.NE + 1, ¬ (0 < σ.faceRho 1 a.applyBc.u.val i ∧ 0 < σ.faceRho 0 a.applyBc.u.val i)

open Classical in
/-- The same, stopped at densities the gas cannot have. -/
noncomputable def rhoEnvChecked (σ : Sol ℝ) (p : ℕ) (v : ℝ) : Env ℝ :=
  ⟨fun a => if BadDensity σ p a then .error .notReal else (rhoEnv σ v).residual a, Limiter.limit none⟩

lemma rhoEnv_strict (σ : Sol ℝ) (p : ℕ) (v : ℝ) : (rhoEnvChecked σ p v).Stricter (rhoEnv σ v) :=
  ⟨rfl, fun a x hx => by
    unfold rhoEnvChecked at hx
    simp only at hx
    split_ifs at hx
    exact hx⟩

/-- Solutions during the stages: the gas `a` and its densities `d`. -/
structure RhoRel (s : Sol ℝ) (p : ℕ) (γ v b : ℝ) (a d : Sol ℝ) : Prop where
  gas : Like a s
  den : Like d (s.rho γ v b)
  drift : Drifting s.NF (p + 1) 1 s.NE v b a.u.val
  eq : ∀ n < p + 1, ∀ e, 1 ≤ e → e ≤ s.NE → d.u.val n e = a.u.val n (e * s.NF)

/-- At the head of the loop the averages in the ghost cells correspond as well. -/
structure RhoHead (s : Sol ℝ) (p : ℕ) (γ v b : ℝ) (a d : Sol ℝ) : Prop extends RhoRel s p γ v b a d where
  mean : ∀ e ≤ s.NE + 1, ∀ f < s.NF, a.u.val 0 (e * s.NF + f) = Dg1d.drift v b (d.u.val 0 e) f

lemma rho_fill (h : s.Built lib p) (hk : s.BcKnown) {a d : Sol ℝ} (hr : RhoRel s p γ v b a d) {n : ℕ} (hn : n < p + 1) {e : ℕ} (he : e ≤ s.NE + 1) :
    d.applyBc.u.val n e = a.applyBc.u.val n (e * s.NF) ∧ ∀ f < s.NF, a.applyBc.u.val n (e * s.NF + f) = drift v (if n = 0 then b else 0) (d.applyBc.u.val n e) f := by
  obtain ⟨e', h1, h2, h3, h4⟩ := bc_cell_two (s := s) (σ := s.rho γ v b) hk rfl rfl rfl h.NE e he
  have hd := hr.den.applyBc_val (rho_built h).wf n e
  have h5 := h4 0 Nat.one_pos
  have h5 : (s.rho γ v b).bcCol (e * 1 + 0) = e' * 1 + 0 := h5
  rw [add_zero, add_zero, mul_one, mul_one] at h5
  rw [hd, h5, hr.eq n hn e' h1 h2]
  refine ⟨?_, fun f hf => ?_⟩
  · have := hr.gas.applyBc_val h.wf n (e * s.NF + 0)
    rw [h3 0 h.NF] at this
    exact this.symm
  · rw [hr.gas.applyBc_val h.wf, h3 f hf]
    exact hr.drift n hn e' h1 h2 f hf

lemma rho_face (h : s.Built lib p) (hk : s.BcKnown) {a d : Sol ℝ} (hr : RhoRel s p γ v b a d) (side : ℕ) {i : ℕ} (hi : i ≤ s.NE) :
    (s.rho γ v b).faceRho side d.applyBc.u.val i = s.faceRho side a.applyBc.u.val i := by
  unfold Sol.faceRho
  refine Finset.sum_congr rfl fun n hn => ?_
  have hn : n < p + 1 := by rw [← h.ns]; exact Finset.mem_range.mp hn
  show (s.faceW side false n * d.applyBc.u.val n (i * 1) + s.faceW side true n * d.applyBc.u.val n ((i + 1) * 1)) = _
  rw [mul_one, mul_one, (rho_fill h hk hr hn (by omega : i ≤ s.NE + 1)).1, (rho_fill h hk hr hn (by omega : i + 1 ≤ s.NE + 1)).1]

lemma rho_gauss (h : s.Built lib p) (hk : s.BcKnown) {a d : Sol ℝ} (hr : RhoRel s p γ v b a d) {e : ℕ} (he : e ≤ s.NE + 1) (g : ℕ) :
    (s.rho γ v b).gaussRho d.applyBc.u.val e g = s.gaussRho a.applyBc.u.val e g := by
  unfold Sol.gaussRho
  refine Finset.sum_congr rfl fun n hn => ?_
  have hn : n < p + 1 := by rw [← h.ns]; exact Finset.mem_range.mp hn
  show s.basis.phi.val g n * d.applyBc.u.val n (e * 1) = _
  rw [mul_one, (rho_fill h hk hr hn he).1]

lemma rho_res (h : s.Built lib p) (hk : s.BcKnown) {a d : Sol ℝ} (hr : RhoRel s p γ v b a d) (mass : ℝ → ℝ → ℝ) (w : ℝ) (n : ℕ) {e : ℕ} (h1 : 1 ≤ e) (h2 : e ≤ s.NE) :
    (s.rho γ v b).rhoRes w mass d.applyBc.u.val n e = s.rhoRes w mass a.applyBc.u.val n e := by
  unfold Sol.rhoRes
  rw [rho_face h hk hr 1 h2, rho_face h hk hr 0 h2, rho_face h hk hr 1 (by omega : e - 1 ≤ s.NE), rho_face h hk hr 0 (by omega : e - 1 ≤ s.NE)]
  have : ∀ g ∈ Finset.range s.basis.NG, (s.rho γ v b).basis.dphiW.val n g * (w * (s.rho γ v b).gaussRho d.applyBc.u.val e g) =
      s.basis.dphiW.val n g * (w * s.gaussRho a.applyBc.u.val e g) := fun g _ => by rw [rho_gauss h hk hr (by omega)]; rfl
  show (∑ g ∈ Finset.range s.basis.NG, _ - _) * s.scaledMinv.val n = _
  rw [Finset.sum_congr rfl this]

lemma rhoRes_upwind (s : Sol ℝ) {v : ℝ} (hv : 0 ≤ v) (u : ℕ → ℕ → ℝ) (n e : ℕ) : s.rhoRes v (upwindMass v) u n e = v * s.rhoRes 1 (fun rL _ => rL) u n e := by
  unfold Sol.rhoRes upwindMass
  simp only [if_pos hv, one_mul]
  have : ∑ g ∈ Finset.range s.basis.NG, s.basis.dphiW.val n g * (v * s.gaussRho u e g) = v * ∑ g ∈ Finset.range s.basis.NG, s.basis.dphiW.val n g * s.gaussRho u e g := by
    rw [Finset.mul_sum]
    exact Finset.sum_congr rfl fun g _ => by ring
  rw [this]
  split_ifs <;> ring

lemma rho_wave (h : s.Built lib p) (hF : s.NF = 3) {a d : Sol ℝ} (hr : RhoHead s p γ v b a d) (name : String) :
    (Euler.physics γ name).maxWaveSpeed a.u = Euler.maxWaveSpeed γ (liftArr v b d.u) := by
  have hcells : ∀ i < s.NE + 2, fieldsAt 3 (a.u.val 0) i = fieldsAt 3 ((liftArr v b d.u).val 0) i := by
    intro i hi
    funext f
    have := hr.mean i (by omega) f (by rw [hF]; exact f.2)
    rw [hF] at this
    show a.u.val 0 (i * 3 + f) = drift v b (d.u.val 0 ((i * 3 + f) / 3)) ((i * 3 + f) % 3)
    rw [this, show (i * 3 + (f : ℕ)) / 3 = i by omega, show (i * 3 + (f : ℕ)) % 3 = f by omega]
  refine waveCells γ name a.u (liftArr v b d.u) (s.NE + 2) ?_ ?_ (fun i hi => ⟨i, hi, hcells i hi⟩) (fun i hi => ⟨i, hi, hcells i hi⟩)
  · rw [hr.gas.cols, h.cols, hF]
  · show d.u.cols * 3 = _
    rw [hr.den.cols]
    rfl

/-- The gas and its densities run side by side. -/
lemma rho_simulates (hγ : 1 < γ) (h : s.Built lib p) {riemann : Str} (hp : Props.CodePhysics γ "euler".toList riemann s) (hname : riemann ≠ "rusanov".toList)
    (hk : s.BcKnown) (hen : s.enhance = none) (hv : 0 ≤ v) (hP : 0 < P) :
    Simulates (fun _ _ => True) ⟨checkedResidual, Limiter.limit none⟩ (rhoEnvChecked (s.rho γ v (P / (γ - 1))) p v)
      (RhoRel s p γ v (P / (γ - 1))) (RhoHead s p γ v (P / (γ - 1)))
      (fun F G => Drifting s.NF (p + 1) 1 s.NE v 0 F.val ∧ ∀ n < p + 1, ∀ e, 1 ≤ e → e ≤ s.NE → G.val n e = F.val n (e * s.NF)) := by
  obtain ⟨hkw, hF⟩ := hp.euler rfl
  obtain ⟨ps, hps, hdr, hfail⟩ := Props.euler_drift hγ hF (String.ofList riemann) hP v
  rw [← hkw] at hps
  have hmass : contactMass γ (String.ofList riemann) v P = upwindMass v := by
    funext rL rR
    unfold contactMass
    rw [if_neg]
    intro h
    apply hname
    rw [← h, String.toList_ofList]
  rw [hmass] at hdr
  have hbc : ∀ x y, RhoRel s p γ v (P / (γ - 1)) x y → RhoHead s p γ v (P / (γ - 1)) x.applyBc y.applyBc := by
    intro x y hxy
    refine ⟨⟨hxy.gas.applyBc, hxy.den.applyBc, fun n hn e h1 h2 => drifting_fill h hxy.gas hk hxy.drift n hn e (by omega) (by omega), fun n hn e h1 h2 =>
      (rho_fill h hk hxy hn (by omega)).1⟩, fun e he f hf => ?_⟩
    rw [(rho_fill h hk hxy (Nat.succ_pos p) he).2 f hf, if_pos rfl]
  exact
    { errRefl := fun _ => trivial
      zero := fun x y _ => ⟨fun n _ e _ _ f _ => by simp [Arr.zeros, drift], fun n _ e _ _ => by simp [Arr.zeros]⟩
      smul := fun c F G hFG => ⟨fun n hn e h1 h2 f hf => by
          simp only [Arr.smul]
          rw [hFG.1 n hn e h1 h2 f hf, drift_mul, ite_self, mul_zero],
        fun n hn e h1 h2 => by simp only [Arr.smul]; rw [hFG.2 n hn e h1 h2]⟩
      axpy := by
        intro c x y F G hxy hFG
        refine ⟨hxy.gas.axpy c F, hxy.den.axpy c G, fun n hn e h1 h2 f hf => ?_, fun n hn e h1 h2 => ?_⟩
        · simp only [Arr.add, Arr.smul]
          rw [hxy.drift n hn e h1 h2 f hf, hFG.1 n hn e h1 h2 f hf, drift_mul, drift_add, ite_self, mul_zero, add_zero]
        · simp only [Arr.add, Arr.smul]
          rw [hxy.eq n hn e h1 h2, hFG.2 n hn e h1 h2]
      copy := fun w w' x y hw hx => ⟨hw.gas.copy hx.gas, hw.den.copy hx.den, hx.drift, hx.eq⟩
      clock := fun x y c m hx => ⟨hx.gas.clock _ _, hx.den.clock _ _, hx.drift, hx.eq⟩
      head := fun x y hx => hx.toRhoRel
      bc := hbc
      cfl := by
        intro x y c hxy
        have hw := rho_wave h hF hxy (String.ofList riemann)
        unfold cflTimeStep
        rw [hxy.gas.setup.kw, hkw, hw, hxy.gas.setup.dx, hxy.gas.setup.basis, hxy.den.setup.kw, hxy.den.setup.dx, hxy.den.setup.basis]
        rfl
      headLimit := fun x y hx ht hn => ⟨hx, ht, hn⟩
      stageLimit := fun x y hx => hx
      res := by
        intro x y hxy
        have hvac : VacuumPoint x ↔ ∃ g < p + 1, ∃ e ≤ s.NE + 1, (s.rho γ v (P / (γ - 1))).gaussRho y.applyBc.u.val e g = 0 := by
          rw [Props.vacuum_gaussRho h hxy.gas hF]
          constructor
          · rintro ⟨g, hg, e, he, h0⟩
            exact ⟨g, hg, e, he, by rw [rho_gauss h hk hxy he]; exact h0⟩
          · rintro ⟨g, hg, e, he, h0⟩
            exact ⟨g, hg, e, he, by rw [rho_gauss h hk hxy he] at h0; exact h0⟩
        show ExRel _ _ (checkedResidual x) ((rhoEnvChecked (s.rho γ v (P / (γ - 1))) p v).residual y)
        unfold checkedResidual rhoEnvChecked
        simp only
        by_cases hbad : VacuumPoint x
        · rw [if_pos hbad, if_pos (.inl (hvac.mp hbad))]
          trivial
        rw [if_neg hbad]
        have hng : ∀ e, 1 ≤ e → e ≤ s.NE → ∀ g < p + 1, s.gaussRho x.u.val e g ≠ 0 := by
          intro e h1 h2 g hg h0
          rw [Props.vacuum_gaussRho h hxy.gas hF] at hbad
          refine hbad ⟨g, hg, e, by omega, ?_⟩
          rw [← h0]
          unfold Sol.gaussRho
          refine Finset.sum_congr rfl fun k _ => ?_
          have := bcCol_interior s h1 h2 h.NF
          rw [hxy.gas.applyBc_val h.wf, show e * s.NF = e * s.NF + 0 from rfl, this]
        obtain ⟨r1, r2⟩ := residual_drift h hxy.gas ps hps hdr (fun en he => by rw [hen] at he; cases he) hk hxy.drift hng
        by_cases hfl : ∃ i < s.NE + 1, ps.fails (fun f => drift v (P / (γ - 1)) (s.faceRho 1 x.applyBc.u.val i) f)
            (fun f => drift v (P / (γ - 1)) (s.faceRho 0 x.applyBc.u.val i) f)
        · obtain ⟨e, -, he⟩ := r1 hfl
          rw [he, if_pos]
          · trivial
          · right
            obtain ⟨i, hi, hf⟩ := hfl
            refine ⟨i, hi, ?_⟩
            rw [rho_face h hk hxy 1 (by omega), rho_face h hk hxy 0 (by omega), ← hfail]
            exact not_not.mpr hf
        · push Not at hfl
          obtain ⟨F, hF', -, -, hD, hval⟩ := r2 hfl
          rw [hF', if_neg]
          · refine ⟨(hbc x y hxy).toRhoRel, hD, fun n hn e h1 h2 => ?_⟩
            rw [hval n hn e h1 h2, rhoRes_upwind s hv, ← rho_res h hk hxy _ _ n h1 h2]
            have := advArr_val (rho_built (γ := γ) (v := v) (b := P / (γ - 1)) h) hen hxy.den hn h1 h2
            rw [show (s.rho γ v (P / (γ - 1))).NF = 1 from rfl, mul_one] at this
            rw [← this]
            rfl
          · rintro (hb | ⟨i, hi, hb⟩)
            · exact hbad (hvac.mpr hb)
            · refine hb ?_
              rw [rho_face h hk hxy 1 (by have : i < s.NE + 1 := hi; omega), rho_face h hk hxy 0 (by have : i < s.NE + 1 := hi; omega), ← hfail]
              exact hfl i hi }

end Dg1d
