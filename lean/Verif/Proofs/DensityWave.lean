import Verif.Proofs.DensityRun
import Verif.Proofs.StageClose
import Verif.Proofs.StageAgree
import Verif.Props.RunsLimited

/-! Helper lemmas: the density of a gas of uniform velocity and pressure follows the travelling wave. -/

set_option linter.unusedSectionVars false

open Polynomial Dg1d.Spec Dg1d.Euler

namespace Dg1d.Props
open Text

variable {γ v b P : ℝ} {s : Sol ℝ} {lib : GaussLib ℝ} {p : ℕ}

lemma rhoEnv_clock (σ : Sol ℝ) (v : ℝ) : (rhoEnv σ v).KeepsClock := by
  intro a b h
  cases h
  exact ⟨rfl, rfl⟩

/-- One iteration of 'rk3' for the scalar equation is a Taylor step of length `v dt` of the advection operator. -/
lemma rho_step (hb : s.Built lib p) (v : ℝ) (deck : RkDeck ℝ) (hrk : deck.rk = "rk3") (k : ℕ)
    (hlike : Like (integrate (rhoEnv s v) deck s k).sol s) {dt : ℝ} {o d : Bool} (hrun : (integrate (rhoEnv s v) deck s k).status = .running)
    (hdt : getNextTimeStep (integrate (rhoEnv s v) deck s k).sol (integrate (rhoEnv s v) deck s k).tout deck.cfl deck.finaltime = .ok (dt, o, d)) :
    (integrate (rhoEnv s v) deck s (k + 1)).sol.t = (integrate (rhoEnv s v) deck s k).sol.t + dt ∧
    Like (integrate (rhoEnv s v) deck s (k + 1)).sol s ∧
    ∀ n, ∀ e, 1 ≤ e → e ≤ s.NE → ∀ f < s.NF, (integrate (rhoEnv s v) deck s (k + 1)).sol.u.val n (e * s.NF + f) =
      (∑ m ∈ Finset.range (3 + 1), ((v * dt) ^ m / (m.factorial : ℝ)) • (advLin s hb.wf ^ m) (integrate (rhoEnv s v) deck s k).sol.u.val) n (e * s.NF + f) := by
  set run := integrate (rhoEnv s v) deck s with hrundef
  have hR : ∀ a, SameSetup a s → ∃ s', (rhoEnv s v).residual a = .ok (s', (fun u => (advArr s (bcArr s u)).smul v) a.u) ∧ SameSetup s' s :=
    fun a ha => ⟨_, rfl, (applyBc_setup a).trans ha⟩
  have hu : ∀ w : ℕ → ℕ → ℝ, ({ (run k).sol.u with val := w } : Arr ℝ) = { s.u with val := w } := by
    intro w
    obtain ⟨h1, h2⟩ := (⟨hlike.rows, hlike.cols⟩ : _ ∧ _)
    cases hu : (run k).sol.u
    cases hs : s.u
    simp only [hu, hs] at h1 h2
    simp only [h1, h2]
  have hst := C09_integrate_step (rhoEnv s v) deck s (fun u => (advArr s (bcArr s u)).smul v) (by rw [hrk]; simp) (fun _ => rfl) hR k dt o d hrun hdt
    (v • advLin s hb.wf) (fun w => by
      show ((advArr s (bcArr s { (run k).sol.u with val := w })).smul v).val = _
      rw [hu]; rfl)
  simp only at hst
  have hst : (run (k + 1)).sol = _ := hst
  rw [show (integrate (rhoEnv s v) deck s k) = run k from rfl, show promisedOrder deck.rk = 3 by rw [hrk]; rfl] at hst
  have hw : ∑ m ∈ Finset.range (3 + 1), (dt ^ m / (m.factorial : ℝ)) • ((v • advLin s hb.wf) ^ m) (run k).sol.u.val =
      ∑ m ∈ Finset.range (3 + 1), ((v * dt) ^ m / (m.factorial : ℝ)) • (advLin s hb.wf ^ m) (run k).sol.u.val := by
    refine Finset.sum_congr rfl fun m _ => ?_
    rw [smul_pow, LinearMap.smul_apply, smul_smul, mul_pow]
    congr 1
    ring
  rw [hw] at hst
  set w := ∑ m ∈ Finset.range (3 + 1), ((v * dt) ^ m / (m.factorial : ℝ)) • (advLin s hb.wf ^ m) (run k).sol.u.val
  have hlw : Like ({ (run k).sol with u := { (run k).sol.u with val := w }, t := (run k).sol.t + dt, n := (run k).sol.n + 1 } : Sol ℝ) s :=
    ⟨SameSetup.trans (by constructor <;> rfl) hlike.setup, hlike.rows, hlike.cols⟩
  refine ⟨by rw [hst]; exact (applyBc_clock _).1, by rw [hst]; exact hlw.applyBc, ?_⟩
  intro n e h1 h2 f hf
  rw [hst, hlw.applyBc_val hb.wf, bcCol_interior s h1 h2 hf]

/-- The fastest signal of a gas is at least its velocity. -/
lemma lift_speed {B : Arr ℝ} {c : ℝ} (hB : 0 < B.cols) (h : Euler.maxWaveSpeed γ (liftArr v b B) = .ok (.fin c)) : |v| ≤ c := by
  obtain ⟨h1, h2⟩ := maxWaveSpeed_eq γ (liftArr v b B) B.cols rfl hB
  by_cases hf : ∃ i < B.cols, ¬ (stOf (fieldsAt 3 ((liftArr v b B).val 0) i)).IsReal γ
  · rw [h1 hf] at h
    cases h
  push Not at hf
  obtain ⟨c', hc, h3, -⟩ := h2 hf
  rw [hc] at h
  cases h
  refine le_trans ?_ (h3 0 hB)
  have hr := (hf 0 hB).1
  have e0 : (stOf (fieldsAt 3 ((liftArr v b B).val 0) 0)).rho = B.val 0 0 := by
    show drift v b (B.val 0 ((0 * 3 + 0) / 3)) ((0 * 3 + 0) % 3) = _
    simp [drift]
  have e1 : (stOf (fieldsAt 3 ((liftArr v b B).val 0) 0)).m = v * B.val 0 0 := by
    show drift v b (B.val 0 ((0 * 3 + 1) / 3)) ((0 * 3 + 1) % 3) = _
    simp [drift]
  have e2 : (stOf (fieldsAt 3 ((liftArr v b B).val 0) 0)).v = v := by
    unfold St.v
    rw [e0, e1]
    rw [e0] at hr
    field_simp
  unfold St.speed
  rw [e2]
  have : 0 ≤ (stOf (fieldsAt 3 ((liftArr v b B).val 0) 0)).a γ := Real.sqrt_nonneg _
  linarith

/-- A step carries the gas over at most `dx cfl / (2p+1)`. -/
lemma rho_dt (hdx : 0 ≤ s.dx) {a : Sol ℝ} (ha : Like a (s.rho γ v b)) (hv : 0 ≤ v) {tout cfl tf dt : ℝ} {o d : Bool} (hcfl : 0 ≤ cfl)
    (h : getNextTimeStep a tout cfl tf = .ok (dt, o, d)) : v * dt ≤ s.dx * cfl / (2 * (s.basis.p : ℝ) + 1) := by
  have hcols : 0 < a.u.cols := by rw [ha.cols]; exact Nat.succ_pos _
  have hw : a.kw.maxWaveSpeed a.u = Euler.maxWaveSpeed γ (liftArr v b a.u) := by rw [ha.setup.kw]; rfl
  have hpos : (0 : ℝ) < 2 * (s.basis.p : ℝ) + 1 := by positivity
  have hh : 0 ≤ s.dx * cfl / (2 * (s.basis.p : ℝ) + 1) := by positivity
  unfold getNextTimeStep cflTimeStep at h
  rw [hw] at h
  cases hm : Euler.maxWaveSpeed γ (liftArr v b a.u) with
  | error e => rw [hm] at h; cases h
  | ok w =>
    cases w with
    | nan => rw [hm] at h; cases h
    | fin c =>
      have hc := lift_speed hcols hm
      rw [abs_of_nonneg hv] at hc
      rw [hm, ha.setup.dx, ha.setup.basis, show (s.rho γ v b).dx = s.dx from rfl, show (s.rho γ v b).basis = s.basis from rfl] at h
      simp only at h
      by_cases hden : c * (2 * (s.basis.p : ℝ) + 1) = 0
      · have : c = 0 := (mul_eq_zero.mp hden).resolve_right hpos.ne'
        have : v = 0 := by linarith
        rw [this, zero_mul]; exact hh
      rw [if_neg hden] at h
      simp only at h
      split at h
      · cases h
      · simp only [Except.ok.injEq] at h
        have hle : dt ≤ s.dx * cfl / (c * (2 * (s.basis.p : ℝ) + 1)) := by
          unfold adjustForOutput at h
          split_ifs at h with h1 h2 <;> cases h
          · exact h1.le
          · exact h2.le
          · exact le_rfl
        have hc0 : 0 < c := lt_of_le_of_ne (by linarith) (by rintro rfl; simp at hden)
        have h2 : v * dt ≤ v * (s.dx * cfl / (c * (2 * (s.basis.p : ℝ) + 1))) := mul_le_mul_of_nonneg_left hle hv
        refine h2.trans ?_
        rw [show v * (s.dx * cfl / (c * (2 * (s.basis.p : ℝ) + 1))) = v / c * (s.dx * cfl / (2 * (s.basis.p : ℝ) + 1)) by field_simp]
        exact mul_le_of_le_one_left hh ((div_le_one hc0).mpr hc)

lemma rho_cell {a d : Sol ℝ} (hb : s.Built lib p) (hr : RhoRel s p γ v b a d) {e : ℕ} (h1 : 1 ≤ e) (h2 : e ≤ s.NE) : cellPoly d e 0 = cellPoly a e 0 := by
  unfold cellPoly
  rw [hr.den.rows, hr.den.setup.NF, hr.gas.rows, hr.gas.setup.NF, show (s.rho γ v b).u.rows = p + 1 from hb.rows, hb.rows, show (s.rho γ v b).NF = 1 from rfl]
  have : ∀ n ∈ Finset.range (p + 1), C (d.u.val n (e * 1 + 0)) * legendre ℝ n = C (a.u.val n (e * s.NF + 0)) * legendre ℝ n := by
    intro n hn
    rw [mul_one, add_zero, add_zero, hr.eq n (Finset.mem_range.mp hn) e h1 h2]
  exact Finset.sum_congr rfl this

lemma rho_l2 {a d : Sol ℝ} (hb : s.Built lib p) (hr : RhoRel s p γ v b a d) (u : ℝ → ℝ) : l2Error a 0 u = l2Error d 0 u := by
  unfold l2Error
  rw [hr.den.setup.NE, hr.den.setup.x, hr.den.setup.xc, hr.den.setup.dx, hr.gas.setup.NE, hr.gas.setup.x, hr.gas.setup.xc, hr.gas.setup.dx]
  refine congrArg _ (Finset.sum_congr rfl fun e he => ?_)
  rw [Finset.mem_Icc] at he
  rw [rho_cell hb hr he.1 he.2]
  rfl

lemma rho_start (hb : s.Built lib p) (hk : s.BcKnown) (hg : GhostsAgree s) (hd : Drifting s.NF (p + 1) 1 s.NE v b s.u.val) :
    RhoHead s p γ v b s (s.rho γ v b) := by
  refine ⟨⟨Like.refl s, Like.refl _, hd, fun n _ e _ _ => rfl⟩, fun e he f hf => ?_⟩
  show s.u.val 0 (e * s.NF + f) = drift v b (s.u.val 0 (e * s.NF)) f
  have h0 : ∀ e, 1 ≤ e → e ≤ s.NE → ∀ f < s.NF, s.u.val 0 (e * s.NF + f) = drift v b (s.u.val 0 (e * s.NF + 0)) f := by
    intro e h1 h2 f hf
    have := hd 0 (Nat.succ_pos p) e h1 h2 f hf
    rwa [if_pos rfl] at this
  have hr0 : 0 < s.u.rows := by rw [hb.rows]; exact Nat.succ_pos p
  have hlit : ∀ (B : PyStr) (n : String), B.isLit n → B = .lit n := by
    rintro ⟨i, w⟩ n ⟨h1, h2⟩
    simp only at h1 h2
    subst h1 h2
    rfl
  by_cases e0 : e = 0
  · subst e0
    obtain ⟨a1, a2, -, -⟩ := hg 0 hr0 f hf
    obtain ⟨b1, b2, -, -⟩ := hg 0 hr0 0 hb.NF
    simp only [zero_mul, zero_add]
    rcases hk.1 with h | h
    · rw [a1 (hlit _ _ h), b1 (hlit _ _ h)]; exact h0 s.NE hb.NE le_rfl f hf
    · rw [a2 (hlit _ _ h), b2 (hlit _ _ h)]; exact h0 1 le_rfl hb.NE f hf
  by_cases e1 : e = s.NE + 1
  · subst e1
    obtain ⟨-, -, a1, a2⟩ := hg 0 hr0 f hf
    obtain ⟨-, -, b1, b2⟩ := hg 0 hr0 0 hb.NF
    rw [show s.u.val 0 ((s.NE + 1) * s.NF) = s.u.val 0 ((s.NE + 1) * s.NF + 0) from rfl]
    rcases hk.2 with h | h
    · rw [a1 (hlit _ _ h), b1 (hlit _ _ h)]; exact h0 1 le_rfl hb.NE f hf
    · rw [a2 (hlit _ _ h), b2 (hlit _ _ h)]; exact h0 s.NE hb.NE le_rfl f hf
  · exact h0 e (by omega) (by omega) f hf

lemma rho_cell_start (s : Sol ℝ) (e : ℕ) : cellPoly (s.rho γ v b) e 0 = cellPoly s e 0 := by
  unfold cellPoly
  show legSeries s.u.rows (fun n => s.u.val n ((e * 1 + 0) * s.NF)) = legSeries s.u.rows (fun n => s.u.val n (e * s.NF + 0))
  simp only [mul_one, add_zero]

lemma rho_ghosts (hb : s.Built lib p) (hg : GhostsAgree s) : GhostsAgree (s.rho γ v b) := by
  intro r hr' f hf
  obtain ⟨g1, g2, g3, g4⟩ := hg r hr' 0 hb.NF
  have hf : f = 0 := by have : f < 1 := hf; omega
  subst hf
  simp only [add_zero] at g1 g2 g3 g4
  refine ⟨fun h => ?_, fun h => ?_, fun h => ?_, fun h => ?_⟩
  · show s.u.val r (0 * s.NF) = s.u.val r ((s.NE * 1 + 0) * s.NF)
    rw [zero_mul, mul_one, add_zero]; exact g1 h
  · show s.u.val r (0 * s.NF) = s.u.val r ((1 * 1 + 0) * s.NF)
    rw [zero_mul]; exact g2 h
  · show s.u.val r (((s.NE + 1) * 1 + 0) * s.NF) = s.u.val r ((1 * 1 + 0) * s.NF)
    rw [mul_one, add_zero]; exact g3 h
  · show s.u.val r (((s.NE + 1) * 1 + 0) * s.NF) = s.u.val r ((s.NE * 1 + 0) * s.NF)
    rw [mul_one, add_zero, mul_one, add_zero]; exact g4 h

/-- The scalar run keeps its discretisation and fills its ghost cells. -/
lemma rho_inv (hb : s.Built lib p) (v : ℝ) (hg : GhostsAgree s) (deck : RkDeck ℝ) (k : ℕ) :
    let r := integrate (rhoEnv s v) deck s k
    Like r.sol s ∧ GhostsAgree r.sol ∧ SameSetup r.work s := by
  have inv : Invariant (rhoEnv s v) (fun a => Like a s) (fun a => Like a s ∧ GhostsAgree a) (fun _ => True) :=
    { zero := fun _ _ => trivial
      smul := fun _ _ _ => trivial
      axpy := fun a x A hx _ => hx.axpy a A
      copy := fun w x hw hx => hw.copy hx
      clock := fun x a m hx => hx.clock _ _
      head := fun _ hx => hx.1
      bc := fun a ha => ⟨ha.applyBc, ghosts_applyBc (ha.built hb).NF (ha.built hb).NE (ha.built hb).cols⟩
      headLimit := fun a b ha hb => by cases hb; exact ha
      stageLimit := fun a b ha hb => by cases hb; exact ha
      res := fun a b A ha hb => by cases hb; exact ⟨ha.applyBc, trivial⟩ }
  have := inv.sim.run deck (schemeFor deck.rk) ⟨rfl, Like.refl s, hg⟩ rfl rfl k
  exact ⟨this.sol.2.1, this.sol.2.2, this.work.2.setup⟩

/-- The densities follow the travelling wave. -/
lemma rho_sequence (hlib : lib.Ok) (p : ℕ) (ρ0 : ℝ → ℝ) (hu : ContDiff ℝ (p + 4 : ℕ) ρ0) (A L T : ℝ) (hL : 0 < L) (hper : ∀ y, ρ0 (y + L) = ρ0 y) (hT : 0 ≤ T) :
    ∃ C : ℝ, 0 ≤ C ∧ ∀ (s : Sol ℝ), s.Built lib p → s.enhance = none → s.bcl = .lit "periodic" → s.bcr = .lit "periodic" → GhostsAgree s →
      IsUniformMesh A (A + L) s.NE s.x.val s.xc.val s.dx → ∀ (hdx : 0 < s.dx),
      (∀ e, 1 ≤ e → e ≤ s.NE → ∀ g < p + 1, (cellPoly s e 0).eval ((lib (p + 1)).1.val g) = ρ0 (physPoint (s.x.val (e - 1)) (s.x.val e) ((lib (p + 1)).1.val g))) →
      ∀ (γ v b : ℝ), 0 ≤ v → ∀ (deck : RkDeck ℝ), deck.rk = "rk3" →
      0 ≤ deck.cfl → deck.cfl ≤ (2 * p + 1) / (3 * (p + 1) ^ 2) → s.t ≤ deck.finaltime → v * (deck.finaltime - s.t) ≤ T →
      ∀ k, let a := (integrate (rhoEnv (s.rho γ v b) v) deck (s.rho γ v b) k).sol
        Approx.enorm (s.rho γ v b).adv p 0 hdx.le (a.u.val - Approx.radArr (s.rho γ v b).adv p A (Approx.wave ρ0 (v * (a.t - s.t)) 0)) ≤
          C * (s.dx ^ (p + 1) + (s.dx * deck.cfl / (2 * p + 1)) ^ 3) ∧
        l2Error a 0 (fun x => ρ0 (x - v * (a.t - s.t))) ≤ C * (s.dx ^ (p + 1) + (s.dx * deck.cfl / (2 * p + 1)) ^ 3) := by
  obtain ⟨C, hC, key⟩ := taylor_sequence hlib p ρ0 hu A L T hL hper hT
  refine ⟨C, hC, ?_⟩
  intro s hb hen hl hr hg hm hdx hinit γ v b hv deck hrk hcfl0 hcfl ht hTd k
  set h := s.dx * deck.cfl / (2 * (p : ℝ) + 1) with hh
  have hh0 : 0 ≤ h := by positivity
  have hhdx : 3 * ((p : ℝ) + 1) ^ 2 * h ≤ s.dx := by
    have hpos : (0 : ℝ) < 2 * p + 1 := by positivity
    have hpos2 : (0 : ℝ) < 3 * (p + 1) ^ 2 := by positivity
    rw [le_div_iff₀ hpos2] at hcfl
    rw [hh, ← mul_div_assoc, div_le_iff₀ hpos]
    nlinarith
  obtain ⟨σ, hσ⟩ : ∃ σ, σ = s.rho γ v b := ⟨_, rfl⟩
  have hbσ : σ.Built lib p := by rw [hσ]; exact rho_built hb
  have hkc := rhoEnv_clock σ v
  have hdxσ : σ.dx = s.dx := by rw [hσ]; rfl
  have hgσ : GhostsAgree σ := by rw [hσ]; exact rho_ghosts hb hg
  have htσ : σ.t = s.t := by rw [hσ]; rfl
  set run := fun k => integrate (rhoEnv σ v) deck σ k with hrun
  have h00 : (run 0).sol = σ := integrate_zero_sol _ deck σ
  have hlike : ∀ k, Like (run k).sol σ := fun k => (rho_inv hbσ v hgσ deck k).1
  have hinitσ : ∀ e, 1 ≤ e → e ≤ σ.adv.NE → ∀ g < p + 1, (cellPoly σ.adv e 0).eval ((lib (p + 1)).1.val g) =
      ρ0 (physPoint (σ.adv.x.val (e - 1)) (σ.adv.x.val e) ((lib (p + 1)).1.val g)) := by
    intro e h1 h2 g hg
    have h3 : cellPoly σ.adv e 0 = cellPoly s e 0 := by rw [hσ]; exact rho_cell_start (γ := γ) (v := v) (b := b) s e
    rw [h3, hσ]
    rw [hσ] at h2
    exact hinit e h1 h2 g hg
  have hmσ : IsUniformMesh A (A + L) σ.adv.NE σ.adv.x.val σ.adv.xc.val σ.adv.dx := by rw [hσ]; exact hm
  have main := key σ.adv (adv_built hbσ) rfl (by rw [hσ]; exact hen) (by rw [hσ]; exact hl) (by rw [hσ]; exact hr) hmσ (by rw [hσ]; exact hdx) 0 (by rw [hσ]; exact Nat.one_pos) hinitσ h hh0
    (by rw [hσ]; exact hhdx) (fun k => (run k).sol.adv) (fun k => v * ((run k).sol.t - s.t)) (by rw [h00]; exact Like.refl _) (by rw [h00])
    (by rw [h00, htσ, sub_self, mul_zero]) k (fun k _ => ?_) (fun k _ _ => ?_) k le_rfl
  · subst hσ
    exact main.2
  · have h1 : (run k).sol.t ≤ deck.finaltime := (timeInv_run hkc (schemeFor deck.rk) deck σ (by rw [htσ]; exact ht) k).hi
    exact (mul_le_mul_of_nonneg_left (by linarith) hv).trans hTd
  · rcases iteration_cases (env := rhoEnv σ v) (deck := deck) (s := σ) (k := k) with hidle | ⟨hr', dt, o', d, hdt⟩
    · have hidle : (run (k + 1)).sol = (run k).sol := hidle
      simp only [hidle]
      exact .inl ⟨trivial, adv_like (hlike k), trivial⟩
    right
    obtain ⟨htt, hl1, hval⟩ := rho_step hbσ v deck hrk k (hlike k) hr' hdt
    have htt : (run (k + 1)).sol.t = (run k).sol.t + dt := htt
    have hinv := timeInv_run hkc (schemeFor deck.rk) deck σ (by rw [htσ]; exact ht) k
    have hinv' : (run k).sol.t ≤ deck.finaltime ∧ (run k).sol.t ≤ (run k).tout := ⟨hinv.hi, (hinv.run hr').2.2.2.2.1⟩
    have hdt0 : 0 ≤ dt := by
      rcases getNext_cases hdt with ⟨-, -, h⟩ | ⟨-, -, h, -⟩ | ⟨-, -, h, -⟩
      · have : dt = deck.finaltime - (run k).sol.t := h
        linarith [hinv'.1]
      · have : dt = (run k).tout - (run k).sol.t := h
        linarith [hinv'.2]
      · exact le_trans (by positivity) h
    refine ⟨v * dt, mul_nonneg hv hdt0, ?_, ?_, adv_like hl1, fun n e h1 h2 => ?_⟩
    · have hlk : Like (run k).sol (s.rho γ v b) := by
        have := hlike k
        generalize (run k).sol = a at this ⊢
        rwa [hσ] at this
      have hd := rho_dt hdx.le hlk hv hcfl0 hdt
      rw [show s.basis.p = p by rw [hb.basis]; rfl] at hd
      exact hd
    · show v * ((run (k + 1)).sol.t - s.t) = v * ((run k).sol.t - s.t) + v * dt
      rw [htt]; ring
    · have := hval n e h1 h2 0 (by rw [hσ]; exact Nat.one_pos)
      rw [advLin_adv σ hbσ.wf]
      exact this

/-- Positive densities in the cells are no bad ones. -/
lemma not_bad (h : s.Built lib p) (hen : s.enhance = none) (hk : s.BcKnown) {a : Sol ℝ} (ha : Like a s)
    (hpos : ∀ e, 1 ≤ e → e ≤ s.NE → ∀ ξ ∈ Set.Icc (-1 : ℝ) 1, 0 < (cellPoly a e 0).eval ξ) : ¬ BadDensity s p a := by
  have hl := ha.applyBc
  have hpos' : ∀ e ≤ s.NE + 1, ∀ ξ ∈ Set.Icc (-1 : ℝ) 1, 0 < (cellPoly a.applyBc e 0).eval ξ := by
    intro e he ξ hξ
    obtain ⟨e', h1, h2, h3⟩ := bc_cell hk h.NE e he
    have : cellPoly a.applyBc e 0 = cellPoly a e' 0 := by
      unfold cellPoly
      rw [hl.rows, hl.setup.NF, ha.rows, ha.setup.NF]
      congr 1
      funext n
      rw [ha.applyBc_val h.wf, h3 0 h.NF]
    rw [this]; exact hpos e' h1 h2 ξ hξ
  rintro (⟨g, hg, e, he, h0⟩ | ⟨i, hi, hc⟩)
  · rw [gaussRho_eval h hl] at h0
    exact (hpos' e he _ (Set.Ioo_subset_Icc_self (Approx.gauss_nodes h.gaussS hg))).ne' h0
  · refine hc ?_
    rw [faceRho_left h hen hl, faceRho_right h hen hl]
    exact ⟨hpos' i (by omega) 1 (by norm_num), hpos' (i + 1) (by omega) (-1) (by norm_num)⟩

/-- The three stages of 'rk3' for a linear operator. -/
lemma rho_stages (h : s.Built lib p) (v dt : ℝ) {u : Arr ℝ} (h1 : u.rows = s.u.rows) (h2 : u.cols = s.u.cols) {i : ℕ} (hi : i < 3) :
    ∃ α β : ℝ, 0 ≤ α ∧ α ≤ 1 ∧ 0 ≤ β ∧ β ≤ 1 ∧ (stageArr (rk3.map (fun q : ℚ => (q : ℝ))) (fun u => (advArr s (bcArr s u)).smul v) dt u i).val =
      u.val + (α * (v * dt)) • advLin s h.wf u.val + (β * (v * dt) ^ 2) • advLin s h.wf (advLin s h.wf u.val) := by
  set tab := rk3.map (fun q : ℚ => (q : ℝ))
  set R : Arr ℝ → Arr ℝ := fun u => (advArr s (bcArr s u)).smul v
  have hR : ∀ w : ℕ → ℕ → ℝ, (R { u with val := w }).val = v • advLin s h.wf w := by
    intro w
    have : ({ u with val := w } : Arr ℝ) = { s.u with val := w } := by
      cases u; cases hs : s.u
      simp only [hs] at h1 h2
      simp only [h1, h2]
    show ((advArr s (bcArr s { u with val := w })).smul v).val = _
    rw [this]; rfl
  have hS : ∀ j, stageArr tab R dt u j = { u with val := (stageArr tab R dt u j).val } := fun _ => rfl
  have hRS : ∀ j, (R (stageArr tab R dt u j)).val = v • advLin s h.wf (stageArr tab R dt u j).val := fun j => by rw [hS j, hR]
  have b10 : tab.beta 1 0 = 1 / 2 := by
    show ((rk3.beta 1 0 : ℚ) : ℝ) = 1 / 2
    rw [show rk3.beta 1 0 = 1 / 2 by decide +kernel]; norm_num
  have b20 : tab.beta 2 0 = -1 := by
    show ((rk3.beta 2 0 : ℚ) : ℝ) = -1
    rw [show rk3.beta 2 0 = -1 by decide +kernel]; norm_num
  have b21 : tab.beta 2 1 = 2 := by
    show ((rk3.beta 2 1 : ℚ) : ℝ) = 2
    rw [show rk3.beta 2 1 = 2 by decide +kernel]; norm_num
  have v0 : (stageArr tab R dt u 0).val = u.val := by
    rw [stageArr_val]; funext r c; simp
  have v1 : (stageArr tab R dt u 1).val = u.val + (1 / 2 * (v * dt)) • advLin s h.wf u.val := by
    rw [stageArr_val]
    funext r c
    rw [Finset.sum_range_one, hRS, v0, b10]
    simp only [Pi.add_apply, Pi.smul_apply, smul_eq_mul]
    ring
  interval_cases i
  · refine ⟨0, 0, le_rfl, by norm_num, le_rfl, by norm_num, ?_⟩
    rw [v0]; simp
  · refine ⟨1 / 2, 0, by norm_num, by norm_num, le_rfl, by norm_num, ?_⟩
    rw [v1]; simp
  · refine ⟨1, 1, by norm_num, le_rfl, by norm_num, le_rfl, ?_⟩
    rw [stageArr_val]
    funext r c
    rw [Finset.sum_range_succ, Finset.sum_range_one, hRS, hRS, v0, v1, b20, b21, map_add, map_smul]
    simp only [Pi.add_apply, Pi.smul_apply, smul_eq_mul]
    ring

/-- A polynomial that is at least `m` on the cell has a mean of at least `m`. -/
lemma mean_ge {m : ℝ} (c : ℕ → ℝ) (h : ∀ ξ ∈ Set.Icc (-1 : ℝ) 1, m ≤ (legSeries (p + 1) c).eval ξ) : m ≤ c 0 := by
  have h1 : ∫ _ in (-1 : ℝ)..1, m ≤ ∫ x in (-1 : ℝ)..1, (legSeries (p + 1) c).eval x :=
    intervalIntegral.integral_mono_on (by norm_num) (by simp) ((legSeries (p + 1) c).continuous.intervalIntegrable _ _) h
  rw [integral_eq_intPoly, legSeries_mean, intervalIntegral.integral_const, smul_eq_mul] at h1
  linarith

/-- The time step exists when the mean densities are at least `m`. -/
lemma rho_next (hγ : 1 < γ) (hP : 0 < P) {a : Sol ℝ} (ha : Like a (s.rho γ v (P / (γ - 1)))) {m cfl tf tout : ℝ} (hm : 0 < m) (hv : 0 ≤ v)
    (hmean : ∀ e ≤ s.NE + 1, m ≤ a.u.val 0 e) (hcfl : 1 / 10 ^ 14 ≤ s.dx * cfl / ((v + √(γ * P / m)) * (2 * (s.basis.p : ℝ) + 1))) :
    ∃ x o d, getNextTimeStep a tout cfl tf = .ok (x, o, d) := by
  have hcols : a.u.cols = s.NE + 2 := by rw [ha.cols]; rfl
  have hw : a.kw.maxWaveSpeed a.u = Euler.maxWaveSpeed γ (liftArr v (P / (γ - 1)) a.u) := by rw [ha.setup.kw]; rfl
  obtain ⟨-, h2⟩ := maxWaveSpeed_eq γ (liftArr v (P / (γ - 1)) a.u) (s.NE + 2) (by rw [← hcols]; rfl) (by omega)
  have hst : ∀ i, fieldsAt 3 ((liftArr v (P / (γ - 1)) a.u).val 0) i = (⟨a.u.val 0 i, v, P⟩ : Prim).cons γ := by
    intro i
    rw [← drift_cons]
    funext f
    show drift v (P / (γ - 1)) (a.u.val 0 ((i * 3 + f) / 3)) ((i * 3 + f) % 3) = _
    rw [show (i * 3 + (f : ℕ)) / 3 = i by omega, show (i * 3 + (f : ℕ)) % 3 = f by omega]
  have hρ : ∀ i < s.NE + 2, m ≤ a.u.val 0 i := fun i hi => hmean i (by omega)
  have hsp : ∀ i < s.NE + 2, (stOf (fieldsAt 3 ((liftArr v (P / (γ - 1)) a.u).val 0) i)).speed γ = v + √(γ * P / a.u.val 0 i) := by
    intro i hi
    have h0 : a.u.val 0 i ≠ 0 := (hm.trans_le (hρ i hi)).ne'
    rw [hst i]
    unfold St.speed
    rw [v_cons γ h0, a_cons hγ h0, abs_of_nonneg hv]
    rfl
  obtain ⟨c, hc, h3, i, hi, h4⟩ := h2 fun i hi => by
    rw [hst i]
    exact isReal_cons hγ ⟨hm.trans_le (hρ i hi), hP⟩
  rw [hsp i hi] at h4
  have hpos : (0 : ℝ) < 2 * (s.basis.p : ℝ) + 1 := by positivity
  have hγP : 0 < γ * P := mul_pos (by linarith) hP
  have hc0 : 0 < c := by
    rw [← h4]
    have : 0 < √(γ * P / a.u.val 0 i) := Real.sqrt_pos.mpr (div_pos hγP (hm.trans_le (hρ i hi)))
    linarith
  have hcle : c ≤ v + √(γ * P / m) := by
    rw [← h4]
    have := Real.sqrt_le_sqrt (div_le_div_of_nonneg_left hγP.le hm (hρ i hi))
    linarith
  have hnum : 0 ≤ s.dx * cfl := by
    by_contra hneg
    push Not at hneg
    have : s.dx * cfl / ((v + √(γ * P / m)) * (2 * (s.basis.p : ℝ) + 1)) < 0 := div_neg_of_neg_of_pos hneg (mul_pos (hc0.trans_le hcle) hpos)
    have h14 : (0 : ℝ) < 1 / 10 ^ 14 := by positivity
    linarith
  have hdt : 1 / 10 ^ 14 ≤ s.dx * cfl / (c * (2 * (s.basis.p : ℝ) + 1)) :=
    hcfl.trans (div_le_div_of_nonneg_left hnum (mul_pos hc0 hpos) (mul_le_mul_of_nonneg_right hcle hpos.le))
  unfold getNextTimeStep cflTimeStep
  rw [hw, hc, ha.setup.dx, ha.setup.basis, show (s.rho γ v (P / (γ - 1))).dx = s.dx from rfl, show (s.rho γ v (P / (γ - 1))).basis = s.basis from rfl]
  simp only
  rw [if_neg (mul_pos hc0 hpos).ne']
  simp only [sanityCheckDt]
  rw [if_neg (not_lt.mpr hdt)]
  exact ⟨_, _, _, rfl⟩

set_option maxHeartbeats 400000 in
/-- On fine meshes the densities stay above half their minimum, in the cells and at all the stages; so the checks never stop the run. -/
lemma rho_fine (hlib : lib.Ok) (p : ℕ) (ρ0 : ℝ → ℝ) (hu : ContDiff ℝ (p + 4 : ℕ) ρ0) (A L T : ℝ) (hL : 0 < L) (hper : ∀ y, ρ0 (y + L) = ρ0 y) (hT : 0 ≤ T)
    {m : ℝ} (hm0 : 0 < m) (hmin : ∀ y, m ≤ ρ0 y) :
    ∃ C : ℝ, 0 ≤ C ∧ ∃ δ : ℝ, 0 < δ ∧ ∀ (s : Sol ℝ), s.Built lib p → s.enhance = none → s.bcl = .lit "periodic" → s.bcr = .lit "periodic" → GhostsAgree s →
      IsUniformMesh A (A + L) s.NE s.x.val s.xc.val s.dx → 0 < s.dx →
      (∀ e, 1 ≤ e → e ≤ s.NE → ∀ g < p + 1, (cellPoly s e 0).eval ((lib (p + 1)).1.val g) = ρ0 (physPoint (s.x.val (e - 1)) (s.x.val e) ((lib (p + 1)).1.val g))) →
      ∀ (γ v P : ℝ), 1 < γ → 0 ≤ v → 0 < P → ∀ (deck : RkDeck ℝ), deck.rk = "rk3" →
      0 ≤ deck.cfl → deck.cfl ≤ (2 * p + 1) / (3 * (p + 1) ^ 2) → s.t ≤ deck.finaltime → v * (deck.finaltime - s.t) ≤ T → s.dx ≤ δ →
      let σ := s.rho γ v (P / (γ - 1))
      ∀ k, integrate (rhoEnvChecked σ p v) deck σ k = integrate (rhoEnv σ v) deck σ k ∧
        (2 ≤ deck.nout → (integrate (rhoEnv σ v) deck σ k).status = .running → ∀ x o d,
          getNextTimeStep (integrate (rhoEnv σ v) deck σ k).sol (integrate (rhoEnv σ v) deck σ k).tout deck.cfl deck.finaltime = .ok (x, o, d) →
          ∀ e, (integrate (rhoEnv σ v) deck σ (k + 1)).status ≠ .failed e) ∧
        (1 / 10 ^ 14 ≤ s.dx * deck.cfl / ((v + √(γ * P / (m / 2))) * (2 * p + 1)) → 2 ≤ deck.nout → ∀ e, (integrate (rhoEnv σ v) deck σ k).status ≠ .failed e) ∧
        (∀ e, 1 ≤ e → e ≤ s.NE → ∀ ξ ∈ Set.Icc (-1 : ℝ) 1, m / 2 ≤ (cellPoly (integrate (rhoEnv σ v) deck σ k).sol e 0).eval ξ) ∧
        l2Error (integrate (rhoEnv σ v) deck σ k).sol 0 (fun x => ρ0 (x - v * ((integrate (rhoEnv σ v) deck σ k).sol.t - s.t))) ≤
          C * (s.dx ^ (p + 1) + (s.dx * deck.cfl / (2 * p + 1)) ^ 3) := by
  obtain ⟨C, hC, key⟩ := rho_sequence hlib p ρ0 hu A L T hL hper hT
  obtain ⟨K, hK, close⟩ := stage_close p ρ0 hu A L hL hper hC
  refine ⟨C, hC, min 1 ((m / (2 * (K + 1))) ^ 2), lt_min one_pos (by positivity), ?_⟩
  intro s hb hen hl hr hg hm hdx hinit γ v P hγ hv hP deck hrk hcfl0 hcfl ht hTd hδ σ
  have hpos : (0 : ℝ) < 2 * p + 1 := by positivity
  have seq := key s hb hen hl hr hg hm hdx hinit γ v (P / (γ - 1)) hv deck hrk hcfl0 hcfl ht hTd
  have hbσ : σ.Built lib p := rho_built hb
  have hkc := rhoEnv_clock σ v
  set h := s.dx * deck.cfl / (2 * (p : ℝ) + 1) with hh
  have hh0 : 0 ≤ h := by positivity
  have hhdx : 3 * ((p : ℝ) + 1) ^ 2 * h ≤ s.dx := by
    have hpos2 : (0 : ℝ) < 3 * (p + 1) ^ 2 := by positivity
    rw [le_div_iff₀ hpos2] at hcfl
    rw [hh, ← mul_div_assoc, div_le_iff₀ hpos]
    nlinarith
  have hdx1 : s.dx ≤ 1 := hδ.trans (min_le_left _ _)
  have hKdx : K * √s.dx ≤ m / 2 := by
    have h1 : √s.dx ≤ m / (2 * (K + 1)) := by
      rw [Real.sqrt_le_left (by positivity)]
      exact hδ.trans (min_le_right _ _)
    have h2 : K * √s.dx ≤ K * (m / (2 * (K + 1))) := mul_le_mul_of_nonneg_left h1 hK
    have h3 : K * (m / (2 * (K + 1))) ≤ m / 2 := by
      rw [mul_div_assoc', div_le_div_iff₀ (by positivity) (by norm_num)]
      nlinarith
    exact h2.trans h3
  have hNE : (0 : ℝ) < s.NE := by exact_mod_cast hb.NE
  have hlen : s.NE * s.dx = L := by rw [hm.width]; field_simp; ring
  have hgσ : GhostsAgree σ := rho_ghosts hb hg
  have hinv := rho_inv hbσ v hgσ deck
  have hk : σ.BcKnown := ⟨.inl (by show s.bcl.isLit _; rw [hl]; exact ⟨rfl, rfl⟩), .inl (by show s.bcr.isLit _; rw [hr]; exact ⟨rfl, rfl⟩)⟩
  -- the densities at the stages
  have hstage : ∀ k, ∀ θ α β : ℝ, 0 ≤ θ → θ ≤ h → 0 ≤ α → α ≤ 1 → 0 ≤ β → β ≤ 1 → ∀ e, 1 ≤ e → e ≤ s.NE → ∀ ξ ∈ Set.Icc (-1 : ℝ) 1,
      m / 2 ≤ (legSeries (p + 1) fun n => ((integrate (rhoEnv σ v) deck σ k).sol.u.val + (α * θ) • advLin σ hbσ.wf (integrate (rhoEnv σ v) deck σ k).sol.u.val +
        (β * θ ^ 2) • advLin σ hbσ.wf (advLin σ hbσ.wf (integrate (rhoEnv σ v) deck σ k).sol.u.val)) n (e * 1 + 0)).eval ξ := by
    intro k θ α β hθ hθh hα hα1 hβ hβ1 e h1 h2 ξ hξ
    have := close (s := σ.adv) (adv_built hbσ) rfl hen hl hr hlen hdx hdx1 0 Nat.one_pos h θ (v * ((integrate (rhoEnv σ v) deck σ k).sol.t - s.t)) α β hθ hθh hhdx hα hα1 hβ hβ1
      (integrate (rhoEnv σ v) deck σ k).sol.u.val (seq k).1 e h1 h2 ξ hξ
    rw [advLin_adv σ hbσ.wf] at this
    have h3 := (abs_le.mp (this.trans hKdx)).1
    have h4 : m ≤ Approx.cellFn (Approx.wave ρ0 (v * ((integrate (rhoEnv σ v) deck σ k).sol.t - s.t)) 0) (A + ((e : ℝ) - 1) * s.dx) s.dx ξ := by
      unfold Approx.cellFn
      rw [Approx.wave_zero]
      exact hmin _
    have h3' : -(m / 2) ≤ (legSeries (p + 1) fun n => ((integrate (rhoEnv σ v) deck σ k).sol.u.val + (α * θ) • advLin σ hbσ.wf (integrate (rhoEnv σ v) deck σ k).sol.u.val +
        (β * θ ^ 2) • advLin σ hbσ.wf (advLin σ hbσ.wf (integrate (rhoEnv σ v) deck σ k).sol.u.val)) n (e * 1 + 0)).eval ξ -
        Approx.cellFn (Approx.wave ρ0 (v * ((integrate (rhoEnv σ v) deck σ k).sol.t - s.t)) 0) (A + ((e : ℝ) - 1) * s.dx) s.dx ξ := h3
    linarith
  have hhead : ∀ k, ∀ e, 1 ≤ e → e ≤ s.NE → ∀ ξ ∈ Set.Icc (-1 : ℝ) 1, m / 2 ≤ (cellPoly (integrate (rhoEnv σ v) deck σ k).sol e 0).eval ξ := by
    intro k e h1 h2 ξ hξ
    have := hstage k 0 0 0 le_rfl hh0 le_rfl zero_le_one le_rfl zero_le_one e h1 h2 ξ hξ
    unfold cellPoly
    rw [(hinv k).1.rows, (hinv k).1.setup.NF, hbσ.rows, show σ.NF = 1 from rfl]
    simpa using this
  have hmean : ∀ k, ∀ e ≤ s.NE + 1, m / 2 ≤ (integrate (rhoEnv σ v) deck σ k).sol.u.val 0 e := by
    intro k e he
    have hin : ∀ e, 1 ≤ e → e ≤ s.NE → m / 2 ≤ (integrate (rhoEnv σ v) deck σ k).sol.u.val 0 e := by
      intro e h1 h2
      have := hhead k e h1 h2
      unfold cellPoly at this
      rw [(hinv k).1.rows, (hinv k).1.setup.NF, hbσ.rows] at this
      have := mean_ge _ this
      rwa [show σ.NF = 1 from rfl, mul_one, add_zero] at this
    obtain ⟨g1, -, g3, -⟩ := (hinv k).2.1 0 (by rw [(hinv k).1.rows, hbσ.rows]; omega) 0 (by rw [(hinv k).1.setup.NF]; exact Nat.one_pos)
    rw [(hinv k).1.setup.NE, (hinv k).1.setup.NF, (hinv k).1.setup.bcl, show σ.NF = 1 from rfl, mul_one, add_zero] at g1
    rw [(hinv k).1.setup.NE, (hinv k).1.setup.NF, (hinv k).1.setup.bcr, show σ.NF = 1 from rfl, mul_one, mul_one, add_zero] at g3
    by_cases e0 : e = 0
    · rw [e0, g1 hl]; exact hin _ hb.NE le_rfl
    by_cases e1 : e = s.NE + 1
    · rw [e1]
      have g3' : (integrate (rhoEnv σ v) deck σ k).sol.u.val 0 (s.NE + 1) = _ := g3 hr
      rw [g3']; exact hin _ le_rfl hb.NE
    exact hin e (by omega) (by omega)
  -- one iteration
  have hR : ∀ a, SameSetup a σ → ∃ s', (rhoEnv σ v).residual a = .ok (s', (fun u => (advArr σ (bcArr σ u)).smul v) a.u) ∧ SameSetup s' σ :=
    fun a ha => ⟨_, rfl, (applyBc_setup a).trans ha⟩
  have htab : schemeFor deck.rk = .classic (rk3.map (fun q : ℚ => (q : ℝ))) := by rw [hrk]; rfl
  have hfine : (rk3.map (fun q : ℚ => (q : ℝ))).Fine := by
    have := tableOf_fine "rk3"
    exact this
  have hrunsucc : ∀ (env : Env ℝ) k, integrate env deck σ (k + 1) = loopBody env deck ((schemeFor deck.rk).inner env) (integrate env deck σ k) := by
    intro env k
    show Scheme.run _ _ _ _ _ = _
    unfold Scheme.run
    rw [runLoop_succ]
    rfl
  have hstep : ∀ k, (integrate (rhoEnv σ v) deck σ k).status = .running → ∀ x o d,
      getNextTimeStep (integrate (rhoEnv σ v) deck σ k).sol (integrate (rhoEnv σ v) deck σ k).tout deck.cfl deck.finaltime = .ok (x, o, d) →
      loopBody (rhoEnvChecked σ p v) deck ((schemeFor deck.rk).inner (rhoEnvChecked σ p v)) (integrate (rhoEnv σ v) deck σ k) =
        loopBody (rhoEnv σ v) deck ((schemeFor deck.rk).inner (rhoEnv σ v)) (integrate (rhoEnv σ v) deck σ k) ∧
      (2 ≤ deck.nout → ∀ e, (integrate (rhoEnv σ v) deck σ (k + 1)).status ≠ .failed e) := by
    intro k hr' x o d hnext
    have htime := timeInv_run hkc (schemeFor deck.rk) deck σ ht k
    have hinv' : (integrate (rhoEnv σ v) deck σ k).sol.t ≤ deck.finaltime ∧ (integrate (rhoEnv σ v) deck σ k).sol.t ≤ (integrate (rhoEnv σ v) deck σ k).tout :=
      ⟨htime.hi, (htime.run hr').2.2.2.2.1⟩
    have hx0 : 0 ≤ x := by
      rcases getNext_cases hnext with ⟨-, -, h⟩ | ⟨-, -, h, -⟩ | ⟨-, -, h, -⟩
      · linarith [hinv'.1]
      · linarith [hinv'.2]
      · exact le_trans (by positivity) h
    have hθ : v * x ≤ h := by
      have := rho_dt hdx.le (hinv k).1 hv hcfl0 hnext
      rwa [show s.basis.p = p by rw [hb.basis]; rfl] at this
    set st := integrate (rhoEnv σ v) deck σ k with hst
    have hinner : (schemeFor deck.rk).inner (rhoEnvChecked σ p v) (st.us.copyDataOnly st.sol) x ⟨st.work, st.sol, st.incr⟩ =
        (schemeFor deck.rk).inner (rhoEnv σ v) (st.us.copyDataOnly st.sol) x ⟨st.work, st.sol, st.incr⟩ := by
      rw [htab]
      refine classicInner_agree (w0 := σ) (R := fun u => (advArr σ (bcArr σ u)).smul v) hfine (fun _ => rfl) (fun _ => rfl) hR _ x _ (hinv k).2.2 ?_
      intro i hi a ha hau
      have hau : a.u = stageArr (rk3.map (fun q : ℚ => (q : ℝ))) (fun u => (advArr σ (bcArr σ u)).smul v) x st.sol.u i := hau
      obtain ⟨α, β, hα, hα1, hβ, hβ1, hval⟩ := rho_stages hbσ v x (u := st.sol.u) (hinv k).1.rows (hinv k).1.cols (i := i) hi
      have hlike : Like a σ := ⟨ha, by rw [hau]; exact (hinv k).1.rows, by rw [hau]; exact (hinv k).1.cols⟩
      unfold rhoEnvChecked
      simp only
      rw [if_neg]
      refine not_bad hbσ hen hk hlike fun e h1 h2 ξ hξ => ?_
      have := hstage k (v * x) α β (mul_nonneg hv hx0) hθ hα hα1 hβ hβ1 e h1 h2 ξ hξ
      unfold cellPoly
      rw [hlike.rows, hlike.setup.NF, hbσ.rows, hau, hval]
      exact (half_pos hm0).trans_le this
    constructor
    · unfold loopBody
      rw [hr']
      simp only
      rw [hnext]
      simp only
      rw [hinner]
      rfl
    · intro hN
      obtain ⟨ss, hss, -, -⟩ := classicInner_spec (w0 := σ) (R := fun u => (advArr σ (bcArr σ u)).smul v) hfine (env := rhoEnv σ v) (fun _ => rfl) hR (st.us.copyDataOnly st.sol) x ⟨st.work, st.sol, st.incr⟩
        (hinv k).2.2 rfl
      have hin : (schemeFor deck.rk).inner (rhoEnv σ v) (st.us.copyDataOnly st.sol) x ⟨st.work, st.sol, st.incr⟩ = .ok ss := by
        rw [htab]; exact hss
      exact iteration_ok hkc (schemeFor deck.rk) (s := σ) (k := k) ht hN hr' hnext hin fun _ => rfl
  intro k
  refine ⟨?_, fun hN hr' x o d hnext => (hstep k hr' x o d hnext).2 hN, ?_, hhead k, (seq k).2⟩
  · induction k with
    | zero => rfl
    | succ k ih =>
      rw [hrunsucc, hrunsucc, ih]
      by_cases hr' : (integrate (rhoEnv σ v) deck σ k).status = .running
      · cases hnext : getNextTimeStep (integrate (rhoEnv σ v) deck σ k).sol (integrate (rhoEnv σ v) deck σ k).tout deck.cfl deck.finaltime with
        | error e =>
          unfold loopBody
          rw [hr']
          simp only
          rw [hnext]
        | ok q =>
          obtain ⟨x, o, d⟩ := q
          exact (hstep k hr' x o d hnext).1
      · rw [loopBody_stopped hr', loopBody_stopped hr']
  · intro hdt14 hN
    induction k with
    | zero => exact fun e => init_ok hN e
    | succ k ih =>
      by_cases hr' : (integrate (rhoEnv σ v) deck σ k).status = .running
      · obtain ⟨x, o, d, hnext⟩ := rho_next (tout := (integrate (rhoEnv σ v) deck σ k).tout) (cfl := deck.cfl) (tf := deck.finaltime) hγ hP (hinv k).1 (half_pos hm0) hv (hmean k)
          (by rw [show s.basis.p = p by rw [hb.basis]; rfl]; exact hdt14)
        exact (hstep k hr' x o d hnext).2 hN
      · rw [hrunsucc, loopBody_stopped hr']; exact ih

end Dg1d.Props
