import Verif.Proofs.LocalError
import Verif.Proofs.EulerSmooth
import Verif.Proofs.Total
import Verif.Props.RungeKutta
import Verif.Props.Regressions
import Verif.Props.ExamplesReal
import Verif.Proofs.Progress

/-! # One time step against the exact solution of the semi-discrete equations (C06 for failing residuals, C76) -/

set_option linter.unusedSectionVars false

open Polynomial Dg1d.Spec Filter Topology Asymptotics

namespace Dg1d

lemma SameSetup.eq_reb {K : Type*} [Field K] [LinearOrder K] [IsStrictOrderedRing K] {a s : Sol K} (h : SameSetup a s) :
    a = s.reb a.u a.t a.n a.sensors := by
  obtain ⟨h1, h2, h3, h4, h5, h6, h7, h8, h9, h10, h11⟩ := h
  cases a
  cases s
  simp_all [Sol.reb]

/-- Neither the clock nor the flags enter the residual. -/
lemma residual_arr_eq {s a a' : Sol ℝ} (hs : SameSetup a s) {F : Arr ℝ} (hF : residual a = .ok (a', F)) :
    ∃ b, residual (s.reb a.u s.t s.n s.sensors) = .ok (b, F) := by
  rw [hs.eq_reb] at hF
  have h1 : ∀ t n se, (s.reb a.u t n se).applyBc = (s.reb a.u s.t s.n s.sensors).applyBc.reb (s.reb a.u s.t s.n s.sensors).applyBc.u t n se := by
    intro t n se
    unfold Sol.applyBc Sol.applyBcRight Sol.applyBcLeft Sol.reb
    split_ifs <;> rfl
  unfold residual at hF ⊢
  simp only [h1 a.t a.n a.sensors] at hF
  generalize (s.reb a.u s.t s.n s.sensors).applyBc = z at hF ⊢
  have h2 : (z.reb z.u a.t a.n a.sensors).evaluateFaces = z.evaluateFaces := rfl
  simp only [h2] at hF
  simp only
  cases h3 : z.evaluateFaces with
  | error e => rw [h3] at hF; cases hF
  | ok uf =>
    rw [h3] at hF
    simp only at hF ⊢
    have h4 : interfaceFluxes (z.reb z.u a.t a.n a.sensors).kw uf (z.reb z.u a.t a.n a.sensors).NF = interfaceFluxes z.kw uf z.NF := rfl
    rw [h4] at hF
    cases h5 : interfaceFluxes z.kw uf z.NF with
    | error e => rw [h5] at hF; cases hF
    | ok q =>
      rw [h5] at hF
      cases hF
      exact ⟨_, rfl⟩

end Dg1d

namespace Dg1d.Props

/-- **C06** for residuals that may fail: an iteration that succeeds is the textbook step for the residual as a function `R` of the
array (`R` is only tied to the residual where the residual returns). -/
theorem C06_successful_step (env : Env ℝ) (deck : RkDeck ℝ) (sol : Sol ℝ) (R : Arr ℝ → Arr ℝ)
    (hlim : ∀ s, env.limit s = .ok s)
    (hR : ∀ s s' F, SameSetup s sol → env.residual s = .ok (s', F) → F = R s.u ∧ SameSetup s' sol)
    (k : ℕ) (dt : ℝ) (o d : Bool)
    (hrun : (integrate env deck sol k).status = .running)
    (hdt : getNextTimeStep (integrate env deck sol k).sol (integrate env deck sol k).tout deck.cfl
      deck.finaltime = .ok (dt, o, d))
    (hok : ∀ e, (integrate env deck sol (k + 1)).status ≠ .failed e) :
    let s := (integrate env deck sol k).sol
    (integrate env deck sol (k + 1)).sol =
      ({ s with u := { s.u with val := rkStep (tableOf deck.rk).coeffs (tableOf deck.rk).beta (fun v => (R { s.u with val := v }).val) dt s.u.val }
                t := s.t + dt
                n := s.n + 1 } : Sol ℝ).applyBc := by
  intro s
  set env' : Env ℝ := ⟨fun s => match env.residual s with | .ok x => .ok x | .error _ => .ok (s, R s.u), env.limit⟩ with henv
  have hext : env.Extends env' := ⟨fun s x h => by rw [henv]; simp only [h], fun s x h => h⟩
  have h1 : integrate env' deck sol (k + 1) = integrate env deck sol (k + 1) := hext.run deck _ sol _ hok
  have h0 : integrate env' deck sol k = integrate env deck sol k := hext.run deck _ sol _ (by
    intro e he
    have he : (integrate env deck sol k).status = .failed e := he
    rw [hrun] at he; cases he)
  have := C06_textbook_step env' deck sol R hlim (by
    intro z hz
    cases hres : env.residual z with
    | error e => exact ⟨z, by rw [henv]; simp only [hres], hz⟩
    | ok x =>
      obtain ⟨z', F⟩ := x
      obtain ⟨hF, hs'⟩ := hR z z' F hz hres
      exact ⟨z', by rw [henv]; simp only [hres, hF], hs'⟩) k dt o d (by rw [h0]; exact hrun) (by rw [h0]; exact hdt)
  simp only at this
  rw [h0, h1] at this
  exact this

section
variable {s : Sol ℝ} {lib : GaussLib ℝ} {p : ℕ}

lemma like_invariant {lim : Sol ℝ → Except PyErr (Sol ℝ)} (hlim : ∀ a, lim a = .ok a) (s : Sol ℝ) :
    Invariant (⟨residual, lim⟩ : Env ℝ) (Like · s) (Like · s) (fun _ => True) where
  zero := fun _ _ => trivial
  smul := fun _ _ _ => trivial
  axpy := fun a z A hz _ => hz.axpy a A
  copy := fun w z hw hz => hw.copy hz
  clock := fun z a m hz => hz.clock _ _
  head := fun _ h => h
  bc := fun _ h => h.applyBc
  headLimit := fun z v hz hv => by
    have hv : lim z = .ok v := hv
    rw [hlim] at hv; cases hv; exact hz
  stageLimit := fun z v hz hv => by
    have hv : lim z = .ok v := hv
    rw [hlim] at hv; cases hv; exact hz
  res := fun z v A hz hv => by
    have hv : residual z = .ok (v, A) := hv
    rw [residual_sol hv]; exact ⟨hz.applyBc, trivial⟩

/-- The shape of the solution is kept by a run without limiter. -/
lemma like_run {lim : Sol ℝ → Except PyErr (Sol ℝ)} (hlim : ∀ a, lim a = .ok a) (deck : RkDeck ℝ) {sol : Sol ℝ} (h : Like sol s) (k : ℕ) :
    Like (integrate ⟨residual, lim⟩ deck sol k).sol s :=
  ((like_invariant hlim s).run deck (schemeFor deck.rk) h k).1

/-- One successful iteration on the interior degrees of freedom: the textbook step for the semi-discrete equations. -/
lemma step_dofs (hb : s.Built lib p) (hk : s.BcKnown) (ps : PhysSpec ℝ s.NF) (hps : s.kw.Pointwise ps)
    {lim : Sol ℝ → Except PyErr (Sol ℝ)} (hlim : ∀ a, lim a = .ok a) (deck : RkDeck ℝ) {sol : Sol ℝ} (hsol : Like sol s)
    (k : ℕ) (dt : ℝ) (o d : Bool) (hrun : (integrate ⟨residual, lim⟩ deck sol k).status = .running)
    (hdt : getNextTimeStep (integrate ⟨residual, lim⟩ deck sol k).sol (integrate ⟨residual, lim⟩ deck sol k).tout deck.cfl deck.finaltime = .ok (dt, o, d))
    (hok : ∀ e, (integrate ⟨residual, lim⟩ deck sol (k + 1)).status ≠ .failed e) :
    dofs p s (integrate ⟨residual, lim⟩ deck sol (k + 1)).sol.u.val =
      rkStep (tableOf deck.rk).coeffs (tableOf deck.rk).beta
        (fun x i => dgRhs p (lib (p + 1)).1.val (lib (p + 1)).2.val s ps.flux ps.num (cells p s x) i.1 (i.2.1 + 1) i.2.2) dt
        (dofs p s (integrate ⟨residual, lim⟩ deck sol k).sol.u.val) ∧
    (integrate ⟨residual, lim⟩ deck sol (k + 1)).sol.t = (integrate ⟨residual, lim⟩ deck sol k).sol.t + dt := by
  set f : (Dof p s → ℝ) → (Dof p s → ℝ) := fun x i => dgRhs p (lib (p + 1)).1.val (lib (p + 1)).2.val s ps.flux ps.num (cells p s x) i.1 (i.2.1 + 1) i.2.2 with hf
  set R : Arr ℝ → Arr ℝ := fun A => match residual (s.reb A s.t s.n s.sensors) with
    | .ok x => x.2
    | .error _ => ⟨A.rows, A.cols, cells p s (f (dofs p s A.val))⟩ with hRdef
  have hl := like_run hlim deck hsol k
  have hstep := C06_successful_step ⟨residual, lim⟩ deck sol R hlim (by
    intro z z' F hz hF
    have hzs := hz.trans hsol.setup
    obtain ⟨b, hb⟩ := residual_arr_eq hzs hF
    refine ⟨by rw [hRdef]; simp only [hb], ?_⟩
    have hF : residual z = .ok (z', F) := hF
    rw [residual_sol hF]
    exact (applyBc_setup z).trans hz) k dt o d hrun hdt hok
  simp only at hstep
  set z := (integrate ⟨residual, lim⟩ deck sol k).sol
  have hlw : ∀ w, Like ({ z with u := { z.u with val := w }, t := z.t + dt, n := z.n + 1 } : Sol ℝ) s := by
    intro w
    have h1 : SameSetup ({ z with u := { z.u with val := w }, t := z.t + dt, n := z.n + 1 } : Sol ℝ) z := by constructor <;> rfl
    exact ⟨h1.trans hl.setup, hl.rows, hl.cols⟩
  rw [hstep]
  have hfill : ∀ w, dofs p s ({ z with u := { z.u with val := w }, t := z.t + dt, n := z.n + 1 } : Sol ℝ).applyBc.u.val = dofs p s w := by
    intro w
    apply dofs_congr
    intro n hn e h1 h2 f hf
    rw [(hlw w).applyBc_val hb.wf, bcCol_interior s h1 h2 hf]
  rw [hfill]
  refine ⟨?_, by simp⟩
  refine rkStep_map (dofsLin p s) (R := fun v => (R { z.u with val := v }).val) (f := f) ?_ _ _ _ _
  intro v
  have hlv : Like (s.reb { z.u with val := v } s.t s.n s.sensors) s := ⟨by constructor <;> rfl, hl.rows, hl.cols⟩
  show dofs p s (R { z.u with val := v }).val = f (dofs p s v)
  rw [hRdef]
  simp only
  cases hres : residual (s.reb { z.u with val := v } s.t s.n s.sensors) with
  | error e =>
    show dofs p s (cells p s (f (dofs p s v))) = _
    exact dofs_cells _
  | ok x =>
    obtain ⟨z', F⟩ := x
    obtain ⟨-, hval⟩ := residual_dgRhs hb hps hlv hres
    funext i
    obtain ⟨n, e, fi⟩ := i
    show F.val n ((e + 1) * s.NF + fi) = _
    rw [hval n n.2 (e + 1) (by omega) (by omega) fi, hf]
    exact dgRhs_congr hb hk (fun n hn e h1 h2 f hf => (cells_dofs v n hn e h1 h2 f hf).symm) _ _ (by omega) (by omega) _

/-- Runs of linear advection without limiter do not fail. -/
lemma advection_progress (hb : s.Built lib p) (hkw : s.kw = Advection.physics) {lim : Sol ℝ → Except PyErr (Sol ℝ)} (hlim : ∀ a, lim a = .ok a)
    {cfl : ℝ} (hcfl : 1 / 10 ^ 14 ≤ s.dx * cfl / (2 * p + 1)) : Progress (⟨residual, lim⟩ : Env ℝ) cfl (Like · s) (Like · s) (fun _ => True) :=
  { like_invariant hlim s with
    limOk := fun a _ => ⟨a, hlim a⟩
    resOk := fun a ha => by
      have hps : a.kw.Pointwise (Advection.spec a.NF) := by
        rw [ha.setup.kw, hkw]
        exact Advection.pointwise a.NF
      obtain ⟨F, hF, -⟩ := (residual_eq (ha.built hb).wf hps).2 (fun _ _ h => h)
      exact ⟨_, _, hF⟩
    dtOk := fun a ha => by
      have hden : (1 : ℝ) * (2 * (a.basis.p : ℝ) + 1) ≠ 0 := by positivity
      refine ⟨.fin (a.dx * cfl / (1 * (2 * (a.basis.p : ℝ) + 1))), ?_, ?_⟩
      · unfold cflTimeStep
        rw [ha.setup.kw, hkw]
        show (if _ then _ else _) = _
        rw [if_neg hden]
      · unfold sanityCheckDt
        simp only
        rw [if_neg]
        rw [not_lt, ha.setup.dx, (ha.built hb).basis, one_mul]
        exact hcfl }

lemma keepsClock_off {lim : Sol ℝ → Except PyErr (Sol ℝ)} (hlim : ∀ a, lim a = .ok a) : (⟨residual, lim⟩ : Env ℝ).KeepsClock := by
  intro a b h
  have h : lim a = .ok b := h
  rw [hlim] at h; cases h; exact ⟨rfl, rfl⟩

/-- **C76 (order of one time step).** Let `y` solve the semi-discrete DG equations and let their right-hand sides be analytic at `y 0`.
With one of the schemes 'rk3', 'rk4', 'low_storage_rk4', 'rk5', 'rk6' and no limiter, there are `C` and `δ > 0`, depending on the
scheme and on `y` only, such that every iteration of the code that starts from the coefficients `y 0`, takes a step `|dt| < δ` and does
not fail ends within `C |dt|^(q+1)` of `y dt`, where `q` is the order promised by the name of the scheme. This holds for nonlinear
systems, enhancement and all boundary conditions. -/
theorem C76_local_error (hb : s.Built lib p) (hk : s.BcKnown) (ps : PhysSpec ℝ s.NF) (hps : s.kw.Pointwise ps)
    (rk : String) (hrk : rk ∈ ["rk3", "rk4", "low_storage_rk4", "rk5", "rk6"]) (y : ℝ → ℕ → ℕ → ℝ)
    (hsmooth : SmoothAt p (lib (p + 1)).1.val (lib (p + 1)).2.val s ps.flux ps.num (y 0))
    (hy : SolvesNear p (lib (p + 1)).1.val (lib (p + 1)).2.val s ps.flux ps.num y) :
    ∃ C δ : ℝ, 0 < δ ∧ ∀ (lim : Sol ℝ → Except PyErr (Sol ℝ)), (∀ a, lim a = .ok a) →
      ∀ (deck : RkDeck ℝ), deck.rk = rk → ∀ sol, Like sol s → ∀ (k : ℕ) (dt : ℝ) (o d : Bool),
      (integrate ⟨residual, lim⟩ deck sol k).status = .running →
      getNextTimeStep (integrate ⟨residual, lim⟩ deck sol k).sol (integrate ⟨residual, lim⟩ deck sol k).tout deck.cfl deck.finaltime = .ok (dt, o, d) →
      (∀ e, (integrate ⟨residual, lim⟩ deck sol (k + 1)).status ≠ .failed e) →
      (∀ n < p + 1, ∀ e, 1 ≤ e → e ≤ s.NE → ∀ f < s.NF,
        (integrate ⟨residual, lim⟩ deck sol k).sol.u.val n (e * s.NF + f) = y 0 n (e * s.NF + f)) →
      |dt| < δ →
      ∀ n < p + 1, ∀ e, 1 ≤ e → e ≤ s.NE → ∀ f < s.NF,
        |(integrate ⟨residual, lim⟩ deck sol (k + 1)).sol.u.val n (e * s.NF + f) - y dt n (e * s.NF + f)| ≤
          C * |dt| ^ (promisedOrder rk + 1) := by
  set f : (Dof p s → ℝ) → (Dof p s → ℝ) := fun x i => dgRhs p (lib (p + 1)).1.val (lib (p + 1)).2.val s ps.flux ps.num (cells p s x) i.1 (i.2.1 + 1) i.2.2 with hf
  have hfa : AnalyticAt ℝ f (dofs p s (y 0)) := by
    rw [analyticAt_pi_iff]
    intro i
    exact hsmooth i.1 i.1.2 (i.2.1 + 1) (by omega) (by omega) i.2.2
  have hsol : ∀ᶠ t in 𝓝 (0 : ℝ), HasDerivAt (fun t => dofs p s (y t)) (f (dofs p s (y t))) t := by
    filter_upwards [hy] with t ht
    rw [hasDerivAt_pi]
    intro i
    have := ht i.1 i.1.2 (i.2.1 + 1) (by omega) (by omega) i.2.2
    rw [dgRhs_congr hb hk (fun n hn e h1 h2 f hf => (cells_dofs (y t) n hn e h1 h2 f hf).symm) _ _ (by omega) (by omega)] at this
    exact this
  have hO := Butcher.local_error (tableOf rk).beta (tableOf rk).coeffs (tableOf_explicit rk) (C08_order rk hrk).1 hfa (y := fun t => dofs p s (y t)) rfl hsol
  obtain ⟨C, hC⟩ := hO.bound
  obtain ⟨δ, hδ, hball⟩ := Metric.eventually_nhds_iff.mp hC
  refine ⟨C, δ, hδ, ?_⟩
  intro lim hlim deck hdeck sol hsolL k dt o d hrun hdt hok hcur hsmall n hn e h1 h2 fi hfi
  have hst := (step_dofs hb hk ps hps hlim deck hsolL k dt o d hrun hdt hok).1
  rw [dofs_congr (b := y 0) hcur, hdeck] at hst
  have hbd := hball (y := dt) (by rw [Real.dist_eq, sub_zero]; exact hsmall)
  rw [norm_pow, Real.norm_eq_abs] at hbd
  refine le_trans ?_ hbd
  have hcomp := norm_le_pi_norm (rkStep (tableOf rk).coeffs (tableOf rk).beta f dt (dofs p s (y 0)) - dofs p s (y dt)) (⟨n, hn⟩, ⟨e - 1, by omega⟩, ⟨fi, hfi⟩)
  rw [← hst] at hcomp ⊢
  refine le_trans (le_of_eq ?_) hcomp
  rw [Pi.sub_apply, Real.norm_eq_abs]
  unfold dofs
  simp only
  rw [Nat.sub_add_cancel h1]

/-- **C76, existence.** Where the right-hand sides are analytic there is a solution of the semi-discrete equations through the given
coefficients, so the comparison in `C76_local_error` always has something to compare with. -/
theorem C76_exact_solution (ps : PhysSpec ℝ s.NF) (a : ℕ → ℕ → ℝ) (x w : ℕ → ℝ)
    (hsmooth : SmoothAt p x w s ps.flux ps.num a) :
    ∃ y : ℝ → ℕ → ℕ → ℝ, (∀ n < p + 1, ∀ e, 1 ≤ e → e ≤ s.NE → ∀ f < s.NF, y 0 n (e * s.NF + f) = a n (e * s.NF + f)) ∧
      SmoothAt p x w s ps.flux ps.num (y 0) ∧ SolvesNear p x w s ps.flux ps.num y := by
  set f : (Dof p s → ℝ) → (Dof p s → ℝ) := fun z i => dgRhs p x w s ps.flux ps.num (cells p s z) i.1 (i.2.1 + 1) i.2.2 with hf
  have hfa : AnalyticAt ℝ f (dofs p s a) := by
    rw [analyticAt_pi_iff]
    intro i
    exact hsmooth i.1 i.1.2 (i.2.1 + 1) (by omega) (by omega) i.2.2
  obtain ⟨α, h0, ε, hε, hα⟩ := hfa.contDiffAt (n := 1) |>.exists_forall_mem_closedBall_exists_eq_forall_mem_Ioo_hasDerivAt₀ 0
  refine ⟨fun t => cells p s (α t), ?_, ?_, ?_⟩
  · intro n hn e h1 h2 fi hfi
    simp only [h0]
    exact cells_dofs a n hn e h1 h2 fi hfi
  · unfold SmoothAt
    simp only [h0, dofs_cells]
    exact hsmooth
  · unfold SolvesNear
    have : Set.Ioo (0 - ε) (0 + ε) ∈ 𝓝 (0 : ℝ) := Ioo_mem_nhds (by linarith) (by linarith)
    filter_upwards [this] with t ht n hn e h1 h2 fi
    have hd := hasDerivAt_pi.mp (hα t ht) (⟨n, hn⟩, ⟨e - 1, by omega⟩, fi)
    simp only [cells_val _ hn h1 h2 fi]
    have he : f (α t) (⟨n, hn⟩, ⟨e - 1, by omega⟩, fi) = dgRhs p x w s ps.flux ps.num (cells p s (α t)) n e fi := by
      rw [hf]
      simp only
      rw [Nat.sub_add_cancel h1]
    rw [← he]
    exact hd

/-- **C76, smoothness.** The right-hand sides are analytic as soon as the fluxes are analytic at the states that occur. -/
theorem C76_smooth (hb : s.Built lib p) (hk : s.BcKnown) (ps : PhysSpec ℝ s.NF) (a : ℕ → ℕ → ℝ) (x w : ℕ → ℝ)
    (hflux : ∀ e, 1 ≤ e → e ≤ s.NE → ∀ g < p + 1, ∀ f, AnalyticAt ℝ (fun u => ps.flux u f) fun f' => (cellPoly (filled s a) e f').eval (x g))
    (hnum : ∀ i ≤ s.NE, ∀ f, AnalyticAt ℝ (fun u : (Fin s.NF → ℝ) × (Fin s.NF → ℝ) => ps.num u.1 u.2 f) (leftState (filled s a) i, rightState (filled s a) i)) :
    SmoothAt p x w s ps.flux ps.num a := smoothAt_of hb hk hflux hnum

/-- **C76, linear advection.** The equations are analytic everywhere. -/
theorem C76_smooth_advection (hb : s.Built lib p) (hk : s.BcKnown) (a : ℕ → ℕ → ℝ) (x w : ℕ → ℝ) :
    SmoothAt p x w s (Advection.spec (K := ℝ) s.NF).flux (Advection.spec (K := ℝ) s.NF).num a := by
  refine C76_smooth hb hk _ a x w (fun e _ _ g _ f => ?_) (fun i _ f => ?_)
  · exact (ContinuousLinearMap.proj (R := ℝ) (φ := fun _ : Fin s.NF => ℝ) f).analyticAt _
  · exact AnalyticAt.comp (g := fun u : Fin s.NF → ℝ => u f) (f := Prod.fst)
      ((ContinuousLinearMap.proj (R := ℝ) (φ := fun _ : Fin s.NF => ℝ) f).analyticAt _) analyticAt_fst

end

/-! ### Euler equations -/

/-- Point fluxes for three fields as point fluxes for `n = 3` fields. -/
def threeFields {n : ℕ} (h : n = 3) (ps : PhysSpec ℝ 3) : PhysSpec ℝ n where
  flux := fun u f => ps.flux (fun k => u (Fin.cast h.symm k)) (Fin.cast h f)
  num := fun l r f => ps.num (fun k => l (Fin.cast h.symm k)) (fun k => r (Fin.cast h.symm k)) (Fin.cast h f)
  fails := fun l r => ps.fails (fun k => l (Fin.cast h.symm k)) (fun k => r (Fin.cast h.symm k))
  errs := ps.errs

lemma threeFields_pointwise {n : ℕ} (h : n = 3) {ps : PhysSpec ℝ 3} {kw : Physics ℝ} (hps : kw.Pointwise ps) : kw.Pointwise (threeFields h ps) := by
  subst h
  exact hps

/-- The conserved state in the first three of `n = 3` fields. -/
def conserved {n : ℕ} (h : n = 3) (u : Fin n → ℝ) : Euler.St := Euler.stOf fun k => u (Fin.cast h.symm k)

/-- Interface where the local Lax–Friedrichs (Rusanov) flux is smooth: no vacuum, no stagnation, and no tie between the two wave speeds. -/
structure SmoothRusanov (γ : ℝ) (L R : Euler.St) : Prop where
  rhoL : L.rho ≠ 0
  rhoR : R.rho ≠ 0
  soundL : γ * L.p γ / L.rho ≠ 0
  soundR : γ * R.p γ / R.rho ≠ 0
  velL : L.v ≠ 0
  velR : R.v ≠ 0
  speeds : |L.v| + L.a γ ≠ |R.v| + R.a γ

/-- Interface where the Roe flux is smooth: positive densities and sound speeds, no wave of the Roe average at rest, and the entropy fix
not active. Equal states of nonzero and non-sonic velocity qualify. -/
structure SmoothRoe (γ : ℝ) (L R : Euler.St) : Prop where
  rhoL : 0 < L.rho
  rhoR : 0 < R.rho
  soundL : γ * L.p γ / L.rho ≠ 0
  soundR : γ * R.p γ / R.rho ≠ 0
  sound : 0 < (γ - 1) * ((Euler.roeAverages γ L R).2.2.1 - 1 / 2 * (Euler.roeAverages γ L R).2.1 * (Euler.roeAverages γ L R).2.1)
  wave1 : (Euler.roeAverages γ L R).2.1 ≠ 0
  wave0 : (Euler.roeAverages γ L R).2.1 - (Euler.roeAverages γ L R).2.2.2 ≠ 0
  wave2 : (Euler.roeAverages γ L R).2.1 + (Euler.roeAverages γ L R).2.2.2 ≠ 0
  fix0 : 2 * ((R.v - R.a γ) - (L.v - L.a γ)) < |(Euler.roeAverages γ L R).2.1 - (Euler.roeAverages γ L R).2.2.2|
  fix2 : 2 * ((R.v + R.a γ) - (L.v + L.a γ)) < |(Euler.roeAverages γ L R).2.1 + (Euler.roeAverages γ L R).2.2.2|

lemma flux_analytic {n : ℕ} (h : n = 3) (γ : ℝ) (u : Fin n → ℝ) (h0 : (conserved h u).rho ≠ 0) (f : Fin n) :
    AnalyticAt ℝ (fun u => (threeFields h (Euler.rusanovSpec γ)).flux u f) u := by
  subst h
  exact ((Euler.anSt_of u).flux h0).vec f

lemma rusanov_analytic {n : ℕ} (h : n = 3) (γ : ℝ) (q : (Fin n → ℝ) × (Fin n → ℝ)) (hq : SmoothRusanov γ (conserved h q.1) (conserved h q.2)) (f : Fin n) :
    AnalyticAt ℝ (fun u : (Fin n → ℝ) × (Fin n → ℝ) => (threeFields h (Euler.rusanovSpec γ)).num u.1 u.2 f) q := by
  subst h
  exact ((Euler.anSt_fst q).rusanov (Euler.anSt_snd q) hq.rhoL hq.rhoR hq.soundL hq.soundR hq.velL hq.velR hq.speeds).vec f

lemma roe_analytic {n : ℕ} (h : n = 3) (γ : ℝ) (q : (Fin n → ℝ) × (Fin n → ℝ)) (hq : SmoothRoe γ (conserved h q.1) (conserved h q.2)) (f : Fin n) :
    AnalyticAt ℝ (fun u : (Fin n → ℝ) × (Fin n → ℝ) => (threeFields h (Euler.roeSpec γ)).num u.1 u.2 f) q := by
  subst h
  exact ((Euler.anSt_fst q).roe (Euler.anSt_snd q) hq.rhoL hq.rhoR hq.soundL hq.soundR hq.sound hq.wave1 hq.wave0 hq.wave2 hq.fix0 hq.fix2).vec f

section
variable {s : Sol ℝ} {lib : GaussLib ℝ} {p : ℕ}

/-- **C76, Euler with Rusanov.** -/
theorem C76_smooth_rusanov (hb : s.Built lib p) (hk : s.BcKnown) (hNF : s.NF = 3) (γ : ℝ) (a : ℕ → ℕ → ℝ) (x w : ℕ → ℝ)
    (hpts : ∀ e, 1 ≤ e → e ≤ s.NE → ∀ g < p + 1, (conserved hNF fun f' => (cellPoly (filled s a) e f').eval (x g)).rho ≠ 0)
    (hfaces : ∀ i ≤ s.NE, SmoothRusanov γ (conserved hNF (leftState (filled s a) i)) (conserved hNF (rightState (filled s a) i))) :
    SmoothAt p x w s (threeFields hNF (Euler.rusanovSpec γ)).flux (threeFields hNF (Euler.rusanovSpec γ)).num a :=
  C76_smooth hb hk _ a x w (fun e h1 h2 g hg f => flux_analytic hNF γ _ (hpts e h1 h2 g hg) f)
    (fun i hi f => rusanov_analytic hNF γ _ (hfaces i hi) f)

/-- **C76, Euler with Roe.** -/
theorem C76_smooth_roe (hb : s.Built lib p) (hk : s.BcKnown) (hNF : s.NF = 3) (γ : ℝ) (a : ℕ → ℕ → ℝ) (x w : ℕ → ℝ)
    (hpts : ∀ e, 1 ≤ e → e ≤ s.NE → ∀ g < p + 1, (conserved hNF fun f' => (cellPoly (filled s a) e f').eval (x g)).rho ≠ 0)
    (hfaces : ∀ i ≤ s.NE, SmoothRoe γ (conserved hNF (leftState (filled s a) i)) (conserved hNF (rightState (filled s a) i))) :
    SmoothAt p x w s (threeFields hNF (Euler.roeSpec γ)).flux (threeFields hNF (Euler.roeSpec γ)).num a :=
  C76_smooth hb hk _ a x w (fun e h1 h2 g hg f => flux_analytic hNF γ _ (hpts e h1 h2 g hg) f)
    (fun i hi f => roe_analytic hNF γ _ (hfaces i hi) f)

end

/-! ### Concrete cases -/

/-- The first step of a run to a short final time `T` from three periodic cells of order 2: its error is at most `C T^7` with 'rk6'. -/
example : ∃ (y : ℝ → ℕ → ℕ → ℝ) (C δ : ℝ), 0 < δ ∧
    SolvesNear 2 (realGauss 3).1.val (realGauss 3).2.val (Ex.solR 2) (Advection.spec (K := ℝ) 1).flux (Advection.spec (K := ℝ) 1).num y ∧
    ∀ T : ℝ, 0 < T → T < δ → ∀ n < 3, ∀ e, 1 ≤ e → e ≤ 3 →
      |(integrate ⟨residual, fun a => .ok a⟩ ⟨"rk6", T, 2, 1 / 2⟩ (Ex.solR 2) 1).sol.u.val n (e * 1 + 0) - y T n (e * 1 + 0)| ≤ C * T ^ 7 := by
  have hb := Ex.solR_built 2
  have hk : (Ex.solR 2).BcKnown := ⟨.inl (by decide), .inl (by decide)⟩
  obtain ⟨y, h0, hs, hy⟩ := C76_exact_solution (p := 2) (Advection.spec (K := ℝ) (Ex.solR 2).NF) (Ex.solR 2).u.val (realGauss 3).1.val (realGauss 3).2.val
    (C76_smooth_advection hb hk _ _ _)
  obtain ⟨C, δ, hδ, h⟩ := C76_local_error hb hk (Advection.spec (K := ℝ) (Ex.solR 2).NF) (Advection.pointwise _) "rk6" (by simp) y hs hy
  refine ⟨y, C, min δ (1 / 20), by positivity, hy, fun T hT hTδ n hn e h1 h2 => ?_⟩
  have hT1 : T < δ := hTδ.trans_le (min_le_left _ _)
  have hT2 : T < 1 / 20 := hTδ.trans_le (min_le_right _ _)
  have hcfl : 1 / 10 ^ 14 ≤ (Ex.solR 2).dx * (1 / 2 : ℝ) / (2 * ((2 : ℕ) : ℝ) + 1) := by
    show 1 / 10 ^ 14 ≤ (1 / 2 : ℝ) * (1 / 2 : ℝ) / (2 * ((2 : ℕ) : ℝ) + 1)
    norm_num
  have hnf := (advection_progress hb rfl (fun _ => rfl) hcfl).never_fails (deck := ⟨"rk6", T, 2, 1 / 2⟩) (keepsClock_off fun _ => rfl) (schemeFor "rk6")
    (Like.refl _) (show (0 : ℝ) ≤ T from hT.le) (show 2 ≤ 2 from le_rfl)
  have hst : (integrate ⟨residual, fun a => .ok a⟩ ⟨"rk6", T, 2, 1 / 2⟩ (Ex.solR 2) 0).status = .running ∧
      (integrate ⟨residual, fun a => .ok a⟩ ⟨"rk6", T, 2, 1 / 2⟩ (Ex.solR 2) 0).sol = Ex.solR 2 := by
    unfold integrate Scheme.run runLoop
    rw [Function.iterate_zero, id]
    exact ⟨rfl, rfl⟩
  have hdt : getNextTimeStep (Ex.solR 2) (integrate ⟨residual, fun a => .ok a⟩ ⟨"rk6", T, 2, 1 / 2⟩ (Ex.solR 2) 0).tout (1 / 2) T = .ok (T - 0, true, true) := by
    have hc : cflTimeStep (Ex.solR 2) (1 / 2 : ℝ) = .ok (.fin (1 / 20)) := by
      unfold cflTimeStep
      show (if (1 : ℝ) * (2 * ((2 : ℕ) : ℝ) + 1) = 0 then _ else Except.ok (Fl.fin ((1 / 2 : ℝ) * (1 / 2) / (1 * (2 * ((2 : ℕ) : ℝ) + 1))))) = _
      rw [if_neg (by norm_num)]
      norm_num
    unfold getNextTimeStep
    rw [hc]
    simp only [sanityCheckDt]
    rw [if_neg (by norm_num)]
    simp only [adjustForOutput]
    rw [if_pos]
    · rfl
    · show T - 0 < 1 / 20
      linarith
  have := h (fun a => .ok a) (fun _ => rfl) ⟨"rk6", T, 2, 1 / 2⟩ rfl (Ex.solR 2) (Like.refl _) 0 (T - 0) true true hst.1 (by rw [hst.2]; exact hdt)
    (hnf 1) (by rw [hst.2]; exact fun n hn e h1 h2 f hf => (h0 n hn e h1 h2 f hf).symm) (by rw [sub_zero, abs_of_pos hT]; exact hT1) n hn e h1 h2 0 (show 0 < 1 by norm_num)
  rw [sub_zero, abs_of_pos hT] at this
  exact this

lemma st_ext {a b : Euler.St} (h1 : a.rho = b.rho) (h2 : a.m = b.m) (h3 : a.E = b.E) : a = b := by
  cases a; cases b; simp_all

/-- Conserved states of density 1 and sound speed 1 (`γ = 7/5`) with velocity 10 (odd cells) and 11 (even cells). -/
noncomputable def Ex.gasState (e f : ℕ) : ℝ :=
  if f = 0 then 1 else if f = 1 then (if e % 2 = 1 then 10 else 11) else (if e % 2 = 1 then 725 / 14 else 436 / 7)

/-- Two periodic cells with these states, any order; two jumps, both supersonic. -/
noncomputable def Ex.gas (p : ℕ) (riemann : String) : Sol ℝ :=
  { Ex.solR p with kw := Euler.physics (7 / 5) riemann, NE := 2, NF := 3, u := ⟨p + 1, 12, fun n c => if n = 0 then Ex.gasState (c / 3) (c % 3) else 0⟩ }

lemma Ex.gas_built (p : ℕ) (riemann : String) : (Ex.gas p riemann).Built realGauss p where
  nodes := (Ex.solR_built p).nodes
  gauss := (Ex.solR_built p).gauss
  basis := rfl
  NF := Nat.succ_pos 2
  NE := Nat.succ_pos 1
  rows := rfl
  cols := rfl
  dx := (Ex.solR_built p).dx
  minv := (Ex.solR_built p).minv
  enh := fun en h => by cases h

lemma Ex.gas_bc (p : ℕ) (riemann : String) : (Ex.gas p riemann).BcKnown := ⟨.inl ⟨rfl, rfl⟩, .inl ⟨rfl, rfl⟩⟩

lemma Ex.gas_cell (p : ℕ) (riemann : String) {e f : ℕ} (he : e ≤ 3) (hf : f < 3) :
    cellPoly (filled (Ex.gas p riemann) (Ex.gas p riemann).u.val) e f = C (Ex.gasState e f) := by
  have hv : ∀ n, (filled (Ex.gas p riemann) (Ex.gas p riemann).u.val).u.val n (e * 3 + f) = if n = 0 then Ex.gasState e f else 0 := by
    intro n
    rw [filled_val (Ex.gas_built p riemann)]
    have hcol : (Ex.gas p riemann).bcCol (e * 3 + f) = (if e = 0 then 2 * 3 + f else if e = 3 then 3 + f else e * 3 + f) := by
      interval_cases e <;> interval_cases f <;> rfl
    rw [hcol]
    show (if n = 0 then _ else (0 : ℝ)) = _
    by_cases hn : n = 0
    · rw [if_pos hn, if_pos hn]
      interval_cases e <;> interval_cases f <;> norm_num [Ex.gasState]
    · rw [if_neg hn, if_neg hn]
  unfold cellPoly legSeries
  have hrows : (filled (Ex.gas p riemann) (Ex.gas p riemann).u.val).u.rows = p + 1 := rfl
  rw [hrows, Finset.sum_range_succ']
  have h0 : ∀ n, (filled (Ex.gas p riemann) (Ex.gas p riemann).u.val).u.val n (e * (filled (Ex.gas p riemann) (Ex.gas p riemann).u.val).NF + f) = if n = 0 then Ex.gasState e f else 0 := hv
  simp only [h0]
  simp [legendre_zero]

lemma Ex.gas_left (p : ℕ) (riemann : String) {i : ℕ} (hi : i ≤ 2) :
    conserved rfl (leftState (filled (Ex.gas p riemann) (Ex.gas p riemann).u.val) i) = ⟨Ex.gasState i 0, Ex.gasState i 1, Ex.gasState i 2⟩ := by
  have h : ∀ f : Fin 3, leftState (filled (Ex.gas p riemann) (Ex.gas p riemann).u.val) i f = Ex.gasState i f := by
    intro f
    show (cellPoly (filled (Ex.gas p riemann) (Ex.gas p riemann).u.val) i f).eval 1 = _
    rw [Ex.gas_cell p riemann (by omega) f.2, eval_C]
  exact st_ext (h 0) (h 1) (h 2)

lemma Ex.gas_right (p : ℕ) (riemann : String) {i : ℕ} (hi : i ≤ 2) :
    conserved rfl (rightState (filled (Ex.gas p riemann) (Ex.gas p riemann).u.val) i) = ⟨Ex.gasState (i + 1) 0, Ex.gasState (i + 1) 1, Ex.gasState (i + 1) 2⟩ := by
  have h : ∀ f : Fin 3, rightState (filled (Ex.gas p riemann) (Ex.gas p riemann).u.val) i f = Ex.gasState (i + 1) f := by
    intro f
    show (cellPoly (filled (Ex.gas p riemann) (Ex.gas p riemann).u.val) (i + 1) f).eval (-1) = _
    rw [Ex.gas_cell p riemann (by omega) f.2, eval_C]
  exact st_ext (h 0) (h 1) (h 2)

lemma Ex.gas_points (p : ℕ) (riemann : String) (x : ℕ → ℝ) (e : ℕ) (h1 : 1 ≤ e) (h2 : e ≤ (Ex.gas p riemann).NE) (g : ℕ) (_ : g < p + 1) :
    (conserved rfl fun f' : Fin (Ex.gas p riemann).NF => (cellPoly (filled (Ex.gas p riemann) (Ex.gas p riemann).u.val) e f').eval (x g)).rho ≠ 0 := by
  have h2 : e ≤ 2 := h2
  have : (conserved rfl fun f' : Fin (Ex.gas p riemann).NF => (cellPoly (filled (Ex.gas p riemann) (Ex.gas p riemann).u.val) e f').eval (x g)).rho =
      (cellPoly (filled (Ex.gas p riemann) (Ex.gas p riemann).u.val) e 0).eval (x g) := rfl
  rw [this, Ex.gas_cell p riemann (by omega) (by omega), eval_C]
  norm_num [Ex.gasState]

lemma Ex.slow_a : (⟨1, 10, 725 / 14⟩ : Euler.St).a (7 / 5) = 1 := by
  unfold Euler.St.a Euler.St.p Euler.St.v
  norm_num

lemma Ex.fast_a : (⟨1, 11, 436 / 7⟩ : Euler.St).a (7 / 5) = 1 := by
  unfold Euler.St.a Euler.St.p Euler.St.v
  norm_num

/-- Both jumps are smooth points of the Rusanov flux. -/
lemma Ex.gas_rusanov {i : ℕ} (hi : i ≤ 2) : SmoothRusanov (7 / 5) ⟨Ex.gasState i 0, Ex.gasState i 1, Ex.gasState i 2⟩
    ⟨Ex.gasState (i + 1) 0, Ex.gasState (i + 1) 1, Ex.gasState (i + 1) 2⟩ := by
  have hA : SmoothRusanov (7 / 5) ⟨1, 10, 725 / 14⟩ ⟨1, 11, 436 / 7⟩ := by
    constructor <;> (try rw [Ex.slow_a, Ex.fast_a]) <;> norm_num [Euler.St.p, Euler.St.v]
  have hB : SmoothRusanov (7 / 5) ⟨1, 11, 436 / 7⟩ ⟨1, 10, 725 / 14⟩ := by
    constructor <;> (try rw [Ex.slow_a, Ex.fast_a]) <;> norm_num [Euler.St.p, Euler.St.v]
  interval_cases i <;> norm_num [Ex.gasState]
  · exact hB
  · exact hA
  · exact hB

/-- Both jumps are smooth points of the Roe flux: the average has velocity 21/2 and squared sound speed 21/20. -/
lemma Ex.gas_roe {i : ℕ} (hi : i ≤ 2) : SmoothRoe (7 / 5) ⟨Ex.gasState i 0, Ex.gasState i 1, Ex.gasState i 2⟩
    ⟨Ex.gasState (i + 1) 0, Ex.gasState (i + 1) 1, Ex.gasState (i + 1) 2⟩ := by
  have rA : Euler.roeAverages (7 / 5) ⟨1, 10, 725 / 14⟩ ⟨1, 11, 436 / 7⟩ = (1, 21 / 2, 231 / 4, √(21 / 20)) := by
    unfold Euler.roeAverages Euler.St.H Euler.St.p Euler.St.v
    norm_num
  have rB : Euler.roeAverages (7 / 5) ⟨1, 11, 436 / 7⟩ ⟨1, 10, 725 / 14⟩ = (1, 21 / 2, 231 / 4, √(21 / 20)) := by
    unfold Euler.roeAverages Euler.St.H Euler.St.p Euler.St.v
    norm_num
  obtain ⟨r, hr, h1, h2⟩ : ∃ r, √(21 / 20 : ℝ) = r ∧ 0 < r ∧ r < 2 :=
    ⟨_, rfl, Real.sqrt_pos.mpr (by norm_num), (Real.sqrt_lt' (by norm_num)).mpr (by norm_num)⟩
  rw [hr] at rA rB
  have p0 : |(21 / 2 : ℝ) - r| = 21 / 2 - r := abs_of_pos (by linarith)
  have p2 : |(21 / 2 : ℝ) + r| = 21 / 2 + r := abs_of_pos (by linarith)
  have n0 : (21 / 2 : ℝ) - r ≠ 0 := ne_of_gt (by linarith)
  have n2 : (21 / 2 : ℝ) + r ≠ 0 := ne_of_gt (by linarith)
  have hA : SmoothRoe (7 / 5) ⟨1, 10, 725 / 14⟩ ⟨1, 11, 436 / 7⟩ := by
    constructor <;> (try rw [Ex.slow_a, Ex.fast_a]) <;> (try rw [rA]) <;> first | exact n0 | exact n2 | skip
    all_goals (try simp only [p0, p2])
    all_goals norm_num [Euler.St.p, Euler.St.v]
    all_goals linarith
  have hB : SmoothRoe (7 / 5) ⟨1, 11, 436 / 7⟩ ⟨1, 10, 725 / 14⟩ := by
    constructor <;> (try rw [Ex.slow_a, Ex.fast_a]) <;> (try rw [rB]) <;> first | exact n0 | exact n2 | skip
    all_goals (try simp only [p0, p2])
    all_goals norm_num [Euler.St.p, Euler.St.v]
    all_goals linarith
  interval_cases i <;> norm_num [Ex.gasState]
  · exact hB
  · exact hA
  · exact hB

/-- The equations are smooth there with Rusanov and with Roe, so they have a solution near time 0 to compare with. -/
example (p : ℕ) (x w : ℕ → ℝ) : SmoothAt p x w (Ex.gas p "rusanov") (Euler.rusanovSpec (7 / 5)).flux (Euler.rusanovSpec (7 / 5)).num (Ex.gas p "rusanov").u.val ∧
    ∃ y : ℝ → ℕ → ℕ → ℝ, SolvesNear p x w (Ex.gas p "roe") (Euler.roeSpec (7 / 5)).flux (Euler.roeSpec (7 / 5)).num y := by
  refine ⟨C76_smooth_rusanov (Ex.gas_built p _) (Ex.gas_bc p _) rfl _ _ x w (Ex.gas_points p _ x) (fun i hi => ?_), ?_⟩
  · have h := Ex.gas_rusanov hi
    rw [← Ex.gas_left p "rusanov" hi, ← Ex.gas_right p "rusanov" hi] at h
    exact h
  · obtain ⟨y, -, -, h⟩ := C76_exact_solution (s := Ex.gas p "roe") (Euler.roeSpec (7 / 5)) (Ex.gas p "roe").u.val x w
      (C76_smooth_roe (Ex.gas_built p _) (Ex.gas_bc p _) rfl _ _ x w (Ex.gas_points p _ x) (fun i hi => by
        have h := Ex.gas_roe hi
        rw [← Ex.gas_left p "roe" hi, ← Ex.gas_right p "roe" hi] at h
        exact h))
    exact ⟨y, h⟩

end Dg1d.Props
