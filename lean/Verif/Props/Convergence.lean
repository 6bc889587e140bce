import Mathlib.Analysis.SpecialFunctions.Exponential
import Verif.Proofs.ConvergenceLinear
import Verif.Props.LocalError
import Verif.Props.Energy
import Verif.Proofs.Progress

/-! # Convergence of whole runs to the solution of the semi-discrete equations (C77) -/

set_option linter.unusedSectionVars false

open Polynomial Dg1d.Spec Filter Topology Asymptotics

namespace Dg1d.Props

/-- A run that has not failed by iteration `k + d` had not failed by iteration `k`. -/
lemma not_failed_before {env : Env ℝ} {deck : RkDeck ℝ} {s : Sol ℝ} {k : ℕ} (d : ℕ)
    (h : ∀ e, (integrate env deck s (k + d)).status ≠ .failed e) (e : PyErr) : (integrate env deck s k).status ≠ .failed e := by
  induction d with
  | zero => exact h e
  | succ d ih =>
    refine ih fun e he => h e ?_
    have : integrate env deck s (k + d + 1) = integrate env deck s (k + d) := by
      unfold integrate Scheme.run at he ⊢
      rw [runLoop_succ, loopBody_stopped (by rw [he]; simp)]
    rw [← Nat.add_assoc, this, he]

/-- Each output is the solution of some iteration. -/
lemma log_states {env : Env ℝ} (hk : env.KeepsClock) (deck : RkDeck ℝ) (s : Sol ℝ) (k : ℕ) :
    ∀ o ∈ (integrate env deck s k).log, ∃ j ≤ k, o.sol = (integrate env deck s j).sol := by
  induction k with
  | zero =>
    intro o ho
    have h0 : (integrate env deck s 0).sol = s ∧ (integrate env deck s 0).log = [⟨0, 0, s⟩] := by
      show (initLoop deck s).sol = s ∧ (initLoop deck s).log = _
      unfold initLoop
      simp only
      split <;> exact ⟨rfl, rfl⟩
    rw [h0.2, List.mem_singleton] at ho
    exact ⟨0, le_rfl, by rw [h0.1, ho]⟩
  | succ k ih =>
    intro o ho
    have hold : o ∈ (integrate env deck s k).log → ∃ j ≤ k + 1, o.sol = (integrate env deck s j).sol := fun h => by
      obtain ⟨j, hj, hs⟩ := ih o h
      exact ⟨j, by omega, hs⟩
    rcases integrate_log env hk deck s k with h | ⟨n, dt, h⟩
    · rw [h] at ho
      exact hold ho
    · rw [h, List.mem_append, List.mem_singleton] at ho
      rcases ho with ho | ho
      · exact hold ho
      · exact ⟨k + 1, le_rfl, by rw [ho]⟩

lemma integrate_zero_sol (env : Env ℝ) (deck : RkDeck ℝ) (s : Sol ℝ) : (integrate env deck s 0).sol = s := by
  show (initLoop deck s).sol = s
  unfold initLoop
  simp only
  split <;> rfl

/-- An iteration leaves the solution alone or takes a step. -/
lemma iteration_cases {env : Env ℝ} {deck : RkDeck ℝ} {s : Sol ℝ} {k : ℕ} :
    (integrate env deck s (k + 1)).sol = (integrate env deck s k).sol ∨
    (integrate env deck s k).status = .running ∧ ∃ dt o d,
      getNextTimeStep (integrate env deck s k).sol (integrate env deck s k).tout deck.cfl deck.finaltime = .ok (dt, o, d) := by
  by_cases hr : (integrate env deck s k).status = .running
  · cases hd : getNextTimeStep (integrate env deck s k).sol (integrate env deck s k).tout deck.cfl deck.finaltime with
    | error e => exact .inl (integrate_idle env deck s k (.inr ⟨e, hd⟩))
    | ok v => exact .inr ⟨hr, v.1, v.2.1, v.2.2, rfl⟩
  · exact .inl (integrate_idle env deck s k (.inl hr))

section
variable {s : Sol ℝ} {lib : GaussLib ℝ} {p : ℕ}

/-- The degrees of freedom along a run as a sequence of textbook steps. -/
lemma run_steps (hb : s.Built lib p) (hk : s.BcKnown) (ps : PhysSpec ℝ s.NF) (hps : s.kw.Pointwise ps)
    {lim : Sol ℝ → Except PyErr (Sol ℝ)} (hlim : ∀ a, lim a = .ok a) (deck : RkDeck ℝ) {sol : Sol ℝ} (hsol : Like sol s) (ht : sol.t ≤ deck.finaltime)
    {k : ℕ} (hok : ∀ e, (integrate ⟨residual, lim⟩ deck sol k).status ≠ .failed e) {j : ℕ} (hj : j < k) :
    (integrate ⟨residual, lim⟩ deck sol j).sol.t ≤ (integrate ⟨residual, lim⟩ deck sol (j + 1)).sol.t ∧
    dofs p s (integrate ⟨residual, lim⟩ deck sol (j + 1)).sol.u.val = rkStep (tableOf deck.rk).coeffs (tableOf deck.rk).beta
      (fun x i => dgRhs p (lib (p + 1)).1.val (lib (p + 1)).2.val s ps.flux ps.num (cells p s x) i.1 (i.2.1 + 1) i.2.2)
      ((integrate ⟨residual, lim⟩ deck sol (j + 1)).sol.t - (integrate ⟨residual, lim⟩ deck sol j).sol.t)
      (dofs p s (integrate ⟨residual, lim⟩ deck sol j).sol.u.val) := by
  refine ⟨time_mono_run (keepsClock_off hlim) (schemeFor deck.rk) deck sol ht j, ?_⟩
  have hok' : ∀ e, (integrate ⟨residual, lim⟩ deck sol (j + 1)).status ≠ .failed e := by
    obtain ⟨d, rfl⟩ := Nat.exists_eq_add_of_le (show j + 1 ≤ k by omega)
    exact not_failed_before d hok
  rcases iteration_cases (env := ⟨residual, lim⟩) (deck := deck) (s := sol) (k := j) with hidle | ⟨hr, dt, o, d, hdt⟩
  · rw [hidle, sub_self, Converge.rkStep_incr, zero_smul, add_zero]
  · obtain ⟨e1, e2⟩ := step_dofs hb hk ps hps hlim deck hsol j dt o d hr hdt hok'
    rw [e2, add_sub_cancel_left]
    exact e1

/-- **C77 (convergence in time).** Let `y` solve the semi-discrete DG equations on `[0, T]` and let their right-hand sides be analytic
along `y`. With 'rk3', 'rk4', 'low_storage_rk4', 'rk5' or 'rk6' and no limiter there are `C` and `H > 0`, depending on the scheme and on
`y` only, such that in every run of the code from the coefficients `y 0` whose steps so far were at most `h ≤ H` and which has not
failed, the coefficients at the time `t` reached are within `C h^q` of those of `y` at that time; `q` is the order promised by the name
of the scheme. The steps may vary, so the shortened steps before outputs are covered. -/
theorem C77_convergence (hb : s.Built lib p) (hk : s.BcKnown) (ps : PhysSpec ℝ s.NF) (hps : s.kw.Pointwise ps)
    (rk : String) (hrk : rk ∈ ["rk3", "rk4", "low_storage_rk4", "rk5", "rk6"]) (y : ℝ → ℕ → ℕ → ℝ) (T : ℝ) (hT : 0 ≤ T)
    (hsmooth : ∀ t, 0 ≤ t → t ≤ T → SmoothAt p (lib (p + 1)).1.val (lib (p + 1)).2.val s ps.flux ps.num (y t))
    (hy : SolvesOn p (lib (p + 1)).1.val (lib (p + 1)).2.val s ps.flux ps.num T y) :
    ∃ C H : ℝ, 0 ≤ C ∧ 0 < H ∧ ∀ (lim : Sol ℝ → Except PyErr (Sol ℝ)), (∀ a, lim a = .ok a) →
      ∀ (deck : RkDeck ℝ), deck.rk = rk → ∀ sol, Like sol s → sol.t ≤ deck.finaltime →
      (∀ n < p + 1, ∀ e, 1 ≤ e → e ≤ s.NE → ∀ f < s.NF, sol.u.val n (e * s.NF + f) = y 0 n (e * s.NF + f)) →
      ∀ h, 0 ≤ h → h ≤ H → ∀ k, (∀ e, (integrate ⟨residual, lim⟩ deck sol k).status ≠ .failed e) →
      (∀ j < k, (integrate ⟨residual, lim⟩ deck sol (j + 1)).sol.t - (integrate ⟨residual, lim⟩ deck sol j).sol.t ≤ h) →
      (integrate ⟨residual, lim⟩ deck sol k).sol.t - sol.t ≤ T →
      ∀ n < p + 1, ∀ e, 1 ≤ e → e ≤ s.NE → ∀ f < s.NF,
        |(integrate ⟨residual, lim⟩ deck sol k).sol.u.val n (e * s.NF + f) - y ((integrate ⟨residual, lim⟩ deck sol k).sol.t - sol.t) n (e * s.NF + f)| ≤
          C * h ^ promisedOrder rk := by
  set f : (Dof p s → ℝ) → (Dof p s → ℝ) := fun x i => dgRhs p (lib (p + 1)).1.val (lib (p + 1)).2.val s ps.flux ps.num (cells p s x) i.1 (i.2.1 + 1) i.2.2 with hf
  have hfa : ∀ t, 0 ≤ t → t ≤ T → AnalyticAt ℝ f (dofs p s (y t)) := by
    intro t h0 h1
    rw [analyticAt_pi_iff]
    intro i
    exact hsmooth t h0 h1 i.1 i.1.2 (i.2.1 + 1) (by omega) (by omega) i.2.2
  have hsol : ∀ t, 0 ≤ t → t ≤ T → ∀ᶠ τ in 𝓝 t, HasDerivAt (fun t => dofs p s (y t)) (f (dofs p s (y τ))) τ := by
    intro t h0 h1
    filter_upwards [hy t h0 h1] with τ ht
    rw [hasDerivAt_pi]
    intro i
    have := ht i.1 i.1.2 (i.2.1 + 1) (by omega) (by omega) i.2.2
    rw [dgRhs_congr hb hk (fun n hn e h1 h2 f hf => (cells_dofs (y τ) n hn e h1 h2 f hf).symm) _ _ (by omega) (by omega)] at this
    exact this
  have hq1 : 1 ≤ promisedOrder rk := by
    fin_cases hrk <;> decide
  obtain ⟨C, H, hC, hH, hconv⟩ := Converge.converges (tableOf rk).coeffs (tableOf rk).beta (tableOf_explicit rk) hq1 (C08_order rk hrk).1 hT
    (y := fun t => dofs p s (y t)) hfa hsol
  refine ⟨C, H, hC, hH, ?_⟩
  intro lim hlim deck hdeck sol hsolL ht hinit h h0 hhH k hok hsteps hTk n hn e h1 h2 fi hfi
  have hkc := keepsClock_off hlim
  set run := fun k => integrate ⟨residual, lim⟩ deck sol k with hrun
  have h00 : (run 0).sol = sol := integrate_zero_sol _ deck sol
  have hres := hconv (fun k => dofs p s (run k).sol.u.val) (fun k => (run k).sol.t - sol.t) h h0 hhH
    (by
      rw [h00]
      exact dofs_congr hinit)
    (by rw [h00, sub_self]) k
    (by
      intro j hj
      obtain ⟨g1, g2⟩ := run_steps hb hk ps hps hlim deck hsolL ht hok hj
      have g3 : (run (j + 1)).sol.t - (run j).sol.t ≤ h := hsteps j hj
      refine ⟨sub_le_sub_right g1 _, ?_, ?_⟩
      · linarith
      · rw [sub_sub_sub_cancel_right, ← hdeck]
        exact g2)
    hTk
  have hcomp := norm_le_pi_norm (dofs p s (run k).sol.u.val - dofs p s (y ((run k).sol.t - sol.t))) (⟨n, hn⟩, ⟨e - 1, by omega⟩, ⟨fi, hfi⟩)
  refine le_trans (le_of_eq ?_) (hcomp.trans hres)
  rw [Pi.sub_apply, Real.norm_eq_abs]
  unfold dofs
  simp only
  rw [Nat.sub_add_cancel h1]

/-- **C77, the comparison solution.** Where the right-hand sides are analytic the semi-discrete equations have a solution on some
interval `[0, T]`, `T > 0`, along which they stay analytic, so `C77_convergence` applies to every smooth start. -/
theorem C77_exact_solution (ps : PhysSpec ℝ s.NF) (a : ℕ → ℕ → ℝ) (x w : ℕ → ℝ) (hsmooth : SmoothAt p x w s ps.flux ps.num a) :
    ∃ (y : ℝ → ℕ → ℕ → ℝ) (T : ℝ), 0 < T ∧
      (∀ n < p + 1, ∀ e, 1 ≤ e → e ≤ s.NE → ∀ f < s.NF, y 0 n (e * s.NF + f) = a n (e * s.NF + f)) ∧
      (∀ t, 0 ≤ t → t ≤ T → SmoothAt p x w s ps.flux ps.num (y t)) ∧ SolvesOn p x w s ps.flux ps.num T y := by
  obtain ⟨y, h0, hs, hy⟩ := C76_exact_solution ps a x w hsmooth
  set f : (Dof p s → ℝ) → (Dof p s → ℝ) := fun z i => dgRhs p x w s ps.flux ps.num (cells p s z) i.1 (i.2.1 + 1) i.2.2 with hf
  have hfa : AnalyticAt ℝ f (dofs p s (y 0)) := by
    rw [analyticAt_pi_iff]
    intro i
    exact hs i.1 i.1.2 (i.2.1 + 1) (by omega) (by omega) i.2.2
  have hcont : ContinuousAt (fun t => dofs p s (y t)) 0 := by
    rw [continuousAt_pi]
    intro i
    exact (hy.self_of_nhds i.1 i.1.2 (i.2.1 + 1) (by omega) (by omega) i.2.2).continuousAt
  have hev := (hcont.eventually hfa.eventually_analyticAt).and hy.eventually_nhds
  obtain ⟨ε, hε, hball⟩ := Metric.eventually_nhds_iff.mp hev
  have hin : ∀ t : ℝ, 0 ≤ t → t ≤ ε / 2 → dist t 0 < ε := by
    intro t h1 h2
    rw [Real.dist_eq, sub_zero, abs_of_nonneg h1]
    linarith
  refine ⟨y, ε / 2, by linarith, h0, ?_, ?_⟩
  · intro t h1 h2 n hn e he1 he2 fi
    have := analyticAt_pi_iff.mp (hball (hin t h1 h2)).1 (⟨n, hn⟩, ⟨e - 1, by omega⟩, fi)
    simp only [Nat.sub_add_cancel he1] at this
    exact this
  · intro t h1 h2
    exact (hball (hin t h1 h2)).2

/-- The right-hand sides of linear advection as a linear map of the degrees of freedom. -/
lemma advection_linear (hb : s.Built lib p) (x w : ℕ → ℝ) : IsLinearMap ℝ fun (d : Dof p s → ℝ) (i : Dof p s) =>
    dgRhs p x w s (Advection.spec (K := ℝ) s.NF).flux (Advection.spec (K := ℝ) s.NF).num (cells p s d) i.1 (i.2.1 + 1) i.2.2 := by
  have hcadd : ∀ (d d' : Dof p s → ℝ) n c, cells p s (d + d') n c = cells p s d n c + cells p s d' n c := by
    intro d d' n c
    unfold cells
    split_ifs
    · rfl
    · simp
  have hcsmul : ∀ (a : ℝ) (d : Dof p s → ℝ) n c, cells p s (a • d) n c = a * cells p s d n c := by
    intro a d n c
    unfold cells
    split_ifs
    · rfl
    · simp
  have hp : ∀ (d : Dof p s → ℝ) (e f : ℕ) (ξ : ℝ), (cellPoly (filled s (cells p s d)) e f).eval ξ =
      ∑ n ∈ Finset.range s.u.rows, (legendre ℝ n).eval ξ * cells p s d n (s.bcCol (e * s.NF + f)) := by
    intro d e f ξ
    unfold cellPoly legSeries
    rw [eval_finsetSum]
    refine Finset.sum_congr rfl fun n _ => ?_
    rw [eval_mul, eval_C, mul_comm]
    show _ * (filled s (cells p s d)).u.val n (e * s.NF + f) = _
    rw [filled_val hb]
  have hl : ∀ (d : Dof p s → ℝ) (i : ℕ) (f : Fin s.NF), leftState (filled s (cells p s d)) i f =
      ∑ n ∈ Finset.range s.basis.Ns, (s.faceW 1 false n * cells p s d n (s.bcCol (i * s.NF + f)) + s.faceW 1 true n * cells p s d n (s.bcCol ((i + 1) * s.NF + f))) := by
    intro d i f
    rw [leftState_filled hb]
    simp only [filled_val hb]
  have hrhs : ∀ (d : Dof p s → ℝ) (n e : ℕ) (f : Fin s.NF),
      dgRhs p x w s (Advection.spec (K := ℝ) s.NF).flux (Advection.spec (K := ℝ) s.NF).num (cells p s d) n e f =
      (2 * (n : ℝ) + 1) / s.dx * ((∑ g ∈ Finset.range (p + 1), w g * (derivative (legendre ℝ n)).eval (x g) * (cellPoly (filled s (cells p s d)) e f).eval (x g)) -
        (leftState (filled s (cells p s d)) e f * (legendre ℝ n).eval 1 - leftState (filled s (cells p s d)) (e - 1) f * (legendre ℝ n).eval (-1))) := by
    intro d n e f
    rfl
  have hpadd : ∀ (d d' : Dof p s → ℝ) (e f : ℕ) (ξ : ℝ), (cellPoly (filled s (cells p s (d + d'))) e f).eval ξ =
      (cellPoly (filled s (cells p s d)) e f).eval ξ + (cellPoly (filled s (cells p s d')) e f).eval ξ := by
    intro d d' e f ξ
    rw [hp, hp, hp, ← Finset.sum_add_distrib]
    exact Finset.sum_congr rfl fun n _ => by rw [hcadd]; ring
  have hpsmul : ∀ (a : ℝ) (d : Dof p s → ℝ) (e f : ℕ) (ξ : ℝ), (cellPoly (filled s (cells p s (a • d))) e f).eval ξ =
      a * (cellPoly (filled s (cells p s d)) e f).eval ξ := by
    intro a d e f ξ
    rw [hp, hp, Finset.mul_sum]
    exact Finset.sum_congr rfl fun n _ => by rw [hcsmul]; ring
  have hladd : ∀ (d d' : Dof p s → ℝ) (i : ℕ) (f : Fin s.NF), leftState (filled s (cells p s (d + d'))) i f =
      leftState (filled s (cells p s d)) i f + leftState (filled s (cells p s d')) i f := by
    intro d d' i f
    rw [hl, hl, hl, ← Finset.sum_add_distrib]
    exact Finset.sum_congr rfl fun n _ => by rw [hcadd, hcadd]; ring
  have hlsmul : ∀ (a : ℝ) (d : Dof p s → ℝ) (i : ℕ) (f : Fin s.NF), leftState (filled s (cells p s (a • d))) i f =
      a * leftState (filled s (cells p s d)) i f := by
    intro a d i f
    rw [hl, hl, Finset.mul_sum]
    exact Finset.sum_congr rfl fun n _ => by rw [hcsmul, hcsmul]; ring
  constructor
  · intro d d'
    funext i
    rw [Pi.add_apply, hrhs, hrhs, hrhs, hladd, hladd]
    simp only [hpadd, mul_add, Finset.sum_add_distrib]
    ring
  · intro a d
    funext i
    rw [Pi.smul_apply, smul_eq_mul, hrhs, hrhs, hlsmul, hlsmul]
    simp only [hpsmul]
    have : ∀ g, w g * (derivative (legendre ℝ i.1)).eval (x g) * (a * (cellPoly (filled s (cells p s d)) (i.2.1 + 1) i.2.2).eval (x g)) =
        a * (w g * (derivative (legendre ℝ i.1)).eval (x g) * (cellPoly (filled s (cells p s d)) (i.2.1 + 1) i.2.2).eval (x g)) := fun g => by ring
    simp only [this, ← Finset.mul_sum]
    ring

/-- **C77, linear advection: the exact solution.** The semi-discrete equations of linear advection have a solution for all times through
any coefficients. -/
theorem C77_advection_solution (hb : s.Built lib p) (x w : ℕ → ℝ) (a : ℕ → ℕ → ℝ) :
    ∃ y : ℝ → ℕ → ℕ → ℝ, (∀ n < p + 1, ∀ e, 1 ≤ e → e ≤ s.NE → ∀ f < s.NF, y 0 n (e * s.NF + f) = a n (e * s.NF + f)) ∧
      ∀ T, SolvesOn p x w s (Advection.spec (K := ℝ) s.NF).flux (Advection.spec (K := ℝ) s.NF).num T y := by
  set A : (Dof p s → ℝ) →L[ℝ] (Dof p s → ℝ) := LinearMap.toContinuousLinearMap (advection_linear hb x w).mk' with hA
  refine ⟨fun t => cells p s (NormedSpace.exp (t • A) (dofs p s a)), ?_, ?_⟩
  · intro n hn e h1 h2 f hf
    simp only [zero_smul, NormedSpace.exp_zero]
    exact cells_dofs a n hn e h1 h2 f hf
  · intro T τ _ _
    refine Eventually.of_forall fun t n hn e h1 h2 f => ?_
    have hd : HasDerivAt (fun t : ℝ => NormedSpace.exp (t • A) (dofs p s a)) (A (NormedSpace.exp (t • A) (dofs p s a))) t :=
      (hasDerivAt_exp_smul_const' (𝕂 := ℝ) A t).clm_apply (hasDerivAt_const t _) |>.congr_deriv (by simp)
    have hd' := hasDerivAt_pi.mp hd (⟨n, hn⟩, ⟨e - 1, by omega⟩, f)
    simp only [cells_val _ hn h1 h2 f]
    have he : A (NormedSpace.exp (t • A) (dofs p s a)) (⟨n, hn⟩, ⟨e - 1, by omega⟩, f) =
        dgRhs p x w s (Advection.spec (K := ℝ) s.NF).flux (Advection.spec (K := ℝ) s.NF).num (cells p s (NormedSpace.exp (t • A) (dofs p s a))) n e f := by
      show dgRhs p x w s _ _ _ n (e - 1 + 1) f = _
      rw [Nat.sub_add_cancel h1]
    rw [← he]
    exact hd'

/-- **C77, linear advection.** For linear advection there is no smallness condition: for every scheme among 'rk3', 'rk4',
'low_storage_rk4', 'rk5', 'rk6', every final time up to `T`, every order, boundary condition and enhancement and every CFL number whose
step `h = dx cfl / (2p+1)` is at least 1e-14 and at most `H`, the run without limiter reaches the final time, and each output is within
`C h^q` of the exact solution `y` of the semi-discrete equations, with the same `C` for all decks. -/
theorem C77_advection (hb : s.Built lib p) (hk : s.BcKnown) (hkw : s.kw = Advection.physics)
    (rk : String) (hrk : rk ∈ ["rk3", "rk4", "low_storage_rk4", "rk5", "rk6"]) (y : ℝ → ℕ → ℕ → ℝ) (T H : ℝ) (hT : 0 ≤ T)
    (hinit : ∀ n < p + 1, ∀ e, 1 ≤ e → e ≤ s.NE → ∀ f < s.NF, y 0 n (e * s.NF + f) = s.u.val n (e * s.NF + f))
    (hy : SolvesOn p (lib (p + 1)).1.val (lib (p + 1)).2.val s (Advection.spec (K := ℝ) s.NF).flux (Advection.spec (K := ℝ) s.NF).num T y) :
    ∃ C : ℝ, 0 ≤ C ∧ ∀ (lim : Sol ℝ → Except PyErr (Sol ℝ)), (∀ a, lim a = .ok a) →
      ∀ (deck : RkDeck ℝ), deck.rk = rk → s.t ≤ deck.finaltime → deck.finaltime - s.t ≤ T → 2 ≤ deck.nout →
      1 / 10 ^ 14 ≤ s.dx * deck.cfl / (2 * p + 1) → s.dx * deck.cfl / (2 * p + 1) ≤ H →
      (∃ k, (integrate ⟨residual, lim⟩ deck s k).status = .done) ∧
      ∀ k, ∀ o ∈ (integrate ⟨residual, lim⟩ deck s k).log, ∀ n < p + 1, ∀ e, 1 ≤ e → e ≤ s.NE → ∀ f < s.NF,
        |o.sol.u.val n (e * s.NF + f) - y (o.sol.t - s.t) n (e * s.NF + f)| ≤ C * (s.dx * deck.cfl / (2 * p + 1)) ^ promisedOrder rk := by
  set ps := Advection.spec (K := ℝ) s.NF with hpsdef
  have hps : s.kw.Pointwise ps := by
    rw [hkw]
    exact Advection.pointwise s.NF
  set A : (Dof p s → ℝ) →L[ℝ] (Dof p s → ℝ) := LinearMap.toContinuousLinearMap (advection_linear hb (lib (p + 1)).1.val (lib (p + 1)).2.val).mk' with hA
  have hsol : ∀ t, 0 ≤ t → t ≤ T → HasDerivAt (fun t => dofs p s (y t)) (A (dofs p s (y t))) t := by
    intro t h0 h1
    have ht := (hy t h0 h1).self_of_nhds
    rw [hasDerivAt_pi]
    intro i
    have := ht i.1 i.1.2 (i.2.1 + 1) (by omega) (by omega) i.2.2
    rw [dgRhs_congr hb hk (fun n hn e h1 h2 f hf => (cells_dofs (y t) n hn e h1 h2 f hf).symm) _ _ (by omega) (by omega)] at this
    exact this
  obtain ⟨C, hC, hconv⟩ := Converge.converges_linear A (tableOf_explicit rk) (C08_order rk hrk).1 hT (y := fun t => dofs p s (y t)) hsol H
  refine ⟨C, hC, ?_⟩
  intro lim hlim deck hdeck ht hTd hN hlo hhi
  have hkc := keepsClock_off hlim
  have hprog := advection_progress hb hkw hlim hlo
  have hnf : ∀ k e, (integrate ⟨residual, lim⟩ deck s k).status ≠ .failed e := fun k e => hprog.never_fails hkc (schemeFor deck.rk) (Like.refl s) ht hN k e
  refine ⟨hprog.finishes hkc (schemeFor deck.rk) (Like.refl s) ht hN, ?_⟩
  intro k₀ o ho n hn e h1 h2 fi hfi
  obtain ⟨k, -, hok⟩ := log_states hkc deck s k₀ o ho
  rw [hok]
  set run := fun k => integrate ⟨residual, lim⟩ deck s k with hrun
  have h00 : (run 0).sol = s := integrate_zero_sol _ deck s
  have hh0 : 0 ≤ s.dx * deck.cfl / (2 * (p : ℝ) + 1) := le_trans (by positivity) hlo
  have htime : (run k).sol.t - s.t ≤ T := by
    have : (run k).sol.t ≤ deck.finaltime := (timeInv_run hkc (schemeFor deck.rk) deck s ht k).hi
    linarith
  have hres := hconv (fun k => dofs p s (run k).sol.u.val) (fun k => (run k).sol.t - s.t) _ hh0 hhi
    (by
      rw [h00]
      exact (dofs_congr hinit).symm)
    (by rw [h00, sub_self]) k
    (by
      intro j hj
      obtain ⟨g1, g2⟩ := run_steps hb hk ps hps hlim deck (Like.refl s) ht (hnf k) hj
      refine ⟨sub_le_sub_right g1 _, ?_, ?_⟩
      · rw [sub_sub_sub_cancel_right]
        rcases iteration_cases (env := ⟨residual, lim⟩) (deck := deck) (s := s) (k := j) with hidle | ⟨hr, dt, o, d, hdt⟩
        · have hidle : (run (j + 1)).sol = (run j).sol := hidle
          rw [hidle, sub_self]
          exact hh0
        · have hlike := like_run hlim deck (Like.refl s) j
          have e2 : (run (j + 1)).sol.t = (run j).sol.t + dt := (step_dofs hb hk ps hps hlim deck (Like.refl s) j dt o d hr hdt (hnf (j + 1))).2
          have hd := advection_dt (hlike.setup.kw.trans hkw) hdt
          rw [hlike.setup.dx, hlike.setup.basis, show s.basis.p = p by rw [hb.basis]; rfl] at hd
          linarith
      · rw [sub_sub_sub_cancel_right, ← hdeck]
        exact g2)
    htime
  have hcomp := norm_le_pi_norm (dofs p s (run k).sol.u.val - dofs p s (y ((run k).sol.t - s.t))) (⟨n, hn⟩, ⟨e - 1, by omega⟩, ⟨fi, hfi⟩)
  refine le_trans (le_of_eq ?_) (hcomp.trans hres)
  rw [Pi.sub_apply, Real.norm_eq_abs]
  unfold dofs
  simp only
  rw [Nat.sub_add_cancel h1]

end

/-- Three periodic cells, order 2, advection to time 1 with 'rk5': the constant is the same for all CFL numbers between 1e-6 and 1. -/
example : ∃ (y : ℝ → ℕ → ℕ → ℝ) (C : ℝ), ∀ cfl : ℝ, 1 / 10 ^ 6 ≤ cfl → cfl ≤ 1 → ∀ k,
    ∀ o ∈ (integrate ⟨residual, fun a => .ok a⟩ ⟨"rk5", 1, 11, cfl⟩ (Ex.solR 2) k).log, ∀ n < 3, ∀ e, 1 ≤ e → e ≤ 3 →
      |o.sol.u.val n (e * 1 + 0) - y (o.sol.t - 0) n (e * 1 + 0)| ≤ C * (1 / 2 * cfl / (2 * (2 : ℕ) + 1)) ^ 5 := by
  obtain ⟨y, h0, hy⟩ := C77_advection_solution (Ex.solR_built 2) (realGauss (2 + 1)).1.val (realGauss (2 + 1)).2.val (Ex.solR 2).u.val
  obtain ⟨C, -, h⟩ := C77_advection (Ex.solR_built 2) ⟨.inl (by decide), .inl (by decide)⟩ rfl "rk5" (by simp) y 1 1 (by norm_num) h0 (hy 1)
  refine ⟨y, C, fun cfl h1 h2 k o ho n hn e he1 he2 => ?_⟩
  exact (h (fun a => .ok a) (fun _ => rfl) ⟨"rk5", 1, 11, cfl⟩ rfl (show (0 : ℝ) ≤ 1 by norm_num) (show (1 : ℝ) - 0 ≤ 1 by norm_num) (show 2 ≤ 11 by norm_num)
    (show 1 / 10 ^ 14 ≤ 1 / 2 * cfl / (2 * ((2 : ℕ) : ℝ) + 1) by push_cast; linarith)
    (show 1 / 2 * cfl / (2 * ((2 : ℕ) : ℝ) + 1) ≤ 1 by push_cast; linarith)).2 k o ho n hn e he1 he2 0 (show 0 < 1 by norm_num)

/-- The gas of `Ex.gas` with the Roe flux, 'rk4': every run over a short enough time is within `C h^4` of the exact solution, `h` the
length of the run. -/
example (p : ℕ) : ∃ (y : ℝ → ℕ → ℕ → ℝ) (C H : ℝ), 0 < H ∧ ∀ (deck : RkDeck ℝ), deck.rk = "rk4" → 0 ≤ deck.finaltime → deck.finaltime ≤ H →
    ∀ k, (∀ e, (integrate ⟨residual, fun a => .ok a⟩ deck (Ex.gas p "roe") k).status ≠ .failed e) →
    ∀ n < p + 1, ∀ e, 1 ≤ e → e ≤ 2 → ∀ f < 3,
      |(integrate ⟨residual, fun a => .ok a⟩ deck (Ex.gas p "roe") k).sol.u.val n (e * 3 + f) -
        y ((integrate ⟨residual, fun a => .ok a⟩ deck (Ex.gas p "roe") k).sol.t - 0) n (e * 3 + f)| ≤ C * deck.finaltime ^ 4 := by
  have hsm := C76_smooth_roe (Ex.gas_built p "roe") (Ex.gas_bc p _) rfl (7 / 5) _ (realGauss (p + 1)).1.val (realGauss (p + 1)).2.val
    (Ex.gas_points p _ _) (fun i hi => by
      have h := Ex.gas_roe hi
      rw [← Ex.gas_left p "roe" hi, ← Ex.gas_right p "roe" hi] at h
      exact h)
  obtain ⟨y, T, hT, h0, hs, hy⟩ := C77_exact_solution (s := Ex.gas p "roe") (Euler.roeSpec (7 / 5)) (Ex.gas p "roe").u.val _ _ hsm
  obtain ⟨C, H, -, hH, h⟩ := C77_convergence (Ex.gas_built p "roe") (Ex.gas_bc p _) (Euler.roeSpec (7 / 5)) (Euler.roe_pointwise (7 / 5) (by decide) (by decide))
    "rk4" (by simp) y T hT.le hs hy
  refine ⟨y, C, min H T, lt_min hH hT, fun deck hrk hf0 hfH k hok n hn e h1 h2 f hf => ?_⟩
  have hkc : (⟨residual, fun a => .ok a⟩ : Env ℝ).KeepsClock := keepsClock_off fun _ => rfl
  have hinv := timeInv_run hkc (schemeFor deck.rk) deck (Ex.gas p "roe") hf0
  have hhi : ∀ j, (integrate ⟨residual, fun a => .ok a⟩ deck (Ex.gas p "roe") j).sol.t ≤ deck.finaltime := fun j => (hinv j).hi
  have hlo : ∀ j, (0 : ℝ) ≤ (integrate ⟨residual, fun a => .ok a⟩ deck (Ex.gas p "roe") j).sol.t := fun j => (hinv j).lo
  refine h (fun a => .ok a) (fun _ => rfl) deck hrk (Ex.gas p "roe") (Like.refl _) hf0 (fun n hn e h1 h2 f hf => (h0 n hn e h1 h2 f hf).symm)
    deck.finaltime hf0 (hfH.trans (min_le_left _ _)) k hok (fun j _ => ?_) ?_ n hn e h1 h2 f hf
  · linarith [hhi (j + 1), hlo j]
  · exact (sub_le_self _ (le_refl (0 : ℝ))).trans ((hhi k).trans (hfH.trans (min_le_right _ _)))

end Dg1d.Props
