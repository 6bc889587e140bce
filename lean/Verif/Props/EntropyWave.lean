import Verif.Proofs.DensityWave
import Verif.Spec.EntropyWave
import Verif.Props.InitialConditions
import Mathlib.Analysis.Calculus.Deriv.Add
import Mathlib.Analysis.Calculus.Deriv.Mul
import Mathlib.Analysis.Calculus.Deriv.Comp

/-!
# C100: smooth density waves of the Euler equations are computed with the order of the scheme

A gas of the same velocity `v` and pressure `P` everywhere carries its density along, `ρ(t, x) = ρ0 (x - v t)`. For the solvers 'roe' and
'godunov' (any name but 'rusanov', whose dissipation is that of the sound waves) the computed solution converges to it like `dx^(p+1) + h³` with 'rk3'.
-/

set_option linter.unusedSectionVars false

open Polynomial Dg1d.Spec Dg1d.Euler

namespace Dg1d.Props
open Text

variable {γ v b P : ℝ} {s : Sol ℝ} {lib : GaussLib ℝ} {p : ℕ}

/-- **C100 (the limit is a solution).** A differentiable density carried along by uniform velocity and pressure solves the Euler equations. -/
theorem C100_solution (hγ : 1 < γ) {ρ0 : ℝ → ℝ} (hρ : Differentiable ℝ ρ0) (v P : ℝ) : SolvesEuler γ (carriedGas ρ0 v P) := by
  intro t x k
  have hg : γ - 1 ≠ 0 := by linarith
  have h1 : HasDerivAt (fun τ => ρ0 (x - v * τ)) (-v * deriv ρ0 (x - v * t)) t := by
    have h : HasDerivAt (fun τ => ρ0 (x - v * τ)) (deriv ρ0 (x - v * t) * -(v * 1)) t :=
      (hρ (x - v * t)).hasDerivAt.comp t (((hasDerivAt_id t).const_mul v).const_sub x)
    exact h.congr_deriv (by ring)
  have h2 : HasDerivAt (fun y => ρ0 (y - v * t)) (deriv ρ0 (x - v * t)) x := by
    have h : HasDerivAt (fun y => ρ0 (y - v * t)) (deriv ρ0 (x - v * t) * 1) x :=
      (hρ (x - v * t)).hasDerivAt.comp x ((hasDerivAt_id x).sub_const (v * t))
    exact h.congr_deriv (by ring)
  have key : ∃ c d e : ℝ, (∀ r, (⟨r, v, P⟩ : Prim).cons γ k = c * r + d) ∧ ∀ r, (⟨r, v, P⟩ : Prim).flux γ k = v * (c * r) + e := by
    fin_cases k
    · exact ⟨1, 0, 0, fun r => by simp [Prim.cons], fun r => by simp [Prim.flux, mul_comm]⟩
    · exact ⟨v, 0, P, fun r => by simp [Prim.cons, mul_comm], fun r => by simp [Prim.flux]; ring⟩
    · exact ⟨v ^ 2 / 2, P / (γ - 1), (P / (γ - 1) + P) * v, fun r => by simp [Prim.cons, Prim.energy]; ring, fun r => by simp [Prim.flux, Prim.energy]; ring⟩
  obtain ⟨c, d, e, hc, hf⟩ := key
  refine ⟨c * (-v * deriv ρ0 (x - v * t)), ?_, ?_⟩
  · unfold carriedGas
    simp only [hc]
    exact (h1.const_mul c).add_const d
  · unfold carriedGas
    simp only [hf]
    exact (((h2.const_mul c).const_mul v).add_const e).congr_deriv (by ring)

/-- The three fields differ from those of the carried gas by a multiple of the difference of the densities. -/
lemma l2_fields {a : Sol ℝ} (h : SameVP γ v P a) (hv : 0 ≤ v) (ρ : ℝ → ℝ) (k : Fin 3) :
    l2Error a k (fun x => (⟨ρ x, v, P⟩ : Prim).cons γ k) ≤ (1 + v) ^ 2 * l2Error a 0 ρ := by
  have key : ∃ c d : ℝ, 0 ≤ c ∧ c ≤ (1 + v) ^ 2 ∧ ∀ r, (⟨r, v, P⟩ : Prim).cons γ k = c * r + d := by
    fin_cases k
    · exact ⟨1, 0, zero_le_one, by nlinarith, fun r => by simp [Prim.cons]⟩
    · exact ⟨v, 0, hv, by nlinarith, fun r => by simp [Prim.cons, mul_comm]⟩
    · exact ⟨v ^ 2 / 2, P / (γ - 1), by positivity, by nlinarith, fun r => by simp [Prim.cons, Prim.energy]; ring⟩
  obtain ⟨c, d, hc0, hc, hf⟩ := key
  have heq : l2Error a k (fun x => (⟨ρ x, v, P⟩ : Prim).cons γ k) = c * l2Error a 0 ρ := by
    unfold l2Error
    conv_rhs => rw [← Real.sqrt_sq hc0]
    rw [← Real.sqrt_mul (sq_nonneg c), Finset.mul_sum]
    congr 1
    refine Finset.sum_congr rfl fun e he => ?_
    rw [Finset.mem_Icc] at he
    rw [← intervalIntegral.integral_const_mul]
    congr 1
    funext x
    simp only [h e he.1 he.2 _ k, hf]
    ring
  rw [heq]
  exact mul_le_mul_of_nonneg_right hc (Real.sqrt_nonneg _)

/-- Interpolants of the conserved variables of a gas of one velocity and pressure are again such a gas. -/
lemma interp_sameVP (hlib : lib.Ok) (hb : s.Built lib p) {w : ℕ → ℕ → ℝ}
    (h : ∀ e, 1 ≤ e → e ≤ s.NE → ∀ g < p + 1, ∀ k : Fin 3, (cellPoly s e k).eval ((lib (p + 1)).1.val g) = (⟨w e g, v, P⟩ : Prim).cons γ k) : SameVP γ v P s := by
  obtain ⟨-, -, hG⟩ := hlib (p + 1) (Nat.succ_pos p)
  intro e h1 h2 ξ k
  have key : ∃ c d : ℝ, ∀ r, (⟨r, v, P⟩ : Prim).cons γ k = c * r + d := by
    fin_cases k
    · exact ⟨1, 0, fun r => by simp [Prim.cons]⟩
    · exact ⟨v, 0, fun r => by simp [Prim.cons, mul_comm]⟩
    · exact ⟨v ^ 2 / 2, P / (γ - 1), fun r => by simp [Prim.cons, Prim.energy]; ring⟩
  obtain ⟨c, d, hf⟩ := key
  have hdeg : ∀ f, (cellPoly s e f).degree < ((p + 1 : ℕ) : WithBot ℕ) := by
    intro f
    unfold cellPoly
    rw [hb.rows]
    exact legSeries_degree _ _
  have heq : cellPoly s e k = C c * cellPoly s e 0 + C d := by
    refine eq_of_nodes (N := p + 1) (x := (lib (p + 1)).1.val) hG.distinct (hdeg k) ?_ ?_
    · refine lt_of_le_of_lt (degree_add_le _ _) (max_lt ?_ ?_)
      · refine lt_of_le_of_lt (degree_mul_le _ _) ?_
        refine lt_of_le_of_lt (add_le_add_left (degree_C_le (a := c)) _) ?_
        rw [zero_add]; exact hdeg 0
      · exact lt_of_le_of_lt degree_C_le (by exact_mod_cast Nat.succ_pos p)
    · intro g hg
      have h0 := h e h1 h2 g hg 0
      rw [eval_add, eval_mul, eval_C, eval_C, h e h1 h2 g hg k, hf]
      have h0 : (cellPoly s e 0).eval ((lib (p + 1)).1.val g) = w e g := by rw [show cellPoly s e 0 = cellPoly s e (0 : Fin 3) from rfl, h0]; rfl
      rw [h0]
  rw [heq, hf, eval_add, eval_mul, eval_C, eval_C]

/-- A start of the Euler solver from the interpolant of a gas with density `ρ0` and the same velocity `v ≥ 0` and pressure `P` everywhere, on a periodic
uniform mesh of `[A, A + L]`, without enhancement; the Riemann solver is not 'rusanov'. -/
structure WaveStart (lib : GaussLib ℝ) (p : ℕ) (ρ0 : ℝ → ℝ) (A L γ v P : ℝ) (s : Sol ℝ) : Prop where
  built : s.Built lib p
  physics : ∃ riemann : Str, riemann ≠ "rusanov".toList ∧ CodePhysics γ "euler".toList riemann s
  gamma : 1 < γ
  speed : 0 ≤ v
  pressure : 0 < P
  enhance : s.enhance = none
  bcl : s.bcl = .lit "periodic"
  bcr : s.bcr = .lit "periodic"
  ghosts : GhostsAgree s
  mesh : IsUniformMesh A (A + L) s.NE s.x.val s.xc.val s.dx
  interp : ∀ e, 1 ≤ e → e ≤ s.NE → ∀ g < p + 1, ∀ f : Fin 3, (cellPoly s e f).eval ((lib (p + 1)).1.val g) =
    (carriedGas ρ0 v P 0 (physPoint (s.x.val (e - 1)) (s.x.val e) ((lib (p + 1)).1.val g))).cons γ f

section
variable {ρ0 : ℝ → ℝ} {A L : ℝ} (w : WaveStart lib p ρ0 A L γ v P s)
include w

lemma WaveStart.dx (hL : 0 < L) : 0 < s.dx := by
  have hNE : (0 : ℝ) < s.NE := by exact_mod_cast w.built.NE
  rw [w.mesh.width]; exact div_pos (by linarith) hNE

lemma WaveStart.bc : s.BcKnown := ⟨.inl (by rw [w.bcl]; exact ⟨rfl, rfl⟩), .inl (by rw [w.bcr]; exact ⟨rfl, rfl⟩)⟩

lemma WaveStart.same (hlib : lib.Ok) : SameVP γ v P s := interp_sameVP hlib w.built w.interp

lemma WaveStart.density : ∀ e, 1 ≤ e → e ≤ s.NE → ∀ g < p + 1, (cellPoly s e 0).eval ((lib (p + 1)).1.val g) =
    ρ0 (physPoint (s.x.val (e - 1)) (s.x.val e) ((lib (p + 1)).1.val g)) := by
  intro e h1 h2 g hg
  have := w.interp e h1 h2 g hg 0
  rw [show (carriedGas ρ0 v P 0 (physPoint (s.x.val (e - 1)) (s.x.val e) ((lib (p + 1)).1.val g))).cons γ 0 =
    ρ0 (physPoint (s.x.val (e - 1)) (s.x.val e) ((lib (p + 1)).1.val g) - v * 0) from rfl, mul_zero, sub_zero] at this
  exact this

lemma WaveStart.sim (hlib : lib.Ok) : ∃ RF, Simulates (fun _ _ => True) ⟨checkedResidual, Limiter.limit none⟩ (rhoEnvChecked (s.rho γ v (P / (γ - 1))) p v)
      (RhoRel s p γ v (P / (γ - 1))) (RhoHead s p γ v (P / (γ - 1))) RF ∧ RhoHead s p γ v (P / (γ - 1)) s (s.rho γ v (P / (γ - 1))) := by
  obtain ⟨riemann, hname, hp⟩ := w.physics
  exact ⟨_, rho_simulates w.gamma w.built hp hname w.bc w.enhance w.speed w.pressure,
    rho_start (γ := γ) w.built w.bc w.ghosts ((sameVP_iff (Like.refl s) w.built.rows (hp.euler rfl).2 v P).mp (w.same hlib))⟩

end

/-- **C100 (convergence).** Let the density `ρ0` be periodic with period `L` and `p + 4` times continuously differentiable. For the order `p` and the
distance `T` there is one constant `C` such that for all adiabatic exponents, velocities `v ≥ 0`, pressures, numbers of cells, CFL numbers of at most
`(2p+1) / (3 (p+1)²)` and final times by which the gas has moved by no more than `T`, all outputs of the Euler run with 'rk3' and no limiter are within
`(1+v)² C (dx^(p+1) + h³)` of the exact solution in `L²`, in density, momentum and energy, `h = dx cfl / (2p+1)`. The run is that of `checkedResidual`,
which stops where the code would go on with NaN; `C100_fine` shows that on fine meshes it is the run of the code. -/
theorem C100_convergence (hlib : lib.Ok) (p : ℕ) (ρ0 : ℝ → ℝ) (hu : ContDiff ℝ (p + 4 : ℕ) ρ0) (A L T : ℝ) (hL : 0 < L) (hper : ∀ y, ρ0 (y + L) = ρ0 y) (hT : 0 ≤ T) :
    ∃ C : ℝ, 0 ≤ C ∧ ∀ (s : Sol ℝ) (γ v P : ℝ), WaveStart lib p ρ0 A L γ v P s →
      ∀ (deck : RkDeck ℝ), deck.rk = "rk3" → 0 ≤ deck.cfl → deck.cfl ≤ (2 * p + 1) / (3 * (p + 1) ^ 2) → s.t ≤ deck.finaltime → v * (deck.finaltime - s.t) ≤ T →
      ∀ k, ∀ o ∈ (integrate ⟨checkedResidual, Limiter.limit none⟩ deck s k).log, ∀ f : Fin 3,
        l2Error o.sol f (fun x => (carriedGas ρ0 v P (o.sol.t - s.t) x).cons γ f) ≤ (1 + v) ^ 2 * (C * (s.dx ^ (p + 1) + (s.dx * deck.cfl / (2 * p + 1)) ^ 3)) := by
  obtain ⟨C, hC, key⟩ := rho_sequence hlib p ρ0 hu A L T hL hper hT
  refine ⟨C, hC, ?_⟩
  intro s γ v P w deck hrk hcfl0 hcfl ht hTd k o ho f
  have hb := w.built
  have seq := key s hb w.enhance w.bcl w.bcr w.ghosts w.mesh (w.dx hL) w.density γ v (P / (γ - 1)) w.speed deck hrk hcfl0 hcfl ht hTd
  obtain ⟨riemann, -, hp⟩ := w.physics
  have hsame : SameVP γ v P o.sol :=
    (C99_run w.gamma hb hp w.bc (fun en h => by rw [w.enhance] at h; cases h) w.pressure (w.same hlib) deck k).2 o ho
  obtain ⟨RF, sim, hstart⟩ := w.sim hlib
  have hsim := sim.run deck (schemeFor deck.rk) hstart rfl rfl k
  obtain ⟨o', ho', hrel⟩ : ∃ o' ∈ (integrate (rhoEnvChecked (s.rho γ v (P / (γ - 1))) p v) deck (s.rho γ v (P / (γ - 1))) k).log,
      OutSim (RhoHead s p γ v (P / (γ - 1))) o o' := by
    obtain ⟨i, hi, rfl⟩ := List.getElem_of_mem ho
    have hlen := hsim.log.length_eq
    have hi' : i < (integrate (rhoEnvChecked (s.rho γ v (P / (γ - 1))) p v) deck (s.rho γ v (P / (γ - 1))) k).log.length := lt_of_lt_of_eq hi hlen
    exact ⟨_, List.getElem_mem hi', hsim.log.get hi hi'⟩
  refine (l2_fields hsame w.speed _ f).trans (mul_le_mul_of_nonneg_left ?_ (by positivity))
  rw [rho_l2 hb hrel.sol.toRhoRel, hrel.t]
  obtain ⟨j, hj⟩ : ∃ j, o' ∈ (integrate (rhoEnv (s.rho γ v (P / (γ - 1))) v) deck (s.rho γ v (P / (γ - 1))) j).log := by
    rcases run_strict (rhoEnv_strict (s.rho γ v (P / (γ - 1))) p v) (schemeFor deck.rk) deck (s.rho γ v (P / (γ - 1))) k with h | ⟨-, j, -, -, h⟩
    · exact ⟨k, (congrArg LoopState.log h) ▸ ho'⟩
    · exact ⟨j, h ▸ ho'⟩
  obtain ⟨i, -, hi⟩ := log_states (rhoEnv_clock _ v) deck _ j o' hj
  rw [hi]
  exact (seq i).2

/-- **C100 (fine meshes).** If moreover the density is at least `m > 0`, there is a cell size `δ` below which the run of the code never meets a state without
admissible density: it is the run with the checks, its density is at least `m/2` at every point of every cell at every iteration, and all its outputs
satisfy the bound. Unless the time step falls below the 1e-14 at which the code gives up, the run does not fail and gets to the final time. -/
theorem C100_fine (hlib : lib.Ok) (p : ℕ) (ρ0 : ℝ → ℝ) (hu : ContDiff ℝ (p + 4 : ℕ) ρ0) (A L T : ℝ) (hL : 0 < L) (hper : ∀ y, ρ0 (y + L) = ρ0 y) (hT : 0 ≤ T)
    {m : ℝ} (hm0 : 0 < m) (hmin : ∀ y, m ≤ ρ0 y) :
    ∃ C : ℝ, 0 ≤ C ∧ ∃ δ : ℝ, 0 < δ ∧ ∀ (s : Sol ℝ) (γ v P : ℝ), WaveStart lib p ρ0 A L γ v P s → s.dx ≤ δ →
      ∀ (deck : RkDeck ℝ), deck.rk = "rk3" → 0 ≤ deck.cfl → deck.cfl ≤ (2 * p + 1) / (3 * (p + 1) ^ 2) → s.t ≤ deck.finaltime → v * (deck.finaltime - s.t) ≤ T →
      2 ≤ deck.nout →
      let r := integrate ⟨residual, Limiter.limit none⟩ deck s
      (∀ k, integrate ⟨checkedResidual, Limiter.limit none⟩ deck s k = r k ∧
        (∀ e, 1 ≤ e → e ≤ s.NE → ∀ ξ ∈ Set.Icc (-1 : ℝ) 1, m / 2 ≤ (cellPoly (r k).sol e 0).eval ξ) ∧
        ∀ o ∈ (r k).log, ∀ f : Fin 3,
          l2Error o.sol f (fun x => (carriedGas ρ0 v P (o.sol.t - s.t) x).cons γ f) ≤ (1 + v) ^ 2 * (C * (s.dx ^ (p + 1) + (s.dx * deck.cfl / (2 * p + 1)) ^ 3))) ∧
      (1 / 10 ^ 14 ≤ s.dx * deck.cfl / ((v + √(γ * P / (m / 2))) * (2 * p + 1)) → (∀ k e, (r k).status ≠ .failed e) ∧ ∃ k, (r k).status = .done) := by
  obtain ⟨C, hC, conv⟩ := C100_convergence hlib p ρ0 hu A L T hL hper hT
  obtain ⟨_, _, δ, hδ, key⟩ := rho_fine hlib p ρ0 hu A L T hL hper hT hm0 hmin
  refine ⟨C, hC, δ, hδ, ?_⟩
  intro s γ v P w hdx deck hrk hcfl0 hcfl ht hTd hN r
  have hb := w.built
  have fine := key s hb w.enhance w.bcl w.bcr w.ghosts w.mesh (w.dx hL) w.density γ v P w.gamma w.speed w.pressure deck hrk hcfl0 hcfl ht hTd hdx
  obtain ⟨RF, sim, hstart⟩ := w.sim hlib
  have hsim := fun k => sim.run deck (schemeFor deck.rk) hstart rfl rfl k
  -- what the scalar run says about failures
  have hok : ∀ k, (∀ e, (integrate (rhoEnv (s.rho γ v (P / (γ - 1))) v) deck (s.rho γ v (P / (γ - 1))) k).status ≠ .failed e) →
      ∀ e, (integrate ⟨checkedResidual, Limiter.limit none⟩ deck s k).status ≠ .failed e := by
    intro k h e he
    rw [← (fine k).1] at h
    rcases (hsim k).status with h' | ⟨e1, e2, -, h2, -⟩
    · exact h e (h'.symm.trans he)
    · exact h e2 h2
  have hrunsucc : ∀ (env : Env ℝ) k, integrate env deck s (k + 1) = loopBody env deck ((schemeFor deck.rk).inner env) (integrate env deck s k) := by
    intro env k
    show Scheme.run _ _ _ _ _ = _
    unfold Scheme.run
    rw [runLoop_succ]
    rfl
  have heq : ∀ k, integrate ⟨checkedResidual, Limiter.limit none⟩ deck s k = r k := by
    intro k
    induction k with
    | zero => rfl
    | succ k ih =>
      by_cases hr' : (integrate ⟨checkedResidual, Limiter.limit none⟩ deck s k).status = .running
      · cases hnext : getNextTimeStep (integrate ⟨checkedResidual, Limiter.limit none⟩ deck s k).sol (integrate ⟨checkedResidual, Limiter.limit none⟩ deck s k).tout
            deck.cfl deck.finaltime with
        | error e =>
          show _ = integrate _ _ _ _
          rw [hrunsucc, hrunsucc, ← show _ = integrate _ _ _ _ from ih]
          unfold loopBody
          rw [hr']
          simp only
          rw [hnext]
        | ok q =>
          obtain ⟨x, o, d⟩ := q
          have hs : (integrate (rhoEnvChecked (s.rho γ v (P / (γ - 1))) p v) deck (s.rho γ v (P / (γ - 1))) k).status = .running := by
            rcases (hsim k).status with h' | ⟨e1, e2, h1, -, -⟩
            · exact h'.symm.trans hr'
            · rw [show (integrate ⟨checkedResidual, Limiter.limit none⟩ deck s k).status = _ from h1] at hr'; cases hr'
          have hn : getNextTimeStep (integrate (rhoEnvChecked (s.rho γ v (P / (γ - 1))) p v) deck (s.rho γ v (P / (γ - 1))) k).sol
            (integrate (rhoEnvChecked (s.rho γ v (P / (γ - 1))) p v) deck (s.rho γ v (P / (γ - 1))) k).tout deck.cfl deck.finaltime = .ok (x, o, d) := by
            have h1 := getNextTimeStep_congr (integrate ⟨checkedResidual, Limiter.limit none⟩ deck s k).tout deck.cfl deck.finaltime (sim.cfl _ _ deck.cfl (hsim k).sol) (hsim k).t
            have h2 : (integrate (rhoEnvChecked (s.rho γ v (P / (γ - 1))) p v) deck (s.rho γ v (P / (γ - 1))) k).tout =
              (integrate ⟨checkedResidual, Limiter.limit none⟩ deck s k).tout := (hsim k).tout.symm
            rw [h2]
            exact h1.symm.trans hnext
          rw [(fine k).1] at hs hn
          have := hok (k + 1) ((fine k).2.1 hN hs x o d hn)
          rcases C99_checked (Limiter.limit none) deck s (k + 1) with h | ⟨⟨e, he⟩, -⟩
          · exact h
          · exact absurd he (this e)
      · show _ = integrate _ _ _ _
        rw [hrunsucc, hrunsucc, ← show _ = integrate _ _ _ _ from ih, loopBody_stopped hr', loopBody_stopped hr']
  refine ⟨fun k => ⟨heq k, ?_, ?_⟩, fun h14 => ?_⟩
  · intro e h1 h2 ξ hξ
    have h3 := (fine k).2.2.2.1 e h1 h2 ξ hξ
    have h4 := rho_cell hb (hsim k).sol.toRhoRel h1 h2
    rw [← (fine k).1] at h3
    rw [← heq k]
    exact h3.trans_eq (congrArg (Polynomial.eval ξ) h4)
  · rw [← heq k]
    exact conv s γ v P w deck hrk hcfl0 hcfl ht hTd k
  · have hnf : ∀ k e, (r k).status ≠ .failed e := by
      intro k
      rw [← heq k]
      exact hok k ((fine k).2.2.1 h14 hN)
    refine ⟨hnf, ?_⟩
    obtain ⟨k, hk⟩ := C02_terminates_exists (schemeFor deck.rk) ⟨residual, Limiter.limit none⟩ (fun _ _ h => by cases h; exact ⟨rfl, rfl⟩) deck s
    refine ⟨k, ?_⟩
    have hk : (r k).status ≠ .running := hk
    cases h : (r k).status with
    | running => exact absurd h hk
    | done => rfl
    | failed e => exact absurd h (hnf k e)

/-- The start of a valid entropy wave deck. -/
lemma wave_deck (hlib : lib.Ok) {N : ℕ} {ft : FloatText ℝ} (junk : ℕ → ℝ) {d : Deck ℝ} (hd : ValidDeck lib ft d p N IC.entrpyw) (hsys : d.system = "euler".toList)
    (hname : d.riemann ≠ "rusanov".toList) (hlim : d.limiting ≠ "adaptive_hr".toList) (hen : d.enhance = []) :
    ∃ s lm, start lib ft junk d = .ok (s, lm) ∧ lm.limit = Limiter.limit none ∧ s.t = 0 ∧ s.dx = 2 / N ∧ s.NE = N ∧
      WaveStart lib p (fun x => 1 + Real.sin (Real.pi * x) / 5) (-1) 2 (7 / 5) 1 1 s := by
  obtain ⟨c, s, lm, hc, hst, S⟩ := C69_starts hlib junk hd
  have hl : lm.limit = Limiter.limit none := by
    funext a
    have hne : String.ofList d.limiting ≠ "adaptive_hr" := by
      intro h
      apply hlim
      rw [← h, String.toList_ofList]
    obtain ⟨lm', h1, h2⟩ := C57_disabled (String.ofList d.limiting) hne s a
    rw [S.limiter] at h1
    cases h1
    exact h2
  have hs : s = c.sol.applyBc := S.unlimited hlim
  have henh : s.enhance = none := by
    have := S.enhance
    rw [hen] at this
    unfold enhancementOf at this
    rw [if_pos rfl] at this
    cases h : s.enhance with
    | none => rfl
    | some x => rw [h] at this; cases this
  have hmesh : IsUniformMesh (-1) (-1 + 2) s.NE s.x.val s.xc.val s.dx := by
    have := S.mesh
    rw [S.NE]
    norm_num
    exact this
  have hdx : s.dx = 2 / N := by
    rw [S.mesh.width]
    show ((1 : ℝ) - -1) / N = _
    norm_num
  have hphys : CodePhysics (7 / 5) "euler".toList d.riemann s := by
    have := S.physics
    rw [hsys] at this
    exact this
  have hNF : c.sol.NF = 3 := by rw [← S.same.1]; exact (hphys.euler rfl).2
  refine ⟨s, lm, hst, hl, S.clock.1, hdx, S.NE, S.built, ⟨d.riemann, hname, hphys⟩, by norm_num, zero_le_one, one_pos, henh, by rw [S.bc.1]; rfl, by rw [S.bc.2]; rfl,
    S.ghosts, hmesh, ?_⟩
  intro e h1 h2 g hg f
  rw [S.NE] at h2
  obtain ⟨hx, -, hG⟩ := hlib (p + 1) (Nat.succ_pos p)
  obtain ⟨v, hv, hval⟩ := S.data (e - 1) (by omega) f (by rw [hNF]; exact f.2)
  rw [Nat.sub_add_cancel h1] at hval
  rw [Nat.sub_add_cancel h1, S.kin.1.basis] at hv
  obtain ⟨c', hc', -, hint, -⟩ := C24_projection lib p hx hG (c.sol.x.val (e - 1)) (c.sol.x.val e) (IC.entrpyw.f (IC.entrpyw.gamma.getD (7 / 5))) f
    (fun x => (entropyWave x).cons (7 / 5) f) (fun g _ => by
      rw [show IC.entrpyw.gamma.getD (7 / 5) = 7 / 5 from rfl, (C28_entrpyw (γ := 7 / 5) (by norm_num) _).2.1]
      fin_cases f <;> rfl)
  rw [hv] at hc'
  cases hc'
  have h3 := hint g hg
  rw [← show s.x = c.sol.x from S.kin.2.like.setup.x] at h3
  have h4 : ∀ x, carriedGas (fun x => 1 + Real.sin (Real.pi * x) / 5) 1 1 0 x = entropyWave x := by
    intro x
    unfold carriedGas entropyWave
    rw [mul_zero, sub_zero]
  rw [h4, ← h3]
  unfold cellPoly
  rw [S.built.rows]
  congr 2
  funext n
  rw [hs, (Like.refl c.sol).applyBc_val S.kin.1.wf, show c.sol.applyBc.NF = c.sol.NF from (Like.refl c.sol).applyBc.setup.NF,
    bcCol_interior c.sol h1 (by rw [S.same.2]; exact h2) (by rw [hNF]; exact f.2)]
  exact hval n

/-- **C100 (the entropy wave deck).** The 'entrpyw' setup with 'rk3', the Euler equations, no limiter and no enhancement and any solver but 'rusanov': the outputs
approximate density, momentum and energy of the wave `ρ = 1 + sin (π (x - t)) / 5`, `u = p = 1`, with errors of order `(2/N)^(p+1) + h³` in `L²`, for all numbers `N`
of cells. From some `N0` on the run of the code is the run with the checks, its densities are at least 2/5 everywhere, and it gets to the final time
unless the time step is below 1e-14. -/
theorem C100_deck (hlib : lib.Ok) (p : ℕ) (T : ℝ) (hT : 0 ≤ T) :
    ∃ C : ℝ, 0 ≤ C ∧ ∃ N0 : ℕ, ∀ (N : ℕ) (ft : FloatText ℝ) (junk : ℕ → ℝ) (d : Deck ℝ), ValidDeck lib ft d p N IC.entrpyw → d.system = "euler".toList →
      d.riemann ≠ "rusanov".toList → d.rk = "rk3".toList → d.limiting ≠ "adaptive_hr".toList → d.enhance = [] → 0 ≤ d.cfl → d.cfl ≤ (2 * p + 1) / (3 * (p + 1) ^ 2) →
      0 ≤ d.finaltime → d.finaltime ≤ T →
      ∃ s lm, start lib ft junk d = .ok (s, lm) ∧
        (∀ k, ∀ o ∈ (integrate ⟨checkedResidual, lm.limit⟩ d.rkDeck s k).log, ∀ f : Fin 3,
          l2Error o.sol f (fun x => (entropyWave (x - o.sol.t)).cons (7 / 5) f) ≤ C * ((2 / N) ^ (p + 1) + (2 / N * d.cfl / (2 * p + 1)) ^ 3)) ∧
        (N0 ≤ N → 2 ≤ d.nout →
          (∀ k, integrate ⟨residual, lm.limit⟩ d.rkDeck s k = integrate ⟨checkedResidual, lm.limit⟩ d.rkDeck s k ∧
            ∀ e, 1 ≤ e → e ≤ N → ∀ ξ ∈ Set.Icc (-1 : ℝ) 1, 2 / 5 ≤ (cellPoly (integrate ⟨residual, lm.limit⟩ d.rkDeck s k).sol e 0).eval ξ) ∧
          (1 / 10 ^ 14 ≤ 2 / N * d.cfl / ((1 + √(7 / 2)) * (2 * p + 1)) → (∀ k e, (integrate ⟨residual, lm.limit⟩ d.rkDeck s k).status ≠ .failed e) ∧
            ∃ k, (integrate ⟨residual, lm.limit⟩ d.rkDeck s k).status = .done)) := by
  have hcd : ContDiff ℝ (p + 4 : ℕ) (fun x : ℝ => 1 + Real.sin (Real.pi * x) / 5) := by fun_prop
  have hper : ∀ y : ℝ, 1 + Real.sin (Real.pi * (y + 2)) / 5 = 1 + Real.sin (Real.pi * y) / 5 := by
    intro y
    rw [show Real.pi * (y + 2) = Real.pi * y + 2 * Real.pi by ring, Real.sin_add_two_pi]
  obtain ⟨C, hC, conv⟩ := C100_convergence hlib p _ hcd (-1) 2 T (by norm_num) hper hT
  obtain ⟨_, _, δ, hδ, fine⟩ := C100_fine hlib p _ hcd (-1) 2 T (by norm_num) hper hT (m := 4 / 5) (by norm_num)
    (fun y => by linarith [Real.neg_one_le_sin (Real.pi * y)])
  obtain ⟨N0, hN0⟩ := exists_nat_gt (2 / δ)
  refine ⟨4 * C, by positivity, N0, ?_⟩
  intro N ft junk d hd hsys hname hrk hlim hen hcfl0 hcfl ht0 htT
  obtain ⟨s, lm, hst, hl, ht, hdx, hNE, w⟩ := wave_deck hlib junk hd hsys hname hlim hen
  have hrk' : d.rkDeck.rk = "rk3" := by show String.ofList d.rk = "rk3"; rw [hrk, String.ofList_toList]
  refine ⟨s, lm, hst, ?_, ?_⟩
  · intro k o ho f
    rw [hl] at ho
    have := conv s (7 / 5) 1 1 w d.rkDeck hrk' hcfl0 hcfl (by rw [ht]; exact ht0) (by rw [ht, one_mul, sub_zero]; exact htT) k o ho f
    have h4 : (fun x => (carriedGas (fun x => 1 + Real.sin (Real.pi * x) / 5) 1 1 (o.sol.t - s.t) x).cons (7 / 5) f) = fun x => (entropyWave (x - o.sol.t)).cons (7 / 5) f := by
      funext x
      unfold carriedGas entropyWave
      rw [ht, one_mul, sub_zero]
    rw [h4, hdx] at this
    refine this.trans_eq ?_
    rw [show d.rkDeck.cfl = d.cfl from rfl]
    ring
  · intro hN hn
    rw [hl]
    have hNpos : (0 : ℝ) < N := by exact_mod_cast hd.cells
    have hle : s.dx ≤ δ := by
      rw [hdx, div_le_iff₀ hNpos]
      rw [div_lt_iff₀ hδ] at hN0
      have : (N0 : ℝ) ≤ N := by exact_mod_cast hN
      nlinarith
    obtain ⟨h1, h2⟩ := fine s (7 / 5) 1 1 w hle d.rkDeck hrk' hcfl0 hcfl (by rw [ht]; exact ht0) (by rw [ht, one_mul, sub_zero]; exact htT)
      (by show 2 ≤ d.nout.toNat; omega)
    refine ⟨fun k => ⟨(h1 k).1.symm, fun e e1 e2 ξ hξ => ?_⟩, fun h14 => h2 ?_⟩
    · have := (h1 k).2.1 e e1 (by rw [hNE]; exact e2) ξ hξ
      linarith
    · rw [hdx, show (7 / 5 * 1 / (4 / 5 / 2) : ℝ) = 7 / 2 by norm_num]
      exact h14

/-! ### The hypotheses can be met -/

/-- The entropy wave on `N` cells with the Roe solver and rk3, order 1, ten outputs, CFL 1/5, final time 1. -/
noncomputable def Ex.waveDeck (N : ℕ) : Deck ℝ :=
  { Deck.init with system := "euler".toList, ic := "entrpyw".toList ++ ' ' :: natText N, riemann := "roe".toList, rk := "rk3".toList, cfl := 1 / 5 }

lemma Ex.wave_valid {N : ℕ} (hN : 0 < N) : ValidDeck realGauss Ex.decReal (Ex.waveDeck N) 1 N IC.entrpyw where
  order := rfl
  cells := hN
  line := ⟨"entrpyw".toList, natText N, [], by
      show split ("entrpyw".toList ++ ' ' :: natText N) = _
      rw [split_cons (by decide) (by decide) (by decide), split_word (natText_ne_nil N) fun c hc => by obtain ⟨d, hd, rfl⟩ := mem_natText hc; exact (digitChar_facts hd).2.2.1], intOf_natText N, by
      unfold setupOf; rw [if_neg (by decide), if_neg (by decide), if_pos rfl], fun _ => by decide⟩
  enhance := C67_no_enhancement _ _
  limiter := fun h => absurd (show ([] : Str) = "adaptive_hr".toList from h) (by decide)

/-- For all large numbers of cells the deck above runs with densities above 2/5 and second-order errors. -/
example : ∃ C : ℝ, ∃ N0 : ℕ, ∀ N, 0 < N → N0 ≤ N → ∃ s lm, start realGauss Ex.decReal (fun _ => 0) (Ex.waveDeck N) = .ok (s, lm) ∧
    ∀ k, (∀ e, 1 ≤ e → e ≤ N → ∀ ξ ∈ Set.Icc (-1 : ℝ) 1, 2 / 5 ≤ (cellPoly (integrate ⟨residual, lm.limit⟩ (Ex.waveDeck N).rkDeck s k).sol e 0).eval ξ) ∧
      ∀ o ∈ (integrate ⟨residual, lm.limit⟩ (Ex.waveDeck N).rkDeck s k).log,
        l2Error o.sol 0 (fun x => 1 + Real.sin (Real.pi * (x - o.sol.t)) / 5) ≤ C * ((2 / N) ^ 2 + (2 / N * (1 / 5) / 3) ^ 3) := by
  obtain ⟨C, -, N0, h⟩ := C100_deck realGauss_ok 1 1 zero_le_one
  refine ⟨C, N0, fun N hN hle => ?_⟩
  obtain ⟨s, lm, hst, h1, h2⟩ := h N Ex.decReal (fun _ => 0) (Ex.waveDeck N) (Ex.wave_valid hN) rfl (show "roe".toList ≠ "rusanov".toList by decide) rfl
    (show ([] : Str) ≠ "adaptive_hr".toList by decide) rfl (show (0 : ℝ) ≤ 1 / 5 by norm_num)
    (show (1 / 5 : ℝ) ≤ (2 * (1 : ℕ) + 1) / (3 * ((1 : ℕ) + 1) ^ 2) by norm_num) (show (0 : ℝ) ≤ 1 by norm_num) (show (1 : ℝ) ≤ 1 by norm_num)
  have h3 := (h2 hle (show (2 : ℤ) ≤ 10 by norm_num)).1
  refine ⟨s, lm, hst, fun k => ⟨(h3 k).2, fun o ho => ?_⟩⟩
  rw [(h3 k).1] at ho
  refine (h1 k o ho 0).trans_eq ?_
  rw [show (Ex.waveDeck N).cfl = 1 / 5 from rfl]
  norm_num

/-- A gas with moving density solves the Euler equations. -/
example : SolvesEuler (7 / 5) (carriedGas (fun x => 1 + Real.sin (Real.pi * x) / 5) 1 1) :=
  C100_solution (by norm_num) (by fun_prop) _ _

end Dg1d.Props
