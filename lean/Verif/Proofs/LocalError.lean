import Mathlib.Analysis.Analytic.Constructions
import Mathlib.Analysis.Calculus.Deriv.Prod
import Mathlib.Analysis.ODE.ExistUnique
import Verif.Proofs.Butcher
import Verif.Proofs.Superposition
import Verif.Spec.SemiDiscrete

/-! Helper lemmas for the local error of one time step. -/

set_option linter.unusedSectionVars false

open Polynomial Dg1d.Spec Filter Topology Asymptotics

namespace Dg1d

/-- A linear map carrying one vector field to another carries Runge–Kutta steps to Runge–Kutta steps. -/
lemma stageValue_map {V W : Type*} [AddCommGroup V] [Module ℝ V] [AddCommGroup W] [Module ℝ W] (T : V →ₗ[ℝ] W)
    {R : V → V} {f : W → W} (h : ∀ v, T (R v) = f (T v)) (beta : ℕ → ℕ → ℝ) (dt : ℝ) (u : V) (k : ℕ) :
    T (stageValue beta R dt u k) = stageValue beta f dt (T u) k := by
  induction k using Nat.strong_induction_on with
  | _ k ih =>
    rw [stageValue, stageValue, map_add, map_smul, map_sum]
    congr 2
    refine Finset.sum_congr rfl fun j _ => ?_
    rw [map_smul, h, ih j j.2]

lemma rkStep_map {V W : Type*} [AddCommGroup V] [Module ℝ V] [AddCommGroup W] [Module ℝ W] (T : V →ₗ[ℝ] W)
    {R : V → V} {f : W → W} (h : ∀ v, T (R v) = f (T v)) (b : List ℝ) (beta : ℕ → ℕ → ℝ) (dt : ℝ) (u : V) :
    T (rkStep b beta R dt u) = rkStep b beta f dt (T u) := by
  unfold rkStep
  rw [map_add, map_smul, map_sum]
  congr 2
  refine Finset.sum_congr rfl fun j _ => ?_
  rw [map_smul, h, stageValue_map T h]

section
variable {p : ℕ} {s : Sol ℝ}

/-- The degrees of freedom as a linear map. -/
def dofsLin (p : ℕ) (s : Sol ℝ) : (ℕ → ℕ → ℝ) →ₗ[ℝ] (Dof p s → ℝ) where
  toFun := dofs p s
  map_add' _ _ := rfl
  map_smul' _ _ := rfl

lemma cells_val (d : Dof p s → ℝ) {n : ℕ} (hn : n < p + 1) {e : ℕ} (h1 : 1 ≤ e) (h2 : e ≤ s.NE) (f : Fin s.NF) :
    cells p s d n (e * s.NF + f) = d (⟨n, hn⟩, ⟨e - 1, by omega⟩, f) := by
  have hF : 0 < s.NF := f.pos
  have e1 : (e * s.NF + f) / s.NF = e := by
    rw [mul_comm, Nat.mul_add_div hF, Nat.div_eq_of_lt f.2, add_zero]
  have e2 : (e * s.NF + f) % s.NF = f := by
    rw [mul_comm, Nat.mul_add_mod, Nat.mod_eq_of_lt f.2]
  unfold cells
  rw [dif_pos (by rw [e1, e2]; exact ⟨hn, by omega, f.2, h1⟩)]
  congr

lemma cells_dofs (a : ℕ → ℕ → ℝ) : SameInterior s.NE s.NF (p + 1) (cells p s (dofs p s a)) a := by
  intro n hn e h1 h2 f hf
  rw [cells_val _ hn h1 h2 ⟨f, hf⟩]
  unfold dofs
  simp only
  congr 3
  omega

lemma dofs_cells (d : Dof p s → ℝ) : dofs p s (cells p s d) = d := by
  funext i
  obtain ⟨n, e, f⟩ := i
  unfold dofs
  simp only
  rw [cells_val d n.2 (by omega) (by omega) f]
  rfl

lemma dofs_congr {a b : ℕ → ℕ → ℝ} (h : SameInterior s.NE s.NF (p + 1) a b) : dofs p s a = dofs p s b := by
  funext i
  exact h _ i.1.2 _ (by omega) (by omega) _ i.2.2.2

lemma withVal_like_self (s : Sol ℝ) (v : ℕ → ℕ → ℝ) : Like (s.withVal v) s := ⟨by constructor <;> rfl, rfl, rfl⟩

variable {lib : GaussLib ℝ} (hb : s.Built lib p) (hk : s.BcKnown) {flux : (Fin s.NF → ℝ) → Fin s.NF → ℝ}
  {num : (Fin s.NF → ℝ) → (Fin s.NF → ℝ) → Fin s.NF → ℝ} {x w : ℕ → ℝ}
include hb

/-- The right-hand side depends on the cells `e-1`, `e`, `e+1` after the ghost fill only. -/
lemma dgRhs_congr_fill {a b : Sol ℝ} (ha : Like a s) (hab : Like b s)
    (hfill : ∀ n < p + 1, ∀ e ≤ s.NE + 1, ∀ f < s.NF, a.applyBc.u.val n (e * s.NF + f) = b.applyBc.u.val n (e * s.NF + f))
    (n : ℕ) (e : ℕ) (h1 : 1 ≤ e) (h2 : e ≤ s.NE) (f : Fin s.NF) :
    dgRhs p x w s flux num a.u.val n e f = dgRhs p x w s flux num b.u.val n e f := by
  have rr : s.u.rows = p + 1 := hb.rows
  have key : ∀ c : Sol ℝ, Like c s → ({ s with u := { s.u with val := c.u.val } } : Sol ℝ).applyBc.u.val = c.applyBc.u.val := by
    intro c hc
    funext r i
    rw [hc.applyBc_val hb.wf r i]
    exact (withVal_like_self s c.u.val).applyBc_val hb.wf r i
  unfold dgRhs filled
  simp only
  rw [key a ha, key b hab]
  set za : Sol ℝ := { s with u := { s.u with val := a.applyBc.u.val } }
  set zb : Sol ℝ := { s with u := { s.u with val := b.applyBc.u.val } }
  have hv : ∀ n < p + 1, ∀ e ≤ s.NE + 1, ∀ f < s.NF, za.u.val n (e * s.NF + f) = zb.u.val n (e * s.NF + f) := hfill
  have hc : ∀ e ≤ s.NE + 1, ∀ f < s.NF, cellPoly za e f = cellPoly zb e f := by
    intro e he f hf
    unfold cellPoly legSeries
    refine Finset.sum_congr rfl fun m hm => ?_
    have : za.u.val m (e * za.NF + f) = zb.u.val m (e * zb.NF + f) :=
      hv m (by rw [← rr]; exact Finset.mem_range.mp hm) e he f hf
    simp only [this]
  have hs : ∀ (g : ℕ → ℝ) (e : ℕ), e ≤ s.NE + 1 → ∀ f < s.NF,
      ∑ n ∈ Finset.range za.u.rows, g n * za.u.val n (e * za.NF + f) = ∑ n ∈ Finset.range zb.u.rows, g n * zb.u.val n (e * zb.NF + f) := by
    intro g e he f hf
    refine Finset.sum_congr rfl fun m hm => ?_
    have : za.u.val m (e * za.NF + f) = zb.u.val m (e * zb.NF + f) :=
      hv m (by rw [← rr]; exact Finset.mem_range.mp hm) e he f hf
    rw [this]
  have hl : ∀ i ≤ s.NE, leftState za i = leftState zb i := by
    intro i hi
    funext f
    unfold leftState
    cases he : s.enhance with
    | none =>
      simp only [hc i (by omega) f f.2]
    | some en =>
      simp only
      rw [hs _ i (by omega) f f.2, hs _ (i + 1) (by omega) f f.2]
  have hr : ∀ i ≤ s.NE, rightState za i = rightState zb i := by
    intro i hi
    funext f
    unfold rightState
    cases he : s.enhance with
    | none =>
      simp only [hc (i + 1) (by omega) f f.2]
    | some en =>
      simp only
      rw [hs _ i (by omega) f f.2, hs _ (i + 1) (by omega) f f.2]
  rw [hl e h2, hr e h2, hl (e - 1) (by omega), hr (e - 1) (by omega)]
  congr 2
  refine Finset.sum_congr rfl fun g _ => ?_
  congr 2
  funext f'
  rw [hc e (by omega) f' f'.2]

include hk in
/-- The right-hand side depends on the interior cells only. -/
lemma dgRhs_congr {a b : ℕ → ℕ → ℝ} (h : SameInterior s.NE s.NF (p + 1) a b) (n : ℕ) (e : ℕ) (h1 : 1 ≤ e) (h2 : e ≤ s.NE) (f : Fin s.NF) :
    dgRhs p x w s flux num a n e f = dgRhs p x w s flux num b n e f :=
  dgRhs_congr_fill hb (withVal_like_self s a) (withVal_like_self s b)
    (fun _ hn _ he _ hf => sameInterior_fill (withVal_like_self s a) (withVal_like_self s b) hb.wf hk h hn he hf) n e h1 h2 f

/-- The residual is the right-hand side of the semi-discrete equations. -/
lemma residual_dgRhs {ps : PhysSpec ℝ s.NF} (hps : s.kw.Pointwise ps) {a a' : Sol ℝ} (ha : Like a s) {F : Arr ℝ} (hF : residual a = .ok (a', F)) :
    a' = a.applyBc ∧ ∀ n < p + 1, ∀ e, 1 ≤ e → e ≤ s.NE → ∀ f : Fin s.NF,
      F.val n (e * s.NF + f) = dgRhs p (lib (p + 1)).1.val (lib (p + 1)).2.val s ps.flux ps.num a.u.val n e f := by
  refine ⟨residual_sol hF, ?_⟩
  intro n hn e h1 h2 f
  obtain ⟨B, kw, t, m, NE, NF, xx, xc, dx, u, sm, bl, br, en, se⟩ := a
  obtain ⟨hset, hr, hc⟩ := ha
  obtain ⟨e1, e2, e3, e4, e5, e6, e7, e8, e9, e10, e11⟩ := hset
  simp only at e1 e2 e3 e4 e5 e6 e7 e8 e9 e10 e11 hr hc
  subst e1 e2 e3 e4 e5 e6 e7 e8 e9 e10 e11
  obtain ⟨ur, uc, uv⟩ := u
  simp only at hr hc
  subst hr hc
  set a : Sol ℝ := ⟨s.basis, s.kw, t, m, s.NE, s.NF, s.x, s.xc, s.dx, ⟨s.u.rows, s.u.cols, uv⟩, s.scaledMinv, s.bcl, s.bcr, s.enhance, se⟩ with hadef
  have hla : Like a s := ⟨by constructor <;> rfl, rfl, rfl⟩
  have hba := hla.built hb
  obtain ⟨hv, herr, hok⟩ := residual_built (s := a) (ps := ps) hba hps
  by_cases hf : ∃ i < a.NE + 1, ps.fails (leftState (a.withVal a.applyBc.u.val) i) (rightState (a.withVal a.applyBc.u.val) i)
  · obtain ⟨e, _, he⟩ := herr hf
    rw [he] at hF; cases hF
  · push Not at hf
    obtain ⟨G, hG, -, -, hval⟩ := hok hf
    rw [hG] at hF
    cases hF
    rw [show F.val n (e * s.NF + f) = _ from hval n hn e h1 h2 f]
    unfold dgRhs filled
    simp only
    have key : ({ s with u := { s.u with val := a.u.val } } : Sol ℝ).applyBc.u.val = a.applyBc.u.val := by
      funext r i
      rw [hla.applyBc_val hb.wf r i]
      exact (withVal_like_self s a.u.val).applyBc_val hb.wf r i
    rw [key]
    have hxx : s.basis.x = (lib (p + 1)).1 := by rw [hb.basis]; rfl
    have hw : s.basis.w = (lib (p + 1)).2 := by rw [hb.basis]; rfl
    rw [← hxx, ← hw]
    rfl

end

section
variable {p : ℕ} {s : Sol ℝ}

lemma cells_analytic (n c : ℕ) (d₀ : Dof p s → ℝ) : AnalyticAt ℝ (fun d => cells p s d n c) d₀ := by
  unfold cells
  split_ifs with h
  · exact (ContinuousLinearMap.proj (R := ℝ) (φ := fun _ : Dof p s => ℝ) _).analyticAt d₀
  · exact analyticAt_const

variable {lib : GaussLib ℝ} (hb : s.Built lib p)
include hb

lemma filled_val (v : ℕ → ℕ → ℝ) (n c : ℕ) : (filled s v).u.val n c = v n (s.bcCol c) :=
  (withVal_like_self s v).applyBc_val hb.wf n c

lemma filled_analytic (n c : ℕ) (d₀ : Dof p s → ℝ) : AnalyticAt ℝ (fun d => (filled s (cells p s d)).u.val n c) d₀ := by
  simp only [filled_val hb]
  exact cells_analytic _ _ _

lemma sum_analytic (g : ℕ → ℝ) (N c : ℕ) (d₀ : Dof p s → ℝ) :
    AnalyticAt ℝ (fun d => ∑ n ∈ Finset.range N, g n * (filled s (cells p s d)).u.val n c) d₀ :=
  Finset.analyticAt_fun_sum _ fun _ _ => analyticAt_const.mul (filled_analytic hb _ _ _)

lemma cellPoly_analytic (e f : ℕ) (ξ : ℝ) (d₀ : Dof p s → ℝ) :
    AnalyticAt ℝ (fun d => (cellPoly (filled s (cells p s d)) e f).eval ξ) d₀ := by
  have h : ∀ d, (cellPoly (filled s (cells p s d)) e f).eval ξ =
      ∑ n ∈ Finset.range s.u.rows, (legendre ℝ n).eval ξ * (filled s (cells p s d)).u.val n (e * s.NF + f) := by
    intro d
    unfold cellPoly legSeries
    rw [eval_finsetSum]
    refine Finset.sum_congr rfl fun n _ => ?_
    rw [eval_mul, eval_C, mul_comm]
    rfl
  simp only [h]
  exact sum_analytic hb _ _ _ _

lemma filled_built (v : ℕ → ℕ → ℝ) : (filled s v).Built lib p := hb.congr (by constructor <;> rfl) rfl rfl

lemma leftState_filled (v : ℕ → ℕ → ℝ) (i : ℕ) (f : Fin s.NF) : leftState (filled s v) i f =
    ∑ n ∈ Finset.range s.basis.Ns, (s.faceW 1 false n * (filled s v).u.val n (i * s.NF + f) + s.faceW 1 true n * (filled s v).u.val n ((i + 1) * s.NF + f)) := by
  rw [← (filled_built hb v).face_left i]
  rfl

lemma rightState_filled (v : ℕ → ℕ → ℝ) (i : ℕ) (f : Fin s.NF) : rightState (filled s v) i f =
    ∑ n ∈ Finset.range s.basis.Ns, (s.faceW 0 false n * (filled s v).u.val n (i * s.NF + f) + s.faceW 0 true n * (filled s v).u.val n ((i + 1) * s.NF + f)) := by
  rw [← (filled_built hb v).face_right i]
  rfl

lemma leftState_analytic (i : ℕ) (f : Fin s.NF) (d₀ : Dof p s → ℝ) :
    AnalyticAt ℝ (fun d => leftState (filled s (cells p s d)) i f) d₀ := by
  simp only [leftState_filled hb]
  exact Finset.analyticAt_fun_sum _ fun _ _ => (analyticAt_const.mul (filled_analytic hb _ _ _)).add (analyticAt_const.mul (filled_analytic hb _ _ _))

lemma rightState_analytic (i : ℕ) (f : Fin s.NF) (d₀ : Dof p s → ℝ) :
    AnalyticAt ℝ (fun d => rightState (filled s (cells p s d)) i f) d₀ := by
  simp only [rightState_filled hb]
  exact Finset.analyticAt_fun_sum _ fun _ _ => (analyticAt_const.mul (filled_analytic hb _ _ _)).add (analyticAt_const.mul (filled_analytic hb _ _ _))

/-- Analytic fluxes at the states that occur make the right-hand sides analytic. -/
lemma smoothAt_of (hk : s.BcKnown) {flux : (Fin s.NF → ℝ) → Fin s.NF → ℝ} {num : (Fin s.NF → ℝ) → (Fin s.NF → ℝ) → Fin s.NF → ℝ}
    {x w : ℕ → ℝ} {a : ℕ → ℕ → ℝ}
    (hflux : ∀ e, 1 ≤ e → e ≤ s.NE → ∀ g < p + 1, ∀ f, AnalyticAt ℝ (fun u => flux u f) fun f' => (cellPoly (filled s a) e f').eval (x g))
    (hnum : ∀ i ≤ s.NE, ∀ f, AnalyticAt ℝ (fun u : (Fin s.NF → ℝ) × (Fin s.NF → ℝ) => num u.1 u.2 f) (leftState (filled s a) i, rightState (filled s a) i)) :
    SmoothAt p x w s flux num a := by
  have hfill : ∀ n < p + 1, ∀ e ≤ s.NE + 1, ∀ f < s.NF,
      (filled s (cells p s (dofs p s a))).u.val n (e * s.NF + f) = (filled s a).u.val n (e * s.NF + f) := by
    intro n hn e he f hf
    rw [filled_val hb, filled_val hb]
    obtain ⟨e', h1, h2, h3⟩ := bc_cell hk hb.wf.NE e he
    rw [h3 f hf, cells_dofs a n hn e' h1 h2 f hf]
  have rr : s.u.rows = p + 1 := hb.rows
  have hc : ∀ e ≤ s.NE + 1, ∀ f < s.NF, cellPoly (filled s (cells p s (dofs p s a))) e f = cellPoly (filled s a) e f := by
    intro e he f hf
    unfold cellPoly legSeries
    refine Finset.sum_congr rfl fun m hm => ?_
    have := hfill m (by rw [← rr]; exact Finset.mem_range.mp hm) e he f hf
    exact congrArg (fun c => C c * legendre ℝ m) this
  have hNs : s.basis.Ns = p + 1 := hb.ns
  have hl : ∀ i ≤ s.NE, leftState (filled s (cells p s (dofs p s a))) i = leftState (filled s a) i := by
    intro i hi
    funext f
    rw [leftState_filled hb _ i f, leftState_filled hb _ i f]
    refine Finset.sum_congr rfl fun n hn => ?_
    rw [hNs, Finset.mem_range] at hn
    rw [hfill n hn i (by omega) f f.2, hfill n hn (i + 1) (by omega) f f.2]
  have hr : ∀ i ≤ s.NE, rightState (filled s (cells p s (dofs p s a))) i = rightState (filled s a) i := by
    intro i hi
    funext f
    rw [rightState_filled hb _ i f, rightState_filled hb _ i f]
    refine Finset.sum_congr rfl fun n hn => ?_
    rw [hNs, Finset.mem_range] at hn
    rw [hfill n hn i (by omega) f f.2, hfill n hn (i + 1) (by omega) f f.2]
  have hN : ∀ i ≤ s.NE, ∀ f, AnalyticAt ℝ (fun d => num (leftState (filled s (cells p s d)) i) (rightState (filled s (cells p s d)) i) f) (dofs p s a) := by
    intro i hi f
    have h1 := hnum i hi f
    rw [← hl i hi, ← hr i hi] at h1
    exact AnalyticAt.comp (g := fun u : (Fin s.NF → ℝ) × (Fin s.NF → ℝ) => num u.1 u.2 f)
      (f := fun d => ((leftState (filled s (cells p s d)) i : Fin s.NF → ℝ), (rightState (filled s (cells p s d)) i : Fin s.NF → ℝ))) h1
      ((analyticAt_pi_iff.mpr fun f => leftState_analytic hb i f _).prod (analyticAt_pi_iff.mpr fun f => rightState_analytic hb i f _))
  intro n hn e h1 h2 f
  unfold dgRhs
  simp only
  refine analyticAt_const.mul ((Finset.analyticAt_fun_sum _ fun g hg => analyticAt_const.mul ?_).sub
    (((hN e h2 f).mul analyticAt_const).sub ((hN (e - 1) (by omega) f).mul analyticAt_const)))
  have h3 := hflux e h1 h2 g (Finset.mem_range.mp hg) f
  have h4 : (fun f' : Fin s.NF => (cellPoly (filled s a) e f').eval (x g)) = fun f' : Fin s.NF => (cellPoly (filled s (cells p s (dofs p s a))) e f').eval (x g) := by
    funext f'
    rw [hc e (by omega) f' f'.2]
  rw [h4] at h3
  exact AnalyticAt.comp (g := fun u => flux u f) (f := fun d (f' : Fin s.NF) => (cellPoly (filled s (cells p s d)) e f').eval (x g)) h3
    (by rw [analyticAt_pi_iff]; intro f'; exact cellPoly_analytic hb _ _ _ _)

end

end Dg1d
