import Mathlib.Analysis.Convex.Function
import Verif.Spec.Variation
import Verif.Props.Convergence
import Verif.Props.Linear

/-! # Piecewise constant advection: no new extrema, no growing variation (C79) -/

set_option linter.unusedSectionVars false

open Polynomial Dg1d.Spec

namespace Dg1d.Props

section
variable {s : Sol ℝ} {lib : GaussLib ℝ}

/-- The cell whose value flows into cell `e`. -/
noncomputable def upCell (s : Sol ℝ) (e : ℕ) : ℕ := by
  classical exact if e = 1 then (if s.bcl.isLit "periodic" then s.NE else 1) else e - 1

lemma upCell_mem (hE : 0 < s.NE) {e : ℕ} (h1 : 1 ≤ e) (h2 : e ≤ s.NE) : 1 ≤ upCell s e ∧ upCell s e ≤ s.NE := by
  unfold upCell
  split_ifs <;> omega

lemma bcCol_up (hl : s.bcl.isLit "periodic" ∨ s.bcl.isLit "zerograd") {e : ℕ} (h1 : 1 ≤ e) (h2 : e ≤ s.NE) {f : ℕ} (hf : f < s.NF) :
    s.bcCol ((e - 1) * s.NF + f) = upCell s e * s.NF + f := by
  unfold upCell
  by_cases he : e = 1
  · subst he
    rw [if_pos rfl, Nat.sub_self, zero_mul, zero_add, bcCol_left s hf]
    by_cases hp : s.bcl.isLit "periodic"
    · rw [if_pos hp, if_pos hp, add_comm]
    · rw [if_neg hp, if_neg hp, if_pos (hl.resolve_left hp), one_mul, add_comm]
  · rw [if_neg he, bcCol_interior s (by omega) (by omega) hf]

/-- With one coefficient per cell the operator is the upwind difference. -/
lemma advLin_upwind (hb : s.Built lib 0) (hk : s.kw = Advection.physics) (hen : s.enhance = none)
    (hl : s.bcl.isLit "periodic" ∨ s.bcl.isLit "zerograd") {f : ℕ} (hf : f < s.NF) (v : ℕ → ℕ → ℝ) {e : ℕ} (h1 : 1 ≤ e) (h2 : e ≤ s.NE) :
    s.dx * advLin s hb.wf v 0 (e * s.NF + f) = v 0 (upCell s e * s.NF + f) - v 0 (e * s.NF + f) := by
  obtain ⟨F, hF, hv⟩ := advLin_residual hb.wf hk hen v
  have hlike := withVal_like s v
  have hB := hlike.built hb
  obtain ⟨F', hF', hval⟩ := C13_advection hB hk hen
  rw [hF] at hF'
  cases hF'
  rw [hv] at hval
  have h3 := hval 0 (by omega) e h1 h2 f hf
  have hrows : (s.withVal v).applyBc.u.rows = 1 := by rw [(applyBc_shape _).1, hB.rows]
  have hev : ∀ e', (cellPoly (s.withVal v).applyBc e' f).eval 1 = v 0 (s.bcCol (e' * s.NF + f)) := by
    intro e'
    unfold cellPoly
    rw [hrows, legSeries_eval, Finset.sum_range_one, legendre_eval_one, mul_one, (applyBc_setup (s.withVal v)).NF, hlike.applyBc_val hb.wf]
    rfl
  rw [show (s.withVal v).NF = s.NF from rfl, show (s.withVal v).dx = s.dx from rfl, hev, hev, legendre_eval_one, legendre_eval_neg_one,
    bcCol_interior s h1 h2 hf, bcCol_up hl h1 h2 hf] at h3
  rw [show legendre ℝ 0 = 1 from rfl, derivative_one, zero_mul, show intPoly (0 : ℝ[X]) = 0 by rw [← zero_mul (1 : ℝ[X]), ← C_0, intPoly_C_mul, zero_mul]] at h3
  norm_num at h3
  linarith

/-- Convex sets that a forward Euler step of at most one cell per step does not leave are not left by the third and fourth order steps. -/
lemma taylor_convex {V : Type*} [AddCommGroup V] [Module ℝ V] {C : Set V} (hC : Convex ℝ C) (L : V →ₗ[ℝ] V) {h : ℝ}
    (hT : ∀ v ∈ C, v + h • L v ∈ C) {q : ℕ} (hq : q = 3 ∨ q = 4) {v : V} (hv : v ∈ C) :
    ∑ m ∈ Finset.range (q + 1), (h ^ m / (m.factorial : ℝ)) • (L ^ m) v ∈ C := by
  set T : V → V := fun v => v + h • L v with hTd
  have i1 := hT v hv
  have i2 := hT _ i1
  have i3 := hT _ i2
  have i4 := hT _ i3
  rcases hq with rfl | rfl
  · have e : ∑ m ∈ Finset.range (3 + 1), (h ^ m / (m.factorial : ℝ)) • (L ^ m) v =
        (1 / 3 : ℝ) • v + (2 / 3 : ℝ) • ((3 / 4 : ℝ) • T v + (1 / 4 : ℝ) • T (T (T v))) := by
      simp only [hTd, Finset.sum_range_succ, Finset.sum_range_zero, zero_add, pow_zero, Nat.factorial, Nat.cast_one, div_one, one_smul,
        Module.End.one_apply, pow_succ, Module.End.mul_apply, one_mul, mul_one, map_add, map_smul]
      push_cast
      module
    rw [e]
    exact hC hv (hC i1 i3 (by norm_num) (by norm_num) (by norm_num)) (by norm_num) (by norm_num) (by norm_num)
  · have e : ∑ m ∈ Finset.range (4 + 1), (h ^ m / (m.factorial : ℝ)) • (L ^ m) v =
        (3 / 8 : ℝ) • v + (5 / 8 : ℝ) • ((8 / 15 : ℝ) • T v + (7 / 15 : ℝ) • ((6 / 7 : ℝ) • T (T v) + (1 / 7 : ℝ) • T (T (T (T v))))) := by
      simp only [hTd, Finset.sum_range_succ, Finset.sum_range_zero, zero_add, pow_zero, Nat.factorial, Nat.cast_one, div_one, one_smul,
        Module.End.one_apply, pow_succ, Module.End.mul_apply, one_mul, mul_one, map_add, map_smul]
      push_cast
      module
    rw [e]
    exact hC hv (hC i1 (hC i2 i4 (by norm_num) (by norm_num) (by norm_num)) (by norm_num) (by norm_num) (by norm_num)) (by norm_num) (by norm_num) (by norm_num)

/-- Such sets are not left by a run. -/
lemma run_convex (hb : s.Built lib 0) (hk : s.kw = Advection.physics) (hen : s.enhance = none) (hdx : 0 < s.dx) {lim : Sol ℝ → Except PyErr (Sol ℝ)}
    (hlim : ∀ a, lim a = .ok a) (deck : RkDeck ℝ) (hrk : deck.rk ∈ ["rk3", "rk4", "low_storage_rk4"]) (hcfl : deck.cfl ≤ 1) (ht : s.t ≤ deck.finaltime)
    (C : Set (ℕ → ℕ → ℝ)) (hC : Convex ℝ C) {f : ℕ} (hf : f < s.NF)
    (hcongr : ∀ v w : ℕ → ℕ → ℝ, (∀ e, 1 ≤ e → e ≤ s.NE → v 0 (e * s.NF + f) = w 0 (e * s.NF + f)) → v ∈ C → w ∈ C)
    (hT : ∀ h, 0 ≤ h → h ≤ s.dx → ∀ v ∈ C, v + h • advLin s hb.wf v ∈ C) (k : ℕ) (hlike : Like (integrate ⟨residual, lim⟩ deck s k).sol s)
    (hk0 : (integrate ⟨residual, lim⟩ deck s k).sol.u.val ∈ C) :
    Like (integrate ⟨residual, lim⟩ deck s (k + 1)).sol s ∧ (integrate ⟨residual, lim⟩ deck s (k + 1)).sol.u.val ∈ C := by
  set run := fun k => integrate ⟨residual, lim⟩ deck s k with hrun
  rcases iteration_cases (env := ⟨residual, lim⟩) (deck := deck) (s := s) (k := k) with hidle | ⟨hr', dt, o', d, hdt⟩
  · rw [hidle]
    exact ⟨hlike, hk0⟩
  obtain ⟨-, hl1, hval⟩ := advection_step hb hk hen hlim deck hrk k hlike hr' hdt
  refine ⟨hl1, ?_⟩
  have hinv := timeInv_run (keepsClock_off hlim) (schemeFor deck.rk) deck s ht k
  have hinv' : (run k).sol.t ≤ deck.finaltime ∧ (run k).sol.t ≤ (run k).tout := ⟨hinv.hi, (hinv.run hr').2.2.2.2.1⟩
  have h0 : 0 ≤ dt := by
    rcases getNext_cases hdt with ⟨-, -, h⟩ | ⟨-, -, h, -⟩ | ⟨-, -, h, -⟩
    · have : dt = deck.finaltime - (run k).sol.t := h
      linarith [hinv'.1]
    · have : dt = (run k).tout - (run k).sol.t := h
      linarith [hinv'.2]
    · exact le_trans (by positivity) h
  have hd := advection_dt (hlike.setup.kw.trans hk) hdt
  rw [hlike.setup.dx, hlike.setup.basis, show s.basis.p = 0 by rw [hb.basis]; rfl] at hd
  norm_num at hd
  have hd' : dt ≤ s.dx := hd.trans (by nlinarith)
  have hq : promisedOrder deck.rk = 3 ∨ promisedOrder deck.rk = 4 := by
    simp only [List.mem_cons, List.not_mem_nil, or_false] at hrk
    rcases hrk with h | h | h <;> rw [h]
    exacts [.inl rfl, .inr rfl, .inr rfl]
  refine hcongr _ _ ?_ (taylor_convex hC (advLin s hb.wf) (hT dt h0 hd') hq hk0)
  intro e h1 h2
  exact (hval 0 e h1 h2 f hf).symm

lemma run_convex_all (hb : s.Built lib 0) (hk : s.kw = Advection.physics) (hen : s.enhance = none) (hdx : 0 < s.dx) {lim : Sol ℝ → Except PyErr (Sol ℝ)}
    (hlim : ∀ a, lim a = .ok a) (deck : RkDeck ℝ) (hrk : deck.rk ∈ ["rk3", "rk4", "low_storage_rk4"]) (hcfl : deck.cfl ≤ 1) (ht : s.t ≤ deck.finaltime)
    (C : Set (ℕ → ℕ → ℝ)) (hC : Convex ℝ C) {f : ℕ} (hf : f < s.NF)
    (hcongr : ∀ v w : ℕ → ℕ → ℝ, (∀ e, 1 ≤ e → e ≤ s.NE → v 0 (e * s.NF + f) = w 0 (e * s.NF + f)) → v ∈ C → w ∈ C)
    (hT : ∀ h, 0 ≤ h → h ≤ s.dx → ∀ v ∈ C, v + h • advLin s hb.wf v ∈ C) (hs : s.u.val ∈ C) (k : ℕ) :
    Like (integrate ⟨residual, lim⟩ deck s k).sol s ∧ (integrate ⟨residual, lim⟩ deck s k).sol.u.val ∈ C := by
  induction k with
  | zero =>
    rw [integrate_zero_sol]
    exact ⟨Like.refl s, hs⟩
  | succ k ih => exact run_convex hb hk hen hdx hlim deck hrk hcfl ht C hC hf hcongr hT k ih.1 ih.2

lemma cellMean_zero {a : Sol ℝ} (hb : s.Built lib 0) (ha : Like a s) (e : ℕ) {f : ℕ} : cellMean a e f = a.u.val 0 (e * s.NF + f) := by
  have hB := ha.built hb
  rw [cellMean_eq (by rw [hB.rows]; omega), ha.setup.NF]

/-- Forward Euler of at most one cell per step averages a cell with its upwind neighbour. -/
lemma euler_upwind (hb : s.Built lib 0) (hk : s.kw = Advection.physics) (hen : s.enhance = none) (hdx : 0 < s.dx)
    (hl : s.bcl.isLit "periodic" ∨ s.bcl.isLit "zerograd") {f : ℕ} (hf : f < s.NF) {h : ℝ} (h0 : 0 ≤ h) (h1 : h ≤ s.dx) (v : ℕ → ℕ → ℝ) :
    ∃ ν, 0 ≤ ν ∧ ν ≤ 1 ∧ ∀ e, 1 ≤ e → e ≤ s.NE →
      (v + h • advLin s hb.wf v) 0 (e * s.NF + f) = (1 - ν) * v 0 (e * s.NF + f) + ν * v 0 (upCell s e * s.NF + f) := by
  refine ⟨h / s.dx, by positivity, (div_le_one hdx).mpr h1, ?_⟩
  intro e he1 he2
  have := advLin_upwind hb hk hen hl hf v he1 he2
  simp only [Pi.add_apply, Pi.smul_apply, smul_eq_mul]
  have hL : advLin s hb.wf v 0 (e * s.NF + f) = (v 0 (upCell s e * s.NF + f) - v 0 (e * s.NF + f)) / s.dx := by
    rw [← this]; field_simp
  rw [hL]
  field_simp
  ring

/-- **C79 (maximum principle).** Piecewise constant advection (order 0) with 'rk3', 'rk4' or 'low_storage_rk4', no limiter, CFL number at most
one, periodic or zero gradient inflow: if all cell averages start in `[m, M]` they stay there at all times. -/
theorem C79_bounds (hb : s.Built lib 0) (hk : s.kw = Advection.physics) (hen : s.enhance = none) (hdx : 0 < s.dx)
    (hl : s.bcl.isLit "periodic" ∨ s.bcl.isLit "zerograd") (lim : Sol ℝ → Except PyErr (Sol ℝ)) (hlim : ∀ a, lim a = .ok a) (deck : RkDeck ℝ)
    (hrk : deck.rk ∈ ["rk3", "rk4", "low_storage_rk4"]) (hcfl : deck.cfl ≤ 1) (ht : s.t ≤ deck.finaltime) (f : ℕ) (hf : f < s.NF) (m M : ℝ)
    (hs : ∀ e, 1 ≤ e → e ≤ s.NE → cellMean s e f ∈ Set.Icc m M) (k : ℕ) (e : ℕ) (h1 : 1 ≤ e) (h2 : e ≤ s.NE) :
    cellMean (integrate ⟨residual, lim⟩ deck s k).sol e f ∈ Set.Icc m M := by
  set C : Set (ℕ → ℕ → ℝ) := {v | ∀ e, 1 ≤ e → e ≤ s.NE → v 0 (e * s.NF + f) ∈ Set.Icc m M} with hC
  have hconv : Convex ℝ C := by
    intro x hx y hy a b ha hb' hab e h1 h2
    exact (convex_Icc m M) (hx e h1 h2) (hy e h1 h2) ha hb' hab
  have := run_convex_all hb hk hen hdx hlim deck hrk hcfl ht C hconv hf (fun v w h hv e h1 h2 => by rw [← h e h1 h2]; exact hv e h1 h2) ?_ ?_ k
  · rw [cellMean_zero hb this.1]
    exact this.2 e h1 h2
  · intro h h0 h1 v hv e he1 he2
    obtain ⟨ν, n0, n1, hν⟩ := euler_upwind hb hk hen hdx hl hf h0 h1 v
    obtain ⟨u1, u2⟩ := upCell_mem hb.NE he1 he2
    rw [hν e he1 he2]
    exact (convex_Icc m M) (hv e he1 he2) (hv _ u1 u2) (by linarith) n0 (by ring)
  · intro e h1 h2
    rw [← cellMean_zero hb (Like.refl s)]
    exact hs e h1 h2

/-- **C79 (comparison).** Two such runs from data that are ordered cell by cell stay ordered at all times. -/
theorem C79_comparison (hb : s.Built lib 0) (hk : s.kw = Advection.physics) (hen : s.enhance = none) (hdx : 0 < s.dx)
    (hl : s.bcl.isLit "periodic" ∨ s.bcl.isLit "zerograd") (deck : RkDeck ℝ)
    (hrk : deck.rk ∈ ["rk3", "rk4", "low_storage_rk4"]) (hcfl : deck.cfl ≤ 1) (x y : Sol ℝ) (hx : Like x s) (hy : Like y s) (ht : x.t ≤ deck.finaltime)
    (hc : x.t = y.t ∧ x.n = y.n) (f : ℕ) (hf : f < s.NF) (hxy : ∀ e, 1 ≤ e → e ≤ s.NE → cellMean x e f ≤ cellMean y e f) (k : ℕ) (e : ℕ) (h1 : 1 ≤ e) (h2 : e ≤ s.NE) :
    cellMean (integrate ⟨residual, fun a => .ok a⟩ deck x k).sol e f ≤ cellMean (integrate ⟨residual, fun a => .ok a⟩ deck y k).sol e f := by
  set z : Sol ℝ := { x with u := { x.u with val := fun n c => -1 * x.u.val n c + 1 * y.u.val n c } } with hz
  have hlz : Like z s := ⟨SameSetup.trans (by constructor <;> rfl) hx.setup, hx.rows, hx.cols⟩
  have hcomb : IsCombination (-1) 1 x y z := (isCombination_iff hb hx hy hlz).mpr fun n _ e _ f _ => rfl
  have hrow : ∀ {a : Sol ℝ}, Like a s → ∀ e, cellMean a e f = a.u.val 0 (e * s.NF + f) := fun ha e => cellMean_zero hb ha e
  obtain ⟨-, -, -, -, hall, -⟩ := C74_superposition hb hk deck (schemeFor deck.rk) (-1) 1 x y z hx hy hlz hcomb ⟨rfl, hc.1.symm⟩ ⟨rfl, hc.2.symm⟩ k
  set C : Set (ℕ → ℕ → ℝ) := {v | ∀ e, 1 ≤ e → e ≤ s.NE → 0 ≤ v 0 (e * s.NF + f)} with hC
  have hbz := hlz.built hb
  have hzNF : z.NF = s.NF := hlz.setup.NF
  have hzNE : z.NE = s.NE := hlz.setup.NE
  have key := run_convex_all hbz (hlz.setup.kw.trans hk) (hlz.setup.enhance.trans hen) (by rw [hlz.setup.dx]; exact hdx) (lim := fun a => .ok a) (fun _ => rfl) deck hrk
    hcfl ht C ?_ (f := f) (by rw [hzNF]; exact hf) ?_ ?_ ?_ k
  · have hX : Like (integrate ⟨residual, fun a => .ok a⟩ deck z k).sol s := key.1.trans hlz
    have hcell := hall e (show e ≤ (integrate ⟨residual, fun a => .ok a⟩ deck z k).sol.NE + 1 by rw [key.1.setup.NE, hzNE]; omega) f
      (show f < (integrate ⟨residual, fun a => .ok a⟩ deck z k).sol.NF by rw [key.1.setup.NF, hzNF]; exact hf)
    have hm : cellMean (integrate ⟨residual, fun a => .ok a⟩ deck z k).sol e f =
        -1 * cellMean (integrate ⟨residual, fun a => .ok a⟩ deck x k).sol e f + 1 * cellMean (integrate ⟨residual, fun a => .ok a⟩ deck y k).sol e f := by
      unfold cellMean
      rw [show cellPoly (integrate ⟨residual, fun a => .ok a⟩ deck z k).sol e f = _ from hcell, intPoly_add, intPoly_C_mul, intPoly_C_mul, add_div, mul_div_assoc, mul_div_assoc]
      rfl
    have hpos := key.2 e h1 h2
    rw [← hrow hX, hm] at hpos
    linarith
  · intro x hx y hy a b ha hb' _ e h1 h2
    exact add_nonneg (mul_nonneg ha (hx e h1 h2)) (mul_nonneg hb' (hy e h1 h2))
  · intro v w h hv e h1 h2
    have := h e h1 (by rw [hzNE]; exact h2)
    rw [hzNF] at this
    rw [← this]
    exact hv e h1 h2
  · intro h h0 h1 v hv e he1 he2
    obtain ⟨ν, n0, n1, hν⟩ := euler_upwind hbz (hlz.setup.kw.trans hk) (hlz.setup.enhance.trans hen) (by rw [hlz.setup.dx]; exact hdx)
      (by rw [hlz.setup.bcl]; exact hl) (f := f) (by rw [hzNF]; exact hf) h0 h1 v
    obtain ⟨u1, u2⟩ := upCell_mem hbz.NE he1 (by rw [hzNE]; exact he2)
    have := hν e he1 (by rw [hzNE]; exact he2)
    rw [hzNF] at this
    rw [this]
    exact add_nonneg (mul_nonneg (by linarith) (hv e he1 he2)) (mul_nonneg n0 (hv _ u1 (by rw [← hzNE]; exact u2)))
  · intro e h1 h2
    have := hxy e h1 h2
    rw [hrow hx, hrow hy] at this
    show 0 ≤ -1 * x.u.val 0 (e * s.NF + f) + 1 * y.u.val 0 (e * s.NF + f)
    linarith

open Classical in
/-- The jumps towards the upwind cells add up to the total variation. -/
lemma variation_up (hE : 0 < s.NE) (u : ℕ → ℝ) :
    variation (s.bcl.isLit "periodic") s.NE u = ∑ e ∈ Finset.Icc 1 s.NE, |u e - u (upCell s e)| := by
  unfold variation
  rw [← Finset.add_sum_Ioc_eq_sum_Icc (by omega : 1 ≤ s.NE), add_comm]
  congr 1
  · unfold upCell
    rw [if_pos rfl]
    split_ifs
    · rfl
    · rw [sub_self, abs_zero]
  · rw [show Finset.Ioc 1 s.NE = Finset.Ico (1 + 1) (s.NE + 1) from (Finset.Ico_succ_succ_eq_Ioc 1 s.NE).symm, ← Finset.sum_Ico_add' (fun e => |u e - u (upCell s e)|) 1 s.NE 1]
    refine Finset.sum_congr rfl fun e he => ?_
    rw [Finset.mem_Ico] at he
    unfold upCell
    rw [if_neg (by omega), Nat.add_sub_cancel]

lemma sum_up_le (hE : 0 < s.NE) (u : ℕ → ℝ) :
    ∑ e ∈ Finset.Icc 1 s.NE, |u (upCell s e) - u (upCell s (upCell s e))| ≤ ∑ e ∈ Finset.Icc 1 s.NE, |u e - u (upCell s e)| := by
  set D := fun e => |u e - u (upCell s e)| with hD
  have h1 : ∑ e ∈ Finset.Icc 1 s.NE, D (upCell s e) = D (upCell s 1) + ∑ e ∈ Finset.Ico 1 s.NE, D e := by
    rw [← Finset.add_sum_Ioc_eq_sum_Icc (by omega : 1 ≤ s.NE)]
    congr 1
    rw [show Finset.Ioc 1 s.NE = Finset.Ico (1 + 1) (s.NE + 1) from (Finset.Ico_succ_succ_eq_Ioc 1 s.NE).symm, ← Finset.sum_Ico_add' (fun e => D (upCell s e)) 1 s.NE 1]
    refine Finset.sum_congr rfl fun e he => ?_
    rw [Finset.mem_Ico] at he
    show D (upCell s (e + 1)) = D e
    congr 1
    unfold upCell
    rw [if_neg (by omega), Nat.add_sub_cancel]
  have h2 : ∑ e ∈ Finset.Icc 1 s.NE, D e = ∑ e ∈ Finset.Ico 1 s.NE, D e + D s.NE := by
    rw [← Finset.Ico_succ_right_eq_Icc, Nat.succ_eq_succ, Nat.succ_eq_add_one, Finset.sum_Ico_succ_top (by omega)]
  show ∑ e ∈ Finset.Icc 1 s.NE, D (upCell s e) ≤ ∑ e ∈ Finset.Icc 1 s.NE, D e
  rw [h1, h2, add_comm]
  have : D (upCell s 1) ≤ D s.NE := by
    have h3 : upCell s 1 = s.NE ∨ upCell s 1 = 1 := by
      unfold upCell
      rw [if_pos rfl]
      split_ifs
      · exact .inl rfl
      · exact .inr rfl
    rcases h3 with h3 | h3
    · rw [h3]
    · rw [h3, hD]
      simp only [h3, sub_self, abs_zero]
      exact abs_nonneg _
  linarith

open Classical in
/-- **C79 (total variation).** The total variation of the cell averages never increases: not over one iteration, not from one output to the next, and
no output has more than the initial data. -/
theorem C79_variation (hb : s.Built lib 0) (hk : s.kw = Advection.physics) (hen : s.enhance = none) (hdx : 0 < s.dx)
    (hl : s.bcl.isLit "periodic" ∨ s.bcl.isLit "zerograd") (lim : Sol ℝ → Except PyErr (Sol ℝ)) (hlim : ∀ a, lim a = .ok a) (deck : RkDeck ℝ)
    (hrk : deck.rk ∈ ["rk3", "rk4", "low_storage_rk4"]) (hcfl : deck.cfl ≤ 1) (ht : s.t ≤ deck.finaltime) (f : ℕ) (hf : f < s.NF) (k : ℕ) :
    let run := integrate ⟨residual, lim⟩ deck s
    let tv := fun a : Sol ℝ => variation (s.bcl.isLit "periodic") s.NE fun e => cellMean a e f
    tv (run (k + 1)).sol ≤ tv (run k).sol ∧ ∀ j ≤ k, tv (run k).sol ≤ tv (run j).sol := by
  intro run tv
  have hlike : ∀ k, Like (run k).sol s := fun k =>
    (run_convex_all hb hk hen hdx hlim deck hrk hcfl ht Set.univ convex_univ hf (fun _ _ _ _ => trivial) (fun _ _ _ _ _ => trivial) trivial k).1
  have step : ∀ k, tv (run (k + 1)).sol ≤ tv (run k).sol := by
    intro k
    set c := tv (run k).sol with hc
    set C : Set (ℕ → ℕ → ℝ) := {v | variation (s.bcl.isLit "periodic") s.NE (fun e => v 0 (e * s.NF + f)) ≤ c} with hC
    have htv : ∀ {a : Sol ℝ}, Like a s → (tv a ≤ c ↔ a.u.val ∈ C) := by
      intro a ha
      show variation _ _ _ ≤ c ↔ variation _ _ _ ≤ c
      rw [show (fun e => cellMean a e f) = fun e => a.u.val 0 (e * s.NF + f) from funext fun e => cellMean_zero hb ha e]
    have := run_convex hb hk hen hdx hlim deck hrk hcfl ht C ?_ hf ?_ ?_ k (hlike k) ((htv (hlike k)).mp le_rfl)
    · exact (htv this.1).mpr this.2
    · intro x hx y hy a b ha hb' hab
      show variation _ _ _ ≤ c
      have hx : variation _ _ _ ≤ c := hx
      have hy : variation _ _ _ ≤ c := hy
      rw [variation_up hb.NE] at hx hy ⊢
      refine le_trans (Finset.sum_le_sum (g := fun e => a * |x 0 (e * s.NF + f) - x 0 (upCell s e * s.NF + f)| + b * |y 0 (e * s.NF + f) - y 0 (upCell s e * s.NF + f)|)
        fun e _ => ?_) ?_
      · simp only [Pi.add_apply, Pi.smul_apply, smul_eq_mul]
        rw [show a * x 0 (e * s.NF + f) + b * y 0 (e * s.NF + f) - (a * x 0 (upCell s e * s.NF + f) + b * y 0 (upCell s e * s.NF + f)) =
          a * (x 0 (e * s.NF + f) - x 0 (upCell s e * s.NF + f)) + b * (y 0 (e * s.NF + f) - y 0 (upCell s e * s.NF + f)) by ring]
        refine (abs_add_le _ _).trans_eq ?_
        rw [abs_mul, abs_mul, abs_of_nonneg ha, abs_of_nonneg hb']
      · rw [Finset.sum_add_distrib, ← Finset.mul_sum, ← Finset.mul_sum]
        have := mul_le_mul_of_nonneg_left hx ha
        have := mul_le_mul_of_nonneg_left hy hb'
        have : a * c + b * c = c := by rw [← add_mul, hab, one_mul]
        linarith
    · intro v w h hv
      show variation _ _ _ ≤ c
      have hv : variation _ _ _ ≤ c := hv
      rw [variation_up hb.NE] at hv ⊢
      refine le_trans (le_of_eq (Finset.sum_congr rfl fun e he => ?_)) hv
      rw [Finset.mem_Icc] at he
      obtain ⟨u1, u2⟩ := upCell_mem hb.NE he.1 he.2
      simp only [h e he.1 he.2, h _ u1 u2]
    · intro h h0 h1 v hv
      obtain ⟨ν, n0, n1, hν⟩ := euler_upwind hb hk hen hdx hl hf h0 h1 v
      show variation _ _ _ ≤ c
      have hv : variation _ _ _ ≤ c := hv
      rw [variation_up hb.NE] at hv ⊢
      set U := fun e => v 0 (e * s.NF + f) with hU
      refine le_trans (Finset.sum_le_sum (g := fun e => (1 - ν) * |U e - U (upCell s e)| + ν * |U (upCell s e) - U (upCell s (upCell s e))|) fun e he => ?_) ?_
      · rw [Finset.mem_Icc] at he
        obtain ⟨u1, u2⟩ := upCell_mem hb.NE he.1 he.2
        rw [hν e he.1 he.2, hν _ u1 u2]
        show |(1 - ν) * U e + ν * U (upCell s e) - ((1 - ν) * U (upCell s e) + ν * U (upCell s (upCell s e)))| ≤ _
        rw [show (1 - ν) * U e + ν * U (upCell s e) - ((1 - ν) * U (upCell s e) + ν * U (upCell s (upCell s e))) =
          (1 - ν) * (U e - U (upCell s e)) + ν * (U (upCell s e) - U (upCell s (upCell s e))) by ring]
        refine (abs_add_le _ _).trans_eq ?_
        rw [abs_mul, abs_mul, abs_of_nonneg n0, abs_of_nonneg (by linarith : 0 ≤ 1 - ν)]
      · rw [Finset.sum_add_distrib, ← Finset.mul_sum, ← Finset.mul_sum]
        have h5 := mul_le_mul_of_nonneg_left (sum_up_le hb.NE U) n0
        have h6 := mul_le_mul_of_nonneg_left hv (by linarith : 0 ≤ 1 - ν)
        have h7 := mul_le_mul_of_nonneg_left hv n0
        linarith
  refine ⟨step k, fun j hj => ?_⟩
  induction k, hj using Nat.le_induction with
  | base => exact le_rfl
  | succ k _ ih => exact (step k).trans ih

/-- C79 on three cells with the values 1, 4, 9 at CFL number one. -/
example (k e : ℕ) (h1 : 1 ≤ e) (h2 : e ≤ 3) :
    cellMean (integrate ⟨residual, fun s => .ok s⟩ ⟨"rk4", 1, 10, 1⟩ (Ex.solR 0) k).sol e 0 ∈ Set.Icc (cellMean (Ex.solR 0) 1 0) (cellMean (Ex.solR 0) 3 0) := by
  refine C79_bounds (Ex.solR_built 0) rfl rfl (by norm_num [Ex.solR]) (.inl ⟨rfl, rfl⟩) (fun s => .ok s) (fun _ => rfl) _ (by simp) le_rfl
    (by norm_num [Ex.solR]) 0 (by norm_num [Ex.solR]) _ _ ?_ k e h1 h2
  intro e h1 h2
  have hm : ∀ e, cellMean (Ex.solR 0) e 0 = (e : ℝ) ^ 2 := by
    intro e
    rw [cellMean_zero (Ex.solR_built 0) (Like.refl _)]
    norm_num [Ex.solR]
  rw [hm, hm, hm, Set.mem_Icc]
  have h1' : (1 : ℝ) ≤ e := by exact_mod_cast h1
  have h2' : (e : ℝ) ≤ 3 := by exact_mod_cast h2
  push_cast
  constructor <;> nlinarith

/-- Their variation, 3 + 5 + 8, never grows. -/
example (k : ℕ) : variation True 3 (fun e => cellMean (integrate ⟨residual, fun s => .ok s⟩ ⟨"rk3", 1, 10, 1⟩ (Ex.solR 0) k).sol e 0) ≤ 16 := by
  have h := (C79_variation (Ex.solR_built 0) rfl rfl (by norm_num [Ex.solR]) (.inl ⟨rfl, rfl⟩) (fun s => .ok s) (fun _ => rfl) ⟨"rk3", 1, 10, 1⟩ (by simp) le_rfl
    (by norm_num [Ex.solR]) 0 (by norm_num [Ex.solR]) k).2 0 (Nat.zero_le k)
  have hp : (Ex.solR 0).bcl.isLit "periodic" := ⟨rfl, rfl⟩
  have hm : ∀ e, cellMean (Ex.solR 0) e 0 = (e : ℝ) ^ 2 := by
    intro e
    rw [cellMean_zero (Ex.solR_built 0) (Like.refl _)]
    norm_num [Ex.solR]
  simp only [integrate_zero_sol, hm, show (Ex.solR 0).NE = 3 from rfl, variation, if_pos hp] at h
  simp only [variation, if_true]
  refine h.trans ?_
  rw [show Finset.Ico 1 3 = {1, 2} by decide, Finset.sum_pair (by decide)]
  norm_num [abs_of_nonneg, abs_of_nonpos]

/-- Two ordered starts: the squares and the squares plus one. -/
example (k e : ℕ) (h1 : 1 ≤ e) (h2 : e ≤ 3) : let run := fun a => integrate ⟨residual, fun s => .ok s⟩ ⟨"low_storage_rk4", (1 : ℝ), 10, 1 / 2⟩ a k
    cellMean (run (Ex.solR 0)).sol e 0 ≤ cellMean (run ((Ex.solR 0).withVal fun n e => (e : ℝ) ^ 2 + n + 1)).sol e 0 := by
  have hd : (0 : ℝ) < (Ex.solR 0).dx := by norm_num [Ex.solR]
  have ht : (Ex.solR 0).t ≤ 1 := by norm_num [Ex.solR]
  refine C79_comparison (Ex.solR_built 0) rfl rfl hd (.inl ⟨rfl, rfl⟩) ⟨"low_storage_rk4", 1, 10, 1 / 2⟩ (by simp) (show (1 / 2 : ℝ) ≤ 1 by norm_num)
    (Ex.solR 0) ((Ex.solR 0).withVal fun n e => (e : ℝ) ^ 2 + n + 1) (Like.refl _) (withVal_like _ _) ht ⟨rfl, rfl⟩ 0 (Ex.solR_built 0).NF ?_ k e h1 h2
  intro e _ _
  rw [cellMean_zero (Ex.solR_built 0) (Like.refl _), cellMean_zero (Ex.solR_built 0) (withVal_like _ _)]
  norm_num [Ex.solR, Sol.withVal]

end

section
variable {lib : GaussLib ℝ} {ft : FloatText ℝ} {d : Deck ℝ} {N : ℕ} {ic : IC.Setup}
open Text

open Classical in
/-- **C79 from the deck.** Advection of order 0 with 'rk3', 'rk4' or 'low_storage_rk4', no limiter and no enhancement, CFL number at most one: when the
initial condition takes values in `[m, M]`, so do all cell averages of all outputs, and the total variation decreases from output to output. -/
theorem C79_deck (hlib : lib.Ok) (junk : ℕ → ℝ) (hd : ValidDeck lib ft d 0 N ic) (hsys : d.system ≠ "euler".toList)
    (hrk : d.rk ∈ ["rk3".toList, "rk4".toList, "low_storage_rk4".toList]) (hlim : d.limiting ≠ "adaptive_hr".toList) (hen : d.enhance = [])
    (hcfl : d.cfl ≤ 1) (hT : 0 ≤ d.finaltime) (m M : ℝ) (hic : ∀ x, ∃ y, (ic.f (ic.gamma.getD (7 / 5)) x)[0]? = some y ∧ y ∈ Set.Icc m M) (k : ℕ) :
    ∃ s lm, start lib ft junk d = .ok (s, lm) ∧
      let log := (integrate ⟨residual, lm.limit⟩ d.rkDeck s k).log
      (∀ o ∈ log, ∀ e, 1 ≤ e → e ≤ N → cellMean o.sol e 0 ∈ Set.Icc m M) ∧
      ∀ o ∈ log, variation (ic.bc = "periodic") N (fun e => cellMean o.sol e 0) ≤ variation (ic.bc = "periodic") N fun e => cellMean s e 0 := by
  obtain ⟨c, s, lm, hc, hst, S⟩ := C69_starts hlib junk hd
  refine ⟨s, lm, hst, ?_⟩
  intro log
  obtain ⟨hAB, hbc⟩ : ic.A < ic.B ∧ (ic.bc = "periodic" ∨ ic.bc = "zerograd") := by
    obtain ⟨name, p0, rest, -, -, l3, -⟩ := hd.line
    exact ⟨(setupOf_facts l3).1, (setupOf_facts l3).2.1⟩
  have hN : (0 : ℝ) < N := by exact_mod_cast hd.cells
  have hdx : 0 < s.dx := by rw [S.mesh.width]; exact div_pos (by linarith) hN
  have hl : ∀ a, lm.limit a = .ok a := by
    intro a
    have hne : String.ofList d.limiting ≠ "adaptive_hr" := by
      intro h
      apply hlim
      rw [← h, String.toList_ofList]
    obtain ⟨lm', h1, h2⟩ := C57_disabled (String.ofList d.limiting) hne s a
    rw [S.limiter] at h1
    cases h1
    exact h2
  have hs : s = c.sol.applyBc := S.unlimited hlim
  have henh : s.enhance = none := by
    have := S.enhance
    rw [hen] at this
    unfold enhancementOf at this
    rw [if_pos rfl] at this
    cases h : s.enhance with
    | none => rfl
    | some x => rw [h] at this; cases this
  have hk := (S.physics.advection hsys).1
  have hrk' : d.rkDeck.rk ∈ ["rk3", "rk4", "low_storage_rk4"] := by
    show String.ofList d.rk ∈ _
    simp only [List.mem_cons, List.not_mem_nil, or_false] at hrk ⊢
    rcases hrk with h | h | h <;> rw [h, String.ofList_toList] <;> simp
  have hbl : s.bcl.isLit "periodic" ∨ s.bcl.isLit "zerograd" := by
    rw [S.bc.1]
    rcases hbc with h | h <;> rw [h]
    exacts [.inl ⟨rfl, rfl⟩, .inr ⟨rfl, rfl⟩]
  have hper : s.bcl.isLit "periodic" ↔ ic.bc = "periodic" := by
    rw [S.bc.1]
    exact ⟨fun h => h.2, fun h => ⟨rfl, h⟩⟩
  have ht : s.t ≤ d.rkDeck.finaltime := by rw [S.clock.1]; exact hT
  refine ⟨?_, ?_⟩
  · intro o ho e h1 h2
    obtain ⟨j, -, hj⟩ := log_states (keepsClock_off hl) d.rkDeck s k o ho
    rw [hj]
    refine C79_bounds S.built hk henh hdx hbl lm.limit hl d.rkDeck hrk' hcfl ht 0 S.built.NF m M ?_ j e h1 (by rw [S.NE]; exact h2)
    intro e h1 h2
    rw [S.NE] at h2
    rw [S.means e h1 h2 0 S.built.NF, cellMean_zero S.kin.1 (Like.refl c.sol)]
    obtain ⟨hx, -, hG⟩ := hlib (0 + 1) (Nat.succ_pos 0)
    obtain ⟨v, hv, hval⟩ := S.data (e - 1) (by omega) 0 S.kin.1.NF
    rw [Nat.sub_add_cancel h1] at hval
    rw [Nat.sub_add_cancel h1, S.kin.1.basis] at hv
    choose y hy1 hy2 using hic
    obtain ⟨c', hc', -, hint, -⟩ := C24_projection lib 0 hx hG (c.sol.x.val (e - 1)) (c.sol.x.val e) (ic.f (ic.gamma.getD (7 / 5))) 0 y (fun _ _ => hy1 _)
    rw [hv] at hc'
    cases hc'
    have := hint 0 (by omega)
    rw [legSeries_eval, Finset.sum_range_one, show legendre ℝ 0 = 1 from rfl, eval_one, mul_one] at this
    rw [hval, this]
    exact hy2 _
  · intro o ho
    obtain ⟨j, -, hj⟩ := log_states (keepsClock_off hl) d.rkDeck s k o ho
    rw [hj]
    have := (C79_variation S.built hk henh hdx hbl lm.limit hl d.rkDeck hrk' hcfl ht 0 S.built.NF j).2 0 (Nat.zero_le j)
    simp only [integrate_zero_sol, S.NE, hper] at this
    exact this

/-- The piecewise constant sine wave. -/
noncomputable def Ex.sine0 : Deck ℝ := { Ex.sineDeck with order := 0, rk := "rk4".toList, cfl := 1 }

lemma Ex.sine0_valid : ValidDeck realGauss Ex.decReal Ex.sine0 0 8 IC.sinewave where
  order := rfl
  cells := by norm_num
  line := Ex.sine_valid.line
  enhance := C67_no_enhancement _ _
  limiter := fun h => absurd (show ([] : Str) = "adaptive_hr".toList from h) (by decide)

/-- C79 for the sine wave on 8 cells: all averages stay between -1 and 1. -/
example (k : ℕ) : ∃ s lm, start realGauss Ex.decReal (fun _ => 0) Ex.sine0 = .ok (s, lm) ∧
    ∀ o ∈ (integrate ⟨residual, lm.limit⟩ Ex.sine0.rkDeck s k).log, ∀ e, 1 ≤ e → e ≤ 8 → cellMean o.sol e 0 ∈ Set.Icc (-1 : ℝ) 1 := by
  obtain ⟨s, lm, hst, h, -⟩ := C79_deck realGauss_ok (fun _ => 0) Ex.sine0_valid (show "advection".toList ≠ "euler".toList by decide)
    (show "rk4".toList ∈ ["rk3".toList, "rk4".toList, "low_storage_rk4".toList] by simp) (show ([] : Str) ≠ "adaptive_hr".toList by decide) rfl (show (1 : ℝ) ≤ 1 from le_rfl) (show (0 : ℝ) ≤ 1 by norm_num) (-1) 1
    (fun x => ⟨_, rfl, Real.neg_one_le_sin _, Real.sin_le_one _⟩) k
  exact ⟨s, lm, hst, h⟩

end
end Dg1d.Props
