import Verif.Proofs.WaveBound
import Verif.Props.AdvectionConvergence

/-! Helper lemmas for C103: the states of a run that starts from waves are waves. -/

set_option linter.unusedSectionVars false

open Polynomial

namespace Dg1d.Props
open Spec Stability Decay

section
variable {s : Sol ℝ} {lib : GaussLib ℝ} {p : ℕ}

lemma stepWeight_high {F : Type*} [Field F] (b : List F) (beta : ℕ → ℕ → F) {m : ℕ} (hm : b.length < m) : stepWeight b beta m = 0 := by
  obtain ⟨m, rfl⟩ : ∃ m', m = m' + 1 := ⟨m - 1, by omega⟩
  rw [stepWeight]
  refine Finset.sum_eq_zero fun k hk => ?_
  rw [tallWeight_zero _ _ _ (by have := Finset.mem_range.mp hk; omega), mul_zero]

/-- One iteration with any table is a polynomial in the advection operator. -/
lemma table_series {tab : Tableau ℝ} (hf : tab.Fine) {n : ℕ} (hn : tab.coeffs.length < n) (hb : s.Built lib p) (hk : s.kw = Advection.physics) (hen : s.enhance = none)
    {lim : Sol ℝ → Except PyErr (Sol ℝ)} (hlim : ∀ a, lim a = .ok a) (deck : RkDeck ℝ) (k : ℕ) (hlike : Like ((Scheme.classic tab).run ⟨residual, lim⟩ deck s k).sol s)
    {dt : ℝ} {o d : Bool} (hrun : ((Scheme.classic tab).run ⟨residual, lim⟩ deck s k).status = .running)
    (hdt : getNextTimeStep ((Scheme.classic tab).run ⟨residual, lim⟩ deck s k).sol ((Scheme.classic tab).run ⟨residual, lim⟩ deck s k).tout deck.cfl deck.finaltime = .ok (dt, o, d)) :
    ((Scheme.classic tab).run ⟨residual, lim⟩ deck s (k + 1)).sol.t = ((Scheme.classic tab).run ⟨residual, lim⟩ deck s k).sol.t + dt ∧
    Like ((Scheme.classic tab).run ⟨residual, lim⟩ deck s (k + 1)).sol s ∧
    ∀ i, ∀ e, 1 ≤ e → e ≤ s.NE → ∀ f < s.NF, ((Scheme.classic tab).run ⟨residual, lim⟩ deck s (k + 1)).sol.u.val i (e * s.NF + f) =
      (∑ m ∈ Finset.range n, (dt ^ m * stepWeight tab.coeffs tab.beta m) • (advLin s hb.wf ^ m) ((Scheme.classic tab).run ⟨residual, lim⟩ deck s k).sol.u.val) i (e * s.NF + f) := by
  set run := (Scheme.classic tab).run ⟨residual, lim⟩ deck s with hrundef
  have hR : ∀ a, SameSetup a s → ∃ s', (⟨residual, lim⟩ : Env ℝ).residual a = .ok (s', (fun u => advArr s (bcArr s u)) a.u) ∧ SameSetup s' s :=
    fun a ha => ⟨_, advArr_residual hk hen ha, (applyBc_setup a).trans ha⟩
  have hu : ∀ w : ℕ → ℕ → ℝ, ({ (run k).sol.u with val := w } : Arr ℝ) = { s.u with val := w } := by
    intro w
    obtain ⟨h1, h2⟩ := (⟨hlike.rows, hlike.cols⟩ : _ ∧ _)
    cases hu : (run k).sol.u
    cases hs : s.u
    simp only [hu, hs] at h1 h2
    simp only [h1, h2]
  have hst := C06_textbook_step_generic tab hf ⟨residual, lim⟩ deck s (fun u => advArr s (bcArr s u)) hlim hR k dt o d hrun hdt
  simp only at hst
  have hlinear : (fun v => (advArr s (bcArr s { (run k).sol.u with val := v })).val) = advLin s hb.wf := by
    funext v
    rw [hu]
    rfl
  have hst : (run (k + 1)).sol = ({ (run k).sol with
      u := { (run k).sol.u with val := rkStep tab.coeffs tab.beta (advLin s hb.wf) dt (run k).sol.u.val }
      t := (run k).sol.t + dt
      n := (run k).sol.n + 1 } : Sol ℝ).applyBc := by
    rw [← hlinear]
    exact hst
  rw [rkStep_linear] at hst
  set v := ∑ m ∈ Finset.range (tab.coeffs.length + 1), (dt ^ m * stepWeight tab.coeffs tab.beta m) • (advLin s hb.wf ^ m) (run k).sol.u.val with hv
  have hlw : Like ({ (run k).sol with u := { (run k).sol.u with val := v }, t := (run k).sol.t + dt, n := (run k).sol.n + 1 } : Sol ℝ) s :=
    ⟨SameSetup.trans (by constructor <;> rfl) hlike.setup, hlike.rows, hlike.cols⟩
  refine ⟨by rw [hst]; exact (applyBc_clock _).1, by rw [hst]; exact hlw.applyBc, ?_⟩
  intro i e h1 h2 f hf
  rw [hst, hlw.applyBc_val hb.wf, bcCol_interior s h1 h2 hf]
  show v i (e * s.NF + f) = _
  have hvn : v = ∑ m ∈ Finset.range n, (dt ^ m * stepWeight tab.coeffs tab.beta m) • (advLin s hb.wf ^ m) (run k).sol.u.val := ?_
  · rw [hvn]
  rw [hv]
  refine Finset.sum_subset (Finset.range_subset_range.mpr (by omega)) fun m _ hm => ?_
  rw [stepWeight_high _ _ (by rw [Finset.mem_range] at hm; omega), mul_zero, zero_smul]

/-- Field `f` of the array is a sum of waves with the phases `θ i` per cell and the coefficients `v i`. -/
def IsWaves {ι : Type*} (s : Sol ℝ) (p f : ℕ) (I : Finset ι) (θ : ι → ℝ) (v : ι → Fin (p + 1) → ℂ) (u : ℕ → ℕ → ℝ) : Prop :=
  ∀ (n : Fin (p + 1)) (e : ℕ), 1 ≤ e → e ≤ s.NE → u n (e * s.NF + f) = ∑ i ∈ I, (Complex.exp (θ i * Complex.I) ^ e * v i n).re

variable {ι : Type*} {I : Finset ι} {θ : ι → ℝ} {f : ℕ}

lemma IsWaves.add {v w : ι → Fin (p + 1) → ℂ} {a b : ℕ → ℕ → ℝ} (ha : IsWaves s p f I θ v a) (hb : IsWaves s p f I θ w b) : IsWaves s p f I θ (v + w) (a + b) := by
  intro n e h1 h2
  rw [Pi.add_apply, Pi.add_apply, ha n e h1 h2, hb n e h1 h2, ← Finset.sum_add_distrib]
  refine Finset.sum_congr rfl fun i _ => ?_
  rw [Pi.add_apply, Pi.add_apply, mul_add, Complex.add_re]

lemma IsWaves.smul (c : ℝ) {v : ι → Fin (p + 1) → ℂ} {a : ℕ → ℕ → ℝ} (ha : IsWaves s p f I θ v a) : IsWaves s p f I θ ((c : ℂ) • v) (c • a) := by
  intro n e h1 h2
  rw [Pi.smul_apply, Pi.smul_apply, ha n e h1 h2, smul_eq_mul, Finset.mul_sum]
  refine Finset.sum_congr rfl fun i _ => ?_
  rw [Pi.smul_apply, Pi.smul_apply, smul_eq_mul, mul_left_comm, Complex.re_ofReal_mul]

lemma IsWaves.zero : IsWaves s p f I θ 0 0 := by
  intro n e _ _
  simp

lemma IsWaves.sum (J : Finset ℕ) {v : ℕ → ι → Fin (p + 1) → ℂ} {a : ℕ → ℕ → ℕ → ℝ} (h : ∀ m ∈ J, IsWaves s p f I θ (v m) (a m)) :
    IsWaves s p f I θ (∑ m ∈ J, v m) (∑ m ∈ J, a m) := by
  classical
  induction J using Finset.induction_on with
  | empty => exact IsWaves.zero
  | insert j J hj ih =>
    rw [Finset.sum_insert hj, Finset.sum_insert hj]
    exact (h j (Finset.mem_insert_self _ _)).add (ih fun m hm => h m (Finset.mem_insert_of_mem hm))

/-- The advection operator on one wave. -/
lemma advLin_wave (hb : s.Built lib p) (hk : s.kw = Advection.physics) (hen : s.enhance = none) (hl : s.bcl = .lit "periodic") (hr : s.bcr = .lit "periodic")
    (hf : f < s.NF) {φ : ℝ} (hz : Complex.exp (φ * Complex.I) ^ s.NE = 1) {c : Fin (p + 1) → ℂ} {u : ℕ → ℕ → ℝ}
    (hu : ∀ (n : Fin (p + 1)) (e : ℕ), 1 ≤ e → e ≤ s.NE → u n (e * s.NF + f) = (Complex.exp (φ * Complex.I) ^ e * c n).re) (n : Fin (p + 1)) {e : ℕ} (h1 : 1 ≤ e) (h2 : e ≤ s.NE) :
    advLin s hb.wf u n (e * s.NF + f) = (Complex.exp (φ * Complex.I) ^ e * (((2 / s.dx : ℝ) : ℂ) * waveOp p φ c n)).re := by
  obtain ⟨F, hF, hv⟩ := advLin_residual hb.wf hk hen u
  have hlike := withVal_like s u
  have hz' : Complex.exp (φ * Complex.I) ^ (s.withVal u).NE = 1 := hz
  obtain ⟨F', hF', hval⟩ := C65_dg (s := s.withVal u) (hlike.built hb) hk hen hl hr (f := f) hf hz' (c := extend c) fun e h1 h2 m hm => by
    have := hu ⟨m, hm⟩ e h1 h2
    rw [show extend c m = c ⟨m, hm⟩ by unfold extend; rw [dif_pos hm]]
    exact this
  rw [hF] at hF'
  have hFF := (Prod.mk.inj (Except.ok.inj hF')).2
  rw [← hv, hFF]
  refine (hval n n.2 e h1 h2).trans ?_
  congr 3
  rw [waveOp_apply, Finset.sum_range]
  exact Finset.sum_congr rfl fun j _ => by rw [extend_fin, dg_entry _ _ _ n.2]; rfl

lemma IsWaves.advLin (hb : s.Built lib p) (hk : s.kw = Advection.physics) (hen : s.enhance = none) (hl : s.bcl = .lit "periodic") (hr : s.bcr = .lit "periodic")
    (hf : f < s.NF) (hz : ∀ i ∈ I, Complex.exp (θ i * Complex.I) ^ s.NE = 1) {v : ι → Fin (p + 1) → ℂ} {u : ℕ → ℕ → ℝ} (hu : IsWaves s p f I θ v u) :
    IsWaves s p f I θ (fun i => ((2 / s.dx : ℝ) : ℂ) • waveOp p (θ i) (v i)) (Dg1d.advLin s hb.wf u) := by
  classical
  induction I using Finset.induction_on generalizing u with
  | empty =>
    intro n e h1 h2
    rw [advLin_wave hb hk hen hl hr hf (φ := 0) (by simp) (c := 0) (fun n e h1 h2 => by rw [hu n e h1 h2]; simp) n h1 h2]
    simp
  | insert j J hj ih =>
    set a : ℕ → ℕ → ℝ := fun n c => if h : n < p + 1 then (Complex.exp (θ j * Complex.I) ^ (c / s.NF) * v j ⟨n, h⟩).re else 0 with ha
    have hav : ∀ (n : Fin (p + 1)) (e : ℕ), 1 ≤ e → e ≤ s.NE → a n (e * s.NF + f) = (Complex.exp (θ j * Complex.I) ^ e * v j n).re := by
      intro n e _ _
      have hdiv : (e * s.NF + f) / s.NF = e := by
        rw [mul_comm, Nat.mul_add_div hb.NF, Nat.div_eq_of_lt hf, add_zero]
      simp only [ha]
      rw [dif_pos n.2, hdiv]
    have hrest : IsWaves s p f J θ v (u - a) := by
      intro n e h1 h2
      rw [Pi.sub_apply, Pi.sub_apply, hu n e h1 h2, hav n e h1 h2, Finset.sum_insert hj, add_sub_cancel_left]
    have h := ih (fun i hi => hz i (Finset.mem_insert_of_mem hi)) hrest
    intro n e h1 h2
    have hsum : Dg1d.advLin s hb.wf u = Dg1d.advLin s hb.wf a + Dg1d.advLin s hb.wf (u - a) := by
      rw [← map_add, add_sub_cancel]
    rw [hsum, Pi.add_apply, Pi.add_apply, h n e h1 h2, advLin_wave hb hk hen hl hr hf (hz j (Finset.mem_insert_self _ _)) hav n h1 h2, Finset.sum_insert hj]
    rfl

/-- A step on waves. -/
lemma IsWaves.step (hb : s.Built lib p) (hk : s.kw = Advection.physics) (hen : s.enhance = none) (hl : s.bcl = .lit "periodic") (hr : s.bcr = .lit "periodic")
    (hf : f < s.NF) (hz : ∀ i ∈ I, Complex.exp (θ i * Complex.I) ^ s.NE = 1) {v : ι → Fin (p + 1) → ℂ} {u : ℕ → ℕ → ℝ} (hu : IsWaves s p f I θ v u) (n : ℕ) (wt : ℕ → ℝ) (dt : ℝ) :
    IsWaves s p f I θ (fun i => polyStep n wt (2 / s.dx * dt) (waveOp p (θ i)) (v i)) (∑ m ∈ Finset.range n, (dt ^ m * wt m) • (Dg1d.advLin s hb.wf ^ m) u) := by
  have hpow : ∀ m, IsWaves s p f I θ (fun i => (((2 / s.dx) ^ m : ℝ) : ℂ) • (waveOp p (θ i) ^ m) (v i)) ((Dg1d.advLin s hb.wf ^ m) u) := by
    intro m
    induction m with
    | zero => simpa using hu
    | succ m ih =>
      have h := ih.advLin hb hk hen hl hr hf hz
      rw [show (Dg1d.advLin s hb.wf ^ (m + 1)) u = Dg1d.advLin s hb.wf ((Dg1d.advLin s hb.wf ^ m) u) by rw [pow_succ', Module.End.mul_apply]]
      convert h using 1
      funext i
      rw [show (waveOp p (θ i) ^ (m + 1)) (v i) = waveOp p (θ i) ((waveOp p (θ i) ^ m) (v i)) by rw [pow_succ']; rfl, map_smul, smul_smul, pow_succ']
      push_cast
      rfl
  have h := IsWaves.sum (Finset.range n) fun m _ => (hpow m).smul (dt ^ m * wt m)
  convert h using 1
  funext i
  unfold polyStep
  rw [Finset.sum_apply]
  refine Finset.sum_congr rfl fun m _ => ?_
  rw [Pi.smul_apply, smul_smul]
  congr 1
  push_cast
  ring

end

/-! ### Start -/

lemma start_rest {p : ℕ} {x w : ℕ → ℝ} (hG : IsGaussRule (p + 1) x w) (i : Fin (p + 1)) : startVec p x w 0 i = if (i : ℕ) = 0 then 1 else 0 := by
  have hg := gauss_complex hG (legendre ℂ i) (by
    have h1 : (legendre ℂ (i : ℕ)).natDegree ≤ i := (legendre_degree _).1.le
    have := i.2
    omega)
  unfold startVec
  simp only [zero_mul, Complex.exp_zero, one_mul]
  rw [hg]
  split_ifs with h
  · rw [h, legendre_zero, intPoly_one]
    push_cast
    ring
  · have := legendre_orthogonal (K := ℂ) h
    rw [legendre_zero, mul_one] at this
    rw [this, mul_zero]

lemma waveOp_rest (p : ℕ) (i : Fin (p + 1)) : waveOp p 0 (fun j : Fin (p + 1) => if (j : ℕ) = 0 then 1 else 0) i = 0 := by
  rw [waveOp_apply, Finset.sum_eq_single (0 : Fin (p + 1)) (fun j _ hj => by rw [if_neg (by rwa [← Fin.val_ne_zero_iff] at hj), mul_zero]) (by simp), if_pos (by simp), mul_one]
  unfold angleMatrix
  rw [Matrix.of_apply, Fin.val_zero, legendre_zero, mul_one, intPoly_derivative, legendre_eval_one, legendre_eval_neg_one]
  simp

/-- `wave_bound` with constants among the waves. -/
lemma waves_bound {p : ℕ} {x w : ℕ → ℝ} (hG : IsGaussRule (p + 1) x w) {n q : ℕ} (hq : 1 ≤ q) (hqn : q < n) (W : ℝ) (hW : 0 ≤ W) :
    ∃ k₀ η δ : ℝ, 0 < k₀ ∧ 0 < η ∧ 0 < δ ∧ ∀ Y : ℝ, 0 ≤ Y → ∃ K : ℝ, 0 ≤ K ∧ ∀ (wt : ℕ → ℝ) (eps : ℝ), wt 0 = 1 → 0 ≤ eps → eps ≤ 1 / 2 →
    (∀ m, 1 ≤ m → m ≤ q → |wt m - 1 / (m.factorial : ℝ)| ≤ eps) → (∀ m < n, |wt m| ≤ W) → ∀ θ : ℝ, |θ| < η → ∀ (h : ℝ) (κ : ℕ → ℝ) (J : ℕ) (v : ℕ → Fin (p + 1) → ℂ),
    0 ≤ h → h ≤ k₀ → (∀ j < J, 0 ≤ κ j ∧ κ j ≤ h) → v 0 = startVec p x w ((θ / 2 : ℝ) * Complex.I) →
    (∀ j < J, v (j + 1) = polyStep n wt (κ j) (waveOp p θ) (v j)) → |θ| * ∑ j ∈ Finset.range J, κ j ≤ Y →
    ‖v J 0 - Complex.exp ((-(θ / 2 * ∑ j ∈ Finset.range J, κ j) : ℝ) * Complex.I) * (1 / 2 * ∫ ξ in (-1 : ℝ)..1, Complex.exp ((θ / 2 : ℝ) * Complex.I * ξ))‖ ≤
      K * (|θ| ^ (2 * p + 1) + (h * |θ|) ^ q + Real.exp (-(δ * ∑ j ∈ Finset.range J, κ j)) + eps) := by
  obtain ⟨k₀, η, δ, hk₀, hη, hδ, hmain⟩ := wave_bound hG hq hqn W hW
  refine ⟨k₀, η, δ, hk₀, hη, hδ, fun Y hY => ?_⟩
  obtain ⟨K, hK, h⟩ := hmain Y hY
  refine ⟨K, hK, fun wt eps w0 he0 he1 hwt hwb θ hθ h' κ J v hh0 hhk hκ hv0 hv hτ => ?_⟩
  rcases eq_or_ne θ 0 with rfl | hne
  · have hall : ∀ j ≤ J, v j = fun i : Fin (p + 1) => if (i : ℕ) = 0 then 1 else 0 := by
      intro j
      induction j with
      | zero =>
        intro _
        rw [hv0, zero_div, Complex.ofReal_zero, zero_mul]
        funext i
        exact start_rest hG i
      | succ j ih =>
        intro hj
        rw [hv j (by omega), ih (by omega)]
        have h0 : waveOp p 0 (fun j : Fin (p + 1) => if (j : ℕ) = 0 then (1 : ℂ) else 0) = 0 := funext fun i => waveOp_rest p i
        obtain ⟨n', rfl⟩ : ∃ n', n = n' + 1 := ⟨n - 1, by omega⟩
        unfold polyStep
        rw [Finset.sum_range_succ', Finset.sum_eq_zero fun m _ => ?_]
        · rw [w0]
          simp
        · rw [show (waveOp p 0 ^ (m + 1)) (fun j : Fin (p + 1) => if (j : ℕ) = 0 then (1 : ℂ) else 0) =
            (waveOp p 0 ^ m) (waveOp p 0 fun j : Fin (p + 1) => if (j : ℕ) = 0 then (1 : ℂ) else 0) by rw [pow_succ]; rfl, h0, map_zero, smul_zero]
    rw [hall J le_rfl]
    have : (1 : ℂ) - Complex.exp ((-(0 / 2 * ∑ j ∈ Finset.range J, κ j) : ℝ) * Complex.I) * (1 / 2 * ∫ ξ in (-1 : ℝ)..1, Complex.exp (((0 : ℝ) / 2 : ℝ) * Complex.I * ξ)) = 0 := by
      simp
      norm_num
    rw [show ((fun i : Fin (p + 1) => if (i : ℕ) = 0 then (1 : ℂ) else 0) 0) = 1 from if_pos (by simp), this, norm_zero]
    positivity
  · exact h wt eps w0 he0 he1 hwt hwb θ (abs_pos.mpr hne) hθ h' κ J v hh0 hhk hκ hv0 hv hτ

end Dg1d.Props
