import Verif.Proofs.RoundedRefine

/-!
# The advection solver in floating point arithmetic (C104)

`Rounded.run A tab' dt s' k` is the field computed after `k` iterations when every operation is rounded (`A`) and the tables
of the solution object `s'` and of the Butcher table `tab'` are stored with rounding errors. Exact arithmetic gives the
solver of the other theorems (`C104_refines`, `C104_program`); with relative accuracy `ε` the two stay within
`(1 + C ε) ^ k - 1` of each other (`C104_run`), for all meshes with the same `C`.
-/

set_option linter.unusedSectionVars false

open Polynomial Dg1d.Spec Dg1d.Approx

namespace Dg1d.Props

section
variable {s s' : Sol ℝ} {lib : GaussLib ℝ} {p : ℕ}

/-- **C104, no rounding.** With exact arithmetic one iteration of the rounded solver is one iteration of the main loop of
`classic_rk`, for any table. -/
theorem C104_refines (hk : s.kw = Advection.physics) (hen : s.enhance = none) {lim : Sol ℝ → Except PyErr (Sol ℝ)} (hlim : ∀ a, lim a = .ok a)
    (tab : Tableau ℝ) (deck : RkDeck ℝ) (k : ℕ) {dt : ℝ} {o d : Bool} (hrun : (Scheme.run (.classic tab) ⟨residual, lim⟩ deck s k).status = .running)
    (hdt : getNextTimeStep (Scheme.run (.classic tab) ⟨residual, lim⟩ deck s k).sol (Scheme.run (.classic tab) ⟨residual, lim⟩ deck s k).tout deck.cfl deck.finaltime = .ok (dt, o, d)) :
    (Scheme.run (.classic tab) ⟨residual, lim⟩ deck s (k + 1)).sol =
      { Rounded.step Rounded.exact tab dt (Scheme.run (.classic tab) ⟨residual, lim⟩ deck s k).sol with
        t := (Scheme.run (.classic tab) ⟨residual, lim⟩ deck s k).sol.t + dt
        n := (Scheme.run (.classic tab) ⟨residual, lim⟩ deck s k).sol.n + 1 } := by
  obtain ⟨h1, h2⟩ := Rounded.scheme_setup hk hen hlim tab deck k
  have := (Rounded.loopBody_exact hk hen hlim tab deck _ h1 h2).2.2 dt o d hrun hdt
  rw [← this]
  unfold Scheme.run
  rw [runLoop_succ]
  rfl

/-- **C104, whole runs without rounding.** The coefficients of the program after `k` iterations of the main loop are those of
`Rounded.run` with exact arithmetic, for the steps the program takes; `j < k` only if the program has stopped. -/
theorem C104_program (hk : s.kw = Advection.physics) (hen : s.enhance = none) {lim : Sol ℝ → Except PyErr (Sol ℝ)} (hlim : ∀ a, lim a = .ok a)
    (tab : Tableau ℝ) (deck : RkDeck ℝ) : ∃ dt : ℕ → ℝ, ∀ k, ∃ j ≤ k,
      ((Scheme.run (.classic tab) ⟨residual, lim⟩ deck s k).status = .running → j = k) ∧
      (Scheme.run (.classic tab) ⟨residual, lim⟩ deck s k).sol.u = (Rounded.run Rounded.exact tab dt s j).u ∧
      (Scheme.run (.classic tab) ⟨residual, lim⟩ deck s k).sol.t = s.t + ∑ i ∈ Finset.range j, dt i := by
  set R := Scheme.run (.classic tab) ⟨residual, lim⟩ deck s with hR
  refine ⟨fun i => match getNextTimeStep (R i).sol (R i).tout deck.cfl deck.finaltime with | .ok (dt, _, _) => dt | .error _ => 0, fun k => ?_⟩
  set dt : ℕ → ℝ := fun i => match getNextTimeStep (R i).sol (R i).tout deck.cfl deck.finaltime with | .ok (dt, _, _) => dt | .error _ => 0 with hdt
  have hsucc : ∀ k, R (k + 1) = loopBody ⟨residual, lim⟩ deck (classicInner ⟨residual, lim⟩ tab) (R k) := fun k => runLoop_succ _ _ _ _ k
  induction k with
  | zero =>
    have h0 : (R 0).sol = s := by
      show (initLoop deck s).sol = s
      unfold initLoop
      simp only
      split <;> rfl
    exact ⟨0, le_rfl, fun _ => rfl, by rw [h0]; rfl, by rw [h0]; simp⟩
  | succ k ih =>
    obtain ⟨j, hj, hjk, hu, ht⟩ := ih
    by_cases hr : (R k).status = .running
    · obtain rfl := hjk hr
      cases hg : getNextTimeStep (R j).sol (R j).tout deck.cfl deck.finaltime with
      | error e =>
        have hb : R (j + 1) = { R j with status := .failed e } := by
          rw [hsucc]
          unfold loopBody
          simp only [hr, hg]
        refine ⟨j, by omega, fun h => ?_, by rw [hb]; exact hu, by rw [hb]; exact ht⟩
        rw [hb] at h
        cases h
      | ok r =>
        obtain ⟨x, o, d⟩ := r
        have hx : dt j = x := by simp only [hdt, hg]
        have hst : (R (j + 1)).sol = _ := C104_refines hk hen hlim tab deck j hr hg
        refine ⟨j + 1, le_rfl, fun _ => rfl, ?_, ?_⟩
        · rw [hst]
          show (Rounded.step Rounded.exact tab x (R j).sol).u = (Rounded.step Rounded.exact tab (dt j) (Rounded.run Rounded.exact tab dt s j)).u
          rw [hx]
          exact Rounded.step_congr tab x (Rounded.scheme_setup hk hen hlim tab deck j).2 (Rounded.run_setup _ tab dt s j) hu
        · have hsum : ∑ i ∈ Finset.range (j + 1), dt i = ∑ i ∈ Finset.range j, dt i + x := by rw [Finset.sum_range_succ, hx]
          have ht : (R j).sol.t = s.t + ∑ i ∈ Finset.range j, dt i := ht
          show _ = s.t + ∑ i ∈ Finset.range (j + 1), dt i
          rw [hst, hsum, ← add_assoc, ← ht]
    · have hb : R (k + 1) = R k := by rw [hsucc, loopBody_stopped hr]
      exact ⟨j, by omega, fun h => absurd (by rw [← hb]; exact h) hr, by rw [hb]; exact hu, by rw [hb]; exact ht⟩

/-- **C104, binary64.** Rounding to nearest has relative accuracy `2 ^ -53` with underflow threshold `2 ^ -1022`, and inner
products of `n` terms summed from left to right have accuracy `6 n 2 ^ -53`. -/
theorem C104_binary64 {rnd : ℝ → ℝ} (h : RoundsToNearest rnd) :
    RoundsWithin rnd (2 ^ (-53 : ℤ)) (2 ^ (-1022 : ℤ)) ∧
    ∀ N : ℕ, N ≤ 2 ^ 52 → DotsWithin (Rounded.leftToRight rnd) N (6 * N * 2 ^ (-53 : ℤ)) (2 ^ (-1022 : ℤ)) := by
  have h1 := Rounded.binary64_rnd h
  refine ⟨h1, fun N hN n hn a b => ?_⟩
  have hN' : (N : ℝ) ≤ 2 ^ 52 := by exact_mod_cast hN
  have hn' : (n : ℝ) ≤ N := by exact_mod_cast hn
  have hd : (0 : ℝ) < 2 ^ (-53 : ℤ) := by positivity
  refine (Rounded.leftToRight_err h1 hd.le (by positivity) n ?_ a b).trans ?_
  · calc (n : ℝ) * 2 ^ (-53 : ℤ) ≤ 2 ^ 52 * 2 ^ (-53 : ℤ) := mul_le_mul_of_nonneg_right (hn'.trans hN') hd.le
      _ = 1 / 2 := by norm_num
  · refine mul_le_mul_of_nonneg_right (mul_le_mul_of_nonneg_right (by linarith) hd.le) ?_
    exact add_nonneg (Finset.sum_nonneg fun _ _ => abs_nonneg _) (by positivity)

/-- **C104, one step.** For any Runge–Kutta table, one iteration in rounded arithmetic differs from the exact step of the
semi-discrete equation by `ε` times the size of the solution; the constant depends on the degree and the table only, and the
stored tables stay as accurate as they were. -/
theorem C104_step (lib : GaussLib ℝ) (p : ℕ) (tab : Tableau ℝ) : ∃ C : ℝ, 0 ≤ C ∧ ∀ (A : Rounded.Arith) (ε η : ℝ) (s s' : Sol ℝ) (f : ℕ) (tab' : Tableau ℝ) (dt : ℝ)
    (c : Rounded.Setting A ε η s lib p f), Rounded.Stored ε p s' s → Rounded.StoredTable ε tab' tab → 0 ≤ dt → 3 * ((p : ℝ) + 1) ^ 2 * dt ≤ s.dx →
    Rounded.Stored ε p (Rounded.step A tab' dt s') s ∧
    Rounded.l2Dist s f (Rounded.step A tab' dt s').u { s.u with val := rkStep tab.coeffs tab.beta (advLin s c.built.wf) dt s'.u.val } ≤
      ε * C * (Rounded.l2Dist s f s'.u { s.u with val := 0 } + √(s.NE * s.dx * (p + 1)) * ((1 + s.dx) * η)) := by
  refine ⟨Rounded.stepConst lib p tab, zero_le_one.trans (Rounded.stepConst_one lib p tab), ?_⟩
  intro A ε η s s' f tab' dt c hs ht hdt hcfl
  obtain ⟨h1, h2⟩ := Rounded.step_err c hdt hcfl hs ht
  refine ⟨h1, ?_⟩
  have hr := c.built.rows
  have e1 := Rounded.l2Dist_enorm (p := p) (f := f) c.dx.le (h1.rows.trans hr) (v := { s.u with val := rkStep tab.coeffs tab.beta (advLin s c.built.wf) dt s'.u.val }) hr
  have e2 := Rounded.l2Dist_enorm (p := p) (f := f) c.dx.le (hs.rows.trans hr) (v := { s.u with val := 0 }) hr
  simp only [sub_zero] at e2
  rw [e1, e2, mul_assoc]
  exact h2

/-- **C104, whole runs.** The computed and the exact field of the advection solver with rk3 differ after `k` iterations by the
initial difference and `(1 + C ε) ^ k - 1` times the size of the solution. The constant depends on the degree only: not on the
mesh, the solution, the steps or the number of iterations. -/
theorem C104_run (lib : GaussLib ℝ) (p : ℕ) : ∃ C : ℝ, 0 ≤ C ∧ ∀ (A : Rounded.Arith) (ε η : ℝ) (s s' : Sol ℝ) (f : ℕ) (tab' : Tableau ℝ) (dt : ℕ → ℝ),
    Rounded.Setting A ε η s lib p f → Rounded.Stored ε p s' s → Rounded.StoredTable ε tab' (tableOf "rk3") →
    (∀ k, 0 ≤ dt k ∧ 3 * ((p : ℝ) + 1) ^ 2 * dt k ≤ s.dx) → ∀ k,
    Rounded.l2Dist s f (Rounded.run A tab' dt s' k).u (Rounded.run Rounded.exact (tableOf "rk3") dt s k).u ≤
      (1 + ε * C) ^ k * Rounded.l2Dist s f s'.u s.u +
        ((1 + ε * C) ^ k - 1) * (Rounded.l2Dist s f s.u { s.u with val := 0 } + √(s.NE * s.dx * (p + 1)) * ((1 + s.dx) * η)) := by
  refine ⟨Rounded.stepConst lib p (tableOf "rk3"), zero_le_one.trans (Rounded.stepConst_one lib p _), ?_⟩
  intro A ε η s s' f tab' dt c hs ht hdt k
  have hr := c.built.rows
  have c0 : Rounded.Setting Rounded.exact 0 0 s lib p f := Rounded.exact_setting c
  obtain ⟨s1, h1⟩ := Rounded.run_close c (fun k => (hdt k).1) (fun k => (hdt k).2) hs ht s.u.val k
  obtain ⟨s2, h2⟩ := Rounded.run_close c0 (fun k => (hdt k).1) (fun k => (hdt k).2) (Rounded.Stored.refl le_rfl p s) (Rounded.rk3_stored le_rfl) s.u.val k
  rw [sub_self, map_zero, mul_zero, zero_add, zero_mul, add_zero, one_pow, sub_self, zero_mul] at h2
  have e2 := Rounded.l2Dist_enorm (p := p) (f := f) c.dx.le hr (v := { s.u with val := 0 }) hr
  simp only [sub_zero] at e2
  rw [Rounded.l2Dist_enorm (p := p) c.dx.le (s1.rows.trans hr) (s2.rows.trans hr), Rounded.l2Dist_enorm (p := p) c.dx.le (hs.rows.trans hr) hr, e2]
  have h3 : enorm s p f c.dx.le (Rounded.iter c.built dt s.u.val k - (Rounded.run Rounded.exact (tableOf "rk3") dt s k).u.val) ≤ 0 := by
    rw [map_sub_rev]
    exact h2
  have h4 := map_add_le_add (enorm s p f c.dx.le) ((Rounded.run A tab' dt s' k).u.val - Rounded.iter c.built dt s.u.val k)
    (Rounded.iter c.built dt s.u.val k - (Rounded.run Rounded.exact (tableOf "rk3") dt s k).u.val)
  rw [sub_add_sub_cancel] at h4
  exact h4.trans ((add_le_add h1 h3).trans_eq (add_zero _))

set_option maxHeartbeats 2000000 in
/-- **C104, the error of the computed solution.** For a smooth periodic initial value the field computed in rounded arithmetic
differs from the exact solution of the advection equation by the discretisation error of C78 plus `ε` per iteration, as long
as `k C ε ≤ 1`. -/
theorem C104_error (hlib : lib.Ok) (p : ℕ) (u0 : ℝ → ℝ) (hu : ContDiff ℝ (p + 4 : ℕ) u0) (B P T : ℝ) (hP : 0 < P) (hper : ∀ y, u0 (y + P) = u0 y) (hT : 0 ≤ T) :
    ∃ C : ℝ, 0 ≤ C ∧ ∀ (A : Rounded.Arith) (ε η : ℝ) (s s' : Sol ℝ) (f : ℕ) (tab' : Tableau ℝ) (dt : ℕ → ℝ) (h : ℝ),
      Rounded.Setting A ε η s lib p f → Rounded.Stored ε p s' s → Rounded.StoredTable ε tab' (tableOf "rk3") →
      IsUniformMesh B (B + P) s.NE s.x.val s.xc.val s.dx →
      (∀ e, 1 ≤ e → e ≤ s.NE → ∀ g < p + 1, (cellPoly s e f).eval ((lib (p + 1)).1.val g) = u0 (physPoint (s.x.val (e - 1)) (s.x.val e) ((lib (p + 1)).1.val g))) →
      (∀ n < p + 1, ∀ e, 1 ≤ e → e ≤ s.NE → |s'.u.val n (e * s.NF + f) - s.u.val n (e * s.NF + f)| ≤ ε) →
      (∀ k, 0 ≤ dt k ∧ dt k ≤ h) → 3 * ((p : ℝ) + 1) ^ 2 * h ≤ s.dx → ∀ k : ℕ, ∑ i ∈ Finset.range k, dt i ≤ T → k * (ε * C) ≤ 1 →
      l2Error { s with u := (Rounded.run A tab' dt s' k).u } f (fun x => u0 (x - ∑ i ∈ Finset.range k, dt i)) ≤ C * (s.dx ^ (p + 1) + h ^ 3 + (k + 1) * ε) := by
  obtain ⟨C1, hC1, key⟩ := taylor_sequence hlib p u0 hu B P T hP hper hT
  obtain ⟨κ, hκ0, hκ'⟩ := derivs_bounded (m := 0) (hu.of_le (by simp)) hP hper
  have hκ : ∀ x, |u0 x| ≤ κ := fun x => by simpa using hκ' 0 le_rfl x
  set D := Rounded.stepConst lib p (tableOf "rk3") with hD
  have hD1 : 1 ≤ D := Rounded.stepConst_one lib p _
  set S := √(P * (p + 1)) with hS
  have hS0 : 0 ≤ S := Real.sqrt_nonneg _
  set V := 2 * (C1 * (P ^ (p + 1) + P ^ 3) + √P * κ) with hV
  have hV0 : 0 ≤ V := by positivity
  set Y := V + S * (1 + P) with hY
  have hY0 : 0 ≤ Y := by positivity
  refine ⟨D + 2 * C1 + 2 * (3 * S + 2 * D * Y), by positivity, ?_⟩
  set C := D + 2 * C1 + 2 * (3 * S + 2 * D * Y) with hC
  intro A ε η s s' f tab' dt h c hs ht hm hinit hin hdt hcfl k hk hkε
  have hb := c.built
  have hdx := c.dx
  have hNE : (1 : ℝ) ≤ s.NE := by exact_mod_cast hb.NE
  have hNEdx : s.NE * s.dx = P := by
    rw [hm.width]
    field_simp
    ring
  have hdxP : s.dx ≤ P := by rw [← hNEdx]; nlinarith
  have hh0 : 0 ≤ h := (hdt 0).1.trans (hdt 0).2
  have h1p : (1 : ℝ) ≤ 3 * ((p : ℝ) + 1) ^ 2 := by nlinarith [(Nat.cast_nonneg p : (0 : ℝ) ≤ p)]
  have hhdx : h ≤ s.dx := by nlinarith
  have hcfl' : ∀ k, 3 * ((p : ℝ) + 1) ^ 2 * dt k ≤ s.dx := fun k => (mul_le_mul_of_nonneg_left (hdt k).2 (by positivity)).trans hcfl
  obtain ⟨hst, hclose⟩ := Rounded.run_close c (fun k => (hdt k).1) hcfl' hs ht s.u.val k
  set a : ℕ → Sol ℝ := fun j => { s with u := { s.u with val := Rounded.iter hb dt s.u.val j } } with ha
  have hal : ∀ j, Like (a j) s := fun j => ⟨by constructor <;> rfl, rfl, rfl⟩
  have hseq := key s hb c.kw c.enhance c.bcl c.bcr hm hdx f c.field hinit h hh0 hcfl a (fun j => ∑ i ∈ Finset.range j, dt i) (hal 0) rfl (by simp) k
    (fun j hj => (Finset.sum_le_sum_of_subset_of_nonneg (Finset.range_mono hj) fun i _ _ => (hdt i).1).trans hk)
    (fun j _ _ => .inr ⟨dt j, (hdt j).1, (hdt j).2, Finset.sum_range_succ _ _, hal _, fun n e _ _ => by
      show Rounded.rk3Lin hb (dt j) (Rounded.iter hb dt s.u.val j) n (e * s.NF + f) = _
      rw [Rounded.rk3Lin_apply]⟩)
  have hk0 := (hseq 0 (Nat.zero_le k)).2.2
  have hkk := (hseq k le_rfl).2.2
  simp only [Finset.range_zero, Finset.sum_empty, sub_zero] at hk0
  -- size of the initial value
  have hv0 : enorm s p f hdx.le s.u.val ≤ V := by
    have h1 := Rounded.enorm_le_l2Error (f := f) hb (hal 0) hm hdx hu.continuous hκ
    rw [hNEdx] at h1
    have h2 : s.dx ^ (p + 1) ≤ P ^ (p + 1) := pow_le_pow_left₀ hdx.le hdxP _
    have h3 : h ^ 3 ≤ P ^ 3 := pow_le_pow_left₀ hh0 (hhdx.trans hdxP) _
    have h4 : C1 * (s.dx ^ (p + 1) + h ^ 3) ≤ C1 * (P ^ (p + 1) + P ^ 3) := mul_le_mul_of_nonneg_left (by linarith) hC1
    have h5 : enorm s p f hdx.le (a 0).u.val = enorm s p f hdx.le s.u.val := rfl
    rw [h5] at h1
    rw [hV]
    linarith
  have hone : Rounded.oneNorm s p = S := by rw [Rounded.oneNorm, hNEdx]
  have htiny : Rounded.tiny s p η ≤ S * (1 + P) := by
    rw [Rounded.tiny, hone]
    refine mul_le_mul_of_nonneg_left ?_ hS0
    have e1 : η ≤ 1 := c.eta1.trans (by norm_num)
    have := mul_le_mul_of_nonneg_left e1 (show 0 ≤ 1 + s.dx by linarith)
    linarith
  have hin' : enorm s p f hdx.le (s'.u.val - s.u.val) ≤ S * ε := by
    have := enorm_entries (p := p) (f := f) (x := s'.u.val - s.u.val) hdx.le c.eps0 (fun n hn e h1 h2 => hin n hn e h1 h2)
    rwa [hNEdx] at this
  -- growth
  have hεD : 0 ≤ ε * D := mul_nonneg c.eps0 (by linarith)
  have hkD : k * (ε * D) ≤ 1 := by
    refine le_trans ?_ hkε
    refine mul_le_mul_of_nonneg_left (mul_le_mul_of_nonneg_left ?_ c.eps0) (Nat.cast_nonneg k)
    have : 0 ≤ 2 * C1 + 2 * (3 * S + 2 * D * Y) := by positivity
    rw [hC]
    linarith
  have hgrow := Rounded.pow_le_linear hεD hkD
  set G := (1 + ε * D) ^ k with hG
  have hG1 : 1 ≤ G := one_le_pow₀ (by linarith)
  have hdist : enorm s p f hdx.le ((Rounded.run A tab' dt s' k).u.val - Rounded.iter hb dt s.u.val k) ≤ (3 * S + 2 * D * Y) * ((k + 1) * ε) := by
    refine hclose.trans ?_
    have i1 : G * enorm s p f hdx.le (s'.u.val - s.u.val) ≤ 3 * (S * ε) := mul_le_mul (by linarith) hin' (apply_nonneg _ _) (by norm_num)
    have i2 : (G - 1) * (enorm s p f hdx.le s.u.val + Rounded.tiny s p η) ≤ 2 * (k * (ε * D)) * Y :=
      mul_le_mul (by linarith) (by linarith) (add_nonneg (apply_nonneg _ _) (Rounded.tiny_nonneg hdx c.eta0)) (by positivity)
    refine (add_le_add i1 i2).trans ?_
    have i3 : 0 ≤ 3 * S * (k * ε) := by have := c.eps0; positivity
    have i4 : 0 ≤ 2 * D * Y * ε := by have := c.eps0; positivity
    nlinarith
  have hcl : Like ({ s with u := (Rounded.run A tab' dt s' k).u } : Sol ℝ) s := ⟨by constructor <;> rfl, hst.rows, hst.cols⟩
  have hfin := Rounded.l2Error_change (f := f) hb (hal k) hcl hm hdx (u := fun x => u0 (x - ∑ i ∈ Finset.range k, dt i)) (hu.continuous.comp (by fun_prop))
  refine hfin.trans ?_
  have j1 : 0 ≤ s.dx ^ (p + 1) + h ^ 3 := by positivity
  have j2 : 0 ≤ (k + 1) * ε := by have := c.eps0; positivity
  have j3 : 0 ≤ D + 2 * (3 * S + 2 * D * Y) := by positivity
  have j4 : 0 ≤ D + 2 * C1 := by positivity
  have hd2 : enorm s p f hdx.le (({ s with u := (Rounded.run A tab' dt s' k).u } : Sol ℝ).u.val - (a k).u.val) ≤ (3 * S + 2 * D * Y) * ((k + 1) * ε) := hdist
  clear_value D S V Y G
  rw [hC]
  generalize s.dx ^ (p + 1) + h ^ 3 = X at *
  generalize ((k : ℝ) + 1) * ε = Z at *
  generalize 3 * S + 2 * D * Y = Q at *
  have q1 := mul_nonneg j3 j1
  have q2 := mul_nonneg j4 j2
  have : 2 * (C1 * X + Q * Z) ≤ (D + 2 * C1 + 2 * Q) * (X + Z) := by nlinarith
  exact (mul_le_mul_of_nonneg_left (add_le_add hkk hd2) (by norm_num)).trans this

/-- **C104, the sine wave in binary64.** A deck of linear advection with the sine wave and rk3, computed with every result
rounded to nearest, inner products in any order (accuracy `m 2 ^ -53` with a fixed `m`, `C104_binary64`), and stored tables and
initial coefficients of the same accuracy: the error against the exact solution is at most the one of the exact scheme plus
`C 2 ^ -53` per iteration. -/
theorem C104_deck (hlib : lib.Ok) (p : ℕ) (T : ℝ) (hT : 0 ≤ T) (m : ℕ) (hm1 : 1 ≤ m) (hm2 : m ≤ 2 ^ 52) :
    ∃ C : ℝ, 0 ≤ C ∧ ∀ (N : ℕ) (ft : FloatText ℝ) (junk : ℕ → ℝ) (d : Deck ℝ), ValidDeck lib ft d p N IC.sinewave → d.system ≠ "euler".toList →
      d.limiting ≠ "adaptive_hr".toList → d.enhance = [] →
      ∃ s lm, start lib ft junk d = .ok (s, lm) ∧ ∀ (A : Rounded.Arith), RoundsToNearest A.rnd → DotsWithin A.dot (p + 1) (m * 2 ^ (-53 : ℤ)) (2 ^ (-1022 : ℤ)) →
        ∀ (s' : Sol ℝ) (tab' : Tableau ℝ), Rounded.Stored (m * 2 ^ (-53 : ℤ)) p s' s → Rounded.StoredTable (m * 2 ^ (-53 : ℤ)) tab' (tableOf "rk3") →
        (∀ n < p + 1, ∀ e, 1 ≤ e → e ≤ s.NE → |s'.u.val n e - s.u.val n e| ≤ m * 2 ^ (-53 : ℤ)) →
        ∀ (dt : ℕ → ℝ) (h : ℝ), (∀ k, 0 ≤ dt k ∧ dt k ≤ h) → 3 * ((p : ℝ) + 1) ^ 2 * h ≤ 2 / N → ∀ k : ℕ, ∑ i ∈ Finset.range k, dt i ≤ T → k * C ≤ 2 ^ 53 →
        l2Error { s with u := (Rounded.run A tab' dt s' k).u } 0 (fun x => Real.sin (2 * Real.pi * (x - ∑ i ∈ Finset.range k, dt i))) ≤
          C * ((2 / N) ^ (p + 1) + h ^ 3 + (k + 1) / 2 ^ 53) := by
  obtain ⟨C, hC, key⟩ := C104_error hlib p (fun x => Real.sin (2 * Real.pi * x)) (by fun_prop) (-1) 2 T (by norm_num)
    (fun y => by
      rw [show 2 * Real.pi * (y + 2) = 2 * Real.pi * y + (2 : ℕ) * (2 * Real.pi) by push_cast; ring]
      exact Real.sin_add_nat_mul_two_pi _ _) hT
  have hmR : (1 : ℝ) ≤ m := by exact_mod_cast hm1
  have hmR2 : (m : ℝ) ≤ 2 ^ 52 := by exact_mod_cast hm2
  have hz : (2 : ℝ) ^ (-53 : ℤ) = 1 / 2 ^ 53 := by norm_num
  refine ⟨m * C, by positivity, ?_⟩
  intro N ft junk d hd hsys hlim hen
  obtain ⟨c, s, lm, hc, hst, S⟩ := C69_starts hlib junk hd
  refine ⟨s, lm, hst, ?_⟩
  intro A hrnd hdot s' tab' hs ht hin dt h hdt hcfl k hk hkC
  have hs0 : s = c.sol.applyBc := S.unlimited hlim
  have henh : s.enhance = none := by
    have := S.enhance
    rw [hen] at this
    unfold enhancementOf at this
    rw [if_pos rfl] at this
    cases h : s.enhance with
    | none => rfl
    | some x => rw [h] at this; cases this
  have hmesh : IsUniformMesh (-1) (-1 + 2) s.NE s.x.val s.xc.val s.dx := by
    have := S.mesh
    rw [S.NE]
    norm_num
    exact this
  have hdx : s.dx = 2 / N := by
    rw [S.mesh.width]
    show ((1 : ℝ) - -1) / N = _
    norm_num
  have hN : (1 : ℝ) ≤ N := by exact_mod_cast hd.cells
  have hNF : s.NF = 1 := by rw [(S.physics.advection hsys).2]
  have hset : Rounded.Setting A (m * 2 ^ (-53 : ℤ)) (2 ^ (-1022 : ℤ)) s lib p 0 :=
    { eps0 := by positivity
      eps1 := by rw [hz]; linarith
      eta0 := by positivity
      eta1 := by
        have : (2 : ℝ) ^ (-1022 : ℤ) ≤ 2 ^ (-50 : ℤ) := zpow_le_zpow_right₀ (by norm_num) (by norm_num)
        exact this.trans (by norm_num)
      rnd := by
        intro x
        refine ((C104_binary64 hrnd).1 x).trans (mul_le_mul_of_nonneg_right ?_ (by positivity))
        exact le_mul_of_one_le_left (by positivity) hmR
      dot := hdot
      built := S.built
      kw := (S.physics.advection hsys).1
      enhance := henh
      bcl := by rw [S.bc.1]; rfl
      bcr := by rw [S.bc.2]; rfl
      dx := by rw [hdx]; positivity
      field := S.built.NF }
  have := key A _ _ s s' 0 tab' dt h hset hs ht hmesh ?_ (fun n hn e h1 h2 => by rw [hNF, mul_one, add_zero]; exact hin n hn e h1 h2) hdt (by rw [hdx]; exact hcfl) k hk ?_
  · refine this.trans ?_
    rw [hdx, hz, mul_comm (m : ℝ) C, mul_assoc C]
    refine mul_le_mul_of_nonneg_left ?_ hC
    have j1 : 0 ≤ (2 / (N : ℝ)) ^ (p + 1) + h ^ 3 := by
      have : 0 ≤ h := (hdt 0).1.trans (hdt 0).2
      positivity
    have j2 : ((k : ℝ) + 1) * (m * (1 / 2 ^ 53)) = m * ((k + 1) / 2 ^ 53) := by ring
    rw [j2]
    nlinarith
  · intro e h1 h2 g hg
    rw [S.NE] at h2
    obtain ⟨hx, -, hG⟩ := hlib (p + 1) (Nat.succ_pos p)
    obtain ⟨v, hv, hval⟩ := S.data (e - 1) (by omega) 0 S.kin.1.NF
    rw [Nat.sub_add_cancel h1, add_zero] at hval
    rw [Nat.sub_add_cancel h1, S.kin.1.basis] at hv
    obtain ⟨c', hc', -, hint, -⟩ := C24_projection lib p hx hG (c.sol.x.val (e - 1)) (c.sol.x.val e) (IC.sinewave.f (IC.sinewave.gamma.getD (7 / 5))) 0
      (fun x => Real.sin (2 * Real.pi * x)) (fun _ _ => rfl)
    rw [hv] at hc'
    cases hc'
    have h3 := hint g hg
    rw [← show s.x = c.sol.x from S.kin.2.like.setup.x] at h3
    rw [← h3]
    unfold cellPoly
    rw [S.built.rows]
    congr 2
    funext n
    rw [hs0, (Like.refl c.sol).applyBc_val S.kin.1.wf, show c.sol.applyBc.NF = c.sol.NF from (Like.refl c.sol).applyBc.setup.NF,
      bcCol_interior c.sol h1 (by rw [S.same.2]; exact h2) S.kin.1.NF, add_zero]
    exact hval n
  · rw [hz]
    have : (k : ℝ) * (m * (1 / 2 ^ 53) * C) = k * (m * C) / 2 ^ 53 := by ring
    rw [this, div_le_one (by positivity)]
    exact hkC

/-- The rounded table of rk3 is a stored table: `1/6`, `2/3` are not binary fractions. -/
lemma Ex.rk3_rounded {rnd : ℝ → ℝ} (h : RoundsToNearest rnd) {m : ℕ} (hm : 2 ≤ m) :
    Rounded.StoredTable (m * 2 ^ (-53 : ℤ)) { tableOf "rk3" with coeffs := (tableOf "rk3").coeffs.map rnd, beta := fun k j => rnd ((tableOf "rk3").beta k j) } (tableOf "rk3") := by
  have hmR : (2 : ℝ) ≤ m := by exact_mod_cast hm
  have h0 := Rounded.rk3_stored (ε := 0) le_rfl
  have key : ∀ a, StoredCoef 0 a a → StoredCoef (m * 2 ^ (-53 : ℤ)) (rnd a) a := by
    intro a ha
    rcases ha with ⟨ha, -⟩ | ⟨ha, -⟩
    · subst ha
      exact .inl ⟨RoundsToNearest.self h b64_zero, rfl⟩
    · refine .inr ⟨ha, ((C104_binary64 h).1 a).trans ?_⟩
      have e1 : (2 : ℝ) ^ (-1022 : ℤ) ≤ 2 ^ (-50 : ℤ) := zpow_le_zpow_right₀ (by norm_num) (by norm_num)
      have e2 : (2 : ℝ) ^ (-50 : ℤ) ≤ 1 / 10 ^ 14 := by norm_num
      have e3 : |a| + 2 ^ (-1022 : ℤ) ≤ m * |a| := by
        refine le_trans ?_ (mul_le_mul_of_nonneg_right hmR (abs_nonneg a))
        rw [two_mul]
        exact add_le_add le_rfl (e1.trans (e2.trans ha))
      rw [mul_comm (m : ℝ), mul_assoc]
      exact mul_le_mul_of_nonneg_left e3 (by positivity)
  refine ⟨by simp, by simp [h0.alphas], fun k hk => ?_, fun k hk j hj => key _ (h0.beta k hk j hj)⟩
  have := key _ (h0.coeffs k hk)
  have hg : ((tableOf "rk3").coeffs.map rnd).getD k 0 = rnd ((tableOf "rk3").coeffs.getD k 0) := by
    rw [List.getD_eq_getElem?_getD, List.getD_eq_getElem?_getD, List.getElem?_map, List.getElem?_eq_getElem hk]
    rfl
  show StoredCoef _ (((tableOf "rk3").coeffs.map rnd).getD k 0) _
  rw [hg]
  exact this

/-- The piecewise linear sine wave with 8 cells in IEEE arithmetic, sums from left to right, with the rounded table of rk3:
steps of `1/80`, 80 of them if the constant allows. -/
example : ∃ C : ℝ, ∃ s lm, start realGauss Ex.decReal (fun _ => 0) Ex.sine3 = .ok (s, lm) ∧ ∃ rnd, RoundsToNearest rnd ∧ TiesToEven rnd ∧ ∀ k : ℕ, k ≤ 80 → k * C ≤ 2 ^ 53 →
    l2Error { s with u := (Rounded.run ⟨rnd, Rounded.leftToRight rnd⟩
      { tableOf "rk3" with coeffs := (tableOf "rk3").coeffs.map rnd, beta := fun k j => rnd ((tableOf "rk3").beta k j) } (fun _ => 1 / 80) s k).u } 0
      (fun x => Real.sin (2 * Real.pi * (x - k / 80))) ≤ C * (1 / 16 + 1 / 80 ^ 3 + (k + 1) / 2 ^ 53) := by
  obtain ⟨C, -, h⟩ := C104_deck realGauss_ok 1 1 (by norm_num) 12 (by norm_num) (by norm_num)
  obtain ⟨s, lm, hst, h⟩ := h 8 _ (fun _ => 0) Ex.sine3 Ex.sine3_valid (show "advection".toList ≠ "euler".toList by decide)
    (show ([] : Text.Str) ≠ "adaptive_hr".toList by decide) rfl
  obtain ⟨rnd, hr, he⟩ := exists_ieee
  refine ⟨C, s, lm, hst, rnd, hr, he, fun k hk hkC => ?_⟩
  have := h ⟨rnd, Rounded.leftToRight rnd⟩ hr (by have := (C104_binary64 hr).2 2 (by norm_num); norm_num at this ⊢; exact this) s _
    (Rounded.Stored.refl (by positivity) 1 s) (Ex.rk3_rounded hr (by norm_num)) (fun n _ e _ _ => by rw [sub_self, abs_zero]; positivity)
    (fun _ => 1 / 80) (1 / 80) (fun _ => ⟨by norm_num, le_rfl⟩) (by norm_num) k (by
      have : (k : ℝ) ≤ 80 := by exact_mod_cast hk
      rw [Finset.sum_const, Finset.card_range, nsmul_eq_mul]
      linarith) hkC
  rw [Finset.sum_const, Finset.card_range, nsmul_eq_mul] at this
  convert this using 2
  · funext x
    ring_nf
  · norm_num

/-- Degree 2 on three cells, every result too large by one per cent. -/
example : ∃ C : ℝ, ∀ k, Rounded.l2Dist (Ex.solR 2) 0
    (Rounded.run ⟨fun x => x * (101 / 100), fun n a b => ∑ i ∈ Finset.range n, a i * b i⟩ (tableOf "rk3") (fun _ => (Ex.solR 2).dx / 27) (Ex.solR 2) k).u
    (Rounded.run Rounded.exact (tableOf "rk3") (fun _ => (Ex.solR 2).dx / 27) (Ex.solR 2) k).u ≤
      ((1 + 1 / 100 * C) ^ k - 1) * Rounded.l2Dist (Ex.solR 2) 0 (Ex.solR 2).u { (Ex.solR 2).u with val := 0 } := by
  obtain ⟨C, -, h⟩ := C104_run realGauss 2
  have hdx : 0 < (Ex.solR 2).dx := by norm_num [Ex.solR]
  refine ⟨C, fun k => ?_⟩
  have := h ⟨fun x => x * (101 / 100), fun n a b => ∑ i ∈ Finset.range n, a i * b i⟩ (1 / 100) 0 (Ex.solR 2) (Ex.solR 2) 0 (tableOf "rk3") (fun _ => (Ex.solR 2).dx / 27)
    { eps0 := by norm_num
      eps1 := by norm_num
      eta0 := le_rfl
      eta1 := by norm_num
      rnd := fun x => by
        show |x * (101 / 100) - x| ≤ _
        rw [show x * (101 / 100) - x = 1 / 100 * x by ring, abs_mul, add_zero, abs_of_nonneg (by norm_num : (0 : ℝ) ≤ 1 / 100)]
      dot := fun n _ a b => by rw [sub_self, abs_zero]; exact mul_nonneg (by norm_num) (add_nonneg (Finset.sum_nonneg fun _ _ => abs_nonneg _) le_rfl)
      built := Ex.solR_built 2
      kw := rfl
      enhance := rfl
      bcl := rfl
      bcr := rfl
      dx := hdx
      field := (Ex.solR_built 2).NF } (Rounded.Stored.refl (by norm_num) 2 _) (Rounded.rk3_stored (by norm_num))
    (fun _ => ⟨by positivity, by push_cast; linarith⟩) k
  rw [Rounded.l2Dist_enorm (p := 2) (u := (Ex.solR 2).u) (v := (Ex.solR 2).u) hdx.le (Ex.solR_built 2).rows (Ex.solR_built 2).rows, sub_self, map_zero, mul_zero,
    zero_add, mul_zero, mul_zero, add_zero] at this
  exact this

/-- The program itself, for the same field and any scheme of the code. -/
example (deck : RkDeck ℝ) : ∃ dt : ℕ → ℝ, ∀ k, ∃ j ≤ k,
    ((Scheme.run (.classic (tableOf "rk4")) ⟨residual, fun a => .ok a⟩ deck (Ex.solR 2) k).status = .running → j = k) ∧
    (Scheme.run (.classic (tableOf "rk4")) ⟨residual, fun a => .ok a⟩ deck (Ex.solR 2) k).sol.u = (Rounded.run Rounded.exact (tableOf "rk4") dt (Ex.solR 2) j).u ∧
    (Scheme.run (.classic (tableOf "rk4")) ⟨residual, fun a => .ok a⟩ deck (Ex.solR 2) k).sol.t = (Ex.solR 2).t + ∑ i ∈ Finset.range j, dt i :=
  C104_program rfl rfl (fun _ => rfl) _ deck

end
end Dg1d.Props
