import Verif.Proofs.Steady
import Verif.Spec.Steady
import Verif.Props.Regressions
import Verif.Props.Contact
import Verif.Props.AdvectionConvergence

/-!
# C102: flows that stand still

Contacts at rest and standing shocks are solutions of the Euler equations that do not change. With the solvers 'roe' and
'godunov' a run of the code keeps them to the last digit (in exact arithmetic); the solver 'rusanov' does not.
-/

set_option linter.unusedSectionVars false

open Polynomial Dg1d.Spec Dg1d.Euler

namespace Dg1d.Props
open Text

variable {γ : ℝ} (hγ : 1 < γ) {wL wR : Prim}

/-! ### The flux -/

lemma standing_flux (h : Standing γ wL wR) : wR.flux γ = wL.flux γ := by
  rcases h with rfl | ⟨h1, h2, h3⟩ | ⟨h, -⟩
  · rfl
  · funext k
    fin_cases k <;> simp [Prim.flux, h1, h2, h3]
  · funext k
    have := h k
    rw [zero_mul] at this
    linarith

include hγ in
/-- The waves of Roe's solver between two states of the same flux do not move. -/
lemma roe_still (hL : wL.Phys) (hR : wR.Phys) (h : wR.flux γ = wL.flux γ) (k : Fin 3) : roeLambda γ wL wR k * roeAlpha γ wL wR k = 0 := by
  have hc := roeC_pos hγ hL hR
  have hc2 := roeC_sq hγ hL hR
  have key : ∀ i, ∑ k, roeLambda γ wL wR k * roeAlpha γ wL wR k * roeVec γ wL wR k i = 0 := by
    intro i
    have := (C39_roe_property hγ hL hR i).2
    simp only [← mul_assoc] at this
    rw [this, h, sub_self]
  have k0 := key 0
  have k1 := key 1
  have k2 := key 2
  simp only [Fin.sum_univ_three, roeVec] at k0 k1 k2
  simp only [Matrix.cons_val_zero, Matrix.cons_val_one, Matrix.cons_val] at k0 k1 k2
  set x := roeLambda γ wL wR 0 * roeAlpha γ wL wR 0 with hx
  set y := roeLambda γ wL wR 1 * roeAlpha γ wL wR 1 with hy
  set z := roeLambda γ wL wR 2 * roeAlpha γ wL wR 2 with hz
  set V := roeV wL wR
  set c := roeC γ wL wR
  set H := roeH γ wL wR
  have h1 : (z - x) * c = 0 := by linear_combination k1 - V * k0
  have hzx : z = x := by
    rcases mul_eq_zero.mp h1 with h | h
    · linarith
    · exact absurd h hc.ne'
  have hy' : y = -2 * x := by linarith
  have h2 : x * (2 * (H - V ^ 2 / 2)) = 0 := by rw [hzx, hy'] at k2; linear_combination k2
  have h3 : 0 < H - V ^ 2 / 2 := by
    have : 0 < (γ - 1) * (H - V ^ 2 / 2) := by rw [← hc2]; positivity
    exact pos_of_mul_pos_right this (by linarith)
  have hx0 : x = 0 := by
    rcases mul_eq_zero.mp h2 with h | h
    · exact h
    · linarith
  fin_cases k
  · exact hx0
  · show y = 0
    rw [hy', hx0, mul_zero]
  · show z = 0
    rw [hzx, hx0]

lemma hartenAbs_zero : hartenAbs 0 0 = 0 := by simp [hartenAbs]

lemma roeV_pos (hL : wL.Phys) (hR : wR.Phys) (h1 : 0 < wL.v) (h2 : 0 < wR.v) : 0 < roeV wL wR := by
  have a := Real.sqrt_pos.mpr hL.1
  have b := Real.sqrt_pos.mpr hR.1
  unfold roeV roeMean
  positivity

lemma roeV_neg (hL : wL.Phys) (hR : wR.Phys) (h1 : wL.v < 0) (h2 : wR.v < 0) : roeV wL wR < 0 := by
  have a := Real.sqrt_pos.mpr hL.1
  have b := Real.sqrt_pos.mpr hR.1
  unfold roeV roeMean
  exact div_neg_of_neg_of_pos (by nlinarith) (by positivity)

/-- Across a standing shock both velocities have the same sign. -/
lemma mass_sign (hL : wL.Phys) (hR : wR.Phys) (h : wR.flux γ = wL.flux γ) : (0 < wL.v ↔ 0 < wR.v) ∧ (wL.v < 0 ↔ wR.v < 0) := by
  have h0 : wR.rho * wR.v = wL.rho * wL.v := by simpa [Prim.flux] using congrFun h 0
  have e : ∀ r x : ℝ, 0 < r → ((0 < r * x ↔ 0 < x) ∧ (r * x < 0 ↔ x < 0)) := by
    intro r x hr
    refine ⟨mul_pos_iff_of_pos_left hr, ⟨fun h => ?_, fun h => mul_neg_of_pos_of_neg hr h⟩⟩
    by_contra hx
    exact absurd h (not_lt.mpr (mul_nonneg hr.le (not_lt.mp hx)))
  have eL := e wL.rho wL.v hL.1
  have eR := e wR.rho wR.v hR.1
  rw [h0] at eR
  exact ⟨eL.1.symm.trans eR.1, eL.2.symm.trans eR.2⟩

include hγ in
/-- Roe's flux at a standing shock. -/
lemma roe_shock (hL : wL.Phys) (hR : wR.Phys) (h : StandingShock γ wL wR) : roeFlux γ wL wR = wL.flux γ := by
  have hfl := standing_flux (.inr (.inr h))
  have hst := roe_still hγ hL hR hfl
  have hc := roeC_pos hγ hL hR
  have hcL := c_pos hγ hL
  have hcR := c_pos hγ hR
  have hzero : ∀ k, hartenAbs (fixWidth γ wL wR k) (roeLambda γ wL wR k) * roeAlpha γ wL wR k = 0 := by
    have gen : ∀ k, (roeLambda γ wL wR k = 0 → fixWidth γ wL wR k = 0) → hartenAbs (fixWidth γ wL wR k) (roeLambda γ wL wR k) * roeAlpha γ wL wR k = 0 := by
      intro k hk
      rcases mul_eq_zero.mp (hst k) with h0 | h0
      · rw [hk h0, h0, hartenAbs_zero, zero_mul]
      · rw [h0, mul_zero]
    intro k
    apply gen
    intro h0
    rcases h.2 with ⟨h1, h2⟩ | ⟨h1, h2⟩
    · have hv : 0 < wL.v := by linarith
      have hV := roeV_pos hL hR hv ((mass_sign hL hR hfl).1.mp hv)
      fin_cases k
      · simp only [fixWidth, Fin.zero_eta, Matrix.cons_val_zero]
        rw [max_eq_left]; linarith
      · simp [fixWidth]
      · simp only [roeLambda, Fin.reduceFinMk, Matrix.cons_val] at h0
        linarith
    · have hv : wR.v < 0 := by linarith
      have hV := roeV_neg hL hR ((mass_sign hL hR hfl).2.mpr hv) hv
      fin_cases k
      · simp only [roeLambda, Fin.zero_eta, Matrix.cons_val_zero] at h0
        linarith
      · simp [fixWidth]
      · simp only [fixWidth, Fin.reduceFinMk, Matrix.cons_val]
        rw [max_eq_left]; linarith
  funext i
  simp only [roeFlux, hzero, zero_mul, Finset.sum_const_zero, hfl]
  ring

include hγ in
/-- **C102 (flux).** At a contact at rest and at a standing shock the solvers 'godunov' and 'roe' (any name but 'rusanov')
return the flux the two states have in common. -/
theorem C102_flux {name : String} (hn : name ≠ "rusanov") (hL : wL.Phys) (hR : wR.Phys) (h : Standing γ wL wR) :
    FluxAt γ name wL wR (wL.flux γ) ∧ wR.flux γ = wL.flux γ := by
  refine ⟨?_, standing_flux h⟩
  rcases h with rfl | ⟨h1, h2, h3⟩ | h
  · by_cases hg : name = "godunov"
    · rw [hg]; exact C38_godunov hγ hL
    · exact C38_consistent hγ hg hL
  · have hw : ∀ w : Prim, w.v = 0 → w = ⟨w.rho, 0, w.p⟩ := by rintro ⟨r, v, q⟩ rfl; rfl
    have e1 := hw wL h1
    have e2 := hw wR h2
    rw [← h3] at e2
    have hf : wL.flux γ = ![0, wL.p, 0] := by funext k; fin_cases k <;> simp [Prim.flux, h1]
    rw [hf, e2, e1]
    by_cases hg : name = "godunov"
    · rw [hg]; exact C42_godunov_contact hγ hL.1 hR.1 hL.2
    · exact C42_roe_contact hγ hn hg hL.1 hR.1 hL.2
  · by_cases hg : name = "godunov"
    · rw [hg]
      rcases h.2 with ⟨a, -⟩ | ⟨a, -⟩
      · exact C41_godunov_left hγ hL hR a
      · have hfl := standing_flux (.inr (.inr h))
        have hcL := c_pos hγ hL
        have hcR := c_pos hγ hR
        have := (mass_sign hL hR hfl).2.mpr (by linarith)
        rw [← hfl]
        exact C41_godunov_right hγ hL hR (by linarith) a
    · rw [← roe_shock hγ hL hR h]
      exact C39_roe hγ hn hg hL hR

include hγ in
/-- **C102 (Rusanov).** The solver 'rusanov' keeps a discontinuity of speed zero only if there is none. -/
theorem C102_rusanov (hL : wL.Phys) (hR : wR.Phys) (h : wR.flux γ = wL.flux γ) : FluxAt γ "rusanov" wL wR (wL.flux γ) ↔ wL = wR := by
  constructor
  · intro hF
    have heq := hF.unique (C39_rusanov hγ hL hR)
    have hpos : 0 < max (wL.speed γ) (wR.speed γ) := lt_max_of_lt_left (add_pos_of_nonneg_of_pos (abs_nonneg _) (c_pos hγ hL))
    have hcons : ∀ k, wR.cons γ k = wL.cons γ k := by
      intro k
      have := congrFun heq k
      simp only [rusanovFlux, h] at this
      have h0 : max (wL.speed γ) (wR.speed γ) * (wR.cons γ k - wL.cons γ k) = 0 := by linarith
      rcases mul_eq_zero.mp h0 with h | h
      · exact absurd h hpos.ne'
      · linarith
    have c0 : wR.rho = wL.rho := by simpa [Prim.cons] using hcons 0
    have c1 : wR.v = wL.v := by
      have : wR.rho * wR.v = wL.rho * wL.v := by simpa [Prim.cons] using hcons 1
      rw [c0] at this
      exact mul_left_cancel₀ hL.1.ne' this
    have c2 : wR.p = wL.p := by
      have : wR.energy γ = wL.energy γ := by simpa [Prim.cons] using hcons 2
      unfold Prim.energy at this
      rw [c0, c1] at this
      have hg : γ - 1 ≠ 0 := by linarith
      field_simp at this
      linarith
    cases wL; cases wR; simp_all
  · rintro rfl
    exact C38_consistent hγ (by decide) hL

include hγ in
/-- **C102 (entropy).** The same jump taken the wrong way round, from subsonic to supersonic speed, is no shock: the entropy fix of
Roe's solver acts on it and its flux is not that of the states. -/
theorem C102_expansion {name : String} (h1 : name ≠ "rusanov") (h2 : name ≠ "godunov") (hL : wL.Phys) (hR : wR.Phys) (hRH : RankineHugoniot γ 0 wL wR)
    (hv : 0 < wL.v) (hsub : wL.v < wL.c γ) (hsup : wR.c γ < wR.v) : ¬ FluxAt γ name wL wR (wL.flux γ) := by
  intro hF
  have hfl : wR.flux γ = wL.flux γ := by
    funext k
    have := hRH k
    rw [zero_mul] at this
    linarith
  have heq := hF.unique (C39_roe hγ h1 h2 hL hR)
  have hst := roe_still hγ hL hR hfl
  have hV := roeV_pos hL hR hv ((mass_sign hL hR hfl).1.mp hv)
  have hc := roeC_pos hγ hL hR
  have a1 : roeAlpha γ wL wR 1 = 0 := (mul_eq_zero.mp (hst 1)).resolve_left (by simp [roeLambda]; exact hV.ne')
  have a2 : roeAlpha γ wL wR 2 = 0 := (mul_eq_zero.mp (hst 2)).resolve_left (by simp [roeLambda]; linarith)
  have a0 : roeAlpha γ wL wR 0 ≠ 0 := by
    intro a0
    have hcons : ∀ i, wR.cons γ i = wL.cons γ i := by
      intro i
      have := (C39_roe_property hγ hL hR i).1
      simp only [Fin.sum_univ_three, a0, a1, a2, zero_mul, add_zero] at this
      linarith
    have c0 : wR.rho = wL.rho := by simpa [Prim.cons] using hcons 0
    have c1 : wR.v = wL.v := by
      have : wR.rho * wR.v = wL.rho * wL.v := by simpa [Prim.cons] using hcons 1
      rw [c0] at this
      exact mul_left_cancel₀ hL.1.ne' this
    have c2 : wR.p = wL.p := by
      have : wR.energy γ = wL.energy γ := by simpa [Prim.cons] using hcons 2
      unfold Prim.energy at this
      rw [c0, c1] at this
      have hg : γ - 1 ≠ 0 := by linarith
      field_simp at this
      linarith
    have : wR.c γ = wL.c γ := by unfold Prim.c; rw [c0, c2]
    linarith
  have l0 : roeLambda γ wL wR 0 = 0 := (mul_eq_zero.mp (hst 0)).resolve_right a0
  have hd : 0 < fixWidth γ wL wR 0 := by
    simp only [fixWidth, Matrix.cons_val_zero]
    exact lt_max_of_lt_right (by linarith)
  have hh : 0 < hartenAbs (fixWidth γ wL wR 0) (roeLambda γ wL wR 0) := by
    unfold hartenAbs
    rw [l0, if_pos (by rw [abs_zero]; linarith)]
    have : (0 : ℝ) ^ 2 / fixWidth γ wL wR 0 = 0 := by simp
    linarith
  have := congrFun heq 0
  simp only [roeFlux, Fin.sum_univ_three, a1, a2, mul_zero, zero_mul, add_zero, hfl] at this
  have hr : roeVec γ wL wR 0 0 = 1 := by simp [roeVec]
  rw [hr, mul_one] at this
  have h0 : hartenAbs (fixWidth γ wL wR 0) (roeLambda γ wL wR 0) * roeAlpha γ wL wR 0 = 0 := by linarith
  exact (mul_ne_zero hh.ne' a0) h0

/-! ### Whole runs -/

variable {s a : Sol ℝ} {lib : GaussLib ℝ} {p : ℕ} {riemann : Str}

include hγ in
/-- **C102 (gas at rest).** Any density profile, polynomial in every cell, in a gas without velocity and with the same pressure
everywhere: the solvers 'roe' and 'godunov' (any name but 'rusanov') leave every coefficient of every cell as it is, in every
output and in the current solution; any order, scheme, number of steps, boundaries, enhancement, limiter off. -/
theorem C102_rest (h : s.Built lib p) (hp : CodePhysics γ "euler".toList riemann s) (hn : String.ofList riemann ≠ "rusanov") (hk : s.BcKnown)
    (hen : ∀ en, s.enhance = some en → ∃ modes, Enhance.init lib p modes = .ok en ∧ ∀ m ∈ modes, m ≤ p)
    {P : ℝ} (hP : 0 < P) (h0 : SameVP γ 0 P s) (hpos : ∀ e, 1 ≤ e → e ≤ s.NE → ∀ ξ ∈ Set.Ioo (-1 : ℝ) 1, 0 < (cellPoly s e 0).eval ξ)
    (deck : RkDeck ℝ) (k : ℕ) :
    let r := integrate ⟨residual, Limiter.limit none⟩ deck s k
    (∀ e, 1 ≤ e → e ≤ s.NE → ∀ f < s.NF, cellPoly r.sol e f = cellPoly s e f) ∧
    ∀ o ∈ r.log, ∀ e, 1 ≤ e → e ≤ s.NE → ∀ f < s.NF, cellPoly o.sol e f = cellPoly s e f := by
  obtain ⟨hkw, hF⟩ := hp.euler rfl
  obtain ⟨ps, hps, hdr, -⟩ := euler_drift hγ hF (String.ofList riemann) hP 0
  rw [← hkw] at hps
  have henc : ∀ en, s.enhance = some en → EnhanceConst en := by
    intro en he
    obtain ⟨modes, h1, h2⟩ := hen en he
    exact enhance_const h1 h2
  have hmass : ∀ rL rR, contactMass γ (String.ofList riemann) 0 P rL rR = 0 := by
    intro rL rR
    unfold contactMass upwindMass
    rw [if_neg hn, if_pos le_rfl, zero_mul]
  have hbc : ∀ x, Like x s → SameInterior s.NE s.NF (p + 1) x.u.val s.u.val → SameInterior s.NE s.NF (p + 1) x.applyBc.u.val s.u.val := by
    intro x hx hs n hn e h1 h2 f hf
    rw [hx.applyBc_val h.wf, bcCol_interior s h1 h2 hf, hs n hn e h1 h2 f hf]
  have inv : Invariant (K := ℝ) ⟨residual, Limiter.limit none⟩
      (fun a => Like a s ∧ SameInterior s.NE s.NF (p + 1) a.u.val s.u.val)
      (fun a => Like a s ∧ SameInterior s.NE s.NF (p + 1) a.u.val s.u.val)
      (fun A => ∀ n < p + 1, ∀ e, 1 ≤ e → e ≤ s.NE → ∀ f < s.NF, A.val n (e * s.NF + f) = 0) :=
    { zero := fun _ _ n _ e _ _ f _ => rfl
      smul := fun a A hA n hn e h1 h2 f hf => by
        simp only [Arr.smul]
        rw [hA n hn e h1 h2 f hf, mul_zero]
      axpy := by
        rintro a x A ⟨hx, hd⟩ hA
        refine ⟨hx.axpy a A, fun n hn e h1 h2 f hf => ?_⟩
        simp only [Arr.add, Arr.smul]
        rw [hd n hn e h1 h2 f hf, hA n hn e h1 h2 f hf, mul_zero, add_zero]
      copy := fun w x hw hx => ⟨hw.1.copy hx.1, hx.2⟩
      clock := fun x a m hx => ⟨hx.1.clock _ _, hx.2⟩
      head := fun x hx => hx
      bc := fun x hx => ⟨hx.1.applyBc, hbc x hx.1 hx.2⟩
      headLimit := fun x y hx hy => by cases hy; exact hx
      stageLimit := fun x y hx hy => by cases hy; exact hx
      res := by
        rintro x y A ⟨hx, hd⟩ hr
        replace hr : residual x = .ok (y, A) := hr
        have hxd : Drifting s.NF (p + 1) 1 s.NE 0 (P / (γ - 1)) x.u.val := by
          have hs0 := (sameVP_iff (Like.refl s) h.rows hF 0 P).mp h0
          intro n hn e h1 h2 f hf
          have := hd n hn e h1 h2 0 h.NF
          rw [add_zero] at this
          rw [hd n hn e h1 h2 f hf, hs0 n hn e h1 h2 f hf, this]
        obtain ⟨r1, r2⟩ := residual_drift h hx ps hps hdr henc hk hxd (by
          intro e h1 h2 g hg
          rw [gaussRho_eval h hx]
          have : cellPoly x e 0 = cellPoly s e 0 := by
            unfold cellPoly legSeries
            rw [hx.rows, hx.setup.NF, h.rows]
            refine Finset.sum_congr rfl fun n hn => ?_
            beta_reduce
            rw [hd n (Finset.mem_range.mp hn) e h1 h2 0 h.NF]
          rw [this]
          exact (hpos e h1 h2 _ (Approx.gauss_nodes h.gaussS hg)).ne')
        by_cases hf : ∃ i < s.NE + 1, ps.fails (fun f => drift 0 (P / (γ - 1)) (s.faceRho 1 x.applyBc.u.val i) f)
            (fun f => drift 0 (P / (γ - 1)) (s.faceRho 0 x.applyBc.u.val i) f)
        · obtain ⟨e, -, he⟩ := r1 hf
          rw [he] at hr; cases hr
        · push Not at hf
          obtain ⟨F, hF', -, -, hD, hrho⟩ := r2 hf
          rw [hF'] at hr
          cases hr
          refine ⟨⟨hx.applyBc, hbc x hx hd⟩, fun n hn e h1 h2 f hf => ?_⟩
          have hz : A.val n (e * s.NF) = 0 := by
            rw [hrho n hn e h1 h2]
            unfold Sol.rhoRes
            simp only [hmass, zero_mul, mul_zero, Finset.sum_const_zero, sub_zero, add_zero, ite_self]
          rw [hD n hn e h1 h2 f hf, hz, ite_self]
          unfold drift
          split_ifs <;> ring }
  obtain ⟨h1, h2⟩ := inv.run deck (schemeFor deck.rk) ⟨Like.refl s, fun _ _ _ _ _ _ _ => rfl⟩ k
  have conv : ∀ x, Like x s → SameInterior s.NE s.NF (p + 1) x.u.val s.u.val → ∀ e, 1 ≤ e → e ≤ s.NE → ∀ f < s.NF, cellPoly x e f = cellPoly s e f := by
    intro x hx hd e h1 h2 f hf
    unfold cellPoly legSeries
    rw [hx.rows, hx.setup.NF, h.rows]
    refine Finset.sum_congr rfl fun n hn => ?_
    beta_reduce
    rw [hd n (Finset.mem_range.mp hn) e h1 h2 f hf]
  exact ⟨conv _ h1.1 h1.2, fun o ho => conv _ (h2 o ho).1 (h2 o ho).2⟩

/-- The states as numbers, field by field. -/
noncomputable def stepVal (γ : ℝ) (W : ℕ → Prim) (e f : ℕ) : ℝ := if h : f < 3 then (W e).cons γ ⟨f, h⟩ else 0

lemma stepVal_fin (W : ℕ → Prim) (e : ℕ) : (fun f : Fin 3 => stepVal γ W e f) = (W e).cons γ := by
  funext f
  simp [stepVal]

lemma legSeries_const (N : ℕ) (x : ℝ) (v : ℕ → ℝ) (hN : 0 < N) (h : ∀ n < N, v n = if n = 0 then x else 0) : legSeries N v = C x := by
  unfold legSeries
  rw [Finset.sum_eq_single 0]
  · rw [h 0 hN, if_pos rfl, legendre_zero, mul_one]
  · intro b hb hb0
    rw [h b (Finset.mem_range.mp hb), if_neg hb0, C_0, zero_mul]
  · intro h0; exact absurd (Finset.mem_range.mpr hN) h0

lemma coeff_const {N : ℕ} {x : ℝ} {v : ℕ → ℝ} (h : legSeries N v = C x) (n : ℕ) (hn : n < N) : v n = if n = 0 then x else 0 := by
  rw [← legSeries_const N x (fun n => if n = 0 then x else 0) (by omega) (fun _ _ => rfl)] at h
  exact legSeries_injective N _ _ h n hn

lemma holdsStates_iff (ha : Like a s) (hr : s.u.rows = p + 1) (hF : s.NF = 3) (W : ℕ → Prim) :
    HoldsStates γ W a ↔ Steps s.NE 3 (p + 1) (stepVal γ W) a.u.val := by
  have hrow : 0 < a.u.rows := by rw [ha.rows, hr]; omega
  have hNF : a.NF = 3 := by rw [ha.setup.NF, hF]
  have hpoly : ∀ e f, cellPoly a e f = legSeries (p + 1) fun n => a.u.val n (e * 3 + f) := fun e f => by unfold cellPoly; rw [ha.rows, hr, hNF]
  unfold HoldsStates
  simp only [cellMean_eq hrow, hNF, ha.setup.NE, hpoly]
  constructor
  · rintro ⟨h1, h2⟩
    refine ⟨fun e he f hf => ?_, fun n h0 hn e e1 e2 f hf => ?_⟩
    · rw [h1 e he ⟨f, hf⟩]; simp [stepVal, hf]
    · have := coeff_const (h2 e e1 e2 ⟨f, hf⟩) n hn
      rw [if_neg (by omega)] at this
      exact this
  · intro h
    refine ⟨fun e he f => ?_, fun e e1 e2 f => ?_⟩
    · rw [h.mean e he f f.2]; simp [stepVal]
    · refine legSeries_const _ _ _ (by omega) fun n hn => ?_
      by_cases h0 : n = 0
      · subst h0
        rw [if_pos rfl, h.mean e (by omega) f f.2]; simp [stepVal]
      · rw [if_neg h0, h.high n (by omega) hn e e1 e2 f f.2]

/-- The limiter leaves a solution alone that is constant in every cell, if no cell has jumps on both sides. -/
lemma limit_steps (h : s.Built lib p) (hF : s.NF = 3) {c : ℕ → ℕ → ℝ} (hb : s.Fills c) (hN : 2 ≤ s.NE)
    (hiso : ∀ e, 1 ≤ e → e ≤ s.NE → (∀ f < 3, c (e - 1) f = c e f) ∨ ∀ f < 3, c (e + 1) f = c e f)
    {limiting : String} {lm : Limiter ℝ} (hi : Limiter.init limiting s = .ok lm) :
    ∀ a b, Like a s → Steps s.NE 3 (p + 1) c a.u.val → lm.limit a = .ok b → Like b s ∧ Steps s.NE 3 (p + 1) c b.u.val := by
  intro a b ha hua hlim
  cases lm with
  | none => cases hlim; exact ⟨ha, hua⟩
  | some lm =>
    have hty : limiting = "adaptive_hr" := by
      by_contra hne
      unfold Limiter.init at hi
      rw [if_neg hne] at hi
      cases hi
    subst hty
    have hab := ha.built h
    have hok := ok_of_init h hi
    have hNF : a.NF = 3 := by rw [ha.setup.NF, hF]
    have hNE := ha.setup.NE
    obtain ⟨sn, sn', v, U, h1, h2, rfl, h4, h5, h6, h7⟩ := limit_form hok hab hlim
    rw [hNF, hNE] at h6 h7
    have hlike := limited_like (sn' := sn') h4 h5
    have hcoef : ∀ e, 1 ≤ e → e ≤ s.NE → ∀ f < 3, ∀ n < p + 1, a.u.val n (e * 3 + f) = if n = 0 then c e f else 0 := by
      intro e e1 e2 f hf n hn
      by_cases h0 : n = 0
      · subst h0; rw [if_pos rfl, hua.mean e (by omega) f hf]
      · rw [if_neg h0, hua.high n (by omega) hn e e1 e2 f hf]
    have hU : ∀ e, 1 ≤ e → e ≤ s.NE → ∀ f < 3, ∀ n < p + 1, U.val n (e * 3 + f) = if n = 0 then c e f else 0 := by
      intro e e1 e2 f hf n hn
      rw [h6, show (e * 3 + f) / 3 = e by omega]
      by_cases hc : 1 ≤ e ∧ e ≤ s.NE ∧ sn'.sensors.val e ≠ 0
      · rw [if_pos hc]
        obtain ⟨hp, hv⟩ := h7 e e1 e2 hc.2.2 f hf
        obtain ⟨w, w1, -, w3⟩ := hr_spec hok hp (a.u.col (e * 3 + f)) (a.u.col ((e - 1) * 3 + f)) (a.u.col ((e + 1) * 3 + f))
        rw [hv] at w1
        cases w1
        have hcen : legSeries (p + 1) (a.u.col (e * 3 + f)).val = C (c e f) := legSeries_const _ _ _ (by omega) (hcoef e e1 e2 f hf)
        have hmean : ∀ e' ≤ s.NE + 1, intPoly (legSeries (p + 1) (a.u.col (e' * 3 + f)).val) = 2 * c e' f := by
          intro e' he'
          have := intPoly_legSeries (p + 1) (a.u.col (e' * 3 + f)).val 0 (by omega)
          rw [legendre_zero, mul_one] at this
          rw [this, show (a.u.col (e' * 3 + f)).val 0 = c e' f from hua.mean e' he' f hf]
          norm_num
          ring
        rw [hcen] at w3
        refine coeff_const (hr_const (b := if 2 ≤ e then c (e - 1) f else c (e + 1) f) w3 ?_ ?_) n hn
        · by_cases he : 2 ≤ e
          · left; rw [if_pos he]; exact legSeries_const _ _ _ (by omega) (hcoef (e - 1) (by omega) (by omega) f hf)
          · right; rw [if_neg he]; exact legSeries_const _ _ _ (by omega) (hcoef (e + 1) (by omega) (by omega) f hf)
        · rcases hiso e e1 e2 with h | h
          · left; rw [hmean (e - 1) (by omega), h f hf]
          · right; rw [hmean (e + 1) (by omega), h f hf]
      · rw [if_neg hc]
        exact hcoef e e1 e2 f hf n hn
    have hval : ∀ e ≤ s.NE + 1, ∀ f < 3, ∀ n < p + 1, (Sol.applyBc { a with u := U, sensors := some sn' }).u.val n (e * 3 + f) = if n = 0 then c e f else 0 := by
      intro e he f hf n hn
      obtain ⟨e', k1, k2, k3, k4⟩ := (hb.like ha) e (by rw [hNE]; exact he)
      rw [hNF] at k3 k4
      rw [hNE] at k2
      rw [limited_val hab h5, k3 f hf, hU e' k1 k2 f hf n hn, k4 f hf]
    refine ⟨hlike.trans ha, ⟨fun e he f hf => ?_, fun n h0 hn e e1 e2 f hf => ?_⟩⟩
    · rw [hval e he f hf 0 (by omega), if_pos rfl]
    · rw [hval e (by omega) f hf n hn, if_neg (by omega)]

/-- The description of a solver does not fail where the solver returns a flux. -/
lemma not_fails_of_fluxAt {name : String} {ps : PhysSpec ℝ 3} (hps : (physics γ name).Pointwise ps) {F : Fin 3 → ℝ}
    (hF : FluxAt γ name wL wR F) : ¬ ps.fails (wL.cons γ) (wR.cons γ) := by
  intro hf
  obtain ⟨h1, h2⟩ := fieldsAt_of γ (oneState_at γ wL wR)
  obtain ⟨e, -, he⟩ := hps.riemannErr (oneState γ wL) (oneState γ wR) 1 rfl rfl ⟨0, by norm_num, by rw [h1, h2]; exact hf⟩
  obtain ⟨q, hq⟩ := hF.1
  rw [hq] at he; cases he

/-- The ghost cells of `W` are what the boundaries make of its interior cells. -/
def GhostStates (W : ℕ → Prim) (s : Sol ℝ) : Prop :=
  (s.bcl = .lit "zerograd" ∧ W 0 = W 1 ∨ s.bcl = .lit "periodic" ∧ W 0 = W s.NE) ∧
  (s.bcr = .lit "zerograd" ∧ W (s.NE + 1) = W s.NE ∨ s.bcr = .lit "periodic" ∧ W (s.NE + 1) = W 1)

lemma GhostStates.fills (h : s.Built lib p) {W : ℕ → Prim} (hg : GhostStates W s) : s.Fills (stepVal γ W) := by
  have hne : ¬ (PyStr.lit "zerograd").isLit "periodic" := by simp [PyStr.isLit, PyStr.lit]
  intro e he
  by_cases h0 : e = 0
  · subst h0
    rcases hg.1 with ⟨h1, h2⟩ | ⟨h1, h2⟩
    · refine ⟨1, le_rfl, h.NE, fun f hf => ?_, fun f _ => by unfold stepVal; rw [h2]⟩
      rw [zero_mul, zero_add, bcCol_left s hf, h1, if_neg hne, if_pos ⟨rfl, rfl⟩, one_mul, add_comm]
    · refine ⟨s.NE, h.NE, le_rfl, fun f hf => ?_, fun f _ => by unfold stepVal; rw [h2]⟩
      rw [zero_mul, zero_add, bcCol_left s hf, h1, if_pos ⟨rfl, rfl⟩, add_comm]
  by_cases h1 : e = s.NE + 1
  · subst h1
    rcases hg.2 with ⟨h1, h2⟩ | ⟨h1, h2⟩
    · refine ⟨s.NE, h.NE, le_rfl, fun f hf => ?_, fun f _ => by unfold stepVal; rw [h2]⟩
      rw [bcCol_right s hf, h1, if_neg hne, if_pos ⟨rfl, rfl⟩]
    · refine ⟨1, le_rfl, h.NE, fun f hf => ?_, fun f _ => by unfold stepVal; rw [h2]⟩
      rw [bcCol_right s hf, h1, if_pos ⟨rfl, rfl⟩, one_mul]
  · exact ⟨e, by omega, by omega, fun f hf => bcCol_interior s (by omega) (by omega) hf, fun _ _ => rfl⟩

include hγ in
/-- The residual of states that stand still. -/
lemma standing_residual (h : s.Built lib p) (hp : CodePhysics γ "euler".toList riemann s) (hn : String.ofList riemann ≠ "rusanov") (hen : s.enhance = none)
    {W : ℕ → Prim} (hg : GhostStates W s) (hW : ∀ e ≤ s.NE + 1, (W e).Phys) (hst : ∀ i ≤ s.NE, Standing γ (W i) (W (i + 1)))
    (ha : Like a s) (hu : Steps s.NE 3 (p + 1) (stepVal γ W) a.u.val) :
    ∃ F, residual a = .ok (a.applyBc, F) ∧ Uniform s.NE 3 (p + 1) (fun _ => 0) F.val := by
  obtain ⟨hkw, hF⟩ := hp.euler rfl
  obtain ⟨ps, hps⟩ := euler_pointwise hγ (String.ofList riemann)
  have hfl : ∀ e ≤ s.NE + 1, (W e).flux γ = (W 0).flux γ := by
    intro e
    induction e with
    | zero => intro _; rfl
    | succ e ih => intro he; rw [← ih (by omega)]; exact standing_flux (hst e (by omega))
  have hF1 : ∀ i ≤ s.NE, FluxAt γ (String.ofList riemann) (W i) (W (i + 1)) ((W 0).flux γ) := by
    intro i hi
    rw [← hfl i (by omega)]
    exact (C102_flux hγ hn (hW i (by omega)) (hW (i + 1) (by omega)) (hst i hi)).1
  have := steps_residual (ha.built h) (NF := 3) (by rw [ha.setup.NF, hF]) ps (by rw [ha.setup.kw, hkw]; exact hps) (by rw [ha.setup.enhance, hen])
    ((hg.fills h).like ha) (by rw [ha.setup.NE]; exact hu) (Φ := (W 0).flux γ)
    (by
      rw [ha.setup.NE]
      intro i hi
      rw [stepVal_fin, stepVal_fin]
      exact not_fails_of_fluxAt hps (hF1 i hi))
    (by
      rw [ha.setup.NE]
      intro i hi
      rw [stepVal_fin, stepVal_fin]
      exact num_of_fluxAt hps (hF1 i hi))
    (by
      rw [ha.setup.NE]
      intro e he
      rw [stepVal_fin, ← (euler_consistent hγ hps (hW e he)).2, ← hfl e he]
      exact num_of_fluxAt hps (C102_flux hγ hn (hW e he) (hW e he) (.inl rfl)).1)
  rwa [ha.setup.NE] at this

include hγ in
/-- States that stand still do so through all operations of a run. -/
lemma standing_invariant (h : s.Built lib p) (hp : CodePhysics γ "euler".toList riemann s) (hn : String.ofList riemann ≠ "rusanov") (hen : s.enhance = none)
    {W : ℕ → Prim} (hg : GhostStates W s) (hW : ∀ e ≤ s.NE + 1, (W e).Phys) (hst : ∀ i ≤ s.NE, Standing γ (W i) (W (i + 1)))
    (limit : Sol ℝ → Except PyErr (Sol ℝ))
    (hlim : ∀ a b, Like a s → Steps s.NE 3 (p + 1) (stepVal γ W) a.u.val → limit a = .ok b → Like b s ∧ Steps s.NE 3 (p + 1) (stepVal γ W) b.u.val) :
    Invariant (K := ℝ) ⟨residual, limit⟩ (fun a => Like a s ∧ Steps s.NE 3 (p + 1) (stepVal γ W) a.u.val)
      (fun a => Like a s ∧ Steps s.NE 3 (p + 1) (stepVal γ W) a.u.val) (fun A => Uniform s.NE 3 (p + 1) (fun _ => 0) A.val) := by
  obtain ⟨hkw, hF⟩ := hp.euler rfl
  have hbc : ∀ a, Like a s ∧ Steps s.NE 3 (p + 1) (stepVal γ W) a.u.val → Like a.applyBc s ∧ Steps s.NE 3 (p + 1) (stepVal γ W) a.applyBc.u.val := by
    rintro a ⟨ha, hs⟩
    have hNF : a.NF = 3 := by rw [ha.setup.NF, hF]
    have := steps_filled (ha.built h) ((hg.fills h).like ha) (by rw [ha.setup.NE, hNF]; exact hs)
    rw [ha.setup.NE, hNF] at this
    exact ⟨ha.applyBc, ⟨fun e he f hf => by rw [this e he f hf 0 (by omega), if_pos rfl],
      fun n h0 hn e e1 e2 f hf => by rw [this e (by omega) f hf n hn, if_neg (by omega)]⟩⟩
  exact
    { zero := fun _ _ => ⟨fun _ _ _ _ => rfl, fun _ _ _ _ _ _ _ _ => rfl⟩
      smul := fun a A hA => by
        refine ⟨fun e he f hf => ?_, fun n h0 hn e h1 h2 f hf => ?_⟩
        · simp only [Arr.smul]; rw [hA.mean e he f hf, mul_zero]
        · simp only [Arr.smul]; rw [hA.high n h0 hn e h1 h2 f hf, mul_zero]
      axpy := fun a x A hx hA => by
        refine ⟨hx.1.axpy a A, ⟨fun e he f hf => ?_, fun n h0 hn e h1 h2 f hf => ?_⟩⟩
        · simp only [Arr.add, Arr.smul]; rw [hA.mean e he f hf, hx.2.mean e he f hf, mul_zero, add_zero]
        · simp only [Arr.add, Arr.smul]
          rw [hA.high n h0 hn e h1 h2 f hf, hx.2.high n h0 hn e h1 h2 f hf, mul_zero, add_zero]
      copy := fun w x hw hx => ⟨hw.1.copy hx.1, hx.2⟩
      clock := fun x a m hx => ⟨hx.1.clock _ _, hx.2⟩
      head := fun _ hx => hx
      bc := hbc
      headLimit := fun a b ha hb => hlim a b ha.1 ha.2 hb
      stageLimit := fun a b ha hb => hlim a b ha.1 ha.2 hb
      res := by
        intro x v A hx hres
        rw [residual_sol hres]
        refine ⟨hbc x hx, ?_⟩
        obtain ⟨F, hF, hz⟩ := standing_residual hγ h hp hn hen hg hW hst hx.1 hx.2
        change residual x = _ at hres
        rw [hF] at hres
        cases hres
        exact hz }

/-- No cell has jumps on both sides. -/
def SingleJumps (W : ℕ → Prim) (N : ℕ) : Prop := ∀ e, 1 ≤ e → e ≤ N → W (e - 1) = W e ∨ W (e + 1) = W e

include hγ in
/-- **C102 (run).** One constant state per cell, with nothing but contacts at rest and standing shocks between the cells: with the
solvers 'roe' and 'godunov' every output and the current solution hold the same states; any order, scheme and number of
steps, no enhancement, limiter off or, if no cell has jumps on both sides, on, whatever its thresholds. -/
theorem C102_run (h : s.Built lib p) (hp : CodePhysics γ "euler".toList riemann s) (hn : String.ofList riemann ≠ "rusanov") (hen : s.enhance = none)
    {W : ℕ → Prim} (hg : GhostStates W s) (hW : ∀ e ≤ s.NE + 1, (W e).Phys) (hst : ∀ i ≤ s.NE, Standing γ (W i) (W (i + 1)))
    (h0 : HoldsStates γ W s) {limiting : String} {lm : Limiter ℝ} (hi : Limiter.init limiting s = .ok lm)
    (hiso : lm = none ∨ 2 ≤ s.NE ∧ SingleJumps W s.NE) (deck : RkDeck ℝ) (k : ℕ) :
    HoldsStates γ W (integrate ⟨residual, lm.limit⟩ deck s k).sol ∧ ∀ o ∈ (integrate ⟨residual, lm.limit⟩ deck s k).log, HoldsStates γ W o.sol := by
  obtain ⟨hkw, hF⟩ := hp.euler rfl
  have hlim : ∀ a b, Like a s → Steps s.NE 3 (p + 1) (stepVal γ W) a.u.val → lm.limit a = .ok b → Like b s ∧ Steps s.NE 3 (p + 1) (stepVal γ W) b.u.val := by
    rcases hiso with rfl | ⟨hN, hJ⟩
    · intro a b ha hu hb
      cases hb
      exact ⟨ha, hu⟩
    · refine limit_steps h hF (hg.fills h) hN (fun e e1 e2 => ?_) hi
      rcases hJ e e1 e2 with h | h
      · exact .inl fun f _ => by unfold stepVal; rw [h]
      · exact .inr fun f _ => by unfold stepVal; rw [h]
  obtain ⟨h1, h2⟩ := (standing_invariant hγ h hp hn hen hg hW hst lm.limit hlim).run deck (schemeFor deck.rk)
    ⟨Like.refl s, (holdsStates_iff (Like.refl s) h.rows hF W).mp h0⟩ k
  exact ⟨(holdsStates_iff h1.1 h.rows hF W).mpr h1.2, fun o ho => (holdsStates_iff (h2 o ho).1 h.rows hF W).mpr (h2 o ho).2⟩

include hγ in
/-- **C102 (Rusanov).** With the solver 'rusanov' a contact at rest or standing shock is not kept: the residual exists, and in the
cell left of the jump its average is not zero (nor is the rate of change of the solution there). -/
theorem C102_blurred (h : s.Built lib p) (hp : CodePhysics γ "euler".toList "rusanov".toList s) (hen : s.enhance = none)
    {W : ℕ → Prim} (hg : GhostStates W s) (hW : ∀ e ≤ s.NE + 1, (W e).Phys) (h0 : HoldsStates γ W s)
    {e : ℕ} (e1 : 1 ≤ e) (e2 : e ≤ s.NE) (hl : W (e - 1) = W e) (hst : Standing γ (W e) (W (e + 1))) (hne : W e ≠ W (e + 1)) :
    ∃ F, residual s = .ok (s.applyBc, F) ∧ ∃ f : Fin 3, F.val 0 (e * 3 + f) ≠ 0 := by
  obtain ⟨hkw, hF⟩ := hp.euler rfl
  have hname : String.ofList "rusanov".toList = "rusanov" := by decide
  rw [hname] at hkw
  obtain ⟨ps, hps⟩ := euler_pointwise hγ "rusanov"
  have hF1 : ∀ i ≤ s.NE, FluxAt γ "rusanov" (W i) (W (i + 1)) (rusanovFlux γ (W i) (W (i + 1))) :=
    fun i hi => C39_rusanov hγ (hW i (by omega)) (hW (i + 1) (by omega))
  obtain ⟨F, hres, hval⟩ := steps_mean h hF ps (by rw [hkw]; exact hps) hen (hg.fills h) ((holdsStates_iff (Like.refl s) h.rows hF W).mp h0)
    (fun i hi => by rw [stepVal_fin, stepVal_fin]; exact not_fails_of_fluxAt hps (hF1 i hi))
  refine ⟨F, hres, ?_⟩
  by_contra hz
  push Not at hz
  refine hne ((C102_rusanov hγ (hW e (by omega)) (hW (e + 1) (by omega)) (standing_flux hst)).mp ?_)
  have hflux : rusanovFlux γ (W e) (W (e + 1)) = (W e).flux γ := by
    funext f
    have := hval e e1 e2 f
    rw [hz f, stepVal_fin, stepVal_fin, stepVal_fin, hl, num_of_fluxAt hps (C39_rusanov hγ (hW e (by omega)) (hW e (by omega))),
      num_of_fluxAt hps (hF1 e e2)] at this
    have h1 : rusanovFlux γ (W e) (W e) f = (W e).flux γ f := by unfold rusanovFlux; ring
    have h2 := div_eq_zero_iff.mp this.symm
    rcases h2 with h2 | h2
    · linarith
    · exact absurd h2 h.dx
  rw [← hflux]
  exact hF1 e e2

/-! ### The program -/

section Tube

variable {lib : GaussLib ℝ} {ft : FloatText ℝ} {d : Deck ℝ} {p N : ℕ} {xd : ℝ}

/-- Two states with the diaphragm right of cell `j`. -/
def twoStates (wL wR : Prim) (j e : ℕ) : Prim := if e ≤ j then wL else wR

/-- The initial condition `scktube`, with the diaphragm at a face, in the cells. -/
lemma tube_point {A dx xd ξ : ℝ} {e j : ℕ} (hdx : 0 < dx) (hξ : ξ ∈ Set.Ioo (-1 : ℝ) 1) (e1 : 1 ≤ e) (hxd : xd = A + j * dx) :
    physPoint (A + ((e - 1 : ℕ) : ℝ) * dx) (A + e * dx) ξ < xd ↔ e ≤ j := by
  unfold physPoint
  have hc : ((e - 1 : ℕ) : ℝ) = e - 1 := by rw [Nat.cast_sub e1, Nat.cast_one]
  rw [hc, hxd]
  obtain ⟨h1, h2⟩ := hξ
  have key : (A + ((e : ℝ) - 1) * dx + (A + e * dx)) / 2 + (A + e * dx - (A + (e - 1) * dx)) / 2 * ξ = A + e * dx - dx * ((1 - ξ) / 2) := by ring
  rw [key]
  constructor
  · intro h
    by_contra hn
    have : (j : ℝ) + 1 ≤ e := by exact_mod_cast (by omega : j + 1 ≤ e)
    nlinarith [mul_le_mul_of_nonneg_right this hdx.le]
  · intro h
    have : (e : ℝ) ≤ j := by exact_mod_cast h
    nlinarith [mul_le_mul_of_nonneg_right this hdx.le]

/-- What the constructor and the limiter make of two states that stand still. -/
lemma tube_start (hlib : lib.Ok) (hd : ValidDeck lib ft d p N (IC.scktube xd wL.rho wL.v wL.p wR.rho wR.v wR.p))
    (hsys : d.system = "euler".toList) {j : ℕ} (hj1 : 1 ≤ j) (hj : j < N) (hxd : xd = -1 + j * (2 / N))
    {c s : Sol ℝ} {lm : Limiter ℝ} (S : Started lib d p N (IC.scktube xd wL.rho wL.v wL.p wR.rho wR.v wR.p) c s lm) :
    HoldsStates (7 / 5) (twoStates wL wR j) s := by
  set W := twoStates wL wR j with hWdef
  obtain ⟨hB, hkc⟩ := S.kin
  obtain ⟨-, hNF⟩ := S.physics.euler hsys
  have hNFc : c.NF = 3 := by rw [← S.same.1, hNF]
  have hdx : (0 : ℝ) < 2 / N := by have : (0 : ℝ) < N := by exact_mod_cast hd.cells
                                   positivity
  have hmesh := S.mesh
  have hw : s.dx = 2 / N := by rw [hmesh.width]; norm_num [IC.scktube]
  have hx : ∀ e ≤ N, c.x.val e = -1 + e * (2 / N) := by
    intro e he
    have := mesh_edges hmesh e he
    rw [hw, show s.x = c.x from hkc.like.setup.x] at this
    exact this
  have hcell : ∀ e, 1 ≤ e → e ≤ N → ∀ f < 3, ∀ n < p + 1, c.u.val n (e * 3 + f) = if n = 0 then stepVal (7 / 5) W e f else 0 := by
    intro e e1 e2 f hf3 n hn
    obtain ⟨v, hv1, hv2⟩ := S.data (e - 1) (by omega) f (by omega)
    rw [show e - 1 + 1 = e by omega, hNFc] at hv2
    rw [hB.basis] at hv1
    have hG := (hlib (p + 1) (by omega)).2.2
    obtain ⟨v', g1, g2, g3, g4, -⟩ := C24_projection lib p (hlib (p + 1) (by omega)).1 hG (c.x.val (e - 1))
      (c.x.val (e - 1 + 1)) ((IC.scktube xd wL.rho wL.v wL.p wR.rho wR.v wR.p).f (7 / 5)) f (fun _ => stepVal (7 / 5) W e f) (fun g hg => by
        rw [show e - 1 + 1 = e by omega, hx e e2, hx (e - 1) (by omega)]
        have hpt := tube_point (A := -1) hdx (Approx.gauss_nodes hG hg) e1 hxd
        show (IC.scktubeF xd wL.rho wL.v wL.p wR.rho wR.v wR.p (7 / 5) _)[f]? = _
        unfold IC.scktubeF
        by_cases he : e ≤ j
        · rw [if_pos (hpt.mpr he)]
          interval_cases f <;> simp [stepVal, hWdef, twoStates, he, Prim.cons, Prim.energy]; ring
        · rw [if_neg (fun h => he (hpt.mp h))]
          interval_cases f <;> simp [stepVal, hWdef, twoStates, he, Prim.cons, Prim.energy]; ring)
    rw [show e - 1 + 1 = e by omega] at g1
    rw [show e - 1 + 1 = e by omega] at hv1
    have hv1' : (Basis.init lib p).projection (c.x.val (e - 1)) (c.x.val e) ((IC.scktube xd wL.rho wL.v wL.p wR.rho wR.v wR.p).f (7 / 5)) f = .ok v := hv1
    rw [hv1'] at g1
    cases g1
    rw [hv2]
    have hC := g4 (C (stepVal (7 / 5) W e f)) (lt_of_le_of_lt degree_C_le (by exact_mod_cast Nat.succ_pos p)) (fun g _ => by simp)
    exact coeff_const hC.symm n hn
  have hcl : c.bcl = .lit "zerograd" := by rw [← hkc.like.setup.bcl, S.bc.1]; rfl
  have hcr : c.bcr = .lit "zerograd" := by rw [← hkc.like.setup.bcr, S.bc.2]; rfl
  have hW0 : W 0 = W 1 := by simp [hWdef, twoStates, hj1]
  have hWN : W (N + 1) = W N := by
    simp only [hWdef, twoStates]
    rw [if_neg (by omega), if_neg (by omega)]
  have hg : GhostStates W c := ⟨.inl ⟨hcl, hW0⟩, .inl ⟨hcr, by rw [S.same.2]; exact hWN⟩⟩
  have hfill := hg.fills (γ := 7 / 5) hB
  have hval : ∀ e ≤ N + 1, ∀ f < 3, ∀ n < p + 1, c.applyBc.u.val n (e * 3 + f) = if n = 0 then stepVal (7 / 5) W e f else 0 := by
    intro e he f hf n hn
    obtain ⟨e', k1, k2, k3, k4⟩ := hfill e (by rw [S.same.2]; exact he)
    rw [hNFc] at k3 k4
    rw [S.same.2] at k2
    rw [applyBc_val hB.NF hB.NE hB.cols, k3 f hf, hcell e' k1 k2 f hf n hn, k4 f hf]
  have hstep : Steps c.NE 3 (p + 1) (stepVal (7 / 5) W) c.applyBc.u.val := by
    rw [S.same.2]
    exact ⟨fun e he f hf => by rw [hval e he f hf 0 (by omega), if_pos rfl], fun n h0 hn e e1 e2 f hf => by
      rw [hval e (by omega) f hf n hn, if_neg (by omega)]⟩
  have hlim := limit_steps hB hNFc hfill (by rw [S.same.2]; omega) (fun e e1 e2 => by
      by_cases he : e ≤ j
      · left; intro f _; unfold stepVal; rw [show W (e - 1) = W e by simp only [hWdef, twoStates]; rw [if_pos (by omega), if_pos he]]
      · right; intro f _; unfold stepVal; rw [show W (e + 1) = W e by simp only [hWdef, twoStates]; rw [if_neg (by omega), if_neg he]])
    (by rw [← limiter_init_congr hkc.like.setup.basis]; exact S.limiter) c.applyBc s (Like.refl c).applyBc hstep S.limited
  rw [holdsStates_iff (Like.refl s) S.built.rows hNF, hkc.like.setup.NE]
  exact hlim.2

/-- **C102 (program).** A shock tube deck whose two states are joined by a contact at rest or a standing shock, with the diaphragm
at a face: with the solvers 'roe' and 'godunov' the program runs to the end, and every output set holds the left state up to the
diaphragm and the right state after it. Any order, scheme, limiter setting and thresholds; no enhancement; CFL step not below 1e-14. -/
theorem C102_program (hlib : lib.Ok) (junk : ℕ → ℝ) (hd : ValidDeck lib ft d p N (IC.scktube xd wL.rho wL.v wL.p wR.rho wR.v wR.p))
    (hsys : d.system = "euler".toList) (hrs : String.ofList d.riemann ≠ "rusanov") (hen : d.enhance = [])
    {j : ℕ} (hj1 : 1 ≤ j) (hj : j < N) (hxd : xd = -1 + j * (2 / N)) (hL : wL.Phys) (hR : wR.Phys) (hst : Standing (7 / 5) wL wR)
    (hn : 2 ≤ d.nout) (hT : 0 ≤ d.finaltime)
    (hcL : 1 / 10 ^ 14 ≤ 2 / N * d.cfl / ((|wL.v| + wL.c (7 / 5)) * (2 * p + 1)))
    (hcR : 1 / 10 ^ 14 ≤ 2 / N * d.cfl / ((|wR.v| + wR.c (7 / 5)) * (2 * p + 1)))
    (hft : ∀ x, '\n' ∉ ft.fmt x) {fs : Files} {deckname : Str} (hparse : Deck.init.parser ft fs deckname = .ok d) :
    ∃ s lm, start lib ft junk d = .ok (s, lm) ∧
    (∀ k, ∀ o ∈ (integrate ⟨residual, lm.limit⟩ d.rkDeck s k).log, ∀ e, 1 ≤ e → e ≤ N → ∀ f : Fin 3,
      cellPoly o.sol e f = C (if e ≤ j then wL.cons (7 / 5) f else wR.cons (7 / 5) f)) ∧
    ∃ k₀, ∀ k, k₀ ≤ k → (program lib ft junk fs deckname k).2 = .done ∧ program lib ft junk fs deckname k = program lib ft junk fs deckname k₀ ∧
      ∃ o, (integrate ⟨residual, lm.limit⟩ d.rkDeck s k).log.getLast? = some o ∧ o.sol.t = d.finaltime ∧
        (program lib ft junk fs deckname k).1 (nameOf "rho" o.nout) = some (fieldText ft o.sol 0) := by
  obtain ⟨pc, s, lm, hc, hstart, S⟩ := C69_starts hlib junk hd
  have hγ1 : (1 : ℝ) < 7 / 5 := by norm_num
  have hphys : CodePhysics (7 / 5) "euler".toList d.riemann s := hsys ▸ S.physics
  obtain ⟨hkw, hNF⟩ := hphys.euler rfl
  have h0 := tube_start hlib hd hsys hj1 hj hxd S
  set W := twoStates wL wR j with hWdef
  have hW : ∀ e ≤ s.NE + 1, (W e).Phys := fun e _ => by simp only [hWdef, twoStates]; split_ifs <;> assumption
  have hstand : ∀ i ≤ s.NE, Standing (7 / 5) (W i) (W (i + 1)) := fun i _ => by
    simp only [hWdef, twoStates]
    split_ifs with h1 h2
    · exact .inl rfl
    · exact hst
    · omega
    · exact .inl rfl
  have hg : GhostStates W s := by
    refine ⟨.inl ⟨S.bc.1, by simp [hWdef, twoStates, hj1]⟩, .inl ⟨S.bc.2, ?_⟩⟩
    rw [S.NE]
    simp only [hWdef, twoStates]
    rw [if_neg (by omega), if_neg (by omega)]
  have hens : s.enhance = none := by
    have := S.enhance
    rw [hen] at this
    unfold enhancementOf at this
    rw [if_pos rfl] at this
    exact (Except.ok.inj this).symm
  have hlim := limit_steps S.built hNF (hg.fills (γ := 7 / 5) S.built) (by rw [S.NE]; omega) (fun e e1 e2 => by
      by_cases he : e ≤ j
      · left; intro f _; unfold stepVal; rw [show W (e - 1) = W e by simp only [hWdef, twoStates]; rw [if_pos (by omega), if_pos he]]
      · right; intro f _; unfold stepVal; rw [show W (e + 1) = W e by simp only [hWdef, twoStates]; rw [if_neg (by omega), if_neg he]])
    S.limiter
  have inv := (standing_invariant hγ1 S.built hphys hrs hens hg hW hstand lm.limit hlim).and (kin_invariant S.built S.physics S.limiter)
  have hprog : Progress (K := ℝ) ⟨residual, lm.limit⟩ d.cfl _ _ _ :=
    { inv with
      limOk := fun a ha => limit_ok S.built S.physics S.limiter S.works ha.2
      resOk := fun a ha => by
        obtain ⟨F, hF, -⟩ := standing_residual hγ1 S.built hphys hrs hens hg hW hstand ha.1.1 ha.1.2
        exact ⟨_, _, hF⟩
      dtOk := fun a ha => by
        have hsa := ha.1.1.setup
        have hb := ha.1.1.built S.built
        obtain ⟨v, h1, h2, i, hi, h3⟩ := C46_bound hγ1 (String.ofList d.riemann) a.u (N + 2) (by omega)
          (by rw [hb.cols, hsa.NE, hsa.NF, S.NE, hNF]) W (fun i hi => ⟨hW i (by rw [S.NE]; omega), fun k => by
            rw [ha.1.2.mean i (by rw [S.NE]; omega) k k.2]
            simp [stepVal]⟩)
        have hpos : 0 < v := by
          rw [← h3]
          have hwi := hW i (by rw [S.NE]; omega)
          exact add_pos_of_nonneg_of_pos (abs_nonneg _) (Real.sqrt_pos.mpr (div_pos (mul_pos (by norm_num) hwi.2) hwi.1))
        have hden : v * (2 * (a.basis.p : ℝ) + 1) ≠ 0 := by positivity
        refine ⟨.fin (a.dx * d.cfl / (v * (2 * (a.basis.p : ℝ) + 1))), ?_, ?_⟩
        · unfold cflTimeStep
          rw [hsa.kw, hkw, h1]
          show (if _ then _ else _) = _
          rw [if_neg hden]
        · unfold sanityCheckDt
          simp only
          rw [if_neg]
          rw [not_lt, hsa.dx, hb.basis, S.mesh.width, ← h3]
          have hAB : (IC.scktube xd wL.rho wL.v wL.p wR.rho wR.v wR.p).B - (IC.scktube xd wL.rho wL.v wL.p wR.rho wR.v wR.p).A = (2 : ℝ) := by norm_num [IC.scktube]
          rw [hAB]
          simp only [hWdef, twoStates]
          split_ifs
          · exact hcL
          · exact hcR }
  have hs0 : (Like s s ∧ Steps s.NE 3 (p + 1) (stepVal (7 / 5) W) s.u.val) ∧ Kin s s :=
    ⟨⟨Like.refl s, (holdsStates_iff (Like.refl s) S.built.rows hNF W).mp h0⟩, Kin.refl s⟩
  refine ⟨s, lm, hstart, ?_, ?_⟩
  · intro k o ho e e1 e2 f
    have h1 := (inv.run d.rkDeck (schemeFor d.rkDeck.rk) hs0 k).2 o ho
    have h2 := ((holdsStates_iff h1.1.1 S.built.rows hNF W).mpr h1.1.2).2 e e1 (by rw [h1.1.1.setup.NE, S.NE]; exact e2) f
    rw [h2]
    simp only [hWdef, twoStates]
    split_ifs <;> rfl
  · have := program_finishes hlib junk hd hn hT hft hparse hstart S.clock.1 hprog hs0
    rw [if_pos hsys] at this
    exact this

end Tube

/-! ### Examples -/

/-- Upstream of a standing shock of Mach number 2. -/
noncomputable def Ex.up : Prim := ⟨3, 14 / 5, 21 / 5⟩

/-- Downstream. -/
noncomputable def Ex.down : Prim := ⟨8, 21 / 20, 189 / 10⟩

lemma Ex.up_c : Ex.up.c (7 / 5) = 7 / 5 := by
  unfold Prim.c Ex.up
  rw [show (7 / 5 * (21 / 5) / 3 : ℝ) = (7 / 5) ^ 2 by norm_num, Real.sqrt_sq (by norm_num)]

lemma Ex.down_c : 21 / 20 ≤ Ex.down.c (7 / 5) ∧ Ex.down.c (7 / 5) ≤ 2 := by
  unfold Prim.c Ex.down
  exact ⟨Real.le_sqrt_of_sq_le (by norm_num), Real.sqrt_le_iff.mpr ⟨by norm_num, by norm_num⟩⟩

lemma Ex.shock_standing : StandingShock (7 / 5) Ex.up Ex.down := by
  refine ⟨fun k => ?_, .inl ⟨?_, ?_⟩⟩
  · fin_cases k <;> norm_num [Prim.flux, Prim.cons, Prim.energy, Ex.up, Ex.down]
  · rw [Ex.up_c]; norm_num [Ex.up]
  · exact Ex.down_c.1

/-- Both solvers find the flux of the shock: mass flux 42/5. -/
example : ∃ F, FluxAt (7 / 5) "roe" Ex.up Ex.down F ∧ FluxAt (7 / 5) "godunov" Ex.up Ex.down F ∧ F 0 = 42 / 5 :=
  ⟨_, (C102_flux (by norm_num) (by decide) (by norm_num [Prim.Phys, Ex.up]) (by norm_num [Prim.Phys, Ex.down]) (.inr (.inr Ex.shock_standing))).1,
    (C102_flux (by norm_num) (by decide) (by norm_num [Prim.Phys, Ex.up]) (by norm_num [Prim.Phys, Ex.down]) (.inr (.inr Ex.shock_standing))).1,
    by norm_num [Prim.flux, Ex.up]⟩

/-- 'rusanov' does not. -/
example : ¬ FluxAt (7 / 5) "rusanov" Ex.up Ex.down (Ex.up.flux (7 / 5)) := by
  rw [C102_rusanov (by norm_num) (by norm_num [Prim.Phys, Ex.up]) (by norm_num [Prim.Phys, Ex.down]) (standing_flux (.inr (.inr Ex.shock_standing)))]
  intro h
  have := congrArg Prim.rho h
  norm_num [Ex.up, Ex.down] at this

/-- The shock the wrong way round, from subsonic to supersonic: Roe's solver does not keep it. -/
example : ¬ FluxAt (7 / 5) "roe" Ex.down Ex.up (Ex.down.flux (7 / 5)) := by
  refine C102_expansion (by norm_num) (by decide) (by decide) (by norm_num [Prim.Phys, Ex.down]) (by norm_num [Prim.Phys, Ex.up]) (fun k => ?_)
    (by norm_num [Ex.down]) ?_ (by rw [Ex.up_c]; norm_num [Ex.up])
  · have := Ex.shock_standing.1 k
    rw [zero_mul] at this ⊢
    linarith
  · unfold Prim.c Ex.down
    exact Real.lt_sqrt_of_sq_lt (by norm_num)

/-- Three cells between open ends, the shock right of the first cell. -/
noncomputable def Ex.shockCells (p : ℕ) (riemann : Str) : Sol ℝ :=
  { Ex.solR p with
    kw := Euler.physics (7 / 5) (String.ofList riemann), NF := 3, bcl := .lit "zerograd", bcr := .lit "zerograd"
    u := ⟨p + 1, 15, fun n c => if n = 0 then stepVal (7 / 5) (twoStates Ex.up Ex.down 1) (c / 3) (c % 3) else 0⟩ }

lemma Ex.shockCells_built (p : ℕ) (riemann : Str) : (Ex.shockCells p riemann).Built realGauss p where
  nodes := (Ex.solR_built p).nodes
  gauss := (Ex.solR_built p).gauss
  basis := rfl
  NF := Nat.succ_pos 2
  NE := Nat.succ_pos 2
  rows := rfl
  cols := rfl
  dx := (Ex.solR_built p).dx
  minv := (Ex.solR_built p).minv
  enh := fun en h => by cases h

lemma Ex.shockCells_physics (p : ℕ) (riemann : Str) : CodePhysics (7 / 5) "euler".toList riemann (Ex.shockCells p riemann) :=
  ⟨by unfold manipulationFunctions; rw [if_pos rfl]; rfl, by unfold manipulationFunctions; rw [if_pos rfl]; rfl⟩

lemma Ex.shockCells_holds (p : ℕ) (riemann : Str) : HoldsStates (7 / 5) (twoStates Ex.up Ex.down 1) (Ex.shockCells p riemann) := by
  rw [holdsStates_iff (Like.refl _) (Ex.shockCells_built p riemann).rows rfl]
  refine ⟨fun e _ f hf => ?_, fun n h0 _ e _ _ f hf => ?_⟩
  · show (if (0 : ℕ) = 0 then stepVal (7 / 5) _ ((e * 3 + f) / 3) ((e * 3 + f) % 3) else 0) = _
    rw [if_pos rfl, show (e * 3 + f) / 3 = e by omega, show (e * 3 + f) % 3 = f by omega]
  · show (if n = 0 then stepVal (7 / 5) _ ((e * 3 + f) / 3) ((e * 3 + f) % 3) else 0) = _
    rw [if_neg (by omega)]

/-- C102 applies to these cells with the limiter on: every output holds the shock. -/
example (p : ℕ) (deck : RkDeck ℝ) (k : ℕ) : ∃ lm, Limiter.init "adaptive_hr" (Ex.shockCells p "roe".toList) = .ok (some lm) ∧
    ∀ o ∈ (integrate ⟨residual, Limiter.limit (some lm)⟩ deck (Ex.shockCells p "roe".toList) k).log, HoldsStates (7 / 5) (twoStates Ex.up Ex.down 1) o.sol := by
  obtain ⟨lm, hi⟩ := C60_init (Ex.shockCells_built p "roe".toList)
  refine ⟨lm, hi, (C102_run (by norm_num) (Ex.shockCells_built p _) (Ex.shockCells_physics p _) (by decide) rfl ⟨.inl ⟨rfl, rfl⟩, .inl ⟨rfl, rfl⟩⟩ ?_ ?_
    (Ex.shockCells_holds p _) hi (.inr ⟨by norm_num [Ex.shockCells, Ex.solR], ?_⟩) deck k).2⟩
  · intro e _
    unfold twoStates
    split_ifs <;> norm_num [Prim.Phys, Ex.up, Ex.down]
  · intro i _
    unfold twoStates
    split_ifs
    · exact .inl rfl
    · exact .inr (.inr Ex.shock_standing)
    · omega
    · exact .inl rfl
  · intro e h1 _
    unfold twoStates
    by_cases he : e ≤ 1
    · left; rw [if_pos (by omega), if_pos he]
    · right; rw [if_neg (by omega), if_neg he]

/-- With 'rusanov' the first cell changes. -/
example (p : ℕ) : ∃ F, residual (Ex.shockCells p "rusanov".toList) = .ok ((Ex.shockCells p "rusanov".toList).applyBc, F) ∧ ∃ f : Fin 3, F.val 0 (1 * 3 + f) ≠ 0 := by
  refine C102_blurred (by norm_num) (Ex.shockCells_built p _) (Ex.shockCells_physics p _) rfl (W := twoStates Ex.up Ex.down 1) ⟨.inl ⟨rfl, rfl⟩, .inl ⟨rfl, rfl⟩⟩ ?_
    (Ex.shockCells_holds p _) le_rfl (by norm_num [Ex.shockCells, Ex.solR]) rfl (.inr (.inr Ex.shock_standing)) ?_
  · intro e _
    unfold twoStates
    split_ifs <;> norm_num [Prim.Phys, Ex.up, Ex.down]
  · intro h
    have := congrArg Prim.rho h
    norm_num [twoStates, Ex.up, Ex.down] at this

/-- The gas of `Ex.contact` at rest. -/
noncomputable def Ex.restGas (p : ℕ) (riemann : Str) : Sol ℝ :=
  { Ex.contact p riemann with
    u := ⟨p + 1, 15, fun n c => drift 0 (if n = 0 then 5 / 2 else 0) (if n = 0 then 2 + (c / 3 : ℕ) else if n = 1 then 1 else 0) (c % 3)⟩ }

lemma Ex.restGas_built (p : ℕ) (riemann : Str) : (Ex.restGas p riemann).Built realGauss p where
  nodes := (Ex.solR_built p).nodes
  gauss := (Ex.solR_built p).gauss
  basis := rfl
  NF := Nat.succ_pos 2
  NE := Nat.succ_pos 2
  rows := rfl
  cols := rfl
  dx := (Ex.solR_built p).dx
  minv := (Ex.solR_built p).minv
  enh := fun en h => by cases h

lemma Ex.restGas_val (p : ℕ) (riemann : Str) (n e f : ℕ) (hf : f < 3) : (Ex.restGas p riemann).u.val n (e * 3 + f) =
    drift 0 (if n = 0 then 5 / 2 else 0) (if n = 0 then 2 + (e : ℝ) else if n = 1 then 1 else 0) f := by
  show drift 0 _ (if n = 0 then 2 + (((e * 3 + f) / 3 : ℕ) : ℝ) else if n = 1 then 1 else 0) ((e * 3 + f) % 3) = _
  rw [show (e * 3 + f) / 3 = e by omega, show (e * 3 + f) % 3 = f by omega]

/-- C102 applies to this gas: its density, 3, 4, 5 with slopes, stays. -/
example (p : ℕ) (deck : RkDeck ℝ) (k : ℕ) (e : ℕ) (h1 : 1 ≤ e) (h2 : e ≤ 3) :
    (cellPoly (integrate ⟨residual, Limiter.limit none⟩ deck (Ex.restGas p "godunov".toList) k).sol e 0).eval 0 = 2 + e := by
  have hrho : ∀ e ξ, (cellPoly (Ex.restGas p "godunov".toList) e 0).eval ξ = 2 + e + if 1 ≤ p then ξ else 0 := by
    intro e ξ
    rw [← Ex.contact_rho p "godunov".toList e ξ]
    congr 1
    unfold cellPoly legSeries
    refine Finset.sum_congr rfl fun n _ => ?_
    show C ((Ex.restGas p "godunov".toList).u.val n (e * 3 + 0)) * _ = C ((Ex.contact p "godunov".toList).u.val n (e * 3 + 0)) * _
    rw [Ex.restGas_val _ _ _ _ _ (by norm_num), Ex.contact_val _ _ _ _ _ (by norm_num)]
    simp [drift]
  rw [(C102_rest (by norm_num : (1 : ℝ) < 7 / 5) (Ex.restGas_built p "godunov".toList)
    ⟨by unfold manipulationFunctions; rw [if_pos rfl]; rfl, by unfold manipulationFunctions; rw [if_pos rfl]; rfl⟩ (by decide)
    ⟨.inl ⟨rfl, rfl⟩, .inl ⟨rfl, rfl⟩⟩ (fun en h => by cases h) one_pos ?_ ?_ deck k).1 e h1 h2 0 (by norm_num [Ex.restGas, Ex.contact]), hrho]
  · simp
  · rw [sameVP_iff (Like.refl _) (Ex.restGas_built p _).rows rfl]
    intro n _ e _ _ f hf
    have hf : f < 3 := hf
    have e1 := Ex.restGas_val p "godunov".toList n e f hf
    have e2 := Ex.restGas_val p "godunov".toList n e 0 (by norm_num)
    show (Ex.restGas p "godunov".toList).u.val n (e * 3 + f) = drift 0 _ ((Ex.restGas p "godunov".toList).u.val n (e * 3 + 0)) f
    rw [e1, e2]
    norm_num [drift]
  · intro e h1 _ ξ hξ
    have he : (1 : ℝ) ≤ e := by exact_mod_cast h1
    rw [hrho]
    split_ifs
    · linarith [hξ.1]
    · linarith

/-- The deck of a standing shock. -/
def Ex.shockDeck : Str := "#PDE system\neuler\n#RK scheme\nrk4\n#riemann solver\nroe\n#initial condition\nscktube 10 0.2 3.0 2.8 4.2 8.0 1.05 18.9\n#number of outputs\n2\n#final time\n2.0\n#Courant-Friedrichs-Lewy condition\n0.5\n#order\n2\n#limiting\nadaptive_hr\n#sensor thresholds\n0.01 0.01".toList

lemma Ex.shockDeck_fits : deckFits Ex.shockDeck 2 10 "rk4".toList "roe".toList (1 / 2) (1 / 5) 3 (14 / 5) (21 / 5) 8 (21 / 20) (189 / 10) = true := by decide +kernel

/-- The program with this deck: the run ends, and all outputs hold the shock right of cell 6. -/
example : ∃ (d : Deck ℝ) (s : Sol ℝ) (lm : Limiter ℝ), Deck.init.parser Ex.decReal (Ex.only Ex.shockDeck) Ex.deckname = .ok d ∧
    (∀ k, ∀ o ∈ (integrate ⟨residual, lm.limit⟩ d.rkDeck s k).log, cellPoly o.sol 6 0 = C 3 ∧ cellPoly o.sol 7 0 = C 8) ∧
    ∃ k₀, ∀ k, k₀ ≤ k → (program realGauss Ex.decReal (fun _ => 0) (Ex.only Ex.shockDeck) Ex.deckname k).2 = .done := by
  obtain ⟨d, h1, T⟩ := deckFits_sound (lib := realGauss) Ex.decReal_reads Ex.shockDeck_fits (Ex.only_self Ex.shockDeck)
  have hv : ValidDeck realGauss Ex.decReal d 2 10 (IC.scktube (1 / 5) Ex.up.rho Ex.up.v Ex.up.p Ex.down.rho Ex.down.v Ex.down.p) := by
    have := T.valid
    push_cast at this
    exact this
  obtain ⟨s, lm, -, h2, k₀, h3⟩ := C102_program realGauss_ok (fun _ => 0) hv T.system (by rw [T.riemann]; decide) T.enhance (j := 6) (by norm_num)
    (by norm_num) (by norm_num) (by norm_num [Prim.Phys, Ex.up]) (by norm_num [Prim.Phys, Ex.down]) (.inr (.inr Ex.shock_standing))
    (by rw [T.nout]) T.finaltime.le (by rw [T.cfl, Ex.up_c]; norm_num [Ex.up, abs_of_pos]) (by
      rw [T.cfl]
      have hc := Ex.down_c
      have hv : |Ex.down.v| = 21 / 20 := by norm_num [Ex.down, abs_of_pos]
      rw [hv, le_div_iff₀ (by push_cast; nlinarith)]
      push_cast
      nlinarith) Ex.decReal_newline h1
  refine ⟨d, s, lm, h1, fun k o ho => ⟨?_, ?_⟩, k₀, fun k hk => (h3 k hk).1⟩
  · have := h2 k o ho 6 (by norm_num) (by norm_num) 0
    rw [if_pos (by norm_num)] at this
    exact this
  · have := h2 k o ho 7 (by norm_num) (by norm_num) 0
    rw [if_neg (by norm_num)] at this
    exact this

end Dg1d.Props
