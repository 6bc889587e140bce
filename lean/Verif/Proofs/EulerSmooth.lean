import Mathlib.Analysis.Analytic.Constructions
import Mathlib.Analysis.Calculus.ContDiff.Basic
import Mathlib.Analysis.InnerProductSpace.Calculus
import Mathlib.Analysis.SpecialFunctions.Sqrt
import Mathlib.Analysis.Calculus.Deriv.Abs
import Verif.Proofs.Euler

/-! Helper lemmas: the Euler fluxes are analytic away from vacuum and from switches of the wave speeds. -/

open Filter Topology

namespace Dg1d.Euler

section
variable {X : Type*} [NormedAddCommGroup X] [NormedSpace ℝ X] {x : X} {g h : X → ℝ}

lemma an_sqrt (hg : AnalyticAt ℝ g x) (h0 : g x ≠ 0) : AnalyticAt ℝ (fun y => √(g y)) x := by
  have h1 : ContDiffAt ℝ ⊤ Real.sqrt (g x) := Real.contDiffAt_sqrt h0
  exact AnalyticAt.comp (g := Real.sqrt) (f := g) h1.analyticAt hg

lemma an_abs (hg : AnalyticAt ℝ g x) (h0 : g x ≠ 0) : AnalyticAt ℝ (fun y => |g y|) x := by
  rcases lt_or_gt_of_ne h0 with h | h
  · refine hg.neg.congr ?_
    filter_upwards [hg.continuousAt.eventually (gt_mem_nhds h)] with y hy
    rw [abs_of_neg hy]; rfl
  · refine hg.congr ?_
    filter_upwards [hg.continuousAt.eventually (lt_mem_nhds h)] with y hy
    rw [abs_of_pos hy]

lemma an_max (hg : AnalyticAt ℝ g x) (hh : AnalyticAt ℝ h x) (h0 : g x ≠ h x) : AnalyticAt ℝ (fun y => max (g y) (h y)) x := by
  rcases lt_or_gt_of_ne h0 with h1 | h1
  · refine hh.congr ?_
    filter_upwards [hg.continuousAt.eventually_lt hh.continuousAt h1] with y hy
    rw [max_eq_right hy.le]
  · refine hg.congr ?_
    filter_upwards [hh.continuousAt.eventually_lt hg.continuousAt h1] with y hy
    rw [max_eq_left hy.le]

/-- The components of a state depending on a parameter are analytic. -/
structure AnSt (S : X → St) (x : X) : Prop where
  rho : AnalyticAt ℝ (fun y => (S y).rho) x
  m : AnalyticAt ℝ (fun y => (S y).m) x
  E : AnalyticAt ℝ (fun y => (S y).E) x

variable {S : X → St} {γ : ℝ}

lemma AnSt.v (hS : AnSt S x) (h : (S x).rho ≠ 0) : AnalyticAt ℝ (fun y => (S y).v) x := hS.m.div hS.rho h

lemma AnSt.p (hS : AnSt S x) (h : (S x).rho ≠ 0) : AnalyticAt ℝ (fun y => (S y).p γ) x := by
  unfold St.p
  exact analyticAt_const.mul (hS.E.sub (((analyticAt_const.mul hS.rho).mul (hS.v h)).mul (hS.v h)))

lemma AnSt.a (hS : AnSt S x) (h : (S x).rho ≠ 0) (hp : γ * (S x).p γ / (S x).rho ≠ 0) : AnalyticAt ℝ (fun y => (S y).a γ) x := by
  unfold St.a
  exact an_sqrt ((analyticAt_const.mul (hS.p h)).div hS.rho h) hp

lemma AnSt.H (hS : AnSt S x) (h : (S x).rho ≠ 0) : AnalyticAt ℝ (fun y => (S y).H γ) x := by
  unfold St.H
  exact (hS.E.add (hS.p h)).div hS.rho h

lemma AnSt.vec (hS : AnSt S x) (k : Fin 3) : AnalyticAt ℝ (fun y => vecOf (S y) k) x := by
  fin_cases k
  · exact hS.rho
  · exact hS.m
  · exact hS.E

lemma AnSt.flux (hS : AnSt S x) (h : (S x).rho ≠ 0) : AnSt (fun y => flux1 γ (S y)) x where
  rho := hS.m
  m := ((hS.rho.mul (hS.v h)).mul (hS.v h)).add (hS.p h)
  E := (hS.E.add (hS.p h)).mul (hS.v h)

variable {L R : X → St}

lemma AnSt.rusanov (hL : AnSt L x) (hR : AnSt R x) (l0 : (L x).rho ≠ 0) (r0 : (R x).rho ≠ 0)
    (la : γ * (L x).p γ / (L x).rho ≠ 0) (ra : γ * (R x).p γ / (R x).rho ≠ 0) (lv : (L x).v ≠ 0) (rv : (R x).v ≠ 0)
    (hne : |(L x).v| + (L x).a γ ≠ |(R x).v| + (R x).a γ) : AnSt (fun y => rusanov1 γ (L y) (R y)) x := by
  have hmax := an_max ((an_abs (hL.v l0) lv).add (hL.a l0 la)) ((an_abs (hR.v r0) rv).add (hR.a r0 ra)) hne
  have vL := hL.v l0
  have vR := hR.v r0
  have pL := hL.p (γ := γ) l0
  have pR := hR.p (γ := γ) r0
  exact
    { rho := analyticAt_const.mul (((hL.rho.mul vL).add (hR.rho.mul vR)).sub (hmax.mul (hR.rho.sub hL.rho)))
      m := analyticAt_const.mul ((((((hL.rho.mul vL).mul vL).add pL).add ((hR.rho.mul vR).mul vR)).add pR).sub (hmax.mul ((hR.rho.mul vR).sub (hL.rho.mul vL))))
      E := analyticAt_const.mul ((((hL.E.add pL).mul vL).add ((hR.E.add pR).mul vR)).sub (hmax.mul (hR.E.sub hL.E))) }

lemma an_entropyFix {ws cL cR : X → ℝ} (hw : AnalyticAt ℝ ws x) (hl : AnalyticAt ℝ cL x) (hr : AnalyticAt ℝ cR x) (h0 : 0 < ws x)
    (h : 2 * (cR x - cL x) < ws x) : AnalyticAt ℝ (fun y => entropyFix (ws y) (cL y) (cR y)) x := by
  refine hw.congr ?_
  have h1 : ∀ᶠ y in 𝓝 x, 2 * (cR y - cL y) < ws y :=
    ((analyticAt_const.mul (hr.sub hl)).continuousAt.eventually_lt hw.continuousAt h)
  filter_upwards [h1, hw.continuousAt.eventually (lt_mem_nhds h0)] with y hy hy0
  unfold entropyFix
  simp only
  rw [if_neg]
  rw [not_lt]
  rcases max_cases 0 (4 * (cR y - cL y)) with ⟨h, -⟩ | ⟨h, -⟩ <;> rw [h] <;> linarith

lemma an_fixedSpeed {ws cL cR : X → ℝ} (hL : AnSt L x) (hR : AnSt R x) (l0 : 0 < (L x).rho) (r0 : 0 < (R x).rho)
    (la : γ * (L x).p γ / (L x).rho ≠ 0) (ra : γ * (R x).p γ / (R x).rho ≠ 0)
    (hw : AnalyticAt ℝ ws x) (hl : AnalyticAt ℝ cL x) (hr : AnalyticAt ℝ cR x) (h0 : 0 < ws x)
    (h : 2 * (cR x - cL x) < ws x) : AnalyticAt ℝ (fun y => fixedSpeed γ (L y) (R y) (ws y) (cL y) (cR y)) x := by
  have hneg : ∀ {s : X → St}, AnSt s x → 0 < (s x).rho → γ * (s x).p γ / (s x).rho < 0 → ∀ᶠ y in 𝓝 x, ¬ (s y).IsReal γ := by
    intro s hs s0 hlt
    have := ((analyticAt_const (v := γ)).mul (hs.p (γ := γ) s0.ne')).div hs.rho s0.ne'
    filter_upwards [this.continuousAt.eventually (gt_mem_nhds hlt)] with y hy hreal
    exact absurd hreal.2 (not_le.mpr hy)
  have hpos : ∀ {s : X → St}, AnSt s x → 0 < (s x).rho → 0 < γ * (s x).p γ / (s x).rho → ∀ᶠ y in 𝓝 x, (s y).IsReal γ := by
    intro s hs s0 hlt
    have := ((analyticAt_const (v := γ)).mul (hs.p (γ := γ) s0.ne')).div hs.rho s0.ne'
    filter_upwards [this.continuousAt.eventually (lt_mem_nhds hlt), hs.rho.continuousAt.eventually (lt_mem_nhds s0)] with y hy hy'
    exact ⟨hy'.ne', hy.le⟩
  rcases lt_or_gt_of_ne la with hla | hla
  · refine hw.congr ?_
    filter_upwards [hneg hL l0 hla] with y hy
    unfold fixedSpeed
    rw [if_neg fun h => hy h.1]
  rcases lt_or_gt_of_ne ra with hra | hra
  · refine hw.congr ?_
    filter_upwards [hneg hR r0 hra] with y hy
    unfold fixedSpeed
    rw [if_neg fun h => hy h.2]
  refine (an_entropyFix hw hl hr h0 h).congr ?_
  filter_upwards [hpos hL l0 hla, hpos hR r0 hra] with y h1 h2
  unfold fixedSpeed
  rw [if_pos ⟨h1, h2⟩]

lemma AnSt.roe (hL : AnSt L x) (hR : AnSt R x) (l0 : 0 < (L x).rho) (r0 : 0 < (R x).rho)
    (la : γ * (L x).p γ / (L x).rho ≠ 0) (ra : γ * (R x).p γ / (R x).rho ≠ 0)
    (ha : 0 < (γ - 1) * ((roeAverages γ (L x) (R x)).2.2.1 - 1 / 2 * (roeAverages γ (L x) (R x)).2.1 * (roeAverages γ (L x) (R x)).2.1))
    (hv : (roeAverages γ (L x) (R x)).2.1 ≠ 0)
    (hm0 : (roeAverages γ (L x) (R x)).2.1 - (roeAverages γ (L x) (R x)).2.2.2 ≠ 0)
    (hp0 : (roeAverages γ (L x) (R x)).2.1 + (roeAverages γ (L x) (R x)).2.2.2 ≠ 0)
    (hm : 2 * (((R x).v - (R x).a γ) - ((L x).v - (L x).a γ)) < |(roeAverages γ (L x) (R x)).2.1 - (roeAverages γ (L x) (R x)).2.2.2|)
    (hp : 2 * (((R x).v + (R x).a γ) - ((L x).v + (L x).a γ)) < |(roeAverages γ (L x) (R x)).2.1 + (roeAverages γ (L x) (R x)).2.2.2|) :
    AnSt (fun y => roe1 γ (L y) (R y)) x := by
  have vL := hL.v l0.ne'
  have vR := hR.v r0.ne'
  have pL := hL.p (γ := γ) l0.ne'
  have pR := hR.p (γ := γ) r0.ne'
  have aL := hL.a l0.ne' la
  have aR := hR.a r0.ne' ra
  have HL := hL.H (γ := γ) l0.ne'
  have HR := hR.H (γ := γ) r0.ne'
  have hRT : AnalyticAt ℝ (fun y => √((R y).rho / (L y).rho)) x := an_sqrt (hR.rho.div hL.rho l0.ne') (div_pos r0 l0).ne'
  have hden : 1 + √((R x).rho / (L x).rho) ≠ 0 := by positivity
  have q1 : AnalyticAt ℝ (fun y => (roeAverages γ (L y) (R y)).1) x := hRT.mul hL.rho
  have q2 : AnalyticAt ℝ (fun y => (roeAverages γ (L y) (R y)).2.1) x := (vL.add (hRT.mul vR)).div (analyticAt_const.add hRT) hden
  have q3 : AnalyticAt ℝ (fun y => (roeAverages γ (L y) (R y)).2.2.1) x := (HL.add (hRT.mul HR)).div (analyticAt_const.add hRT) hden
  have q4 : AnalyticAt ℝ (fun y => (roeAverages γ (L y) (R y)).2.2.2) x :=
    an_sqrt (analyticAt_const.mul (q3.sub ((analyticAt_const.mul q2).mul q2))) ha.ne'
  have ha0 : (roeAverages γ (L x) (R x)).2.2.2 ≠ 0 := (Real.sqrt_pos.mpr ha).ne'
  have w0 := an_fixedSpeed hL hR l0 r0 la ra (an_abs (q2.sub q4) hm0) (vL.sub aL) (vR.sub aR) (abs_pos.mpr hm0) hm
  have w2 := an_fixedSpeed hL hR l0 r0 la ra (an_abs (q2.add q4) hp0) (vL.add aL) (vR.add aR) (abs_pos.mpr hp0) hp
  have w1 := an_abs q2 hv
  have dp := pR.sub pL
  have d0 := (w0.mul (dp.sub ((q1.mul q4).mul (vR.sub vL)))).div ((analyticAt_const (v := (2 : ℝ)).mul q4).mul q4)
    (show 2 * (roeAverages γ (L x) (R x)).2.2.2 * (roeAverages γ (L x) (R x)).2.2.2 ≠ 0 by positivity)
  have d1 := w1.mul ((hR.rho.sub hL.rho).sub (dp.div (q4.mul q4) (mul_ne_zero ha0 ha0)))
  have d2 := (w2.mul (dp.add ((q1.mul q4).mul (vR.sub vL)))).div ((analyticAt_const (v := (2 : ℝ)).mul q4).mul q4)
    (show 2 * (roeAverages γ (L x) (R x)).2.2.2 * (roeAverages γ (L x) (R x)).2.2.2 ≠ 0 by positivity)
  exact
    { rho := (analyticAt_const.mul ((hL.rho.mul vL).add (hR.rho.mul vR))).sub
        (analyticAt_const.mul (((d0.mul analyticAt_const).add (d1.mul analyticAt_const)).add (d2.mul analyticAt_const)))
      m := (analyticAt_const.mul (((((hL.rho.mul vL).mul vL).add pL).add ((hR.rho.mul vR).mul vR)).add pR)).sub
        (analyticAt_const.mul (((d0.mul (q2.sub q4)).add (d1.mul q2)).add (d2.mul (q2.add q4))))
      E := (analyticAt_const.mul (((hL.E.add pL).mul vL).add ((hR.E.add pR).mul vR))).sub
        (analyticAt_const.mul (((d0.mul (q3.sub (q2.mul q4))).add (d1.mul ((analyticAt_const.mul q2).mul q2))).add (d2.mul (q3.add (q2.mul q4))))) }

end

lemma anSt_of (u : Fin 3 → ℝ) : AnSt stOf u where
  rho := (ContinuousLinearMap.proj (R := ℝ) (φ := fun _ : Fin 3 => ℝ) 0).analyticAt u
  m := (ContinuousLinearMap.proj (R := ℝ) (φ := fun _ : Fin 3 => ℝ) 1).analyticAt u
  E := (ContinuousLinearMap.proj (R := ℝ) (φ := fun _ : Fin 3 => ℝ) 2).analyticAt u

lemma anSt_fst (q : (Fin 3 → ℝ) × (Fin 3 → ℝ)) : AnSt (fun q : (Fin 3 → ℝ) × (Fin 3 → ℝ) => stOf q.1) q where
  rho := AnalyticAt.comp (g := fun u : Fin 3 → ℝ => u 0) (f := Prod.fst) (anSt_of q.1).rho analyticAt_fst
  m := AnalyticAt.comp (g := fun u : Fin 3 → ℝ => u 1) (f := Prod.fst) (anSt_of q.1).m analyticAt_fst
  E := AnalyticAt.comp (g := fun u : Fin 3 → ℝ => u 2) (f := Prod.fst) (anSt_of q.1).E analyticAt_fst

lemma anSt_snd (q : (Fin 3 → ℝ) × (Fin 3 → ℝ)) : AnSt (fun q : (Fin 3 → ℝ) × (Fin 3 → ℝ) => stOf q.2) q where
  rho := AnalyticAt.comp (g := fun u : Fin 3 → ℝ => u 0) (f := Prod.snd) (anSt_of q.2).rho analyticAt_snd
  m := AnalyticAt.comp (g := fun u : Fin 3 → ℝ => u 1) (f := Prod.snd) (anSt_of q.2).m analyticAt_snd
  E := AnalyticAt.comp (g := fun u : Fin 3 → ℝ => u 2) (f := Prod.snd) (anSt_of q.2).E analyticAt_snd

end Dg1d.Euler
