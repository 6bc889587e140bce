import Verif.Proofs.NearOrder
import Verif.Props.LocalError

/-! # Order of the schemes with rounded tables (C90) -/

set_option linter.unusedSectionVars false

namespace Dg1d.Props
open Spec Filter Topology

/-- **C90** What `integrate` runs for 'rk8' satisfies every order condition up to order 8 within 1e-16 (the table has 18 digits), and
for 'rk10' every condition up to order 10 within 1e-56 (60 digits). There are 200 rooted trees of order at most 8, 1202 of order at
most 10, and many more with ordered branches; all are covered. -/
theorem C90_near_order :
    NearOrder (tableOf "rk8").coeffs (tableOf "rk8").beta 8 (1 / 10 ^ 16) ∧
    NearOrder (tableOf "rk10").coeffs (tableOf "rk10").beta 10 (1 / 10 ^ 56) := by
  have e8 : tableOf "rk8" = rk8.map (fun q : ℚ => (q : ℝ)) := by simp [tableOf, schemeFor]
  have e10 : tableOf "rk10" = rk10.map (fun q : ℚ => (q : ℝ)) := by simp [tableOf, schemeFor]
  rw [e8, e10]
  constructor
  · have := OrderTable.near_of_ok (F := ℝ) (c := rk8Coeffs) (betas := rk8Betas) (N := 10 ^ 16) (p := 8) (by norm_num) (by decide +kernel)
      (rk8.map (fun q : ℚ => (q : ℝ))).beta (fun _ _ _ _ => rfl)
    exact_mod_cast this
  · have := OrderTable.near_of_ok (F := ℝ) (c := rk10Coeffs) (betas := rk10Betas) (N := 10 ^ 56) (p := 10) (by norm_num) (by decide +kernel)
      (rk10.map (fun q : ℚ => (q : ℝ))).beta (fun _ _ _ _ => rfl)
    exact_mod_cast this

/-- **C90** rk12 and rk14, lower orders only. Full statement: rk12 satisfies every condition up to order 12 and rk14 up to order 14.
Missing: orders 11, 12 of rk12 and 10 to 14 of rk14; their evaluation does not fit into the memory of the machine. -/
theorem C90_near_order_rk12_rk14_partial :
    NearOrder (tableOf "rk12").coeffs (tableOf "rk12").beta 10 (1 / 10 ^ 50) ∧
    NearOrder (tableOf "rk14").coeffs (tableOf "rk14").beta 9 (1 / 10 ^ 45) := by
  have e12 : tableOf "rk12" = rk12.map (fun q : ℚ => (q : ℝ)) := by simp [tableOf, schemeFor]
  have e14 : tableOf "rk14" = rk14.map (fun q : ℚ => (q : ℝ)) := by simp [tableOf, schemeFor]
  rw [e12, e14]
  constructor
  · have := OrderTable.near_of_ok (F := ℝ) (c := rk12Coeffs) (betas := rk12Betas) (N := 10 ^ 50) (p := 10) (by norm_num) (by decide +kernel)
      (rk12.map (fun q : ℚ => (q : ℝ))).beta (fun _ _ _ _ => rfl)
    exact_mod_cast this
  · have := OrderTable.near_of_ok (F := ℝ) (c := rk14Coeffs) (betas := rk14Betas) (N := 10 ^ 45) (p := 9) (by norm_num) (by decide +kernel)
      (rk14.map (fun q : ℚ => (q : ℝ))).beta (fun _ _ _ _ => rfl)
    exact_mod_cast this

/-- The path with `n + 1` vertices. -/
def pathTree : ℕ → RTree
  | 0 => .leaf
  | n + 1 => .graft .leaf (pathTree n)

lemma defect_rational (c a : List ℚ) (rows : List (List ℚ)) (h : Square c (padRows rows)) (t : RTree) (d : ℚ)
    (hd : d < |(c.zipWith (· * ·) (weightList c.length (padRows rows) t)).sum * (t.density : ℚ) - 1|) {p : ℕ} (hp : t.size ≤ p) {eps : ℝ} (he : eps ≤ d) :
    ¬ NearOrder ((Tableau.ofRows c a rows).map (fun q : ℚ => (q : ℝ))).coeffs ((Tableau.ofRows c a rows).map (fun q : ℚ => (q : ℝ))).beta p eps := by
  intro hn
  have h1 := hn t hp
  have h2 := weight_sum (Rat.castHom ℝ) c (padRows rows) h _ (fun k _ j _ => hbeta_cast rows k j c a) t
  have e : ((Tableau.ofRows c a rows).map (fun q : ℚ => (q : ℝ))).coeffs = c.map (Rat.castHom ℝ) := rfl
  rw [e, h2] at h1
  have h3 := (Rat.cast_lt (K := ℝ)).mpr hd
  rw [Rat.cast_abs, Rat.cast_sub, Rat.cast_one] at h3
  simp only [Rat.coe_castHom] at h1
  linarith

/-- **C90** No scheme has an order higher than its name says: with the next order the conditions fail by far more than rounding (by
more than 9/10 for rk3 and rk4, 2 for rk6, 9/100 for rk5, 1/50 for rk8, 42 for rk10). -/
theorem C90_sharp (rk : String) (q : ℕ) (d : ℝ) (h : (rk, q, d) ∈ [("rk3", 3, (9 / 10 : ℝ)), ("rk4", 4, 9 / 10), ("low_storage_rk4", 4, 9 / 10), ("rk5", 5, 9 / 100), ("rk6", 6, 2),
    ("rk8", 8, 1 / 50), ("rk10", 10, 42)]) : ¬ NearOrder (tableOf rk).coeffs (tableOf rk).beta (q + 1) d := by
  simp only [List.mem_cons, List.not_mem_nil, or_false, Prod.mk.injEq] at h
  rcases h with ⟨rfl, rfl, rfl⟩ | ⟨rfl, rfl, rfl⟩ | ⟨rfl, rfl, rfl⟩ | ⟨rfl, rfl, rfl⟩ | ⟨rfl, rfl, rfl⟩ | ⟨rfl, rfl, rfl⟩ | ⟨rfl, rfl, rfl⟩
  · have e : tableOf "rk3" = rk3.map (fun q : ℚ => (q : ℝ)) := by simp [tableOf, schemeFor]
    rw [e]
    exact defect_rational rk3Coeffs rk3Alphas rk3Betas ⟨by decide +kernel, by decide +kernel⟩ (pathTree 3) (9 / 10) (by decide +kernel) (by decide) (by norm_num)
  · have e : tableOf "rk4" = rk4.map (fun q : ℚ => (q : ℝ)) := by simp [tableOf, schemeFor]
    rw [e]
    exact defect_rational rk4Coeffs rk4Alphas rk4Betas ⟨by decide +kernel, by decide +kernel⟩ (pathTree 4) (9 / 10) (by decide +kernel) (by decide) (by norm_num)
  · have e : tableOf "low_storage_rk4" = rk4.map (fun q : ℚ => (q : ℝ)) := by simp [tableOf, schemeFor]
    rw [e]
    exact defect_rational rk4Coeffs rk4Alphas rk4Betas ⟨by decide +kernel, by decide +kernel⟩ (pathTree 4) (9 / 10) (by decide +kernel) (by decide) (by norm_num)
  · have e : tableOf "rk5" = rk5.map (fun q : ℚ => (q : ℝ)) := by simp [tableOf, schemeFor]
    rw [e]
    exact defect_rational rk5Coeffs rk5Alphas rk5Betas ⟨by decide +kernel, by decide +kernel⟩ (.graft .leaf (.graft .leaf (.graft .leaf (.graft (.graft .leaf .leaf) .leaf))))
      (9 / 100) (by decide +kernel) (by decide) (by norm_num)
  · have e : tableOf "rk6" = rk6 := by simp [tableOf, schemeFor]
    rw [e]
    intro hn
    have h1 := hn (pathTree 6) (by decide)
    have h2 := weight_sum q5ToReal rk6Q5Coeffs (padRows rk6Q5Betas) ⟨by decide +kernel, by decide +kernel⟩ rk6.beta
      (fun k _ j _ => by rw [padRows_getD]; exact rk6_beta_eq k j) (pathTree 6)
    rw [rk6_coeffs_eq, h2] at h1
    have h3 : (rk6Q5Coeffs.zipWith (· * ·) (weightList rk6Q5Coeffs.length (padRows rk6Q5Betas) (pathTree 6))).sum * ((pathTree 6).density : Q5) = ⟨-2, 0⟩ := by decide +kernel
    rw [h3, q5ToReal_apply] at h1
    norm_num at h1
  · have e : tableOf "rk8" = rk8.map (fun q : ℚ => (q : ℝ)) := by simp [tableOf, schemeFor]
    rw [e]
    exact defect_rational rk8Coeffs rk8Alphas rk8Betas ⟨by decide +kernel, by decide +kernel⟩
      (.graft .leaf (.graft .leaf (.graft .leaf (.graft (.graft (.graft .leaf (.graft .leaf .leaf)) (.graft .leaf .leaf)) .leaf)))) (1 / 50) (by decide +kernel) (by decide) (by norm_num)
  · have e : tableOf "rk10" = rk10.map (fun q : ℚ => (q : ℝ)) := by simp [tableOf, schemeFor]
    rw [e]
    exact defect_rational rk10Coeffs rk10Alphas rk10Betas ⟨by decide +kernel, by decide +kernel⟩ (pathTree 10) 42 (by decide +kernel) (by decide) (by norm_num)

variable {s : Sol ℝ} {lib : GaussLib ℝ} {p : ℕ}

/-- **C90 (local error of a scheme with a rounded table).** Let `y` solve the semi-discrete DG equations, their right-hand sides being
analytic at `y 0`. There is `K`, depending on the problem and the order `q` only, such that for every deck string whose table satisfies
the order conditions up to `q` within `eps`, there are `C` and `δ > 0` such that every iteration without limiter that starts from
`y 0`, takes a step `|dt| < δ` and does not fail ends within `C |dt|^(q+1) + eps K |dt|` of `y dt`. -/
theorem C90_local_error (hb : s.Built lib p) (hk : s.BcKnown) (ps : PhysSpec ℝ s.NF) (hps : s.kw.Pointwise ps) (y : ℝ → ℕ → ℕ → ℝ)
    (hsmooth : SmoothAt p (lib (p + 1)).1.val (lib (p + 1)).2.val s ps.flux ps.num (y 0))
    (hy : SolvesNear p (lib (p + 1)).1.val (lib (p + 1)).2.val s ps.flux ps.num y) (q : ℕ) :
    ∃ K : ℝ, ∀ (rk : String) (eps : ℝ), 0 ≤ eps → NearOrder (tableOf rk).coeffs (tableOf rk).beta q eps →
      ∃ C δ : ℝ, 0 < δ ∧ ∀ (lim : Sol ℝ → Except PyErr (Sol ℝ)), (∀ a, lim a = .ok a) →
      ∀ (deck : RkDeck ℝ), deck.rk = rk → ∀ sol, Like sol s → ∀ (k : ℕ) (dt : ℝ) (o d : Bool),
      (integrate ⟨residual, lim⟩ deck sol k).status = .running →
      getNextTimeStep (integrate ⟨residual, lim⟩ deck sol k).sol (integrate ⟨residual, lim⟩ deck sol k).tout deck.cfl deck.finaltime = .ok (dt, o, d) →
      (∀ e, (integrate ⟨residual, lim⟩ deck sol (k + 1)).status ≠ .failed e) →
      (∀ n < p + 1, ∀ e, 1 ≤ e → e ≤ s.NE → ∀ f < s.NF,
        (integrate ⟨residual, lim⟩ deck sol k).sol.u.val n (e * s.NF + f) = y 0 n (e * s.NF + f)) →
      |dt| < δ →
      ∀ n < p + 1, ∀ e, 1 ≤ e → e ≤ s.NE → ∀ f < s.NF,
        |(integrate ⟨residual, lim⟩ deck sol (k + 1)).sol.u.val n (e * s.NF + f) - y dt n (e * s.NF + f)| ≤
          C * |dt| ^ (q + 1) + eps * K * |dt| := by
  set f : (Dof p s → ℝ) → (Dof p s → ℝ) := fun x i => dgRhs p (lib (p + 1)).1.val (lib (p + 1)).2.val s ps.flux ps.num (cells p s x) i.1 (i.2.1 + 1) i.2.2 with hf
  have hfa : AnalyticAt ℝ f (dofs p s (y 0)) := by
    rw [analyticAt_pi_iff]
    intro i
    exact hsmooth i.1 i.1.2 (i.2.1 + 1) (by omega) (by omega) i.2.2
  have hsol : ∀ᶠ t in 𝓝 (0 : ℝ), HasDerivAt (fun t => dofs p s (y t)) (f (dofs p s (y t))) t := by
    filter_upwards [hy] with t ht
    rw [hasDerivAt_pi]
    intro i
    have := ht i.1 i.1.2 (i.2.1 + 1) (by omega) (by omega) i.2.2
    rw [dgRhs_congr hb hk (fun n hn e h1 h2 f hf => (cells_dofs (y t) n hn e h1 h2 f hf).symm) _ _ (by omega) (by omega)] at this
    exact this
  obtain ⟨K, hK⟩ := local_error_near hfa (y := fun t => dofs p s (y t)) rfl hsol q
  refine ⟨K, fun rk eps heps hrk => ?_⟩
  obtain ⟨C, hC⟩ := hK (tableOf rk).coeffs (tableOf rk).beta (tableOf_explicit rk) eps heps hrk
  obtain ⟨δ, hδ, hball⟩ := Metric.eventually_nhds_iff.mp hC
  refine ⟨C, δ, hδ, ?_⟩
  intro lim hlim deck hdeck sol hsolL k dt o d hrun hdt hok hcur hsmall n hn e h1 h2 fi hfi
  have hst := (step_dofs hb hk ps hps hlim deck hsolL k dt o d hrun hdt hok).1
  rw [dofs_congr (b := y 0) hcur, hdeck] at hst
  have hbd := hball (y := dt) (by rw [Real.dist_eq, sub_zero]; exact hsmall)
  refine le_trans ?_ hbd
  have hcomp := norm_le_pi_norm (rkStep (tableOf rk).coeffs (tableOf rk).beta f dt (dofs p s (y 0)) - dofs p s (y dt)) (⟨n, hn⟩, ⟨e - 1, by omega⟩, ⟨fi, hfi⟩)
  rw [← hst] at hcomp ⊢
  refine le_trans (le_of_eq ?_) hcomp
  rw [Pi.sub_apply, Real.norm_eq_abs]
  unfold dofs
  simp only
  rw [Nat.sub_add_cancel h1]

/-- Advection of three periodic cells with rk10: one step to the final time `T`. -/
example : ∃ (y : ℝ → ℕ → ℕ → ℝ) (C K δ : ℝ), 0 < δ ∧
    SolvesNear 2 (realGauss 3).1.val (realGauss 3).2.val (Ex.solR 2) (Advection.spec (K := ℝ) 1).flux (Advection.spec (K := ℝ) 1).num y ∧
    ∀ T : ℝ, 0 < T → T < δ → ∀ n < 3, ∀ e, 1 ≤ e → e ≤ 3 →
      |(integrate ⟨residual, fun a => .ok a⟩ ⟨"rk10", T, 2, 1 / 2⟩ (Ex.solR 2) 1).sol.u.val n (e * 1 + 0) - y T n (e * 1 + 0)| ≤ C * T ^ 11 + 1 / 10 ^ 56 * K * T := by
  have hb := Ex.solR_built 2
  have hk : (Ex.solR 2).BcKnown := ⟨.inl (by decide), .inl (by decide)⟩
  obtain ⟨y, h0, hs, hy⟩ := C76_exact_solution (p := 2) (Advection.spec (K := ℝ) (Ex.solR 2).NF) (Ex.solR 2).u.val (realGauss 3).1.val (realGauss 3).2.val
    (C76_smooth_advection hb hk _ _ _)
  obtain ⟨K, hK⟩ := C90_local_error hb hk (Advection.spec (K := ℝ) (Ex.solR 2).NF) (Advection.pointwise _) y hs hy 10
  obtain ⟨C, δ, hδ, h⟩ := hK "rk10" (1 / 10 ^ 56) (by positivity) C90_near_order.2
  refine ⟨y, C, K, min δ (1 / 20), by positivity, hy, fun T hT hTδ n hn e h1 h2 => ?_⟩
  have hT1 : T < δ := hTδ.trans_le (min_le_left _ _)
  have hT2 : T < 1 / 20 := hTδ.trans_le (min_le_right _ _)
  have hcfl : 1 / 10 ^ 14 ≤ (Ex.solR 2).dx * (1 / 2 : ℝ) / (2 * ((2 : ℕ) : ℝ) + 1) := by
    show 1 / 10 ^ 14 ≤ (1 / 2 : ℝ) * (1 / 2 : ℝ) / (2 * ((2 : ℕ) : ℝ) + 1)
    norm_num
  have hnf := (advection_progress hb rfl (fun _ => rfl) hcfl).never_fails (deck := ⟨"rk10", T, 2, 1 / 2⟩) (keepsClock_off fun _ => rfl) (schemeFor "rk10")
    (Like.refl _) (show (0 : ℝ) ≤ T from hT.le) (show 2 ≤ 2 from le_rfl)
  have hst : (integrate ⟨residual, fun a => .ok a⟩ ⟨"rk10", T, 2, 1 / 2⟩ (Ex.solR 2) 0).status = .running ∧
      (integrate ⟨residual, fun a => .ok a⟩ ⟨"rk10", T, 2, 1 / 2⟩ (Ex.solR 2) 0).sol = Ex.solR 2 := by
    unfold integrate Scheme.run runLoop
    rw [Function.iterate_zero, id]
    exact ⟨rfl, rfl⟩
  have hdt : getNextTimeStep (Ex.solR 2) (integrate ⟨residual, fun a => .ok a⟩ ⟨"rk10", T, 2, 1 / 2⟩ (Ex.solR 2) 0).tout (1 / 2) T = .ok (T - 0, true, true) := by
    have hc : cflTimeStep (Ex.solR 2) (1 / 2 : ℝ) = .ok (.fin (1 / 20)) := by
      unfold cflTimeStep
      show (if (1 : ℝ) * (2 * ((2 : ℕ) : ℝ) + 1) = 0 then _ else Except.ok (Fl.fin ((1 / 2 : ℝ) * (1 / 2) / (1 * (2 * ((2 : ℕ) : ℝ) + 1))))) = _
      rw [if_neg (by norm_num)]
      norm_num
    unfold getNextTimeStep
    rw [hc]
    simp only [sanityCheckDt]
    rw [if_neg (by norm_num)]
    simp only [adjustForOutput]
    rw [if_pos]
    · rfl
    · show T - 0 < 1 / 20
      linarith
  have := h (fun a => .ok a) (fun _ => rfl) ⟨"rk10", T, 2, 1 / 2⟩ rfl (Ex.solR 2) (Like.refl _) 0 (T - 0) true true hst.1 (by rw [hst.2]; exact hdt)
    (hnf 1) (by rw [hst.2]; exact fun n hn e h1 h2 f hf => (h0 n hn e h1 h2 f hf).symm) (by rw [sub_zero, abs_of_pos hT]; exact hT1) n hn e h1 h2 0 (show 0 < 1 by norm_num)
  rw [sub_zero, abs_of_pos hT] at this
  exact this

end Dg1d.Props
