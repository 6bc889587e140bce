import Verif.Proofs.RkRun
import Verif.Props.Examples

/-!
# C05–C11: Runge–Kutta schemes
-/

set_option linter.unusedSectionVars false

namespace Dg1d.Props
open Spec
variable {K : Type*} [Field K] [LinearOrder K] [IsStrictOrderedRing K]

/-! ### C05 -/

/-- **C05** `low_storage_rk4` and `classic_rk` with the rk4 table agree after every number of main-loop
iterations on the solution, the saved copy, the work solution, times, outputs written and status
(hence on errors), for every residual and every limiter. -/
theorem C05_low_storage_generic (env : Env K) (deck : RkDeck K) (sol : Sol K) (k : ℕ) :
    let a := Scheme.run (.classic (rk4.map (fun q : ℚ => (q : K)))) env deck sol k
    let b := Scheme.run .low env deck sol k
    a.sol = b.sol ∧ a.us = b.us ∧ a.work = b.work ∧ a.nout = b.nout ∧ a.tout = b.tout ∧
      a.touts = b.touts ∧ a.status = b.status ∧ a.log = b.log := by
  have h := sameLoop_run env deck deck ⟨rfl, rfl, rfl⟩ sol k
  unfold SameLoop at h
  intro a b
  have h : a = { b with incr := a.incr } := h
  rw [h]
  exact ⟨rfl, rfl, rfl, rfl, rfl, rfl, rfl, rfl⟩

/-- **C05** The same through `integrate`: the deck strings `low_storage_rk4` and `rk4` give the same
solution, outputs and status after every number of iterations. -/
theorem C05_low_storage (env : Env ℝ) (deck : RkDeck ℝ) (sol : Sol ℝ) (k : ℕ) :
    let a := integrate env { deck with rk := "rk4" } sol k
    let b := integrate env { deck with rk := "low_storage_rk4" } sol k
    a.sol = b.sol ∧ a.nout = b.nout ∧ a.tout = b.tout ∧ a.touts = b.touts ∧ a.status = b.status ∧
      a.log = b.log := by
  have h := sameLoop_run env { deck with rk := "rk4" } { deck with rk := "low_storage_rk4" } ⟨rfl, rfl, rfl⟩ sol k
  have ha : schemeFor "rk4" = .classic (rk4K ℝ) := by unfold schemeFor; simp
  have hb : schemeFor "low_storage_rk4" = .low := by unfold schemeFor; simp
  unfold SameLoop at h
  intro a b
  have h : a = { b with incr := a.incr } := by
    show integrate _ _ _ _ = _
    unfold integrate
    simp only [ha]
    rw [h]
    simp only [b, integrate, hb]
    congr
  rw [h]
  exact ⟨rfl, rfl, rfl, rfl, rfl, rfl⟩

/-- C05 is not about trivial runs: the run of `Ex.sol2` moves (after one step the first cell average is
no longer 1) and finishes, with both integrators. -/
example : (Scheme.run .low Ex.env Ex.deck Ex.sol2 1).sol.u.val 0 1 ≠ 1 ∧
    (Scheme.run .low Ex.env Ex.deck Ex.sol2 6).status = .done ∧
    (Scheme.run .low Ex.env Ex.deck Ex.sol2 1).sol.u.val 0 1 =
      (Scheme.run (.classic rk4) Ex.env Ex.deck Ex.sol2 1).sol.u.val 0 1 := by
  refine ⟨?_, ?_, ?_⟩ <;> decide +kernel

/-! ### C06 -/

/-- **C06** With the limiter off, each main-loop iteration of `integrate`, for every deck string,
advances the solution by the textbook explicit Runge–Kutta step with the selected table, followed by
`apply_bc`. `R` is the residual as a function of the array; the residual may change its argument only in
`u`, `t`, `n` and the sensors. -/
theorem C06_textbook_step (env : Env ℝ) (deck : RkDeck ℝ) (sol : Sol ℝ) (R : Arr ℝ → Arr ℝ)
    (hlim : ∀ s, env.limit s = .ok s)
    (hR : ∀ s, SameSetup s sol → ∃ s', env.residual s = .ok (s', R s.u) ∧ SameSetup s' sol)
    (k : ℕ) (dt : ℝ) (o d : Bool)
    (hrun : (integrate env deck sol k).status = .running)
    (hdt : getNextTimeStep (integrate env deck sol k).sol (integrate env deck sol k).tout deck.cfl
      deck.finaltime = .ok (dt, o, d)) :
    let s := (integrate env deck sol k).sol
    (integrate env deck sol (k + 1)).sol =
      ({ s with u := { s.u with val := rkStep (tableOf deck.rk).coeffs (tableOf deck.rk).beta (fun v => (R { s.u with val := v }).val) dt s.u.val }
                t := s.t + dt
                n := s.n + 1 } : Sol ℝ).applyBc := by
  intro s
  have hk := schemeFor_run deck.rk env deck sol k
  have hk1 := schemeFor_run deck.rk env deck sol (k + 1)
  set T := tableOf deck.rk
  have e0 : (Scheme.run (.classic T) env deck sol k).sol = s := by rw [hk]; rfl
  have e1 : (Scheme.run (.classic T) env deck sol (k + 1)).sol = (integrate env deck sol (k + 1)).sol := by
    rw [hk1]; rfl
  have e2 : (Scheme.run (.classic T) env deck sol k).status = .running := by rw [hk]; exact hrun
  have e3 : (Scheme.run (.classic T) env deck sol k).tout = (integrate env deck sol k).tout := by rw [hk]; rfl
  have := classic_run_step (tableOf_fine deck.rk) hlim hR deck k dt o d e2 (by rw [e0, e3]; exact hdt)
  rw [← e1, this, e0]
  rfl

/-- **C06** for an arbitrary table over an arbitrary ordered field, the form used by the examples. -/
theorem C06_textbook_step_generic (tab : Tableau K) (hf : tab.Fine) (env : Env K) (deck : RkDeck K)
    (sol : Sol K) (R : Arr K → Arr K) (hlim : ∀ s, env.limit s = .ok s)
    (hR : ∀ s, SameSetup s sol → ∃ s', env.residual s = .ok (s', R s.u) ∧ SameSetup s' sol)
    (k : ℕ) (dt : K) (o d : Bool)
    (hrun : (Scheme.run (.classic tab) env deck sol k).status = .running)
    (hdt : getNextTimeStep (Scheme.run (.classic tab) env deck sol k).sol
      (Scheme.run (.classic tab) env deck sol k).tout deck.cfl deck.finaltime = .ok (dt, o, d)) :
    let s := (Scheme.run (.classic tab) env deck sol k).sol
    (Scheme.run (.classic tab) env deck sol (k + 1)).sol =
      ({ s with u := { s.u with val := rkStep tab.coeffs tab.beta (fun v => (R { s.u with val := v }).val) dt s.u.val }
                t := s.t + dt
                n := s.n + 1 } : Sol K).applyBc :=
  classic_run_step hf hlim hR deck k dt o d hrun hdt

/-- The DG residual of linear advection as a function of the array: hypotheses of C06 hold. -/
example (s : Sol ℚ) (h : SameSetup s Ex.sol2) : ∃ s', Ex.env.residual s = .ok (s',
    match residual { Ex.sol2 with u := s.u } with | .ok (_, F) => F | .error _ => s.u) ∧
    SameSetup s' Ex.sol2 := by
  obtain ⟨b1, k1, t1, n1, NE1, NF1, x1, xc1, dx1, u1, sm1, bl1, br1, en1, se1⟩ := s
  obtain ⟨e1, e2, e3, e4, e5, e6, e7, e8, e9, e10, e11⟩ := h
  simp only at e1 e2 e3 e4 e5 e6 e7 e8 e9 e10 e11
  subst e1 e2 e3 e4 e5 e6 e7 e8 e9 e10 e11
  refine ⟨_, rfl, ?_⟩
  exact SameSetup.trans (applyBc_setup _) (by constructor <;> rfl)

example : (Scheme.run (.classic rk4) Ex.env Ex.deck Ex.sol2 1).status = .running ∧
    getNextTimeStep (Scheme.run (.classic rk4) Ex.env Ex.deck Ex.sol2 1).sol
      (Scheme.run (.classic rk4) Ex.env Ex.deck Ex.sol2 1).tout Ex.deck.cfl Ex.deck.finaltime =
      .ok (1/20, false, false) := by
  refine ⟨?_, ?_⟩ <;> decide +kernel

/-! ### C07 -/

/-- **C07** rk3, rk4, rk5, rk6: strictly lower triangular, weights sum to one, abscissae are row sums,
exactly. -/
theorem C07_exact_tables :
    Consistent rk3.coeffs rk3.alphas rk3.beta ∧ Consistent rk4.coeffs rk4.alphas rk4.beta ∧
    Consistent rk5.coeffs rk5.alphas rk5.beta ∧ Consistent rk6.coeffs rk6.alphas rk6.beta := by
  have h : ∀ (c a : List ℚ) (b : List (List ℚ)), consistentCheck c a b →
      Consistent (Tableau.ofRows c a b).coeffs (Tableau.ofRows c a b).alphas (Tableau.ofRows c a b).beta := by
    intro c a b hc
    have := consistent_of_check (RingHom.id ℚ) c a b (Tableau.ofRows c a b).beta (fun k j => rfl) hc
    simpa [Tableau.ofRows] using this
  refine ⟨h _ _ _ (by decide +kernel), h _ _ _ (by decide +kernel), h _ _ _ (by decide +kernel), ?_⟩
  rw [rk6_coeffs_eq, rk6_alphas_eq]
  exact consistent_of_check q5ToReal _ _ rk6Q5Betas _ (fun k j => rk6_beta_eq k j) (by decide +kernel)

/-- An explicit Butcher table whose weights sum to one and whose abscissae are the row sums up to `eps`. -/
structure NearlyConsistent (eps : ℚ) (t : Tableau ℚ) : Prop where
  lengths : t.alphas.length = t.coeffs.length
  explicit : ∀ k < t.coeffs.length, ∀ j < t.coeffs.length, k ≤ j → t.beta k j = 0
  weights : |t.coeffs.sum - 1| ≤ eps
  rows : ∀ k < t.coeffs.length, |∑ j ∈ Finset.range k, t.beta k j - t.alphas.getD k 0| ≤ eps

/-- **C07** rk8 (entries given with 18 digits) up to 2e-17; rk10, rk12, rk14 up to 1e-56. -/
theorem C07_rounded_tables :
    NearlyConsistent (2 / 10 ^ 17) rk8 ∧ NearlyConsistent (1 / 10 ^ 56) rk10 ∧
    NearlyConsistent (1 / 10 ^ 56) rk12 ∧ NearlyConsistent (1 / 10 ^ 56) rk14 := by
  refine ⟨⟨?_, ?_, ?_, ?_⟩, ⟨?_, ?_, ?_, ?_⟩, ⟨?_, ?_, ?_, ?_⟩, ⟨?_, ?_, ?_, ?_⟩⟩ <;> decide +kernel

/-- **C07** In every table that `integrate` can select, each weight and each matrix entry below the
diagonal is zero or larger than 1e-15 in magnitude, so `smart_axpy` never drops one. -/
theorem C07_no_tiny_coefficient (rk : String) :
    (∀ c ∈ (tableOf rk).coeffs, c = 0 ∨ 1 / 10 ^ 15 < |c|) ∧
    ∀ k < (tableOf rk).coeffs.length, ∀ j < k,
      (tableOf rk).beta k j = 0 ∨ 1 / 10 ^ 15 < |(tableOf rk).beta k j| := by
  have h := tableOf_fine rk
  refine ⟨?_, fun k hk j hj => h.beta k hk j hj⟩
  intro c hc
  obtain ⟨k, hk, rfl⟩ := List.getElem_of_mem hc
  have := h.coeff k hk
  rwa [List.getD_eq_getElem?_getD, List.getElem?_eq_getElem hk] at this

/-! ### C08 -/

/-- **C08** rk3, rk4, rk5 satisfy every order condition up to order 3, 4, 5 in every field of
characteristic zero. -/
theorem C08_order_rational (F : Type*) [Field F] [CharZero F] :
    HasOrder (rk3.map (fun q : ℚ => (q : F))).coeffs (rk3.map (fun q : ℚ => (q : F))).beta 3 ∧
    HasOrder (rk4.map (fun q : ℚ => (q : F))).coeffs (rk4.map (fun q : ℚ => (q : F))).beta 4 ∧
    HasOrder (rk5.map (fun q : ℚ => (q : F))).coeffs (rk5.map (fun q : ℚ => (q : F))).beta 5 := by
  refine ⟨?_, ?_, ?_⟩
  · exact hasOrder_of_check (Rat.castHom F) rk3Coeffs (padRows rk3Betas) ⟨by decide +kernel, by decide +kernel⟩ _
      (fun k _ j _ => hbeta_cast _ _ _ _ _) 3 (by decide +kernel)
  · exact hasOrder_of_check (Rat.castHom F) rk4Coeffs (padRows rk4Betas) ⟨by decide +kernel, by decide +kernel⟩ _
      (fun k _ j _ => hbeta_cast _ _ _ _ _) 4 (by decide +kernel)
  · exact hasOrder_of_check (Rat.castHom F) rk5Coeffs (padRows rk5Betas) ⟨by decide +kernel, by decide +kernel⟩ _
      (fun k _ j _ => hbeta_cast _ _ _ _ _) 5 (by decide +kernel)

/-- **C08** rk6 satisfies every order condition up to order 6. -/
theorem C08_order_rk6 : HasOrder rk6.coeffs rk6.beta 6 := by
  rw [rk6_coeffs_eq]
  exact hasOrder_of_check q5ToReal rk6Q5Coeffs (padRows rk6Q5Betas) ⟨by decide +kernel, by decide +kernel⟩ _
    (fun k _ j _ => by rw [padRows_getD]; exact rk6_beta_eq k j) 6 (by decide +kernel)

/-- The order a deck string promises. -/
def promisedOrder (rk : String) : ℕ :=
  if rk = "rk3" then 3 else if rk = "rk4" then 4 else if rk = "low_storage_rk4" then 4
  else if rk = "rk5" then 5 else if rk = "rk6" then 6 else 0

/-- **C08** What `integrate` runs for 'rk3', 'rk4', 'low_storage_rk4', 'rk5', 'rk6' has that order. -/
theorem C08_order (rk : String) (h : rk ∈ ["rk3", "rk4", "low_storage_rk4", "rk5", "rk6"]) :
    HasOrder (tableOf rk).coeffs (tableOf rk).beta (promisedOrder rk) ∧ 3 ≤ promisedOrder rk := by
  obtain ⟨h3, h4, h5⟩ := C08_order_rational ℝ
  simp only [List.mem_cons, List.not_mem_nil, or_false] at h
  rcases h with rfl | rfl | rfl | rfl | rfl
  · have : tableOf "rk3" = rk3.map (fun q : ℚ => (q : ℝ)) := by simp [tableOf, schemeFor]
    rw [this]; exact ⟨h3, by decide⟩
  · have : tableOf "rk4" = rk4.map (fun q : ℚ => (q : ℝ)) := by simp [tableOf, schemeFor]
    rw [this]; exact ⟨h4, by decide⟩
  · have : tableOf "low_storage_rk4" = rk4.map (fun q : ℚ => (q : ℝ)) := by simp [tableOf, schemeFor]
    rw [this]; exact ⟨h4, by decide⟩
  · have : tableOf "rk5" = rk5.map (fun q : ℚ => (q : ℝ)) := by simp [tableOf, schemeFor]
    rw [this]; exact ⟨h5, by decide⟩
  · have : tableOf "rk6" = rk6 := by simp [tableOf, schemeFor]
    rw [this]; exact ⟨C08_order_rk6, by decide⟩

/-- **C08** through `integrate`: with the limiter off, every iteration under one of these deck strings is a Runge–Kutta
step, followed by `apply_bc`, with some table of the promised order (the same table in every iteration, for every residual). -/
theorem C08_integrate_order (rk : String) (h : rk ∈ ["rk3", "rk4", "low_storage_rk4", "rk5", "rk6"]) :
    ∃ (c : List ℝ) (b : ℕ → ℕ → ℝ), HasOrder c b (promisedOrder rk) ∧
      ∀ (env : Env ℝ) (deck : RkDeck ℝ) (sol : Sol ℝ) (R : Arr ℝ → Arr ℝ), deck.rk = rk →
        (∀ s, env.limit s = .ok s) →
        (∀ s, SameSetup s sol → ∃ s', env.residual s = .ok (s', R s.u) ∧ SameSetup s' sol) →
        ∀ (k : ℕ) (dt : ℝ) (o d : Bool), (integrate env deck sol k).status = .running →
          getNextTimeStep (integrate env deck sol k).sol (integrate env deck sol k).tout deck.cfl deck.finaltime =
            .ok (dt, o, d) →
          let s := (integrate env deck sol k).sol
          (integrate env deck sol (k + 1)).sol =
            ({ s with u := { s.u with val := rkStep c b (fun v => (R { s.u with val := v }).val) dt s.u.val }
                      t := s.t + dt
                      n := s.n + 1 } : Sol ℝ).applyBc := by
  refine ⟨(tableOf rk).coeffs, (tableOf rk).beta, (C08_order rk h).1, ?_⟩
  intro env deck sol R hrk hlim hR k dt o d hrun hdt
  subst hrk
  exact C06_textbook_step env deck sol R hlim hR k dt o d hrun hdt

/-- The order notion is not vacuous: rk3 does not have order 4 (the path with four vertices fails). -/
example : ¬ HasOrder rk3.coeffs rk3.beta 4 := by
  intro h
  have := h (.graft .leaf (.graft .leaf (.graft .leaf .leaf))) (by decide)
  revert this
  unfold OrderCondition
  decide +kernel

/-! ### C09 -/

/-- **C09** For a linear residual `A`, one step of rk3 / rk4 / rk5 / rk6 is the exponential series up to
the order of the scheme plus terms of higher degree in `hA` (up to the number of stages, with
coefficients depending on the table only). -/
theorem C09_truncated_exponential (rk : String) (hrk : rk ∈ ["rk3", "rk4", "low_storage_rk4", "rk5", "rk6"]) :
    ∃ d : ℕ → ℝ, ∀ (V : Type) [AddCommGroup V] [Module ℝ V] (A : V →ₗ[ℝ] V) (h : ℝ) (u : V),
      rkStep (tableOf rk).coeffs (tableOf rk).beta A h u =
        ∑ m ∈ Finset.range (promisedOrder rk + 1), (h ^ m / m.factorial) • (A ^ m) u +
        ∑ m ∈ Finset.Ico (promisedOrder rk + 1) ((tableOf rk).coeffs.length + 1), (h ^ m * d m) • (A ^ m) u := by
  have he : ∀ k < (tableOf rk).coeffs.length, ∀ j < (tableOf rk).coeffs.length, k ≤ j →
      (tableOf rk).beta k j = 0 := by
    obtain ⟨c3, c4, c5, c6⟩ := C07_exact_tables
    have cast : ∀ t : Tableau ℚ, Consistent t.coeffs t.alphas t.beta →
        ∀ k < (t.map (fun q : ℚ => (q : ℝ))).coeffs.length, ∀ j < (t.map (fun q : ℚ => (q : ℝ))).coeffs.length,
          k ≤ j → (t.map (fun q : ℚ => (q : ℝ))).beta k j = 0 := by
      intro t ht k hk j hj hkj
      simp only [Tableau.map, List.length_map] at hk hj ⊢
      rw [ht.explicit k hk j hj hkj]; simp
    simp only [List.mem_cons, List.not_mem_nil, or_false] at hrk
    rcases hrk with rfl | rfl | rfl | rfl | rfl
    · rw [show tableOf "rk3" = rk3.map (fun q : ℚ => (q : ℝ)) by simp [tableOf, schemeFor]]; exact cast _ c3
    · rw [show tableOf "rk4" = rk4.map (fun q : ℚ => (q : ℝ)) by simp [tableOf, schemeFor]]; exact cast _ c4
    · rw [show tableOf "low_storage_rk4" = rk4.map (fun q : ℚ => (q : ℝ)) by simp [tableOf, schemeFor]]
      exact cast _ c4
    · rw [show tableOf "rk5" = rk5.map (fun q : ℚ => (q : ℝ)) by simp [tableOf, schemeFor]]; exact cast _ c5
    · rw [show tableOf "rk6" = rk6 by simp [tableOf, schemeFor]]; exact c6.explicit
  have hlen : promisedOrder rk ≤ (tableOf rk).coeffs.length := by
    simp only [List.mem_cons, List.not_mem_nil, or_false] at hrk
    rcases hrk with rfl | rfl | rfl | rfl | rfl <;>
      simp [tableOf, schemeFor, promisedOrder, Tableau.map, Tableau.ofRows, rk3, rk4, rk5, rk6, rk3Coeffs,
        rk4Coeffs, rk5Coeffs, rk6Coeffs]
  refine ⟨stepWeight (tableOf rk).coeffs (tableOf rk).beta, fun V _ _ A h u => ?_⟩
  rw [rkStep_linear, ← Finset.sum_range_add_sum_Ico _ (Nat.succ_le_succ hlen)]
  congr 1
  apply Finset.sum_congr rfl
  intro m hm
  rw [stepWeight_order _ _ he (C08_order rk hrk).1 m (by have := Finset.mem_range.mp hm; omega)]
  congr 1
  ring

/-- **C09** rk3, rk4 and low_storage_rk4 have no higher terms: the step is exactly the truncated
exponential. -/
theorem C09_exact_rk3_rk4 (rk : String) (hrk : rk ∈ ["rk3", "rk4", "low_storage_rk4"])
    (V : Type) [AddCommGroup V] [Module ℝ V] (A : V →ₗ[ℝ] V) (h : ℝ) (u : V) :
    rkStep (tableOf rk).coeffs (tableOf rk).beta A h u =
      ∑ m ∈ Finset.range (promisedOrder rk + 1), (h ^ m / m.factorial) • (A ^ m) u := by
  have hmem : rk ∈ ["rk3", "rk4", "low_storage_rk4", "rk5", "rk6"] := by
    simp only [List.mem_cons, List.not_mem_nil, or_false] at hrk ⊢; tauto
  obtain ⟨d, hd⟩ := C09_truncated_exponential rk hmem
  rw [hd V A h u]
  have : promisedOrder rk + 1 = (tableOf rk).coeffs.length + 1 := by
    simp only [List.mem_cons, List.not_mem_nil, or_false] at hrk
    rcases hrk with rfl | rfl | rfl <;>
      simp [tableOf, schemeFor, promisedOrder, Tableau.map, Tableau.ofRows, rk3, rk4, rk3Coeffs, rk4Coeffs]
  rw [this]
  simp

/-- **C09** through `integrate`: with the limiter off and a residual that acts on the array entries as a
linear operator `A`, an iteration with deck string rk4 or low_storage_rk4 applies
`I + hA + (hA)²/2 + (hA)³/6 + (hA)⁴/24`, then `apply_bc`. (rk3 likewise up to the cubic term.) -/
theorem C09_integrate_step (env : Env ℝ) (deck : RkDeck ℝ) (sol : Sol ℝ) (R : Arr ℝ → Arr ℝ)
    (hdeck : deck.rk ∈ ["rk3", "rk4", "low_storage_rk4"])
    (hlim : ∀ s, env.limit s = .ok s)
    (hR : ∀ s, SameSetup s sol → ∃ s', env.residual s = .ok (s', R s.u) ∧ SameSetup s' sol)
    (k : ℕ) (dt : ℝ) (o d : Bool)
    (hrun : (integrate env deck sol k).status = .running)
    (hdt : getNextTimeStep (integrate env deck sol k).sol (integrate env deck sol k).tout deck.cfl
      deck.finaltime = .ok (dt, o, d))
    (A : (ℕ → ℕ → ℝ) →ₗ[ℝ] (ℕ → ℕ → ℝ))
    (hA : ∀ v, (R { (integrate env deck sol k).sol.u with val := v }).val = A v) :
    let s := (integrate env deck sol k).sol
    (integrate env deck sol (k + 1)).sol =
      ({ s with u := { s.u with val := ∑ m ∈ Finset.range (promisedOrder deck.rk + 1), (dt ^ m / m.factorial) • (A ^ m) s.u.val }
                t := s.t + dt
                n := s.n + 1 } : Sol ℝ).applyBc := by
  intro s
  have h := C06_textbook_step env deck sol R hlim hR k dt o d hrun hdt
  simp only at h
  rw [h]
  simp only [hA]
  have e := C09_exact_rk3_rk4 deck.rk hdeck (ℕ → ℕ → ℝ) A dt s.u.val
  have hs : (integrate env deck sol k).sol = s := rfl
  rw [hs]
  rw [← e]

/-- **C09** through `integrate` for all five deck strings: the exponential series up to the order of the scheme plus terms of
higher degree in `hA`, with coefficients `w` depending on the scheme only, then `apply_bc`. -/
theorem C09_integrate_series (rk : String) (hrk : rk ∈ ["rk3", "rk4", "low_storage_rk4", "rk5", "rk6"]) :
    ∃ (N : ℕ) (w : ℕ → ℝ), ∀ (env : Env ℝ) (deck : RkDeck ℝ) (sol : Sol ℝ) (R : Arr ℝ → Arr ℝ), deck.rk = rk →
      (∀ s, env.limit s = .ok s) →
      (∀ s, SameSetup s sol → ∃ s', env.residual s = .ok (s', R s.u) ∧ SameSetup s' sol) →
      ∀ (k : ℕ) (dt : ℝ) (o d : Bool), (integrate env deck sol k).status = .running →
        getNextTimeStep (integrate env deck sol k).sol (integrate env deck sol k).tout deck.cfl deck.finaltime =
          .ok (dt, o, d) →
        ∀ A : (ℕ → ℕ → ℝ) →ₗ[ℝ] (ℕ → ℕ → ℝ),
        (∀ v, (R { (integrate env deck sol k).sol.u with val := v }).val = A v) →
        let s := (integrate env deck sol k).sol
        (integrate env deck sol (k + 1)).sol =
          ({ s with u := { s.u with val := ∑ m ∈ Finset.range (promisedOrder rk + 1), (dt ^ m / m.factorial) • (A ^ m) s.u.val +
                                      ∑ m ∈ Finset.Ico (promisedOrder rk + 1) N, (dt ^ m * w m) • (A ^ m) s.u.val }
                    t := s.t + dt
                    n := s.n + 1 } : Sol ℝ).applyBc := by
  obtain ⟨w, hw⟩ := C09_truncated_exponential rk hrk
  refine ⟨(tableOf rk).coeffs.length + 1, w, ?_⟩
  intro env deck sol R hd hlim hR k dt o d hrun hdt A hA s
  have h := C06_textbook_step env deck sol R hlim hR k dt o d hrun hdt
  simp only at h
  rw [h]
  simp only [hA]
  have e := hw (ℕ → ℕ → ℝ) A dt s.u.val
  have hs : (integrate env deck sol k).sol = s := rfl
  rw [hs, hd, ← e]

/-- A concrete instance of C09: for `A = multiplication by 2` on ℝ and `h = 1/2` rk4 gives
`1 + 1 + 1/2 + 1/6 + 1/24 = 65/24`. -/
example : rkStep (tableOf "rk4").coeffs (tableOf "rk4").beta ((2 : ℝ) • LinearMap.id : ℝ →ₗ[ℝ] ℝ) (1/2) 1 = 65/24 := by
  rw [C09_exact_rk3_rk4 "rk4" (by simp) ℝ _ (1/2) 1]
  have : promisedOrder "rk4" = 4 := rfl
  rw [this]
  simp [Finset.sum_range_succ, Nat.factorial, pow_succ, Module.End.mul_apply]
  norm_num

/-! ### C10 -/

/-- **C10** For every explicit table over any field (ℂ included), the function whose unit level set
analysis/rk_stability.py draws is the factor by which a Runge–Kutta step multiplies the solution of
`u' = λ u`, `z = λ h`, in every vector space. -/
theorem C10_stability_function {F : Type*} [Field F] (tab : Tableau F)
    (he : ∀ k < tab.coeffs.length, ∀ j < tab.coeffs.length, k ≤ j → tab.beta k j = 0)
    (V : Type*) [AddCommGroup V] [Module F V] (lam h : F) (u : V) :
    rkStep tab.coeffs tab.beta (fun v => lam • v) h u = stabilityFunction tab (lam * h) • u := by
  rw [rkStep_scalar, stability_eq tab he]

/-- **C10** The script analyses the table the solver runs: for every name it picks the coefficients
that `integrate` uses for that deck string (for `low_storage_rk4`, the rk4 table of C05). -/
theorem C10_same_table (rk : String) : formattedTable rk = tableOf rk := by
  unfold formattedTable tableOf schemeFor
  by_cases h : rk = "low_storage_rk4"
  · subst h; simp
  · rw [if_neg h]

/-- Every table `integrate` can select is explicit. -/
lemma tableOf_explicit (rk : String) : ∀ k < (tableOf rk).coeffs.length, ∀ j < (tableOf rk).coeffs.length, k ≤ j → (tableOf rk).beta k j = 0 := by
  obtain ⟨c3, c4, c5, c6⟩ := C07_exact_tables
  obtain ⟨c8, c10, c12, c14⟩ := C07_rounded_tables
  have cast : ∀ t : Tableau ℚ, (∀ k < t.coeffs.length, ∀ j < t.coeffs.length, k ≤ j → t.beta k j = 0) →
      ∀ k < (t.map (fun q : ℚ => (q : ℝ))).coeffs.length, ∀ j < (t.map (fun q : ℚ => (q : ℝ))).coeffs.length,
        k ≤ j → (t.map (fun q : ℚ => (q : ℝ))).beta k j = 0 := by
    intro t ht k hk j hj hkj
    simp only [Tableau.map, List.length_map] at hk hj ⊢
    rw [ht k hk j hj hkj]; simp
  unfold tableOf schemeFor
  split
  · exact cast _ c4.explicit
  · rename_i tab heq
    split_ifs at heq <;> cases heq
    exacts [cast _ c3.explicit, cast _ c4.explicit, cast _ c5.explicit, c6.explicit, cast _ c8.explicit, cast _ c10.explicit, cast _ c12.explicit,
      cast _ c14.explicit, cast _ c4.explicit]

/-- `u' = -u`, no limiter. -/
def Ex.decay : Env ℚ := ⟨fun s => .ok (s, { s.u with val := fun r c => -1 * s.u.val r c }), fun s => .ok s⟩

/-- **C10** for the solver: with the limiter off and the residual `lam u`, one iteration of the main loop with any explicit
table multiplies the solution by the function the script computes for that table, at `z = lam dt`. -/
theorem C10_solver (tab : Tableau K) (hf : tab.Fine) (he : ∀ k < tab.coeffs.length, ∀ j < tab.coeffs.length, k ≤ j → tab.beta k j = 0)
    (env : Env K) (deck : RkDeck K) (sol : Sol K) (lam : K) (hlim : ∀ s, env.limit s = .ok s)
    (hR : ∀ s, SameSetup s sol → ∃ s', env.residual s = .ok (s', { s.u with val := fun r c => lam * s.u.val r c }) ∧ SameSetup s' sol)
    (k : ℕ) (dt : K) (o d : Bool) (hrun : (Scheme.run (.classic tab) env deck sol k).status = .running)
    (hdt : getNextTimeStep (Scheme.run (.classic tab) env deck sol k).sol
      (Scheme.run (.classic tab) env deck sol k).tout deck.cfl deck.finaltime = .ok (dt, o, d)) :
    let s := (Scheme.run (.classic tab) env deck sol k).sol
    (Scheme.run (.classic tab) env deck sol (k + 1)).sol =
      ({ s with u := { s.u with val := fun r c => stabilityFunction tab (lam * dt) * s.u.val r c }
                t := s.t + dt
                n := s.n + 1 } : Sol K).applyBc := by
  intro s
  have h := C06_textbook_step_generic tab hf env deck sol (fun A => { A with val := fun r c => lam * A.val r c }) hlim hR k dt o d hrun hdt
  rw [h]
  exact congrArg (fun v => ({ s with u := { s.u with val := v }, t := s.t + dt, n := s.n + 1 } : Sol K).applyBc)
    (C10_stability_function tab he (ℕ → ℕ → K) lam dt s.u.val)

/-- **C10** for the solver: for every scheme name of a deck, the function the script computes for that name is the factor of
one iteration of `integrate`. -/
theorem C10_solver_deck (env : Env ℝ) (deck : RkDeck ℝ) (sol : Sol ℝ) (lam : ℝ) (hlim : ∀ s, env.limit s = .ok s)
    (hR : ∀ s, SameSetup s sol → ∃ s', env.residual s = .ok (s', { s.u with val := fun r c => lam * s.u.val r c }) ∧ SameSetup s' sol)
    (k : ℕ) (dt : ℝ) (o d : Bool) (hrun : (integrate env deck sol k).status = .running)
    (hdt : getNextTimeStep (integrate env deck sol k).sol (integrate env deck sol k).tout deck.cfl deck.finaltime = .ok (dt, o, d)) :
    let s := (integrate env deck sol k).sol
    (integrate env deck sol (k + 1)).sol =
      ({ s with u := { s.u with val := fun r c => stabilityFunction (formattedTable deck.rk) (lam * dt) * s.u.val r c }
                t := s.t + dt
                n := s.n + 1 } : Sol ℝ).applyBc := by
  intro s
  have h := C06_textbook_step env deck sol (fun A => { A with val := fun r c => lam * A.val r c }) hlim hR k dt o d hrun hdt
  rw [h, C10_same_table]
  exact congrArg (fun v => ({ s with u := { s.u with val := v }, t := s.t + dt, n := s.n + 1 } : Sol ℝ).applyBc)
    (C10_stability_function (tableOf deck.rk) (tableOf_explicit deck.rk) (ℕ → ℕ → ℝ) lam dt s.u.val)

/-- The decay `u' = -u` with rk4: the hypotheses of C10 hold (any order of `Ex.sol2`, first iteration). -/
example : (∀ s : Sol ℚ, SameSetup s Ex.sol2 → ∃ s', Ex.decay.residual s = .ok (s', { s.u with val := fun r c => -1 * s.u.val r c }) ∧ SameSetup s' Ex.sol2) ∧
    (Scheme.run (.classic rk4) Ex.decay Ex.deck Ex.sol2 1).status = .running ∧
    ∃ dt o d, getNextTimeStep (Scheme.run (.classic rk4) Ex.decay Ex.deck Ex.sol2 1).sol
      (Scheme.run (.classic rk4) Ex.decay Ex.deck Ex.sol2 1).tout Ex.deck.cfl Ex.deck.finaltime = .ok (dt, o, d) :=
  ⟨fun s h => ⟨s, rfl, h⟩, by decide +kernel, 1 / 20, false, false, by decide +kernel⟩

/-- C10 hypotheses are met by the shipped tables, e.g. rk4 with value `65/24` at `z = 1`. -/
example : (∀ k < rk4.coeffs.length, ∀ j < rk4.coeffs.length, k ≤ j → rk4.beta k j = 0) ∧
    stabilityFunction rk4 1 = 65 / 24 := by
  have he : ∀ k < rk4.coeffs.length, ∀ j < rk4.coeffs.length, k ≤ j → rk4.beta k j = 0 := by decide +kernel
  refine ⟨he, ?_⟩
  rw [stability_eq rk4 he]
  have : rkStep rk4.coeffs rk4.beta (fun v : ℚ => (1 : ℚ) • v) 1 1 = 65 / 24 := by
    unfold rkStep
    rw [show rk4.coeffs.length = 4 from rfl]
    simp only [Finset.sum_range_succ, Finset.sum_range_zero]
    repeat rw [stageValue]
    simp only [Fin.sum_univ_succ, Finset.univ_eq_empty, Finset.sum_empty]
    repeat rw [stageValue]
    simp [Fin.sum_univ_succ]
    decide +kernel
  rw [rkStep_scalar] at this
  simpa using this

/-! ### C11 -/

/-- **C11** Any deck string that is not one of the nine known names (the empty default included) gives
the run of 'rk4'. -/
theorem C11_default (env : Env ℝ) (deck : RkDeck ℝ) (sol : Sol ℝ) (k : ℕ)
    (h : deck.rk ∉ ["low_storage_rk4", "rk3", "rk4", "rk5", "rk6", "rk8", "rk10", "rk12", "rk14"]) :
    integrate env deck sol k = integrate env { deck with rk := "rk4" } sol k := by
  have hs : schemeFor deck.rk = schemeFor "rk4" := by
    simp only [List.mem_cons, List.not_mem_nil, or_false, not_or] at h
    unfold schemeFor
    simp [h]
  unfold integrate
  rw [hs]
  rfl

/-- Number of stages of the method a deck string names. -/
def namedStages (rk : String) : ℕ :=
  if rk = "rk3" then 3 else if rk = "rk5" then 6 else if rk = "rk6" then 7 else if rk = "rk8" then 13
  else if rk = "rk10" then 17 else if rk = "rk12" then 25 else if rk = "rk14" then 35 else 4

private lemma stages_named (rk : String) : (schemeFor rk).stages = namedStages rk := by
  by_cases h0 : rk = "low_storage_rk4"
  · subst h0; simp [schemeFor, namedStages, Scheme.stages]
  by_cases h3 : rk = "rk3"
  · subst h3; simp [schemeFor, namedStages, Scheme.stages, Tableau.map]; rfl
  by_cases h4 : rk = "rk4"
  · subst h4; simp [schemeFor, namedStages, Scheme.stages, Tableau.map]; rfl
  by_cases h5 : rk = "rk5"
  · subst h5; simp [schemeFor, namedStages, Scheme.stages, Tableau.map]; rfl
  by_cases h6 : rk = "rk6"
  · subst h6; simp [schemeFor, namedStages, Scheme.stages]; rfl
  by_cases h8 : rk = "rk8"
  · subst h8; simp [schemeFor, namedStages, Scheme.stages, Tableau.map]; rfl
  by_cases h10 : rk = "rk10"
  · subst h10; simp [schemeFor, namedStages, Scheme.stages, Tableau.map]; rfl
  by_cases h12 : rk = "rk12"
  · subst h12; simp [schemeFor, namedStages, Scheme.stages, Tableau.map]; rfl
  by_cases h14 : rk = "rk14"
  · subst h14; simp [schemeFor, namedStages, Scheme.stages, Tableau.map]; rfl
  simp [schemeFor, namedStages, Scheme.stages, Tableau.map, h0, h3, h4, h5, h6, h8, h10, h12, h14]; rfl

/-- **C11** Each deck string runs the scheme with the number of stages it names, 4 for every unknown
string: after `k` completed iterations the residual has been evaluated `k` times that number. The
calls are counted by letting the residual increment the step counter of the solution it is given (the
work copy, which nothing else touches). -/
theorem C11_residual_evaluations (env : Env ℝ) (deck : RkDeck ℝ) (sol : Sol ℝ) (k : ℕ)
    (hres : ∀ s s' F, env.residual s = .ok (s', F) → s'.n = s.n + 1)
    (hlim : ∀ s s', env.limit s = .ok s' → s'.n = s.n)
    (hrun : (integrate env deck sol k).status = .running) :
    (integrate env deck sol k).work.n = sol.n + k * namedStages deck.rk := by
  rw [← stages_named]
  apply run_count (schemeFor deck.rk) ?_ hres hlim deck sol k hrun
  intro tab htab
  have := (tableOf_fine deck.rk).len
  unfold tableOf at this
  rw [htab] at this
  exact this

/-- **C11** What each of the known names selects, by its number of stages and weights: the tables of
different names are different, so no two names (except rk4 / low_storage_rk4) run the same scheme. -/
theorem C11_names_distinct (a b : String)
    (ha : a ∈ ["rk3", "rk4", "rk5", "rk6", "rk8", "rk10", "rk12", "rk14"])
    (hb : b ∈ ["rk3", "rk4", "rk5", "rk6", "rk8", "rk10", "rk12", "rk14"])
    (h : schemeFor a = schemeFor b) : a = b := by
  have : namedStages a = namedStages b := by rw [← stages_named, ← stages_named, h]
  revert this
  simp only [List.mem_cons, List.not_mem_nil, or_false] at ha hb
  rcases ha with rfl | rfl | rfl | rfl | rfl | rfl | rfl | rfl <;>
    rcases hb with rfl | rfl | rfl | rfl | rfl | rfl | rfl | rfl <;> simp [namedStages]

/-- Non-vacuity of C11: a counting residual on the two-cell problem; with rk5's table three iterations
make 18 evaluations. -/
example :
    let env : Env ℚ := ⟨fun s => .ok ({ s with n := s.n + 1 }, Arr.zeros 2 4), fun s => .ok s⟩
    (Scheme.run (.classic rk5) env Ex.deck Ex.sol2 3).status = .running ∧
    (Scheme.run (.classic rk5) env Ex.deck Ex.sol2 3).work.n = 18 := by
  refine ⟨?_, ?_⟩ <;> decide +kernel

end Dg1d.Props
