import Verif.Proofs.Energy
import Verif.Props.RungeKutta
import Verif.Props.Regressions
import Verif.Props.Limiter
import Verif.Props.ExamplesReal

/-! # Linear advection: the fully discrete scheme does not gain energy (C75) -/

set_option linter.unusedSectionVars false

open Polynomial Dg1d.Spec

namespace Dg1d.Props

section
variable {s : Sol ℝ} {lib : GaussLib ℝ} {p : ℕ}

lemma energy_eq (hb : s.Built lib p) {a : Sol ℝ} (ha : Like a s) (f : ℕ) : energy a f = s.dx / 2 * cellForm s p f a.u.val a.u.val := by
  unfold energy cellPoly
  rw [ha.setup.dx, ha.setup.NE, ha.setup.NF, ha.rows, hb.rows, cellForm_apply]
  congr 1
  refine Finset.sum_congr rfl fun e _ => ?_
  rw [pow_two, intPoly_sq]

lemma energy_applyBc {c : Sol ℝ} (hb : c.Built lib p) {f : ℕ} (hf : f < c.NF) : energy c.applyBc f = energy c f := by
  rw [energy_eq hb (Like.refl c).applyBc, energy_eq hb (Like.refl c), cellForm_apply, cellForm_apply]
  congr 1
  refine Finset.sum_congr rfl fun e he => Finset.sum_congr rfl fun n _ => ?_
  rw [Finset.mem_Icc] at he
  rw [(Like.refl c).applyBc_val hb.wf, bcCol_interior c he.1 he.2 hf]

lemma outputPhase_log (st : LoopState ℝ) (sol : Sol ℝ) (dt : ℝ) (o d : Bool) :
    (outputPhase st sol dt o d).log = st.log ∨ (outputPhase st sol dt o d).log = st.log ++ [⟨st.nout, dt, sol⟩] := by
  unfold outputPhase
  split
  · right
    simp only
    split
    · rfl
    · split <;> rfl
  · exact .inl rfl

/-- The step taken for linear advection is at most the CFL step. -/
lemma advection_dt {a : Sol ℝ} (hk : a.kw = Advection.physics) {tout cfl tf dt : ℝ} {o d : Bool}
    (h : getNextTimeStep a tout cfl tf = .ok (dt, o, d)) : dt ≤ a.dx * cfl / (2 * (a.basis.p : ℝ) + 1) := by
  have hden : (1 : ℝ) * (2 * (a.basis.p : ℝ) + 1) ≠ 0 := by positivity
  have hc : cflTimeStep a cfl = .ok (.fin (a.dx * cfl / (2 * (a.basis.p : ℝ) + 1))) := by
    unfold cflTimeStep
    rw [hk]
    show (if _ then _ else _) = _
    rw [if_neg hden, one_mul]
  unfold getNextTimeStep at h
  rw [hc] at h
  simp only at h
  split at h
  · cases h
  · simp only [Except.ok.injEq] at h
    unfold adjustForOutput at h
    split_ifs at h with h1 h2 <;> cases h
    · exact h1.le
    · exact h2.le
    · exact le_rfl

/-- One iteration leaves the log alone or appends the new solution. -/
lemma integrate_log (env : Env ℝ) (hlim : env.KeepsClock) (deck : RkDeck ℝ) (s : Sol ℝ) (k : ℕ) :
    (integrate env deck s (k + 1)).log = (integrate env deck s k).log ∨
    ∃ n dt, (integrate env deck s (k + 1)).log = (integrate env deck s k).log ++ [⟨n, dt, (integrate env deck s (k + 1)).sol⟩] := by
  unfold integrate Scheme.run
  rw [runLoop_succ]
  set st := runLoop env deck ((schemeFor deck.rk).inner env) s k
  by_cases hr : st.status = .running
  · rcases loopBody_cases (deck := deck) hlim (Scheme.inner_keepsClock env _) hr with ⟨e, -, hl, -⟩ | ⟨dt, o, d, st1, sol', -, hs, -, -, heq⟩
    · exact .inl hl
    · rw [heq, (outputPhase_sol _ _ _ _ _).1]
      rcases outputPhase_log st1 sol' dt o d with h | h
      · left; rw [h, hs.2.2.2.2]
      · right; exact ⟨_, _, by rw [h, hs.2.2.2.2]⟩
  · rw [loopBody_stopped hr]
    exact .inl rfl

/-- Without limiter, an iteration that does not get a time step leaves the solution alone. -/
lemma integrate_idle (env : Env ℝ) (deck : RkDeck ℝ) (s : Sol ℝ) (k : ℕ)
    (h : (integrate env deck s k).status ≠ .running ∨
      ∃ e, getNextTimeStep (integrate env deck s k).sol (integrate env deck s k).tout deck.cfl deck.finaltime = .error e) :
    (integrate env deck s (k + 1)).sol = (integrate env deck s k).sol := by
  unfold integrate Scheme.run at h ⊢
  rw [runLoop_succ]
  set st := runLoop env deck ((schemeFor deck.rk).inner env) s k
  by_cases hr : st.status = .running
  · obtain ⟨e, he⟩ := h.resolve_left (not_not.mpr hr)
    unfold loopBody
    rw [hr, he]
  · rw [loopBody_stopped hr]

/-- One iteration of 'rk3', 'rk4' or 'low_storage_rk4' for linear advection without limiter is a Taylor step of the advection operator. -/
lemma advection_step (hb : s.Built lib p) (hk : s.kw = Advection.physics) (hen : s.enhance = none) {lim : Sol ℝ → Except PyErr (Sol ℝ)}
    (hlim : ∀ a, lim a = .ok a) (deck : RkDeck ℝ) (hrk : deck.rk ∈ ["rk3", "rk4", "low_storage_rk4"]) (k : ℕ)
    (hlike : Like (integrate ⟨residual, lim⟩ deck s k).sol s) {dt : ℝ} {o d : Bool} (hrun : (integrate ⟨residual, lim⟩ deck s k).status = .running)
    (hdt : getNextTimeStep (integrate ⟨residual, lim⟩ deck s k).sol (integrate ⟨residual, lim⟩ deck s k).tout deck.cfl deck.finaltime = .ok (dt, o, d)) :
    (integrate ⟨residual, lim⟩ deck s (k + 1)).sol.t = (integrate ⟨residual, lim⟩ deck s k).sol.t + dt ∧
    Like (integrate ⟨residual, lim⟩ deck s (k + 1)).sol s ∧
    ∀ n, ∀ e, 1 ≤ e → e ≤ s.NE → ∀ f < s.NF, (integrate ⟨residual, lim⟩ deck s (k + 1)).sol.u.val n (e * s.NF + f) =
      (∑ m ∈ Finset.range (promisedOrder deck.rk + 1), (dt ^ m / (m.factorial : ℝ)) • (advLin s hb.wf ^ m) (integrate ⟨residual, lim⟩ deck s k).sol.u.val) n (e * s.NF + f) := by
  set run := integrate ⟨residual, lim⟩ deck s with hrundef
  have hR : ∀ a, SameSetup a s → ∃ s', (⟨residual, lim⟩ : Env ℝ).residual a = .ok (s', (fun u => advArr s (bcArr s u)) a.u) ∧ SameSetup s' s :=
    fun a ha => ⟨_, advArr_residual hk hen ha, (applyBc_setup a).trans ha⟩
  have hu : ∀ w : ℕ → ℕ → ℝ, ({ (run k).sol.u with val := w } : Arr ℝ) = { s.u with val := w } := by
    intro w
    obtain ⟨h1, h2⟩ := (⟨hlike.rows, hlike.cols⟩ : _ ∧ _)
    cases hu : (run k).sol.u
    cases hs : s.u
    simp only [hu, hs] at h1 h2
    simp only [h1, h2]
  have hst := C09_integrate_step ⟨residual, lim⟩ deck s (fun u => advArr s (bcArr s u)) hrk hlim hR k dt o d hrun hdt
    (advLin s hb.wf) (fun w => by
      show (advArr s (bcArr s { (run k).sol.u with val := w })).val = _
      rw [hu]; rfl)
  simp only at hst
  have hst : (run (k + 1)).sol = _ := hst
  rw [show (integrate ⟨residual, lim⟩ deck s k) = run k from rfl] at hst
  set w := ∑ m ∈ Finset.range (promisedOrder deck.rk + 1), (dt ^ m / (m.factorial : ℝ)) • (advLin s hb.wf ^ m) (run k).sol.u.val
  have hlw : Like ({ (run k).sol with u := { (run k).sol.u with val := w }, t := (run k).sol.t + dt, n := (run k).sol.n + 1 } : Sol ℝ) s :=
    ⟨SameSetup.trans (by constructor <;> rfl) hlike.setup, hlike.rows, hlike.cols⟩
  refine ⟨by rw [hst]; exact (applyBc_clock _).1, by rw [hst]; exact hlw.applyBc, ?_⟩
  intro n e h1 h2 f hf
  rw [hst, hlw.applyBc_val hb.wf, bcCol_interior s h1 h2 hf]

/-- **C75 (fully discrete energy stability).** Linear advection on a periodic domain with the third order scheme, without limiter
and enhancement, in exact arithmetic: when the CFL number is at most `(2p+1) / (3 (p+1)²)`, no iteration increases the integral of
`u²`, the energies of the successive outputs never increase, and all are bounded by the energy of the initial data. -/
theorem C75_rk3_energy (hb : s.Built lib p) (hk : s.kw = Advection.physics) (hen : s.enhance = none)
    (hl : s.bcl = .lit "periodic") (hr : s.bcr = .lit "periodic") (hdx : 0 < s.dx) (lim : Sol ℝ → Except PyErr (Sol ℝ))
    (hlim : ∀ a, lim a = .ok a) (deck : RkDeck ℝ) (hrk : deck.rk = "rk3") (hcfl : deck.cfl ≤ (2 * p + 1) / (3 * (p + 1) ^ 2))
    (ht : s.t ≤ deck.finaltime) (f : ℕ) (hf : f < s.NF) (k : ℕ) :
    let run := integrate ⟨residual, lim⟩ deck s
    energy (run (k + 1)).sol f ≤ energy (run k).sol f ∧
    ((run k).log.map fun o => energy o.sol f).Pairwise (· ≥ ·) ∧
    ∀ o ∈ (run k).log, energy o.sol f ≤ energy s f := by
  intro run
  have hkc : (⟨residual, lim⟩ : Env ℝ).KeepsClock := by
    intro a b h
    have : lim a = .ok b := h
    rw [hlim] at this
    cases this
    exact ⟨rfl, rfl⟩
  have step : ∀ k, Like (run k).sol s → Like (run (k + 1)).sol s ∧ energy (run (k + 1)).sol f ≤ energy (run k).sol f := by
    intro k hlike
    by_cases hidle : (run k).status ≠ .running ∨ ∃ e, getNextTimeStep (run k).sol (run k).tout deck.cfl deck.finaltime = .error e
    · rw [show (run (k + 1)).sol = (run k).sol from integrate_idle _ deck s k hidle]
      exact ⟨hlike, le_rfl⟩
    push Not at hidle
    obtain ⟨hrun, hne⟩ := hidle
    cases hdt : getNextTimeStep (run k).sol (run k).tout deck.cfl deck.finaltime with
    | error e => exact absurd hdt (hne e)
    | ok v =>
    obtain ⟨dt, o, d⟩ := v
    obtain ⟨-, hl1, hval⟩ := advection_step hb hk hen hlim deck (by rw [hrk]; simp) k hlike hrun hdt
    have horder : promisedOrder deck.rk = 3 := by rw [hrk]; rfl
    have hsum : ∑ m ∈ Finset.range (3 + 1), (dt ^ m / (m.factorial : ℝ)) • (advLin s hb.wf ^ m) (run k).sol.u.val =
        (run k).sol.u.val + dt • advLin s hb.wf (run k).sol.u.val + (dt ^ 2 / 2) • advLin s hb.wf (advLin s hb.wf (run k).sol.u.val) +
          (dt ^ 3 / 6) • advLin s hb.wf (advLin s hb.wf (advLin s hb.wf (run k).sol.u.val)) := by
      simp only [Finset.sum_range_succ, Finset.sum_range_zero, zero_add, pow_zero, Nat.factorial, Nat.cast_one, div_one, one_smul,
        Module.End.one_apply, pow_succ, Module.End.mul_apply, one_mul, mul_one]
      norm_num
    rw [horder] at hval
    have hinv := timeInv_run hkc (schemeFor deck.rk) deck s ht k
    have hinv' : (run k).sol.t ≤ deck.finaltime ∧ (run k).sol.t ≤ (run k).tout := ⟨hinv.hi, (hinv.run hrun).2.2.2.2.1⟩
    have h0 : 0 ≤ dt := by
      rcases getNext_cases hdt with ⟨-, -, h⟩ | ⟨-, -, h, -⟩ | ⟨-, -, h, -⟩
      · linarith [hinv'.1]
      · linarith [hinv'.2]
      · exact le_trans (by positivity) h
    have h1 : 3 * ((p : ℝ) + 1) ^ 2 * dt ≤ s.dx := by
      have hd := advection_dt (hlike.setup.kw.trans hk) hdt
      rw [hlike.setup.dx, hlike.setup.basis, show s.basis.p = p by rw [hb.basis]; rfl] at hd
      have hpos : (0 : ℝ) < 2 * p + 1 := by positivity
      have hpos2 : (0 : ℝ) < 3 * (p + 1) ^ 2 := by positivity
      rw [le_div_iff₀ hpos] at hd
      rw [le_div_iff₀ hpos2] at hcfl
      have : s.dx * (deck.cfl * (3 * (p + 1) ^ 2)) ≤ s.dx * (2 * p + 1) := mul_le_mul_of_nonneg_left hcfl hdx.le
      have h2 : 3 * ((p : ℝ) + 1) ^ 2 * (dt * (2 * p + 1)) ≤ 3 * ((p : ℝ) + 1) ^ 2 * (s.dx * deck.cfl) := mul_le_mul_of_nonneg_left hd hpos2.le
      have h3 : (3 * ((p : ℝ) + 1) ^ 2 * dt) * (2 * p + 1) ≤ s.dx * (2 * p + 1) := by linarith
      exact le_of_mul_le_mul_right h3 hpos
    have htay := advLin_taylor3 hb hk hen hl hr hdx hf dt h0 h1 (run k).sol.u.val
    simp only at htay
    rw [← hsum] at htay
    refine ⟨hl1, ?_⟩
    rw [energy_eq hb hl1, energy_eq hb hlike]
    refine mul_le_mul_of_nonneg_left ?_ (by positivity)
    refine le_trans (le_of_eq ?_) htay
    rw [cellForm_apply, cellForm_apply]
    refine Finset.sum_congr rfl fun e he => Finset.sum_congr rfl fun n _ => ?_
    rw [Finset.mem_Icc] at he
    rw [show (run (k + 1)).sol.u.val n (e * s.NF + f) = _ from hval n e he.1 he.2 f hf]
  have hall : ∀ k, Like (run k).sol s ∧ (∃ l, (run k).log = ⟨0, 0, s⟩ :: l) ∧ ((run k).log.map fun o => energy o.sol f).Pairwise (· ≥ ·) ∧
      ∀ o ∈ (run k).log, energy (run k).sol f ≤ energy o.sol f := by
    intro k
    induction k with
    | zero =>
      have h0 : (run 0).sol = s ∧ (run 0).log = [⟨0, 0, s⟩] := by
        show (initLoop deck s).sol = s ∧ (initLoop deck s).log = _
        unfold initLoop
        simp only
        split <;> exact ⟨rfl, rfl⟩
      rw [h0.1, h0.2]
      exact ⟨Like.refl s, ⟨[], rfl⟩, by simp, by simp⟩
    | succ k ih =>
      obtain ⟨h1, ⟨l, h2⟩, h3, h4⟩ := ih
      obtain ⟨g1, g2⟩ := step k h1
      rcases integrate_log ⟨residual, lim⟩ hkc deck s k with h | ⟨n, dt, h⟩
      · have h : (run (k + 1)).log = (run k).log := h
        rw [h]
        exact ⟨g1, ⟨l, h2⟩, h3, fun o ho => g2.trans (h4 o ho)⟩
      · have h : (run (k + 1)).log = (run k).log ++ [⟨n, dt, (run (k + 1)).sol⟩] := h
        rw [h]
        refine ⟨g1, ⟨l ++ [⟨n, dt, (run (k + 1)).sol⟩], by rw [h2]; rfl⟩, ?_, ?_⟩
        · rw [List.map_append, List.pairwise_append]
          refine ⟨h3, by simp, ?_⟩
          intro a ha b hb'
          simp only [List.map_cons, List.map_nil, List.mem_singleton] at hb'
          obtain ⟨r, hrm, rfl⟩ := List.mem_map.mp ha
          rw [hb']
          exact g2.trans (h4 r hrm)
        · intro o ho
          rcases List.mem_append.mp ho with ho | ho
          · exact g2.trans (h4 o ho)
          · rw [List.mem_singleton] at ho
            rw [ho]
  obtain ⟨h1, ⟨l, h2⟩, h3, h4⟩ := hall k
  refine ⟨(step k h1).2, h3, ?_⟩
  rw [h2, List.map_cons, List.pairwise_cons] at h3
  intro o ho
  rw [h2, List.mem_cons] at ho
  rcases ho with rfl | ho
  · exact le_rfl
  · exact h3.1 _ (List.mem_map_of_mem ho)

/-- C75 on three cells of any order, at the largest CFL number allowed. -/
example (p k : ℕ) : let run := integrate ⟨residual, fun s => .ok s⟩ ⟨"rk3", 1, 10, (2 * p + 1) / (3 * (p + 1) ^ 2)⟩ (Ex.solR p)
    energy (run (k + 1)).sol 0 ≤ energy (run k).sol 0 :=
  (C75_rk3_energy (Ex.solR_built p) rfl rfl rfl rfl (by norm_num [Ex.solR]) (fun s => .ok s) (fun _ => rfl) _ rfl le_rfl (by norm_num [Ex.solR]) 0
    (by norm_num [Ex.solR]) k).1

/-- The energy is not trivial: that of the data in the example is positive. -/
example (p : ℕ) : 0 < energy (Ex.solR p) 0 := by
  rw [energy_eq (Ex.solR_built p) (Like.refl _), cellForm_apply]
  refine mul_pos (by norm_num [Ex.solR]) (Finset.sum_pos (fun e he => ?_) ⟨1, by simp [Ex.solR]⟩)
  refine Finset.sum_pos (fun n _ => ?_) ⟨0, by simp⟩
  rw [Finset.mem_Icc] at he
  have : (1 : ℝ) ≤ e := by exact_mod_cast he.1
  simp only [Ex.solR, mul_one, add_zero]
  positivity

end

section
variable {lib : GaussLib ℝ} {ft : FloatText ℝ} {d : Deck ℝ} {p N : ℕ} {ic : IC.Setup}
open Text

/-- **C75 from the deck.** An advection deck with a periodic initial condition, `rk3`, no limiter, no enhancement line and a CFL
number of at most `(2p+1) / (3 (p+1)²)`: the energies of the output sets never increase and are bounded by that of the projected initial
condition. -/
theorem C75_deck (hlib : lib.Ok) (junk : ℕ → ℝ) (hd : ValidDeck lib ft d p N ic) (hsys : d.system ≠ "euler".toList) (hper : ic.bc = "periodic")
    (hrk : d.rk = "rk3".toList) (hlim : d.limiting ≠ "adaptive_hr".toList) (hen : d.enhance = [])
    (hcfl : d.cfl ≤ (2 * p + 1) / (3 * (p + 1) ^ 2)) (hT : 0 ≤ d.finaltime) (k : ℕ) :
    ∃ c s lm, construct lib ft junk d.ic d.system d.order d.riemann d.enhance d.sensorThresholds = .ok c ∧ start lib ft junk d = .ok (s, lm) ∧
      let log := (integrate ⟨residual, lm.limit⟩ d.rkDeck s k).log
      (log.map fun o => energy o.sol 0).Pairwise (· ≥ ·) ∧ ∀ o ∈ log, energy o.sol 0 ≤ energy c.sol 0 := by
  obtain ⟨c, s, lm, hc, hst, S⟩ := C69_starts hlib junk hd
  refine ⟨c, s, lm, hc, hst, ?_⟩
  intro log
  have hAB : ic.A < ic.B := by
    obtain ⟨name, p0, rest, -, -, l3, -⟩ := hd.line
    exact (setupOf_facts l3).1
  have hN : (0 : ℝ) < N := by exact_mod_cast hd.cells
  have hdx : 0 < s.dx := by rw [S.mesh.width]; exact div_pos (by linarith) hN
  have hl : ∀ a, lm.limit a = .ok a := by
    intro a
    have hne : String.ofList d.limiting ≠ "adaptive_hr" := by
      intro h
      apply hlim
      rw [← h, String.toList_ofList]
    obtain ⟨lm', h1, h2⟩ := C57_disabled (String.ofList d.limiting) hne s a
    rw [S.limiter] at h1
    cases h1
    exact h2
  have hs : s = c.sol.applyBc := S.unlimited hlim
  have henh : s.enhance = none := by
    have := S.enhance
    rw [hen] at this
    unfold enhancementOf at this
    rw [if_pos rfl] at this
    cases h : s.enhance with
    | none => rfl
    | some x => rw [h] at this; cases this
  have key := C75_rk3_energy S.built (S.physics.advection hsys).1 henh (by rw [S.bc.1, hper]) (by rw [S.bc.2, hper]) hdx lm.limit hl d.rkDeck
    (by show String.ofList d.rk = "rk3"; rw [hrk, String.ofList_toList]) hcfl (by rw [S.clock.1]; exact hT) 0 S.built.NF k
  refine ⟨key.2.1, fun o ho => (key.2.2 o ho).trans_eq ?_⟩
  rw [hs]
  exact energy_applyBc S.kin.1 S.kin.1.NF

/-- The sine wave with rk3. -/
noncomputable def Ex.sine3 : Deck ℝ := { Ex.sineDeck with rk := "rk3".toList, cfl := 1 / 5 }

lemma Ex.sine3_valid : ValidDeck realGauss Ex.decReal Ex.sine3 1 8 IC.sinewave where
  order := rfl
  cells := by norm_num
  line := Ex.sine_valid.line
  enhance := C67_no_enhancement _ _
  limiter := fun h => absurd (show ([] : Str) = "adaptive_hr".toList from h) (by decide)

example (k : ℕ) : ∃ (c : Partial) (s : Sol ℝ) (lm : Limiter ℝ), ∀ o ∈ (integrate ⟨residual, lm.limit⟩ Ex.sine3.rkDeck s k).log,
    energy o.sol 0 ≤ energy c.sol 0 := by
  obtain ⟨c, s, lm, -, -, -, h⟩ := C75_deck realGauss_ok (fun _ => 0) Ex.sine3_valid (show "advection".toList ≠ "euler".toList by decide) rfl rfl
    (show ([] : Str) ≠ "adaptive_hr".toList by decide) rfl (show (1 / 5 : ℝ) ≤ (2 * (1 : ℕ) + 1) / (3 * ((1 : ℕ) + 1) ^ 2) by norm_num)
    (show (0 : ℝ) ≤ 1 by norm_num) k
  exact ⟨c, s, lm, h⟩

end
end Dg1d.Props
