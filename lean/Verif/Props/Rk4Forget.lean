import Verif.Props.Rk4Energy

/-!
# C114 — with the fourth order schemes advection on a periodic domain forgets its initial data as well
-/

set_option linter.unusedSectionVars false

open Polynomial Dg1d.Spec

namespace Dg1d.Props
open Text

variable {s : Sol ℝ} {lib : GaussLib ℝ} {p N : ℕ} {ft : FloatText ℝ} {d : Deck ℝ} {ic : IC.Setup}

/-- Decay over one output interval: pairs of equal steps, then at most one more. -/
lemma interval_decay (e l : ℕ → ℝ) (K : ℕ) {ρ : ℝ} (hρ : 0 ≤ ρ) (hl : ∀ i, 0 ≤ l i) (h2 : ∀ i < K, e (i + 1) + 7 / 864 * l (i + 1) ≤ e i + 1 / 48 * l i)
    (h3 : ∀ i, i + 2 ≤ K → e (i + 2) + 1 / 48 * l (i + 2) ≤ ρ * e i) (hK : 2 ≤ K) : e K + 7 / 864 * l K ≤ ρ ^ (K / 2) * e 0 := by
  have even : ∀ i, 2 * (i + 1) ≤ K → e (2 * (i + 1)) + 1 / 48 * l (2 * (i + 1)) ≤ ρ ^ (i + 1) * e 0 := by
    intro i
    induction i with
    | zero =>
      intro hi
      have := h3 0 hi
      simpa using this
    | succ i ih =>
      intro hi
      have h := ih (by omega)
      have g := h3 (2 * (i + 1)) (by omega)
      have : e (2 * (i + 1)) ≤ ρ ^ (i + 1) * e 0 := by linarith [hl (2 * (i + 1))]
      have := mul_le_mul_of_nonneg_left this hρ
      rw [show 2 * (i + 1 + 1) = 2 * (i + 1) + 2 by ring, pow_succ' ρ (i + 1), mul_assoc]
      exact g.trans this
  obtain ⟨j, hj | hj⟩ := Nat.even_or_odd' K
  · obtain ⟨i, rfl⟩ : ∃ i, j = i + 1 := ⟨j - 1, by omega⟩
    have := even i (by omega)
    rw [hj, Nat.mul_div_cancel_left _ (by norm_num)]
    linarith [hl (2 * (i + 1))]
  · obtain ⟨i, rfl⟩ : ∃ i, j = i + 1 := ⟨j - 1, by omega⟩
    have h := h2 (2 * (i + 1)) (by omega)
    rw [hj, show (2 * (i + 1) + 1) / 2 = i + 1 by omega]
    exact h.trans (even i (by omega))

/-- The total is the sum of the means. -/
lemma total_means (hb : s.Built lib p) {a : Sol ℝ} (ha : Like a s) (f : ℕ) : total a f = sumMeans s f a.u.val := by
  unfold total sumMeans
  rw [ha.setup.NE]
  refine Finset.sum_congr rfl fun e _ => ?_
  rw [cellMean_eq (by rw [ha.rows, hb.rows]; omega), ha.setup.NF]

/-- A step keeps the sum of the means. -/
lemma rk4_means (hb : s.Built lib p) (hk : s.kw = Advection.physics) (hen : s.enhance = none) (hl : s.bcl = .lit "periodic") (hr : s.bcr = .lit "periodic")
    {f : ℕ} (hf : f < s.NF) (c : ℝ) {v w : ℕ → ℕ → ℝ} (h : Agree s p f w (rk4Step (c • advLin s hb.wf) v)) : sumMeans s f w = sumMeans s f v := by
  have hz : ∀ x, ∑ e ∈ Finset.Icc 1 s.NE, advLin s hb.wf x 0 (e * s.NF + f) = 0 := advLin_sum hb hk hen hl hr hf
  unfold sumMeans
  rw [Finset.sum_congr rfl fun e he => h 0 (by omega) e (Finset.mem_Icc.mp he).1 (Finset.mem_Icc.mp he).2]
  simp only [rk4Step, LinearMap.smul_apply, map_smul, Pi.add_apply, Pi.smul_apply, smul_eq_mul, Finset.sum_add_distrib, ← Finset.mul_sum, hz, mul_zero, add_zero]

/-- Two equal steps reduce the distance from the mean. -/
lemma rk4_pair_decay (hb : s.Built lib p) (hk : s.kw = Advection.physics) (hen : s.enhance = none) (hl : s.bcl = .lit "periodic") (hr : s.bcr = .lit "periodic") (hdx : 0 < s.dx)
    {f : ℕ} (hf : f < s.NF) {c : ℝ} (hc : 0 < c)
    (hco : ∀ v, c * (cellForm s p f v v - 2 * sumMeans s f v ^ 2 / s.NE) ≤ cellForm s p f (advLin s hb.wf v) (advLin s hb.wf v))
    {h : ℝ} (h0 : 0 ≤ h) (h1 : 18 * ((p : ℝ) + 1) ^ 2 * h ≤ s.dx) (v : ℕ → ℕ → ℝ) :
    let R := rk4Step (h • advLin s hb.wf)
    cellForm s p f (R (R v)) (R (R v)) - 2 * sumMeans s f v ^ 2 / s.NE + 1 / 48 * gainRoom s hb.wf p f h (R (R v)) ≤
      (1 - c ^ 3 / 1000 * h ^ 6) * (cellForm s p f v v - 2 * sumMeans s f v ^ 2 / s.NE) := by
  intro R
  have g := (rk4_advection hb hk hen hl hr hdx hf h0 h1 v).2.2.2.2
  simp only at g
  have hz : ∀ x, sumMeans s f (advLin s hb.wf x) = 0 := advLin_sum hb hk hen hl hr hf
  have g1 := hco v
  have g2 := hco (advLin s hb.wf v)
  have g3 := hco (advLin s hb.wf (advLin s hb.wf v))
  rw [hz, zero_pow two_ne_zero, mul_zero, zero_div, sub_zero] at g2 g3
  have g4 : c ^ 3 * (cellForm s p f v v - 2 * sumMeans s f v ^ 2 / s.NE) ≤
      cellForm s p f (advLin s hb.wf (advLin s hb.wf (advLin s hb.wf v))) (advLin s hb.wf (advLin s hb.wf (advLin s hb.wf v))) := by
    refine le_trans ?_ g3
    have e2 := mul_le_mul_of_nonneg_left g2 hc.le
    have e1 := mul_le_mul_of_nonneg_left g1 (mul_nonneg hc.le hc.le)
    linarith
  have g5 := mul_le_mul_of_nonneg_left g4 (show 0 ≤ h ^ 6 by positivity)
  linarith

/-- **C114 (fourth order).** Linear advection on a periodic domain, 'rk4' or 'low_storage_rk4', no limiter, no enhancement, CFL number at most `(2p+1) / (18 (p+1)²)`. For every CFL step `δ` there
is a factor `ρ < 1`, the same for all data on the mesh, all final times and all numbers of outputs at least two CFL steps apart: the total is the same in all outputs, the squared distance from
the mean in output `q` is at most `ρ ^ (q ⌊K/2⌋)` times that of the data, `K` the number of CFL steps that fit between two outputs, and so it is with `q = M` in the final state. -/
theorem C114_rk4 (hb : s.Built lib p) (hk : s.kw = Advection.physics) (hen : s.enhance = none) (hl : s.bcl = .lit "periodic") (hr : s.bcr = .lit "periodic") (hdx : 0 < s.dx)
    {δ : ℝ} (hbig : 1 / 10 ^ 14 ≤ δ) (f : ℕ) (hf : f < s.NF) :
    ∃ ρ : ℝ, 0 ≤ ρ ∧ ρ < 1 ∧ ∀ (a : Sol ℝ) (deck : RkDeck ℝ) (lim : Sol ℝ → Except PyErr (Sol ℝ)) (M : ℕ), Like a s → (∀ b, lim b = .ok b) → deck.rk ∈ ["rk4", "low_storage_rk4"] →
      deck.cfl ≤ (2 * p + 1) / (18 * (p + 1) ^ 2) → δ = s.dx * deck.cfl / (2 * p + 1) → 1 ≤ M → deck.nout = M + 1 → a.t ≤ deck.finaltime → 2 * δ ≤ (deck.finaltime - a.t) / M →
      let K := ⌊(deck.finaltime - a.t) / M / δ⌋₊
      ∀ k, (∀ o ∈ (integrate ⟨residual, lim⟩ deck a k).log, total o.sol f = total a f ∧ spread o.sol f ≤ ρ ^ (o.nout * (K / 2)) * spread a f) ∧
        (M * (K + 1) ≤ k → (integrate ⟨residual, lim⟩ deck a k).status = .done ∧ spread (integrate ⟨residual, lim⟩ deck a k).sol f ≤ ρ ^ (M * (K / 2)) * spread a f) := by
  have hδ0 : 0 < δ := lt_of_lt_of_le (by norm_num) hbig
  obtain ⟨c, hc, hco0⟩ := advLin_coercive hb hk hen hl hr hf
  set ρ := max 0 (1 - c ^ 3 / 1000 * δ ^ 6) with hρ
  have hρ0 : 0 ≤ ρ := le_max_left _ _
  have hρ1 : ρ < 1 := max_lt one_pos (by have : 0 < c ^ 3 / 1000 * δ ^ 6 := by positivity
                                         linarith)
  refine ⟨ρ, hρ0, hρ1, fun a deck lim M ha hlim hrk hcfl hδ hM hnout hts hfit => ?_⟩
  intro K k
  have hco := coercive_like hb hk hen hl hr hf ha hco0
  have hba := ha.built hb
  have hka : a.kw = Advection.physics := ha.setup.kw.trans hk
  have hena : a.enhance = none := ha.setup.enhance.trans hen
  have hla : a.bcl = .lit "periodic" := ha.setup.bcl.trans hl
  have hra : a.bcr = .lit "periodic" := ha.setup.bcr.trans hr
  have hdxa : 0 < a.dx := by rw [ha.setup.dx]; exact hdx
  have hfa : f < a.NF := by rw [ha.setup.NF]; exact hf
  have h := steady_built hba hka hlim deck (by rw [ha.setup.dx]; exact hδ) hbig (by omega) hts
  set τ := (deck.finaltime - a.t) / M with hτ
  set m := K + 1 with hm
  have hm0 : 0 < m := by omega
  have hK2 : 2 ≤ K := Nat.le_floor (by rw [le_div_iff₀ hδ0]; exact_mod_cast hfit)
  have hfit' : δ ≤ τ := by linarith
  have hcount := C113_counts h M m τ hnout hτ hfit' hm
  set run := integrate ⟨residual, lim⟩ deck a with hrun
  have hlk : ∀ j, Like (run j).sol a := rk4_like hba hka hena hlim deck hrk
  set S := sumMeans a f a.u.val with hS
  have hzero : (run 0).sol = a := run_zero_sol _ _ _ _
  -- the mean
  have hmean : ∀ j, sumMeans a f (run j).sol.u.val = S := by
    intro j
    induction j with
    | zero => rw [hzero]
    | succ j ih =>
      by_cases hidle : (run j).status ≠ .running ∨ ∃ e, getNextTimeStep (run j).sol (run j).tout deck.cfl deck.finaltime = .error e
      · rw [show (run (j + 1)).sol = (run j).sol from integrate_idle _ deck a j hidle]
        exact ih
      push Not at hidle
      obtain ⟨hr1, hne⟩ := hidle
      cases hdt : getNextTimeStep (run j).sol (run j).tout deck.cfl deck.finaltime with
      | error e => exact absurd hdt (hne e)
      | ok v =>
      obtain ⟨dt, o, dn⟩ := v
      obtain ⟨-, -, -, hag⟩ := rk4_iteration hba hka hena hdxa hlim deck hrk hcfl hts hfa j (hlk j) hr1 hdt
      rw [show sumMeans a f (run (j + 1)).sol.u.val = _ from rk4_means hba hka hena hla hra hfa dt hag]
      exact ih
  set e := fun j => cellForm a p f (run j).sol.u.val (run j).sol.u.val - 2 * S ^ 2 / a.NE with he
  set l := fun j => gainRoom a hba.wf p f δ (run j).sol.u.val with hldef
  have hsp : ∀ j, spread (run j).sol f = a.dx / 2 * e j := by
    intro j
    rw [spread_eq hba (hlk j), hmean j]
  have he0 : ∀ j, 0 ≤ e j := by
    intro j
    have h1 := spread_nonneg (a := (run j).sol) (by rw [(hlk j).setup.dx]; exact hdxa.le) f
    rw [hsp j] at h1
    exact nonneg_of_mul_nonneg_right h1 (by positivity)
  have hfull : ∀ j, j < M * m → j % m + 1 < m → 18 * ((p : ℝ) + 1) ^ 2 * δ ≤ a.dx ∧
      Agree a p f (run (j + 1)).sol.u.val (rk4Step (δ • advLin a hba.wf) (run j).sol.u.val) := by
    intro j hj hjm
    exact (rk4_iteration hba hka hena hdxa hlim deck hrk hcfl hts hfa j (hlk j) ((hcount j).1 hj).1 (h.full hnout hτ hfit' hm hj hjm)).2.2
  have interval : ∀ q < M, e ((q + 1) * m) ≤ ρ ^ (K / 2) * e (q * m) := by
    intro q hq
    have hqM : (q + 1) * m ≤ M * m := Nat.mul_le_mul_right _ hq
    have hqs : (q + 1) * m = q * m + K + 1 := by rw [hm]; ring
    have hst : ∀ i < K, 18 * ((p : ℝ) + 1) ^ 2 * δ ≤ a.dx ∧
        Agree a p f (run (q * m + (i + 1))).sol.u.val (rk4Step (δ • advLin a hba.wf) (run (q * m + i)).sol.u.val) := by
      intro i hi
      refine hfull (q * m + i) (by omega) ?_
      rw [mul_comm, Nat.mul_add_mod, Nat.mod_eq_of_lt (by omega)]
      omega
    have hδx := (hst 0 (by omega)).1
    have hlast := interval_decay (fun i => e (q * m + i)) (fun i => l (q * m + i)) K hρ0
      (fun i => (gainRoom_nonneg hba hka hena hla hra hdxa hfa hδ0.le le_rfl _).1)
      (fun i hi => by
        have ag := (hst i hi).2
        have g := (rk4_advection hba hka hena hla hra hdxa hfa hδ0.le hδx (run (q * m + i)).sol.u.val).2.1
        simp only at g
        rw [← ag.form ag, ← ag.room hba hka hena hla hra hfa δ] at g
        simp only [he, hldef]
        linarith)
      (fun i hi => by
        have ag := (hst i (by omega)).2
        have ag2 := (hst (i + 1) (by omega)).2
        have ag3 := ag.step hba hka hena hla hra hfa δ
        have g := rk4_pair_decay hba hka hena hla hra hdxa hfa hc hco hδ0.le hδx (run (q * m + i)).sol.u.val
        simp only at g
        rw [← ag3.form ag3, ← ag3.room hba hka hena hla hra hfa δ, ← ag2.form ag2, ← ag2.room hba hka hena hla hra hfa δ, hmean] at g
        exact g.trans (mul_le_mul_of_nonneg_right (le_max_right 0 _) (he0 (q * m + i))))
      hK2
    have hjM : q * m + K < M * m := by omega
    obtain ⟨r1, -, -⟩ := (hcount (q * m + K)).1 hjM
    have hnx := h.next r1
    generalize hadj : adjustForOutput δ ((schemeFor deck.rk).run ⟨residual, lim⟩ deck a (q * m + K)).sol.t deck.finaltime
      ((schemeFor deck.rk).run ⟨residual, lim⟩ deck a (q * m + K)).tout = x at hnx
    obtain ⟨dt, o, dn⟩ := x
    have hdtδ : dt ≤ δ := by
      unfold adjustForOutput at hadj
      split_ifs at hadj with c1 c2 <;> cases hadj
      · exact c1.le
      · exact c2.le
      · exact le_rfl
    obtain ⟨-, b0, b1, ba⟩ := rk4_iteration hba hka hena hdxa hlim deck hrk hcfl hts hfa (q * m + K) (hlk _) r1 hnx
    have g := (rk4_advection hba hka hena hla hra hdxa hfa b0 b1 (run (q * m + K)).sol.u.val).1
    simp only at g
    have ba' : Agree a p f (run (q * m + K + 1)).sol.u.val (rk4Step (dt • advLin a hba.wf) (run (q * m + K)).sol.u.val) := ba
    rw [← ba'.form ba'] at g
    have g2 := (gainRoom_nonneg hba hka hena hla hra hdxa hfa b0 hdtδ (run (q * m + K)).sol.u.val).2
    rw [hqs]
    simp only [he, hldef, add_zero] at hlast g ⊢
    linarith
  have key : ∀ q ≤ M, e (q * m) ≤ ρ ^ (q * (K / 2)) * e 0 := by
    intro q
    induction q with
    | zero => intro _; simp
    | succ q ih =>
      intro hq
      have g := mul_le_mul_of_nonneg_left (ih (by omega)) (pow_nonneg hρ0 (K / 2))
      rw [← mul_assoc, ← pow_add, show K / 2 + q * (K / 2) = (q + 1) * (K / 2) by ring] at g
      exact (interval q (by omega)).trans g
  have hspk : ∀ q ≤ M, spread (run (q * m)).sol f ≤ ρ ^ (q * (K / 2)) * spread a f := by
    intro q hq
    have h0 : spread a f = a.dx / 2 * e 0 := by rw [← hsp 0, hzero]
    rw [hsp, h0, mul_left_comm]
    exact mul_le_mul_of_nonneg_left (key q hq) (by positivity)
  have hstay : ∀ j, M * m ≤ j → run j = run (M * m) := fun j hj => SteadySteps.stays (by rw [((hcount (M * m)).2.1 le_rfl).1]; simp) hj
  refine ⟨fun o ho => ?_, fun hkM => ⟨((hcount k).2.1 hkM).1, ?_⟩⟩
  · obtain ⟨j, -, hj⟩ := run_log_states h.clock (schemeFor deck.rk) deck a k o ho
    have hpr : (o.nout, o.sol.n, o.sol.t, o.dt) ∈ printout (run k).log := List.mem_map_of_mem ho
    rw [show printout (run k).log = _ from (hcount k).2.2, List.mem_map] at hpr
    obtain ⟨q, hq, heq⟩ := hpr
    simp only [Prod.mk.injEq] at heq
    rw [List.mem_range] at hq
    have hn : o.sol.n = a.n + q * m := by rw [← heq.2.1]
    have hsol : o.sol = (run (q * m)).sol := by
      rcases lt_or_ge j (M * m) with hjM | hjM
      · have hjn := ((hcount j).1 hjM).2.2
        rw [← hj, hn] at hjn
        rw [hj, Nat.add_left_cancel hjn]
        rfl
      · have hjn := ((hcount j).2.1 hjM).2.2
        rw [← hj, hn] at hjn
        rw [hj, Nat.add_left_cancel hjn]
        exact congrArg LoopState.sol (hstay j hjM)
    refine ⟨?_, ?_⟩
    · rw [hsol, total_means hba (hlk _), total_means hba (Like.refl a), hmean]
    · rw [hsol, ← heq.1]
      exact hspk q (by omega)
  · rw [hstay k hkM]
    exact hspk M le_rfl

/-- **C114 (fourth order, in the limit).** A valid advection deck on a periodic domain with 'rk4' or 'low_storage_rk4', no limiter, no enhancement, CFL number at most `(2p+1) / (18 (p+1)²)`: if the
final time is large enough, whatever the number of outputs at least two CFL steps apart, the run ends as close to the mean as one likes. -/
theorem C114_rk4_limit (hlib : lib.Ok) (junk : ℕ → ℝ) (hd : ValidDeck lib ft d p N ic) (hsys : d.system ≠ "euler".toList) (hper : ic.bc = "periodic")
    (hrk : d.rk ∈ ["rk4".toList, "low_storage_rk4".toList]) (hlim : d.limiting ≠ "adaptive_hr".toList) (hen : d.enhance = []) {δ : ℝ}
    (hδ : δ = (ic.B - ic.A) / N * d.cfl / (2 * p + 1)) (hbig : 1 / 10 ^ 14 ≤ δ) (hcfl : d.cfl ≤ (2 * p + 1) / (18 * (p + 1) ^ 2)) :
    ∃ s, ∀ ε : ℝ, 0 < ε → ∃ T₀ : ℝ, ∀ (T : ℝ) (M : ℕ), T₀ ≤ T → 1 ≤ M → 0 ≤ T → 2 * δ ≤ T / M →
      let d' : Deck ℝ := { d with finaltime := T, nout := M + 1 }
      start lib ft junk d' = .ok (s, none) ∧ ∃ k₀, ∀ k, k₀ ≤ k → (integrate ⟨residual, Limiter.limit none⟩ d'.rkDeck s k).status = .done ∧
        spread (integrate ⟨residual, Limiter.limit none⟩ d'.rkDeck s k).sol 0 ≤ ε := by
  have hδ0 : 0 < δ := lt_of_lt_of_le (by norm_num) hbig
  obtain ⟨c, s, lm, hc, hst, S⟩ := C69_starts hlib junk hd
  have hAB : ic.A < ic.B := by
    obtain ⟨name, p0, rest, -, -, l3, -⟩ := hd.line
    exact (setupOf_facts l3).1
  have hN : (0 : ℝ) < N := by exact_mod_cast hd.cells
  have hdx : 0 < s.dx := by rw [S.mesh.width]; exact div_pos (by linarith) hN
  have henh : s.enhance = none := by
    have := S.enhance
    rw [hen] at this
    unfold enhancementOf at this
    rw [if_pos rfl] at this
    cases h : s.enhance with
    | none => rfl
    | some x => rw [h] at this; cases this
  have hk := (S.physics.advection hsys).1
  have hbl : s.bcl = .lit "periodic" := by rw [S.bc.1, hper]
  have hbr : s.bcr = .lit "periodic" := by rw [S.bc.2, hper]
  have hlm : lm = none := by
    have h := S.limiter
    unfold Limiter.init at h
    rw [if_neg (by
      intro h'
      exact hlim (by rw [← h', String.toList_ofList]))] at h
    exact (Except.ok.inj h).symm
  subst hlm
  obtain ⟨ρ, hρ0, hρ1, h⟩ := C114_rk4 S.built hk henh hbl hbr hdx hbig 0 S.built.NF
  have hs0 : 0 ≤ spread s 0 := spread_nonneg hdx.le 0
  refine ⟨s, fun ε hε => ?_⟩
  obtain ⟨n, hn⟩ : ∃ n : ℕ, ρ ^ n * spread s 0 ≤ ε := by
    have := (tendsto_pow_atTop_nhds_zero_of_lt_one hρ0 hρ1).mul_const (spread s 0)
    rw [zero_mul] at this
    obtain ⟨n, hn⟩ := ((this.eventually (gt_mem_nhds hε)).exists)
    exact ⟨n, hn.le⟩
  refine ⟨4 * δ * n, fun T M hTn hM hT hfit => ?_⟩
  intro d'
  have hMr : (0 : ℝ) < M := by exact_mod_cast hM
  have hrkd : d'.rkDeck.rk ∈ ["rk4", "low_storage_rk4"] := by
    show String.ofList d.rk ∈ _
    simp only [List.mem_cons, List.not_mem_nil, or_false] at hrk ⊢
    rcases hrk with h | h <;> rw [h, String.ofList_toList] <;> simp
  have g := h s d'.rkDeck (Limiter.limit none) M (Like.refl s) (fun _ => rfl) hrkd hcfl (by rw [hδ, S.mesh.width]; rfl) hM (by show (M + 1 : ℤ).toNat = _; omega)
    (by rw [S.clock.1]; exact hT) (by rw [S.clock.1, sub_zero]; exact hfit)
  have hx : d'.rkDeck.finaltime - s.t = T := by rw [S.clock.1, sub_zero]; rfl
  simp only [hx] at g
  refine ⟨hst, M * (⌊T / M / δ⌋₊ + 1), fun k hk => ⟨((g k).2 hk).1, ((g k).2 hk).2.trans ?_⟩⟩
  set K := ⌊T / M / δ⌋₊ with hK
  have hK2 : 2 ≤ K := Nat.le_floor (by rw [le_div_iff₀ hδ0]; exact_mod_cast hfit)
  have hnM : n ≤ M * (K / 2) := by
    have h1 : T / M / δ ≤ 4 * ((K / 2 : ℕ) : ℝ) := by
      have h2 := (Nat.lt_floor_add_one (T / M / δ)).le
      have h3 : ((K + 1 : ℕ) : ℝ) ≤ ((4 * (K / 2) : ℕ) : ℝ) := by exact_mod_cast (by omega : K + 1 ≤ 4 * (K / 2))
      push_cast at h3
      linarith
    have h2 : T = M * (T / M / δ) * δ := by field_simp
    have h3 : 4 * δ * n ≤ M * (4 * ((K / 2 : ℕ) : ℝ)) * δ := hTn.trans (h2.le.trans (mul_le_mul_of_nonneg_right (mul_le_mul_of_nonneg_left h1 hMr.le) hδ0.le))
    have h4 : δ * (n : ℝ) ≤ δ * (M * ((K / 2 : ℕ) : ℝ)) := by linarith
    exact_mod_cast le_of_mul_le_mul_left h4 hδ0
  exact (mul_le_mul_of_nonneg_right (pow_le_pow_of_le_one hρ0 hρ1.le hnM) hs0).trans hn

/-! ### Cases -/

/-- `C114_rk4`: three cells of order 1, CFL step 1/144, data that are no initial condition of the code; with 100 outputs at distance 1 the last factor is `ρ ^ 7200`. -/
example : ∃ ρ : ℝ, 0 ≤ ρ ∧ ρ < 1 ∧
    let y := (Ex.solR 1).withVal fun n c => n + c ^ 3
    let deck : RkDeck ℝ := { rk := "rk4", nout := 101, cfl := 1 / 24, finaltime := 100 }
    ∀ k, 100 * 145 ≤ k → spread (integrate ⟨residual, fun s => .ok s⟩ deck y k).sol 0 ≤ ρ ^ 7200 * spread y 0 := by
  obtain ⟨ρ, h0, h1, h⟩ := C114_rk4 (Ex.solR_built 1) rfl rfl rfl rfl (by norm_num [Ex.solR]) (δ := 1 / 144) (by norm_num) 0 (by norm_num [Ex.solR])
  refine ⟨ρ, h0, h1, ?_⟩
  intro y deck k hk
  have hK : ⌊(deck.finaltime - y.t) / (100 : ℕ) / (1 / 144 : ℝ)⌋₊ = 144 := by
    rw [show (deck.finaltime - y.t) / (100 : ℕ) / (1 / 144 : ℝ) = (144 : ℕ) by norm_num [y, deck, Ex.solR, Sol.withVal], Nat.floor_natCast]
  have g := (h y deck (fun s => .ok s) 100 (withVal_like _ _) (fun _ => rfl) (by simp [deck]) (by norm_num [deck]) (by norm_num [deck, Ex.solR]) (by norm_num) rfl
    (by norm_num [y, deck, Ex.solR, Sol.withVal]) (by norm_num [y, deck, Ex.solR, Sol.withVal]) k).2
  simp only [hK] at g
  exact (g hk).2

/-- `C114_rk4_limit`: the sine wave with 'rk4' and CFL number 1/30, to any final time. -/
example : ∃ s, ∀ ε : ℝ, 0 < ε → ∃ T₀ : ℝ, ∀ (T : ℝ) (M : ℕ), T₀ ≤ T → 1 ≤ M → 0 ≤ T → 2 * (1 / 360) ≤ T / M →
    let d' : Deck ℝ := { Ex.sine4 with finaltime := T, nout := M + 1 }
    start realGauss Ex.decReal (fun _ => 0) d' = .ok (s, none) ∧ ∃ k₀, ∀ k, k₀ ≤ k → (integrate ⟨residual, Limiter.limit none⟩ d'.rkDeck s k).status = .done ∧
      spread (integrate ⟨residual, Limiter.limit none⟩ d'.rkDeck s k).sol 0 ≤ ε :=
  C114_rk4_limit (δ := 1 / 360) realGauss_ok (fun _ => 0) Ex.sine4_valid (show "advection".toList ≠ "euler".toList by decide) rfl
    (by simp [Ex.sine4]) (show ([] : Str) ≠ "adaptive_hr".toList by decide) rfl
    (show (1 / 360 : ℝ) = ((1 : ℝ) - -1) / (8 : ℕ) * (1 / 30) / (2 * (1 : ℕ) + 1) by norm_num) (by norm_num)
    (show (1 / 30 : ℝ) ≤ (2 * (1 : ℕ) + 1) / (18 * ((1 : ℕ) + 1) ^ 2) by norm_num)

end Dg1d.Props
