import Verif.Proofs.Decay
import Verif.Proofs.AverageRun
import Verif.Props.Energy
import Verif.Props.DgStability
import Verif.Props.Runs
import Verif.Props.Steps
import Mathlib.Analysis.SpecificLimits.Basic

/-!
# C114 — on a periodic domain advection runs forget their initial data: only constants stand still, and everything else decays to its mean
-/

set_option linter.unusedSectionVars false

open Polynomial Dg1d.Spec

namespace Dg1d.Props
open Text

variable {s : Sol ℝ} {lib : GaussLib ℝ} {p N : ℕ} {ft : FloatText ℝ} {d : Deck ℝ} {ic : IC.Setup}

/-- Squared distance of field `f` from its mean: the integral of `(u - ū)²` over the cells. -/
noncomputable def spread (a : Sol ℝ) (f : ℕ) : ℝ := a.dx / 2 * ∑ e ∈ Finset.Icc 1 a.NE, intPoly ((cellPoly a e f - C (total a f / a.NE)) ^ 2)

lemma spread_eq (hb : s.Built lib p) {a : Sol ℝ} (ha : Like a s) (f : ℕ) :
    spread a f = s.dx / 2 * (cellForm s p f a.u.val a.u.val - 2 * sumMeans s f a.u.val ^ 2 / s.NE) := by
  have hEr : (0 : ℝ) < s.NE := by exact_mod_cast hb.NE
  have hmean : ∀ e, cellMean a e f = a.u.val 0 (e * s.NF + f) := by
    intro e
    rw [cellMean_eq (by rw [ha.rows, hb.rows]; omega), ha.setup.NF]
  have htot : total a f = sumMeans s f a.u.val := by
    unfold total sumMeans
    rw [ha.setup.NE]
    exact Finset.sum_congr rfl fun e _ => hmean e
  set m := total a f / s.NE with hm
  have hE : ∑ e ∈ Finset.Icc 1 s.NE, intPoly (cellPoly a e f ^ 2) = cellForm s p f a.u.val a.u.val := by
    rw [cellForm_apply]
    refine Finset.sum_congr rfl fun e _ => ?_
    unfold cellPoly
    rw [pow_two, intPoly_sq, ha.rows, hb.rows, ha.setup.NF]
  have hcell : ∀ e, intPoly ((cellPoly a e f - C m) ^ 2) = intPoly (cellPoly a e f ^ 2) - 4 * m * cellMean a e f + 2 * m ^ 2 := by
    intro e
    have h1 : (cellPoly a e f - C m) ^ 2 = cellPoly a e f ^ 2 - C (2 * m) * cellPoly a e f + C (m ^ 2) * 1 := by
      simp only [C_mul, C_pow, C_ofNat]
      ring
    have h2 : intPoly (1 : ℝ[X]) = 2 := by
      have := intPoly_legSeries 1 (fun _ => (1 : ℝ)) 0 one_pos
      rw [legendre_zero, mul_one] at this
      rw [show legSeries 1 (fun _ => (1 : ℝ)) = 1 by simp [legSeries, legendre_zero]] at this
      rw [this]
      norm_num
    rw [h1, intPoly_add, intPoly_sub, intPoly_C_mul, intPoly_C_mul, h2]
    unfold cellMean
    ring
  unfold spread
  rw [ha.setup.dx, ha.setup.NE, Finset.sum_congr rfl fun e _ => hcell e, Finset.sum_add_distrib, Finset.sum_sub_distrib, hE, ← Finset.mul_sum]
  have h3 : ∑ e ∈ Finset.Icc 1 s.NE, cellMean a e f = total a f := by unfold total; rw [ha.setup.NE]
  rw [h3, Finset.sum_const, Nat.card_Icc, Nat.add_sub_cancel, nsmul_eq_mul, ← htot, hm]
  field_simp
  ring

lemma spread_nonneg {a : Sol ℝ} (hdx : 0 ≤ a.dx) (f : ℕ) : 0 ≤ spread a f := by
  unfold spread
  refine mul_nonneg (by positivity) (Finset.sum_nonneg fun e _ => ?_)
  obtain ⟨c, hc⟩ := exists_legSeries (K := ℝ) ((cellPoly a e f - C (total a f / a.NE)).natDegree + 1) (cellPoly a e f - C (total a f / a.NE))
    (lt_of_le_of_lt degree_le_natDegree (by exact_mod_cast Nat.lt_succ_self _))
  rw [hc, pow_two, intPoly_sq]
  exact cell_nonneg _ _

/-- **C114 (states that stand still).** The residual of an advected field on a periodic domain is zero exactly if the field is one constant. -/
theorem C114_steady (hb : s.Built lib p) (hk : s.kw = Advection.physics) (hen : s.enhance = none) (hl : s.bcl = .lit "periodic") (hr : s.bcr = .lit "periodic")
    (s' : Sol ℝ) (F : Arr ℝ) (hres : residual s = .ok (s', F)) (f : ℕ) (hf : f < s.NF) :
    (∀ n < p + 1, ∀ e, 1 ≤ e → e ≤ s.NE → F.val n (e * s.NF + f) = 0) ↔ ∃ m : ℝ, ∀ e, 1 ≤ e → e ≤ s.NE → cellPoly s e f = C m := by
  obtain ⟨F', hF, hv⟩ := advLin_residual hb.wf hk hen s.u.val
  have hs : s.withVal s.u.val = s := rfl
  rw [hs, hres] at hF
  cases hF
  rw [hv, advLin_kernel hb hk hen hl hr hf]
  refine exists_congr fun m => ⟨fun h e h1 h2 => ?_, fun h n hn e h1 h2 => ?_⟩
  · unfold cellPoly
    rw [hb.rows]
    exact legSeries_const _ _ _ (by omega) fun n hn => h n hn e h1 h2
  · have := h e h1 h2
    unfold cellPoly at this
    rw [hb.rows] at this
    exact coeff_const this n hn

/-- The bound of `advLin_coercive` holds with the same constant for all data on the mesh. -/
lemma coercive_like (hb : s.Built lib p) (hk : s.kw = Advection.physics) (hen : s.enhance = none) (hl : s.bcl = .lit "periodic") (hr : s.bcr = .lit "periodic")
    {f : ℕ} (hf : f < s.NF) {a : Sol ℝ} (ha : Like a s) {c : ℝ}
    (hco : ∀ v, c * (cellForm s p f v v - 2 * sumMeans s f v ^ 2 / s.NE) ≤ cellForm s p f (advLin s hb.wf v) (advLin s hb.wf v)) (v : ℕ → ℕ → ℝ) :
    c * (cellForm a p f v v - 2 * sumMeans a f v ^ 2 / a.NE) ≤ cellForm a p f (advLin a (ha.built hb).wf v) (advLin a (ha.built hb).wf v) := by
  have hval : ∀ n < p + 1, ∀ e, 1 ≤ e → e ≤ s.NE → advLin a (ha.built hb).wf v n (e * s.NF + f) = advLin s hb.wf v n (e * s.NF + f) := by
    intro n hn e h1 h2
    have w1 := (advLin_weak hb hk hen hl hr hf v).2 n hn e h1 h2
    have w2 := (advLin_weak (ha.built hb) (ha.setup.kw.trans hk) (ha.setup.enhance.trans hen) (ha.setup.bcl.trans hl) (ha.setup.bcr.trans hr)
      (f := f) (by rw [ha.setup.NF]; exact hf) v).2 n hn e h1 (by rw [ha.setup.NE]; exact h2)
    simp only [ha.setup.NF, ha.setup.NE, ha.setup.dx] at w2
    have hne : s.dx / 2 * (2 / (2 * (n : ℝ) + 1)) ≠ 0 := mul_ne_zero (div_ne_zero hb.dx two_ne_zero) (by positivity)
    exact mul_left_cancel₀ hne (w2.trans w1.symm)
  have h1 : ∀ w, cellForm a p f w w = cellForm s p f w w := fun w => by rw [cellForm_apply, cellForm_apply, ha.setup.NE, ha.setup.NF]
  have h2 : sumMeans a f v = sumMeans s f v := by unfold sumMeans; rw [ha.setup.NE, ha.setup.NF]
  rw [h1, h2, h1, ha.setup.NE]
  refine (hco v).trans (le_of_eq ?_)
  rw [cellForm_apply, cellForm_apply]
  refine Finset.sum_congr rfl fun e he => Finset.sum_congr rfl fun n hn => ?_
  rw [Finset.mem_Icc] at he
  rw [hval n (Finset.mem_range.mp hn) e he.1 he.2]

/-- **C114 (one step).** The third order scheme without limiter and enhancement, CFL number at most `θ < 1` times that of C75. There is a constant `κ > 0`, the same for all data on
the mesh, all decks and all iterations, such that a step of length `dt` reduces the squared distance from the mean by at least the factor `1 - κ dt⁴`. -/
theorem C114_step (hb : s.Built lib p) (hk : s.kw = Advection.physics) (hen : s.enhance = none) (hl : s.bcl = .lit "periodic") (hr : s.bcr = .lit "periodic")
    (hdx : 0 < s.dx) {θ : ℝ} (hθ0 : 0 ≤ θ) (hθ : θ < 1) {f : ℕ} (hf : f < s.NF) :
    ∃ κ : ℝ, 0 < κ ∧ ∀ (a : Sol ℝ) (deck : RkDeck ℝ) (lim : Sol ℝ → Except PyErr (Sol ℝ)), Like a s → deck.rk = "rk3" → deck.cfl ≤ θ * ((2 * p + 1) / (3 * (p + 1) ^ 2)) →
      a.t ≤ deck.finaltime → (∀ b, lim b = .ok b) → ∀ k,
      let run := integrate ⟨residual, lim⟩ deck a
      spread (run (k + 1)).sol f ≤ spread (run k).sol f ∧
      ∀ dt o dn, (run k).status = .running → getNextTimeStep (run k).sol (run k).tout deck.cfl deck.finaltime = .ok (dt, o, dn) →
        spread (run (k + 1)).sol f ≤ (1 - κ * dt ^ 4) * spread (run k).sol f := by
  obtain ⟨c, hc, hco⟩ := advLin_coercive hb hk hen hl hr hf
  have hθ2 : 0 < 1 - θ ^ 2 := by nlinarith
  refine ⟨(1 - θ ^ 2) / 18 * c ^ 2, by positivity, fun a deck lim ha hrk hcfl ht hlim => ?_⟩
  have hba := ha.built hb
  have hka : a.kw = Advection.physics := ha.setup.kw.trans hk
  have hena : a.enhance = none := ha.setup.enhance.trans hen
  have hla : a.bcl = .lit "periodic" := ha.setup.bcl.trans hl
  have hra : a.bcr = .lit "periodic" := ha.setup.bcr.trans hr
  have hdxa : 0 < a.dx := by rw [ha.setup.dx]; exact hdx
  have hfa : f < a.NF := by rw [ha.setup.NF]; exact hf
  have hcoa := coercive_like hb hk hen hl hr hf ha hco
  have hkc : (⟨residual, lim⟩ : Env ℝ).KeepsClock := by
    intro x y h
    have : lim x = .ok y := h
    rw [hlim] at this
    cases this
    exact ⟨rfl, rfl⟩
  set run := integrate ⟨residual, lim⟩ deck a with hrun
  have step : ∀ k, Like (run k).sol a → Like (run (k + 1)).sol a ∧ spread (run (k + 1)).sol f ≤ spread (run k).sol f ∧
      ∀ dt o dn, (run k).status = .running → getNextTimeStep (run k).sol (run k).tout deck.cfl deck.finaltime = .ok (dt, o, dn) →
        spread (run (k + 1)).sol f ≤ (1 - (1 - θ ^ 2) / 18 * c ^ 2 * dt ^ 4) * spread (run k).sol f := by
    intro k hlike
    by_cases hidle : (run k).status ≠ .running ∨ ∃ e, getNextTimeStep (run k).sol (run k).tout deck.cfl deck.finaltime = .error e
    · rw [show (run (k + 1)).sol = (run k).sol from integrate_idle _ deck a k hidle]
      refine ⟨hlike, le_rfl, fun dt o dn h1 h2 => ?_⟩
      rcases hidle with h | ⟨e, h⟩
      · exact absurd h1 h
      · rw [h] at h2; cases h2
    push Not at hidle
    obtain ⟨hrunning, hne⟩ := hidle
    cases hdt : getNextTimeStep (run k).sol (run k).tout deck.cfl deck.finaltime with
    | error e => exact absurd hdt (hne e)
    | ok v =>
    obtain ⟨dt, o, dn⟩ := v
    obtain ⟨-, hl1, hval⟩ := advection_step hba hka hena hlim deck (by rw [hrk]; simp) k hlike hrunning hdt
    have horder : promisedOrder deck.rk = 3 := by rw [hrk]; rfl
    have hsum : ∑ m ∈ Finset.range (3 + 1), (dt ^ m / (m.factorial : ℝ)) • (advLin a hba.wf ^ m) (run k).sol.u.val =
        (run k).sol.u.val + dt • advLin a hba.wf (run k).sol.u.val + (dt ^ 2 / 2) • advLin a hba.wf (advLin a hba.wf (run k).sol.u.val) +
          (dt ^ 3 / 6) • advLin a hba.wf (advLin a hba.wf (advLin a hba.wf (run k).sol.u.val)) := by
      simp only [Finset.sum_range_succ, Finset.sum_range_zero, zero_add, pow_zero, Nat.factorial, Nat.cast_one, div_one, one_smul,
        Module.End.one_apply, pow_succ, Module.End.mul_apply, one_mul, mul_one]
      norm_num
    rw [horder] at hval
    have hinv := timeInv_run hkc (schemeFor deck.rk) deck a ht k
    have hinv' : (run k).sol.t ≤ deck.finaltime ∧ (run k).sol.t ≤ (run k).tout := ⟨hinv.hi, (hinv.run hrunning).2.2.2.2.1⟩
    have h0 : 0 ≤ dt := by
      rcases getNext_cases hdt with ⟨-, -, h⟩ | ⟨-, -, h, -⟩ | ⟨-, -, h, -⟩
      · linarith [hinv'.1]
      · linarith [hinv'.2]
      · exact le_trans (by positivity) h
    have h1 : 3 * ((p : ℝ) + 1) ^ 2 * dt ≤ θ * a.dx := by
      have hd := advection_dt (hlike.setup.kw.trans hka) hdt
      rw [hlike.setup.dx, hlike.setup.basis, show a.basis.p = p by rw [hba.basis]; rfl] at hd
      have hpos : (0 : ℝ) < 2 * p + 1 := by positivity
      have hpos2 : (0 : ℝ) < 3 * (p + 1) ^ 2 := by positivity
      rw [le_div_iff₀ hpos] at hd
      have hcfl' : deck.cfl * (3 * (p + 1) ^ 2) ≤ θ * (2 * p + 1) := by
        rw [← mul_div_assoc, le_div_iff₀ hpos2] at hcfl
        exact hcfl
      have : a.dx * (deck.cfl * (3 * (p + 1) ^ 2)) ≤ a.dx * (θ * (2 * p + 1)) := mul_le_mul_of_nonneg_left hcfl' hdxa.le
      have h2 : 3 * ((p : ℝ) + 1) ^ 2 * (dt * (2 * p + 1)) ≤ 3 * ((p : ℝ) + 1) ^ 2 * (a.dx * deck.cfl) := mul_le_mul_of_nonneg_left hd hpos2.le
      have h3 : (3 * ((p : ℝ) + 1) ^ 2 * dt) * (2 * p + 1) ≤ θ * a.dx * (2 * p + 1) := by linarith
      exact le_of_mul_le_mul_right h3 hpos
    have htay := advLin_decay hba hka hena hla hra hdxa hfa hc hcoa hθ dt h0 h1 (run k).sol.u.val
    simp only at htay
    rw [← hsum] at htay
    set r := ∑ m ∈ Finset.range (3 + 1), (dt ^ m / (m.factorial : ℝ)) • (advLin a hba.wf ^ m) (run k).sol.u.val with hrdef
    have hnew : spread (run (k + 1)).sol f = a.dx / 2 * (cellForm a p f r r - 2 * sumMeans a f r ^ 2 / a.NE) := by
      rw [spread_eq hba hl1]
      have e1 : cellForm a p f (run (k + 1)).sol.u.val (run (k + 1)).sol.u.val = cellForm a p f r r := by
        rw [cellForm_apply, cellForm_apply]
        refine Finset.sum_congr rfl fun e he => Finset.sum_congr rfl fun n _ => ?_
        rw [Finset.mem_Icc] at he
        rw [show (run (k + 1)).sol.u.val n (e * a.NF + f) = _ from hval n e he.1 he.2 f hfa]
      have e2 : sumMeans a f (run (k + 1)).sol.u.val = sumMeans a f r := by
        unfold sumMeans
        refine Finset.sum_congr rfl fun e he => ?_
        rw [Finset.mem_Icc] at he
        exact hval 0 e he.1 he.2 f hfa
      rw [e1, e2]
    have hstep : spread (run (k + 1)).sol f ≤ (1 - (1 - θ ^ 2) / 18 * c ^ 2 * dt ^ 4) * spread (run k).sol f := by
      rw [hnew, spread_eq hba hlike]
      have := mul_le_mul_of_nonneg_left htay (show 0 ≤ a.dx / 2 by positivity)
      linarith
    refine ⟨hl1, hstep.trans ?_, fun dt' o' dn' _ h => ?_⟩
    · have hs0 : 0 ≤ spread (run k).sol f := spread_nonneg (by rw [hlike.setup.dx]; exact hdxa.le) f
      have : 0 ≤ (1 - θ ^ 2) / 18 * c ^ 2 * dt ^ 4 := by positivity
      nlinarith
    · cases h
      exact hstep
  have hall : ∀ k, Like (run k).sol a := by
    intro k
    induction k with
    | zero =>
      have : (run 0).sol = a := run_zero_sol _ _ _ _
      rw [this]
      exact Like.refl a
    | succ k ih => exact (step k ih).1
  exact fun k => (step k (hall k)).2

/-- The steps of a run that are full CFL steps. -/
lemma SteadySteps.full {sch : Scheme ℝ} {env : Env ℝ} {deck : RkDeck ℝ} {δ : ℝ} (h : SteadySteps sch env deck s δ) {M m : ℕ} {τ : ℝ} (hM : deck.nout = M + 1)
    (hτ : τ = (deck.finaltime - s.t) / M) (hfit : δ ≤ τ) (hm : m = ⌊τ / δ⌋₊ + 1) {k : ℕ} (hk : k < M * m) (hf : k % m + 1 < m) :
    getNextTimeStep (sch.run env deck s k).sol (sch.run env deck s k).tout deck.cfl deck.finaltime = .ok (δ, false, false) := by
  obtain ⟨a1, -, a3⟩ := C113_counts h M m τ hM hτ hfit hm k
  obtain ⟨a1, a2, -⟩ := a1 hk
  have hm0 : 0 < m := by omega
  have hδ : 0 < δ := lt_of_lt_of_le (by norm_num) h.big
  have hM0 : 0 < M := by have := h.outs; omega
  have hMr : (0 : ℝ) < M := by exact_mod_cast hM0
  have hj : k / m < M := Nat.div_lt_of_lt_mul (by rw [mul_comm]; exact hk)
  have hout : (sch.run env deck s k).nout = k / m + 1 := by
    have hlen := (numInv_run h.clock sch deck s k).run a1
    have := congrArg List.length a3
    simp only [printout, List.length_map, List.length_range] at this
    rw [← hlen, this, min_eq_left hj.le]
  have htout := h.tout a1
  rw [hout, show deck.nout - 1 = M by omega, ← hτ] at htout
  push_cast at htout
  have hlo : ((m - 1 : ℕ) : ℝ) * δ ≤ τ := by
    have := Nat.floor_le (show 0 ≤ τ / δ from div_nonneg (hδ.le.trans hfit) hδ.le)
    rw [hm, Nat.add_sub_cancel]
    exact (le_div_iff₀ hδ).mp this
  have hb : (((k % m : ℕ) : ℝ) + 1) * δ ≤ τ := by
    have : ((k % m : ℕ) : ℝ) + 1 ≤ ((m - 1 : ℕ) : ℝ) := by exact_mod_cast (by omega : k % m + 1 ≤ m - 1)
    nlinarith
  have hend : deck.finaltime = s.t + M * τ := by rw [hτ]; field_simp; ring
  have hjr : ((k / m : ℕ) : ℝ) + 1 ≤ M := by exact_mod_cast hj
  rw [h.next a1]
  unfold adjustForOutput
  rw [if_neg (by rw [not_lt, a2, hend]; nlinarith [hδ.le.trans hfit]), if_neg (by rw [not_lt, a2, htout]; nlinarith)]

/-- **C114 (whole runs).** A valid advection deck on a periodic domain with `rk3`, no limiter, no enhancement, CFL number below `(2p+1)/(3 (p+1)²)`. There is a factor `ρ < 1`, the same for all
final times `T` and numbers of outputs `M + 1` whose interval `τ = T/M` is at least the CFL step `δ`, such that in output `q` the squared distance from the mean is at most
`ρ ^ (q ⌊τ/δ⌋)` times that of the initial data, and the mean is the one of the initial data. -/
theorem C114_deck (hlib : lib.Ok) (junk : ℕ → ℝ) (hd : ValidDeck lib ft d p N ic) (hsys : d.system ≠ "euler".toList) (hper : ic.bc = "periodic")
    (hrk : d.rk = "rk3".toList) (hlim : d.limiting ≠ "adaptive_hr".toList) (hen : d.enhance = []) {δ : ℝ} (hδ : δ = (ic.B - ic.A) / N * d.cfl / (2 * p + 1))
    (hbig : 1 / 10 ^ 14 ≤ δ) (hcfl : d.cfl < (2 * p + 1) / (3 * (p + 1) ^ 2)) :
    ∃ s ρ, 0 ≤ ρ ∧ ρ < 1 ∧ ∀ (T : ℝ) (M : ℕ), 1 ≤ M → 0 ≤ T → δ ≤ T / M →
      let d' : Deck ℝ := { d with finaltime := T, nout := M + 1 }
      start lib ft junk d' = .ok (s, none) ∧ ∀ k,
      (∀ o ∈ (integrate ⟨residual, Limiter.limit none⟩ d'.rkDeck s k).log, total o.sol 0 = total s 0 ∧
        spread o.sol 0 ≤ ρ ^ (o.nout * ⌊T / M / δ⌋₊) * spread s 0) ∧
      (M * (⌊T / M / δ⌋₊ + 1) ≤ k → (integrate ⟨residual, Limiter.limit none⟩ d'.rkDeck s k).status = .done ∧
        spread (integrate ⟨residual, Limiter.limit none⟩ d'.rkDeck s k).sol 0 ≤ ρ ^ (M * ⌊T / M / δ⌋₊) * spread s 0) := by
  obtain ⟨c, s, lm, hc, hst, S⟩ := C69_starts hlib junk hd
  have hAB : ic.A < ic.B := by
    obtain ⟨name, p0, rest, -, -, l3, -⟩ := hd.line
    exact (setupOf_facts l3).1
  have hN : (0 : ℝ) < N := by exact_mod_cast hd.cells
  have hdx : 0 < s.dx := by rw [S.mesh.width]; exact div_pos (by linarith) hN
  have henh : s.enhance = none := by
    have := S.enhance
    rw [hen] at this
    unfold enhancementOf at this
    rw [if_pos rfl] at this
    cases h : s.enhance with
    | none => rfl
    | some x => rw [h] at this; cases this
  have hk := (S.physics.advection hsys).1
  have hbl : s.bcl = .lit "periodic" := by rw [S.bc.1, hper]
  have hbr : s.bcr = .lit "periodic" := by rw [S.bc.2, hper]
  have hδ0 : 0 < δ := lt_of_lt_of_le (by norm_num) hbig
  have hcfl0 : 0 < d.cfl := by
    rw [hδ] at hδ0
    by_contra hc
    have h1 : (ic.B - ic.A) / N * d.cfl ≤ 0 := mul_nonpos_of_nonneg_of_nonpos (div_nonneg (by linarith) hN.le) (not_lt.mp hc)
    have : (ic.B - ic.A) / N * d.cfl / (2 * p + 1) ≤ 0 := div_nonpos_of_nonpos_of_nonneg h1 (by positivity)
    linarith
  have hmax : (0 : ℝ) < (2 * p + 1) / (3 * (p + 1) ^ 2) := by positivity
  set θ := d.cfl / ((2 * p + 1) / (3 * (p + 1) ^ 2)) with hθd
  have hθ0 : 0 ≤ θ := div_nonneg hcfl0.le hmax.le
  have hθ : θ < 1 := (div_lt_one hmax).mpr hcfl
  obtain ⟨κ, hκ, hstep⟩ := C114_step S.built hk henh hbl hbr hdx hθ0 hθ S.built.NF
  have hs0 : 0 ≤ spread s 0 := spread_nonneg hdx.le 0
  set ρ := max 0 (1 - κ * δ ^ 4) with hρ
  have hρ0 : 0 ≤ ρ := le_max_left _ _
  have hρ1 : ρ < 1 := max_lt one_pos (by have : 0 < κ * δ ^ 4 := by positivity
                                         linarith)
  refine ⟨s, ρ, hρ0, hρ1, fun T M hM hT hfit => ?_⟩
  intro d'
  have hd' : ValidDeck lib ft d' p N ic := ⟨hd.order, hd.cells, hd.line, hd.enhance, hd.limiter⟩
  obtain ⟨s', lm', hst', h0, h1, h, hb, hNE, hNF, hnone, hlike⟩ :=
    steady_deck (δ := δ) hlib junk hd' hsys (by show (2 : ℤ) ≤ M + 1; omega) hT hδ hbig
  have hsame : start lib ft junk d' = start lib ft junk d := rfl
  rw [hsame, hst] at hst'
  cases hst'
  obtain rfl := hnone hlim
  refine ⟨hsame.trans hst, fun k => ?_⟩
  set τ := T / M with hτd
  set m := ⌊τ / δ⌋₊ + 1 with hm
  have hm0 : 0 < m := by omega
  have hnout : d'.rkDeck.nout = M + 1 := by show (M + 1 : ℤ).toNat = _; omega
  have hτ' : τ = (d'.rkDeck.finaltime - s.t) / M := by rw [h0, sub_zero]; rfl
  have hcount := C113_counts h M m τ hnout hτ' hfit hm
  have hrkd : d'.rkDeck.rk = "rk3" := by show String.ofList d.rk = "rk3"; rw [hrk, String.ofList_toList]
  have hcfl' : d'.rkDeck.cfl ≤ θ * ((2 * p + 1) / (3 * (p + 1) ^ 2)) := by rw [hθd, div_mul_cancel₀ _ hmax.ne']; exact le_rfl
  have hst2 := hstep s d'.rkDeck (Limiter.limit none) (Like.refl s) hrkd hcfl' (by rw [h0]; exact hT) (fun _ => rfl)
  -- the bound while the run goes on
  have key : ∀ j, j ≤ M * m → spread ((schemeFor d'.rkDeck.rk).run ⟨residual, Limiter.limit none⟩ d'.rkDeck s j).sol 0 ≤ ρ ^ (j - j / m) * spread s 0 := by
    intro j
    induction j with
    | zero =>
      intro _
      rw [run_zero_sol]
      simp
    | succ j ih =>
      intro hj
      have ih := ih (by omega)
      have hle : j / m ≤ j := Nat.div_le_self _ _
      by_cases hlast : j % m + 1 < m
      · have hq : (j + 1) / m = j / m := by
          have := Nat.div_add_mod j m
          rw [← this, add_assoc, Nat.mul_add_div hm0, Nat.div_eq_of_lt hlast, this]
          simp
        have g := (hst2 j).2 δ false false ((hcount j).1 (by omega)).1 (h.full hnout hτ' hfit hm (by omega) hlast)
        have hj0 : 0 ≤ spread ((schemeFor d'.rkDeck.rk).run ⟨residual, Limiter.limit none⟩ d'.rkDeck s j).sol 0 :=
          spread_nonneg (by rw [show ((schemeFor d'.rkDeck.rk).run ⟨residual, Limiter.limit none⟩ d'.rkDeck s j).sol.dx = s.dx from (hlike j).setup.dx]; exact hdx.le) 0
        refine g.trans ((mul_le_mul_of_nonneg_right (le_max_right 0 _) hj0).trans ?_)
        rw [hq, show j + 1 - j / m = (j - j / m) + 1 by omega, pow_succ' ρ, mul_assoc]
        exact mul_le_mul_of_nonneg_left ih hρ0
      · have hq : j + 1 - (j + 1) / m = j - j / m := by
          have h1 := Nat.div_add_mod j m
          have him : j % m = m - 1 := by have := Nat.mod_lt j hm0; omega
          have h2 : j + 1 = (j / m + 1) * m := by
            rw [him] at h1
            have : (j / m + 1) * m = m * (j / m) + m := by ring
            omega
          have h3 : (j + 1) / m = j / m + 1 := by
            conv_lhs => rw [h2]
            exact Nat.mul_div_cancel _ hm0
          omega
        rw [hq]
        exact (hst2 j).1.trans ih
  have hend : spread ((schemeFor d'.rkDeck.rk).run ⟨residual, Limiter.limit none⟩ d'.rkDeck s (M * m)).sol 0 ≤ ρ ^ (M * ⌊τ / δ⌋₊) * spread s 0 := by
    have := key (M * m) le_rfl
    rwa [Nat.mul_div_cancel _ hm0, show M * m - M = M * ⌊τ / δ⌋₊ by rw [hm, Nat.mul_add, mul_one, Nat.add_sub_cancel]] at this
  have hstay : ∀ j, M * m ≤ j → (schemeFor d'.rkDeck.rk).run ⟨residual, Limiter.limit none⟩ d'.rkDeck s j =
      (schemeFor d'.rkDeck.rk).run ⟨residual, Limiter.limit none⟩ d'.rkDeck s (M * m) := fun j hj =>
    SteadySteps.stays (by rw [((hcount (M * m)).2.1 le_rfl).1]; simp) hj
  refine ⟨fun o ho => ⟨?_, ?_⟩, fun hkM => ⟨((hcount k).2.1 hkM).1, ?_⟩⟩
  · exact (C15_limited (Started.gamma hd) S.built S.physics hbl hbr S.limiter d'.rkDeck k).2 o ho 0 S.built.NF
  · obtain ⟨j, -, hj⟩ := run_log_states h.clock (schemeFor d'.rkDeck.rk) d'.rkDeck s k o ho
    have hpr : (o.nout, o.sol.n, o.sol.t, o.dt) ∈ printout (integrate ⟨residual, Limiter.limit none⟩ d'.rkDeck s k).log := List.mem_map_of_mem ho
    rw [show printout (integrate ⟨residual, Limiter.limit none⟩ d'.rkDeck s k).log = _ from (hcount k).2.2, List.mem_map] at hpr
    obtain ⟨q, hq, he⟩ := hpr
    simp only [Prod.mk.injEq] at he
    rw [List.mem_range] at hq
    have hqM : q ≤ M := by omega
    have hn : o.sol.n = q * m := by rw [← he.2.1, h1, zero_add]
    have hqm : q * m ≤ M * m := Nat.mul_le_mul_right _ hqM
    have hsol : o.sol = ((schemeFor d'.rkDeck.rk).run ⟨residual, Limiter.limit none⟩ d'.rkDeck s (q * m)).sol := by
      rcases lt_or_ge j (M * m) with hjM | hjM
      · have hjn := ((hcount j).1 hjM).2.2
        rw [← hj, hn, h1, zero_add] at hjn
        rw [hj, hjn]
      · have hjn := ((hcount j).2.1 hjM).2.2
        rw [← hj, hn, h1, zero_add] at hjn
        rw [hj, hstay j hjM, hjn]
    rw [hsol, ← he.1]
    have := key (q * m) hqm
    rwa [Nat.mul_div_cancel _ hm0, show q * m - q = q * ⌊τ / δ⌋₊ by rw [hm, Nat.mul_add, mul_one, Nat.add_sub_cancel]] at this
  · rw [show integrate ⟨residual, Limiter.limit none⟩ d'.rkDeck s k = _ from hstay k hkM]
    exact hend

/-- **C114 (limit).** Whatever the initial data, and whatever the number of outputs, a run that is long enough ends as close to the mean of its initial data as one likes. -/
theorem C114_limit (hlib : lib.Ok) (junk : ℕ → ℝ) (hd : ValidDeck lib ft d p N ic) (hsys : d.system ≠ "euler".toList) (hper : ic.bc = "periodic")
    (hrk : d.rk = "rk3".toList) (hlim : d.limiting ≠ "adaptive_hr".toList) (hen : d.enhance = []) {δ : ℝ} (hδ : δ = (ic.B - ic.A) / N * d.cfl / (2 * p + 1))
    (hbig : 1 / 10 ^ 14 ≤ δ) (hcfl : d.cfl < (2 * p + 1) / (3 * (p + 1) ^ 2)) :
    ∃ s, ∀ ε : ℝ, 0 < ε → ∃ T₀ : ℝ, ∀ (T : ℝ) (M : ℕ), T₀ ≤ T → 1 ≤ M → 0 ≤ T → δ ≤ T / M →
      let d' : Deck ℝ := { d with finaltime := T, nout := M + 1 }
      start lib ft junk d' = .ok (s, none) ∧ ∃ k₀, ∀ k, k₀ ≤ k → (integrate ⟨residual, Limiter.limit none⟩ d'.rkDeck s k).status = .done ∧
        spread (integrate ⟨residual, Limiter.limit none⟩ d'.rkDeck s k).sol 0 ≤ ε := by
  obtain ⟨s, ρ, hρ0, hρ1, h⟩ := C114_deck hlib junk hd hsys hper hrk hlim hen hδ hbig hcfl
  have hδ0 : 0 < δ := lt_of_lt_of_le (by norm_num) hbig
  refine ⟨s, fun ε hε => ?_⟩
  obtain ⟨n, hn⟩ : ∃ n : ℕ, ρ ^ n * spread s 0 ≤ ε := by
    have := (tendsto_pow_atTop_nhds_zero_of_lt_one hρ0 hρ1).mul_const (spread s 0)
    rw [zero_mul] at this
    obtain ⟨n, hn⟩ := ((this.eventually (gt_mem_nhds hε)).exists)
    exact ⟨n, hn.le⟩
  refine ⟨2 * δ * n, fun T M hTn hM hT hfit => ?_⟩
  intro d'
  obtain ⟨g1, g2⟩ := h T M hM hT hfit
  refine ⟨g1, M * (⌊T / M / δ⌋₊ + 1), fun k hk => ⟨((g2 k).2 hk).1, ((g2 k).2 hk).2.trans ?_⟩⟩
  have hMr : (0 : ℝ) < M := by exact_mod_cast hM
  have hx : 1 ≤ T / M / δ := (one_le_div hδ0).mpr hfit
  have hfl : T / M / δ ≤ 2 * (⌊T / M / δ⌋₊ : ℝ) := by
    have h1 : (1 : ℝ) ≤ ⌊T / M / δ⌋₊ := by exact_mod_cast (Nat.one_le_floor_iff _).mpr hx
    have h2 := (Nat.lt_floor_add_one (T / M / δ)).le
    linarith
  have hnM : n ≤ M * ⌊T / M / δ⌋₊ := by
    have h1 : (n : ℝ) ≤ M * (⌊T / M / δ⌋₊ : ℝ) := by
      have h2 : T = M * (T / M / δ) * δ := by field_simp
      have h3 : 2 * δ * n ≤ M * (2 * (⌊T / M / δ⌋₊ : ℝ)) * δ :=
        hTn.trans (h2.le.trans (mul_le_mul_of_nonneg_right (mul_le_mul_of_nonneg_left hfl hMr.le) hδ0.le))
      have h4 : δ * (n : ℝ) ≤ δ * (M * (⌊T / M / δ⌋₊ : ℝ)) := by linarith
      exact le_of_mul_le_mul_left h4 hδ0
    exact_mod_cast h1
  have hs0 : 0 ≤ spread s 0 ∨ spread s 0 < 0 := le_or_gt 0 _
  rcases hs0 with hs0 | hs0
  · exact (mul_le_mul_of_nonneg_right (pow_le_pow_of_le_one hρ0 hρ1.le hnM) hs0).trans hn
  · exact (mul_nonpos_of_nonneg_of_nonpos (pow_nonneg hρ0 _) hs0.le).trans hε.le

open Stability in
/-- **C114 (waves).** Every eigenvalue the script computes for the standard scheme, at any wave number and any order, has a negative real part, except the eigenvalue 0 of the
constants: every other wave is damped. -/
theorem C114_damped (lib : GaussLib ℝ) (p : ℕ) {z : ℂ} (hz : ‖z‖ = 1) {v : ℕ → ℂ} (hv : ∃ n < p + 1, v n ≠ 0) {μ : ℂ}
    (h : ∀ n < p + 1, ∑ j ∈ Finset.range (p + 1), (fullMatrix (dgMatrices lib p z)).val n j * v j = μ * v n) :
    μ.re < 0 ∨ μ = 0 ∧ z = 1 ∧ ∀ n, 0 < n → n < p + 1 → v n = 0 := by
  rcases (C68_spectrum lib p hz hv h).lt_or_eq with hre | hre
  · exact .inl hre
  right
  have hz0 : z ≠ 0 := by
    rintro rfl
    rw [norm_zero] at hz
    exact zero_ne_one hz
  have key := C68_energy lib p hz v
  simp only at key
  rw [Finset.sum_congr rfl fun n hn => by rw [h n (Finset.mem_range.mp hn)]] at key
  have hE : ∑ n ∈ Finset.range (p + 1), ((2 / (2 * (n : ℝ) + 1) : ℝ) : ℂ) * ((starRingEnd ℂ) (v n) * (μ * v n)) =
      ((∑ n ∈ Finset.range (p + 1), 2 / (2 * (n : ℝ) + 1) * ‖v n‖ ^ 2 : ℝ) : ℂ) * μ := by
    rw [Complex.ofReal_sum, Finset.sum_mul]
    refine Finset.sum_congr rfl fun n _ => ?_
    have := Complex.conj_mul' (v n)
    rw [Complex.ofReal_mul, Complex.ofReal_pow]
    linear_combination ((2 / (2 * (n : ℝ) + 1) : ℝ) : ℂ) * μ * this
  rw [hE, Complex.re_ofReal_mul, hre, mul_zero] at key
  set U := fun ξ : ℝ => ∑ j ∈ Finset.range (p + 1), (((legendre ℝ j).eval ξ : ℝ) : ℂ) * v j with hU
  -- no jump
  have hjump : U (-1) = z⁻¹ * U 1 := by
    have h2 : ‖U (-1) - z⁻¹ * U 1‖ ^ 2 = 0 := by
      have : (0 : ℝ) = -(1 / 2) * ‖U (-1) - z⁻¹ * U 1‖ ^ 2 := key
      linarith
    exact sub_eq_zero.mp (norm_eq_zero.mp (pow_eq_zero_iff two_ne_zero |>.mp h2))
  -- so the matrix acts as the derivative
  have hrow : ∀ n < p + 1, μ * v n = -(((2 * (n : ℝ) + 1) / 2 : ℝ) : ℂ) * ∑ j ∈ Finset.range (p + 1), (derivPair ℝ n j : ℂ) * v j := by
    intro n hn
    rw [← h n hn]
    have hval : ∀ j, (fullMatrix (dgMatrices lib p z)).val n j = (((2 * (n : ℝ) + 1) / 2 : ℝ) : ℂ) * (-((((legendre ℝ n).eval 1 : ℝ) : ℂ) * (((legendre ℝ j).eval 1 : ℝ) : ℂ) -
        (((legendre ℝ n).eval (-1) : ℝ) : ℂ) * (((legendre ℝ j).eval 1 : ℝ) : ℂ) * z⁻¹) + ((intPoly (derivative (legendre ℝ n) * legendre ℝ j) : ℝ) : ℂ)) := by
      intro j
      unfold dgMatrices
      rw [fullMatrix_val n j hn]
      simp only [dgInterfaceFluxMatrix, legval_basis, Complex.ofReal_mul]
    have hparts : ∀ j, ((intPoly (derivative (legendre ℝ n) * legendre ℝ j) : ℝ) : ℂ) = (((legendre ℝ n).eval 1 : ℝ) : ℂ) * (((legendre ℝ j).eval 1 : ℝ) : ℂ) -
        (((legendre ℝ n).eval (-1) : ℝ) : ℂ) * (((legendre ℝ j).eval (-1) : ℝ) : ℂ) - (derivPair ℝ n j : ℂ) := by
      intro j
      rw [← Complex.ofReal_mul, ← Complex.ofReal_mul, ← Complex.ofReal_sub, ← Complex.ofReal_sub, intPoly_parts]
      rfl
    have hsum : ∑ j ∈ Finset.range (p + 1), (fullMatrix (dgMatrices lib p z)).val n j * v j = (((2 * (n : ℝ) + 1) / 2 : ℝ) : ℂ) *
        ((((legendre ℝ n).eval (-1) : ℝ) : ℂ) * (z⁻¹ * U 1 - U (-1)) - ∑ j ∈ Finset.range (p + 1), (derivPair ℝ n j : ℂ) * v j) := by
      simp only [hU, Finset.mul_sum, ← Finset.sum_sub_distrib]
      refine Finset.sum_congr rfl fun j _ => ?_
      rw [hval, hparts]
      ring
    rw [hsum, hjump, sub_self]
    ring
  have hup : ∀ n < p + 1, (∀ j, n < j → j < p + 1 → v j = 0) → μ * v n = 0 := by
    intro n hn hj
    rw [hrow n hn, Finset.sum_eq_zero, mul_zero]
    intro j hjr
    rcases le_or_gt j n with hle | hlt
    · rw [derivPair_low hle]; simp
    · rw [hj j hlt (Finset.mem_range.mp hjr), mul_zero]
  have hμ : μ = 0 := by
    by_contra hμ
    have hall : ∀ i ≤ p + 1, ∀ j, p + 1 - i ≤ j → j < p + 1 → v j = 0 := by
      intro i
      induction i with
      | zero => intro _ j h1 h2; omega
      | succ i ih =>
        intro hi j h1 h2
        rcases Nat.lt_or_ge j (p + 1 - i) with hlt | hge
        · exact (mul_eq_zero.mp (hup j h2 fun j' h3 h4 => ih (by omega) j' (by omega) h4)).resolve_left hμ
        · exact ih (by omega) j hge h2
    obtain ⟨n, hn, hne⟩ := hv
    exact hne (hall (p + 1) le_rfl n (by omega) hn)
  have hvz : ∀ i ≤ p, ∀ j, p + 1 - i ≤ j → j < p + 1 → v j = 0 := by
    intro i
    induction i with
    | zero => intro _ j h1 h2; omega
    | succ i ih =>
      intro hi j h1 h2
      rcases Nat.lt_or_ge j (p + 1 - i) with hlt | hge
      · have hr := hrow (j - 1) (by omega)
        rw [hμ, zero_mul, Finset.sum_eq_single j] at hr
        · have hd : derivPair ℝ (j - 1) j ≠ 0 := by
            intro h0
            have := derivPair_sq (K := ℝ) (j - 1) j
            rw [h0, derivPair_low (k := j) (n := j - 1) (by omega)] at this
            obtain ⟨i', rfl⟩ : ∃ i', j = i' + 1 := ⟨j - 1, by omega⟩
            rw [Nat.add_sub_cancel, pow_succ (-1 : ℝ) i'] at this
            have h1 := neg_one_pow_sq (K := ℝ) i'
            nlinarith
          have hc : -(((2 * ((j - 1 : ℕ) : ℝ) + 1) / 2 : ℝ) : ℂ) ≠ 0 := by
            rw [neg_ne_zero]
            exact_mod_cast (by positivity : ((2 * ((j - 1 : ℕ) : ℝ) + 1) / 2 : ℝ) ≠ 0)
          have := (mul_eq_zero.mp hr.symm).resolve_left hc
          exact (mul_eq_zero.mp this).resolve_left (by exact_mod_cast hd)
        · intro j' hj' hne
          rcases le_or_gt j' (j - 1) with hle | hgt
          · rw [derivPair_low hle]; simp
          · rw [ih (by omega) j' (by omega) (Finset.mem_range.mp hj'), mul_zero]
        · intro hnot
          exact absurd (Finset.mem_range.mpr h2) hnot
      · exact ih (by omega) j hge h2
  have hv0 : ∀ n, 0 < n → n < p + 1 → v n = 0 := fun n h1 h2 => hvz p le_rfl n (by omega) h2
  refine ⟨hμ, ?_, hv0⟩
  have hUc : ∀ ξ, U ξ = v 0 := by
    intro ξ
    simp only [hU]
    rw [Finset.sum_eq_single 0 (fun j hj hj0 => by rw [hv0 j (by omega) (Finset.mem_range.mp hj), mul_zero]) (by simp), legendre_zero]
    simp
  have hne : v 0 ≠ 0 := by
    obtain ⟨n, hn, hne⟩ := hv
    rcases Nat.eq_zero_or_pos n with rfl | hpos
    · exact hne
    · exact absurd (hv0 n hpos hn) hne
  rw [hUc, hUc] at hjump
  have : z * v 0 = v 0 := by
    conv_lhs => rw [hjump]
    field_simp
  have h1 : (z - 1) * v 0 = 0 := by rw [sub_mul, one_mul, this, sub_self]
  exact sub_eq_zero.mp ((mul_eq_zero.mp h1).resolve_right hne)

/-! ### Cases -/

/-- `C114_deck`, `C114_limit`: the sine wave with `rk3` and CFL number 1/5, to any final time. -/
example : ∃ s, ∀ ε : ℝ, 0 < ε → ∃ T₀ : ℝ, ∀ (T : ℝ) (M : ℕ), T₀ ≤ T → 1 ≤ M → 0 ≤ T → 1 / 60 ≤ T / M →
    let d' : Deck ℝ := { Ex.sine3 with finaltime := T, nout := M + 1 }
    start realGauss Ex.decReal (fun _ => 0) d' = .ok (s, none) ∧ ∃ k₀, ∀ k, k₀ ≤ k → (integrate ⟨residual, Limiter.limit none⟩ d'.rkDeck s k).status = .done ∧
      spread (integrate ⟨residual, Limiter.limit none⟩ d'.rkDeck s k).sol 0 ≤ ε :=
  C114_limit (δ := 1 / 60) realGauss_ok (fun _ => 0) Ex.sine3_valid (show "advection".toList ≠ "euler".toList by decide) rfl rfl
    (show ([] : Str) ≠ "adaptive_hr".toList by decide) rfl
    (show (1 / 60 : ℝ) = ((1 : ℝ) - -1) / (8 : ℕ) * (1 / 5) / (2 * (1 : ℕ) + 1) by norm_num) (by norm_num)
    (show (1 / 5 : ℝ) < (2 * (1 : ℕ) + 1) / (3 * ((1 : ℕ) + 1) ^ 2) by norm_num)

/-- `C114_steady`, `C114_step`: three cells of any order; the data of the example is not constant and does not stand still. -/
example (p : ℕ) : ∃ F, residual (Ex.solR p) = .ok ((Ex.solR p).applyBc, F) ∧ ∃ n < p + 1, ∃ e, 1 ≤ e ∧ e ≤ 3 ∧ F.val n e ≠ 0 := by
  obtain ⟨F, hF, -⟩ := C13_advection (Ex.solR_built p) rfl rfl
  refine ⟨F, hF, ?_⟩
  by_contra hc
  push Not at hc
  obtain ⟨m, hm⟩ := (C114_steady (Ex.solR_built p) rfl rfl rfl rfl _ F hF 0 (by norm_num [Ex.solR])).mp (fun n hn e h1 h2 => by
    have := hc n hn e h1 h2
    simpa [Ex.solR] using this)
  have h1 := hm 1 le_rfl (by norm_num [Ex.solR])
  have h2 := hm 2 (by norm_num) (by norm_num [Ex.solR])
  unfold cellPoly at h1 h2
  have e1 := coeff_const h1 0 (by simp [Ex.solR])
  have e2 := coeff_const h2 0 (by simp [Ex.solR])
  rw [← e1] at e2
  norm_num [Ex.solR] at e2

open Stability in
/-- `C114_damped`, order 0: the eigenvalue `-(1 - 1/z)/2` of every `z ≠ 1` on the unit circle. -/
example (lib : GaussLib ℝ) {z : ℂ} (hz : ‖z‖ = 1) (h1 : z ≠ 1) : ((1 / 2 : ℂ) * (-(1 - z⁻¹))).re < 0 := by
  refine (C114_damped lib 0 hz (v := fun _ => 1) ⟨0, by norm_num, one_ne_zero⟩ (μ := (1 / 2 : ℂ) * (-(1 - z⁻¹))) fun n hn => ?_).resolve_right fun h => h1 h.2.1
  obtain rfl : n = 0 := by omega
  unfold dgMatrices
  rw [Finset.sum_range_one, fullMatrix_val 0 0 (by norm_num)]
  simp [dgInterfaceFluxMatrix, legval_basis, legendre_zero, intPoly, intBetween, antideriv]

end Dg1d.Props
