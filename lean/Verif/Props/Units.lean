import Verif.Proofs.UnitsLoop
import Verif.Props.LocalError

/-! # C88: units of measurement -/

set_option linter.unusedSectionVars false

open Polynomial Dg1d.Spec

namespace Dg1d.Props
open Text
variable {γ : ℝ} {riemann : Str} {s : Sol ℝ} {lib : GaussLib ℝ} {p : ℕ} (U : Units)

lemma eulerShape_of (h : s.Built lib p) (hp : CodePhysics γ "euler".toList riemann s) : EulerShape γ (String.ofList riemann) s := by
  obtain ⟨h1, h2⟩ := hp.euler rfl
  exact ⟨h1, h2, by rw [h.cols, h2]; omega⟩

/-- **C88, reading.** Where the solution holds density, velocity and pressure `w`, the solution in other units holds
these numbers in the new units; its cells are as much longer as the unit of length says, it is as well built, and it gets the same limiter. -/
theorem C88_reading (h : s.Built lib p) (hp : CodePhysics γ "euler".toList riemann s) :
    (U.sol s).Built lib p ∧ CodePhysics γ "euler".toList riemann (U.sol s) ∧ (U.sol s).dx = U.len * s.dx ∧ (U.sol s).t = U.time * s.t ∧
    (∀ limiting, Limiter.init limiting (U.sol s) = Limiter.init limiting s) ∧
    ∀ (e : ℕ) (ξ : ℝ) (w : Prim), (∀ f : Fin 3, (cellPoly s e f).eval ξ = w.cons γ f) →
      ∀ f : Fin 3, (cellPoly (U.sol s) e f).eval ξ = (U.prim w).cons γ f := by
  have hl := U.len_pos
  refine ⟨⟨h.nodes, h.gauss, h.basis, h.NF, h.NE, h.rows, h.cols, mul_ne_zero hl.ne' h.dx, fun n hn => ?_, h.enh⟩, ⟨hp.kw, hp.NF⟩, rfl, rfl, fun _ => rfl, ?_⟩
  · show s.scaledMinv.val n / U.len = _
    rw [h.minv n hn, show (U.sol s).dx = U.len * s.dx from rfl, div_div, mul_comm s.dx]
  · intro e ξ w hw f
    obtain ⟨-, hF⟩ := hp.euler rfl
    have hpoly : (cellPoly (U.sol s) e f).eval ξ = U.field f * (cellPoly s e f).eval ξ := by
      unfold cellPoly
      rw [legSeries_eval, legSeries_eval, Finset.mul_sum]
      refine Finset.sum_congr rfl fun n _ => ?_
      show U.field ((e * s.NF + f) % 3) * s.u.val n (e * s.NF + f) * _ = _
      rw [hF, show (e * 3 + (f : ℕ)) % 3 = f from by have := f.isLt; omega]
      ring
    rw [hpoly, hw f]
    fin_cases f
    · simp [Prim.cons, Spec.Units.prim, Spec.Units.field]
    · simp [Prim.cons, Spec.Units.prim, Spec.Units.field]; ring
    · simp only [Prim.cons, Prim.energy, Spec.Units.prim, Spec.Units.field]
      simp
      ring

/-- The run in the new units is the run, written in the new units. -/
def SameInUnits (U : Units) (r r' : LoopState ℝ) : Prop :=
  r'.status = r.status ∧ r'.sol = U.sol r.sol ∧ r'.log = r.log.map U.out

lemma units_forward (h : s.Built lib p) (hp : CodePhysics γ "euler".toList riemann s) (hn : riemann ≠ "godunov".toList) (lm : Limiter ℝ)
    (deck : RkDeck ℝ) (k : ℕ)
    (hdt : U.time = 1 ∨ 1 ≤ U.time ∧ (integrate ⟨residual, lm.limit⟩ deck s k).status ≠ .failed (.sysExit "Next time step is too small")) :
    SameInUnits U (integrate ⟨residual, lm.limit⟩ deck s k) (integrate ⟨residual, lm.limit⟩ (U.deck deck) (U.sol s) k) := by
  have hn' : String.ofList riemann ≠ "godunov" := fun he => hn (by rw [← he, String.toList_ofList])
  have := (unit_run U (unitFree_code (γ := γ) U hn' lm) deck (schemeFor deck.rk) (eulerShape_of h hp) k hdt).1
  have hr : integrate ⟨residual, lm.limit⟩ (U.deck deck) (U.sol s) k = U.loop (integrate ⟨residual, lm.limit⟩ deck s k) := this
  rw [hr]
  exact ⟨rfl, rfl, rfl⟩

/-- The way back to the old units. -/
noncomputable def backUnits (U : Units) : Units :=
  ⟨1 / U.dens, 1 / U.len, 1 / U.time, one_div_pos.mpr U.dens_pos, one_div_pos.mpr U.len_pos, one_div_pos.mpr U.time_pos⟩

lemma back_vel : (backUnits U).vel = 1 / U.vel := by
  have := U.len_pos; have := U.time_pos
  unfold Spec.Units.vel backUnits; simp only; field_simp

lemma back_field (f : ℕ) : (backUnits U).field f * U.field f = 1 := by
  have := U.dens_pos; have := Units_vel_pos U
  unfold Spec.Units.field
  rw [back_vel]
  unfold backUnits; simp only
  rw [mul_mul_mul_comm, ← mul_pow, one_div_mul_cancel U.dens_pos.ne', one_div_mul_cancel (Units_vel_pos U).ne', one_pow, one_mul]

lemma back_sol (s : Sol ℝ) : (backUnits U).sol (U.sol s) = s := by
  have hl := U.len_pos; have ht := U.time_pos
  have hu : ∀ (c : ℕ) (x : ℝ), (backUnits U).field c * (U.field c * x) = x := fun c x => by rw [← mul_assoc, back_field, one_mul]
  unfold Spec.Units.sol
  simp only [hu]
  have h1 : ∀ x : ℝ, (backUnits U).len * (U.len * x) = x := fun x => by unfold backUnits; simp only; field_simp
  have h2 : ∀ x : ℝ, (backUnits U).time * (U.time * x) = x := fun x => by unfold backUnits; simp only; field_simp
  have h3 : ∀ x : ℝ, x / U.len / (backUnits U).len = x := fun x => by unfold backUnits; simp only; field_simp
  simp only [h1, h2, h3]

lemma back_sol' (s : Sol ℝ) : U.sol ((backUnits U).sol s) = s := by
  have hl := U.len_pos; have ht := U.time_pos
  have hu : ∀ (c : ℕ) (x : ℝ), U.field c * ((backUnits U).field c * x) = x := fun c x => by rw [← mul_assoc, mul_comm (U.field c), back_field, one_mul]
  unfold Spec.Units.sol
  simp only [hu]
  have h1 : ∀ x : ℝ, U.len * ((backUnits U).len * x) = x := fun x => by unfold backUnits; simp only; field_simp
  have h2 : ∀ x : ℝ, U.time * ((backUnits U).time * x) = x := fun x => by unfold backUnits; simp only; field_simp
  have h3 : ∀ x : ℝ, x / (backUnits U).len / U.len = x := fun x => by unfold backUnits; simp only; field_simp
  simp only [h1, h2, h3]

/-- **C88.** A run of the Euler code with the Rusanov or the Roe flux, with any limiter, scheme and number of steps, does
not depend on the units: starting from the same gas written down with other units of density, length and time, it takes
the same steps, ends the same way, and every solution and every output is the old one in the new units. The one
exception is the absolute bound `1e-14` on the time step: either the unit of time is kept, or neither run stops
there. -/
theorem C88_run (h : s.Built lib p) (hp : CodePhysics γ "euler".toList riemann s) (hn : riemann ≠ "godunov".toList) (lm : Limiter ℝ)
    (deck : RkDeck ℝ) (k : ℕ) :
    let r := integrate ⟨residual, lm.limit⟩ deck s k
    let r' := integrate ⟨residual, lm.limit⟩ (U.deck deck) (U.sol s) k
    (U.time = 1 ∨ r.status ≠ .failed (.sysExit "Next time step is too small") ∧ r'.status ≠ .failed (.sysExit "Next time step is too small")) →
    r'.status = r.status ∧ r'.sol = U.sol r.sol ∧ r'.log = r.log.map U.out := by
  intro r r' hdt
  rcases hdt with h1 | ⟨h1, h2⟩
  · exact units_forward U h hp hn lm deck k (.inl h1)
  · rcases le_total 1 U.time with ht | ht
    · exact units_forward U h hp hn lm deck k (.inr ⟨ht, h1⟩)
    · obtain ⟨hb, hc, -⟩ := C88_reading U h hp
      have hbt : 1 ≤ (backUnits U).time := by
        show 1 ≤ 1 / U.time
        rw [le_div_iff₀ U.time_pos]; linarith
      have hdeck : (backUnits U).deck (U.deck deck) = deck := by
        have htp := U.time_pos
        unfold Spec.Units.deck backUnits
        simp only
        have : 1 / U.time * (U.time * deck.finaltime) = deck.finaltime := by field_simp
        rw [this]
      have := units_forward (backUnits U) hb hc hn lm (U.deck deck) k (.inr ⟨hbt, h2⟩)
      rw [hdeck, back_sol] at this
      obtain ⟨e1, e2, e3⟩ := this
      refine ⟨e1.symm, ?_, ?_⟩
      · rw [show r.sol = _ from e2, back_sol']
      · rw [show r.log = _ from e3, List.map_map]
        have : U.out ∘ (backUnits U).out = id := by
          funext o
          obtain ⟨no, dt, so⟩ := o
          have htp := U.time_pos
          simp only [Function.comp_apply, Spec.Units.out, back_sol', id]
          have : U.time * ((backUnits U).time * dt) = dt := by unfold backUnits; simp only; field_simp
          rw [this]
        rw [this, List.map_id]

/-- **C88, the time step.** The bound `1e-14` is a bound on a number: every gas that moves or sounds has units in which
its very first step is refused, although in the old units the step was accepted. -/
theorem C88_time_bound (h : s.Built lib p) (hp : CodePhysics γ "euler".toList riemann s) {v cfl : ℝ} (hv : s.kw.maxWaveSpeed s.u = .ok (.fin v)) (hv0 : 0 < v)
    (hdx : 0 < s.dx) (hcfl : 0 < cfl) (hok : 1 / 10 ^ 14 ≤ s.dx * cfl / (v * (2 * p + 1))) (tout tf : ℝ) :
    (∃ r, getNextTimeStep s tout cfl tf = .ok r) ∧
    ∃ U : Units, getNextTimeStep (U.sol s) (U.time * tout) cfl (U.time * tf) = .error (.sysExit "Next time step is too small") ∧
      ∀ (env : Env ℝ) (deck : RkDeck ℝ), deck.cfl = cfl → 2 ≤ deck.nout →
        (integrate env (U.deck deck) (U.sol s) 1).status = .failed (.sysExit "Next time step is too small") := by
  have hb : (s.basis.p : ℝ) = p := by rw [h.basis]; rfl
  have hden : 0 < v * (2 * (p : ℝ) + 1) := by positivity
  set x := s.dx * cfl / (v * (2 * p + 1)) with hx
  have hx0 : 0 < x := by positivity
  have hc : cflTimeStep s cfl = .ok (.fin x) := by
    unfold cflTimeStep
    rw [hv]
    simp only
    rw [hb, if_neg hden.ne']
  refine ⟨?_, ?_⟩
  · refine ⟨adjustForOutput x s.t tf tout, ?_⟩
    unfold getNextTimeStep
    rw [hc]
    simp only [sanityCheckDt]
    rw [if_neg (not_lt.mpr hok)]
  · have htp : 0 < 1 / (10 ^ 15 * x) := by positivity
    let U : Units := ⟨1, 1, 1 / (10 ^ 15 * x), one_pos, one_pos, htp⟩
    have hsmall : U.time * x < 1 / 10 ^ 14 := by
      show 1 / (10 ^ 15 * x) * x < 1 / 10 ^ 14
      rw [show 1 / (10 ^ 15 * x) * x = 1 / 10 ^ 15 by field_simp]
      norm_num
    have hall : ∀ a b, getNextTimeStep (U.sol s) a cfl b = .error (.sysExit "Next time step is too small") := by
      intro a b
      unfold getNextTimeStep
      rw [unit_cfl U (eulerShape_of h hp), hc]
      simp only [Except.map, Spec.Units.fl, sanityCheckDt]
      rw [if_pos hsmall]
    refine ⟨U, hall _ _, fun env deck hd hno => ?_⟩
    show (runLoop env (U.deck deck) ((schemeFor deck.rk).inner env) (U.sol s) 1).status = _
    unfold runLoop
    rw [Function.iterate_one]
    have hinit : (initLoop (U.deck deck) (U.sol s)).status = .running ∧ (initLoop (U.deck deck) (U.sol s)).sol = U.sol s := by
      unfold initLoop
      simp only
      rw [show (U.deck deck).nout = deck.nout from rfl]
      obtain ⟨m, hm⟩ := Nat.exists_eq_add_of_le hno
      rw [hm, show 2 + m = (m + 1) + 1 by omega, List.range_succ_eq_map, List.map_cons, List.tail_cons, List.range_succ_eq_map, List.map_cons, List.map_cons]
      exact ⟨rfl, rfl⟩
    unfold loopBody
    rw [hinit.1, hinit.2, show (U.deck deck).cfl = cfl from hd, hall]

/-- C88 on two periodic cells with two supersonic jumps, both solvers, every order, scheme and limiter: from SI units
to g/cm³ and centimetres. -/
example (p : ℕ) (riemann : Str) (hn : riemann ≠ "godunov".toList) (lm : Limiter ℝ) (deck : RkDeck ℝ) (k : ℕ) :
    let U : Units := ⟨1 / 1000, 100, 1, by norm_num, by norm_num, by norm_num⟩
    (integrate ⟨residual, lm.limit⟩ deck (U.sol (Ex.gas p (String.ofList riemann))) k).sol =
      U.sol (integrate ⟨residual, lm.limit⟩ deck (Ex.gas p (String.ofList riemann)) k).sol := by
  intro U
  have := (C88_run U (γ := 7 / 5) (riemann := riemann) (Ex.gas_built p (String.ofList riemann))
    ⟨by unfold manipulationFunctions; rw [if_pos rfl]; rfl, by unfold manipulationFunctions; rw [if_pos rfl]; rfl⟩ hn lm deck k (.inl rfl)).2.1
  rw [← this]
  have hd : U.deck deck = deck := by
    show ({ deck with finaltime := 1 * deck.finaltime } : RkDeck ℝ) = deck
    rw [one_mul]
  rw [hd]

/-- C88 reads it as it should: the first cell moves with 10 m/s, in centimetres and seconds with 1000 cm/s. -/
example (p : ℕ) (riemann : Str) (ξ : ℝ) :
    let U : Units := ⟨1 / 1000, 100, 1, by norm_num, by norm_num, by norm_num⟩
    (cellPoly (U.sol (Ex.gas p (String.ofList riemann))) 1 1).eval ξ = 1 / 1000 * 1000 := by
  intro U
  have hc : ∀ f : Fin 3, (cellPoly (Ex.gas p (String.ofList riemann)) 1 f).eval ξ = (⟨1, 10, 5 / 7⟩ : Prim).cons (7 / 5) f := by
    intro f
    unfold cellPoly
    rw [legSeries_eval, show (Ex.gas p (String.ofList riemann)).u.rows = p + 1 from rfl, Finset.sum_range_succ', Finset.sum_eq_zero fun n _ => ?_]
    · show 0 + (if 0 = 0 then Ex.gasState ((1 * 3 + f) / 3) ((1 * 3 + f) % 3) else 0) * _ = _
      rw [if_pos rfl, legendre_zero]
      have h1 : (1 * 3 + (f : ℕ)) / 3 = 1 := by have := f.isLt; omega
      have h2 : (1 * 3 + (f : ℕ)) % 3 = f := by have := f.isLt; omega
      rw [h1, h2]
      fin_cases f <;> norm_num [Ex.gasState, Prim.cons, Prim.energy]
    · show (if n + 1 = 0 then Ex.gasState ((1 * 3 + f) / 3) ((1 * 3 + f) % 3) else (0 : ℝ)) * _ = 0
      rw [if_neg (by omega), zero_mul]
  have := (C88_reading U (γ := 7 / 5) (riemann := riemann) (Ex.gas_built p (String.ofList riemann))
    ⟨by unfold manipulationFunctions; rw [if_pos rfl]; rfl, by unfold manipulationFunctions; rw [if_pos rfl]; rfl⟩).2.2.2.2.2 1 ξ _ hc 1
  rw [show ((1 : Fin 3) : ℕ) = 1 from rfl] at this
  rw [this]
  norm_num [Prim.cons, Spec.Units.prim, Spec.Units.vel, U]

/-- C88 (time step) on that gas. -/
example (p : ℕ) : ∃ U : Units, ∀ (env : Env ℝ), (integrate env (U.deck ⟨"rk4", 1, 2, 1000 * (2 * p + 1)⟩) (U.sol (Ex.gas p "roe")) 1).status =
    .failed (.sysExit "Next time step is too small") := by
  have hst : ∀ i < 4, ((fun i => if i % 2 = 1 then (⟨1, 10, 5 / 7⟩ : Prim) else ⟨1, 11, 5 / 7⟩) i).Phys ∧
      ∀ k : Fin 3, (Ex.gas p "roe").u.val 0 (i * 3 + k) = ((fun i => if i % 2 = 1 then (⟨1, 10, 5 / 7⟩ : Prim) else ⟨1, 11, 5 / 7⟩) i).cons (7 / 5) k := by
    intro i _
    refine ⟨by simp only; split <;> norm_num [Prim.Phys], fun k => ?_⟩
    show (if 0 = 0 then Ex.gasState ((i * 3 + k) / 3) ((i * 3 + k) % 3) else 0) = _
    have h1 : (i * 3 + (k : ℕ)) / 3 = i := by have := k.isLt; omega
    have h2 : (i * 3 + (k : ℕ)) % 3 = k := by have := k.isLt; omega
    rw [if_pos rfl, h1, h2]
    simp only
    by_cases hi : i % 2 = 1
    · rw [if_pos hi]; fin_cases k <;> norm_num [Ex.gasState, Prim.cons, Prim.energy, hi]
    · rw [if_neg hi]; fin_cases k <;> norm_num [Ex.gasState, Prim.cons, Prim.energy, hi]
  obtain ⟨c, hc, hle, i, hi, hci⟩ := C46_bound (γ := 7 / 5) (by norm_num) "roe" (Ex.gas p "roe").u 4 (by norm_num) rfl _ hst
  have hcs : ∀ v, (⟨1, v, 5 / 7⟩ : Prim).c (7 / 5) = 1 := fun v => by unfold Prim.c; norm_num
  have hcb : 0 < c ∧ c ≤ 12 := by
    rw [← hci]
    split <;> (rw [hcs]; norm_num)
  have hdx : (Ex.gas p "roe").dx = 1 / 2 := rfl
  have hp1 : (0 : ℝ) < 2 * p + 1 := by positivity
  obtain ⟨-, U, -, hU⟩ := C88_time_bound (γ := 7 / 5) (riemann := "roe".toList) (cfl := 1000 * (2 * p + 1)) (Ex.gas_built p "roe")
    ⟨by unfold manipulationFunctions; rw [if_pos rfl]; rfl, by unfold manipulationFunctions; rw [if_pos rfl]; rfl⟩ hc hcb.1 (by rw [hdx]; norm_num) (by positivity)
    (by
      rw [hdx, show (1 / 2 : ℝ) * (1000 * (2 * p + 1)) / (c * (2 * p + 1)) = 500 / c by have := hcb.1; field_simp; norm_num]
      rw [div_le_div_iff₀ (by norm_num) hcb.1]
      have := hcb.2
      norm_num; linarith) 0 0
  exact ⟨U, fun env => hU env _ rfl (by norm_num)⟩

/-! ### The Godunov solver -/

lemma Ex.head_on_map {a P : ℝ} (ha : 0 < a) (hP : 1 ≤ P) :
    pressureMap 3 ⟨3 * a, 1 / 2, a⟩ ⟨3 * a, -(1 / 2), a⟩ (a * P) = a * (1 + √(6 * P + 3) / 2) := by
  have hw : ∀ v, waveFlux 3 ⟨3 * a, v, a⟩ (a * P) = a * √(6 * P + 3) := by
    intro v
    unfold waveFlux
    rw [if_neg (by simp only; nlinarith)]
    unfold shockFlux
    simp only
    rw [show 3 * a * ((3 + 1) * (a * P) + (3 - 1) * a) / 2 = a ^ 2 * (6 * P + 3) by ring, Real.sqrt_mul (sq_nonneg a), Real.sqrt_sq ha.le]
  unfold pressureMap
  rw [hw, hw]
  have hs : 0 < √(6 * P + 3) := Real.sqrt_pos.mpr (by linarith)
  simp only
  field_simp
  ring

lemma Ex.head_on_start {b : ℝ} (hb : 0 < b) : twoExpansionPressure 3 ⟨3 * b ^ 3, 1 / 2, b ^ 3⟩ ⟨3 * b ^ 3, -(1 / 2), b ^ 3⟩ = b ^ 3 * (27 / 8) := by
  have hc : ∀ v, (⟨3 * b ^ 3, v, b ^ 3⟩ : Prim).c 3 = 1 := fun v => by
    unfold Prim.c
    simp only
    rw [div_self (by positivity), Real.sqrt_one]
  have hi : isoExp 3 = 1 / 3 := by norm_num [isoExp]
  unfold twoExpansionPressure
  rw [hc, hc, hi]
  simp only
  have hr : (b ^ 3) ^ (1 / 3 : ℝ) = b := by
    rw [← Real.rpow_natCast b 3, ← Real.rpow_mul hb.le]; norm_num
  rw [hr, show (1 : ℝ) / (1 / 3) = (3 : ℕ) by norm_num, Real.rpow_natCast]
  field_simp
  norm_num

/-- The iterates of the head-on collision, over the pressure of the gas. -/
noncomputable def Ex.headOn : ℕ → ℝ
  | 0 => 27 / 8
  | j + 1 => 1 + √(6 * Ex.headOn j + 3) / 2

lemma Ex.headOn_ge (j : ℕ) : 1 ≤ Ex.headOn j := by
  cases j with
  | zero => norm_num [Ex.headOn]
  | succ j => unfold Ex.headOn; have := Real.sqrt_nonneg (6 * Ex.headOn j + 3); linarith

lemma Ex.headOn_iter {b : ℝ} (hb : 0 < b) (j : ℕ) :
    pressureIter 3 ⟨3 * b ^ 3, 1 / 2, b ^ 3⟩ ⟨3 * b ^ 3, -(1 / 2), b ^ 3⟩ j = b ^ 3 * Ex.headOn j := by
  induction j with
  | zero => exact Ex.head_on_start hb
  | succ j ih =>
    unfold pressureIter
    rw [ih, Ex.head_on_map (by positivity) (Ex.headOn_ge j)]
    rfl

/-- The first two iterates are three hundredths apart. -/
lemma Ex.headOn_gap : 3 / 100 ≤ |Ex.headOn 1 - Ex.headOn 0| ∧ |Ex.headOn 1 - Ex.headOn 0| ≤ 4 / 100 := by
  have h1 : Ex.headOn 1 = 1 + √(93 / 4) / 2 := by
    show 1 + √(6 * (27 / 8) + 3) / 2 = _
    norm_num
  have h0 : Ex.headOn 0 = 27 / 8 := rfl
  have hlo : (482 / 100 : ℝ) ≤ √(93 / 4) := Real.le_sqrt_of_sq_le (by norm_num)
  have hhi : √(93 / 4) ≤ (483 / 100 : ℝ) := Real.sqrt_le_iff.mpr ⟨by norm_num, by norm_num⟩
  rw [h1, h0, abs_of_nonneg (by linarith)]
  constructor <;> linarith

lemma Ex.headOn_contract (j : ℕ) : |Ex.headOn (j + 1) - Ex.headOn j| ≤ 1 / 25 * (1 / 2) ^ j := by
  induction j with
  | zero => have := Ex.headOn_gap.2; norm_num at this ⊢; linarith
  | succ j ih =>
    have hx := Ex.headOn_ge (j + 1)
    have hy := Ex.headOn_ge j
    have e : Ex.headOn (j + 1 + 1) - Ex.headOn (j + 1) = (√(6 * Ex.headOn (j + 1) + 3) - √(6 * Ex.headOn j + 3)) / 2 := by
      show (1 + √(6 * Ex.headOn (j + 1) + 3) / 2) - (1 + √(6 * Ex.headOn j + 3) / 2) = _
      ring
    have sx : 3 ≤ √(6 * Ex.headOn (j + 1) + 3) := Real.le_sqrt_of_sq_le (by nlinarith)
    have sy : 3 ≤ √(6 * Ex.headOn j + 3) := Real.le_sqrt_of_sq_le (by nlinarith)
    have hprod : (√(6 * Ex.headOn (j + 1) + 3) - √(6 * Ex.headOn j + 3)) * (√(6 * Ex.headOn (j + 1) + 3) + √(6 * Ex.headOn j + 3)) =
        6 * (Ex.headOn (j + 1) - Ex.headOn j) := by
      have q1 := Real.mul_self_sqrt (show (0 : ℝ) ≤ 6 * Ex.headOn (j + 1) + 3 by linarith)
      have q2 := Real.mul_self_sqrt (show (0 : ℝ) ≤ 6 * Ex.headOn j + 3 by linarith)
      nlinarith
    have habs : |√(6 * Ex.headOn (j + 1) + 3) - √(6 * Ex.headOn j + 3)| ≤ |Ex.headOn (j + 1) - Ex.headOn j| := by
      have h6 : |√(6 * Ex.headOn (j + 1) + 3) - √(6 * Ex.headOn j + 3)| * (√(6 * Ex.headOn (j + 1) + 3) + √(6 * Ex.headOn j + 3)) =
          6 * |Ex.headOn (j + 1) - Ex.headOn j| := by
        rw [← abs_of_pos (show 0 < √(6 * Ex.headOn (j + 1) + 3) + √(6 * Ex.headOn j + 3) by linarith), ← abs_mul, hprod, abs_mul]
        norm_num
      have := abs_nonneg (√(6 * Ex.headOn (j + 1) + 3) - √(6 * Ex.headOn j + 3))
      nlinarith
    rw [e, abs_div, abs_two, pow_succ]
    linarith

/-- In the head-on collision the gas on the interface is at rest: the flux is the pressure. -/
lemma Ex.head_on_flux {a P : ℝ} :
    (interfaceState 3 ⟨3 * a, 1 / 2, a⟩ ⟨3 * a, -(1 / 2), a⟩ P).flux 3 = ![0, P, 0] := by
  have hw : ∀ v v', waveFlux 3 ⟨3 * a, v, a⟩ P = waveFlux 3 ⟨3 * a, v', a⟩ P := fun _ _ => rfl
  have hV : starV 3 ⟨3 * a, 1 / 2, a⟩ ⟨3 * a, -(1 / 2), a⟩ P = 0 := by
    unfold starV
    rw [hw (-(1 / 2)) (1 / 2)]
    simp only
    rw [show waveFlux 3 ⟨3 * a, 1 / 2, a⟩ P * (1 / 2) + waveFlux 3 ⟨3 * a, 1 / 2, a⟩ P * -(1 / 2) - (a - a) = 0 by ring, zero_div]
  unfold interfaceState
  simp only [hV]
  rw [if_neg (by rw [zero_sub, not_lt, neg_nonpos]; exact Real.sqrt_nonneg _), if_neg (by rw [zero_add, not_lt]; exact Real.sqrt_nonneg _), if_pos le_rfl]
  unfold Prim.flux behind
  simp

/-- **C88, Godunov: false.** Two equal gases (γ = 3, density 3, pressure 1) meeting head-on with half the speed of sound
each: the solver returns a flux, and it returns a flux when density and pressure are measured in units a thousand
million times as big; but the second is not the first in those units, because the iteration stops when two pressures
differ by less than `1e-6`, whatever the unit. -/
theorem C88_godunov : ∃ (U : Units) (wL wR : Prim) (F F' : Fin 3 → ℝ), U.len = 1 ∧ U.time = 1 ∧ wL.Phys ∧ wR.Phys ∧
    FluxAt 3 "godunov" wL wR F ∧ FluxAt 3 "godunov" (U.prim wL) (U.prim wR) F' ∧ F' ≠ U.flux F := by
  let U : Units := ⟨(1 / 1000) ^ 3, 1, 1, by norm_num, one_pos, one_pos⟩
  have main : ∀ b : ℝ, 0 < b → ∃ j ≤ 100, b ^ 3 * |Ex.headOn (j + 1) - Ex.headOn j| < 1 / 10 ^ 6 ∧
      (∀ i < j, 1 / 10 ^ 6 ≤ b ^ 3 * |Ex.headOn (i + 1) - Ex.headOn i|) ∧
      FluxAt 3 "godunov" ⟨3 * b ^ 3, 1 / 2, b ^ 3⟩ ⟨3 * b ^ 3, -(1 / 2), b ^ 3⟩ ![0, b ^ 3 * Ex.headOn (j + 1), 0] ∨
      1 < b := by
    intro b hb
    have hb3 : 0 < b ^ 3 := by positivity
    have hph : ∀ v, (⟨3 * b ^ 3, v, b ^ 3⟩ : Prim).Phys := fun v => ⟨by simp only; positivity, hb3⟩
    have hc : ∀ v, (⟨3 * b ^ 3, v, b ^ 3⟩ : Prim).c 3 = 1 := fun v => by
      unfold Prim.c
      simp only
      rw [div_self (by positivity), Real.sqrt_one]
    have hdiff : ∀ j, |pressureIter 3 ⟨3 * b ^ 3, 1 / 2, b ^ 3⟩ ⟨3 * b ^ 3, -(1 / 2), b ^ 3⟩ (j + 1) -
        pressureIter 3 ⟨3 * b ^ 3, 1 / 2, b ^ 3⟩ ⟨3 * b ^ 3, -(1 / 2), b ^ 3⟩ j| = b ^ 3 * |Ex.headOn (j + 1) - Ex.headOn j| := fun j => by
      rw [Ex.headOn_iter hb, Ex.headOn_iter hb, ← mul_sub, abs_mul, abs_of_pos hb3]
    rcases C44_iteration (γ := 3) (by norm_num) (hph (1 / 2)) (hph (-(1 / 2))) (by rw [hc]; norm_num) (by rw [hc]; norm_num)
      (by rw [hc, hc]; norm_num) with ⟨j, hj, -, h1, h2, h3, h4⟩ | ⟨h1, -⟩
    · refine ⟨j, hj, .inl ⟨by rw [← hdiff]; exact h1, fun i hi => by rw [← hdiff]; exact h2 i hi, ?_⟩⟩
      rw [Ex.head_on_flux, Ex.headOn_iter hb] at h4
      exact h4
    · refine ⟨20, by norm_num, .inr ?_⟩
      by_contra hle
      have := h1 20 (by norm_num) fun i _ => by
        rw [Ex.headOn_iter hb]; have := Ex.headOn_ge i; positivity
      rw [hdiff] at this
      have h5 := Ex.headOn_contract 20
      have h6 : b ^ 3 ≤ 1 := pow_le_one₀ hb.le (not_lt.mp hle)
      have h7 : b ^ 3 * |Ex.headOn (20 + 1) - Ex.headOn 20| ≤ 1 * (1 / 25 * (1 / 2) ^ 20) := mul_le_mul h6 h5 (abs_nonneg _) zero_le_one
      norm_num at h7 this
      linarith
  obtain ⟨j, -, hj | hj⟩ := main 1 one_pos
  swap
  · exact absurd hj (lt_irrefl _)
  obtain ⟨j', -, hj' | hj'⟩ := main (1 / 1000) (by norm_num)
  swap
  · norm_num at hj'
  obtain ⟨a1, a2, a3⟩ := hj
  obtain ⟨b1, b2, b3⟩ := hj'
  have hj0 : j' = 0 := by
    by_contra h
    have h1 := b2 0 (by omega)
    have h2 := Ex.headOn_gap.2
    norm_num at h1 h2
    linarith
  subst hj0
  refine ⟨U, ⟨3, 1 / 2, 1⟩, ⟨3, -(1 / 2), 1⟩, ![0, Ex.headOn (j + 1), 0], ![0, (1 / 1000) ^ 3 * Ex.headOn (0 + 1), 0], rfl, rfl, by norm_num [Prim.Phys], by norm_num [Prim.Phys], by simpa using a3, ?_, ?_⟩
  · have e : ∀ v, U.prim ⟨3, v, 1⟩ = ⟨3 * (1 / 1000) ^ 3, v, (1 / 1000) ^ 3⟩ := fun v => by
      unfold Spec.Units.prim Spec.Units.vel
      simp only [U]
      norm_num
    rw [e, e]
    exact b3
  · intro h
    have h1 := congrFun h 1
    have h2 : Ex.headOn (0 + 1) = Ex.headOn (j + 1) := by
      simp [Spec.Units.flux, Spec.Units.field, Spec.Units.vel, U] at h1
      exact h1
    have h3 : √(6 * Ex.headOn 0 + 3) = √(6 * Ex.headOn j + 3) := by
      have : 1 + √(6 * Ex.headOn 0 + 3) / 2 = 1 + √(6 * Ex.headOn j + 3) / 2 := h2
      linarith
    have h4 : Ex.headOn 0 = Ex.headOn j := by
      have g0 := Ex.headOn_ge 0
      have gj := Ex.headOn_ge j
      have := (Real.sqrt_inj (by linarith) (by linarith)).mp h3
      linarith
    have h5 := Ex.headOn_gap.1
    rw [← h2, ← h4] at a1
    rw [one_pow, one_mul, zero_add] at a1
    norm_num at a1 h5
    linarith

/-! ### The advection sensor -/

/-- **C88, advection sensor: false.** The equation is linear, but the jump sensor compares the jump with the number one:
whatever the solution and the positive threshold, in all small enough units of the unknown – all large enough factors
`c` – no cell is flagged. -/
theorem C88_advection_sensor {s : Sol ℝ} (hs : AdvectionSol s) (sn : Sensor ℝ) {th : ℝ} {rest : List ℝ}
    (hth : sn.thresholds = th :: rest) (h0 : 0 < th) :
    ∃ C : ℝ, ∀ c, C < c → ∃ sn', sn.sensing { s with u := ⟨s.u.rows, s.u.cols, fun n i => c * s.u.val n i⟩ } = .ok sn' ∧
      ∀ e, sn'.sensors.val e = 0 := by
  obtain ⟨C, hC⟩ := ((Finset.range (s.NE + 1)).image fun i => 2 / (th * jumpAt s i)).bddAbove
  refine ⟨max C 0, fun c hc => ?_⟩
  have hc0 : 0 < c := (le_max_right _ _).trans_lt hc
  have hA : AdvectionSol { s with u := ⟨s.u.rows, s.u.cols, fun n i => c * s.u.val n i⟩ } := ⟨hs.kw, hs.NF, hs.rows, hs.cols⟩
  obtain ⟨sn', h1, -, -, h2⟩ := C48_flags hA sn th rest hth
  refine ⟨sn', h1, fun e => (h2 e).2 ?_⟩
  rintro ⟨i, hi, hgt, -⟩
  have hj : jumpAt { s with u := ⟨s.u.rows, s.u.cols, fun n i => c * s.u.val n i⟩ } i = c * jumpAt s i := by
    unfold jumpAt
    rw [cellMean_eq hA.rows, cellMean_eq hA.rows, cellMean_eq hs.rows, cellMean_eq hs.rows, ← abs_of_pos hc0, ← abs_mul, abs_of_pos hc0]
    congr 1
    ring
  rw [hj] at hgt
  have hle : 2 / (th * jumpAt s i) < c :=
    (hC (Finset.mem_coe.mpr (Finset.mem_image.mpr ⟨i, Finset.mem_range.mpr (Nat.lt_succ_of_le hi), rfl⟩))).trans_lt ((le_max_left _ _).trans_lt hc)
  have hn : 0 ≤ jumpAt s i := abs_nonneg _
  refine absurd hgt (not_lt.mpr ?_)
  unfold psi
  rw [div_le_iff₀ (by positivity)]
  rcases hn.eq_or_lt with h | h
  · rw [← h]; simp; exact h0.le
  · rw [div_lt_iff₀ (by positivity)] at hle
    nlinarith [mul_pos hc0 h, mul_pos (mul_pos hc0 h) (mul_pos hc0 h), mul_pos h0 (mul_pos hc0 h)]

/-- The hypotheses of `C88_advection_sensor`: three cells with a jump which is flagged in the units it is given in. -/
example (p : ℕ) : AdvectionSol (solS p) ∧ (0 : ℝ) < 1 / 10 ∧
    ∃ sn', Sensor.sensing ⟨[1 / 10], ⟨5, fun _ => 0⟩⟩ (solS p) = .ok sn' ∧ sn'.sensors.val 2 ≠ 0 :=
  ⟨⟨rfl, rfl, Nat.succ_pos p, rfl⟩, by norm_num, solS_flags p⟩

end Dg1d.Props
