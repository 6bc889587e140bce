import Verif.Props.Monotone

/-! # Piecewise constant advection: the bound on the CFL number is sharp (C79) -/

set_option linter.unusedSectionVars false

open Polynomial Dg1d.Spec

namespace Dg1d.Props

section
variable {s : Sol ℝ} {lib : GaussLib ℝ}

/-- A step of advection that no output and no end of the run shortens. -/
lemma advection_full_step {a : Sol ℝ} (hk : a.kw = Advection.physics) {tout cfl tf : ℝ} (hmin : 1 / 10 ^ 14 ≤ a.dx * cfl / (2 * (a.basis.p : ℝ) + 1))
    (h1 : a.dx * cfl / (2 * (a.basis.p : ℝ) + 1) ≤ tf - a.t) (h2 : a.dx * cfl / (2 * (a.basis.p : ℝ) + 1) ≤ tout - a.t) :
    ∃ o d, getNextTimeStep a tout cfl tf = .ok (a.dx * cfl / (2 * (a.basis.p : ℝ) + 1), o, d) := by
  have hden : (1 : ℝ) * (2 * (a.basis.p : ℝ) + 1) ≠ 0 := by positivity
  have hc : cflTimeStep a cfl = .ok (.fin (a.dx * cfl / (2 * (a.basis.p : ℝ) + 1))) := by
    unfold cflTimeStep
    rw [hk]
    show (if _ then _ else _) = _
    rw [if_neg hden, one_mul]
  have hok : ∃ r, getNextTimeStep a tout cfl tf = .ok r := by
    unfold getNextTimeStep
    rw [hc]
    simp only [sanityCheckDt, if_neg (not_lt.mpr hmin)]
    exact ⟨_, rfl⟩
  obtain ⟨⟨dt, o, d⟩, hr⟩ := hok
  refine ⟨o, d, ?_⟩
  rw [hr]
  have hle := advection_dt hk hr
  have hge : a.dx * cfl / (2 * (a.basis.p : ℝ) + 1) ≤ dt := by
    rcases getNext_cases hr with ⟨-, -, h⟩ | ⟨-, -, h, -⟩ | ⟨-, -, -, -, -, h⟩
    · rw [h]; exact h1
    · rw [h]; exact h2
    · rw [hc] at h
      cases h
      exact le_rfl
  rw [le_antisymm hle hge]

/-- **C79 (the bound on the CFL number is sharp).** Advection of order 0 with 'rk3', 'rk4' or 'low_storage_rk4', no limiter, on any mesh of at least
five cells: from the data that are 1 in the second cell and 0 in all others, so in `[0, 1]`, one full step gives cell `q + 1` (`q` the order of the scheme) the
average `ν^(q-1) / (q-1)! * (1 - ν)`, `ν` the CFL number. It is negative for every CFL number above one: the bounds of `C79_bounds` are left
in the first step. -/
theorem C79_sharp (hb : s.Built lib 0) (hk : s.kw = Advection.physics) (hen : s.enhance = none) (hdx : 0 < s.dx)
    (hl : s.bcl.isLit "periodic" ∨ s.bcl.isLit "zerograd") (lim : Sol ℝ → Except PyErr (Sol ℝ)) (hlim : ∀ a, lim a = .ok a) (deck : RkDeck ℝ)
    (hrk : deck.rk ∈ ["rk3", "rk4", "low_storage_rk4"]) (hN : 5 ≤ s.NE) (f : ℕ) (hf : f < s.NF)
    (hs : ∀ e, 1 ≤ e → e ≤ s.NE → cellMean s e f = if e = 2 then 1 else 0)
    (hout : 2 ≤ deck.nout) (hmin : 1 / 10 ^ 14 ≤ s.dx * deck.cfl) (hstep : s.dx * deck.cfl ≤ (deck.finaltime - s.t) / ((deck.nout - 1 : ℕ) : ℝ)) :
    (∀ e, 1 ≤ e → e ≤ s.NE → cellMean s e f ∈ Set.Icc (0 : ℝ) 1) ∧
    (integrate ⟨residual, lim⟩ deck s 1).sol.t = s.t + s.dx * deck.cfl ∧
    cellMean (integrate ⟨residual, lim⟩ deck s 1).sol (promisedOrder deck.rk + 1) f =
      deck.cfl ^ (promisedOrder deck.rk - 1) / ((promisedOrder deck.rk - 1).factorial : ℝ) * (1 - deck.cfl) ∧
    (1 < deck.cfl → cellMean (integrate ⟨residual, lim⟩ deck s 1).sol (promisedOrder deck.rk + 1) f < 0) := by
  have hp : s.basis.p = 0 := by rw [hb.basis]; rfl
  have hn1 : (1 : ℝ) ≤ ((deck.nout - 1 : ℕ) : ℝ) := by exact_mod_cast (by omega : 1 ≤ deck.nout - 1)
  have hpos : 0 < s.dx * deck.cfl := lt_of_lt_of_le (by positivity) hmin
  have hT : s.dx * deck.cfl ≤ deck.finaltime - s.t := by
    rw [le_div_iff₀ (by linarith)] at hstep
    nlinarith
  have ht : s.t ≤ deck.finaltime := by linarith
  have hsol0 : (integrate ⟨residual, lim⟩ deck s 0).sol = s := integrate_zero_sol _ _ _
  have hrun : (integrate ⟨residual, lim⟩ deck s 0).status = .running ∧ (integrate ⟨residual, lim⟩ deck s 0).tout = outTime s.t deck.finaltime deck.nout 1 := by
    show (initLoop deck s).status = _ ∧ (initLoop deck s).tout = _
    obtain ⟨m, hm⟩ : ∃ m, deck.nout - 1 = m + 1 := ⟨deck.nout - 2, by omega⟩
    unfold initLoop
    simp only [touts_init s.t deck.finaltime hout, hm, List.range'_succ, List.map_cons]
    exact ⟨trivial, trivial⟩
  obtain ⟨o, d, hdt⟩ := advection_full_step (a := s) hk (tout := outTime s.t deck.finaltime deck.nout 1) (cfl := deck.cfl) (tf := deck.finaltime)
    (by rw [hp]; simpa using hmin) (by rw [hp]; simpa using hT) (by
      rw [hp]
      unfold outTime
      simpa using hstep)
  rw [hp] at hdt
  simp only [Nat.cast_zero, mul_zero, zero_add, div_one] at hdt
  obtain ⟨h1, h2, h3⟩ := advection_step hb hk hen hlim deck hrk 0 (by rw [hsol0]; exact Like.refl s) hrun.1 (by rw [hsol0, hrun.2]; exact hdt)
  rw [hsol0] at h1 h3
  simp only [zero_add] at h1 h2 h3
  set L := advLin s hb.wf with hL
  have hdx0 : s.dx ≠ 0 := hdx.ne'
  have hv : ∀ e, 1 ≤ e → e ≤ s.NE → s.u.val 0 (e * s.NF + f) = if e = 2 then 1 else 0 := fun e a b => by
    rw [← cellMean_zero hb (Like.refl s)]; exact hs e a b
  have hrec : ∀ (m e : ℕ), 2 ≤ e → e ≤ s.NE → ((L ^ (m + 1)) s.u.val) 0 (e * s.NF + f) =
      (((L ^ m) s.u.val) 0 ((e - 1) * s.NF + f) - ((L ^ m) s.u.val) 0 (e * s.NF + f)) / s.dx := by
    intro m e he1 he2
    have := advLin_upwind hb hk hen hl hf ((L ^ m) s.u.val) (e := e) (by omega) he2
    rw [show upCell s e = e - 1 by unfold upCell; rw [if_neg (by omega)]] at this
    rw [← this, pow_succ', Module.End.mul_apply]
    field_simp
    rfl
  have key : cellMean (integrate ⟨residual, lim⟩ deck s 1).sol (promisedOrder deck.rk + 1) f =
      deck.cfl ^ (promisedOrder deck.rk - 1) / ((promisedOrder deck.rk - 1).factorial : ℝ) * (1 - deck.cfl) := by
    have v1 := hv 1 (by omega) (by omega)
    have v2 := hv 2 (by omega) (by omega)
    have v3 := hv 3 (by omega) (by omega)
    have v4 := hv 4 (by omega) (by omega)
    have v5 := hv 5 (by omega) (by omega)
    norm_num at v1 v2 v3 v4 v5
    have r := fun m e (a : 2 ≤ e) (b : e ≤ 5) => hrec m e a (b.trans hN)
    have a2 := r 0 2 (by omega) (by omega)
    have a3 := r 0 3 (by omega) (by omega)
    have a4 := r 0 4 (by omega) (by omega)
    have a5 := r 0 5 (by omega) (by omega)
    have b3 := r 1 3 (by omega) (by omega)
    have b4 := r 1 4 (by omega) (by omega)
    have b5 := r 1 5 (by omega) (by omega)
    have c4 := r 2 4 (by omega) (by omega)
    have c5 := r 2 5 (by omega) (by omega)
    have d5 := r 3 5 (by omega) (by omega)
    norm_num [Module.End.one_apply, v1, v2, v3, v4, v5] at a2 a3 a4 a5
    norm_num [a2, a3, a4, a5] at b3 b4 b5
    norm_num [b3, b4, b5] at c4 c5
    norm_num [c4, c5] at d5
    rcases (by simpa using hrk : deck.rk = "rk3" ∨ deck.rk = "rk4" ∨ deck.rk = "low_storage_rk4") with h | h | h
    · rw [h, show promisedOrder "rk3" = 3 from rfl, cellMean_zero hb h2, h3 0 4 (by omega) (by omega) f hf, h, show promisedOrder "rk3" = 3 from rfl]
      simp only [Finset.sum_range_succ, Finset.sum_range_zero, Pi.add_apply, Pi.smul_apply, smul_eq_mul, Pi.zero_apply, pow_zero, Module.End.one_apply, v4]
      norm_num [pow_one, a4, b4, c4, Nat.factorial]
      field_simp
      ring
    · rw [h, show promisedOrder "rk4" = 4 from rfl, cellMean_zero hb h2, h3 0 5 (by omega) (by omega) f hf, h, show promisedOrder "rk4" = 4 from rfl]
      simp only [Finset.sum_range_succ, Finset.sum_range_zero, Pi.add_apply, Pi.smul_apply, smul_eq_mul, Pi.zero_apply, pow_zero, Module.End.one_apply, v5]
      norm_num [pow_one, a5, b5, c5, d5, Nat.factorial]
      field_simp
      ring
    · rw [h, show promisedOrder "low_storage_rk4" = 4 from rfl, cellMean_zero hb h2, h3 0 5 (by omega) (by omega) f hf, h, show promisedOrder "low_storage_rk4" = 4 from rfl]
      simp only [Finset.sum_range_succ, Finset.sum_range_zero, Pi.add_apply, Pi.smul_apply, smul_eq_mul, Pi.zero_apply, pow_zero, Module.End.one_apply, v5]
      norm_num [pow_one, a5, b5, c5, d5, Nat.factorial]
      field_simp
      ring
  refine ⟨?_, h1, key, fun hc => ?_⟩
  · intro e a b
    rw [hs e a b]
    split_ifs <;> norm_num
  · rw [key]
    have : 0 < deck.cfl ^ (promisedOrder deck.rk - 1) / ((promisedOrder deck.rk - 1).factorial : ℝ) := by positivity
    nlinarith

/-- Six cells of width 1/2, the second one filled. -/
noncomputable def Ex.pulse : Sol ℝ :=
  { Ex.solR 0 with NE := 6, x := ⟨7, fun i => (i : ℝ) / 2⟩, xc := ⟨6, fun i => (2 * i + 1 : ℝ) / 4⟩, u := ⟨1, 8, fun _ e => if e = 2 then 1 else 0⟩ }

lemma Ex.pulse_built : Ex.pulse.Built realGauss 0 where
  nodes := (Ex.solR_built 0).nodes
  gauss := (Ex.solR_built 0).gauss
  basis := rfl
  NF := by norm_num [Ex.pulse, Ex.solR]
  NE := by norm_num [Ex.pulse]
  rows := rfl
  cols := rfl
  dx := by norm_num [Ex.pulse, Ex.solR]
  minv := fun n _ => rfl
  enh := fun en h => by cases h

/-- C79, sharpness: 'rk3' with CFL number 6/5 (final time 10, two outputs) turns the pulse into a negative average in cell 4, -18/125. -/
example : cellMean (integrate ⟨residual, fun a => .ok a⟩ ⟨"rk3", 10, 2, 6 / 5⟩ Ex.pulse 1).sol 4 0 = -(18 / 125) := by
  have hm : ∀ e, 1 ≤ e → e ≤ Ex.pulse.NE → cellMean Ex.pulse e 0 = if e = 2 then 1 else 0 := by
    intro e _ _
    rw [cellMean_zero Ex.pulse_built (Like.refl _)]
    show (if e * 1 + 0 = 2 then (1 : ℝ) else 0) = _
    rw [mul_one, add_zero]
  obtain ⟨-, -, h, -⟩ := C79_sharp Ex.pulse_built rfl rfl (show (0 : ℝ) < 1 / 2 by norm_num) (.inl ⟨rfl, rfl⟩) (fun a => .ok a) (fun _ => rfl)
    ⟨"rk3", 10, 2, 6 / 5⟩ (by simp) (show 5 ≤ 6 by norm_num) 0 (show 0 < 1 by norm_num) hm le_rfl
    (show (1 : ℝ) / 10 ^ 14 ≤ 1 / 2 * (6 / 5) by norm_num) (show (1 : ℝ) / 2 * (6 / 5) ≤ (10 - 0) / ((2 - 1 : ℕ) : ℝ) by norm_num)
  rw [show promisedOrder "rk3" + 1 = 4 from rfl, show promisedOrder "rk3" - 1 = 2 from rfl] at h
  rw [h]
  norm_num [Nat.factorial]

end
end Dg1d.Props
