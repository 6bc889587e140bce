import Verif.Model.PlotCurve
import Verif.Props.AdvectionConvergence

/-!
# C117 — when the curve drawn as the exact solution is the exact solution
-/

open Dg1d.Spec

namespace Dg1d.Props
open Text Real

/-- The solution of `u_t + u_x = 0` at time `t` with the initial data `g`. -/
def advected (g : ℝ → ℝ) (t x : ℝ) : ℝ := g (x - t)

/-- The initial data of the program's sine wave. -/
noncomputable def waveData (x : ℝ) : ℝ := (IC.sinewave.f 0 x).headD 0

lemma waveData_eq (x : ℝ) : waveData x = sin (2 * π * x) := rfl

lemma sample_mem (i : ℕ) (hi : i < 199) : ((-1 + i * (2 / 199) : ℝ), sin (2 * π * (-1 + i * (2 / 199)))) ∈ sineCurve := by
  unfold sineCurve
  rw [List.mem_map]
  refine ⟨i, List.mem_range.mpr (by omega), ?_⟩
  have : (linspace (-1 : ℝ) 1 200).val i = -1 + i * (2 / 199) := by
    unfold linspace
    simp only
    rw [if_neg (by omega)]
    norm_num
  rw [this]

lemma sample_value {q : ℝ × ℝ} (hq : q ∈ sineCurve) : q.2 = sin (2 * π * q.1) := by
  unfold sineCurve at hq
  rw [List.mem_map] at hq
  obtain ⟨i, -, rfl⟩ := hq
  rfl

/-- **C117 (drawn for which systems).** The curve is drawn exactly if the system is "advection"; it has 200 points, the first one at -1, the last one at 1. -/
theorem C117_drawn (system : Str) : (exactCurve system = some sineCurve ↔ system = "advection".toList) ∧ (exactCurve system = none ↔ system ≠ "advection".toList) ∧
    sineCurve.length = 200 ∧ (sineCurve.map Prod.fst).head? = some (-1) ∧ (sineCurve.map Prod.fst).getLast? = some 1 := by
  refine ⟨?_, ?_, by simp [sineCurve], ?_, ?_⟩
  · unfold exactCurve
    split_ifs with h
    · exact ⟨fun _ => h, fun _ => rfl⟩
    · exact ⟨fun g => absurd g (by simp), fun g => absurd g h⟩
  · unfold exactCurve
    split_ifs with h
    · exact ⟨fun g => absurd g (by simp), fun g => absurd h g⟩
    · exact ⟨fun _ => h, fun _ => rfl⟩
  · rw [List.head?_eq_getElem?]
    simp [sineCurve, linspace]
  · rw [List.getLast?_eq_getElem?]
    simp [sineCurve, linspace]

/-- **C117 (the right times).** All points of the curve lie on the solution of the sine wave at time `t` exactly if `t` is an integer. -/
theorem C117_time (t : ℝ) : (∀ q ∈ sineCurve, q.2 = advected waveData t q.1) ↔ ∃ m : ℤ, t = m := by
  constructor
  · intro h
    have h0 := h _ (sample_mem 0 (by norm_num))
    have h1 := h _ (sample_mem 1 (by norm_num))
    unfold advected at h0 h1
    rw [waveData_eq] at h0 h1
    simp only [Nat.cast_zero, zero_mul, add_zero, Nat.cast_one, one_mul] at h0 h1
    rw [show 2 * π * (-1 - t) = -(2 * π * t) - 2 * π by ring, show 2 * π * -1 = -(2 * π) by ring, sin_sub_two_pi, sin_neg, sin_neg, sin_two_pi] at h0
    have hs : sin (2 * π * t) = 0 := by linarith
    rw [show 2 * π * (-1 + 2 / 199 - t) = (4 * π / 199 - 2 * π * t) - 2 * π by ring, show 2 * π * (-1 + 2 / 199) = 4 * π / 199 - 2 * π by ring, sin_sub_two_pi, sin_sub_two_pi,
      sin_sub, hs, mul_zero, sub_zero] at h1
    have hpos : 0 < sin (4 * π / 199) := sin_pos_of_pos_of_lt_pi (by positivity) (by linarith [pi_pos])
    have hc : cos (2 * π * t) = 1 := by
      have : sin (4 * π / 199) * (cos (2 * π * t) - 1) = 0 := by linarith
      rcases mul_eq_zero.mp this with h | h
      · exact absurd h hpos.ne'
      · linarith
    obtain ⟨m, hm⟩ := (cos_eq_one_iff _).mp hc
    refine ⟨m, ?_⟩
    have h2 : (2 * π) * (t - m) = 0 := by linarith
    rcases mul_eq_zero.mp h2 with h | h
    · exact absurd h (by positivity)
    · linarith
  · rintro ⟨m, rfl⟩ q hq
    rw [sample_value hq]
    unfold advected
    rw [waveData_eq, show 2 * π * (q.1 - m) = 2 * π * q.1 - m * (2 * π) by ring, sin_sub_int_mul_two_pi]

/-- **C117 (between).** At time `t` no point of the curve is farther than `2 |sin (π t)|` from the solution, and the point at -1 is off by `|sin (2π t)|`; half a period after an integer time the
curve is the solution with the opposite sign. -/
theorem C117_between (t : ℝ) : (∀ q ∈ sineCurve, |q.2 - advected waveData t q.1| ≤ 2 * |sin (π * t)|) ∧
    (∃ q ∈ sineCurve, q.1 = -1 ∧ |q.2 - advected waveData t q.1| = |sin (2 * π * t)|) ∧
    ((∃ m : ℤ, t = m + 1 / 2) → ∀ q ∈ sineCurve, q.2 = -advected waveData t q.1) := by
  refine ⟨fun q hq => ?_, ⟨_, sample_mem 0 (by norm_num), by norm_num, ?_⟩, ?_⟩
  · rw [sample_value hq]
    unfold advected
    rw [waveData_eq, sin_sub_sin, show (2 * π * q.1 - 2 * π * (q.1 - t)) / 2 = π * t by ring, abs_mul, abs_mul, abs_two]
    exact mul_le_of_le_one_right (by positivity) (abs_cos_le_one _)
  · unfold advected
    rw [waveData_eq]
    simp only [Nat.cast_zero, zero_mul, add_zero]
    rw [show 2 * π * (-1 - t) = -(2 * π * t) - 2 * π by ring, show 2 * π * -1 = -(2 * π) by ring, sin_sub_two_pi, sin_neg, sin_neg, sin_two_pi]
    simp
  · rintro ⟨m, rfl⟩ q hq
    rw [sample_value hq]
    unfold advected
    rw [waveData_eq, show 2 * π * (q.1 - (m + 1 / 2)) = (2 * π * q.1 - π) - m * (2 * π) by ring, sin_sub_int_mul_two_pi, sin_sub_pi, neg_neg]

/-- **C117 (other initial data).** For the program's other periodic scalar initial condition the curve is wrong at all times: one of its points lies below every value of these data. -/
theorem C117_other : ∃ q ∈ sineCurve, ∀ γ x, ∀ v ∈ IC.ictest.f γ x, q.2 < v := by
  refine ⟨_, sample_mem 80 (by norm_num), fun γ x v hv => ?_⟩
  have hv' : v = sin (x - π / 3) ^ 3 + 1 := by
    unfold IC.ictest at hv
    simpa using hv
  have h0 : 0 ≤ v := by
    rw [hv']
    have := neg_one_le_sin (x - π / 3)
    have h2 : (-1 : ℝ) ^ 3 ≤ sin (x - π / 3) ^ 3 := Odd.pow_le_pow (by decide) |>.mpr this
    linarith
  refine lt_of_lt_of_le ?_ h0
  show sin (2 * π * (-1 + ((80 : ℕ) : ℝ) * (2 / 199))) < 0
  rw [show 2 * π * (-1 + ((80 : ℕ) : ℝ) * (2 / 199)) = -(78 / 199 * π) by push_cast; ring, sin_neg, neg_neg_iff_pos]
  exact sin_pos_of_pos_of_lt_pi (by positivity) (by linarith [pi_pos])

/-- **C117 (pictures that agree).** The sine wave from the deck, 'rk3', no limiter, no enhancement, CFL number at most `(2p+1) / (3 (p+1)²)`: every output at an integer time is within
`C ((2/N)^(p+1) + h³)` of the function whose samples are drawn, with one constant for all meshes. -/
theorem C117_outputs {lib : GaussLib ℝ} (hlib : lib.Ok) (p : ℕ) (T : ℝ) (hT : 0 ≤ T) :
    ∃ C : ℝ, 0 ≤ C ∧ ∀ (N : ℕ) (ft : FloatText ℝ) (junk : ℕ → ℝ) (d : Deck ℝ), ValidDeck lib ft d p N IC.sinewave → d.system = "advection".toList →
      d.rk = "rk3".toList → d.limiting ≠ "adaptive_hr".toList → d.enhance = [] → 0 ≤ d.cfl → d.cfl ≤ (2 * p + 1) / (3 * (p + 1) ^ 2) →
      0 ≤ d.finaltime → d.finaltime ≤ T →
      ∃ (s : Sol ℝ) (lm : Limiter ℝ) (c : List (ℝ × ℝ)), start lib ft junk d = .ok (s, lm) ∧ exactCurve d.system = some c ∧ (∀ q ∈ c, q.2 = sin (2 * π * q.1)) ∧
        ∀ k, ∀ o ∈ (integrate ⟨residual, lm.limit⟩ d.rkDeck s k).log, (∃ m : ℤ, o.sol.t = m) →
          l2Error o.sol 0 (fun x => sin (2 * π * x)) ≤ C * ((2 / N) ^ (p + 1) + (2 / N * d.cfl / (2 * p + 1)) ^ 3) := by
  obtain ⟨C, hC, h⟩ := C78_deck hlib p T hT
  refine ⟨C, hC, fun N ft junk d hd hsys hrk hlim hen hc0 hc1 ht0 ht1 => ?_⟩
  obtain ⟨s, lm, hst, ho⟩ := h N ft junk d hd (by rw [hsys]; decide) hrk hlim hen hc0 hc1 ht0 ht1
  refine ⟨s, lm, sineCurve, hst, (C117_drawn _).1.mpr hsys, fun q hq => sample_value hq, fun k o hk hm => ?_⟩
  obtain ⟨m, hm⟩ := hm
  have := ho k o hk
  rw [show (fun x => sin (2 * π * (x - o.sol.t))) = fun x => sin (2 * π * x) from funext fun x => by
    rw [hm, show 2 * π * (x - m) = 2 * π * x - m * (2 * π) by ring, sin_sub_int_mul_two_pi]] at this
  exact this

lemma wave_gap (t : ℝ) : ∫ x in (-1 : ℝ)..1, (sin (2 * π * x) - advected waveData t x) ^ 2 = 4 * sin (π * t) ^ 2 := by
  have h : ∀ x, (sin (2 * π * x) - advected waveData t x) ^ 2 = 2 * sin (π * t) ^ 2 + 2 * sin (π * t) ^ 2 * cos (4 * π * x - 2 * π * t) := by
    intro x
    unfold advected
    rw [waveData_eq, sin_sub_sin, show (2 * π * x - 2 * π * (x - t)) / 2 = π * t by ring, show 4 * π * x - 2 * π * t = 2 * ((2 * π * x + 2 * π * (x - t)) / 2) by ring, cos_two_mul]
    ring
  have hz : ∫ x in (-1 : ℝ)..1, 2 * sin (π * t) ^ 2 * cos (4 * π * x - 2 * π * t) = 0 := by
    rw [intervalIntegral.integral_const_mul (2 * sin (π * t) ^ 2) fun x => cos (4 * π * x - 2 * π * t), intervalIntegral.integral_comp_mul_sub (fun x => cos x) (by positivity), integral_cos,
      show 4 * π * 1 - 2 * π * t = -(2 * π * t) + (2 : ℕ) * (2 * π) by push_cast; ring, show 4 * π * -1 - 2 * π * t = -(2 * π * t) - (2 : ℕ) * (2 * π) by push_cast; ring,
      sin_add_nat_mul_two_pi, sin_sub_nat_mul_two_pi, sub_self, smul_zero, mul_zero]
  simp only [h]
  rw [intervalIntegral.integral_add (by apply Continuous.intervalIntegrable; fun_prop) (by apply Continuous.intervalIntegrable; fun_prop), hz, intervalIntegral.integral_const]
  simp only [smul_eq_mul]
  ring

/-- **C117 (pictures that disagree).** Any solution on a uniform mesh of [-1, 1]: the squared `L²` distances to the function drawn and to the exact solution at time `t` add up to
at least `2 sin² (π t)`. So at a time that is not an integer, the closer the output is to the exact solution, the worse it fits the curve. -/
theorem C117_apart (a : Sol ℝ) (hm : IsUniformMesh (-1) 1 a.NE a.x.val a.xc.val a.dx) (f : ℕ) (t : ℝ) :
    2 * sin (π * t) ^ 2 ≤ l2Error a f (fun x => sin (2 * π * x)) ^ 2 + l2Error a f (advected waveData t) ^ 2 := by
  have hcw : Continuous (advected waveData t) := by
    show Continuous fun x => sin (2 * π * (x - t))
    fun_prop
  have hcs : Continuous fun x : ℝ => sin (2 * π * x) := by fun_prop
  have hP : ∀ e, Continuous fun x => (cellPoly a e f).eval (2 * (x - a.xc.val (e - 1)) / a.dx) := fun e => (cellPoly a e f).continuous.comp (by fun_prop)
  have hcd : Continuous fun x => (sin (2 * π * x) - advected waveData t x) ^ 2 := (hcs.sub hcw).pow 2
  have hc1 : ∀ e, Continuous fun x => ((cellPoly a e f).eval (2 * (x - a.xc.val (e - 1)) / a.dx) - sin (2 * π * x)) ^ 2 := fun e => ((hP e).sub hcs).pow 2
  have hc2 : ∀ e, Continuous fun x => ((cellPoly a e f).eval (2 * (x - a.xc.val (e - 1)) / a.dx) - advected waveData t x) ^ 2 := fun e => ((hP e).sub hcw).pow 2
  have hdx : 0 ≤ a.dx := by rw [hm.width]; positivity
  have hle : ∀ e ∈ Finset.Icc 1 a.NE, a.x.val (e - 1) ≤ a.x.val e := by
    intro e he
    rw [Finset.mem_Icc] at he
    have := hm.spacing (e - 1) (by omega)
    rw [Nat.sub_add_cancel he.1] at this
    linarith
  have hsq : ∀ u : ℝ → ℝ, l2Error a f u ^ 2 = ∑ e ∈ Finset.Icc 1 a.NE, ∫ x in a.x.val (e - 1)..a.x.val e, ((cellPoly a e f).eval (2 * (x - a.xc.val (e - 1)) / a.dx) - u x) ^ 2 := by
    intro u
    unfold l2Error
    exact Real.sq_sqrt (Finset.sum_nonneg fun e he => intervalIntegral.integral_nonneg (hle e he) fun x _ => sq_nonneg _)
  have hint : ∑ e ∈ Finset.Icc 1 a.NE, ∫ x in a.x.val (e - 1)..a.x.val e, (sin (2 * π * x) - advected waveData t x) ^ 2 = 4 * sin (π * t) ^ 2 := by
    rw [← wave_gap, show Finset.Icc 1 a.NE = (Finset.range a.NE).map ⟨(· + 1), add_left_injective 1⟩ from by
      ext e
      simp only [Finset.mem_Icc, Finset.mem_map, Finset.mem_range, Function.Embedding.coeFn_mk]
      exact ⟨fun h => ⟨e - 1, by omega, by omega⟩, fun ⟨i, hi, h⟩ => by omega⟩, Finset.sum_map]
    simp only [Function.Embedding.coeFn_mk, Nat.add_sub_cancel]
    rw [intervalIntegral.sum_integral_adjacent_intervals fun k _ => hcd.intervalIntegrable _ _, hm.first, hm.last]
  rw [hsq, hsq, ← Finset.sum_add_distrib]
  have key : 4 * sin (π * t) ^ 2 ≤ ∑ e ∈ Finset.Icc 1 a.NE, 2 * ((∫ x in a.x.val (e - 1)..a.x.val e, ((cellPoly a e f).eval (2 * (x - a.xc.val (e - 1)) / a.dx) - sin (2 * π * x)) ^ 2) +
      ∫ x in a.x.val (e - 1)..a.x.val e, ((cellPoly a e f).eval (2 * (x - a.xc.val (e - 1)) / a.dx) - advected waveData t x) ^ 2) := by
    rw [← hint]
    refine Finset.sum_le_sum fun e he => ?_
    rw [← intervalIntegral.integral_add ((hc1 e).intervalIntegrable _ _) ((hc2 e).intervalIntegrable _ _), ← intervalIntegral.integral_const_mul]
    refine intervalIntegral.integral_mono_on (hle e he) (hcd.intervalIntegrable _ _)
      ((continuous_const.mul ((hc1 e).add (hc2 e))).intervalIntegrable _ _) fun x _ => ?_
    nlinarith [sq_nonneg (((cellPoly a e f).eval (2 * (x - a.xc.val (e - 1)) / a.dx) - sin (2 * π * x)) + ((cellPoly a e f).eval (2 * (x - a.xc.val (e - 1)) / a.dx) - advected waveData t x))]
  rw [← Finset.mul_sum] at key
  linarith

/-! ### Cases -/

/-- `C117_time`: right after three periods, wrong after a quarter of one. -/
example : (∀ q ∈ sineCurve, q.2 = advected waveData 3 q.1) ∧ ¬ ∀ q ∈ sineCurve, q.2 = advected waveData (1 / 4) q.1 := by
  refine ⟨(C117_time 3).mpr ⟨3, by norm_num⟩, fun h => ?_⟩
  obtain ⟨m, hm⟩ := (C117_time (1 / 4)).mp h
  have h4 : ((4 * m : ℤ) : ℝ) = ((1 : ℤ) : ℝ) := by push_cast; linarith
  have := Int.cast_injective h4
  omega

/-- `C117_between`: half a period. -/
example : ∀ q ∈ sineCurve, q.2 = -advected waveData (5 / 2) q.1 := (C117_between (5 / 2)).2.2 ⟨2, by norm_num⟩

/-- `C117_apart`: a mesh of four cells, any order and any data, at time 1/2. -/
example (u : Arr ℝ) : 2 ≤ l2Error { Ex.solR 1 with NE := 4, dx := 1 / 2, u := u, x := ⟨5, fun i => -1 + i / 2⟩, xc := ⟨4, fun i => -1 + (2 * i + 1) / 4⟩ } 0 (fun x => sin (2 * π * x)) ^ 2 +
    l2Error { Ex.solR 1 with NE := 4, dx := 1 / 2, u := u, x := ⟨5, fun i => -1 + i / 2⟩, xc := ⟨4, fun i => -1 + (2 * i + 1) / 4⟩ } 0 (advected waveData (1 / 2)) ^ 2 := by
  have h := C117_apart { Ex.solR 1 with NE := 4, dx := 1 / 2, u := u, x := ⟨5, fun i => -1 + i / 2⟩, xc := ⟨4, fun i => -1 + (2 * i + 1) / 4⟩ }
    ⟨by norm_num, by norm_num, by norm_num, fun i _ => by push_cast; ring, fun i _ => by push_cast; ring⟩ 0 (1 / 2)
  rw [show π * (1 / 2) = π / 2 by ring, sin_pi_div_two] at h
  linarith

/-- `C117_outputs`: eight cells, order 1, one period, CFL number 1/6. -/
example : ∃ (C : ℝ) (s : Sol ℝ) (lm : Limiter ℝ), let d : Deck ℝ := { Ex.sineDeck with rk := "rk3".toList, cfl := 1 / 6, finaltime := 1, nout := 5 }
    start realGauss Ex.decReal (fun _ => 0) d = .ok (s, lm) ∧ ∀ k, ∀ o ∈ (integrate ⟨residual, lm.limit⟩ d.rkDeck s k).log, o.sol.t = 1 →
      l2Error o.sol 0 (fun x => sin (2 * π * x)) ≤ C * ((2 / (8 : ℕ)) ^ (1 + 1) + (2 / (8 : ℕ) * (1 / 6) / (2 * (1 : ℕ) + 1)) ^ 3) := by
  obtain ⟨C, -, h⟩ := C117_outputs realGauss_ok 1 1 zero_le_one
  obtain ⟨s, lm, c, h1, -, -, h2⟩ := h 8 Ex.decReal (fun _ => 0) { Ex.sineDeck with rk := "rk3".toList, cfl := 1 / 6, finaltime := 1, nout := 5 }
    ⟨Ex.sine_valid.order, Ex.sine_valid.cells, Ex.sine_valid.line, Ex.sine_valid.enhance, Ex.sine_valid.limiter⟩ rfl rfl (show ([] : Str) ≠ "adaptive_hr".toList by decide) rfl
    (by norm_num) (show (1 / 6 : ℝ) ≤ (2 * (1 : ℕ) + 1) / (3 * ((1 : ℕ) + 1) ^ 2) by norm_num) (by norm_num) (by norm_num)
  exact ⟨C, s, lm, h1, fun k o ho ht => h2 k o ho ⟨1, by rw [ht]; norm_num⟩⟩

end Dg1d.Props
