import Mathlib.Analysis.Complex.Exponential
import Verif.Proofs.Binary64
import Verif.Proofs.RoundedStep

/-! Helper lemmas: growth of rounding errors over a run, distances, accuracy of binary64. -/

set_option linter.unusedSectionVars false

open Polynomial Dg1d.Spec Dg1d.Approx

namespace Dg1d.Rounded

/-! ### Binary64 -/

lemma binary64_rnd {rnd : ℝ → ℝ} (h : RoundsToNearest rnd) : RoundsWithin rnd (2 ^ (-53 : ℤ)) (2 ^ (-1022 : ℤ)) := by
  intro x
  rw [abs_sub_comm]
  by_cases hx : |x| ≤ (2 : ℝ) ^ (-1021 : ℤ)
  · refine (h.err (-1021) le_rfl hx).trans ?_
    calc (2 : ℝ) ^ ((-1021 : ℤ) - 54) = 2 ^ (-53 : ℤ) * 2 ^ (-1022 : ℤ) := by rw [← zpow_add₀ (by norm_num)]; norm_num
      _ ≤ _ := mul_le_mul_of_nonneg_left (by linarith [abs_nonneg x]) (by positivity)
  · push Not at hx
    have hx0 : 0 < |x| := lt_trans (by positivity) hx
    obtain ⟨n, hn1, hn2⟩ := exists_mem_Ioc_zpow hx0 (show (1 : ℝ) < 2 by norm_num)
    have hn : -1021 ≤ n := by
      by_contra hc
      push Not at hc
      have : (2 : ℝ) ^ (n + 1) ≤ 2 ^ (-1021 : ℤ) := zpow_le_zpow_right₀ (by norm_num) (by omega)
      linarith
    refine (h.err (n + 1) (by omega) hn2).trans ?_
    calc (2 : ℝ) ^ (n + 1 - 54) = 2 ^ (-53 : ℤ) * 2 ^ n := by rw [← zpow_add₀ (by norm_num)]; congr 1; ring
      _ ≤ _ := mul_le_mul_of_nonneg_left (by have : (0 : ℝ) < 2 ^ (-1022 : ℤ) := by positivity
                                             linarith) (by positivity)

lemma leftToRight_err {rnd : ℝ → ℝ} {δ η : ℝ} (h : RoundsWithin rnd δ η) (h0 : 0 ≤ δ) (hη : 0 ≤ η) (n : ℕ) (hn : n * δ ≤ 1 / 2) (a b : ℕ → ℝ) :
    |leftToRight rnd n a b - ∑ i ∈ Finset.range n, a i * b i| ≤ 6 * n * δ * (∑ i ∈ Finset.range n, |a i * b i| + η) := by
  induction n with
  | zero => simp [leftToRight]
  | succ n ih =>
    rcases Nat.eq_zero_or_pos n with rfl | hpos
    · have hd : δ ≤ 1 / 2 := by simpa using hn
      simp only [leftToRight, zero_add, Finset.range_one, Finset.sum_singleton, Nat.cast_one, mul_one]
      set q := a 0 * b 0
      have e1 := h q
      have e2 := h (rnd q)
      have e3 : |rnd q| ≤ |q| + δ * (|q| + η) := by
        have := abs_add_le (rnd q - q) q
        rw [sub_add_cancel] at this
        linarith
      have hq := abs_nonneg q
      have e4 : δ * (|q| + η) ≤ 1 / 2 * (|q| + η) := mul_le_mul_of_nonneg_right hd (by linarith)
      have e5 : δ * (|rnd q| + η) ≤ δ * (2 * (|q| + η)) := mul_le_mul_of_nonneg_left (by linarith) h0
      have := abs_add_le (rnd (rnd q) - rnd q) (rnd q - q)
      rw [sub_add_sub_cancel] at this
      have : 0 ≤ δ * (|q| + η) := mul_nonneg h0 (by linarith)
      linarith
    · have hnR : (1 : ℝ) ≤ n := by exact_mod_cast hpos
      push_cast at hn ⊢
      have hd : δ ≤ 1 / 2 := by nlinarith
      have hnd : n * δ ≤ 1 / 2 := by nlinarith
      have ih := ih hnd
      rw [leftToRight, Finset.sum_range_succ, Finset.sum_range_succ]
      set q := a n * b n
      set t := leftToRight rnd n a b
      set σ := ∑ i ∈ Finset.range n, a i * b i
      set S := ∑ i ∈ Finset.range n, |a i * b i|
      have hS : |σ| ≤ S := Finset.abs_sum_le_sum_abs _ _
      have hS0 : 0 ≤ S := (abs_nonneg _).trans hS
      have hq := abs_nonneg q
      set E := |t - σ|
      have e1 := h q
      have e2 := h (t + rnd q)
      have e3 : |t + rnd q| ≤ E + S + |q| + δ * (|q| + η) := by
        have i1 := abs_add_le (t - σ) (σ + (q + (rnd q - q)))
        have i2 := abs_add_le σ (q + (rnd q - q))
        have i3 := abs_add_le q (rnd q - q)
        rw [show t - σ + (σ + (q + (rnd q - q))) = t + rnd q by ring] at i1
        linarith
      have e4 : |rnd (t + rnd q) - (σ + q)| ≤ |rnd (t + rnd q) - (t + rnd q)| + (E + |rnd q - q|) := by
        have i1 := abs_add_le (rnd (t + rnd q) - (t + rnd q)) ((t - σ) + (rnd q - q))
        have i2 := abs_add_le (t - σ) (rnd q - q)
        rw [show rnd (t + rnd q) - (t + rnd q) + (t - σ + (rnd q - q)) = rnd (t + rnd q) - (σ + q) by ring] at i1
        linarith
      set W := S + |q| + η
      have hW : 0 ≤ W := by positivity
      have hE : E ≤ 6 * n * δ * W := ih.trans (mul_le_mul_of_nonneg_left (by linarith) (by positivity))
      have e5 : δ * (|q| + η) ≤ 1 / 2 * W := mul_le_mul hd (by linarith) (by linarith) (by norm_num)
      have e6 : δ * (|t + rnd q| + η) ≤ δ * (E + 3 / 2 * W) := mul_le_mul_of_nonneg_left (by linarith) h0
      have e7 : δ * (|q| + η) ≤ δ * W := mul_le_mul_of_nonneg_left (by linarith) h0
      have e8 : δ * E ≤ δ * (3 * W) := mul_le_mul_of_nonneg_left (hE.trans (by nlinarith)) h0
      have e9 : |rnd (t + rnd q) - (σ + q)| ≤ E + δ * E + 5 / 2 * (δ * W) := by nlinarith
      have e10 : 0 ≤ δ * W := mul_nonneg h0 hW
      nlinarith

/-! ### Growth -/

lemma growth {e : ℕ → ℝ} {x Y : ℝ} (hx : 0 ≤ x) (h : ∀ k, e (k + 1) ≤ e k + x * (e k + Y)) (k : ℕ) : e k ≤ (1 + x) ^ k * e 0 + ((1 + x) ^ k - 1) * Y := by
  induction k with
  | zero => simp
  | succ k ih =>
    refine (h k).trans ?_
    have := mul_le_mul_of_nonneg_left ih (show 0 ≤ 1 + x by linarith)
    rw [pow_succ]
    nlinarith

lemma pow_le_linear {x : ℝ} (hx : 0 ≤ x) {k : ℕ} (hk : k * x ≤ 1) : (1 + x) ^ k ≤ 1 + 2 * (k * x) := by
  have h1 : (1 + x) ^ k ≤ Real.exp (k * x) := by
    rw [Real.exp_nat_mul]
    exact pow_le_pow_left₀ (by linarith) (by linarith [Real.add_one_le_exp x]) k
  have h0 : 0 ≤ k * x := by positivity
  have h2 := (abs_le.mp (Real.abs_exp_sub_one_sub_id_le (x := k * x) (by rw [abs_of_nonneg h0]; exact hk))).2
  nlinarith

/-! ### Distances -/

section dist
variable {s : Sol ℝ} {lib : GaussLib ℝ} {p f : ℕ}

lemma l2Dist_enorm (hdx : 0 ≤ s.dx) {u v : Arr ℝ} (hu : u.rows = p + 1) (hv : v.rows = p + 1) : l2Dist s f u v = enorm s p f hdx (u.val - v.val) := by
  have hsq : l2Dist s f u v = √(enorm s p f hdx (u.val - v.val) ^ 2) := by
    unfold l2Dist
    rw [enorm_sq, cellForm_apply, Finset.mul_sum]
    congr 1
    refine Finset.sum_congr rfl fun e _ => ?_
    congr 1
    rw [← intPoly_sq, ← integral_eq_intPoly]
    refine intervalIntegral.integral_congr fun ξ _ => ?_
    simp only [cellPoly, hu, hv]
    rw [eval_mul, ← pow_two]
    congr 1
    rw [legSeries_eval, legSeries_eval, legSeries_eval, ← Finset.sum_sub_distrib]
    exact Finset.sum_congr rfl fun n _ => by simp only [Pi.sub_apply]; ring
  rw [hsq, Real.sqrt_sq (apply_nonneg _ _)]

/-- Changing the coefficients changes the error by at most the norm of the change (up to a factor 2). -/
lemma l2Error_change (hb : s.Built lib p) {a c : Sol ℝ} (ha : Like a s) (hc : Like c s) {A B : ℝ} (hm : IsUniformMesh A B s.NE s.x.val s.xc.val s.dx)
    (hdx : 0 < s.dx) {u : ℝ → ℝ} (hu : Continuous u) : l2Error c f u ≤ 2 * (l2Error a f u + enorm s p f hdx.le (c.u.val - a.u.val)) := by
  have hma : IsUniformMesh A B a.NE a.x.val a.xc.val a.dx := by rw [ha.setup.NE, ha.setup.x, ha.setup.xc, ha.setup.dx]; exact hm
  have hmc : IsUniformMesh A B c.NE c.x.val c.xc.val c.dx := by rw [hc.setup.NE, hc.setup.x, hc.setup.xc, hc.setup.dx]; exact hm
  have sqa := Props.l2Error_sq hma (by rw [ha.setup.dx]; exact hdx) f u
  rw [Props.l2Error_sq hmc (by rw [hc.setup.dx]; exact hdx), hc.setup.NE, hc.setup.dx]
  rw [ha.setup.NE, ha.setup.dx] at sqa
  set g := fun e : ℕ => cellFn u (A + ((e : ℝ) - 1) * s.dx) s.dx with hg
  have hgc : ∀ e, Continuous (g e) := fun e => hu.comp (by fun_prop)
  have hn := apply_nonneg (enorm s p f hdx.le) (c.u.val - a.u.val)
  have hea : 0 ≤ l2Error a f u := Real.sqrt_nonneg _
  have hsum0 : 0 ≤ ∑ e ∈ Finset.Icc 1 s.NE, s.dx / 2 * ∫ ξ in (-1 : ℝ)..1, ((cellPoly a e f).eval ξ - g e ξ) ^ 2 :=
    Finset.sum_nonneg fun e _ => mul_nonneg (by linarith) (intervalIntegral.integral_nonneg (by norm_num) fun ξ _ => sq_nonneg _)
  have hsqa : l2Error a f u ^ 2 = ∑ e ∈ Finset.Icc 1 s.NE, s.dx / 2 * ∫ ξ in (-1 : ℝ)..1, ((cellPoly a e f).eval ξ - g e ξ) ^ 2 := by
    rw [sqa, Real.sq_sqrt hsum0]
  apply Real.sqrt_le_iff.mpr
  refine ⟨by positivity, ?_⟩
  have hcell : ∀ e ∈ Finset.Icc 1 s.NE, s.dx / 2 * ∫ ξ in (-1 : ℝ)..1, ((cellPoly c e f).eval ξ - g e ξ) ^ 2 ≤
      2 * (s.dx / 2 * ∑ n ∈ Finset.range (p + 1), 2 / (2 * (n : ℝ) + 1) * ((c.u.val - a.u.val) n (e * s.NF + f) * (c.u.val - a.u.val) n (e * s.NF + f))) +
        2 * (s.dx / 2 * ∫ ξ in (-1 : ℝ)..1, ((cellPoly a e f).eval ξ - g e ξ) ^ 2) := by
    intro e _
    set d : ℝ[X] := legSeries (p + 1) fun n => (c.u.val - a.u.val) n (e * s.NF + f) with hd
    have hdiff : ∀ ξ, (cellPoly c e f).eval ξ = d.eval ξ + (cellPoly a e f).eval ξ := by
      intro ξ
      unfold cellPoly
      rw [hc.rows, ha.rows, hb.rows, hc.setup.NF, ha.setup.NF, hd, legSeries_eval, legSeries_eval, legSeries_eval, ← Finset.sum_add_distrib]
      exact Finset.sum_congr rfl fun n _ => by simp only [Pi.sub_apply]; ring
    have hle : ∫ ξ in (-1 : ℝ)..1, ((cellPoly c e f).eval ξ - g e ξ) ^ 2 ≤ ∫ ξ in (-1 : ℝ)..1, (2 * (d * d).eval ξ + 2 * ((cellPoly a e f).eval ξ - g e ξ) ^ 2) := by
      refine intervalIntegral.integral_mono_on (by norm_num) ?_ ?_ ?_
      · exact (((cellPoly c e f).continuous.sub (hgc e)).pow 2).intervalIntegrable _ _
      · exact ((continuous_const.mul (d * d).continuous).add (continuous_const.mul (((cellPoly a e f).continuous.sub (hgc e)).pow 2))).intervalIntegrable _ _
      · intro ξ _
        rw [hdiff, eval_mul]
        nlinarith [sq_nonneg (d.eval ξ - ((cellPoly a e f).eval ξ - g e ξ))]
    rw [intervalIntegral.integral_add (f := fun ξ => 2 * (d * d).eval ξ) (g := fun ξ => 2 * ((cellPoly a e f).eval ξ - g e ξ) ^ 2)
      ((continuous_const.mul (d * d).continuous).intervalIntegrable _ _)
      ((continuous_const.mul (((cellPoly a e f).continuous.sub (hgc e)).pow 2)).intervalIntegrable _ _),
      intervalIntegral.integral_const_mul, intervalIntegral.integral_const_mul, integral_eq_intPoly, hd, intPoly_sq] at hle
    refine (mul_le_mul_of_nonneg_left hle (by linarith : 0 ≤ s.dx / 2)).trans_eq ?_
    ring
  refine (Finset.sum_le_sum hcell).trans ?_
  rw [Finset.sum_add_distrib, ← Finset.mul_sum, ← Finset.mul_sum, ← Finset.mul_sum, ← cellForm_apply, ← enorm_sq s p f hdx.le, ← hsqa]
  nlinarith [sq_nonneg (enorm s p f hdx.le (c.u.val - a.u.val)), sq_nonneg (l2Error a f u), mul_nonneg hea hn]

/-- The norm of the coefficients against the error and the size of the function. -/
lemma enorm_le_l2Error (hb : s.Built lib p) {a : Sol ℝ} (ha : Like a s) {A B : ℝ} (hm : IsUniformMesh A B s.NE s.x.val s.xc.val s.dx)
    (hdx : 0 < s.dx) {u : ℝ → ℝ} (hu : Continuous u) {κ : ℝ} (hκ : ∀ x, |u x| ≤ κ) :
    enorm s p f hdx.le a.u.val ≤ 2 * (l2Error a f u + √(s.NE * s.dx) * κ) := by
  have hκ0 : 0 ≤ κ := (abs_nonneg _).trans (hκ 0)
  set z : Sol ℝ := { s with u := { s.u with val := 0 } } with hz
  have hzl : Like z s := ⟨by constructor <;> rfl, rfl, rfl⟩
  have h1 : l2Error a f u ≥ 0 := Real.sqrt_nonneg _
  refine enorm_le_of_sq (by positivity) ?_
  have hma : IsUniformMesh A B a.NE a.x.val a.xc.val a.dx := by rw [ha.setup.NE, ha.setup.x, ha.setup.xc, ha.setup.dx]; exact hm
  have sqa := Props.l2Error_sq hma (by rw [ha.setup.dx]; exact hdx) f u
  rw [ha.setup.NE, ha.setup.dx] at sqa
  set g := fun e : ℕ => cellFn u (A + ((e : ℝ) - 1) * s.dx) s.dx with hg
  have hgc : ∀ e, Continuous (g e) := fun e => hu.comp (by fun_prop)
  have hsum0 : 0 ≤ ∑ e ∈ Finset.Icc 1 s.NE, s.dx / 2 * ∫ ξ in (-1 : ℝ)..1, ((cellPoly a e f).eval ξ - g e ξ) ^ 2 :=
    Finset.sum_nonneg fun e _ => mul_nonneg (by linarith) (intervalIntegral.integral_nonneg (by norm_num) fun ξ _ => sq_nonneg _)
  have hsqa : l2Error a f u ^ 2 = ∑ e ∈ Finset.Icc 1 s.NE, s.dx / 2 * ∫ ξ in (-1 : ℝ)..1, ((cellPoly a e f).eval ξ - g e ξ) ^ 2 := by
    rw [sqa, Real.sq_sqrt hsum0]
  rw [cellForm_apply, Finset.mul_sum]
  have hcell : ∀ e ∈ Finset.Icc 1 s.NE, s.dx / 2 * ∑ n ∈ Finset.range (p + 1), 2 / (2 * (n : ℝ) + 1) * (a.u.val n (e * s.NF + f) * a.u.val n (e * s.NF + f)) ≤
      2 * (s.dx / 2 * ∫ ξ in (-1 : ℝ)..1, ((cellPoly a e f).eval ξ - g e ξ) ^ 2) + 2 * s.dx * κ ^ 2 := by
    intro e _
    set d : ℝ[X] := legSeries (p + 1) fun n => a.u.val n (e * s.NF + f) with hd
    have hdiff : cellPoly a e f = d := by
      unfold cellPoly
      rw [ha.rows, hb.rows, ha.setup.NF]
    rw [← intPoly_sq, ← integral_eq_intPoly, hdiff]
    have hle : ∫ ξ in (-1 : ℝ)..1, (d * d).eval ξ ≤ ∫ ξ in (-1 : ℝ)..1, (2 * (d.eval ξ - g e ξ) ^ 2 + 2 * κ ^ 2) := by
      refine intervalIntegral.integral_mono_on (by norm_num) ?_ ?_ ?_
      · exact (d * d).continuous.intervalIntegrable _ _
      · exact ((continuous_const.mul ((d.continuous.sub (hgc e)).pow 2)).add continuous_const).intervalIntegrable _ _
      · intro ξ _
        have h2 : g e ξ ^ 2 ≤ κ ^ 2 := by
          rw [← sq_abs]
          exact pow_le_pow_left₀ (abs_nonneg _) (hκ _) 2
        rw [eval_mul]
        nlinarith [sq_nonneg (d.eval ξ - 2 * g e ξ)]
    rw [intervalIntegral.integral_add (f := fun ξ => 2 * (d.eval ξ - g e ξ) ^ 2) (g := fun _ => 2 * κ ^ 2)
      ((continuous_const.mul ((d.continuous.sub (hgc e)).pow 2)).intervalIntegrable _ _) (continuous_const.intervalIntegrable _ _),
      intervalIntegral.integral_const_mul, intervalIntegral.integral_const, smul_eq_mul] at hle
    refine (mul_le_mul_of_nonneg_left hle (by linarith : 0 ≤ s.dx / 2)).trans_eq ?_
    ring
  refine (Finset.sum_le_sum hcell).trans ?_
  rw [Finset.sum_add_distrib, ← Finset.mul_sum, ← hsqa, Finset.sum_const, Nat.card_Icc, Nat.add_sub_cancel, nsmul_eq_mul]
  have h5 : √(s.NE * s.dx) ^ 2 = s.NE * s.dx := Real.sq_sqrt (by positivity)
  have h6 : 0 ≤ l2Error a f u * (√(s.NE * s.dx) * κ) := by positivity
  nlinarith [sq_nonneg (l2Error a f u), sq_nonneg (√(s.NE * s.dx) * κ)]

end dist

end Dg1d.Rounded

namespace Dg1d.Rounded
open Dg1d.Approx

/-! ### Whole runs -/

section runs
variable {A : Arith} {ε η : ℝ} {s s' : Sol ℝ} {lib : GaussLib ℝ} {p f : ℕ}

/-- The rk3 step of the advection operator as a linear map. -/
noncomputable def rk3Lin (hb : s.Built lib p) (h : ℝ) : (ℕ → ℕ → ℝ) →ₗ[ℝ] (ℕ → ℕ → ℝ) :=
  ∑ m ∈ Finset.range (3 + 1), (h ^ m / (m.factorial : ℝ)) • (advLin s hb.wf ^ m)

lemma rk3Lin_apply (hb : s.Built lib p) (h : ℝ) (v : ℕ → ℕ → ℝ) :
    rk3Lin hb h v = ∑ m ∈ Finset.range (3 + 1), (h ^ m / (m.factorial : ℝ)) • (advLin s hb.wf ^ m) v := by
  simp [rk3Lin, LinearMap.sum_apply]

lemma rk3Lin_step (hb : s.Built lib p) (h : ℝ) (v : ℕ → ℕ → ℝ) :
    rkStep (tableOf "rk3").coeffs (tableOf "rk3").beta (advLin s hb.wf) h v = rk3Lin hb h v := by
  rw [rk3Lin_apply]
  exact Props.C09_exact_rk3_rk4 "rk3" (by simp) _ (advLin s hb.wf) h v

lemma rk3Lin_le (c : Setting A ε η s lib p f) {h : ℝ} (h0 : 0 ≤ h) (h1 : 3 * ((p : ℝ) + 1) ^ 2 * h ≤ s.dx) (v : ℕ → ℕ → ℝ) :
    enorm s p f c.dx.le (rk3Lin c.built h v) ≤ enorm s p f c.dx.le v := by
  rw [rk3Lin_apply]
  exact Props.taylor3_enorm c.built c.kw c.enhance c.bcl c.bcr c.dx c.field h0 h1 v

/-- The exact iterates. -/
noncomputable def iter (hb : s.Built lib p) (dt : ℕ → ℝ) (v : ℕ → ℕ → ℝ) : ℕ → ℕ → ℕ → ℝ
  | 0 => v
  | k + 1 => rk3Lin hb (dt k) (iter hb dt v k)

lemma iter_le (c : Setting A ε η s lib p f) {dt : ℕ → ℝ} (h0 : ∀ k, 0 ≤ dt k) (h1 : ∀ k, 3 * ((p : ℝ) + 1) ^ 2 * dt k ≤ s.dx) (v : ℕ → ℕ → ℝ) (k : ℕ) :
    enorm s p f c.dx.le (iter c.built dt v k) ≤ enorm s p f c.dx.le v := by
  induction k with
  | zero => exact le_rfl
  | succ k ih => exact (rk3Lin_le c (h0 k) (h1 k) _).trans ih

lemma run_close (c : Setting A ε η s lib p f) {dt : ℕ → ℝ} (h0 : ∀ k, 0 ≤ dt k) (h1 : ∀ k, 3 * ((p : ℝ) + 1) ^ 2 * dt k ≤ s.dx) (hs : Stored ε p s' s)
    {tab' : Tableau ℝ} (ht : StoredTable ε tab' (tableOf "rk3")) (v : ℕ → ℕ → ℝ) (k : ℕ) :
    Stored ε p (run A tab' dt s' k) s ∧
    enorm s p f c.dx.le ((run A tab' dt s' k).u.val - iter c.built dt v k) ≤
      (1 + ε * stepConst lib p (tableOf "rk3")) ^ k * enorm s p f c.dx.le (s'.u.val - v) +
        ((1 + ε * stepConst lib p (tableOf "rk3")) ^ k - 1) * (enorm s p f c.dx.le v + tiny s p η) := by
  set C := stepConst lib p (tableOf "rk3") with hC
  have hC1 : 1 ≤ C := stepConst_one lib p _
  have hst : ∀ k, Stored ε p (run A tab' dt s' k) s := by
    intro k
    induction k with
    | zero => exact hs
    | succ k ih => exact (step_err c (h0 k) (h1 k) ih ht).1
  refine ⟨hst k, growth (e := fun k => enorm s p f c.dx.le ((run A tab' dt s' k).u.val - iter c.built dt v k)) (mul_nonneg c.eps0 (by linarith)) (fun k => ?_) k⟩
  have e1 := (step_err c (h0 k) (h1 k) (hst k) ht).2
  rw [rk3Lin_step c.built, ← hC] at e1
  have e2 := rk3Lin_le c (h0 k) (h1 k) ((run A tab' dt s' k).u.val - iter c.built dt v k)
  have e3 := iter_le c h0 h1 v k
  rw [map_sub] at e2
  show enorm s p f c.dx.le ((step A tab' (dt k) (run A tab' dt s' k)).u.val - rk3Lin c.built (dt k) (iter c.built dt v k)) ≤ _
  set w := iter c.built dt v k
  set r := (run A tab' dt s' k).u.val
  set x := (step A tab' (dt k) (run A tab' dt s' k)).u.val
  have e4 : enorm s p f c.dx.le (x - rk3Lin c.built (dt k) w) ≤ enorm s p f c.dx.le (x - rk3Lin c.built (dt k) r) +
      enorm s p f c.dx.le (rk3Lin c.built (dt k) r - rk3Lin c.built (dt k) w) := by
    have := map_add_le_add (enorm s p f c.dx.le) (x - rk3Lin c.built (dt k) r) (rk3Lin c.built (dt k) r - rk3Lin c.built (dt k) w)
    rwa [sub_add_sub_cancel] at this
  have e5 : enorm s p f c.dx.le r ≤ enorm s p f c.dx.le (r - w) + enorm s p f c.dx.le w := by
    have := map_add_le_add (enorm s p f c.dx.le) (r - w) w
    rwa [sub_add_cancel] at this
  have e6 : ε * (C * (enorm s p f c.dx.le r + tiny s p η)) ≤ ε * C * (enorm s p f c.dx.le (r - w) + (enorm s p f c.dx.le v + tiny s p η)) := by
    rw [mul_assoc]
    exact mul_le_mul_of_nonneg_left (mul_le_mul_of_nonneg_left (by linarith) (by linarith)) c.eps0
  show _ ≤ enorm s p f c.dx.le (r - w) + ε * C * (enorm s p f c.dx.le (r - w) + (enorm s p f c.dx.le v + tiny s p η))
  exact e4.trans ((add_le_add (e1.trans e6) e2).trans_eq (add_comm _ _))

/-- The table of rk3 as it would be stored exactly. -/
lemma rk3_stored {ε : ℝ} (h : 0 ≤ ε) : StoredTable ε (tableOf "rk3") (tableOf "rk3") := by
  have key : ∀ a : ℝ, (a = 0 ∨ 1 / 10 ^ 14 ≤ |a|) → StoredCoef ε a a := by
    intro a ha
    rcases ha with ha | ha
    · exact .inl ⟨ha, ha⟩
    · exact .inr ⟨ha, by rw [sub_self, abs_zero]; positivity⟩
  have e : tableOf "rk3" = rk3.map (fun q : ℚ => (q : ℝ)) := by simp [tableOf, schemeFor]
  have lift : ∀ q : ℚ, (q = 0 ∨ 1 / 10 ^ 14 ≤ |q|) → ((q : ℝ) = 0 ∨ (1 : ℝ) / 10 ^ 14 ≤ |(q : ℝ)|) := by
    intro q hq
    rcases hq with hq | hq
    · exact .inl (by exact_mod_cast hq)
    · have : ((1 / 10 ^ 14 : ℚ) : ℝ) ≤ ((|q| : ℚ) : ℝ) := Rat.cast_le.mpr hq
      push_cast at this
      exact .inr this
  have c1 : ∀ k < 3, rk3.coeffs.getD k 0 = 0 ∨ 1 / 10 ^ 14 ≤ |rk3.coeffs.getD k 0| := by decide +kernel
  have c2 : ∀ k < 3, ∀ j < k, rk3.beta k j = 0 ∨ 1 / 10 ^ 14 ≤ |rk3.beta k j| := by decide +kernel
  rw [e]
  refine ⟨rfl, rfl, fun k hk => ?_, fun k hk j hj => ?_⟩
  · have hk : k < 3 := hk
    have hc : (rk3.map (fun q : ℚ => (q : ℝ))).coeffs.getD k 0 = ((rk3.coeffs.getD k 0 : ℚ) : ℝ) := by
      have : (rk3.map (fun q : ℚ => (q : ℝ))).coeffs = rk3.coeffs.map (fun q : ℚ => (q : ℝ)) := rfl
      rw [this, List.getD_eq_getElem?_getD, List.getD_eq_getElem?_getD, List.getElem?_map]
      cases rk3.coeffs[k]? <;> simp
    rw [hc]
    exact key _ (lift _ (c1 k hk))
  · exact key _ (lift _ (c2 k hk j hj))

end runs

end Dg1d.Rounded
