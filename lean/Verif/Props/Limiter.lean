import Verif.Proofs.LimiterSol
import Verif.Proofs.Sensor
import Verif.Props.Sensor

/-! # The limiter (C52 – C60, C66) -/

set_option linter.unusedSectionVars false

open Polynomial Dg1d.Spec

namespace Dg1d.Props

section Minmod
variable {K : Type*} [Field K] [LinearOrder K] [IsStrictOrderedRing K]

/-- **C54.** -/
theorem C54_minmod (a b : K) :
    (¬ (0 < a ∧ 0 < b ∨ a < 0 ∧ b < 0) → scalarMinmod a b = 0) ∧
    ((0 < a ∧ 0 < b ∨ a < 0 ∧ b < 0) → (scalarMinmod a b = a ∨ scalarMinmod a b = b) ∧ |scalarMinmod a b| = min |a| |b|) ∧
    scalarMinmod b a = scalarMinmod a b ∧ scalarMinmod (-a) (-b) = -scalarMinmod a b ∧
    ∀ k : K, scalarMinmod (k * a) (k * b) = k * scalarMinmod a b := by
  simp only [scalarMinmod_eq]
  refine ⟨fun h => ?_, fun h => ?_, minmod_comm b a, ?_, fun k => minmod_smul k a b⟩
  · push Not at h
    unfold minmod
    rw [if_neg (fun h' => absurd h'.2 (not_lt.mpr (h.1 h'.1))), if_neg (fun h' => absurd h'.2 (not_lt.mpr (h.2 h'.1)))]
  · unfold minmod
    rcases h with h | h
    · rw [if_pos h, abs_of_pos h.1, abs_of_pos h.2, abs_of_pos (lt_min h.1 h.2)]
      exact ⟨min_choice a b, rfl⟩
    · rw [if_neg (fun h' => absurd h'.1 h.1.not_gt), if_pos h, abs_of_neg h.1, abs_of_neg h.2, abs_of_neg (max_lt h.1 h.2)]
      exact ⟨max_choice a b, (min_neg_neg a b).symm⟩
  · have := minmod_smul (-1) a b
    simpa using this

example : scalarMinmod (3 : ℚ) 2 = 2 ∧ scalarMinmod (-3 : ℚ) (-2) = -2 ∧ scalarMinmod (-3 : ℚ) 2 = 0 := by decide +kernel

/-- **C59.** -/
theorem C59_integral (k n : ℕ) (h : k ≤ n) :
    integrateMonomialDerivative (K := K) k n = intPoly (derivative^[k] (C (1 / (n.factorial : K)) * X ^ n)) := by
  rw [bounds_eq, C_mul_X_pow_eq_monomial]
  unfold intPoly
  rw [int_deriv_monomial, if_pos h, one_mul]

/-- **C59 (bounds).** -/
theorem C59_bounds (k n : ℕ) (h : k ≤ n) (a b : K) :
    integrateMonomialDerivativeBounds k n a b = intBetween a b (derivative^[k] (C (1 / (n.factorial : K)) * X ^ n)) := by
  rw [C_mul_X_pow_eq_monomial, int_deriv_monomial, if_pos h, one_mul]

example : integrateMonomialDerivative (K := ℚ) 1 3 = 2 / 6 ∧ integrateMonomialDerivativeBounds (K := ℚ) 1 3 1 3 = 26 / 6 := by
  constructor <;> norm_num [integrateMonomialDerivative, integrateMonomialDerivativeBounds, Nat.factorial]

end Minmod

section Reconstruction
variable {K : Type*} [Field K] [LinearOrder K] [IsStrictOrderedRing K]
  {lib : GaussLib K} {p : ℕ} {lm : HrLimiter K} {s s' s₀ : Sol K}

/-- **C60 (setting up).** The limiter of a solution of any order can be built. -/
theorem C60_init (hs : s₀.Built lib p) : ∃ lm, Limiter.init "adaptive_hr" s₀ = .ok (some lm) := by
  obtain ⟨lm, h, _⟩ := limiter_init hs.basis hs.gauss
  exact ⟨lm, h⟩

/-- **C58.** `L2M` takes the Legendre coefficients of a polynomial to its derivatives at the cell centre, `M2L` takes
them back. -/
theorem C58_transforms (hs : s₀.Built lib p) (hi : Limiter.init "adaptive_hr" s₀ = .ok (some lm)) (c : Vec K) :
    (lm.L2M.dotVec c).len = p + 1 ∧ (lm.M2L.dotVec c).len = p + 1 ∧
    (∀ j < p + 1, (lm.L2M.dotVec c).val j = (derivative^[j] (legSeries (p + 1) c.val)).eval 0) ∧
    (∀ j < p + 1, (derivative^[j] (legSeries (p + 1) (lm.M2L.dotVec c).val)).eval 0 = c.val j) ∧
    (∀ k < p + 1, (lm.M2L.dotVec (lm.L2M.dotVec c)).val k = c.val k) ∧
    (∀ j < p + 1, (lm.L2M.dotVec (lm.M2L.dotVec c)).val j = c.val j) := by
  have hok := ok_of_init hs hi
  have t1 : ∀ (c : Vec K), ∀ j < p + 1, (lm.L2M.dotVec c).val j = (derivative^[j] (legSeries (p + 1) c.val)).eval 0 := by
    intro c j hj
    rw [coeff_deriv_zero, ← hok.toMono, taylorPoly_coeff, if_pos hj, div_mul_cancel₀ _ (fact_ne j)]
    simp only [Arr.dotVec, hok.colsL]
  have t2 : ∀ (c : Vec K), ∀ j < p + 1, (derivative^[j] (legSeries (p + 1) (lm.M2L.dotVec c).val)).eval 0 = c.val j := by
    intro c j hj
    have h := hok.toLeg c.val
    simp only [Arr.dotVec, hok.colsM]
    rw [h, coeff_deriv_zero, taylorPoly_coeff, if_pos hj, div_mul_cancel₀ _ (fact_ne j)]
  refine ⟨hok.rowsL, hok.rowsM, t1 c, t2 c, ?_, fun j hj => by rw [t1 _ j hj, t2 c j hj]⟩
  apply legSeries_injective
  have h := hok.toLeg (lm.L2M.dotVec c).val
  have e : (lm.M2L.dotVec (lm.L2M.dotVec c)).val = fun i => ∑ k ∈ Finset.range (p + 1), lm.M2L.val i k * (lm.L2M.dotVec c).val k := by
    funext i
    simp only [Arr.dotVec, hok.colsM]
  rw [e, h, taylorPoly_congr (t1 c), ← taylorPoly_eq _ _ (legSeries_degree _ _)]

/-- **C66.** For order at least 1, `hr` returns the coefficients of the hierarchical reconstruction of Liu, Shu, Tadmor
and Zhang, and there is only one such polynomial. -/
theorem C66_reconstruction (hs : s₀.Built lib p) (hi : Limiter.init "adaptive_hr" s₀ = .ok (some lm)) (hp : 1 ≤ p)
    (uc ul ur : Vec K) :
    ∃ v, lm.hr uc ul ur = .ok v ∧ v.len = p + 1 ∧
      IsHR p (legSeries (p + 1) ul.val) (legSeries (p + 1) uc.val) (legSeries (p + 1) ur.val) (legSeries (p + 1) v.val) ∧
      ∀ V, IsHR p (legSeries (p + 1) ul.val) (legSeries (p + 1) uc.val) (legSeries (p + 1) ur.val) V → V = legSeries (p + 1) v.val := by
  obtain ⟨v, h1, h2, h3⟩ := hr_spec (ok_of_init hs hi) hp uc ul ur
  exact ⟨v, h1, h2, h3, fun V hV => isHR_unique hV h3⟩

/-- **C52 (one cell).** -/
theorem C52_hr (hs : s₀.Built lib p) (hi : Limiter.init "adaptive_hr" s₀ = .ok (some lm)) (hp : 1 ≤ p) (uc ul ur : Vec K) :
    ∃ v, lm.hr uc ul ur = .ok v ∧ v.val 0 = uc.val 0 ∧ intPoly (legSeries (p + 1) v.val) = intPoly (legSeries (p + 1) uc.val) := by
  obtain ⟨v, h1, h2, h3⟩ := hr_spec (ok_of_init hs hi) hp uc ul ur
  exact ⟨v, h1, hr_mean (ok_of_init hs hi) hp h1, h3.mean⟩

/-- **C52.** Limiting changes no cell average of any field, whatever the physics, the thresholds and the flags. -/
theorem C52_averages {lim : Limiter K} {ltype : String} (hs : s₀.Built lib p) (hi : Limiter.init ltype s₀ = .ok lim)
    (hb : s.Built lib p) (h : lim.limit s = .ok s') {e f : ℕ} (h1 : 1 ≤ e) (h2 : e ≤ s.NE) (hf : f < s.NF) :
    cellMean s' e f = cellMean s e f := by
  rcases lim with _ | lm
  · cases h; rfl
  · have ht : ltype = "adaptive_hr" := by
      by_contra hne
      unfold Limiter.init at hi
      rw [if_neg hne] at hi
      cases hi
    subst ht
    obtain ⟨g1, _, _, g4⟩ := limit_row0 (ok_of_init hs hi) hb h
    have hr : 0 < s.u.rows := by rw [hb.rows]; omega
    rw [cellMean_eq (by rw [g1.rows]; exact hr), cellMean_eq hr, g4, g1.setup.NF, bcCol_interior s h1 h2 hf]

/-- **C53.** If the three cells hold one polynomial `Q` of degree at most `p` (a neighbour's local coordinate is 2 off
that of the centre cell), the centre cell is returned unchanged. -/
theorem C53_smooth (hs : s₀.Built lib p) (hi : Limiter.init "adaptive_hr" s₀ = .ok (some lm)) (hp : 1 ≤ p)
    (uc ul ur : Vec K) (Q : K[X]) (hc : legSeries (p + 1) uc.val = Q) (hl : legSeries (p + 1) ul.val = Q.comp (X - C 2))
    (hr : legSeries (p + 1) ur.val = Q.comp (X + C 2)) :
    ∃ v, lm.hr uc ul ur = .ok v ∧ v.len = p + 1 ∧ ∀ k < p + 1, v.val k = uc.val k := by
  obtain ⟨v, h1, h2, h3⟩ := hr_spec (ok_of_init hs hi) hp uc ul ur
  refine ⟨v, h1, h2, ?_⟩
  have hQ : Q.degree < ((p + 1 : ℕ) : WithBot ℕ) := by rw [← hc]; exact legSeries_degree _ _
  have h4 := isHR_smooth hQ
  rw [sub_eq_add_neg, ← C_neg] at hl
  rw [hl, hc, hr] at h3
  apply legSeries_injective
  rw [hc]
  exact isHR_unique h3 h4

/-- **C55 (no new extrema).** Order 1: everywhere in the cell the limited value lies between the smallest and the
largest of the three cell averages. -/
theorem C55_extrema (hs : s₀.Built lib 1) (hi : Limiter.init "adaptive_hr" s₀ = .ok (some lm)) (uc ul ur : Vec K) :
    ∃ v, lm.hr uc ul ur = .ok v ∧ ∀ x : K, -1 ≤ x → x ≤ 1 →
      min (min (ul.val 0) (ur.val 0)) (uc.val 0) ≤ (legSeries 2 v.val).eval x ∧
      (legSeries 2 v.val).eval x ≤ max (max (ul.val 0) (ur.val 0)) (uc.val 0) := by
  obtain ⟨v, h1, h2, h3⟩ := hr_spec (ok_of_init hs hi) le_rfl uc ul ur
  refine ⟨v, h1, fun x hx1 hx2 => ?_⟩
  have h4 := isHR_one h3
  rw [legSeries_mean, legSeries_mean, legSeries_mean] at h4
  have hm := minmod_bounds ((2 * uc.val 0 / 2 - 2 * ul.val 0 / 2) / 2) ((2 * ur.val 0 / 2 - 2 * uc.val 0 / 2) / 2) x hx1 hx2
  rw [h4]
  simp only [eval_add, eval_mul, eval_C, eval_X]
  generalize minmod _ _ * x = y at hm ⊢
  have e1 : (-2 : K) * ((2 * uc.val 0 / 2 - 2 * ul.val 0 / 2) / 2) = ul.val 0 - uc.val 0 := by ring
  have e2 : (2 : K) * ((2 * ur.val 0 / 2 - 2 * uc.val 0 / 2) / 2) = ur.val 0 - uc.val 0 := by ring
  have e3 : (2 : K) * uc.val 0 / 2 = uc.val 0 := by ring
  rw [e1, e2, min_sub_sub_right, max_sub_sub_right] at hm
  rw [e3]
  have e4 : min (min (ul.val 0) (ur.val 0)) (uc.val 0) - uc.val 0 = min (min (ul.val 0) (ur.val 0) - uc.val 0) 0 := by
    rw [← min_sub_sub_right, sub_self]
  have e5 : max (max (ul.val 0) (ur.val 0)) (uc.val 0) - uc.val 0 = max (max (ul.val 0) (ur.val 0) - uc.val 0) 0 := by
    rw [← max_sub_sub_right, sub_self]
  rw [← e4, ← e5] at hm
  constructor <;> linarith [hm.1, hm.2]

/-- **C55 (one cell twice).** Order 1: limiting the limited cell again, with neighbours of the same averages, changes
nothing. -/
theorem C55_hr_twice (hs : s₀.Built lib 1) (hi : Limiter.init "adaptive_hr" s₀ = .ok (some lm)) (uc ul ur ul' ur' v : Vec K)
    (h : lm.hr uc ul ur = .ok v) (hl : ul'.val 0 = ul.val 0) (hr : ur'.val 0 = ur.val 0) :
    ∃ w, lm.hr v ul' ur' = .ok w ∧ w.len = v.len ∧ ∀ k < 2, w.val k = v.val k := by
  have hok := ok_of_init hs hi
  obtain ⟨v', h1, h2, h3⟩ := hr_spec hok le_rfl uc ul ur
  rw [h] at h1
  cases h1
  obtain ⟨w, g1, g2, g3⟩ := hr_spec hok le_rfl v ul' ur'
  refine ⟨w, g1, by rw [g2, h2], ?_⟩
  have a := isHR_one h3
  have b := isHR_one g3
  rw [legSeries_mean, legSeries_mean, legSeries_mean] at a b
  rw [hl, hr, hr_mean hok le_rfl h, ← a] at b
  exact legSeries_injective _ _ _ b

/-- **C56 (mirror).** Reflecting the data of the three cells (coefficient `k` changes sign for odd `k`, left and right
swap) reflects the result. -/
theorem C56_mirror (hs : s₀.Built lib p) (hi : Limiter.init "adaptive_hr" s₀ = .ok (some lm)) (hp : 1 ≤ p) (uc ul ur : Vec K) :
    ∃ v w, lm.hr uc ul ur = .ok v ∧
      lm.hr ⟨uc.len, fun k => (-1) ^ k * uc.val k⟩ ⟨ur.len, fun k => (-1) ^ k * ur.val k⟩ ⟨ul.len, fun k => (-1) ^ k * ul.val k⟩ = .ok w ∧
      ∀ k < p + 1, w.val k = (-1) ^ k * v.val k := by
  have hok := ok_of_init hs hi
  obtain ⟨v, h1, _, h3⟩ := hr_spec hok hp uc ul ur
  obtain ⟨w, g1, _, g3⟩ := hr_spec hok hp ⟨uc.len, fun k => (-1) ^ k * uc.val k⟩ ⟨ur.len, fun k => (-1) ^ k * ur.val k⟩
    ⟨ul.len, fun k => (-1) ^ k * ul.val k⟩
  refine ⟨v, w, h1, g1, ?_⟩
  simp only [legSeries_flip] at g3
  have := isHR_unique g3 (isHR_flip h3)
  rw [← legSeries_flip] at this
  exact legSeries_injective _ _ _ this

/-- **C56 (constants).** -/
theorem C56_constant (hs : s₀.Built lib p) (hi : Limiter.init "adaptive_hr" s₀ = .ok (some lm)) (hp : 1 ≤ p) (uc ul ur : Vec K) (a : K) :
    let up (u : Vec K) : Vec K := ⟨u.len, fun k => u.val k + if k = 0 then a else 0⟩
    ∃ v w, lm.hr uc ul ur = .ok v ∧ lm.hr (up uc) (up ul) (up ur) = .ok w ∧ ∀ k < p + 1, w.val k = (up v).val k := by
  intro up
  have hok := ok_of_init hs hi
  obtain ⟨v, h1, _, h3⟩ := hr_spec hok hp uc ul ur
  obtain ⟨w, g1, _, g3⟩ := hr_spec hok hp (up uc) (up ul) (up ur)
  refine ⟨v, w, h1, g1, ?_⟩
  simp only [up, legSeries_add_const] at g3
  have := isHR_unique g3 (isHR_add_const h3 a)
  rw [← legSeries_add_const] at this
  exact legSeries_injective _ _ _ this

/-- **C56 (scalars).** -/
theorem C56_scalar (hs : s₀.Built lib p) (hi : Limiter.init "adaptive_hr" s₀ = .ok (some lm)) (hp : 1 ≤ p) (uc ul ur : Vec K) (a : K) :
    let times (u : Vec K) : Vec K := ⟨u.len, fun k => a * u.val k⟩
    ∃ v w, lm.hr uc ul ur = .ok v ∧ lm.hr (times uc) (times ul) (times ur) = .ok w ∧ ∀ k < p + 1, w.val k = (times v).val k := by
  intro times
  have hok := ok_of_init hs hi
  obtain ⟨v, h1, _, h3⟩ := hr_spec hok hp uc ul ur
  obtain ⟨w, g1, _, g3⟩ := hr_spec hok hp (times uc) (times ul) (times ur)
  refine ⟨v, w, h1, g1, ?_⟩
  simp only [times, legSeries_smul] at g3
  have := isHR_unique g3 (isHR_smul h3 a)
  rw [← legSeries_smul] at this
  exact legSeries_injective _ _ _ this

end Reconstruction

section Solution
variable {K : Type*} [Field K] [LinearOrder K] [IsStrictOrderedRing K]
  {lib : GaussLib K} {p : ℕ} {lm : HrLimiter K} {s s' s₀ : Sol K}

/-- **C57.** After a successful call: the flags are those of the sensor on the solution before the call; an unflagged
cell keeps its coefficients; a flagged cell holds the reconstruction from the old values of itself and of its
neighbours; the ghosts are filled by the boundary conditions; everything else is as before. -/
theorem C57_limit (hs : s₀.Built lib p) (hi : Limiter.init "adaptive_hr" s₀ = .ok (some lm)) (hb : s.Built lib p)
    (h : Limiter.limit (some lm) s = .ok s') :
    ∃ sn sn', s.sensors = some sn ∧ sn.sensing s = .ok sn' ∧ s'.sensors = some sn' ∧ s'.t = s.t ∧ s'.n = s.n ∧
      SameSetup s' s ∧ s'.u.rows = s.u.rows ∧ s'.u.cols = s.u.cols ∧
      (∀ e f, 1 ≤ e → e ≤ s.NE → f < s.NF → sn'.sensors.val e = 0 →
        ∀ r, s'.u.val r (e * s.NF + f) = s.u.val r (e * s.NF + f)) ∧
      (∀ e f, 1 ≤ e → e ≤ s.NE → f < s.NF → sn'.sensors.val e ≠ 0 →
        ∃ v, lm.hr (s.u.col (e * s.NF + f)) (s.u.col ((e - 1) * s.NF + f)) (s.u.col ((e + 1) * s.NF + f)) = .ok v ∧
          ∀ r, s'.u.val r (e * s.NF + f) = v.val r) ∧
      (∀ r, ∀ f < s.NF, s'.u.val r f = if s.bcl.isLit "periodic" then s'.u.val r (s.NE * s.NF + f)
        else if s.bcl.isLit "zerograd" then s'.u.val r (1 * s.NF + f) else s.u.val r f) ∧
      (∀ r, ∀ f < s.NF, s'.u.val r ((s.NE + 1) * s.NF + f) = if s.bcr.isLit "periodic" then s'.u.val r (1 * s.NF + f)
        else if s.bcr.isLit "zerograd" then s'.u.val r (s.NE * s.NF + f) else s.u.val r ((s.NE + 1) * s.NF + f)) := by
  obtain ⟨sn, sn', v, U, h1, h2, rfl, h4, h5, h6, h7⟩ := limit_form (ok_of_init hs hi) hb h
  have hl := limited_like (s := s) (sn' := sn') h4 h5
  have hval := limited_val (sn' := sn') hb h5
  have hse : ∀ t : Sol K, t.applyBc.sensors = t.sensors := by
    intro t
    unfold Sol.applyBc Sol.applyBcRight Sol.applyBcLeft
    split_ifs <;> rfl
  have hin : ∀ r e f, 1 ≤ e → e ≤ s.NE → f < s.NF →
      (Sol.applyBc { s with u := U, sensors := some sn' }).u.val r (e * s.NF + f) = U.val r (e * s.NF + f) := by
    intro r e f a b d
    rw [hval, bcCol_interior s a b d]
  refine ⟨sn, sn', h1, h2, hse _, applyBc_t _, applyBc_n _, hl.setup, hl.rows, hl.cols, ?_, ?_, ?_, ?_⟩
  · intro e f a b d hz r
    rw [hin r e f a b d, h6, div_col d, if_neg (fun h => h.2.2 hz)]
  · intro e f a b d hz
    refine ⟨_, (h7 e a b hz f d).2, fun r => ?_⟩
    rw [hin r e f a b d, h6, div_col d, if_pos ⟨a, b, hz⟩]
  · intro r f hf
    rw [hin r s.NE f hb.NE le_rfl hf, hin r 1 f le_rfl hb.NE hf, hval, bcCol_left s hf]
    split_ifs
    · rw [add_comm]
    · rw [one_mul, add_comm]
    · rw [h6, Nat.div_eq_of_lt hf, if_neg (by omega)]
  · intro r f hf
    rw [hin r s.NE f hb.NE le_rfl hf, hin r 1 f le_rfl hb.NE hf, hval, bcCol_right s hf]
    split_ifs
    · rw [one_mul]
    · rfl
    · rw [h6, div_col hf, if_neg (by omega)]

/-- **C57 (disabled).** Any other limiter type gives a limiter that leaves the solution alone. -/
theorem C57_disabled (ltype : String) (h : ltype ≠ "adaptive_hr") (s₀ s : Sol K) :
    ∃ lim, Limiter.init ltype s₀ = .ok lim ∧ lim.limit s = .ok s := by
  refine ⟨none, ?_, rfl⟩
  unfold Limiter.init
  rw [if_neg h]

/-- **C57 (no sensors).** Limiting a solution constructed without sensor thresholds raises `AttributeError`. -/
theorem C57_no_sensors (lm : HrLimiter K) (s : Sol K) (h : s.sensors = none) :
    Limiter.limit (some lm) s = .error .attributeError := by
  simp only [Limiter.limit, HrLimiter.adaptiveHr, h]

/-- **C60 (order 0: the code violates the property).** As soon as one cell is flagged the limiter reads a variable that
was never assigned. -/
theorem C60_order_zero (hs : s₀.Built lib 0) (hi : Limiter.init "adaptive_hr" s₀ = .ok (some lm)) (hb : s.Built lib 0)
    {sn sn' : Sensor K} (h1 : s.sensors = some sn) (h2 : sn.sensing s = .ok sn') {e : ℕ} (he1 : 1 ≤ e) (he2 : e ≤ s.NE)
    (hf : sn'.sensors.val e ≠ 0) : Limiter.limit (some lm) s = .error .unboundLocal :=
  adaptiveHr_error h1 h2 hb.NF .unboundLocal (fun _ _ _ _ _ _ => hr_zero (ok_of_init hs hi) _ _ _) he1 he2 hf

/-- **C60 (orders that work).** Whenever the sensor runs, the limiter of order at least 1 returns a solution, and so does
the one of order 0 if no cell is flagged. -/
theorem C60_works_partial (hs : s₀.Built lib p) (hi : Limiter.init "adaptive_hr" s₀ = .ok (some lm)) (hb : s.Built lib p)
    {sn sn' : Sensor K} (h1 : s.sensors = some sn) (h2 : sn.sensing s = .ok sn')
    (hp : 1 ≤ p ∨ ∀ e, 1 ≤ e → e ≤ s.NE → sn'.sensors.val e = 0) : ∃ s', Limiter.limit (some lm) s = .ok s' := by
  have hok := ok_of_init hs hi
  have : ∃ v : ℕ → Vec K, ∀ e, 1 ≤ e → e ≤ s.NE → sn'.sensors.val e ≠ 0 → ∀ f < s.NF,
      lm.hr (s.u.col (e * s.NF + f)) (s.u.col ((e - 1) * s.NF + f)) (s.u.col ((e + 1) * s.NF + f)) = .ok (v (e * s.NF + f)) := by
    rcases hp with hp | hp
    · have hv : ∀ c, ∃ v, lm.hr (s.u.col c) (s.u.col ((c / s.NF - 1) * s.NF + c % s.NF)) (s.u.col ((c / s.NF + 1) * s.NF + c % s.NF)) = .ok v := by
        intro c
        obtain ⟨v, hv, _⟩ := hr_spec hok hp (s.u.col c) (s.u.col ((c / s.NF - 1) * s.NF + c % s.NF)) (s.u.col ((c / s.NF + 1) * s.NF + c % s.NF))
        exact ⟨v, hv⟩
      choose v hv using hv
      refine ⟨v, fun e _ _ _ f hf => ?_⟩
      have := hv (e * s.NF + f)
      rw [div_col hf, Nat.mul_add_mod', Nat.mod_eq_of_lt hf] at this
      exact this
    · exact ⟨fun _ => ⟨0, fun _ => 0⟩, fun e a b d => absurd (hp e a b) d⟩
  obtain ⟨v, hv⟩ := this
  obtain ⟨U, hU, _⟩ := adaptiveHr_spec h1 h2 hb.NF v hv
  exact ⟨_, hU⟩

/-- The physics' sensor reads only the cell averages (row 0) and keeps the length of the flag array. -/
structure MeanSensing (kw : Physics K) : Prop where
  row : ∀ th (u u' : Arr K) NF sn, u.cols = u'.cols → (∀ c, u.val 0 c = u'.val 0 c) → kw.sensing th u NF sn = kw.sensing th u' NF sn
  len : ∀ th (u : Arr K) NF sn sn', kw.sensing th u NF sn = .ok sn' → sn'.len = sn.len

/-- **C55 (a solution twice).** Order 1, ghosts filled: limiting twice is the same as limiting once. -/
theorem C55_twice (hs : s₀.Built lib 1) (hi : Limiter.init "adaptive_hr" s₀ = .ok (some lm)) (hb : s.Built lib 1)
    (hkw : MeanSensing s.kw) (hg : ∀ c, s.u.val 0 (s.bcCol c) = s.u.val 0 c) (h : Limiter.limit (some lm) s = .ok s') :
    ∃ s'', Limiter.limit (some lm) s' = .ok s'' ∧ SameSetup s'' s' ∧ s''.t = s'.t ∧ s''.n = s'.n ∧ s''.sensors = s'.sensors ∧
      s''.u.rows = s'.u.rows ∧ s''.u.cols = s'.u.cols ∧ ∀ r < 2, ∀ c, s''.u.val r c = s'.u.val r c := by
  have hok := ok_of_init hs hi
  obtain ⟨l1, _, _, l4⟩ := limit_row0 hok hb h
  have hb' : s'.Built lib 1 := l1.built hb
  obtain ⟨sn, sn', v, U, h1, h2, h3, h4, h5, h6, h7⟩ := limit_form hok hb h
  have hse : ∀ t : Sol K, t.applyBc.sensors = t.sensors := by
    intro t
    unfold Sol.applyBc Sol.applyBcRight Sol.applyBcLeft
    split_ifs <;> rfl
  have hsn : s'.sensors = some sn' := by rw [h3, hse]
  have hrow : ∀ c, s'.u.val 0 c = s.u.val 0 c := fun c => by rw [l4, hg]
  have hsens : sn'.sensing s' = .ok sn' := by
    unfold Sensor.sensing at h2 ⊢
    rcases hk : s.kw.sensing sn.thresholds s.u s.NF ⟨sn.sensors.len, fun _ => 0⟩ with err | w
    · rw [hk] at h2; cases h2
    rw [hk] at h2
    cases h2
    have hlen := hkw.len _ _ _ _ _ hk
    rw [l1.setup.kw, l1.setup.NF, hkw.row _ _ _ _ _ l1.cols hrow]
    dsimp only at hlen ⊢
    rw [hlen, hk]
  obtain ⟨s'', g⟩ := C60_works_partial hs hi hb' hsn hsens (Or.inl le_rfl)
  obtain ⟨sn₁, sn₂, v', U', g1, g2, g3, g4, g5, g6, g7⟩ := limit_form hok hb' g
  rw [hsn] at g1
  cases g1
  rw [hsens] at g2
  cases g2
  have hlk := limited_like (s := s') (sn' := sn') g4 g5
  have hval' : ∀ r c, s''.u.val r c = U'.val r (s'.bcCol c) := fun r c => by rw [g3]; exact limited_val hb' g5 r c
  have hval : ∀ r c, s'.u.val r c = U.val r (s.bcCol c) := fun r c => by rw [h3]; exact limited_val hb h5 r c
  have hbc : ∀ c, s'.bcCol c = s.bcCol c := by
    intro c
    unfold Sol.bcCol
    rw [l1.setup.NF, l1.setup.NE, l1.setup.bcl, l1.setup.bcr]
  refine ⟨s'', g, by rw [g3]; exact hlk.setup, by rw [g3]; exact applyBc_t _, by rw [g3]; exact applyBc_n _,
    by rw [g3, hse, hsn], by rw [g3]; exact hlk.rows, by rw [g3]; exact hlk.cols, fun r hr c => ?_⟩
  rw [hval', hbc, g6, l1.setup.NF, l1.setup.NE, hval r (s.bcCol c), hval r c, bcCol_idem s hb.NE]
  split_ifs with hc
  · set d := s.bcCol c with hd
    have hf : d % s.NF < s.NF := Nat.mod_lt _ hb.NF
    have hcc : d / s.NF * s.NF + d % s.NF = d := by rw [mul_comm]; exact Nat.div_add_mod _ _
    have k1 := (g7 (d / s.NF) hc.1 (by rw [l1.setup.NE]; exact hc.2.1) hc.2.2 (d % s.NF) (by rw [l1.setup.NF]; exact hf)).2
    have k2 := (h7 _ hc.1 hc.2.1 hc.2.2 _ hf).2
    rw [l1.setup.NF] at k1
    have e1 : (s'.u.col (d / s.NF * s.NF + d % s.NF)).len = 2 ∧ ∀ r, (s'.u.col (d / s.NF * s.NF + d % s.NF)).val r = (v d).val r := by
      refine ⟨hb'.rows, fun r => ?_⟩
      show s'.u.val r _ = _
      rw [hcc, hval r d, hd, bcCol_idem s hb.NE, ← hd, h6, if_pos hc]
    have vlen : (v d).len = 2 := by
      obtain ⟨w, w1, w2, _⟩ := hr_spec hok le_rfl _ _ _
      rw [k2] at w1
      cases w1
      rwa [hcc] at w2
    have e2 : s'.u.col (d / s.NF * s.NF + d % s.NF) = v d := by
      generalize s'.u.col (d / s.NF * s.NF + d % s.NF) = A at e1
      obtain ⟨al, av⟩ := A
      generalize v d = B at e1 vlen ⊢
      obtain ⟨bl, bv⟩ := B
      dsimp only at e1 vlen
      obtain ⟨rfl, e3⟩ := e1
      subst vlen
      congr 1
      funext r
      exact e3 r
    rw [e2] at k1
    rw [hcc] at k1 k2
    obtain ⟨w, w1, w2, w3⟩ := C55_hr_twice hs hi _ _ _ (s'.u.col ((d / s.NF - 1) * s.NF + d % s.NF)) (s'.u.col ((d / s.NF + 1) * s.NF + d % s.NF)) _ k2
      (hrow _) (hrow _)
    rw [k1] at w1
    cases w1
    rw [w3 r hr, h6, if_pos hc]
  · rfl

/-- The advection sensor reads the averages only. -/
theorem C55_advection : MeanSensing (Advection.physics (K := K)) where
  row := by
    intro th u u' NF sn hc hv
    have : u.row 0 = u'.row 0 := by
      unfold Arr.row
      rw [hc]
      congr 1
      funext c
      exact hv c
    simp only [Advection.physics, Advection.sensing, this, hc]
  len := by
    intro th u NF sn sn' h
    rcases th with _ | ⟨a, b⟩
    · cases h
    · cases h; rfl

end Solution

/-- The Euler sensor reads the averages only. -/
theorem C55_euler (γ : ℝ) (riemann : String) : MeanSensing (Euler.physics γ riemann) where
  row := by
    intro th u u' NF sn hc hv
    have : u.row 0 = u'.row 0 := by
      unfold Arr.row
      rw [hc]
      congr 1
      funext c
      exact hv c
    have hfs : Euler.faceStates u NF = Euler.faceStates u' NF := by
      unfold Euler.faceStates
      rw [this, hc]
    show Euler.sensing γ th u NF sn = Euler.sensing γ th u' NF sn
    unfold Euler.sensing
    rw [hfs, this]
  len := by
    intro th u NF sn sn' h
    rcases th with _ | ⟨a, _ | ⟨b, t⟩⟩
    · cases h
    · cases h
    · cases h; rfl

/-! Concrete cases meeting the hypotheses. -/

/-- `Ex.solR p` with a sensor of threshold 1/10. -/
noncomputable def solS (p : ℕ) : Sol ℝ := { Ex.solR p with sensors := some ⟨[1 / 10], ⟨5, fun _ => 0⟩⟩ }

lemma solS_built (p : ℕ) : (solS p).Built realGauss p := (Ex.solR_built p).congr (by constructor <;> rfl) rfl rfl

lemma solS_flags (p : ℕ) : ∃ sn', Sensor.sensing ⟨[1 / 10], ⟨5, fun _ => 0⟩⟩ (solS p) = .ok sn' ∧ sn'.sensors.val 2 ≠ 0 := by
  have hA : AdvectionSol (solS p) := ⟨rfl, rfl, Nat.succ_pos p, rfl⟩
  obtain ⟨sn', h1, _, _, h2⟩ := C48_flags hA ⟨[1 / 10], ⟨5, fun _ => 0⟩⟩ (1 / 10) [] rfl
  refine ⟨sn', h1, ?_⟩
  have h3 := (h2 2).1 ⟨1, by norm_num [solS, Ex.solR], ?_, by omega⟩
  · rw [h3]; norm_num
  · have e : jumpAt (solS p) 1 = 3 := by
      unfold jumpAt
      rw [cellMean_eq hA.rows, cellMean_eq hA.rows]
      norm_num [solS, Ex.solR]
    show psi (jumpAt (solS p) 1) > 1 / 10
    rw [e]
    norm_num [psi]

/-- Every order has a limiter; on `solS` it flags cell 2, and works for every order but 0. -/
example (p : ℕ) : ∃ lm, Limiter.init "adaptive_hr" (solS p) = .ok (some lm) ∧
    (p = 0 → Limiter.limit (some lm) (solS p) = .error .unboundLocal) ∧
    (1 ≤ p → ∃ s', Limiter.limit (some lm) (solS p) = .ok s' ∧ cellMean s' 2 0 = cellMean (solS p) 2 0) := by
  obtain ⟨lm, h⟩ := C60_init (solS_built p)
  obtain ⟨sn', h1, h2⟩ := solS_flags p
  refine ⟨lm, h, ?_, fun hp => ?_⟩
  · rintro rfl
    exact C60_order_zero (solS_built 0) h (solS_built 0) rfl h1 (e := 2) (by decide) (by decide) h2
  · obtain ⟨s', h3⟩ := C60_works_partial (solS_built p) h (solS_built p) rfl h1 (Or.inl hp)
    exact ⟨s', h3, C52_averages (solS_built p) h (solS_built p) h3 (by decide) (by norm_num [solS, Ex.solR])
      (by norm_num [solS, Ex.solR])⟩

/-- The hypotheses of `C53_smooth` with `Q = X²`, order 2. -/
example : legSeries 3 (fun k => if k = 0 then 1/3 else if k = 1 then 0 else 2/3) = (X ^ 2 : ℝ[X]) ∧
    legSeries 3 (fun k => if k = 0 then 13/3 else if k = 1 then -4 else 2/3) = (X ^ 2 : ℝ[X]).comp (X - C 2) ∧
    legSeries 3 (fun k => if k = 0 then 13/3 else if k = 1 then 4 else 2/3) = (X ^ 2 : ℝ[X]).comp (X + C 2) := by
  refine ⟨?_, ?_, ?_⟩ <;>
  · refine funext fun y => ?_
    rw [legSeries_eval]
    simp [Finset.sum_range_succ, legendre]
    ring

/-- The hypotheses of `C55_twice`. -/
example : (solS 1).applyBc.Built realGauss 1 ∧ MeanSensing (solS 1).applyBc.kw ∧
    (∀ c, (solS 1).applyBc.u.val 0 ((solS 1).applyBc.bcCol c) = (solS 1).applyBc.u.val 0 c) ∧
    ∃ lm s', Limiter.init "adaptive_hr" (solS 1) = .ok (some lm) ∧ Limiter.limit (some lm) (solS 1).applyBc = .ok s' := by
  have hb := solS_built 1
  obtain ⟨lm, h⟩ := C60_init hb
  have hs : (solS 1).applyBc.sensors = some ⟨[1 / 10], ⟨5, fun _ => 0⟩⟩ := by
    unfold Sol.applyBc Sol.applyBcRight Sol.applyBcLeft
    split_ifs <;> rfl
  have hk := (applyBc_setup (solS 1)).kw
  have hA : AdvectionSol (solS 1).applyBc := ⟨hk, (applyBc_setup _).NF, by rw [(applyBc_shape _).1]; exact Nat.succ_pos _,
    by rw [(applyBc_shape _).2, (applyBc_setup _).NE]; rfl⟩
  obtain ⟨sn', h1, _⟩ := C48_flags hA ⟨[1 / 10], ⟨5, fun _ => 0⟩⟩ (1 / 10) [] rfl
  obtain ⟨s', h3⟩ := C60_works_partial hb h hb.applyBc hs h1 (Or.inl le_rfl)
  refine ⟨hb.applyBc, by rw [hk]; exact C55_advection, fun c => ?_, lm, s', h, h3⟩
  have e : ∀ c, (solS 1).applyBc.bcCol c = (solS 1).bcCol c := by
    intro c
    have g := applyBc_setup (solS 1)
    unfold Sol.bcCol
    rw [g.NF, g.NE, g.bcl, g.bcr]
  rw [e, applyBc_val hb.NF hb.NE hb.cols, applyBc_val hb.NF hb.NE hb.cols, bcCol_idem _ hb.NE]

end Dg1d.Props
