import Verif.Proofs.Barrier
import Verif.Props.MonotoneSharp

/-! # C110: without a limiter only order 0 keeps bounds

C79 shows that piecewise constant advection makes no new extrema. Here: every higher order does, for every time step. -/

set_option linter.unusedSectionVars false

open Polynomial Dg1d.Spec

namespace Dg1d.Props

section
variable {s : Sol ℝ} {lib : GaussLib ℝ} {p : ℕ}

/-- The first step of a run of `deck` from `s` (any data), if neither an output nor the end of the run shortens it. -/
structure FullStep (s : Sol ℝ) (deck : RkDeck ℝ) (p : ℕ) : Prop where
  nout : 2 ≤ deck.nout
  min : 1 / 10 ^ 14 ≤ s.dx * deck.cfl / (2 * (p : ℝ) + 1)
  fits : s.dx * deck.cfl / (2 * (p : ℝ) + 1) ≤ (deck.finaltime - s.t) / ((deck.nout - 1 : ℕ) : ℝ)

lemma first_step (hb : s.Built lib p) (hk : s.kw = Advection.physics) (hen : s.enhance = none) {lim : Sol ℝ → Except PyErr (Sol ℝ)} (hlim : ∀ a, lim a = .ok a)
    (deck : RkDeck ℝ) (hrk : deck.rk ∈ ["rk3", "rk4", "low_storage_rk4"]) (hF : FullStep s deck p) (v : ℕ → ℕ → ℝ) :
    (integrate ⟨residual, lim⟩ deck (s.withVal v) 1).sol.t = s.t + s.dx * deck.cfl / (2 * (p : ℝ) + 1) ∧
    Like (integrate ⟨residual, lim⟩ deck (s.withVal v) 1).sol s ∧
    ∀ n, ∀ e, 1 ≤ e → e ≤ s.NE → ∀ f < s.NF, (integrate ⟨residual, lim⟩ deck (s.withVal v) 1).sol.u.val n (e * s.NF + f) =
      (∑ m ∈ Finset.range (promisedOrder deck.rk + 1), ((s.dx * deck.cfl / (2 * (p : ℝ) + 1)) ^ m / (m.factorial : ℝ)) • (advLin s hb.wf ^ m) v) n (e * s.NF + f) := by
  set c := s.withVal v with hc
  have hlike := withVal_like s v
  have hB := hlike.built hb
  have hp : c.basis.p = p := by rw [hB.basis]; rfl
  have hn1 : (1 : ℝ) ≤ ((deck.nout - 1 : ℕ) : ℝ) := by exact_mod_cast (by have := hF.nout; omega : 1 ≤ deck.nout - 1)
  have hpos : 0 < s.dx * deck.cfl / (2 * (p : ℝ) + 1) := lt_of_lt_of_le (by positivity) hF.min
  have hT : s.dx * deck.cfl / (2 * (p : ℝ) + 1) ≤ deck.finaltime - s.t := by
    have := hF.fits
    rw [le_div_iff₀ (by linarith)] at this
    nlinarith
  have hsol0 : (integrate ⟨residual, lim⟩ deck c 0).sol = c := integrate_zero_sol _ _ _
  have hrun : (integrate ⟨residual, lim⟩ deck c 0).status = .running ∧ (integrate ⟨residual, lim⟩ deck c 0).tout = outTime c.t deck.finaltime deck.nout 1 := by
    show (initLoop deck c).status = _ ∧ (initLoop deck c).tout = _
    obtain ⟨m, hm⟩ : ∃ m, deck.nout - 1 = m + 1 := ⟨deck.nout - 2, by have := hF.nout; omega⟩
    unfold initLoop
    simp only [touts_init c.t deck.finaltime hF.nout, hm, List.range'_succ, List.map_cons]
    exact ⟨trivial, trivial⟩
  obtain ⟨o, d, hdt⟩ := advection_full_step (a := c) hk (tout := outTime c.t deck.finaltime deck.nout 1) (cfl := deck.cfl) (tf := deck.finaltime)
    (by rw [hp]; exact hF.min) (by rw [hp]; exact hT) (by
      rw [hp]
      have := hF.fits
      show s.dx * deck.cfl / (2 * (p : ℝ) + 1) ≤ outTime s.t deck.finaltime deck.nout 1 - s.t
      unfold outTime
      simpa using this)
  rw [hp] at hdt
  have := advection_step hB hk hen hlim deck hrk 0 (by rw [hsol0]; exact Like.refl c) hrun.1 (by rw [hsol0, hrun.2]; exact hdt)
  rw [hsol0] at this
  exact ⟨this.1, this.2.1.trans hlike, this.2.2⟩

/-- Legendre coefficients of the cells' polynomials, the same for all fields. -/
noncomputable def coeffMap (NF : ℕ) : (ℕ → ℝ[X]) →ₗ[ℝ] (ℕ → ℕ → ℝ) where
  toFun P := fun n c => (2 * (n : ℝ) + 1) / 2 * intPoly (P (c / NF) * legendre ℝ n)
  map_add' P Q := by
    funext n c
    simp only [Pi.add_apply, add_mul, intPoly_add]
    ring
  map_smul' a P := by
    funext n c
    simp only [Pi.smul_apply, smul_eq_C_mul, mul_assoc, intPoly_C_mul, smul_eq_mul, RingHom.id_apply]
    ring

lemma coeffMap_series {NF : ℕ} {P : ℕ → ℝ[X]} {j f : ℕ} (hf : f < NF) (hP : (P j).natDegree ≤ p) :
    legSeries (p + 1) (fun n => coeffMap NF P n (j * NF + f)) = P j := by
  have hd : (j * NF + f) / NF = j := by
    rw [mul_comm, Nat.mul_add_div (by omega), Nat.div_eq_of_lt hf, add_zero]
  obtain ⟨c, hc⟩ := exists_legSeries (p + 1) (P j) (by
    refine lt_of_le_of_lt degree_le_natDegree ?_
    exact_mod_cast Nat.lt_succ_of_le hP)
  have h1 : ∀ n < p + 1, coeffMap NF P n (j * NF + f) = c n := by
    intro n hn
    show (2 * (n : ℝ) + 1) / 2 * intPoly (P ((j * NF + f) / NF) * legendre ℝ n) = c n
    rw [hd, hc, intPoly_legSeries _ _ _ hn]
    field_simp
  rw [hc]
  unfold legSeries
  exact Finset.sum_congr rfl fun n hn => by beta_reduce; rw [h1 n (Finset.mem_range.mp hn)]

/-- The polynomial of one cell, as a linear map. -/
noncomputable def cellMap (p c : ℕ) : (ℕ → ℕ → ℝ) →ₗ[ℝ] ℝ[X] where
  toFun v := legSeries (p + 1) fun n => v n c
  map_add' v w := by
    unfold legSeries
    simp only [Pi.add_apply, C_add, add_mul, Finset.sum_add_distrib]
  map_smul' a v := by
    unfold legSeries
    simp only [Pi.smul_apply, smul_eq_mul, C_mul, mul_assoc, ← Finset.mul_sum, smul_eq_C_mul, RingHom.id_apply]

/-- In the interior, away from the left boundary, the residual differentiates data that fit together. -/
lemma advLin_smooth (hb : s.Built lib p) (hk : s.kw = Advection.physics) (hen : s.enhance = none) (v : ℕ → ℕ → ℝ) {j f : ℕ} (h1 : 2 ≤ j) (h2 : j ≤ s.NE) (hf : f < s.NF)
    (hc : (cellMap p ((j - 1) * s.NF + f) v).eval 1 = (cellMap p (j * s.NF + f) v).eval (-1)) :
    cellMap p (j * s.NF + f) (advLin s hb.wf v) = (-(2 / s.dx)) • derivative (cellMap p (j * s.NF + f) v) := by
  obtain ⟨F, hF, hv⟩ := advLin_residual hb.wf hk hen v
  have hlike := withVal_like s v
  have hB := hlike.built hb
  have hpoly : ∀ i, 1 ≤ i → i ≤ s.NE → cellPoly (s.withVal v).applyBc i f = cellMap p (i * s.NF + f) v := by
    intro i g1 g2
    unfold cellPoly
    rw [(applyBc_shape _).1, hB.rows, (applyBc_setup (s.withVal v)).NF]
    show legSeries (p + 1) _ = legSeries (p + 1) _
    unfold legSeries
    refine Finset.sum_congr rfl fun n _ => ?_
    show C ((s.withVal v).applyBc.u.val n (i * s.NF + f)) * _ = _
    rw [hlike.applyBc_val hb.wf]
    show C (v n (s.bcCol (i * s.NF + f))) * _ = _
    rw [bcCol_interior s g1 g2 hf]
  have := C20_exact_derivative hB hk hen _ F hF j (by omega) h2 f hf (by rw [hpoly _ (by omega) (by omega), hpoly _ (by omega) h2]; exact hc)
  rw [hpoly _ (by omega) h2, hv] at this
  rw [smul_eq_C_mul, C_neg, neg_mul]
  exact this

/-- Powers of the residual on a polynomial spread over the mesh. -/
lemma advLin_spread (hb : s.Built lib p) (hk : s.kw = Advection.physics) (hen : s.enhance = none) {f : ℕ} (hf : f < s.NF) (e : ℕ) {Q : ℝ[X]} (hQ : Q.natDegree ≤ p) (m : ℕ) :
    ∀ j, m + 1 ≤ j → j ≤ s.NE → cellMap p (j * s.NF + f) ((advLin s hb.wf ^ m) (coeffMap s.NF (spread s.NE e Q))) =
      (-(2 / s.dx)) ^ m • (derivative^[m] Q).comp (X + C (2 * ((j : ℝ) - e))) := by
  induction m with
  | zero =>
    intro j h1 h2
    show legSeries (p + 1) (fun n => coeffMap s.NF (spread s.NE e Q) n (j * s.NF + f)) = _
    have hsp : spread s.NE e Q j = Q.comp (X + C (2 * ((j : ℝ) - e))) := by
      unfold spread
      rw [if_pos (Finset.mem_Icc.mpr ⟨h1, h2⟩)]
    rw [coeffMap_series hf (by rw [hsp, natDegree_comp, natDegree_X_add_C, mul_one]; exact hQ), hsp, pow_zero, one_smul, Function.iterate_zero, id]
  | succ m ih =>
    intro j h1 h2
    rw [pow_succ', Module.End.mul_apply, advLin_smooth hb hk hen _ (by omega) h2 hf ?_, ih j (by omega) h2, derivative_smul, smul_smul, ← pow_succ',
      Function.iterate_succ_apply', derivative_comp]
    · simp
    · rw [ih j (by omega) h2, ih (j - 1) (by omega) (by omega)]
      have : ((j - 1 : ℕ) : ℝ) = (j : ℝ) - 1 := by rw [Nat.cast_sub (by omega), Nat.cast_one]
      simp only [eval_smul, eval_comp, eval_add, eval_X, eval_C, this]
      congr 2
      ring

/-- Three terms of the exponential series move a quadratic. -/
lemma shift_quadratic {Q : ℝ[X]} (hQ : Q.natDegree ≤ 2) (τ : ℝ) {q : ℕ} (hq : q = 3 ∨ q = 4) :
    ∑ m ∈ Finset.range (q + 1), (τ ^ m / (m.factorial : ℝ)) • ((-1 : ℝ) ^ m • derivative^[m] Q) = Q.comp (X - C τ) := by
  have h := Q.as_sum_range_C_mul_X_pow' (Nat.lt_succ_of_le hQ)
  simp only [Finset.sum_range_succ, Finset.sum_range_zero, zero_add, pow_zero, mul_one, pow_one] at h
  generalize Q.coeff 2 = a at h
  generalize Q.coeff 1 = b at h
  generalize Q.coeff 0 = c at h
  subst h
  refine funext fun x => ?_
  rcases hq with rfl | rfl <;>
  · simp [Finset.sum_range_succ, Nat.factorial]
    ring

lemma order_mem {rk : String} (hrk : rk ∈ ["rk3", "rk4", "low_storage_rk4"]) : promisedOrder rk = 3 ∨ promisedOrder rk = 4 := by
  simp only [List.mem_cons, List.not_mem_nil, or_false] at hrk
  rcases hrk with h | h | h <;> rw [h]
  exacts [.inl rfl, .inr rfl, .inr rfl]

lemma weight_eq (t dx : ℝ) (m : ℕ) :
    t ^ m / (m.factorial : ℝ) * (-(2 / dx)) ^ m = (2 * t / dx) ^ m / (m.factorial : ℝ) * (-1) ^ m := by
  rw [neg_pow, show 2 * t / dx = t * (2 / dx) by ring, mul_pow]
  ring

/-- **C110 (order 2 and up).** Advection of order `p ≥ 2` without limiter and enhancement, 'rk3', 'rk4' or 'low_storage_rk4', any boundary conditions, at least as
many cells as the order of the scheme plus one, any CFL number below `2 p + 1`, that is every time step below the time a signal needs to
cross a cell: there are initial data with all values in `[0, 1]` that have a negative value after the first step. -/
theorem C110_barrier (hb : s.Built lib p) (hp : 2 ≤ p) (hk : s.kw = Advection.physics) (hen : s.enhance = none) (hdx : 0 < s.dx)
    (lim : Sol ℝ → Except PyErr (Sol ℝ)) (hlim : ∀ a, lim a = .ok a) (deck : RkDeck ℝ) (hrk : deck.rk ∈ ["rk3", "rk4", "low_storage_rk4"])
    (hN : promisedOrder deck.rk + 1 ≤ s.NE) (hF : FullStep s deck p) (hcfl : deck.cfl < 2 * p + 1) (f : ℕ) (hf : f < s.NF) :
    ∃ c : Sol ℝ, Like c s ∧ c.t = s.t ∧ c.n = s.n ∧
      (∀ e, 1 ≤ e → e ≤ s.NE → ∀ x ∈ Set.Icc (-1 : ℝ) 1, (cellPoly c e f).eval x ∈ Set.Icc (0 : ℝ) 1) ∧
      ∃ e, 1 ≤ e ∧ e ≤ s.NE ∧ ∃ x ∈ Set.Icc (-1 : ℝ) 1, (cellPoly (integrate ⟨residual, lim⟩ deck c 1).sol e f).eval x < 0 := by
  set dt := s.dx * deck.cfl / (2 * (p : ℝ) + 1) with hdt
  have hdt0 : 0 < dt := lt_of_lt_of_le (by positivity) hF.min
  have hdt1 : dt < s.dx := by
    rw [hdt, div_lt_iff₀ (by positivity)]
    nlinarith
  set q := promisedOrder deck.rk with hq
  set e := q + 1 with he
  set L := advLin s hb.wf with hL
  let T : (ℕ → ℕ → ℝ) →ₗ[ℝ] (ℕ → ℕ → ℝ) := ∑ m ∈ Finset.range (q + 1), (dt ^ m / (m.factorial : ℝ)) • L ^ m
  let Φ : (ℕ → ℝ[X]) →ₗ[ℝ] ℝ[X] := cellMap p (e * s.NF + f) ∘ₗ T ∘ₗ coeffMap s.NF
  have hT : ∀ v, T v = ∑ m ∈ Finset.range (q + 1), (dt ^ m / (m.factorial : ℝ)) • (L ^ m) v := fun v => by
    simp only [T, LinearMap.sum_apply, LinearMap.smul_apply]
  obtain ⟨P, P1, P2, x, hx, hneg⟩ := barrier_core Φ s.NE e (τ := 2 * dt / s.dx) (by positivity) (by rw [div_lt_iff₀ hdx]; linarith) (by
    intro Q hQ
    show cellMap p (e * s.NF + f) (T (coeffMap s.NF (spread s.NE e Q))) = _
    rw [hT, map_sum, ← shift_quadratic hQ _ (order_mem hrk)]
    refine Finset.sum_congr rfl fun m hm => ?_
    rw [map_smul, advLin_spread hb hk hen hf e (hQ.trans hp) m e (by have := Finset.mem_range.mp hm; omega) hN]
    rw [sub_self, mul_zero, C_0, add_zero, comp_X, smul_smul, smul_smul]
    congr 1
    exact weight_eq dt s.dx m)
  refine ⟨s.withVal (coeffMap s.NF P), withVal_like _ _, rfl, rfl, fun j _ _ y hy => ?_, e, by omega, hN, x, hx, ?_⟩
  · have : cellPoly (s.withVal (coeffMap s.NF P)) j f = P j := by
      unfold cellPoly
      rw [show (s.withVal (coeffMap s.NF P)).u.rows = p + 1 from hb.rows]
      exact coeffMap_series hf ((P1 j).trans hp)
    rw [this]
    exact P2 j y hy
  · obtain ⟨-, h2, h3⟩ := first_step hb hk hen hlim deck hrk hF (coeffMap s.NF P)
    have : cellPoly (integrate ⟨residual, lim⟩ deck (s.withVal (coeffMap s.NF P)) 1).sol e f = Φ P := by
      unfold cellPoly
      rw [h2.rows, hb.rows, h2.setup.NF]
      show legSeries (p + 1) _ = legSeries (p + 1) fun n => T (coeffMap s.NF P) n (e * s.NF + f)
      unfold legSeries
      refine Finset.sum_congr rfl fun n _ => ?_
      beta_reduce
      rw [h3 n e (by omega) hN f hf, hT]
    rw [this]
    exact hneg

/-- The residual of order 1: two numbers per cell. -/
lemma advLin_one (hb : s.Built lib 1) (hk : s.kw = Advection.physics) (hen : s.enhance = none) (hdx : 0 < s.dx) (v : ℕ → ℕ → ℝ) {j f : ℕ} (h1 : 2 ≤ j) (h2 : j ≤ s.NE)
    (hf : f < s.NF) :
    advLin s hb.wf v 0 (j * s.NF + f) =
      (v 0 ((j - 1) * s.NF + f) + v 1 ((j - 1) * s.NF + f) - (v 0 (j * s.NF + f) + v 1 (j * s.NF + f))) / s.dx ∧
    advLin s hb.wf v 1 (j * s.NF + f) =
      3 * (v 0 (j * s.NF + f) - v 1 (j * s.NF + f) - (v 0 ((j - 1) * s.NF + f) + v 1 ((j - 1) * s.NF + f))) / s.dx := by
  obtain ⟨F, hF, hv⟩ := advLin_residual hb.wf hk hen v
  have hlike := withVal_like s v
  have hB := hlike.built hb
  have hpoly : ∀ i, 1 ≤ i → i ≤ s.NE → cellPoly (s.withVal v).applyBc i f = C (v 0 (i * s.NF + f)) + C (v 1 (i * s.NF + f)) * X := by
    intro i g1 g2
    unfold cellPoly
    rw [(applyBc_shape _).1, hB.rows, (applyBc_setup (s.withVal v)).NF]
    have : ∀ n, (s.withVal v).applyBc.u.val n (i * (s.withVal v).NF + f) = v n (i * s.NF + f) := fun n => by
      rw [hlike.applyBc_val hb.wf]
      show v n (s.bcCol (i * s.NF + f)) = _
      rw [bcCol_interior s g1 g2 hf]
    simp only [this]
    unfold legSeries
    simp [Finset.sum_range_succ, legendre]
  obtain ⟨F', hF', hval⟩ := C13_advection hB hk hen
  rw [hF] at hF'
  cases hF'
  have e0 := hval 0 (by omega) j (by omega) h2 f hf
  have e1 := hval 1 (by omega) j (by omega) h2 f hf
  rw [hpoly j (by omega) h2, hpoly (j - 1) (by omega) (by omega)] at e0 e1
  rw [← hv]
  change s.dx / 2 * _ * F.val 0 (j * s.NF + f) = _ at e0
  change s.dx / 2 * _ * F.val 1 (j * s.NF + f) = _ at e1
  have l0 : legendre ℝ 0 = 1 := by simp [legendre]
  have l1 : legendre ℝ 1 = X := by simp [legendre]
  have i1 : intPoly (X : ℝ[X]) = 0 := by
    have := intPoly_derivative ((C (1 / 2 : ℝ)) * X ^ 2)
    rw [derivative_C_mul, derivative_X_pow] at this
    simp only [Nat.cast_ofNat, Nat.add_one_sub_one, pow_one, ← mul_assoc, ← C_mul] at this
    norm_num at this
    exact this
  have ic : ∀ a : ℝ, intPoly (C a) = 2 * a := fun a => by
    have := intPoly_C_mul a (1 : ℝ[X])
    rw [mul_one, intPoly_one] at this
    linarith
  rw [l0] at e0
  rw [l1] at e1
  simp only [derivative_one, zero_mul, derivative_X, one_mul, intPoly_add, intPoly_C_mul, i1, ic, mul_zero, add_zero, eval_add, eval_C, eval_mul, eval_X, eval_one,
    mul_one, Nat.cast_zero, zero_add, Nat.cast_one] at e0 e1
  have e2 : intPoly (0 : ℝ[X]) = 0 := by simpa using ic 0
  rw [e2] at e0
  constructor
  · rw [eq_div_iff hdx.ne']
    linarith
  · rw [eq_div_iff hdx.ne']
    linarith

lemma advLin_jump (hb : s.Built lib 1) (hk : s.kw = Advection.physics) (hen : s.enhance = none) (hdx : 0 < s.dx) {e f : ℕ} (he : e ≤ s.NE) (hf : f < s.NF) (v : ℕ → ℕ → ℝ)
    (hj : ∀ j, 1 ≤ j → j ≤ s.NE → v 0 (j * s.NF + f) = (if j < e then 1 else 0) ∧ v 1 (j * s.NF + f) = 0) (m : ℕ) (hm : m + 2 ≤ e) :
    (∀ j, m + 2 ≤ j → j < e → (advLin s hb.wf ^ (m + 1)) v 0 (j * s.NF + f) = 0 ∧ (advLin s hb.wf ^ (m + 1)) v 1 (j * s.NF + f) = 0) ∧
    (m = 0 → (advLin s hb.wf ^ (m + 1)) v 0 (e * s.NF + f) = 1 / s.dx ∧ (advLin s hb.wf ^ (m + 1)) v 1 (e * s.NF + f) = -3 / s.dx) ∧
    (m = 1 → (advLin s hb.wf ^ (m + 1)) v 0 (e * s.NF + f) = 2 / s.dx ^ 2 ∧ (advLin s hb.wf ^ (m + 1)) v 1 (e * s.NF + f) = 12 / s.dx ^ 2) ∧
    (m = 2 → (advLin s hb.wf ^ (m + 1)) v 0 (e * s.NF + f) = -14 / s.dx ^ 3 ∧ (advLin s hb.wf ^ (m + 1)) v 1 (e * s.NF + f) = -30 / s.dx ^ 3) ∧
    (m = 3 → (advLin s hb.wf ^ (m + 1)) v 0 (e * s.NF + f) = 44 / s.dx ^ 4 ∧ (advLin s hb.wf ^ (m + 1)) v 1 (e * s.NF + f) = 48 / s.dx ^ 4) := by
  induction m with
  | zero =>
    refine ⟨fun j h1 h2 => ?_, fun _ => ?_, by simp, by simp, by simp⟩
    · rw [pow_one, (advLin_one hb hk hen hdx _ (by omega) (by omega) hf).1, (advLin_one hb hk hen hdx _ (by omega) (by omega) hf).2, (hj j (by omega) (by omega)).1, (hj j (by omega) (by omega)).2,
        (hj (j - 1) (by omega) (by omega)).1, (hj (j - 1) (by omega) (by omega)).2, if_pos h2, if_pos (by omega)]
      constructor <;> ring
    · rw [pow_one, (advLin_one hb hk hen hdx _ (by omega) he hf).1, (advLin_one hb hk hen hdx _ (by omega) he hf).2, (hj e (by omega) he).1, (hj e (by omega) he).2,
        (hj (e - 1) (by omega) (by omega)).1, (hj (e - 1) (by omega) (by omega)).2, if_neg (lt_irrefl e), if_pos (by omega)]
      constructor <;> ring
  | succ m ih =>
    obtain ⟨h0, h1, h2, h3, -⟩ := ih (by omega)
    have z := h0 (e - 1) (by omega) (by omega)
    have hz : s.dx ≠ 0 := hdx.ne'
    rw [pow_succ' _ (m + 1)]
    simp only [Module.End.mul_apply]
    refine ⟨fun j g1 g2 => ?_, by omega, fun hm => ?_, fun hm => ?_, fun hm => ?_⟩
    · rw [(advLin_one hb hk hen hdx _ (by omega) (by omega) hf).1, (advLin_one hb hk hen hdx _ (by omega) (by omega) hf).2, (h0 j (by omega) g2).1, (h0 j (by omega) g2).2,
        (h0 (j - 1) (by omega) (by omega)).1, (h0 (j - 1) (by omega) (by omega)).2]
      constructor <;> ring
    · rw [(advLin_one hb hk hen hdx _ (by omega) he hf).1, (advLin_one hb hk hen hdx _ (by omega) he hf).2, z.1, z.2, (h1 (by omega)).1, (h1 (by omega)).2]
      constructor <;> (field_simp; ring)
    · rw [(advLin_one hb hk hen hdx _ (by omega) he hf).1, (advLin_one hb hk hen hdx _ (by omega) he hf).2, z.1, z.2, (h2 (by omega)).1, (h2 (by omega)).2]
      constructor <;> (field_simp; ring)
    · rw [(advLin_one hb hk hen hdx _ (by omega) he hf).1, (advLin_one hb hk hen hdx _ (by omega) he hf).2, z.1, z.2, (h3 (by omega)).1, (h3 (by omega)).2]
      constructor <;> (field_simp; ring)

/-- **C110 (order 1).** The jump from 1 to 0 at the left end of cell `e`, linear elements: after the first step the value at the right end of cell `e` is
`-2 r + 7 r² - 22/3 r³` with `r = dt / dx` for 'rk3', and `23/6 r⁴` more for the four-stage schemes. It is negative for 'rk3' whatever the step, and
for the others at every CFL number up to 6/5. -/
theorem C110_linear (hb : s.Built lib 1) (hk : s.kw = Advection.physics) (hen : s.enhance = none) (hdx : 0 < s.dx)
    (lim : Sol ℝ → Except PyErr (Sol ℝ)) (hlim : ∀ a, lim a = .ok a) (deck : RkDeck ℝ) (hrk : deck.rk ∈ ["rk3", "rk4", "low_storage_rk4"])
    (hF : FullStep s deck 1) (f : ℕ) (hf : f < s.NF) (e : ℕ) (he1 : promisedOrder deck.rk + 1 ≤ e) (he2 : e ≤ s.NE)
    (h1 : ∀ j, 1 ≤ j → j < e → cellPoly s j f = 1) (h0 : ∀ j, e ≤ j → j ≤ s.NE → cellPoly s j f = 0) :
    (cellPoly (integrate ⟨residual, lim⟩ deck s 1).sol e f).eval 1 =
      -2 * (deck.cfl / 3) + 7 * (deck.cfl / 3) ^ 2 - 22 / 3 * (deck.cfl / 3) ^ 3 + (if deck.rk = "rk3" then 0 else 23 / 6 * (deck.cfl / 3) ^ 4) ∧
    (deck.rk = "rk3" ∨ deck.cfl ≤ 6 / 5 → (cellPoly (integrate ⟨residual, lim⟩ deck s 1).sol e f).eval 1 < 0) := by
  have hlin : ∀ a : Sol ℝ, a.u.rows = 2 → ∀ j, cellPoly a j f = C (a.u.val 0 (j * a.NF + f)) + C (a.u.val 1 (j * a.NF + f)) * X := by
    intro a ha j
    unfold cellPoly
    rw [ha]
    unfold legSeries
    simp [Finset.sum_range_succ, legendre]
  have hj : ∀ j, 1 ≤ j → j ≤ s.NE → s.u.val 0 (j * s.NF + f) = (if j < e then 1 else 0) ∧ s.u.val 1 (j * s.NF + f) = 0 := by
    intro j g1 g2
    have hl := hlin s hb.rows j
    by_cases h : j < e
    · rw [h1 j g1 h] at hl
      have a := congrArg (eval 1) hl
      have b := congrArg (eval (-1)) hl
      simp at a b
      rw [if_pos h]
      constructor <;> linarith
    · rw [h0 j (by omega) g2] at hl
      have a := congrArg (eval 1) hl
      have b := congrArg (eval (-1)) hl
      simp at a b
      rw [if_neg h]
      constructor <;> linarith
  have hq := order_mem hrk
  have hz : s.dx ≠ 0 := hdx.ne'
  have J := advLin_jump hb hk hen hdx he2 hf s.u.val hj
  have j1 := (J 0 (by omega)).2.1 rfl
  have j2 := (J 1 (by omega)).2.2.1 rfl
  have j3 := (J 2 (by omega)).2.2.2.1 rfl
  have jz := hj e (by omega) he2
  rw [if_neg (lt_irrefl e)] at jz
  obtain ⟨-, h2, h3⟩ := first_step hb hk hen hlim deck hrk hF s.u.val
  rw [show s.withVal s.u.val = s from rfl] at h2 h3
  have hr : s.dx * deck.cfl / (2 * ((1 : ℕ) : ℝ) + 1) = deck.cfl / 3 * s.dx := by push_cast; ring
  rw [hr] at h3
  have hcfl : 0 < deck.cfl := by
    have := lt_of_lt_of_le (by positivity) hF.min
    rw [hr] at this
    have := (pos_iff_pos_of_mul_pos this).mpr hdx
    linarith
  have hval : (cellPoly (integrate ⟨residual, lim⟩ deck s 1).sol e f).eval 1 =
      -2 * (deck.cfl / 3) + 7 * (deck.cfl / 3) ^ 2 - 22 / 3 * (deck.cfl / 3) ^ 3 + (if deck.rk = "rk3" then 0 else 23 / 6 * (deck.cfl / 3) ^ 4) := by
    rw [hlin _ (h2.rows.trans hb.rows), h2.setup.NF, h3 0 e (by omega) he2 f hf, h3 1 e (by omega) he2 f hf]
    simp only [eval_add, eval_C, eval_mul, eval_X, mul_one]
    rcases hq with hq | hq
    · have : deck.rk = "rk3" := by
        simp only [List.mem_cons, List.not_mem_nil, or_false] at hrk
        rcases hrk with h | h | h
        · exact h
        all_goals rw [h] at hq; exact absurd hq (by decide)
      rw [hq, if_pos this]
      simp only [Finset.sum_range_succ, Finset.sum_range_zero, zero_add, Pi.add_apply, Pi.smul_apply, smul_eq_mul, pow_zero, Module.End.one_apply, jz.1, jz.2]
      simp only [Nat.reduceAdd, zero_add] at j1 j2 j3
      rw [j1.1, j1.2, j2.1, j2.2, j3.1, j3.2]
      simp only [Nat.factorial]
      field_simp
      push_cast
      ring
    · have : deck.rk ≠ "rk3" := by
        intro h
        rw [h] at hq
        exact absurd hq (by decide)
      have j4 := (J 3 (by omega)).2.2.2.2 rfl
      rw [hq, if_neg this]
      simp only [Finset.sum_range_succ, Finset.sum_range_zero, zero_add, Pi.add_apply, Pi.smul_apply, smul_eq_mul, pow_zero, Module.End.one_apply, jz.1, jz.2]
      simp only [Nat.reduceAdd, zero_add] at j1 j2 j3 j4
      rw [j1.1, j1.2, j2.1, j2.2, j3.1, j3.2, j4.1, j4.2]
      simp only [Nat.factorial]
      field_simp
      push_cast
      ring
  refine ⟨hval, fun h => ?_⟩
  rw [hval]
  set r := deck.cfl / 3 with hrdef
  have hr0 : 0 < r := by positivity
  by_cases h3 : deck.rk = "rk3"
  · rw [if_pos h3]
    have : -2 * r + 7 * r ^ 2 - 22 / 3 * r ^ 3 + 0 = -(r * (22 / 3 * (r - 21 / 44) ^ 2 + 29 / 88)) := by ring
    rw [this]
    have : 0 < r * (22 / 3 * (r - 21 / 44) ^ 2 + 29 / 88) := by positivity
    linarith
  · rw [if_neg h3]
    have hr1 : r ≤ 2 / 5 := by
      rcases h with h | h
      · exact absurd h h3
      · rw [hrdef]; linarith
    have : -2 * r + 7 * r ^ 2 - 22 / 3 * r ^ 3 + 23 / 6 * r ^ 4 =
        -(r * (16 / 125 + 59 / 25 * (2 / 5 - r) + 29 / 5 * (2 / 5 - r) ^ 2 + 23 / 6 * r ^ 2 * (2 / 5 - r))) := by ring
    rw [this]
    have h5 : 0 ≤ 2 / 5 - r := by linarith
    have : 0 < r * (16 / 125 + 59 / 25 * (2 / 5 - r) + 29 / 5 * (2 / 5 - r) ^ 2 + 23 / 6 * r ^ 2 * (2 / 5 - r)) := by positivity
    linarith

/-- Six cells of width 1/2, periodic, the first four filled. -/
noncomputable def Ex.jump (p : ℕ) : Sol ℝ :=
  { Ex.solR p with NE := 6, x := ⟨7, fun i => (i : ℝ) / 2⟩, xc := ⟨6, fun i => (2 * i + 1 : ℝ) / 4⟩
                   u := ⟨p + 1, 8, fun n e => if n = 0 ∧ e < 5 then 1 else 0⟩ }

lemma Ex.jump_built (p : ℕ) : (Ex.jump p).Built realGauss p where
  nodes := (Ex.solR_built p).nodes
  gauss := (Ex.solR_built p).gauss
  basis := rfl
  NF := by norm_num [Ex.jump, Ex.solR]
  NE := by norm_num [Ex.jump]
  rows := rfl
  cols := rfl
  dx := by norm_num [Ex.jump, Ex.solR]
  minv := fun n _ => rfl
  enh := fun en h => by cases h

lemma Ex.jump_step (p : ℕ) (hp : p ≤ 10) (rk : String) : FullStep (Ex.jump p) ⟨rk, 10, 2, 1⟩ p where
  nout := le_rfl
  min := by
    show (1 : ℝ) / 10 ^ 14 ≤ 1 / 2 * 1 / (2 * (p : ℝ) + 1)
    have : (p : ℝ) ≤ 10 := by exact_mod_cast hp
    rw [div_le_div_iff₀ (by positivity) (by positivity)]
    linarith
  fits := by
    show (1 : ℝ) / 2 * 1 / (2 * (p : ℝ) + 1) ≤ (10 - 0) / ((2 - 1 : ℕ) : ℝ)
    have : (0 : ℝ) ≤ (p : ℝ) := Nat.cast_nonneg p
    rw [div_le_div_iff₀ (by positivity) (by norm_num)]
    push_cast
    linarith

/-- C110 at order 3 with 'low_storage_rk4' and CFL number 1: some data in `[0, 1]` turn negative within one step. -/
example : ∃ c : Sol ℝ, Like c (Ex.jump 3) ∧ c.t = 0 ∧ c.n = 0 ∧
    (∀ e, 1 ≤ e → e ≤ 6 → ∀ x ∈ Set.Icc (-1 : ℝ) 1, (cellPoly c e 0).eval x ∈ Set.Icc (0 : ℝ) 1) ∧
    ∃ e, 1 ≤ e ∧ e ≤ 6 ∧ ∃ x ∈ Set.Icc (-1 : ℝ) 1,
      (cellPoly (integrate ⟨residual, fun a => .ok a⟩ ⟨"low_storage_rk4", 10, 2, 1⟩ c 1).sol e 0).eval x < 0 :=
  C110_barrier (Ex.jump_built 3) (by norm_num) rfl rfl (show (0 : ℝ) < 1 / 2 by norm_num) (fun a => .ok a) (fun _ => rfl) ⟨"low_storage_rk4", 10, 2, 1⟩ (by simp)
    (show promisedOrder "low_storage_rk4" + 1 ≤ 6 by decide) (Ex.jump_step 3 (by norm_num) _) (by norm_num) 0 (show 0 < 1 by norm_num)

/-- C110 at order 1 with 'rk3' and CFL number 1: the jump from 1 to 0 undershoots to -13/81 behind the jump. -/
example : (cellPoly (integrate ⟨residual, fun a => .ok a⟩ ⟨"rk3", 10, 2, 1⟩ (Ex.jump 1) 1).sol 5 0).eval 1 = -(13 / 81) := by
  have hc : ∀ j, cellPoly (Ex.jump 1) j 0 = if j < 5 then 1 else 0 := by
    intro j
    show legSeries 2 (fun n => if n = 0 ∧ j * 1 + 0 < 5 then (1 : ℝ) else 0) = _
    unfold legSeries
    by_cases h : j < 5 <;> simp [legendre, h]
  have := (C110_linear (Ex.jump_built 1) rfl rfl (show (0 : ℝ) < 1 / 2 by norm_num) (fun a => .ok a) (fun _ => rfl) ⟨"rk3", 10, 2, 1⟩ (by simp)
    (Ex.jump_step 1 (by norm_num) _) 0 (show 0 < 1 by norm_num) 5 (show promisedOrder "rk3" + 1 ≤ 5 by decide) (show 5 ≤ 6 by norm_num)
    (fun j _ h => by rw [hc, if_pos h]) (fun j h _ => by rw [hc, if_neg (by omega)])).1
  rw [this]
  norm_num

end
end Dg1d.Props
