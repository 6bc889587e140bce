import Verif.Proofs.Runs
import Verif.Proofs.LimiterSol

/-! Helper lemmas: solutions that are constant in every cell, their residual and what the limiter does to them. -/

set_option linter.unusedSectionVars false

open Polynomial Dg1d.Spec

namespace Dg1d

variable {K : Type*} [Field K] [LinearOrder K] [IsStrictOrderedRing K]

/-- Interior cell `e` holds the constant state `c e`, ghost cells have that average. -/
structure Steps (NE NF rows : ℕ) (c : ℕ → ℕ → K) (v : ℕ → ℕ → K) : Prop where
  mean : ∀ e ≤ NE + 1, ∀ f < NF, v 0 (e * NF + f) = c e f
  high : ∀ n, 0 < n → n < rows → ∀ e, 1 ≤ e → e ≤ NE → ∀ f < NF, v n (e * NF + f) = 0

/-- Every ghost cell is filled from an interior cell with the same state. -/
def Sol.Fills (s : Sol K) (c : ℕ → ℕ → K) : Prop :=
  ∀ e ≤ s.NE + 1, ∃ e', 1 ≤ e' ∧ e' ≤ s.NE ∧ (∀ f < s.NF, s.bcCol (e * s.NF + f) = e' * s.NF + f) ∧ ∀ f < s.NF, c e' f = c e f

lemma Sol.Fills.like {a s : Sol K} (ha : Like a s) {c : ℕ → ℕ → K} (h : s.Fills c) : a.Fills c := by
  unfold Sol.Fills Sol.bcCol
  rw [ha.setup.NE, ha.setup.NF, ha.setup.bcl, ha.setup.bcr]
  exact h

/-- After filling the ghosts every cell holds its constant. -/
lemma steps_filled {s : Sol K} {lib : GaussLib K} {p : ℕ} (h : s.Built lib p) {c : ℕ → ℕ → K} (hb : s.Fills c)
    (hu : Steps s.NE s.NF (p + 1) c s.u.val) (e : ℕ) (he : e ≤ s.NE + 1) (f : ℕ) (hf : f < s.NF) (n : ℕ) (hn : n < p + 1) :
    s.applyBc.u.val n (e * s.NF + f) = if n = 0 then c e f else 0 := by
  obtain ⟨e', h1, h2, h3, h4⟩ := hb e he
  rw [applyBc_val h.NF h.NE h.cols, h3 f hf]
  split
  · rename_i h0; subst h0; rw [hu.mean e' (by omega) f hf, h4 f hf]
  · exact hu.high n (by omega) hn e' h1 h2 f hf

/-- Without enhancement the face values are those of the two cells. -/
lemma steps_face {s : Sol K} {lib : GaussLib K} {p : ℕ} (h : s.Built lib p) (hen : s.enhance = none) (u : ℕ → ℕ → K) (c : ℕ → ℕ → K) (i : ℕ)
    (hu : ∀ e, (e = i ∨ e = i + 1) → ∀ f < s.NF, ∀ n < p + 1, u n (e * s.NF + f) = if n = 0 then c e f else 0) :
    (s.face 1 u i = fun f : Fin s.NF => c i f) ∧ s.face 0 u i = fun f : Fin s.NF => c (i + 1) f := by
  have p0 : s.basis.psi.val 0 0 = 1 := by rw [h.psi0]; simp [legendre_zero]
  have p1 : s.basis.psi.val 1 0 = 1 := by rw [h.psi1]; simp [legendre_zero]
  have key : ∀ side, s.face side u i = fun f : Fin s.NF => s.faceW side false 0 * c i f + s.faceW side true 0 * c (i + 1) f := by
    intro side
    funext f
    unfold Sol.face
    rw [h.ns]
    have : ∀ n ∈ Finset.range (p + 1), (s.faceW side false n * u n (i * s.NF + f) + s.faceW side true n * u n ((i + 1) * s.NF + f)) =
        if n = 0 then s.faceW side false 0 * c i f + s.faceW side true 0 * c (i + 1) f else 0 := by
      intro n hn
      have hn := Finset.mem_range.mp hn
      rw [hu i (Or.inl rfl) f f.2 n hn, hu (i + 1) (Or.inr rfl) f f.2 n hn]
      split
      · rename_i h0; subst h0; rfl
      · ring
    rw [Finset.sum_congr rfl this, Finset.sum_ite_eq' _ 0, if_pos (Finset.mem_range.mpr (by omega))]
  rw [key, key]
  unfold Sol.faceW
  rw [hen]
  constructor <;> funext f <;> simp [p0, p1]

/-- The residual of a solution constant in every cell whose numerical and physical fluxes are all the same: defined, zero
inside, in the ghosts of zero average. -/
lemma steps_residual {s : Sol K} {lib : GaussLib K} {p : ℕ} (h : s.Built lib p) {NF : ℕ} (hNF : s.NF = NF)
    (ps : PhysSpec K NF) (hps : s.kw.Pointwise ps) (hen : s.enhance = none) {c : ℕ → ℕ → K} (hb : s.Fills c)
    (hu : Steps s.NE NF (p + 1) c s.u.val)
    (hfail : ∀ i ≤ s.NE, ¬ ps.fails (fun f => c i f) (fun f => c (i + 1) f)) (Φ : Fin NF → K)
    (hnum : ∀ i ≤ s.NE, ps.num (fun f => c i f) (fun f => c (i + 1) f) = Φ)
    (hflux : ∀ e ≤ s.NE + 1, ps.flux (fun f => c e f) = Φ) :
    ∃ F, residual s = .ok (s.applyBc, F) ∧ Uniform s.NE NF (p + 1) (fun _ => 0) F.val := by
  subst hNF
  have hfill := steps_filled h hb hu
  have hface : ∀ i < s.NE + 1, (s.face 1 s.applyBc.u.val i = fun f : Fin s.NF => c i f) ∧ s.face 0 s.applyBc.u.val i = fun f : Fin s.NF => c (i + 1) f := by
    intro i hi
    exact steps_face h hen _ c i fun e he f hf n hn => hfill e (by omega) f hf n hn
  obtain ⟨F, hF, hr, hcl, hin, hgh⟩ := (residual_eq h.wf hps).2 (by
    intro i hi; rw [(hface i hi).1, (hface i hi).2]; exact hfail i (by omega))
  have hq : ∀ i ≤ s.NE, s.q ps s.applyBc.u.val i = Φ := by
    intro i hi
    unfold Sol.q
    rw [(hface i (by omega)).1, (hface i (by omega)).2, hnum i hi]
  have hvol : ∀ n < p + 1, ∀ e ≤ s.NE + 1, ∀ f : Fin s.NF, s.vol ps s.applyBc.u.val n e f =
      Φ f * ((legendre K n).eval 1 - (legendre K n).eval (-1)) := by
    intro n hn e he f
    unfold Sol.vol
    rw [h.ng, h.ns]
    have hin : ∀ g, (fun f' : Fin s.NF => ∑ k ∈ Finset.range (p + 1), s.basis.phi.val g k * s.applyBc.u.val k (e * s.NF + f')) =
        fun f' : Fin s.NF => c e f' := by
      intro g
      funext f'
      have : ∀ k ∈ Finset.range (p + 1), s.basis.phi.val g k * s.applyBc.u.val k (e * s.NF + f') =
          if k = 0 then c e f' else 0 := by
        intro k hk
        rw [hfill e he f' f'.2 k (Finset.mem_range.mp hk), h.phi]
        split
        · rename_i h0; subst h0; simp [legendre_zero]
        · ring
      rw [Finset.sum_congr rfl this, Finset.sum_ite_eq' _ 0, if_pos (Finset.mem_range.mpr (by omega))]
    simp only [hin, hflux e he]
    rw [← Finset.sum_mul, mul_comm]
    congr 1
    rw [← intPoly_derivative, ← gauss_int h (derivative (legendre K n))]
    · exact Finset.sum_congr rfl fun g _ => h.dphi n g
    · have := degree_deriv_mul hn (fun k => if k = 0 then (1 : K) else 0)
      have h1 : legSeries (p + 1) (fun k => if k = 0 then (1 : K) else 0) = 1 := by
        unfold legSeries
        rw [Finset.sum_eq_single 0]
        · simp [legendre_zero]
        · intro b _ hb; simp [hb]
        · intro h; simp at h
      rwa [h1, mul_one] at this
  refine ⟨F, hF, ⟨?_, ?_⟩⟩
  · intro e he f hf
    by_cases hg : e = 0 ∨ e = s.NE + 1
    · have := hgh 0 (by rw [h.ns]; omega) e hg ⟨f, hf⟩
      rw [this, hvol 0 (by omega) e he]
      simp [legendre_zero]
    · have := hin 0 (by rw [h.ns]; omega) e (by omega) (by omega) ⟨f, hf⟩
      rw [this, hvol 0 (by omega) e he, hq e (by omega), hq (e - 1) (by omega)]
      simp [legendre_zero]
  · intro n hn0 hn e he1 he2 f hf
    have := hin n (by rw [h.ns]; omega) e he1 he2 ⟨f, hf⟩
    rw [this, hvol n hn e (by omega), hq e (by omega), hq (e - 1) (by omega), legendre_eval_one, legendre_eval_neg_one]
    rcases Nat.even_or_odd n with hp | hp
    · rw [hp.neg_one_pow, if_pos (Nat.even_iff.mp hp)]; ring
    · rw [hp.neg_one_pow, if_neg (by rw [Nat.odd_iff.mp hp]; norm_num)]; ring

/-- The averages of the residual of a solution constant in every cell. -/
lemma steps_mean {s : Sol K} {lib : GaussLib K} {p : ℕ} (h : s.Built lib p) {NF : ℕ} (hNF : s.NF = NF)
    (ps : PhysSpec K NF) (hps : s.kw.Pointwise ps) (hen : s.enhance = none) {c : ℕ → ℕ → K} (hb : s.Fills c)
    (hu : Steps s.NE NF (p + 1) c s.u.val) (hfail : ∀ i ≤ s.NE, ¬ ps.fails (fun f => c i f) (fun f => c (i + 1) f)) :
    ∃ F, residual s = .ok (s.applyBc, F) ∧ ∀ e, 1 ≤ e → e ≤ s.NE → ∀ f : Fin NF, F.val 0 (e * NF + f) =
      (ps.num (fun f => c (e - 1) f) (fun f => c e f) f - ps.num (fun f => c e f) (fun f => c (e + 1) f) f) / s.dx := by
  subst hNF
  have hfill := steps_filled h hb hu
  have hface : ∀ i < s.NE + 1, (s.face 1 s.applyBc.u.val i = fun f : Fin s.NF => c i f) ∧ s.face 0 s.applyBc.u.val i = fun f : Fin s.NF => c (i + 1) f := by
    intro i hi
    exact steps_face h hen _ c i fun e he f hf n hn => hfill e (by omega) f hf n hn
  obtain ⟨F, hF, -, -, hin, -⟩ := (residual_eq h.wf hps).2 (by
    intro i hi; rw [(hface i hi).1, (hface i hi).2]; exact hfail i (by omega))
  refine ⟨F, hF, fun e e1 e2 f => ?_⟩
  have hvol : s.vol ps s.applyBc.u.val 0 e f = 0 := by
    unfold Sol.vol
    refine Finset.sum_eq_zero fun g _ => ?_
    rw [h.dphi, legendre_zero, derivative_one, eval_zero, mul_zero, zero_mul]
  rw [hin 0 (by rw [h.ns]; omega) e e1 e2 f, hvol, if_pos rfl]
  unfold Sol.q
  rw [(hface e (by omega)).1, (hface e (by omega)).2, (hface (e - 1) (by omega)).1, (hface (e - 1) (by omega)).2,
    show e - 1 + 1 = e by omega, h.minv 0 (by omega)]
  push_cast
  ring

/-! ### Hierarchical reconstruction of a constant -/

lemma minmod_zero_left (a : K) : minmod 0 a = 0 := by simp [minmod]

lemma minmod_zero_right (a : K) : minmod a 0 = 0 := by simp [minmod]

/-- A cell that holds a constant, with a constant on one side and a neighbour of the same average, keeps its constant. -/
lemma hr_const {p : ℕ} {UL UR V : K[X]} {a b : K} (h : IsHR p UL (C a) UR V) (hc : UL = C b ∨ UR = C b)
    (hm : intPoly UL = 2 * a ∨ intPoly UR = 2 * a) : V = C a := by
  have hcoef : ∀ k, k ≤ p → ∀ m, p - k < m → m ≤ p → V.coeff m = 0 := by
    intro k
    induction k with
    | zero => intro _ m h1 h2; omega
    | succ k ih =>
      intro hk m h1 h2
      by_cases hmk : p - k < m
      · exact ih (by omega) m hmk h2
      have hh : highPart p m V = 0 := by
        unfold highPart
        refine Finset.sum_eq_zero fun n hn => ?_
        rw [Finset.mem_Ico] at hn
        rw [ih (by omega) n (by omega) (by omega), monomial_zero_right]
      have hs := h.slope m (by omega) h2
      have hla : ∀ (U : K[X]) (x : K), linearAverage p m V U x = intPoly (derivative^[m - 1] U) / 2 := by
        intro U x
        unfold linearAverage
        rw [hh]
        have : derivative^[m - 1] (0 : K[X]) = 0 := by simp
        rw [this]
        have : intBetween x (x + 2) (0 : K[X]) = 0 := by simp [intBetween, antideriv]
        rw [this, sub_zero]
      rw [hla, hla, hla] at hs
      have hfac : (m.factorial : K) ≠ 0 := by exact_mod_cast m.factorial_ne_zero
      have hC : ∀ x : K, intPoly (C x : K[X]) = 2 * x := by
        intro x
        have := intPoly_legSeries (K := K) 1 (fun _ => x) 0 (by norm_num)
        simp [legSeries, legendre_zero] at this
        rw [this]; ring
      have hz : ∀ x : K, 1 ≤ m - 1 → derivative^[m - 1] (C x : K[X]) = 0 := by
        intro x hx
        obtain ⟨j, hj⟩ : ∃ j, m - 1 = j + 1 := ⟨m - 2, by omega⟩
        rw [hj, Function.iterate_succ_apply, derivative_C]
        simp
      have h0 : V.coeff m * (m.factorial : K) = 0 := by
        by_cases h1' : m = 1
        · subst h1'
          simp only [Nat.sub_self, Function.iterate_zero, id_eq] at hs
          rw [hs, hC]
          rcases hm with hm | hm
          · rw [hm, sub_self, zero_div, minmod_zero_left]
          · rw [hm, sub_self, zero_div, minmod_zero_right]
        · rw [hs]
          rcases hc with rfl | rfl
          · rw [hz _ (by omega), hz _ (by omega), sub_self, zero_div, minmod_zero_left]
          · rw [hz _ (by omega), hz _ (by omega), sub_self, zero_div, minmod_zero_right]
      exact (mul_eq_zero.mp h0).resolve_right hfac
  have hV : V = C (V.coeff 0) := by
    ext n
    by_cases hn : n = 0
    · subst hn; simp
    · rw [coeff_C, if_neg hn]
      by_cases hp : n ≤ p
      · exact hcoef p le_rfl n (by omega) hp
      · exact coeff_eq_zero_of_degree_lt (lt_of_lt_of_le h.degree (by exact_mod_cast (by omega : p + 1 ≤ n)))
  have hC : ∀ x : K, intPoly (C x : K[X]) = 2 * x := by
    intro x
    have := intPoly_legSeries (K := K) 1 (fun _ => x) 0 (by norm_num)
    simp [legSeries, legendre_zero] at this
    rw [this]; ring
  have hmean := h.mean
  rw [hV, hC, hC] at hmean
  rw [hV]
  congr 1
  linarith

end Dg1d
