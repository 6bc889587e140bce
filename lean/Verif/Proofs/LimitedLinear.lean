import Mathlib.Analysis.Convex.Function
import Mathlib.Tactic.Module
import Verif.Props.Limiter
import Verif.Props.Sensor
import Verif.Props.Monotone
import Verif.Proofs.Mute

/-! Helper lemmas: linear elements whose slopes are limited in every cell. -/

set_option linter.unusedSectionVars false

open Polynomial Dg1d.Spec

namespace Dg1d

section Convex
variable {V : Type*} [AddCommGroup V] [Module ℝ V] {C : Set V}

/-- `x` is `t` times a point of `C`. -/
def Share (C : Set V) (t : ℝ) (x : V) : Prop := ∃ y ∈ C, x = t • y

lemma Share.of {t : ℝ} {y : V} (hy : y ∈ C) : Share C t (t • y) := ⟨y, hy, rfl⟩

lemma Share.add (hC : Convex ℝ C) {t t' : ℝ} {x x' : V} (ht : 0 < t) (ht' : 0 < t') (h : Share C t x) (h' : Share C t' x') :
    Share C (t + t') (x + x') := by
  obtain ⟨y, hy, rfl⟩ := h
  obtain ⟨y', hy', rfl⟩ := h'
  have hs : 0 < t + t' := by linarith
  refine ⟨(t / (t + t')) • y + (t' / (t + t')) • y', hC hy hy' (by positivity) (by positivity) (by rw [← add_div, div_self hs.ne']), ?_⟩
  rw [smul_add, smul_smul, smul_smul, mul_div_cancel₀ _ hs.ne', mul_div_cancel₀ _ hs.ne']

lemma Share.mem {t : ℝ} {x : V} (ht : 0 < t) (h : Share C t x) {y : V} (hy : x = t • y) : y ∈ C := by
  obtain ⟨z, hz, rfl⟩ := h
  have := congrArg (fun v => t⁻¹ • v) hy
  simp only [smul_smul, inv_mul_cancel₀ ht.ne', one_smul] at this
  rw [← this]
  exact hz

/-- A step of the classical fourth order scheme on `u' = -A_k u`, with another operator `A_k` in each stage, is a convex combination of products of the
operators `1 - 2 A_k` and `1 - (2 A_i - 2/3 A_j)`. -/
lemma rk4_stages_convex (hC : Convex ℝ C) (A1 A2 A3 A4 : V →ₗ[ℝ] V)
    (e1 : ∀ v ∈ C, v - (2 : ℝ) • A1 v ∈ C) (e2 : ∀ v ∈ C, v - (2 : ℝ) • A2 v ∈ C) (e3 : ∀ v ∈ C, v - (2 : ℝ) • A3 v ∈ C) (e4 : ∀ v ∈ C, v - (2 : ℝ) • A4 v ∈ C)
    (g21 : ∀ v ∈ C, v - ((2 : ℝ) • A2 v - (2 / 3 : ℝ) • A1 v) ∈ C) (g32 : ∀ v ∈ C, v - ((2 : ℝ) • A3 v - (2 / 3 : ℝ) • A2 v) ∈ C)
    (g34 : ∀ v ∈ C, v - ((2 : ℝ) • A3 v - (2 / 3 : ℝ) • A4 v) ∈ C) {m k1 k2 k3 k4 : V} (hm : m ∈ C)
    (h1 : k1 = -A1 m) (h2 : k2 = -A2 (m + (1 / 2 : ℝ) • k1)) (h3 : k3 = -A3 (m + (1 / 2 : ℝ) • k2)) (h4 : k4 = -A4 (m + k3)) :
    m + ((1 / 6 : ℝ) • k1 + (1 / 3 : ℝ) • k2 + (1 / 3 : ℝ) • k3 + (1 / 6 : ℝ) • k4) ∈ C := by
  have i1 := e1 m hm
  have i2 := e2 m hm
  have i3 := e3 m hm
  have i4 := e4 m hm
  have i21 := e2 _ i1
  have i41 := e4 _ i1
  have i43 := e4 _ i3
  have i321 := e3 _ i21
  have i4321 := e4 _ i321
  have j21 := g21 m hm
  have j3 := e3 _ j21
  have j43 := e4 _ j3
  have j32 := e4 _ (g32 m hm)
  have j34 := g34 _ i21
  have s := (Share.of (t := 233) hm)
  have s := s.add hC (by norm_num) (by norm_num) (Share.of (t := 19) i1)
  have s := s.add hC (by norm_num) (by norm_num) (Share.of (t := 39) i2)
  have s := s.add hC (by norm_num) (by norm_num) (Share.of (t := 36) i3)
  have s := s.add hC (by norm_num) (by norm_num) (Share.of (t := 16) i4)
  have s := s.add hC (by norm_num) (by norm_num) (Share.of (t := 12) i21)
  have s := s.add hC (by norm_num) (by norm_num) (Share.of (t := 1) i41)
  have s := s.add hC (by norm_num) (by norm_num) (Share.of (t := 3) i43)
  have s := s.add hC (by norm_num) (by norm_num) (Share.of (t := 1) i4321)
  have s := s.add hC (by norm_num) (by norm_num) (Share.of (t := 9) j3)
  have s := s.add hC (by norm_num) (by norm_num) (Share.of (t := 9) j32)
  have s := s.add hC (by norm_num) (by norm_num) (Share.of (t := 3) j34)
  have s := s.add hC (by norm_num) (by norm_num) (Share.of (t := 3) j43)
  refine s.mem (by norm_num) ?_
  subst h1 h2 h3 h4
  simp only [map_add, map_sub, map_neg, map_smul]
  module

/-- A step of Kutta's third order scheme on `u' = -A_k u`, with another operator `A_k` in each stage. -/
lemma rk3_stages_convex (hC : Convex ℝ C) (A1 A2 A3 : V →ₗ[ℝ] V)
    (e1 : ∀ v ∈ C, v - (5 : ℝ) • A1 v ∈ C) (e2 : ∀ v ∈ C, v - (5 : ℝ) • A2 v ∈ C) (e3 : ∀ v ∈ C, v - (5 : ℝ) • A3 v ∈ C)
    (g21 : ∀ v ∈ C, v - ((5 : ℝ) • A2 v - (5 / 3 : ℝ) • A1 v) ∈ C) (g23 : ∀ v ∈ C, v - ((5 : ℝ) • A2 v - (5 / 3 : ℝ) • A3 v) ∈ C)
    {m k1 k2 k3 : V} (hm : m ∈ C)
    (h1 : k1 = -A1 m) (h2 : k2 = -A2 (m + (1 / 2 : ℝ) • k1)) (h3 : k3 = -A3 (m + ((-1 : ℝ) • k1 + (2 : ℝ) • k2))) :
    m + ((1 / 6 : ℝ) • k1 + (2 / 3 : ℝ) • k2 + (1 / 6 : ℝ) • k3) ∈ C := by
  have i1 := e1 m hm
  have i2 := e2 m hm
  have i3 := e3 m hm
  have i321 := e3 _ (e2 _ i1)
  have j3 := e3 _ (g21 m hm)
  have j1 := g23 _ i1
  have s := (Share.of (t := 614) hm)
  have s := s.add hC (by norm_num) (by norm_num) (Share.of (t := 18) i1)
  have s := s.add hC (by norm_num) (by norm_num) (Share.of (t := 81) i2)
  have s := s.add hC (by norm_num) (by norm_num) (Share.of (t := 18) i3)
  have s := s.add hC (by norm_num) (by norm_num) (Share.of (t := 1) i321)
  have s := s.add hC (by norm_num) (by norm_num) (Share.of (t := 9) j3)
  have s := s.add hC (by norm_num) (by norm_num) (Share.of (t := 9) j1)
  refine s.mem (by norm_num) ?_
  subst h1 h2 h3
  simp only [map_add, map_sub, map_neg, map_smul]
  module

end Convex

section Jumps
variable {up : ℕ → ℕ} {C : Set (ℕ → ℝ)} {c1 c2 c3 c4 : ℕ → ℝ} {lam : ℝ}

/-- `v ↦ ν (v - v ∘ up)`, cell by cell. -/
def jump (up : ℕ → ℕ) (ν : ℕ → ℝ) : (ℕ → ℝ) →ₗ[ℝ] (ℕ → ℝ) where
  toFun v := fun e => ν e * (v e - v (up e))
  map_add' v w := by funext e; simp only [Pi.add_apply]; ring
  map_smul' a v := by funext e; simp only [Pi.smul_apply, smul_eq_mul, RingHom.id_apply]; ring

/-- Averaging each cell with its upwind cell, with weights that may vary, keeps `C`. -/
def KeptByAverages (up : ℕ → ℕ) (C : Set (ℕ → ℝ)) : Prop := ∀ ν : ℕ → ℝ, (∀ e, 0 ≤ ν e ∧ ν e ≤ 1) → ∀ v ∈ C, v - jump up ν v ∈ C

/-- The factors by which limited slopes change a jump. -/
def HalfWays (c : ℕ → ℝ) : Prop := ∀ e, 1 / 2 ≤ c e ∧ c e ≤ 3 / 2

lemma KeptByAverages.single (h : KeptByAverages up C) {a : ℝ} {c : ℕ → ℝ} (hc : HalfWays c) (h0 : 0 ≤ a * lam) (h1 : a * lam * 3 ≤ 2) {v : ℕ → ℝ} (hv : v ∈ C) :
    v - a • jump up (fun e => lam * c e) v ∈ C := by
  have := h (fun e => a * (lam * c e)) (fun e => ?_) v hv
  · convert this using 2
    funext e
    simp only [jump, LinearMap.coe_mk, AddHom.coe_mk, Pi.smul_apply, smul_eq_mul]
    ring
  · obtain ⟨c0, c1⟩ := hc e
    constructor <;> nlinarith

lemma KeptByAverages.pair (h : KeptByAverages up C) {a : ℝ} {c c' : ℕ → ℝ} (hc : HalfWays c) (hc' : HalfWays c') (h0 : 0 ≤ a * lam) (h1 : a * lam * 3 ≤ 2) {v : ℕ → ℝ} (hv : v ∈ C) :
    v - (a • jump up (fun e => lam * c e) v - (a / 3) • jump up (fun e => lam * c' e) v) ∈ C := by
  have := h (fun e => a * (lam * c e) - a / 3 * (lam * c' e)) (fun e => ?_) v hv
  · convert this using 2
    funext e
    simp only [jump, LinearMap.coe_mk, AddHom.coe_mk, Pi.smul_apply, Pi.sub_apply, smul_eq_mul]
    ring
  · obtain ⟨c0, c1⟩ := hc e
    obtain ⟨c0', c1'⟩ := hc' e
    constructor <;> nlinarith

/-- The fourth order step with limited slopes, at most a third of a cell per step. -/
lemma rk4_kept (hC : Convex ℝ C) (hK : KeptByAverages up C) (h1 : HalfWays c1) (h2 : HalfWays c2) (h3 : HalfWays c3) (h4 : HalfWays c4)
    (l0 : 0 ≤ lam) (l1 : lam ≤ 1 / 3) {m k1 k2 k3 k4 : ℕ → ℝ} (hm : m ∈ C)
    (e1 : ∀ e, k1 e = -(lam * c1 e * (m e - m (up e))))
    (e2 : ∀ e, k2 e = -(lam * c2 e * ((m e + 1 / 2 * k1 e) - (m (up e) + 1 / 2 * k1 (up e)))))
    (e3 : ∀ e, k3 e = -(lam * c3 e * ((m e + 1 / 2 * k2 e) - (m (up e) + 1 / 2 * k2 (up e)))))
    (e4 : ∀ e, k4 e = -(lam * c4 e * ((m e + k3 e) - (m (up e) + k3 (up e))))) :
    (fun e => m e + (1 / 6 * k1 e + 1 / 3 * k2 e + 1 / 3 * k3 e + 1 / 6 * k4 e)) ∈ C := by
  have b0 : (0 : ℝ) ≤ 2 * lam := by linarith
  have b1 : 2 * lam * 3 ≤ 2 := by linarith
  exact rk4_stages_convex hC (jump up fun e => lam * c1 e) (jump up fun e => lam * c2 e) (jump up fun e => lam * c3 e) (jump up fun e => lam * c4 e)
    (fun v hv => hK.single h1 b0 b1 hv) (fun v hv => hK.single h2 b0 b1 hv) (fun v hv => hK.single h3 b0 b1 hv) (fun v hv => hK.single h4 b0 b1 hv)
    (fun v hv => hK.pair h2 h1 b0 b1 hv) (fun v hv => hK.pair h3 h2 b0 b1 hv) (fun v hv => hK.pair h3 h4 b0 b1 hv) hm
    (funext e1) (funext e2) (funext e3) (funext e4)

/-- The third order step with limited slopes, at most two fifteenths of a cell per step. -/
lemma rk3_kept (hC : Convex ℝ C) (hK : KeptByAverages up C) (h1 : HalfWays c1) (h2 : HalfWays c2) (h3 : HalfWays c3)
    (l0 : 0 ≤ lam) (l1 : lam ≤ 2 / 15) {m k1 k2 k3 : ℕ → ℝ} (hm : m ∈ C)
    (e1 : ∀ e, k1 e = -(lam * c1 e * (m e - m (up e))))
    (e2 : ∀ e, k2 e = -(lam * c2 e * ((m e + 1 / 2 * k1 e) - (m (up e) + 1 / 2 * k1 (up e)))))
    (e3 : ∀ e, k3 e = -(lam * c3 e * ((m e + (-1 * k1 e + 2 * k2 e)) - (m (up e) + (-1 * k1 (up e) + 2 * k2 (up e)))))) :
    (fun e => m e + (1 / 6 * k1 e + 2 / 3 * k2 e + 1 / 6 * k3 e)) ∈ C := by
  have b0 : (0 : ℝ) ≤ 5 * lam := by linarith
  have b1 : 5 * lam * 3 ≤ 2 := by linarith
  exact rk3_stages_convex hC (jump up fun e => lam * c1 e) (jump up fun e => lam * c2 e) (jump up fun e => lam * c3 e)
    (fun v hv => hK.single h1 b0 b1 hv) (fun v hv => hK.single h2 b0 b1 hv) (fun v hv => hK.single h3 b0 b1 hv)
    (fun v hv => hK.pair h2 h1 b0 b1 hv) (fun v hv => hK.pair h2 h3 b0 b1 hv) hm (funext e1) (funext e2) (funext e3)

end Jumps

section Faces
open Props

/-- Half of minmod is between zero and either argument. -/
lemma minmod_half (a b : ℝ) : (∃ x, 0 ≤ x ∧ x ≤ 1 ∧ minmod a b = x * a) ∧ ∃ x, 0 ≤ x ∧ x ≤ 1 ∧ minmod a b = x * b := by
  have key : ∀ a b : ℝ, ∃ x, 0 ≤ x ∧ x ≤ 1 ∧ minmod a b = x * a := by
    intro a b
    unfold minmod
    split_ifs with h1 h2
    · refine ⟨min a b / a, div_nonneg (le_min h1.1.le h1.2.le) h1.1.le, (div_le_one h1.1).mpr (min_le_left _ _), (div_mul_cancel₀ _ h1.1.ne').symm⟩
    · refine ⟨max a b / a, div_nonneg_of_nonpos (max_le h2.1.le h2.2.le) h2.1.le, (div_le_one_of_neg h2.1).mpr (le_max_left _ _), (div_mul_cancel₀ _ h2.1.ne).symm⟩
    · exact ⟨0, le_rfl, zero_le_one, (zero_mul a).symm⟩
  refine ⟨key a b, ?_⟩
  obtain ⟨x, h⟩ := key b a
  exact ⟨x, by rwa [minmod_comm]⟩

/-- The value of a linear element at its right face, without the ghost cells. -/
def rightFace (s a : Sol ℝ) (e : ℕ) : ℝ := a.u.val 0 (e * s.NF + 0) + a.u.val 1 (e * s.NF + 0)

/-- Average of cell `e`. -/
def avg (s a : Sol ℝ) (e : ℕ) : ℝ := a.u.val 0 (e * s.NF + 0)

/-- The values at the outflow faces jump like the averages, up to factors between 1/2 and 3/2. -/
def LimitedFaces (s a : Sol ℝ) : Prop := ∃ c, HalfWays c ∧ ∀ e, 1 ≤ e → e ≤ s.NE →
  rightFace s a e - rightFace s a (upCell s e) = c e * (avg s a e - avg s a (upCell s e))

/-- What the steps of a run keep about the solutions they work on. -/
structure Fit (s : Sol ℝ) (th : List ℝ) (a : Sol ℝ) : Prop where
  like : Like a s
  th : a.thresholds = some th

variable {s s₀ a : Sol ℝ} {lib : GaussLib ℝ} {lm : HrLimiter ℝ} {th : List ℝ} {t0 : ℝ}

lemma Fit.adv (hb : s.Built lib 1) (hk : s.kw = Advection.physics) (hNF : s.NF = 1) (h : Fit s th a) : AdvectionSol a := by
  have hB := h.like.built hb
  refine ⟨h.like.setup.kw.trans hk, h.like.setup.NF.trans hNF, by rw [hB.rows]; omega, ?_⟩
  rw [hB.cols, h.like.setup.NF, hNF, mul_one]

/-- A negative threshold flags every cell: the limiter succeeds, keeps the averages, and leaves limited slopes behind. -/
lemma Fit.limit (hb : s.Built lib 1) (hk : s.kw = Advection.physics) (hNF : s.NF = 1) (hl : ¬ s.bcl.isLit "periodic")
    (hs₀ : s₀.Built lib 1) (hi : Limiter.init "adaptive_hr" s₀ = .ok (some lm)) (hth : th.head? = some t0) (h0 : t0 < 0) (h : Fit s th a) :
    ∃ a', Limiter.limit (some lm) a = .ok a' ∧ Fit s th a' ∧ a'.t = a.t ∧ a'.n = a.n ∧ (∀ e, 1 ≤ e → e ≤ s.NE → avg s a' e = avg s a e) ∧ LimitedFaces s a' := by
  have hB := h.like.built hb
  have hadv := h.adv hb hk hNF
  obtain ⟨rest, rfl⟩ : ∃ rest, th = t0 :: rest := by
    cases th with
    | nil => cases hth
    | cons x rest => cases hth; exact ⟨rest, rfl⟩
  obtain ⟨sn, hsn, hsnth⟩ : ∃ sn, a.sensors = some sn ∧ sn.thresholds = t0 :: rest := by
    have := h.th
    unfold Sol.thresholds at this
    rw [Option.map_eq_some_iff] at this
    exact this
  obtain ⟨sn', g1, g2, -, g4⟩ := C48_flags hadv sn t0 rest hsnth
  obtain ⟨a', ha'⟩ := C60_works_partial hs₀ hi hB hsn g1 (.inl le_rfl)
  obtain ⟨sm, sm', l1, l2, l3, l4, l5, l6, l7, l8, -, l10, -⟩ := C57_limit hs₀ hi hB ha'
  rw [hsn] at l1
  cases l1
  rw [g1] at l2
  cases l2
  have hNFa := h.like.setup.NF
  have hNEa := h.like.setup.NE
  have flag : ∀ e, 1 ≤ e → e ≤ s.NE → sn'.sensors.val e ≠ 0 := by
    intro e h1 h2
    rw [(g4 e).1 ⟨e, by rw [hNEa]; exact h2, ?_, .inl rfl⟩]
    · exact one_ne_zero
    · refine lt_of_lt_of_le h0 ?_
      unfold psi
      have : 0 ≤ jumpAt a e := abs_nonneg _
      positivity
  have cell : ∀ e, 1 ≤ e → e ≤ s.NE → avg s a' e = avg s a e ∧ ∃ x y, rightFace s a' e = avg s a e + minmod x y ∧
      x = (avg s a e - avg s a (e - 1)) / 2 ∧ y = (avg s a (e + 1) - avg s a e) / 2 := by
    intro e h1 h2
    obtain ⟨v, hv, hval⟩ := l10 e 0 h1 (by rw [hNEa]; exact h2) hadv.NF.symm.le (flag e h1 h2)
    obtain ⟨w, hw, -, hHR⟩ := hr_spec (ok_of_init hs₀ hi) le_rfl (a.u.col (e * a.NF + 0)) (a.u.col ((e - 1) * a.NF + 0)) (a.u.col ((e + 1) * a.NF + 0))
    rw [hv] at hw
    cases hw
    have hp := congrArg (Polynomial.eval 1) (isHR_one hHR)
    rw [legSeries_mean, legSeries_mean, legSeries_mean, legSeries_eval] at hp
    simp only [Finset.sum_range_succ, Finset.sum_range_zero, zero_add, legendre_eval_one, mul_one, eval_add, eval_C, eval_mul, eval_X,
      mul_div_cancel_left₀ _ (two_ne_zero' ℝ)] at hp
    have hm := hr_mean (ok_of_init hs₀ hi) le_rfl hv
    unfold avg rightFace
    rw [← hNFa, hval, hval]
    exact ⟨hm, _, _, hp, rfl, rfl⟩
  refine ⟨a', ha', ⟨⟨l6.trans h.like.setup, l7.trans h.like.rows, l8.trans h.like.cols⟩, ?_⟩, l4, l5, fun e h1 h2 => (cell e h1 h2).1, ?_⟩
  · unfold Sol.thresholds
    rw [l3, Option.map_some, g2, hsnth]
  · have : ∀ e, ∃ c, (1 / 2 ≤ c ∧ c ≤ 3 / 2) ∧ (1 ≤ e → e ≤ s.NE →
        rightFace s a' e - rightFace s a' (upCell s e) = c * (avg s a' e - avg s a' (upCell s e))) := by
      intro e
      by_cases he : 1 ≤ e ∧ e ≤ s.NE
      swap
      · exact ⟨1, by norm_num, fun h1 h2 => absurd ⟨h1, h2⟩ he⟩
      obtain ⟨h1, h2⟩ := he
      by_cases h3 : e = 1
      · refine ⟨1, by norm_num, fun _ _ => ?_⟩
        subst h3
        unfold upCell
        rw [if_pos rfl, if_neg hl, sub_self, sub_self, mul_zero]
      · have hup : upCell s e = e - 1 := by unfold upCell; rw [if_neg h3]
        obtain ⟨m1, x, y, f1, hx, hy⟩ := cell e h1 h2
        obtain ⟨m2, x', y', f2, hx', hy'⟩ := cell (e - 1) (by omega) (by omega)
        rw [Nat.sub_add_cancel h1] at hy'
        obtain ⟨⟨p, p0, p1, hp⟩, -⟩ := minmod_half x y
        obtain ⟨-, q, q0, q1, hq⟩ := minmod_half x' y'
        refine ⟨1 + p / 2 - q / 2, ⟨by linarith, by linarith⟩, fun _ _ => ?_⟩
        rw [hup, f1, f2, m1, m2, hp, hq, hx, hy']
        ring
    choose c hc hf using this
    exact ⟨c, hc, hf⟩

/-- The averages change by the jump of the outflow values. -/
lemma Fit.residual (hb : s.Built lib 1) (hk : s.kw = Advection.physics) (hen : s.enhance = none) (hl : s.bcl.isLit "zerograd") (h : Fit s th a) (hf : LimitedFaces s a) :
    ∃ F, Dg1d.residual a = .ok (a.applyBc, F) ∧ Fit s th a.applyBc ∧ ∃ c, HalfWays c ∧
      ∀ e, 1 ≤ e → e ≤ s.NE → s.dx * F.val 0 (e * s.NF + 0) = -(c e * (avg s a e - avg s a (upCell s e))) := by
  have hB := h.like.built hb
  obtain ⟨F, hF, hval⟩ := C13_advection hB (h.like.setup.kw.trans hk) (h.like.setup.enhance.trans hen)
  refine ⟨F, hF, ⟨h.like.applyBc, (thresholds_applyBc a).trans h.th⟩, ?_⟩
  obtain ⟨c, hc, hface⟩ := hf
  refine ⟨c, hc, fun e h1 h2 => ?_⟩
  have hlb := h.like.bcCol
  have h3 := hval 0 (by omega) e h1 (by rw [h.like.setup.NE]; exact h2) 0 hB.NF
  have hrows : a.applyBc.u.rows = 2 := by rw [(applyBc_shape _).1, hB.rows]
  have hev : ∀ e', (cellPoly a.applyBc e' 0).eval 1 = a.u.val 0 (s.bcCol (e' * s.NF + 0)) + a.u.val 1 (s.bcCol (e' * s.NF + 0)) := by
    intro e'
    unfold cellPoly
    rw [hrows, legSeries_eval, Finset.sum_range_succ, Finset.sum_range_one, legendre_eval_one, legendre_eval_one, mul_one, mul_one, (applyBc_setup a).NF, h.like.setup.NF,
      applyBc_val hB.NF hB.NE hB.cols, applyBc_val hB.NF hB.NE hB.cols, hlb]
  rw [h.like.setup.NF, h.like.setup.dx, hev, hev, legendre_eval_one, legendre_eval_neg_one,
    bcCol_interior s h1 h2 hb.NF, bcCol_up (.inr hl) h1 h2 hb.NF] at h3
  rw [show legendre ℝ 0 = 1 from rfl, derivative_one, zero_mul, show intPoly (0 : ℝ[X]) = 0 by rw [← zero_mul (1 : ℝ[X]), ← C_0, intPoly_C_mul, zero_mul]] at h3
  have h4 := hface e h1 h2
  unfold rightFace at h4
  norm_num at h3
  simp only [add_zero] at h4 ⊢
  linarith

end Faces

section Step
open Props

/-- The discretisation, the limiter and the thresholds of a run with slopes limited in every cell: linear elements for advection, zero gradient at the
left boundary, a negative first threshold. -/
structure LimitedSetup (lib : GaussLib ℝ) (s : Sol ℝ) (lm : HrLimiter ℝ) (th : List ℝ) : Prop where
  built : s.Built lib 1
  kw : s.kw = Advection.physics
  NF : s.NF = 1
  enhance : s.enhance = none
  dx : 0 < s.dx
  left : s.bcl.isLit "zerograd"
  limiter : ∃ s₀ : Sol ℝ, s₀.Built lib 1 ∧ Limiter.init "adaptive_hr" s₀ = .ok (some lm)
  negative : ∃ t0, th.head? = some t0 ∧ t0 < 0

variable {s a : Sol ℝ} {lib : GaussLib ℝ} {lm : HrLimiter ℝ} {th : List ℝ}

lemma LimitedSetup.limit (H : LimitedSetup lib s lm th) (h : Fit s th a) :
    ∃ a', Limiter.limit (some lm) a = .ok a' ∧ Fit s th a' ∧ a'.t = a.t ∧ a'.n = a.n ∧ (∀ e, 1 ≤ e → e ≤ s.NE → avg s a' e = avg s a e) ∧ LimitedFaces s a' := by
  obtain ⟨s₀, h1, h2⟩ := H.limiter
  obtain ⟨t0, h3, h4⟩ := H.negative
  refine h.limit H.built H.kw H.NF ?_ h1 h2 h3 h4
  rintro ⟨-, h⟩
  rw [H.left.2] at h
  exact absurd h (by decide)

/-- What one stage does to the averages. -/
lemma LimitedSetup.stage (H : LimitedSetup lib s lm th) {tab : Tableau ℝ} {us : Sol ℝ} (hr : us.u.rows = s.u.rows) (hc : us.u.cols = s.u.cols) (dt : ℝ) {k : ℕ} {c : ℝ} (alpha : ℝ)
    (hb : ∀ j < k, NotTiny (tab.beta k j)) (hcn : NotTiny c) {st : StageState ℝ} (hw : Fit s th st.work) (hso : Fit s th st.sol) (hface : k = 0 → LimitedFaces s us) :
    ∃ st' κ, classicStage ⟨residual, Limiter.limit (some lm)⟩ tab us dt k c alpha st = .ok st' ∧ Fit s th st'.work ∧ Fit s th st'.sol ∧ st'.sol.t = st.sol.t ∧ st'.sol.n = st.sol.n ∧
      (∀ j, j ≠ k → st'.incr j = st.incr j) ∧
      (∀ e, avg s st'.sol e = avg s st.sol e + c * (st'.incr k).val 0 (e * s.NF + 0)) ∧ HalfWays κ ∧
      ∀ e, 1 ≤ e → e ≤ s.NE → (st'.incr k).val 0 (e * s.NF + 0) =
        -(dt / s.dx * κ e * ((avg s us e + ∑ j ∈ Finset.range k, tab.beta k j * (st.incr j).val 0 (e * s.NF + 0)) -
          (avg s us (upCell s e) + ∑ j ∈ Finset.range k, tab.beta k j * (st.incr j).val 0 (upCell s e * s.NF + 0)))) := by
  unfold classicStage
  simp only
  rw [accumulate_spec _ _ _ _ hb]
  set uk : Sol ℝ := { (st.work.copyDataOnly us) with u := { (st.work.copyDataOnly us).u with val := fun r c => (st.work.copyDataOnly us).u.val r c + ∑ j ∈ Finset.range k, tab.beta k j * (st.incr j).val r c }, t := (st.work.copyDataOnly us).t + alpha * dt } with huk
  have hfit : Fit s th uk := by
    refine ⟨⟨SameSetup.trans (b := st.work) (by constructor <;> rfl) hw.like.setup, hr, hc⟩, hw.th⟩
  have havg : ∀ e, avg s uk e = avg s us e + ∑ j ∈ Finset.range k, tab.beta k j * (st.incr j).val 0 (e * s.NF + 0) := fun e => rfl
  obtain ⟨v, hv, hvfit, hvavg, hvface⟩ : ∃ v, (if k > 0 then Limiter.limit (some lm) uk else .ok uk) = .ok v ∧ Fit s th v ∧
      (∀ e, 1 ≤ e → e ≤ s.NE → avg s v e = avg s uk e) ∧ LimitedFaces s v := by
    by_cases hk0 : k = 0
    · refine ⟨uk, by rw [if_neg (by omega)], hfit, fun _ _ _ => rfl, ?_⟩
      obtain ⟨κ, h1, h2⟩ := hface hk0
      refine ⟨κ, h1, fun e he1 he2 => ?_⟩
      have := h2 e he1 he2
      have hz : ∀ r c, uk.u.val r c = us.u.val r c := by
        intro r c
        show us.u.val r c + _ = _
        rw [hk0, Finset.sum_range_zero, add_zero]
      unfold rightFace avg at this ⊢
      simp only [hz]
      exact this
    · obtain ⟨v, h1, h2, -, -, h5, h6⟩ := H.limit hfit
      exact ⟨v, by rw [if_pos (by omega), h1], h2, h5, h6⟩
  simp only [hv]
  obtain ⟨F, hF, hFfit, κ, hκ, hval⟩ := hvfit.residual H.built H.kw H.enhance H.left hvface
  simp only [hF]
  refine ⟨_, κ, rfl, hFfit, ?_, (smartAxpy_clock _ _ _).1, (smartAxpy_clock _ _ _).2, ?_, ?_, hκ, ?_⟩
  · simp only [smartAxpy_fine _ hcn]
    exact ⟨hso.like.axpy _ _, hso.th⟩
  · intro j hj
    simp only [Function.update_of_ne hj]
  · intro e
    simp only [smartAxpy_fine _ hcn, Function.update_self]
    rfl
  · intro e h1 h2
    obtain ⟨u1, u2⟩ := upCell_mem H.built.NE h1 h2
    have := hval e h1 h2
    rw [hvavg e h1 h2, hvavg _ u1 u2, havg, havg] at this
    simp only [Function.update_self]
    show dt * F.val 0 (e * s.NF + 0) = _
    have hd := H.dx.ne'
    have h3 : F.val 0 (e * s.NF + 0) = s.dx * F.val 0 (e * s.NF + 0) / s.dx := by field_simp
    rw [h3, this]
    field_simp

variable {C : Set (ℕ → ℝ)}

/-- The tables of this section. -/
lemma rk4_beta : (rk4K ℝ).beta 1 0 = 1 / 2 ∧ (rk4K ℝ).beta 2 0 = 0 ∧ (rk4K ℝ).beta 2 1 = 1 / 2 ∧ (rk4K ℝ).beta 3 0 = 0 ∧ (rk4K ℝ).beta 3 1 = 0 ∧ (rk4K ℝ).beta 3 2 = 1 := by
  have h : rk4.beta 1 0 = 1 / 2 ∧ rk4.beta 2 0 = 0 ∧ rk4.beta 2 1 = 1 / 2 ∧ rk4.beta 3 0 = 0 ∧ rk4.beta 3 1 = 0 ∧ rk4.beta 3 2 = 1 := by decide +kernel
  obtain ⟨h1, h2, h3, h4, h5, h6⟩ := h
  simp only [rk4K, Tableau.map, h1, h2, h3, h4, h5, h6]
  norm_num

/-- rk3's table over the reals. -/
noncomputable abbrev rk3R : Tableau ℝ := rk3.map (fun q : ℚ => (q : ℝ))

lemma rk3_beta : rk3R.beta 1 0 = 1 / 2 ∧ rk3R.beta 2 0 = -1 ∧ rk3R.beta 2 1 = 2 ∧ rk3R.coeffs.zip rk3R.alphas = [(1 / 6, 0), (2 / 3, 1 / 2), (1 / 6, 1)] := by
  have h : rk3.beta 1 0 = 1 / 2 ∧ rk3.beta 2 0 = -1 ∧ rk3.beta 2 1 = 2 := by decide +kernel
  obtain ⟨h1, h2, h3⟩ := h
  have hc : rk3.coeffs = [1 / 6, 2 / 3, 1 / 6] := by decide +kernel
  have ha : rk3.alphas = [0, 1 / 2, 1] := by decide +kernel
  simp only [rk3R, Tableau.map, h1, h2, h3, hc, ha]
  norm_num

/-- The inner loop of 'rk4'. -/
lemma LimitedSetup.inner4 (H : LimitedSetup lib s lm th) (hC : Convex ℝ C) (hK : KeptByAverages (upCell s) C)
    (hcongr : ∀ v w : ℕ → ℝ, (∀ e, 1 ≤ e → e ≤ s.NE → v e = w e) → v ∈ C → w ∈ C) {us : Sol ℝ} {st : StageState ℝ} (hus : us.u = st.sol.u) {dt : ℝ} (d0 : 0 ≤ dt) (d1 : dt ≤ s.dx / 3)
    (hw : Fit s th st.work) (hso : Fit s th st.sol) (hface : LimitedFaces s st.sol) (hm : avg s st.sol ∈ C) :
    ∃ ss, classicInner ⟨residual, Limiter.limit (some lm)⟩ (rk4K ℝ) us dt st = .ok ss ∧ Fit s th ss.work ∧ Fit s th ss.sol ∧ ss.sol.t = st.sol.t ∧ ss.sol.n = st.sol.n ∧ avg s ss.sol ∈ C := by
  have hr : us.u.rows = s.u.rows := by rw [hus]; exact hso.like.rows
  have hc : us.u.cols = s.u.cols := by rw [hus]; exact hso.like.cols
  have hfu : LimitedFaces s us := by
    unfold LimitedFaces rightFace avg
    rw [hus]
    exact hface
  have hau : avg s us = avg s st.sol := by
    funext e
    unfold avg
    rw [hus]
  have hfine := (tables_fine (K := ℝ)).2.1
  obtain ⟨b10, b20, b21, b30, b31, b32⟩ := rk4_beta
  have hlen : (rk4K ℝ).coeffs.length = 4 := by
    have : rk4.coeffs.length = 4 := by decide +kernel
    simp only [rk4K, Tableau.map, List.length_map, this]
  have hβ : ∀ k < 4, ∀ j < k, NotTiny ((rk4K ℝ).beta k j) := fun k hk j hj => hfine.beta k (by rw [hlen]; exact hk) j hj
  have n6 : NotTiny (1 / 6 : ℝ) := .inr (by rw [abs_of_pos (by norm_num)]; norm_num)
  have n3 : NotTiny (1 / 3 : ℝ) := .inr (by rw [abs_of_pos (by norm_num)]; norm_num)
  unfold classicInner
  rw [rk4K_zip]
  obtain ⟨s1, c1, p1, w1, o1, t1, m1, i1, a1, q1, v1⟩ := H.stage (tab := rk4K ℝ) hr hc dt (k := 0) 0 (hβ 0 (by norm_num)) n6 hw hso (fun _ => hfu)
  obtain ⟨s2, c2, p2, w2, o2, t2, m2, i2, a2, q2, v2⟩ := H.stage (tab := rk4K ℝ) hr hc dt (k := 1) (1 / 2) (hβ 1 (by norm_num)) n3 w1 o1 (fun h => absurd h (by norm_num))
  obtain ⟨s3, c3, p3, w3, o3, t3, m3, i3, a3, q3, v3⟩ := H.stage (tab := rk4K ℝ) hr hc dt (k := 2) (1 / 2) (hβ 2 (by norm_num)) n3 w2 o2 (fun h => absurd h (by norm_num))
  obtain ⟨s4, c4, p4, w4, o4, t4, m4, i4, a4, q4, v4⟩ := H.stage (tab := rk4K ℝ) hr hc dt (k := 3) 1 (hβ 3 (by norm_num)) n6 w3 o3 (fun h => absurd h (by norm_num))
  refine ⟨s4, ?_, w4, o4, by rw [t4, t3, t2, t1], by rw [m4, m3, m2, m1], ?_⟩
  · simp only [classicStages, p1, p2, p3, p4, zero_add, Nat.reduceAdd]
  rw [hau] at v1 v2 v3 v4
  simp only [Finset.sum_range_succ, Finset.sum_range_zero, add_zero, zero_add, b10, b20, b21, b30, b31, b32, zero_mul, one_mul] at v1 v2 v3 v4
  set m := avg s st.sol with hmd
  set up := upCell s with hup
  set l := dt / s.dx with hl
  set k1 : ℕ → ℝ := fun e => -(l * c1 e * (m e - m (up e))) with hk1
  set k2 : ℕ → ℝ := fun e => -(l * c2 e * ((m e + 1 / 2 * k1 e) - (m (up e) + 1 / 2 * k1 (up e)))) with hk2
  set k3 : ℕ → ℝ := fun e => -(l * c3 e * ((m e + 1 / 2 * k2 e) - (m (up e) + 1 / 2 * k2 (up e)))) with hk3
  set k4 : ℕ → ℝ := fun e => -(l * c4 e * ((m e + k3 e) - (m (up e) + k3 (up e)))) with hk4
  have hd := H.dx
  have key := rk4_kept (lam := l) hC hK q1 q2 q3 q4 (by positivity) (by rw [hl, div_le_iff₀ hd]; linarith) hm (fun e => rfl : ∀ e, k1 e = _) (fun e => rfl : ∀ e, k2 e = _) (fun e => rfl : ∀ e, k3 e = _) (fun e => rfl : ∀ e, k4 e = _)
  refine hcongr _ _ (fun e h1 h2 => ?_) key
  have r1 : ∀ e, 1 ≤ e → e ≤ s.NE → (s1.incr 0).val 0 (e * s.NF) = k1 e := fun e h1 h2 => v1 e h1 h2
  have r2 : ∀ e, 1 ≤ e → e ≤ s.NE → (s2.incr 1).val 0 (e * s.NF) = k2 e := by
    intro e h1 h2
    obtain ⟨u1, u2⟩ := upCell_mem H.built.NE h1 h2
    rw [v2 e h1 h2, r1 e h1 h2, r1 _ u1 u2]
  have r3 : ∀ e, 1 ≤ e → e ≤ s.NE → (s3.incr 2).val 0 (e * s.NF) = k3 e := by
    intro e h1 h2
    obtain ⟨u1, u2⟩ := upCell_mem H.built.NE h1 h2
    rw [v3 e h1 h2, r2 e h1 h2, r2 _ u1 u2]
  have r4 : ∀ e, 1 ≤ e → e ≤ s.NE → (s4.incr 3).val 0 (e * s.NF) = k4 e := by
    intro e h1 h2
    obtain ⟨u1, u2⟩ := upCell_mem H.built.NE h1 h2
    rw [v4 e h1 h2, r3 e h1 h2, r3 _ u1 u2]
  have e1 := a1 e
  have e2 := a2 e
  have e3 := a3 e
  have e4 := a4 e
  simp only [add_zero] at e1 e2 e3 e4
  rw [e4, e3, e2, e1, r1 e h1 h2, r2 e h1 h2, r3 e h1 h2, r4 e h1 h2]
  ring

/-- The inner loop of 'rk3'. -/
lemma LimitedSetup.inner3 (H : LimitedSetup lib s lm th) (hC : Convex ℝ C) (hK : KeptByAverages (upCell s) C)
    (hcongr : ∀ v w : ℕ → ℝ, (∀ e, 1 ≤ e → e ≤ s.NE → v e = w e) → v ∈ C → w ∈ C) {us : Sol ℝ} {st : StageState ℝ} (hus : us.u = st.sol.u) {dt : ℝ} (d0 : 0 ≤ dt) (d1 : dt ≤ 2 * s.dx / 15)
    (hw : Fit s th st.work) (hso : Fit s th st.sol) (hface : LimitedFaces s st.sol) (hm : avg s st.sol ∈ C) :
    ∃ ss, classicInner ⟨residual, Limiter.limit (some lm)⟩ rk3R us dt st = .ok ss ∧ Fit s th ss.work ∧ Fit s th ss.sol ∧ ss.sol.t = st.sol.t ∧ ss.sol.n = st.sol.n ∧ avg s ss.sol ∈ C := by
  have hr : us.u.rows = s.u.rows := by rw [hus]; exact hso.like.rows
  have hc : us.u.cols = s.u.cols := by rw [hus]; exact hso.like.cols
  have hfu : LimitedFaces s us := by
    unfold LimitedFaces rightFace avg
    rw [hus]
    exact hface
  have hau : avg s us = avg s st.sol := by
    funext e
    unfold avg
    rw [hus]
  have hfine := (tables_fine (K := ℝ)).1
  obtain ⟨b10, b20, b21, hzip⟩ := rk3_beta
  have hlen : rk3R.coeffs.length = 3 := by
    have : rk3.coeffs.length = 3 := by decide +kernel
    simp only [rk3R, Tableau.map, List.length_map, this]
  have hβ : ∀ k < 3, ∀ j < k, NotTiny (rk3R.beta k j) := fun k hk j hj => hfine.beta k (by rw [hlen]; exact hk) j hj
  have n6 : NotTiny (1 / 6 : ℝ) := .inr (by rw [abs_of_pos (by norm_num)]; norm_num)
  have n3 : NotTiny (2 / 3 : ℝ) := .inr (by rw [abs_of_pos (by norm_num)]; norm_num)
  unfold classicInner
  rw [hzip]
  obtain ⟨s1, c1, p1, w1, o1, t1, m1, i1, a1, q1, v1⟩ := H.stage (tab := rk3R) hr hc dt (k := 0) 0 (hβ 0 (by norm_num)) n6 hw hso (fun _ => hfu)
  obtain ⟨s2, c2, p2, w2, o2, t2, m2, i2, a2, q2, v2⟩ := H.stage (tab := rk3R) hr hc dt (k := 1) (1 / 2) (hβ 1 (by norm_num)) n3 w1 o1 (fun h => absurd h (by norm_num))
  obtain ⟨s3, c3, p3, w3, o3, t3, m3, i3, a3, q3, v3⟩ := H.stage (tab := rk3R) hr hc dt (k := 2) 1 (hβ 2 (by norm_num)) n6 w2 o2 (fun h => absurd h (by norm_num))
  refine ⟨s3, ?_, w3, o3, by rw [t3, t2, t1], by rw [m3, m2, m1], ?_⟩
  · simp only [classicStages, p1, p2, p3, zero_add, Nat.reduceAdd]
  rw [hau] at v1 v2 v3
  simp only [Finset.sum_range_succ, Finset.sum_range_zero, add_zero, zero_add, b10, b20, b21, i2 0 (by norm_num)] at v1 v2 v3
  set m := avg s st.sol with hmd
  set up := upCell s with hup
  set l := dt / s.dx with hl
  set k1 : ℕ → ℝ := fun e => -(l * c1 e * (m e - m (up e))) with hk1
  set k2 : ℕ → ℝ := fun e => -(l * c2 e * ((m e + 1 / 2 * k1 e) - (m (up e) + 1 / 2 * k1 (up e)))) with hk2
  set k3 : ℕ → ℝ := fun e => -(l * c3 e * ((m e + (-1 * k1 e + 2 * k2 e)) - (m (up e) + (-1 * k1 (up e) + 2 * k2 (up e))))) with hk3
  have hd := H.dx
  have key := rk3_kept (lam := l) hC hK q1 q2 q3 (by positivity) (by rw [hl, div_le_iff₀ hd]; linarith) hm (fun e => rfl : ∀ e, k1 e = _) (fun e => rfl : ∀ e, k2 e = _) (fun e => rfl : ∀ e, k3 e = _)
  refine hcongr _ _ (fun e h1 h2 => ?_) key
  have r1 : ∀ e, 1 ≤ e → e ≤ s.NE → (s1.incr 0).val 0 (e * s.NF) = k1 e := fun e h1 h2 => v1 e h1 h2
  have r2 : ∀ e, 1 ≤ e → e ≤ s.NE → (s2.incr 1).val 0 (e * s.NF) = k2 e := by
    intro e h1 h2
    obtain ⟨u1, u2⟩ := upCell_mem H.built.NE h1 h2
    rw [v2 e h1 h2, r1 e h1 h2, r1 _ u1 u2]
  have r3 : ∀ e, 1 ≤ e → e ≤ s.NE → (s3.incr 2).val 0 (e * s.NF) = k3 e := by
    intro e h1 h2
    obtain ⟨u1, u2⟩ := upCell_mem H.built.NE h1 h2
    rw [v3 e h1 h2, r1 e h1 h2, r1 _ u1 u2, r2 e h1 h2, r2 _ u1 u2]
  have e1 := a1 e
  have e2 := a2 e
  have e3 := a3 e
  simp only [add_zero] at e1 e2 e3
  rw [e3, e2, e1, r1 e h1 h2, r2 e h1 h2, r3 e h1 h2]
  ring

end Step

end Dg1d
