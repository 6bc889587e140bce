import Verif.Props.Rk4Energy
import Verif.Props.ExamplesReal

/-!
# C115 — a single step with the fourth order schemes can increase the energy
-/

set_option linter.unusedSectionVars false

open Polynomial Dg1d.Spec

namespace Dg1d.Props

variable {s : Sol ℝ} {lib : GaussLib ℝ}

/-- The integral of `P_j P_n'` below the diagonal. -/
lemma derivPair_below {j n : ℕ} (h : j ≤ n) : derivPair ℝ j n = 1 - (-1) ^ j * (-1) ^ n := by
  have h1 := intPoly_parts (legendre ℝ n) (legendre ℝ j)
  rw [legendre_eval_one, legendre_eval_one, legendre_eval_neg_one, legendre_eval_neg_one] at h1
  have h2 : intPoly (legendre ℝ n * derivative (legendre ℝ j)) = 0 := derivPair_low h
  unfold derivPair
  rw [mul_comm (legendre ℝ j)]
  linarith

/-- Order 3, the same four coefficients in every cell. -/
def cells4 (a b c d : ℝ) : ℕ → ℕ → ℝ := fun n _ => if n = 0 then a else if n = 1 then b else if n = 2 then c else d

/-- The advection operator on data that are the same in every cell. -/
lemma advLin_cells (hb : s.Built lib 3) (hk : s.kw = Advection.physics) (hen : s.enhance = none) (hl : s.bcl = .lit "periodic") (hr : s.bcr = .lit "periodic")
    {f : ℕ} (hf : f < s.NF) (a b c d : ℝ) :
    Agree s 3 f (s.dx • advLin s hb.wf (cells4 a b c d)) (cells4 0 (-6 * (b + c + d)) (10 * b) (-14 * (b + d))) := by
  intro n hn e he1 he2
  obtain ⟨-, hw⟩ := advLin_weak hb hk hen hl hr hf (cells4 a b c d)
  have h := hw n hn e he1 he2
  simp only [cells4, legSeries] at h
  rw [Finset.mul_sum, intPoly_sum, legendre_eval_one, legendre_eval_neg_one] at h
  have hi : ∀ (x : ℝ) (j : ℕ), intPoly (derivative (legendre ℝ n) * (C x * legendre ℝ j)) = x * derivPair ℝ j n := by
    intro x j
    rw [show derivative (legendre ℝ n) * (C x * legendre ℝ j) = C x * (legendre ℝ j * derivative (legendre ℝ n)) by ring, intPoly_C_mul]
    rfl
  simp only [hi, eval_finsetSum, eval_mul, eval_C, legendre_eval_one, mul_one] at h
  simp only [Finset.sum_range_succ, Finset.sum_range_zero, zero_add] at h
  show s.dx * advLin s hb.wf (cells4 a b c d) n (e * s.NF + f) = cells4 0 (-6 * (b + c + d)) (10 * b) (-14 * (b + d)) n _
  change s.dx / 2 * (2 / (2 * (n : ℝ) + 1)) * advLin s hb.wf (cells4 a b c d) n (e * s.NF + f) = _ at h
  generalize advLin s hb.wf (cells4 a b c d) n (e * s.NF + f) = y at h ⊢
  have hz : n = 0 ∨ n = 1 ∨ n = 2 ∨ n = 3 := by omega
  rcases hz with rfl | rfl | rfl | rfl
  · rw [derivPair_low (le_refl 0), derivPair_low (show 0 ≤ 1 by omega), derivPair_low (show 0 ≤ 2 by omega), derivPair_low (show 0 ≤ 3 by omega)] at h
    norm_num [cells4] at h ⊢
    tauto
  · rw [derivPair_below (show 0 ≤ 1 by omega), derivPair_low (le_refl 1), derivPair_low (show 1 ≤ 2 by omega), derivPair_low (show 1 ≤ 3 by omega)] at h
    norm_num [cells4] at h ⊢
    linarith
  · rw [derivPair_below (show 0 ≤ 2 by omega), derivPair_below (show 1 ≤ 2 by omega), derivPair_low (le_refl 2), derivPair_low (show 2 ≤ 3 by omega)] at h
    norm_num [cells4] at h ⊢
    linarith
  · rw [derivPair_below (show 0 ≤ 3 by omega), derivPair_below (show 1 ≤ 3 by omega), derivPair_below (show 2 ≤ 3 by omega), derivPair_low (le_refl 3)] at h
    norm_num [cells4] at h ⊢
    linarith

/-- The advection operator times `t dx` on data that are the same in every cell. -/
lemma advLin_cells_smul (hb : s.Built lib 3) (hk : s.kw = Advection.physics) (hen : s.enhance = none) (hl : s.bcl = .lit "periodic") (hr : s.bcr = .lit "periodic")
    {f : ℕ} (hf : f < s.NF) {t : ℝ} (a b c d : ℝ) :
    ∃ a₁ b₁ c₁ d₁ : ℝ, (a₁ = 0 ∧ b₁ = t * (-6 * (b + c + d)) ∧ c₁ = t * (10 * b) ∧ d₁ = t * (-14 * (b + d))) ∧
      Agree s 3 f (((t * s.dx) • advLin s hb.wf) (cells4 a b c d)) (cells4 a₁ b₁ c₁ d₁) := by
  refine ⟨_, _, _, _, ⟨rfl, rfl, rfl, rfl⟩, fun n hn e h1 h2 => ?_⟩
  have h := advLin_cells hb hk hen hl hr hf a b c d n hn e h1 h2
  simp only [LinearMap.smul_apply, Pi.smul_apply, smul_eq_mul] at h ⊢
  rw [mul_assoc, h]
  unfold cells4
  split_ifs <;> ring

/-- **C115 (a gain).** Order 3, any number of periodic cells, each with the coefficients 0, -1000, 15, 1000, 'rk4' or 'low_storage_rk4', no limiter, no enhancement, the largest
CFL number `7/288` that `C115_steps` allows: if the first time step is the CFL step, it increases the energy. -/
theorem C115_gain (hb : s.Built lib 3) (hk : s.kw = Advection.physics) (hen : s.enhance = none) (hl : s.bcl = .lit "periodic") (hr : s.bcr = .lit "periodic")
    (hdx : 0 < s.dx) (lim : Sol ℝ → Except PyErr (Sol ℝ)) (hlim : ∀ a, lim a = .ok a) (deck : RkDeck ℝ) (hrk : deck.rk ∈ ["rk4", "low_storage_rk4"])
    (hcfl : deck.cfl = 7 / 288) (ht : s.t ≤ deck.finaltime) (f : ℕ) (hf : f < s.NF)
    (h0 : ∀ e, 1 ≤ e → e ≤ s.NE → s.u.val 0 (e * s.NF + f) = 0 ∧ s.u.val 1 (e * s.NF + f) = -1000 ∧ s.u.val 2 (e * s.NF + f) = 15 ∧ s.u.val 3 (e * s.NF + f) = 1000)
    (hrun : (integrate ⟨residual, lim⟩ deck s 0).status = .running) {o dn : Bool}
    (hdt : getNextTimeStep s (integrate ⟨residual, lim⟩ deck s 0).tout deck.cfl deck.finaltime = .ok (s.dx / 288, o, dn)) :
    energy s f < energy (integrate ⟨residual, lim⟩ deck s 1).sol f := by
  have hz : (integrate ⟨residual, lim⟩ deck s 0).sol = s := run_zero_sol _ _ _ _
  have hlike : Like (integrate ⟨residual, lim⟩ deck s 0).sol s := by rw [hz]; exact Like.refl s
  obtain ⟨hl1, -, -, ha⟩ := rk4_iteration hb hk hen hdx hlim deck hrk (by rw [hcfl]; norm_num) ht hf 0 hlike hrun (by rw [hz]; exact hdt)
  rw [hz] at ha
  have hstart : Agree s 3 f s.u.val (cells4 0 (-1000) 15 1000) := by
    intro n hn e h1 h2
    obtain ⟨g0, g1, g2, g3⟩ := h0 e h1 h2
    have hc : n = 0 ∨ n = 1 ∨ n = 2 ∨ n = 3 := by omega
    rcases hc with rfl | rfl | rfl | rfl <;> simp [cells4, *]
  have hA := hstart.step hb hk hen hl hr hf (s.dx / 288)
  set A := (s.dx / 288) • advLin s hb.wf with hAd
  have one : ∀ v a b c d, Agree s 3 f v (cells4 a b c d) → ∃ a₁ b₁ c₁ d₁ : ℝ,
      (a₁ = 0 ∧ b₁ = 1 / 288 * (-6 * (b + c + d)) ∧ c₁ = 1 / 288 * (10 * b) ∧ d₁ = 1 / 288 * (-14 * (b + d))) ∧ Agree s 3 f (A v) (cells4 a₁ b₁ c₁ d₁) := by
    intro v a b c d hv
    obtain ⟨a₁, b₁, c₁, d₁, hs, h⟩ := advLin_cells_smul (t := 1 / 288) hb hk hen hl hr hf a b c d
    refine ⟨a₁, b₁, c₁, d₁, hs, fun n hn e h1 h2 => ?_⟩
    rw [← h n hn e h1 h2]
    have := hv.lin hb hk hen hl hr hf n hn e h1 h2
    simp only [hAd, LinearMap.smul_apply, Pi.smul_apply, smul_eq_mul]
    rw [this]
    ring
  obtain ⟨a₁, b₁, c₁, d₁, ⟨e0, e1, e2, e3⟩, k1⟩ := one _ _ _ _ _ (fun n hn e h1 h2 => rfl : Agree s 3 f (cells4 0 (-1000) 15 1000) (cells4 0 (-1000) 15 1000))
  obtain ⟨a₂, b₂, c₂, d₂, ⟨f0, f1, f2, f3⟩, k2⟩ := one _ _ _ _ _ k1
  obtain ⟨a₃, b₃, c₃, d₃, ⟨g0, g1, g2, g3⟩, k3⟩ := one _ _ _ _ _ k2
  obtain ⟨a₄, b₄, c₄, d₄, ⟨i0, i1, i2, i3⟩, k4⟩ := one _ _ _ _ _ k3
  have hfin : Agree s 3 f (rk4Step A (cells4 0 (-1000) 15 1000))
      (cells4 (0 + a₁ + 1 / 2 * a₂ + 1 / 6 * a₃ + 1 / 24 * a₄) (-1000 + b₁ + 1 / 2 * b₂ + 1 / 6 * b₃ + 1 / 24 * b₄)
        (15 + c₁ + 1 / 2 * c₂ + 1 / 6 * c₃ + 1 / 24 * c₄) (1000 + d₁ + 1 / 2 * d₂ + 1 / 6 * d₃ + 1 / 24 * d₄)) := by
    intro n hn e h1 h2
    simp only [rk4Step, Pi.add_apply, Pi.smul_apply, smul_eq_mul]
    rw [k1 n hn e h1 h2, k2 n hn e h1 h2, k3 n hn e h1 h2, k4 n hn e h1 h2]
    unfold cells4
    split_ifs <;> ring
  have hform : ∀ a b c d : ℝ, cellForm s 3 f (cells4 a b c d) (cells4 a b c d) = s.NE * (2 * a ^ 2 + 2 / 3 * b ^ 2 + 2 / 5 * c ^ 2 + 2 / 7 * d ^ 2) := by
    intro a b c d
    rw [cellForm_apply, Finset.sum_congr rfl (g := fun _ => 2 * a ^ 2 + 2 / 3 * b ^ 2 + 2 / 5 * c ^ 2 + 2 / 7 * d ^ 2)]
    · simp
      ring
    · intro e _
      simp only [Finset.sum_range_succ, Finset.sum_range_zero, cells4]
      norm_num
      ring
  rw [energy_eq hb hl1, energy_eq hb (Like.refl s), ha.form ha, hA.form hA, hfin.form hfin, hstart.form hstart, hform, hform]
  have hNE : (0 : ℝ) < s.NE := by exact_mod_cast hb.NE
  refine mul_lt_mul_of_pos_left (mul_lt_mul_of_pos_left ?_ hNE) (by positivity)
  subst e0 e1 e2 e3 f0 f1 f2 f3 g0 g1 g2 g3 i0 i1 i2 i3
  norm_num

/-- Three periodic cells of width 1/2 and order 3 with these coefficients. -/
noncomputable def Ex.gainSol : Sol ℝ := (Ex.solR 3).withVal (cells4 0 (-1000) 15 1000)

/-- Three outputs up to time 1. -/
noncomputable def Ex.gainDeck : RkDeck ℝ := { rk := "rk4", nout := 3, cfl := 7 / 288, finaltime := 1 }

/-- **C115 (single steps gain).** So the bound of `C115_steps` for one iteration cannot be replaced by 1: there is a case with all its hypotheses whose first step increases the energy. -/
theorem C115_single : ∃ (s : Sol ℝ) (deck : RkDeck ℝ), s.Built realGauss 3 ∧ s.kw = Advection.physics ∧ s.enhance = none ∧ s.bcl = .lit "periodic" ∧ s.bcr = .lit "periodic" ∧ 0 < s.dx ∧
    deck.rk ∈ ["rk4", "low_storage_rk4"] ∧ deck.cfl ≤ (2 * (3 : ℕ) + 1) / (18 * ((3 : ℕ) + 1) ^ 2) ∧ s.t ≤ deck.finaltime ∧ 0 < s.NF ∧
    energy (integrate ⟨residual, fun a => .ok a⟩ deck s 0).sol 0 < energy (integrate ⟨residual, fun a => .ok a⟩ deck s 1).sol 0 := by
  have hb : Ex.gainSol.Built realGauss 3 := (withVal_like (Ex.solR 3) _).built (Ex.solR_built 3)
  have hdx : Ex.gainSol.dx = 1 / 2 := rfl
  have ht0 : Ex.gainSol.t = 0 := rfl
  refine ⟨Ex.gainSol, Ex.gainDeck, hb, rfl, rfl, rfl, rfl, by rw [hdx]; norm_num, by simp [Ex.gainDeck], by norm_num [Ex.gainDeck], by rw [ht0]; norm_num [Ex.gainDeck], hb.NF, ?_⟩
  rw [show (integrate ⟨residual, fun a => .ok a⟩ Ex.gainDeck Ex.gainSol 0).sol = Ex.gainSol from run_zero_sol _ _ _ _]
  have htout : (integrate ⟨residual, fun a => .ok a⟩ Ex.gainDeck Ex.gainSol 0).tout = 1 / 2 := by
    show (initLoop Ex.gainDeck Ex.gainSol).tout = _
    unfold initLoop Ex.gainDeck
    norm_num [List.range_succ, linspace, ht0]
  refine C115_gain hb rfl rfl rfl rfl (by rw [hdx]; norm_num) (fun a => .ok a) (fun _ => rfl) Ex.gainDeck (by simp [Ex.gainDeck]) rfl (by rw [ht0]; norm_num [Ex.gainDeck]) 0 hb.NF
    (fun e _ _ => ⟨rfl, rfl, rfl, rfl⟩) (o := false) (dn := false) ?_ ?_
  · show (initLoop Ex.gainDeck Ex.gainSol).status = _
    unfold initLoop Ex.gainDeck
    simp [List.range_succ]
  · rw [htout]
    have hc : cflTimeStep Ex.gainSol Ex.gainDeck.cfl = .ok (.fin (1 / 576)) := by
      unfold cflTimeStep
      rw [show Ex.gainSol.kw = Advection.physics from rfl]
      have hp : Ex.gainSol.basis.p = 3 := rfl
      have hden : (1 : ℝ) * (2 * (Ex.gainSol.basis.p : ℝ) + 1) ≠ 0 := by positivity
      show (if _ then _ else _) = _
      rw [if_neg hden, hp, hdx]
      norm_num [Ex.gainDeck]
    unfold getNextTimeStep
    rw [hc]
    norm_num [sanityCheckDt, adjustForOutput, ht0, hdx, Ex.gainDeck]

end Dg1d.Props
