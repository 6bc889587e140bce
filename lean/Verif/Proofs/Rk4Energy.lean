import Mathlib.Analysis.InnerProductSpace.Basic
import Mathlib.Tactic.LinearCombination
import Mathlib.Tactic.Module

set_option linter.unusedSimpArgs false

/-! Helper lemmas: energy of the classical fourth order scheme on a linear problem whose operator loses energy, over groups of steps. -/

namespace Dg1d

/-- One step of the scheme for `u' = A u` with step 1. -/
noncomputable def rk4Step {V : Type*} [AddCommGroup V] [Module ℝ V] (A : V →ₗ[ℝ] V) (v : V) : V := v + A v + (1 / 2 : ℝ) • A (A v) + (1 / 6 : ℝ) • A (A (A v)) + (1 / 24 : ℝ) • A (A (A (A v)))

section
variable {V : Type*} [SeminormedAddCommGroup V] [InnerProductSpace ℝ V] {A : V →ₗ[ℝ] V}

/-- The energy of two equal steps, as a sum of squares (in the form of the losses) and terms of high order. -/
lemma rk4_pair_identity (x : ℕ → V) (hx : ∀ k, A (x k) = x (k + 1)) :
    let v := x 0 + (2 : ℝ) • x 1 + (2 : ℝ) • x 2 + (4/3 : ℝ) • x 3 + (2/3 : ℝ) • x 4 + (1/4 : ℝ) • x 5 + (5/72 : ℝ) • x 6 + (1/72 : ℝ) • x 7 + (1/576 : ℝ) • x 8
    let z := x 2 + (2 : ℝ) • x 3 + (2 : ℝ) • x 4 + (4/3 : ℝ) • x 5 + (2/3 : ℝ) • x 6 + (1/4 : ℝ) • x 7 + (5/72 : ℝ) • x 8 + (1/72 : ℝ) • x 9 + (1/576 : ℝ) • x 10
    let y0 := x 0 + x 1 + (2/3 : ℝ) • x 2 + (1/3 : ℝ) • x 3 + (1/8 : ℝ) • x 4 + (5/144 : ℝ) • x 5 + (1/144 : ℝ) • x 6 + (1/1152 : ℝ) • x 7
    let y1 := x 1 + x 2 + (5/8 : ℝ) • x 3 + (13/48 : ℝ) • x 4 + (1/12 : ℝ) • x 5 + (7/384 : ℝ) • x 6 + (1/384 : ℝ) • x 7
    let y2 := x 2 + (-2 : ℝ) • x 4 + (-29/12 : ℝ) • x 5 + (-19/12 : ℝ) • x 6 + (-2/3 : ℝ) • x 7 + (-5/24 : ℝ) • x 8 + (-1/24 : ℝ) • x 9 + (-1/192 : ℝ) • x 10
    inner ℝ v v - 1 / 24 * inner ℝ (A z) z = inner ℝ (x 0) (x 0) + 4 * inner ℝ (A y0) y0 + 4 / 3 * inner ℝ (A y1) y1 + 1 / 72 * inner ℝ (A y2) y2 +
      ((-1/36 : ℝ) * inner ℝ (x 3) (x 3) + (-5/48 : ℝ) * inner ℝ (x 3) (x 4) + (-17/144 : ℝ) * inner ℝ (x 3) (x 5) + (-13/144 : ℝ) * inner ℝ (x 3) (x 6) + (-115/2304 : ℝ) * inner ℝ (x 3) (x 7) + (-5/256 : ℝ) * inner ℝ (x 3) (x 8) + (-5/864 : ℝ) * inner ℝ (x 3) (x 9) + (-1/864 : ℝ) * inner ℝ (x 3) (x 10) + (-1/6912 : ℝ) * inner ℝ (x 3) (x 11) + (-11/96 : ℝ) * inner ℝ (x 4) (x 4) + (-53/192 : ℝ) * inner ℝ (x 4) (x 5) + (-491/2304 : ℝ) * inner ℝ (x 4) (x 6) + (-59/512 : ℝ) * inner ℝ (x 4) (x 7) + (-611/13824 : ℝ) * inner ℝ (x 4) (x 8) + (-11/864 : ℝ) * inner ℝ (x 4) (x 9) + (-17/6912 : ℝ) * inner ℝ (x 4) (x 10) + (-1/3456 : ℝ) * inner ℝ (x 4) (x 11) + (-47/288 : ℝ) * inner ℝ (x 5) (x 5) + (-125/512 : ℝ) * inner ℝ (x 5) (x 6) + (-65/512 : ℝ) * inner ℝ (x 5) (x 7) + (-655/13824 : ℝ) * inner ℝ (x 5) (x 8) + (-91/6912 : ℝ) * inner ℝ (x 5) (x 9) + (-17/6912 : ℝ) * inner ℝ (x 5) (x 10) + (-5/18432 : ℝ) * inner ℝ (x 5) (x 11) + (-229/2592 : ℝ) * inner ℝ (x 6) (x 6) + (-29435/331776 : ℝ) * inner ℝ (x 6) (x 7) + (-10717/331776 : ℝ) * inner ℝ (x 6) (x 8) + (-5/576 : ℝ) * inner ℝ (x 6) (x 9) + (-29/18432 : ℝ) * inner ℝ (x 6) (x 10) + (-1/6144 : ℝ) * inner ℝ (x 6) (x 11) + (-7133/331776 : ℝ) * inner ℝ (x 7) (x 7) + (-1265/82944 : ℝ) * inner ℝ (x 7) (x 8) + (-41/10368 : ℝ) * inner ℝ (x 7) (x 9) + (-115/165888 : ℝ) * inner ℝ (x 7) (x 10) + (-11/165888 : ℝ) * inner ℝ (x 7) (x 11) + (-293/110592 : ℝ) * inner ℝ (x 8) (x 8) + (-83/62208 : ℝ) * inner ℝ (x 8) (x 9) + (-113/497664 : ℝ) * inner ℝ (x 8) (x 10) + (-5/248832 : ℝ) * inner ℝ (x 8) (x 11) + (-5/31104 : ℝ) * inner ℝ (x 9) (x 9) + (-13/248832 : ℝ) * inner ℝ (x 9) (x 10) + (-1/248832 : ℝ) * inner ℝ (x 9) (x 11) + (-1/248832 : ℝ) * inner ℝ (x 10) (x 10) + (-1/1990656 : ℝ) * inner ℝ (x 10) (x 11)) := by
  intro v z y0 y1 y2
  simp only [v, z, y0, y1, y2, map_add, map_smul, hx, Nat.reduceAdd, inner_add_left, inner_add_right, real_inner_smul_left, real_inner_smul_right]
  simp only [real_inner_comm (x 0) (x 1), real_inner_comm (x 0) (x 2), real_inner_comm (x 0) (x 3), real_inner_comm (x 0) (x 4), real_inner_comm (x 0) (x 5), real_inner_comm (x 0) (x 6), real_inner_comm (x 0) (x 7), real_inner_comm (x 0) (x 8), real_inner_comm (x 1) (x 2), real_inner_comm (x 1) (x 3), real_inner_comm (x 1) (x 4), real_inner_comm (x 1) (x 5), real_inner_comm (x 1) (x 6), real_inner_comm (x 1) (x 7), real_inner_comm (x 1) (x 8), real_inner_comm (x 2) (x 3), real_inner_comm (x 2) (x 4), real_inner_comm (x 2) (x 5), real_inner_comm (x 2) (x 6), real_inner_comm (x 2) (x 7), real_inner_comm (x 2) (x 8), real_inner_comm (x 2) (x 9), real_inner_comm (x 2) (x 10), real_inner_comm (x 2) (x 11), real_inner_comm (x 3) (x 4), real_inner_comm (x 3) (x 5), real_inner_comm (x 3) (x 6), real_inner_comm (x 3) (x 7), real_inner_comm (x 3) (x 8), real_inner_comm (x 3) (x 9), real_inner_comm (x 3) (x 10), real_inner_comm (x 3) (x 11), real_inner_comm (x 4) (x 5), real_inner_comm (x 4) (x 6), real_inner_comm (x 4) (x 7), real_inner_comm (x 4) (x 8), real_inner_comm (x 4) (x 9), real_inner_comm (x 4) (x 10), real_inner_comm (x 4) (x 11), real_inner_comm (x 5) (x 6), real_inner_comm (x 5) (x 7), real_inner_comm (x 5) (x 8), real_inner_comm (x 5) (x 9), real_inner_comm (x 5) (x 10), real_inner_comm (x 5) (x 11), real_inner_comm (x 6) (x 7), real_inner_comm (x 6) (x 8), real_inner_comm (x 6) (x 9), real_inner_comm (x 6) (x 10), real_inner_comm (x 6) (x 11), real_inner_comm (x 7) (x 8), real_inner_comm (x 7) (x 9), real_inner_comm (x 7) (x 10), real_inner_comm (x 7) (x 11), real_inner_comm (x 8) (x 9), real_inner_comm (x 8) (x 10), real_inner_comm (x 8) (x 11), real_inner_comm (x 9) (x 10), real_inner_comm (x 9) (x 11), real_inner_comm (x 10) (x 11)]
  ring

/-- Terms of high order are small. -/
lemma rk4_pair_tail (x : ℕ → V) (hx : ∀ k, ‖x (k + 1)‖ ≤ 1 / 6 * ‖x k‖) :
    (-1/36 : ℝ) * inner ℝ (x 3) (x 3) + (-5/48 : ℝ) * inner ℝ (x 3) (x 4) + (-17/144 : ℝ) * inner ℝ (x 3) (x 5) + (-13/144 : ℝ) * inner ℝ (x 3) (x 6) + (-115/2304 : ℝ) * inner ℝ (x 3) (x 7) + (-5/256 : ℝ) * inner ℝ (x 3) (x 8) + (-5/864 : ℝ) * inner ℝ (x 3) (x 9) + (-1/864 : ℝ) * inner ℝ (x 3) (x 10) + (-1/6912 : ℝ) * inner ℝ (x 3) (x 11) + (-11/96 : ℝ) * inner ℝ (x 4) (x 4) + (-53/192 : ℝ) * inner ℝ (x 4) (x 5) + (-491/2304 : ℝ) * inner ℝ (x 4) (x 6) + (-59/512 : ℝ) * inner ℝ (x 4) (x 7) + (-611/13824 : ℝ) * inner ℝ (x 4) (x 8) + (-11/864 : ℝ) * inner ℝ (x 4) (x 9) + (-17/6912 : ℝ) * inner ℝ (x 4) (x 10) + (-1/3456 : ℝ) * inner ℝ (x 4) (x 11) + (-47/288 : ℝ) * inner ℝ (x 5) (x 5) + (-125/512 : ℝ) * inner ℝ (x 5) (x 6) + (-65/512 : ℝ) * inner ℝ (x 5) (x 7) + (-655/13824 : ℝ) * inner ℝ (x 5) (x 8) + (-91/6912 : ℝ) * inner ℝ (x 5) (x 9) + (-17/6912 : ℝ) * inner ℝ (x 5) (x 10) + (-5/18432 : ℝ) * inner ℝ (x 5) (x 11) + (-229/2592 : ℝ) * inner ℝ (x 6) (x 6) + (-29435/331776 : ℝ) * inner ℝ (x 6) (x 7) + (-10717/331776 : ℝ) * inner ℝ (x 6) (x 8) + (-5/576 : ℝ) * inner ℝ (x 6) (x 9) + (-29/18432 : ℝ) * inner ℝ (x 6) (x 10) + (-1/6144 : ℝ) * inner ℝ (x 6) (x 11) + (-7133/331776 : ℝ) * inner ℝ (x 7) (x 7) + (-1265/82944 : ℝ) * inner ℝ (x 7) (x 8) + (-41/10368 : ℝ) * inner ℝ (x 7) (x 9) + (-115/165888 : ℝ) * inner ℝ (x 7) (x 10) + (-11/165888 : ℝ) * inner ℝ (x 7) (x 11) + (-293/110592 : ℝ) * inner ℝ (x 8) (x 8) + (-83/62208 : ℝ) * inner ℝ (x 8) (x 9) + (-113/497664 : ℝ) * inner ℝ (x 8) (x 10) + (-5/248832 : ℝ) * inner ℝ (x 8) (x 11) + (-5/31104 : ℝ) * inner ℝ (x 9) (x 9) + (-13/248832 : ℝ) * inner ℝ (x 9) (x 10) + (-1/248832 : ℝ) * inner ℝ (x 9) (x 11) + (-1/248832 : ℝ) * inner ℝ (x 10) (x 10) + (-1/1990656 : ℝ) * inner ℝ (x 10) (x 11) ≤ -(1 / 1000 * ‖x 3‖ ^ 2) := by
  have hn : ∀ k, ‖x (3 + k)‖ ≤ (1 / 6) ^ k * ‖x 3‖ := by
    intro k
    induction k with
    | zero => simp
    | succ k ih =>
      refine (hx (3 + k)).trans ?_
      rw [pow_succ]
      linarith
  have hb : ∀ i j, |inner ℝ (x (3 + i)) (x (3 + j))| ≤ (1 / 6) ^ (i + j) * ‖x 3‖ ^ 2 := by
    intro i j
    refine (abs_real_inner_le_norm _ _).trans ((mul_le_mul (hn i) (hn j) (norm_nonneg _) (by positivity)).trans_eq ?_)
    rw [pow_add]
    ring
  have u : ∀ i j, inner ℝ (x (3 + i)) (x (3 + j)) ≤ (1 / 6) ^ (i + j) * ‖x 3‖ ^ 2 := fun i j => (abs_le.mp (hb i j)).2
  have l : ∀ i j, -inner ℝ (x (3 + i)) (x (3 + j)) ≤ (1 / 6) ^ (i + j) * ‖x 3‖ ^ 2 := fun i j => neg_le.mp (abs_le.mp (hb i j)).1
  have h0 : -‖x 3‖ ^ 2 ≤ 0 := by linarith [sq_nonneg ‖x 3‖]
  have h3 := real_inner_self_eq_norm_sq (x 3)
  linear_combination (-1/36 : ℝ) * h3 + (1754664439730015/935976560656121856 - 1/1000 : ℝ) * h0 + (5/48 : ℝ) * l 0 1 + (17/144 : ℝ) * l 0 2 + (13/144 : ℝ) * l 0 3 + (115/2304 : ℝ) * l 0 4 + (5/256 : ℝ) * l 0 5 + (5/864 : ℝ) * l 0 6 + (1/864 : ℝ) * l 0 7 + (1/6912 : ℝ) * l 0 8 + (11/96 : ℝ) * l 1 1 + (53/192 : ℝ) * l 1 2 + (491/2304 : ℝ) * l 1 3 + (59/512 : ℝ) * l 1 4 + (611/13824 : ℝ) * l 1 5 + (11/864 : ℝ) * l 1 6 + (17/6912 : ℝ) * l 1 7 + (1/3456 : ℝ) * l 1 8 + (47/288 : ℝ) * l 2 2 + (125/512 : ℝ) * l 2 3 + (65/512 : ℝ) * l 2 4 + (655/13824 : ℝ) * l 2 5 + (91/6912 : ℝ) * l 2 6 + (17/6912 : ℝ) * l 2 7 + (5/18432 : ℝ) * l 2 8 + (229/2592 : ℝ) * l 3 3 + (29435/331776 : ℝ) * l 3 4 + (10717/331776 : ℝ) * l 3 5 + (5/576 : ℝ) * l 3 6 + (29/18432 : ℝ) * l 3 7 + (1/6144 : ℝ) * l 3 8 + (7133/331776 : ℝ) * l 4 4 + (1265/82944 : ℝ) * l 4 5 + (41/10368 : ℝ) * l 4 6 + (115/165888 : ℝ) * l 4 7 + (11/165888 : ℝ) * l 4 8 + (293/110592 : ℝ) * l 5 5 + (83/62208 : ℝ) * l 5 6 + (113/497664 : ℝ) * l 5 7 + (5/248832 : ℝ) * l 5 8 + (5/31104 : ℝ) * l 6 6 + (13/248832 : ℝ) * l 6 7 + (1/248832 : ℝ) * l 6 8 + (1/248832 : ℝ) * l 7 7 + (1/1990656 : ℝ) * l 7 8

/-- The rate at which `u' = A u` loses energy. -/
def lossRate (A : V →ₗ[ℝ] V) (x : V) : ℝ := -2 * inner ℝ (A x) x

lemma loss_split (hneg : ∀ x, inner ℝ (A x) x ≤ 0) {q : ℝ} (hq : 0 < q) (a b : V) : lossRate A (a + b) ≤ (1 + q) * lossRate A a + (1 + 1 / q) * lossRate A b := by
  have h := hneg (a - (1 / q) • b)
  simp only [lossRate, map_add, map_sub, map_smul, inner_add_left, inner_add_right, inner_sub_left, inner_sub_right, real_inner_smul_left, real_inner_smul_right] at h ⊢
  have h2 : q * (inner ℝ (A a) a - 1 / q * inner ℝ (A b) a - 1 / q * (inner ℝ (A a) b - 1 / q * inner ℝ (A b) b)) ≤ 0 := by
    refine mul_nonpos_of_nonneg_of_nonpos hq.le ?_
    linarith
  have h3 : q * (inner ℝ (A a) a - 1 / q * inner ℝ (A b) a - 1 / q * (inner ℝ (A a) b - 1 / q * inner ℝ (A b) b)) =
      q * inner ℝ (A a) a - inner ℝ (A b) a - inner ℝ (A a) b + 1 / q * inner ℝ (A b) b := by
    field_simp
    ring
  rw [h3] at h2
  linarith

lemma loss_bound (hle : ∀ x, ‖A x‖ ≤ 1 / 6 * ‖x‖) (x : V) : lossRate A x ≤ 1 / 3 * ‖x‖ ^ 2 := by
  have h := (abs_le.mp (abs_real_inner_le_norm (A x) x)).1
  have h2 := mul_le_mul_of_nonneg_right (hle x) (norm_nonneg x)
  unfold lossRate
  nlinarith

lemma loss_nonneg (hneg : ∀ x, inner ℝ (A x) x ≤ 0) (x : V) : 0 ≤ lossRate A x := by
  unfold lossRate
  linarith [hneg x]

lemma rk4_single_identity (u : V) :
    let y0 := u + (1 / 2 : ℝ) • A u + (1 / 6 : ℝ) • A (A u) + (1 / 24 : ℝ) • A (A (A u))
    let y1 := A u + (1 / 2 : ℝ) • A (A u) + (1 / 4 : ℝ) • A (A (A u))
    let y2 := A (A u) + (-1 / 2 : ℝ) • A (A (A u))
    inner ℝ (rk4Step A u) (rk4Step A u) = inner ℝ u u + 2 * inner ℝ (A y0) y0 + 1 / 6 * inner ℝ (A y1) y1 + 1 / 144 * lossRate A y2 + 1 / 288 * inner ℝ (A (A (A (A u)))) (A (A (A u))) -
      1 / 72 * inner ℝ (A (A (A u))) (A (A (A u))) + 1 / 576 * inner ℝ (A (A (A (A u)))) (A (A (A (A u)))) := by
  intro y0 y1 y2
  simp only [rk4Step, lossRate, y0, y1, y2, map_add, map_smul, inner_add_left, inner_add_right, real_inner_smul_left, real_inner_smul_right]
  generalize h4 : A (A (A (A u))) = x4
  generalize h3 : A (A (A u)) = x3
  generalize h2 : A (A u) = x2
  generalize h1 : A u = x1
  rw [real_inner_comm u x1, real_inner_comm u x2, real_inner_comm u x3, real_inner_comm u x4, real_inner_comm x1 x2, real_inner_comm x1 x3, real_inner_comm x1 x4,
    real_inner_comm x2 x3, real_inner_comm x2 x4, real_inner_comm x3 x4]
  ring

/-- What one step can gain. -/
lemma rk4_single (hneg : ∀ x, inner ℝ (A x) x ≤ 0) (hle : ∀ x, ‖A x‖ ≤ 1 / 6 * ‖x‖) (u : V) :
    ‖rk4Step A u‖ ^ 2 ≤ ‖u‖ ^ 2 + 7 / 864 * lossRate A (A (A u)) - 1 / 108 * ‖A (A (A u))‖ ^ 2 := by
  have hid := rk4_single_identity (A := A) u
  simp only at hid
  have h0 := hneg (u + (1 / 2 : ℝ) • A u + (1 / 6 : ℝ) • A (A u) + (1 / 24 : ℝ) • A (A (A u)))
  have h1 := hneg (A u + (1 / 2 : ℝ) • A (A u) + (1 / 4 : ℝ) • A (A (A u)))
  have h2 := loss_split hneg (q := 1 / 6) (by norm_num) (A (A u)) ((-1 / 2 : ℝ) • A (A (A u)))
  have h3 := hneg (A (A (A u)))
  have h4 : lossRate A ((-1 / 2 : ℝ) • A (A (A u))) = 1 / 4 * lossRate A (A (A (A u))) := by
    simp only [lossRate, map_smul, real_inner_smul_left, real_inner_smul_right]
    ring
  have h5 := loss_bound hle (A (A (A u)))
  have h6 : ‖A (A (A (A u)))‖ ^ 2 ≤ 1 / 36 * ‖A (A (A u))‖ ^ 2 := by
    have := pow_le_pow_left₀ (norm_nonneg _) (hle (A (A (A u)))) 2
    rw [mul_pow] at this
    norm_num at this ⊢
    linarith
  simp only [real_inner_self_eq_norm_sq] at hid
  have h7 := sq_nonneg ‖A (A (A u))‖
  rw [h4] at h2
  linarith

lemma rk4_map (u : V) : A (rk4Step A u) = rk4Step A (A u) := by
  simp only [rk4Step, map_add, map_smul]

/-- One step after which another one may follow. -/
lemma rk4_more (hneg : ∀ x, inner ℝ (A x) x ≤ 0) (hle : ∀ x, ‖A x‖ ≤ 1 / 6 * ‖x‖) (u : V) :
    ‖rk4Step A u‖ ^ 2 + 7 / 864 * lossRate A (A (A (rk4Step A u))) ≤ ‖u‖ ^ 2 + 1 / 48 * lossRate A (A (A u)) := by
  have h1 := rk4_single hneg hle u
  set x := A (A u) with hx
  set z := A x + (1 / 2 : ℝ) • A (A x) + (1 / 6 : ℝ) • A (A (A x)) + (1 / 24 : ℝ) • A (A (A (A x))) with hz
  have h2 : A (A (rk4Step A u)) = x + z := by
    rw [rk4_map, rk4_map, ← hx]
    simp only [rk4Step, hz]
    abel
  have h3 := loss_split hneg (q := 4 / 7) (by norm_num) x z
  have h4 := loss_bound hle z
  have n1 := hle (A x)
  have n2 := hle (A (A x))
  have n3 := hle (A (A (A x)))
  have hzn : ‖z‖ ≤ 1.09 * ‖A x‖ := by
    have t1 := norm_add_le (A x + (1 / 2 : ℝ) • A (A x) + (1 / 6 : ℝ) • A (A (A x))) ((1 / 24 : ℝ) • A (A (A (A x))))
    have t2 := norm_add_le (A x + (1 / 2 : ℝ) • A (A x)) ((1 / 6 : ℝ) • A (A (A x)))
    have t3 := norm_add_le (A x) ((1 / 2 : ℝ) • A (A x))
    have s1 : ‖(1 / 24 : ℝ) • A (A (A (A x)))‖ = 1 / 24 * ‖A (A (A (A x)))‖ := by rw [norm_smul]; norm_num
    have s2 : ‖(1 / 6 : ℝ) • A (A (A x))‖ = 1 / 6 * ‖A (A (A x))‖ := by rw [norm_smul]; norm_num
    have s3 : ‖(1 / 2 : ℝ) • A (A x)‖ = 1 / 2 * ‖A (A x)‖ := by rw [norm_smul]; norm_num
    have := norm_nonneg (A x)
    rw [← hz] at t1
    norm_num
    linarith
  have hz2 : ‖z‖ ^ 2 ≤ 1.1881 * ‖A x‖ ^ 2 := by
    have := pow_le_pow_left₀ (norm_nonneg _) hzn 2
    rw [mul_pow] at this
    norm_num at this ⊢
    linarith
  rw [h2]
  have h7 := sq_nonneg ‖A x‖
  norm_num at hz2
  linarith

/-- Two equal steps. -/
lemma rk4_pair (hneg : ∀ x, inner ℝ (A x) x ≤ 0) (hle : ∀ x, ‖A x‖ ≤ 1 / 6 * ‖x‖) (u : V) :
    ‖rk4Step A (rk4Step A u)‖ ^ 2 + 1 / 48 * lossRate A (A (A (rk4Step A (rk4Step A u)))) ≤ ‖u‖ ^ 2 - 1 / 1000 * ‖A (A (A u))‖ ^ 2 := by
  have hx : ∀ k, A ((A ^ k) u) = (A ^ (k + 1)) u := by
    intro k
    rw [pow_succ', Module.End.mul_apply]
  have hid := rk4_pair_identity (A := A) (fun k => (A ^ k) u) hx
  have htail := rk4_pair_tail (fun k => (A ^ k) u) fun k => by
    beta_reduce
    rw [← hx]
    exact hle _
  simp only at hid
  have h0 := hneg ((A ^ 0) u + (A ^ 1) u + (2/3 : ℝ) • (A ^ 2) u + (1/3 : ℝ) • (A ^ 3) u + (1/8 : ℝ) • (A ^ 4) u + (5/144 : ℝ) • (A ^ 5) u + (1/144 : ℝ) • (A ^ 6) u + (1/1152 : ℝ) • (A ^ 7) u)
  have h1 := hneg ((A ^ 1) u + (A ^ 2) u + (5/8 : ℝ) • (A ^ 3) u + (13/48 : ℝ) • (A ^ 4) u + (1/12 : ℝ) • (A ^ 5) u + (7/384 : ℝ) • (A ^ 6) u + (1/384 : ℝ) • (A ^ 7) u)
  have h2 := hneg ((A ^ 2) u + (-2 : ℝ) • (A ^ 4) u + (-29/12 : ℝ) • (A ^ 5) u + (-19/12 : ℝ) • (A ^ 6) u + (-2/3 : ℝ) • (A ^ 7) u + (-5/24 : ℝ) • (A ^ 8) u + (-1/24 : ℝ) • (A ^ 9) u + (-1/192 : ℝ) • (A ^ 10) u)
  have e1 : rk4Step A (rk4Step A u) = (A ^ 0) u + (2 : ℝ) • (A ^ 1) u + (2 : ℝ) • (A ^ 2) u + (4/3 : ℝ) • (A ^ 3) u + (2/3 : ℝ) • (A ^ 4) u + (1/4 : ℝ) • (A ^ 5) u + (5/72 : ℝ) • (A ^ 6) u + (1/72 : ℝ) • (A ^ 7) u + (1/576 : ℝ) • (A ^ 8) u := by
    simp only [rk4Step, map_add, map_smul, pow_succ', pow_zero, Module.End.mul_apply, Module.End.one_apply, mul_one]
    module
  have e2 : A (A (rk4Step A (rk4Step A u))) = (A ^ 2) u + (2 : ℝ) • (A ^ 3) u + (2 : ℝ) • (A ^ 4) u + (4/3 : ℝ) • (A ^ 5) u + (2/3 : ℝ) • (A ^ 6) u + (1/4 : ℝ) • (A ^ 7) u + (5/72 : ℝ) • (A ^ 8) u + (1/72 : ℝ) • (A ^ 9) u + (1/576 : ℝ) • (A ^ 10) u := by
    rw [e1]
    simp only [map_add, map_smul, hx, Nat.reduceAdd]
  rw [e2, e1, lossRate, ← real_inner_self_eq_norm_sq, ← real_inner_self_eq_norm_sq]
  have e3 : (A ^ 3) u = A (A (A u)) := by
    simp only [pow_succ', pow_zero, Module.End.mul_apply, mul_one]
  rw [← e3]
  simp only [pow_zero, Module.End.one_apply] at hid h0 h1 h2 htail ⊢
  linarith

end

/-- The three estimates for a positive semidefinite form. -/
lemma rk4_forms {V : Type*} [AddCommGroup V] [Module ℝ V] (B : V →ₗ[ℝ] V →ₗ[ℝ] ℝ) (hsym : ∀ x y, B x y = B y x) (hpos : ∀ x, 0 ≤ B x x) (D : V →ₗ[ℝ] V)
    (hneg : ∀ x, B (D x) x ≤ 0) (hle : ∀ x, B (D x) (D x) ≤ (1 / 6) ^ 2 * B x x) (u : V) :
    B (rk4Step D u) (rk4Step D u) ≤ B u u + 7 / 864 * (-2 * B (D (D (D u))) (D (D u))) ∧
    B (rk4Step D u) (rk4Step D u) + 7 / 864 * (-2 * B (D (D (D (rk4Step D u)))) (D (D (rk4Step D u)))) ≤ B u u + 1 / 48 * (-2 * B (D (D (D u))) (D (D u))) ∧
    B (rk4Step D (rk4Step D u)) (rk4Step D (rk4Step D u)) +
      1 / 48 * (-2 * B (D (D (D (rk4Step D (rk4Step D u))))) (D (D (rk4Step D (rk4Step D u))))) ≤ B u u ∧
    -2 * B (D (D (D u))) (D (D u)) ≤ 1 / 3888 * B u u ∧
    B (rk4Step D (rk4Step D u)) (rk4Step D (rk4Step D u)) +
      1 / 48 * (-2 * B (D (D (D (rk4Step D (rk4Step D u))))) (D (D (rk4Step D (rk4Step D u))))) ≤ B u u - 1 / 1000 * B (D (D (D u))) (D (D (D u))) := by
  let core : PreInnerProductSpace.Core ℝ V :=
    { inner := fun x y => B x y
      conj_inner_symm := fun x y => by simpa using hsym y x
      re_inner_nonneg := fun x => by simpa using hpos x
      add_left := fun x y z => by simp
      smul_left := fun x y r => by simp }
  letI : SeminormedAddCommGroup V := @InnerProductSpace.Core.toSeminormedAddCommGroup ℝ V _ _ _ core
  letI : InnerProductSpace ℝ V := InnerProductSpace.ofCore core
  have hin : ∀ x y : V, inner ℝ x y = B x y := fun _ _ => rfl
  have hsq : ∀ x : V, ‖x‖ ^ 2 = B x x := fun x => by rw [← real_inner_self_eq_norm_sq, hin]
  have hl : ∀ x, ‖D x‖ ≤ 1 / 6 * ‖x‖ := by
    intro x
    have h := hle x
    rw [← hsq, ← hsq, ← mul_pow] at h
    exact (pow_le_pow_iff_left₀ (norm_nonneg _) (by positivity) two_ne_zero).mp h
  have hn : ∀ x, inner ℝ (D x) x ≤ 0 := hneg
  have h1 := rk4_single hn hl u
  have h2 := rk4_more hn hl u
  have h3 := rk4_pair hn hl u
  have h4 := loss_bound hl (D (D u))
  have h5 := hle u
  have h6 := hle (D u)
  have h7 := sq_nonneg ‖D (D (D u))‖
  simp only [lossRate, hsq, hin] at h1 h2 h3 h4 h7
  refine ⟨by linarith, h2, by linarith, ?_, h3⟩
  norm_num at h5 h6
  linarith

end Dg1d
