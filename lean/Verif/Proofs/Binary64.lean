import Mathlib.Algebra.Order.Round
import Mathlib.Algebra.Order.Archimedean.Real.Basic
import Mathlib.Algebra.Order.Archimedean.Basic
import Mathlib.Data.Set.Finite.Lattice
import Mathlib.Data.Int.Interval
import Mathlib.Algebra.Ring.Int.Parity
import Mathlib.Tactic.Linarith
import Mathlib.Tactic.Positivity
import Mathlib.Tactic.NormNum
import Mathlib.Tactic.Ring
import Mathlib.Tactic.FieldSimp
import Verif.Spec.Binary64

/-!
# Facts about binary64 numbers and rounding to nearest
-/

namespace Dg1d

open Spec

lemma b64_zero : Binary64 0 := ⟨0, 0, by norm_num, by norm_num, by simp⟩

lemma b64_neg {x : ℝ} (h : Binary64 x) : Binary64 (-x) := by
  obtain ⟨m, e, hm, he, rfl⟩ := h
  exact ⟨-m, e, by rwa [abs_neg], he, by push_cast; ring⟩

lemma b64_mk (m e : ℤ) (hm : |m| < 2 ^ 53) (he : -1074 ≤ e) : Binary64 (m * (2 : ℝ) ^ e) := ⟨m, e, hm, he, rfl⟩

lemma b64_two_pow (k : ℤ) (hk : -1074 ≤ k) : Binary64 ((2 : ℝ) ^ k) :=
  ⟨1, k, by norm_num, hk, by simp⟩

lemma b64_double {x : ℝ} (h : Binary64 x) : Binary64 (2 * x) := by
  obtain ⟨m, e, hm, he, rfl⟩ := h
  exact ⟨m, e + 1, hm, by omega, by rw [zpow_add₀ (by norm_num)]; ring⟩

/-- A difference of numbers within a factor two of each other is exact (Sterbenz). -/
lemma b64_sub {x y : ℝ} (hx : Binary64 x) (hy : Binary64 y) (h1 : y ≤ 2 * x) (h2 : x ≤ 2 * y) : Binary64 (x - y) := by
  obtain ⟨m1, e1, hm1, he1, rfl⟩ := hx
  obtain ⟨m2, e2, hm2, he2, rfl⟩ := hy
  rcases le_total e1 e2 with h | h
  · obtain ⟨d, rfl⟩ := Int.exists_add_of_le h
    have hp : (0 : ℝ) < 2 ^ e1 := zpow_pos (by norm_num) _
    have e : (2 : ℝ) ^ (e1 + (d : ℤ)) = 2 ^ e1 * 2 ^ d := by
      rw [zpow_add₀ (by norm_num)]; norm_cast
    rw [e] at h1 h2 ⊢
    refine ⟨m1 - m2 * 2 ^ d, e1, ?_, he1, by push_cast; ring⟩
    have a1 : (m2 * 2 ^ d : ℤ) ≤ 2 * m1 := by
      have : ((m2 * 2 ^ d : ℤ) : ℝ) ≤ ((2 * m1 : ℤ) : ℝ) := by
        push_cast; nlinarith
      exact_mod_cast this
    have a2 : m1 ≤ 2 * (m2 * 2 ^ d : ℤ) := by
      have : ((m1 : ℤ) : ℝ) ≤ ((2 * (m2 * 2 ^ d) : ℤ) : ℝ) := by
        push_cast; nlinarith
      exact_mod_cast this
    rw [abs_lt] at hm1 ⊢
    constructor <;> omega
  · obtain ⟨d, rfl⟩ := Int.exists_add_of_le h
    have hp : (0 : ℝ) < 2 ^ e2 := zpow_pos (by norm_num) _
    have e : (2 : ℝ) ^ (e2 + (d : ℤ)) = 2 ^ e2 * 2 ^ d := by
      rw [zpow_add₀ (by norm_num)]; norm_cast
    rw [e] at h1 h2 ⊢
    refine ⟨m1 * 2 ^ d - m2, e2, ?_, he2, by push_cast; ring⟩
    have a1 : m2 ≤ 2 * (m1 * 2 ^ d : ℤ) := by
      have : ((m2 : ℤ) : ℝ) ≤ ((2 * (m1 * 2 ^ d) : ℤ) : ℝ) := by
        push_cast; nlinarith
      exact_mod_cast this
    have a2 : (m1 * 2 ^ d : ℤ) ≤ 2 * m2 := by
      have : ((m1 * 2 ^ d : ℤ) : ℝ) ≤ ((2 * m2 : ℤ) : ℝ) := by
        push_cast; nlinarith
      exact_mod_cast this
    rw [abs_lt] at hm2 ⊢
    constructor <;> omega

/-- The numbers not below `2^k` in size lie on the grid of spacing `2^(k-52)`. -/
lemma b64_grid {y : ℝ} (h : Binary64 y) (k : ℤ) (hk : (2 : ℝ) ^ k ≤ |y|) : ∃ i : ℤ, y = i * (2 : ℝ) ^ (k - 52) := by
  obtain ⟨m, e, hm, he, rfl⟩ := h
  have hp : (0 : ℝ) < 2 ^ e := zpow_pos (by norm_num) _
  have hm' : |(m : ℝ)| < 2 ^ 53 := by exact_mod_cast hm
  have h1 : (2 : ℝ) ^ k < 2 ^ (53 + e) := by
    rw [zpow_add₀ (by norm_num), abs_mul, abs_of_pos hp] at *
    calc (2 : ℝ) ^ k ≤ |(m : ℝ)| * 2 ^ e := hk
      _ < 2 ^ (53 : ℤ) * 2 ^ e := by
        apply mul_lt_mul_of_pos_right _ hp
        exact_mod_cast hm'
  have h2 : k < 53 + e := (zpow_lt_zpow_iff_right₀ (by norm_num)).1 h1
  obtain ⟨d, hd⟩ := Int.exists_add_of_le (show k - 52 ≤ e by omega)
  refine ⟨m * 2 ^ d, ?_⟩
  rw [hd, zpow_add₀ (by norm_num)]
  push_cast
  rw [zpow_natCast]; ring

/-- Every real has a nearest binary64 number. -/
lemma exists_nearest (x : ℝ) : ∃ z, Binary64 z ∧ ∀ y, Binary64 y → |x - z| ≤ |x - y| := by
  classical
  have hfin : {y : ℝ | Binary64 y ∧ |x - y| ≤ |x|}.Finite := by
    obtain ⟨B, hB⟩ := exists_nat_gt (2 * |x| * 2 ^ (1074 : ℕ))
    apply ((Set.finite_Icc (-(B : ℤ)) B).image fun i : ℤ => (i : ℝ) * 2 ^ (-1074 : ℤ)).subset
    rintro y ⟨⟨m, e, -, he, rfl⟩, hy⟩
    obtain ⟨d, rfl⟩ := Int.exists_add_of_le he
    refine ⟨m * 2 ^ d, ?_, by rw [zpow_add₀ (by norm_num)]; push_cast; rw [zpow_natCast]; ring⟩
    have h1 : |(m : ℝ) * 2 ^ (-1074 + (d : ℤ))| ≤ 2 * |x| := by
      have := abs_sub_abs_le_abs_sub ((m : ℝ) * 2 ^ (-1074 + (d : ℤ))) x
      rw [abs_sub_comm] at this
      linarith
    have e : (m : ℝ) * 2 ^ (-1074 + (d : ℤ)) = ((m * 2 ^ d : ℤ) : ℝ) / 2 ^ (1074 : ℕ) := by
      rw [zpow_add₀ (by norm_num), zpow_neg, zpow_natCast]
      push_cast
      rw [div_eq_mul_inv]
      have : ((2 : ℝ) ^ (1074 : ℤ)) = 2 ^ (1074 : ℕ) := zpow_ofNat 2 1074
      rw [this]; generalize (2 : ℝ) ^ (1074 : ℕ) = w; ring
    rw [e, abs_div, abs_of_pos (show (0 : ℝ) < 2 ^ (1074 : ℕ) by positivity),
      div_le_iff₀ (by positivity)] at h1
    have h2 : |((m * 2 ^ d : ℤ) : ℝ)| < B := lt_of_le_of_lt h1 hB
    have h3 : |(m * 2 ^ d : ℤ)| < B := by exact_mod_cast h2
    rw [abs_lt] at h3
    exact ⟨h3.1.le, h3.2.le⟩
  obtain ⟨z, ⟨hz, hz'⟩, hmin⟩ := hfin.exists_minimalFor (fun y => |x - y|) _ ⟨0, b64_zero, by simp⟩
  refine ⟨z, hz, fun y hy => ?_⟩
  by_contra hc
  push Not at hc
  have := hmin ⟨hy, (hc.le.trans hz')⟩ hc.le
  exact absurd this (not_le.2 hc)

lemma exists_rounding : ∃ rnd, RoundsToNearest rnd := by
  choose f hf using exists_nearest
  exact ⟨f, hf⟩

/-! ### Ties to even -/

lemma even_neg {x : ℝ} (h : EvenSignificand x) : EvenSignificand (-x) := by
  obtain ⟨m, e, hm, he, hn, hev, rfl⟩ := h
  exact ⟨-m, e, by rwa [abs_neg], he, by rwa [abs_neg], hev.neg, by push_cast; ring⟩

/-- The normalised form of a nonnegative number. -/
lemma b64_normal {x : ℝ} (h : Binary64 x) (hx : 0 ≤ x) :
    ∃ m e : ℤ, 0 ≤ m ∧ m < 2 ^ 53 ∧ -1074 ≤ e ∧ (2 ^ 52 ≤ m ∨ e = -1074) ∧ x = m * (2 : ℝ) ^ e := by
  obtain ⟨m, e, hm, he, rfl⟩ := h
  obtain ⟨d, hd⟩ := Int.exists_add_of_le he
  have hm0 : 0 ≤ m := by
    have : (0 : ℝ) ≤ m := by
      by_contra hc
      push Not at hc
      have := mul_neg_of_neg_of_pos hc (zpow_pos (by norm_num : (0 : ℝ) < 2) e)
      linarith
    exact_mod_cast this
  rw [abs_of_nonneg hm0] at hm
  clear hx
  induction d generalizing m e with
  | zero => exact ⟨m, e, hm0, hm, he, Or.inr (by simpa using hd), rfl⟩
  | succ d ih =>
    by_cases hbig : 2 ^ 52 ≤ m
    · exact ⟨m, e, hm0, hm, he, Or.inl hbig, rfl⟩
    · push_cast at hd
      have e1 : (m : ℝ) * 2 ^ e = ((2 * m : ℤ) : ℝ) * 2 ^ (e - 1) := by
        rw [zpow_sub_one₀ (by norm_num)]; push_cast; ring
      rw [e1]
      exact ih (2 * m) (e - 1) (by omega) (by omega) (by omega) (by omega)

/-- Of two numbers equally near to `x ≥ 0` with none nearer, one is even. -/
lemma even_of_tie {x y z : ℝ} (hy : Binary64 y) (hz : Binary64 z) (hy0 : 0 ≤ y) (hyz : y < z) (h1 : x - y = z - x)
    (hmin : ∀ w, Binary64 w → x - y ≤ |x - w|) : EvenSignificand y ∨ EvenSignificand z := by
  obtain ⟨m, e, hm0, hm, he, hn, rfl⟩ := b64_normal hy hy0
  have hp : (0 : ℝ) < 2 ^ e := zpow_pos (by norm_num) _
  rcases Int.even_or_odd m with hev | hodd
  · left
    exact ⟨m, e, by rwa [abs_of_nonneg hm0], he, by rwa [abs_of_nonneg hm0], hev, rfl⟩
  right
  -- the number above `y`
  have hs : Binary64 (((m + 1 : ℤ) : ℝ) * 2 ^ e) := by
    by_cases hlast : m + 1 = 2 ^ 53
    · refine ⟨2 ^ 52, e + 1, by norm_num, by omega, ?_⟩
      rw [hlast, zpow_add_one₀ (by norm_num)]; push_cast; ring
    · exact ⟨m + 1, e, by rw [abs_of_nonneg (by omega)]; omega, he, rfl⟩
  have hz1 : z ≤ ((m + 1 : ℤ) : ℝ) * 2 ^ e := by
    have := hmin _ hs
    push_cast at this ⊢
    rcases abs_cases (x - ((m : ℝ) + 1) * 2 ^ e) with ⟨a, b⟩ | ⟨a, b⟩ <;> nlinarith
  have hz2 : ((m + 1 : ℤ) : ℝ) * 2 ^ e ≤ z := by
    obtain ⟨m', e', hm0', hm', he', hn', rfl⟩ := b64_normal hz (hy0.trans hyz.le)
    have key : e ≤ e' := by
      rcases hn with hn | hn
      · by_contra hc
        push Not at hc
        obtain ⟨d, hd⟩ := Int.exists_add_of_le (show e' + 1 ≤ e by omega)
        have e1 : (2 : ℝ) ^ e = 2 ^ e' * 2 * 2 ^ d := by
          rw [hd, zpow_add₀ (by norm_num), zpow_add_one₀ (by norm_num), zpow_natCast]
        rw [e1] at hyz
        have hp' : (0 : ℝ) < 2 ^ e' := zpow_pos (by norm_num) _
        have h3 : ((m * 2 * 2 ^ d : ℤ) : ℝ) < m' := by
          push_cast; by_contra hc'; push Not at hc'; nlinarith
        have h4 : m * 2 * 2 ^ d < m' := by exact_mod_cast h3
        have h5 : (1 : ℤ) ≤ 2 ^ d := one_le_pow₀ (by norm_num)
        nlinarith
      · omega
    obtain ⟨d, rfl⟩ := Int.exists_add_of_le key
    have e1 : (m' : ℝ) * 2 ^ (e + (d : ℤ)) = ((m' * 2 ^ d : ℤ) : ℝ) * 2 ^ e := by
      rw [zpow_add₀ (by norm_num), zpow_natCast]; push_cast; ring
    rw [e1] at hyz ⊢
    have h3 : (m : ℝ) < ((m' * 2 ^ d : ℤ) : ℝ) := lt_of_mul_lt_mul_right hyz hp.le
    have h4 : m < m' * 2 ^ d := by exact_mod_cast h3
    have h5 : m + 1 ≤ m' * 2 ^ d := h4
    exact mul_le_mul_of_nonneg_right (by exact_mod_cast h5) hp.le
  have hz3 : z = ((m + 1 : ℤ) : ℝ) * 2 ^ e := le_antisymm hz1 hz2
  by_cases hlast : m + 1 = 2 ^ 53
  · refine ⟨2 ^ 52, e + 1, by norm_num, by omega, Or.inl (by norm_num), ⟨2 ^ 51, by norm_num⟩, ?_⟩
    rw [hz3, hlast, zpow_add_one₀ (by norm_num)]; push_cast; ring
  · refine ⟨m + 1, e, by rw [abs_of_nonneg (by omega)]; omega, he, ?_, hodd.add_one, hz3⟩
    rw [abs_of_nonneg (by omega)]
    rcases hn with hn | hn
    · exact Or.inl (by omega)
    · exact Or.inr hn

/-- Two different nearest numbers lie on either side. -/
lemma tie_sides {x y z : ℝ} (hyz : y < z) (h : |x - y| = |x - z|) : y < x ∧ x < z ∧ x - y = z - x := by
  rcases abs_eq_abs.1 h with h1 | h1
  · exact absurd hyz (by linarith)
  · exact ⟨by linarith, by linarith, by linarith⟩

/-- Every real has a nearest number with the tie rule. -/
lemma exists_nearest_even (x : ℝ) : ∃ z, Binary64 z ∧ (∀ y, Binary64 y → |x - z| ≤ |x - y|) ∧
    ∀ y, Binary64 y → y ≠ z → |x - y| = |x - z| → EvenSignificand z := by
  obtain ⟨z, hz, hmin⟩ := exists_nearest x
  by_cases hev : EvenSignificand z
  · exact ⟨z, hz, hmin, fun _ _ _ _ => hev⟩
  by_cases htie : ∃ y, Binary64 y ∧ y ≠ z ∧ |x - y| = |x - z|
  swap
  · exact ⟨z, hz, hmin, fun y hy hne he => absurd ⟨y, hy, hne, he⟩ htie⟩
  obtain ⟨y, hy, hne, he⟩ := htie
  refine ⟨y, hy, fun w hw => he.le.trans (hmin w hw), fun _ _ _ _ => ?_⟩
  have h0 := hmin 0 b64_zero
  rw [sub_zero] at h0
  rcases lt_or_gt_of_ne hne with hlt | hlt
  · obtain ⟨a, b, c⟩ := tie_sides hlt he
    have hzx : |x - z| = x - y := by rw [← he, abs_of_pos (by linarith)]
    rcases le_or_gt 0 x with hx | hx
    · rw [abs_of_nonneg hx, hzx] at h0
      rcases even_of_tie hy hz (by linarith) hlt c (fun w hw => hzx ▸ hmin w hw) with h | h
      · exact h
      · exact absurd h hev
    · rw [abs_of_neg hx, hzx] at h0
      rcases even_of_tie (x := -x) (b64_neg hz) (b64_neg hy) (by linarith) (by linarith) (by linarith)
        (fun w hw => by
          have := hmin _ (b64_neg hw)
          rw [hzx] at this
          rw [show -x - w = -(x - -w) by ring, abs_neg]; linarith) with h | h
      · exact absurd (by simpa using even_neg h) hev
      · simpa using even_neg h
  · obtain ⟨a, b, c⟩ := tie_sides hlt he.symm
    have hzx : |x - z| = x - z := abs_of_pos (by linarith)
    rcases le_or_gt 0 x with hx | hx
    · rw [abs_of_nonneg hx, hzx] at h0
      rcases even_of_tie hz hy (by linarith) hlt c (fun w hw => hzx ▸ hmin w hw) with h | h
      · exact absurd h hev
      · exact h
    · rw [abs_of_neg hx, hzx] at h0
      rcases even_of_tie (x := -x) (b64_neg hy) (b64_neg hz) (by linarith) (by linarith) (by linarith)
        (fun w hw => by
          have := hmin _ (b64_neg hw)
          rw [hzx] at this
          rw [show -x - w = -(x - -w) by ring, abs_neg]; linarith) with h | h
      · simpa using even_neg h
      · exact absurd (by simpa using even_neg h) hev

/-- IEEE rounding exists. -/
lemma exists_ieee : ∃ rnd, RoundsToNearest rnd ∧ TiesToEven rnd := by
  choose f h1 h2 h3 using exists_nearest_even
  exact ⟨f, fun x => ⟨h1 x, h2 x⟩, h3⟩

/-- A number with odd 53 bit significand is not even. -/
lemma not_even {a f : ℤ} (ha : 2 ^ 52 ≤ a) (hodd : Odd a) : ¬ EvenSignificand ((a : ℝ) * 2 ^ f) := by
  rintro ⟨m, e, hm, -, -, hev, he⟩
  rcases le_total e f with hef | hef
  · obtain ⟨d, rfl⟩ := Int.exists_add_of_le hef
    have hp : (0 : ℝ) < 2 ^ e := zpow_pos (by norm_num) _
    rw [zpow_add₀ (by norm_num), zpow_natCast] at he
    have h1 : ((a * 2 ^ d : ℤ) : ℝ) = m := by
      push_cast; apply mul_right_cancel₀ hp.ne'; rw [← he]; ring
    have h2 : a * 2 ^ d = m := by exact_mod_cast h1
    rcases Nat.eq_zero_or_pos d with rfl | hd
    · rw [pow_zero, mul_one] at h2
      subst h2
      exact (Int.not_even_iff_odd.2 hodd) hev
    · obtain ⟨d', rfl⟩ := Nat.exists_eq_succ_of_ne_zero hd.ne'
      rw [← h2, pow_succ, abs_lt] at hm
      have h5 : (1 : ℤ) ≤ 2 ^ d' := one_le_pow₀ (by norm_num)
      nlinarith [hm.2]
  · obtain ⟨d, rfl⟩ := Int.exists_add_of_le hef
    have hp : (0 : ℝ) < 2 ^ f := zpow_pos (by norm_num) _
    rw [zpow_add₀ (by norm_num), zpow_natCast] at he
    have h1 : (a : ℝ) = ((m * 2 ^ d : ℤ) : ℝ) := by
      push_cast; apply mul_right_cancel₀ hp.ne'; rw [he]; ring
    have h2 : a = m * 2 ^ d := by exact_mod_cast h1
    exact (Int.not_even_iff_odd.2 hodd) (h2 ▸ hev.mul_right _)

namespace Spec.RoundsToNearest

variable {rnd : ℝ → ℝ} (h : RoundsToNearest rnd)
include h

lemma self {x : ℝ} (hx : Binary64 x) : rnd x = x := by
  have := (h x).2 x hx
  rw [sub_self, abs_zero] at this
  have := abs_nonpos_iff.1 this
  linarith

lemma zero : rnd 0 = 0 := h.self b64_zero

lemma mono {x y : ℝ} (hxy : x ≤ y) : rnd x ≤ rnd y := by
  by_contra hc
  push Not at hc
  have h1 := (h x).2 _ (h y).1
  have h2 := (h y).2 _ (h x).1
  have h3 : (rnd x + rnd y) / 2 ≤ x := by
    by_contra h3
    push Not at h3
    rw [abs_sub_comm x, abs_of_pos (by linarith : 0 < rnd x - x)] at h1
    rcases abs_cases (x - rnd y) with ⟨a, b⟩ | ⟨a, b⟩ <;> linarith
  have h4 : y ≤ (rnd x + rnd y) / 2 := by
    by_contra h4
    push Not at h4
    rw [abs_of_pos (by linarith : 0 < y - rnd y)] at h2
    rcases abs_cases (y - rnd x) with ⟨a, b⟩ | ⟨a, b⟩ <;> linarith
  have : x = y := by linarith
  subst this
  exact lt_irrefl _ hc

lemma le_of_le {x y : ℝ} (hy : Binary64 y) (hxy : x ≤ y) : rnd x ≤ y := by
  have := h.mono hxy
  rwa [h.self hy] at this

lemma ge_of_ge {x y : ℝ} (hx : Binary64 x) (hxy : x ≤ y) : x ≤ rnd y := by
  have := h.mono hxy
  rwa [h.self hx] at this

lemma lt_of_lt {x y : ℝ} (hy : Binary64 y) (hxy : rnd x < y) : x < y := by
  by_contra hc
  push Not at hc
  exact absurd (h.ge_of_ge hy hc) (not_le.2 hxy)

lemma gt_of_gt {x y : ℝ} (hx : Binary64 x) (hxy : x < rnd y) : x < y := by
  by_contra hc
  push Not at hc
  exact absurd (h.le_of_le hx hc) (not_le.2 hxy)

/-- Rounding error of numbers up to `2^k`. -/
lemma err {x : ℝ} (k : ℤ) (hk : -1021 ≤ k) (hx : |x| ≤ 2 ^ k) : |x - rnd x| ≤ 2 ^ (k - 54) := by
  set i : ℤ := round (x / 2 ^ (k - 53)) with hi
  have hp : (0 : ℝ) < 2 ^ (k - 53) := zpow_pos (by norm_num) _
  have e1 : (2 : ℝ) ^ (k - 54) = 1 / 2 * 2 ^ (k - 53) := by
    rw [show k - 54 = -1 + (k - 53) by ring, zpow_add₀ (by norm_num)]; norm_num
  have e2 : (2 : ℝ) ^ k = 2 ^ 53 * 2 ^ (k - 53) := by
    rw [show (2 : ℝ) ^ 53 = 2 ^ (53 : ℤ) by norm_cast, ← zpow_add₀ (by norm_num)]; congr 1; ring
  have hr : |x - i * 2 ^ (k - 53)| ≤ 2 ^ (k - 54) := by
    have := abs_sub_round (x / (2 : ℝ) ^ (k - 53))
    rw [e1]
    have e : x - i * 2 ^ (k - 53) = (x / 2 ^ (k - 53) - i) * 2 ^ (k - 53) := by
      field_simp
    rw [e, abs_mul, abs_of_pos hp]
    exact mul_le_mul_of_nonneg_right this hp.le
  have hq : |x / 2 ^ (k - 53)| ≤ 2 ^ 53 := by
    rw [abs_div, abs_of_pos hp, div_le_iff₀ hp, ← e2]; exact hx
  have hi' : |i| ≤ 2 ^ 53 := by
    have h1 := abs_sub_round (x / (2 : ℝ) ^ (k - 53))
    rw [← hi] at h1
    have h2 : |(i : ℝ)| < 2 ^ 53 + 1 := by
      have := abs_sub_abs_le_abs_sub (i : ℝ) (x / 2 ^ (k - 53))
      rw [abs_sub_comm] at this
      linarith
    have h3 : |i| < 2 ^ 53 + 1 := by exact_mod_cast h2
    omega
  have hb : Binary64 (i * (2 : ℝ) ^ (k - 53)) := by
    rcases lt_or_eq_of_le hi' with hlt | heq
    · exact b64_mk i (k - 53) hlt (by omega)
    · rcases abs_choice i with hc | hc
      · rw [heq] at hc
        have : (i : ℝ) = 2 ^ 53 := by rw [← hc]; norm_num
        rw [this, ← e2]
        exact b64_two_pow k (by omega)
      · rw [heq] at hc
        have : (i : ℝ) = -2 ^ 53 := by
          have : i = -2 ^ 53 := by omega
          rw [this]; norm_num
        rw [this, neg_mul, ← e2]
        exact b64_neg (b64_two_pow k (by omega))
  exact ((h x).2 _ hb).trans hr

/-- The middle between two neighbours goes down to an even number. -/
lemma tie_down (ht : TiesToEven rnd) {a f : ℤ} (ha : 2 ^ 52 ≤ a) (ha' : a + 1 < 2 ^ 53) (hev : Even a) (hf : -1074 ≤ f) :
    rnd (((a : ℝ) + 1 / 2) * 2 ^ f) = a * 2 ^ f := by
  have hp : (0 : ℝ) < 2 ^ f := zpow_pos (by norm_num) _
  have haR : (2 : ℝ) ^ 52 ≤ a := by exact_mod_cast ha
  have hb0 : Binary64 ((a : ℝ) * 2 ^ f) := b64_mk a f (by rw [abs_of_nonneg (by omega)]; omega) hf
  set x : ℝ := ((a : ℝ) + 1 / 2) * 2 ^ f with hx
  have hge : (a : ℝ) * 2 ^ f ≤ rnd x := h.ge_of_ge hb0 (by nlinarith)
  have hpow : (2 : ℝ) ^ (f + 52) = 2 ^ 52 * 2 ^ f := by
    rw [zpow_add₀ (by norm_num), mul_comm]; norm_cast
  obtain ⟨i, hi⟩ := b64_grid (h x).1 (f + 52) (by
    rw [hpow, abs_of_nonneg (le_trans (by positivity) hge)]
    exact (mul_le_mul_of_nonneg_right haR hp.le).trans hge)
  rw [show f + 52 - 52 = f by ring] at hi
  have hn := (h x).2 _ hb0
  rw [show x - (a : ℝ) * 2 ^ f = 1 / 2 * 2 ^ f by rw [hx]; ring, abs_of_pos (show (0 : ℝ) < 1 / 2 * 2 ^ f by linarith)] at hn
  rw [hi] at hge hn ⊢
  have h1 : a ≤ i := by
    have := le_of_mul_le_mul_right hge hp
    exact_mod_cast this
  have h2 : i ≤ a + 1 := by
    have h3 := (abs_le.1 hn).1
    have h4 : (i : ℝ) ≤ ((a + 1 : ℤ) : ℝ) := by
      push_cast
      by_contra hc
      push Not at hc
      rw [hx] at h3
      nlinarith
    exact_mod_cast h4
  rcases (show i = a ∨ i = a + 1 by omega) with e | e
  · rw [e]
  · exfalso
    have hE := ht x _ hb0 (by
      rw [hi, e]; push_cast; intro hc
      nlinarith) (by
      rw [hi, e, show x - (a : ℝ) * 2 ^ f = 1 / 2 * 2 ^ f by rw [hx]; ring,
        show x - ((a + 1 : ℤ) : ℝ) * 2 ^ f = -(1 / 2 * 2 ^ f) by rw [hx]; push_cast; ring, abs_neg])
    rw [hi, e] at hE
    exact not_even (by omega) hev.add_one hE

end Spec.RoundsToNearest

end Dg1d
