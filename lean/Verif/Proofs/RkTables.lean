import Verif.Proofs.RkStep
import Verif.Model.Integrate
import Mathlib.Tactic.IntervalCases
import Mathlib.Algebra.QuadraticAlgebra.Basic
import Mathlib.Tactic.LinearCombination

/-! Helper lemmas: consistency and order conditions of the shipped tables. -/

set_option linter.unusedSectionVars false

namespace Dg1d
open Spec

/-! ### Enumerating ordered trees -/

lemma RTree.size_pos (t : RTree) : 0 < t.size := by
  induction t with
  | leaf => simp [RTree.size]
  | graft t s h1 h2 => simp [RTree.size]; omega

/-- All trees with 1, 2, …, n vertices, by number of vertices. -/
def treeTable : ℕ → List (List RTree)
  | 0 => []
  | n + 1 =>
    let T := treeTable n
    T ++ [if n = 0 then [.leaf] else (List.range n).flatMap fun i =>
      (T.getD i []).flatMap fun t => (T.getD (n - 1 - i) []).map fun s => .graft t s]

/-- All trees with exactly `n` vertices (`n ≥ 1`). -/
def treesOf (n : ℕ) : List RTree := (treeTable n).getD (n - 1) []

lemma treeTable_length (n : ℕ) : (treeTable n).length = n := by
  induction n with
  | zero => rfl
  | succ n ih => simp [treeTable, ih]

lemma treeTable_getD {m n k : ℕ} (hm : k < m) (h : m ≤ n) :
    (treeTable n).getD k [] = (treeTable m).getD k [] := by
  induction n, h using Nat.le_induction with
  | base => rfl
  | succ n hmn ih =>
    rw [← ih]
    have : k < (treeTable n).length := by rw [treeTable_length]; omega
    rw [List.getD_eq_getElem?_getD, List.getD_eq_getElem?_getD]
    conv_lhs => rw [treeTable]
    rw [List.getElem?_append_left this]

lemma mem_treesOf (t : RTree) : t ∈ treesOf t.size := by
  induction t with
  | leaf => simp [RTree.size, treesOf, treeTable]
  | graft t s ht hs =>
    have h1 := RTree.size_pos t
    have h2 := RTree.size_pos s
    obtain ⟨n, hn⟩ : ∃ n, t.size + s.size = n + 2 := ⟨t.size + s.size - 2, by omega⟩
    unfold treesOf at *
    simp only [RTree.size]
    rw [hn, treeTable]
    have hlen : (treeTable (n + 1)).length = n + 1 := treeTable_length _
    rw [List.getD_eq_getElem?_getD, List.getElem?_append_right (by rw [hlen]; omega), hlen]
    simp only [show n + 2 - 1 - (n + 1) = 0 by omega, List.getElem?_cons_zero, Option.getD_some]
    rw [if_neg (by omega), List.mem_flatMap]
    refine ⟨t.size - 1, by simp; omega, ?_⟩
    rw [List.mem_flatMap]
    refine ⟨t, ?_, ?_⟩
    · rw [treeTable_getD (m := t.size) (by omega) (by omega)]; exact ht
    · rw [List.mem_map]
      refine ⟨s, ?_, rfl⟩
      rw [treeTable_getD (m := s.size) (by omega) (by omega),
        show n + 1 - 1 - (t.size - 1) = s.size - 1 by omega]
      exact hs

/-! ### Mapping a table along a ring homomorphism -/

section Map
variable {A B : Type*} [CommRing A] [Field B]

/-- `stageWeight` over a commutative ring as lists, for evaluation. -/
def weightList (n : ℕ) (rows : List (List A)) : RTree → List A
  | .leaf => List.replicate n 1
  | .graft t s =>
    let ws := weightList n rows s
    (weightList n rows t).zipWith (fun x row => x * ((row.zipWith (· * ·) ws).sum)) rows

/-- Boolean-checkable order condition. -/
def orderCheck (b : List A) (rows : List (List A)) (t : RTree) : Prop :=
  ((b.zipWith (· * ·) (weightList b.length rows t)).sum) * (t.density : A) = 1

instance [DecidableEq A] (b : List A) (rows : List (List A)) (t : RTree) :
    Decidable (orderCheck b rows t) := by unfold orderCheck; infer_instance

/-- A table given by rows of full length. -/
structure Square (b : List A) (rows : List (List A)) : Prop where
  nrows : rows.length = b.length
  ncols : ∀ r ∈ rows, r.length = b.length

lemma sum_zipWith_eq (f : A →+* B) (x y : List A) (n : ℕ) (hx : x.length = n) (hy : y.length = n) :
    f ((x.zipWith (· * ·) y).sum) = ∑ j ∈ Finset.range n, f (x.getD j 0) * f (y.getD j 0) := by
  induction x generalizing y n with
  | nil => simp at hx; subst hx; simp
  | cons a x ih =>
    cases y with
    | nil => simp at hy; subst hy; simp at hx
    | cons b y =>
      obtain ⟨m, rfl⟩ : ∃ m, n = m + 1 := ⟨n - 1, by simp at hx; omega⟩
      simp only [List.zipWith_cons_cons, List.sum_cons, map_add, map_mul]
      rw [ih y m (by simpa using hx) (by simpa using hy), Finset.sum_range_succ']
      simp [add_comm]

lemma weightList_spec (f : A →+* B) (b : List A) (rows : List (List A)) (h : Square b rows)
    (beta : ℕ → ℕ → B) (hbeta : ∀ k < b.length, ∀ j < b.length, beta k j = f ((rows.getD k []).getD j 0))
    (t : RTree) : (weightList b.length rows t).length = b.length ∧
      ∀ i < b.length, t.stageWeight b.length beta i = f ((weightList b.length rows t).getD i 0) := by
  induction t with
  | leaf =>
    refine ⟨by simp [weightList], fun i hi => ?_⟩
    simp [weightList, RTree.stageWeight, List.getD_eq_getElem?_getD, hi]
  | graft t s ht hs =>
    have hl : (weightList b.length rows (.graft t s)).length = b.length := by
      simp [weightList, ht.1, h.nrows]
    refine ⟨hl, fun i hi => ?_⟩
    have hrow : (rows.getD i []).length = b.length := by
      apply h.ncols
      rw [List.getD_eq_getElem?_getD, List.getElem?_eq_getElem (by rw [h.nrows]; exact hi)]
      simp
    have hget : (weightList b.length rows (.graft t s)).getD i 0 =
        (weightList b.length rows t).getD i 0 *
          (((rows.getD i []).zipWith (· * ·) (weightList b.length rows s)).sum) := by
      have hi1 : i < (weightList b.length rows t).length := by rw [ht.1]; exact hi
      have hi2 : i < rows.length := by rw [h.nrows]; exact hi
      simp [weightList, List.getD_eq_getElem?_getD, hi1, hi2]
    rw [hget, map_mul, ← ht.2 i hi, sum_zipWith_eq f _ _ b.length hrow hs.1]
    simp only [RTree.stageWeight]
    congr 1
    apply Finset.sum_congr rfl
    intro j hj
    rw [hbeta i hi j (Finset.mem_range.mp hj), hs.2 j (Finset.mem_range.mp hj)]

lemma orderCondition_of_check (f : A →+* B) (b : List A) (rows : List (List A)) (h : Square b rows)
    (beta : ℕ → ℕ → B) (hbeta : ∀ k < b.length, ∀ j < b.length, beta k j = f ((rows.getD k []).getD j 0))
    (t : RTree) (hc : orderCheck b rows t) : OrderCondition (b.map f) beta t := by
  unfold OrderCondition
  have hw := weightList_spec f b rows h beta hbeta t
  unfold orderCheck at hc
  have := congrArg f hc
  rw [map_mul, map_one, map_natCast, sum_zipWith_eq f b _ b.length rfl hw.1, Finset.sum_mul] at this
  rw [List.length_map, ← this]
  apply Finset.sum_congr rfl
  intro i hi
  rw [hw.2 i (Finset.mem_range.mp hi)]
  congr 2
  rw [List.getD_eq_getElem?_getD, List.getD_eq_getElem?_getD, List.getElem?_map,
    List.getElem?_eq_getElem (Finset.mem_range.mp hi)]
  simp

lemma hasOrder_of_check (f : A →+* B) (b : List A) (rows : List (List A)) (h : Square b rows)
    (beta : ℕ → ℕ → B) (hbeta : ∀ k < b.length, ∀ j < b.length, beta k j = f ((rows.getD k []).getD j 0))
    (p : ℕ) (hc : ∀ n ≤ p, ∀ t ∈ treesOf n, orderCheck b rows t) : HasOrder (b.map f) beta p := by
  intro t ht
  exact orderCondition_of_check f b rows h beta hbeta t (hc _ ht _ (mem_treesOf t))

end Map

/-- Rows of a table padded with a zero column (betas has one column less than it has rows). -/
def padRows {A : Type*} [Zero A] (rows : List (List A)) : List (List A) := rows.map (· ++ [0])

lemma padRows_getD {A : Type*} [Zero A] (rows : List (List A)) (k j : ℕ) :
    ((padRows rows).getD k []).getD j 0 = (rows.getD k []).getD j 0 := by
  unfold padRows
  by_cases hk : k < rows.length
  · simp only [List.getD_eq_getElem?_getD, List.getElem?_map, List.getElem?_eq_getElem hk, Option.map_some,
      Option.getD_some]
    by_cases hj : j < (rows[k]).length
    · simp [List.getElem?_append_left hj]
    · rw [List.getElem?_append_right (by omega)]
      rw [List.getElem?_eq_none (l := rows[k]) (by omega)]
      cases j - (rows[k]).length with
      | zero => simp
      | succ m => simp
  · simp [List.getD_eq_getElem?_getD, List.getElem?_eq_none (by omega : rows.length ≤ k)]

/-! ### The number field ℚ(√5) for rk6 -/

/-- ℚ(√5) with exact arithmetic. -/
abbrev Q5 := QuadraticAlgebra ℚ 5 0

/-- √5 ↦ the real square root. -/
noncomputable def q5ToReal : Q5 →+* ℝ :=
  { toFun := fun z => (z.re : ℝ) + z.im * √5
    map_one' := by simp [QuadraticAlgebra.re_one, QuadraticAlgebra.im_one]
    map_zero' := by simp
    map_add' := by intro x y; simp; ring
    map_mul' := by
      intro x y
      have h5 : √5 * √5 = (5 : ℝ) := Real.mul_self_sqrt (by norm_num)
      simp
      linear_combination (-(x.im : ℝ) * y.im) * h5 }

lemma q5ToReal_apply (a b : ℚ) : q5ToReal ⟨a, b⟩ = (a : ℝ) + b * √5 := rfl

end Dg1d
namespace Dg1d
open Spec

/-- rk6's weights, abscissae and matrix as elements of ℚ(√5). -/
def rk6Q5Coeffs : List Q5 := [⟨1 / 12, 0⟩, ⟨0, 0⟩, ⟨0, 0⟩, ⟨0, 0⟩, ⟨5 / 12, 0⟩, ⟨5 / 12, 0⟩, ⟨1 / 12, 0⟩]
/-- see `rk6Q5Coeffs` -/
def rk6Q5Alphas : List Q5 := [⟨0, 0⟩, ⟨4 / 7, 0⟩, ⟨5 / 7, 0⟩, ⟨6 / 7, 0⟩, ⟨1 / 2, -1 / 10⟩, ⟨1 / 2, 1 / 10⟩, ⟨1, 0⟩]
/-- see `rk6Q5Coeffs` -/
def rk6Q5Betas : List (List Q5) := [
  [⟨0, 0⟩, ⟨0, 0⟩, ⟨0, 0⟩, ⟨0, 0⟩, ⟨0, 0⟩, ⟨0, 0⟩],
  [⟨4 / 7, 0⟩, ⟨0, 0⟩, ⟨0, 0⟩, ⟨0, 0⟩, ⟨0, 0⟩, ⟨0, 0⟩],
  [⟨115 / 112, 0⟩, ⟨-5 / 16, 0⟩, ⟨0, 0⟩, ⟨0, 0⟩, ⟨0, 0⟩, ⟨0, 0⟩],
  [⟨589 / 630, 0⟩, ⟨5 / 18, 0⟩, ⟨-16 / 45, 0⟩, ⟨0, 0⟩, ⟨0, 0⟩, ⟨0, 0⟩],
  [⟨229 / 1200, -29 / 6000⟩, ⟨119 / 240, -187 / 1200⟩, ⟨-14 / 75, 34 / 375⟩, ⟨0, -3 / 100⟩, ⟨0, 0⟩, ⟨0, 0⟩],
  [⟨71 / 2400, -587 / 12000⟩, ⟨187 / 480, -391 / 2400⟩, ⟨-38 / 75, 26 / 375⟩, ⟨27 / 80, -3 / 400⟩, ⟨1 / 4, 1 / 4⟩, ⟨0, 0⟩],
  [⟨-49 / 480, 43 / 160⟩, ⟨-425 / 96, 51 / 32⟩, ⟨52 / 15, -4 / 5⟩, ⟨-27 / 16, 3 / 16⟩, ⟨5 / 4, -3 / 4⟩, ⟨5 / 2, -1 / 2⟩]]

lemma rk6_coeffs_eq : rk6.coeffs = rk6Q5Coeffs.map q5ToReal := by
  simp [rk6, Tableau.ofRows, rk6Coeffs, rk6Q5Coeffs, q5ToReal_apply]

lemma rk6_alphas_eq : rk6.alphas = rk6Q5Alphas.map q5ToReal := by
  simp only [rk6, Tableau.ofRows, rk6Alphas, rk6Q5Alphas, q5ToReal_apply, List.map_cons, List.map_nil,
    List.cons.injEq, and_true]
  refine ⟨?_, ?_, ?_, ?_, ?_, ?_, ?_⟩ <;> push_cast <;> ring

lemma rk6_betas_eq : rk6Betas = rk6Q5Betas.map (fun r => r.map q5ToReal) := by
  simp only [rk6Betas, rk6Q5Betas, q5ToReal_apply, List.map_cons, List.map_nil, List.cons.injEq, and_true]
  refine ⟨?_, ?_, ?_, ?_, ?_, ?_, ?_⟩ <;> refine ⟨?_, ?_, ?_, ?_, ?_, ?_⟩ <;> push_cast <;> ring

lemma getD_map_map {A B : Type*} [CommRing A] [Field B] (f : A →+* B) (rows : List (List A)) (k j : ℕ) :
    ((rows.map (fun r => r.map f)).getD k []).getD j 0 = f ((rows.getD k []).getD j 0) := by
  by_cases hk : k < rows.length
  · by_cases hj : j < (rows[k]).length
    · simp [List.getD_eq_getElem?_getD, hk, hj]
    · simp [List.getD_eq_getElem?_getD, hk, List.getElem?_eq_none (not_lt.mp hj)]
  · simp [List.getD_eq_getElem?_getD, List.getElem?_eq_none (not_lt.mp hk)]

lemma rk6_beta_eq (k j : ℕ) : rk6.beta k j = q5ToReal ((rk6Q5Betas.getD k []).getD j 0) := by
  show (rk6Betas.getD k []).getD j 0 = _
  rw [rk6_betas_eq, getD_map_map]

/-! ### Consistency -/

/-- Checkable version of `Spec.Consistent`. -/
def consistentCheck {A : Type*} [CommRing A] (b a : List A) (rows : List (List A)) : Prop :=
  a.length = b.length ∧ b.sum = 1 ∧
  (∀ k < b.length, ∀ j < b.length, k ≤ j → (rows.getD k []).getD j 0 = 0) ∧
  (∀ k < b.length, ∑ j ∈ Finset.range k, (rows.getD k []).getD j 0 = a.getD k 0)

instance {A : Type*} [CommRing A] [DecidableEq A] (b a : List A) (rows : List (List A)) :
    Decidable (consistentCheck b a rows) := by unfold consistentCheck; infer_instance

lemma getD_map {A B : Type*} [CommRing A] [Field B] (f : A →+* B) (l : List A) (k : ℕ) :
    (l.map f).getD k 0 = f (l.getD k 0) := by
  by_cases hk : k < l.length
  · simp [List.getD_eq_getElem?_getD, hk]
  · simp [List.getD_eq_getElem?_getD, List.getElem?_eq_none (not_lt.mp hk)]

lemma consistent_of_check {A B : Type*} [CommRing A] [Field B] (f : A →+* B) (b a : List A)
    (rows : List (List A)) (beta : ℕ → ℕ → B) (hbeta : ∀ k j, beta k j = f ((rows.getD k []).getD j 0))
    (h : consistentCheck b a rows) : Consistent (b.map f) (a.map f) beta := by
  obtain ⟨h1, h2, h3, h4⟩ := h
  refine ⟨by simp [h1], ?_, ?_, ?_⟩
  · intro k hk j hj hkj
    rw [List.length_map] at hk hj
    rw [hbeta, h3 k hk j hj hkj, map_zero]
  · rw [← map_list_sum, h2, map_one]
  · intro k hk
    rw [List.length_map] at hk
    rw [getD_map, ← h4 k hk, map_sum]
    exact Finset.sum_congr rfl fun j _ => hbeta k j

/-- Rational table entries that are zero or larger than 1e-15. -/
def fineCheck (tab : Tableau ℚ) : Prop :=
  tab.alphas.length = tab.coeffs.length ∧
  (∀ k < tab.coeffs.length, NotTiny (tab.coeffs.getD k 0)) ∧
  (∀ k < tab.coeffs.length, ∀ j < k, NotTiny (tab.beta k j))

instance (a : ℚ) : Decidable (NotTiny a) := by unfold NotTiny; infer_instance
instance (tab : Tableau ℚ) : Decidable (fineCheck tab) := by unfold fineCheck; infer_instance

lemma notTiny_cast {K : Type*} [Field K] [LinearOrder K] [IsStrictOrderedRing K] {a : ℚ} (h : NotTiny a) :
    NotTiny (a : K) := by
  rcases h with rfl | h
  · left; simp
  · right
    have : ((1 / 10 ^ 15 : ℚ) : K) < ((|a| : ℚ) : K) := by exact_mod_cast h
    push_cast at this
    exact this

lemma fine_of_check {K : Type*} [Field K] [LinearOrder K] [IsStrictOrderedRing K] {tab : Tableau ℚ}
    (h : fineCheck tab) : (tab.map (fun q : ℚ => (q : K))).Fine := by
  obtain ⟨h1, h2, h3⟩ := h
  refine ⟨by simp [Tableau.map, h1], ?_, ?_⟩
  · intro k hk
    simp only [Tableau.map, List.length_map] at hk ⊢
    have := getD_map (Rat.castHom K) tab.coeffs k
    simp only [Rat.coe_castHom] at this
    rw [this]
    exact notTiny_cast (h2 k hk)
  · intro k hk j hj
    simp only [Tableau.map, List.length_map] at hk ⊢
    exact notTiny_cast (h3 k hk j hj)

lemma rk6_fine : rk6.Fine := by
  have h1 : (2.236 : ℝ) < √5 := by
    rw [Real.lt_sqrt (by norm_num)]; norm_num
  have h2 : √5 < (2.237 : ℝ) := by
    rw [Real.sqrt_lt' (by norm_num)]; norm_num
  refine ⟨rfl, ?_, ?_⟩
  · intro k hk
    have : k < 7 := hk
    interval_cases k <;> simp only [rk6, Tableau.ofRows, rk6Coeffs, List.getD_cons_zero, List.getD_cons_succ] <;>
      first
      | (left; rfl)
      | (right; rw [gt_iff_lt, lt_abs]; left; norm_num)
  · intro k hk j hj
    have : k < 7 := hk
    interval_cases k <;> interval_cases j <;>
      simp only [rk6, Tableau.ofRows, rk6Betas, List.getD_cons_zero, List.getD_cons_succ] <;>
      first
      | (right; rw [gt_iff_lt, lt_abs]; left; norm_num; done)
      | (right; rw [gt_iff_lt, lt_abs]; right; norm_num; done)
      | (right; rw [gt_iff_lt, lt_abs]; left; norm_num at h1 h2 ⊢; linarith)
      | (right; rw [gt_iff_lt, lt_abs]; right; norm_num at h1 h2 ⊢; linarith)

lemma hbeta_cast {K : Type*} [Field K] [CharZero K] (rows : List (List ℚ)) (k j : ℕ) (c a : List ℚ) :
    ((Tableau.ofRows c a rows).map (fun q : ℚ => (q : K))).beta k j =
      Rat.castHom K (((padRows rows).getD k []).getD j 0) := by
  rw [padRows_getD]; rfl

end Dg1d
