import Verif.Spec.RungeKutta
import Mathlib.Analysis.Analytic.Basic
import Mathlib.Analysis.Calculus.MeanValue
import Mathlib.Analysis.Calculus.Deriv.Pow
import Mathlib.Analysis.Calculus.Deriv.Mul
import Mathlib.Analysis.Calculus.Deriv.Add

/-!
# Order conditions bound the local error (Butcher's theorem)

Helper lemmas for C76. Trees are indexed by finite types `Idx n`: an index of level `n + 1` is a root with at most `n`
branches, each an index of level `n`. Nothing depends on different indices giving different trees.
-/

namespace Dg1d.Butcher
open Spec Asymptotics Filter Topology

/-- Indices of trees of level `n`. -/
def Idx : ℕ → Type
  | 0 => PEmpty
  | n + 1 => Σ k : Fin (n + 1), (Fin k → Idx n)

instance instFintypeIdx : (n : ℕ) → Fintype (Idx n)
  | 0 => inferInstanceAs (Fintype PEmpty)
  | n + 1 =>
    have := instFintypeIdx n
    inferInstanceAs (Fintype (Σ k : Fin (n + 1), (Fin k → Idx n)))

/-- Attach branches to a root. -/
def node (l : List RTree) : RTree := l.foldl RTree.graft RTree.leaf

/-- The tree of an index. -/
def tree : (n : ℕ) → Idx n → RTree
  | n + 1, ⟨k, r⟩ => node (List.ofFn fun i : Fin k => tree n (r i))

lemma node_concat (l : List RTree) (s : RTree) : node (l ++ [s]) = .graft (node l) s := by
  unfold node; rw [List.foldl_append]; rfl

lemma size_node (l : List RTree) : (node l).size = 1 + (l.map RTree.size).sum := by
  induction l using List.reverseRecOn with
  | nil => rfl
  | append_singleton l s ih => rw [node_concat, RTree.size, ih]; simp; omega

lemma branchDensity_node (l : List RTree) : (node l).branchDensity = (l.map RTree.density).prod := by
  induction l using List.reverseRecOn with
  | nil => rfl
  | append_singleton l s ih => rw [node_concat, RTree.branchDensity, ih]; simp [RTree.density]

lemma size_tree (n : ℕ) (k : Fin (n + 1)) (r : Fin k → Idx n) :
    (tree (n + 1) ⟨k, r⟩).size = 1 + ∑ i, (tree n (r i)).size := by
  rw [tree, size_node, List.map_ofFn, List.sum_ofFn]; rfl

lemma density_tree (n : ℕ) (k : Fin (n + 1)) (r : Fin k → Idx n) :
    (tree (n + 1) ⟨k, r⟩).density = (tree (n + 1) ⟨k, r⟩).size * ∏ i, (tree n (r i)).density := by
  rw [RTree.density]
  congr 1
  rw [tree, branchDensity_node, List.map_ofFn, List.prod_ofFn]; rfl

lemma size_pos (t : RTree) : 0 < t.size := by
  induction t with
  | leaf => exact Nat.one_pos
  | graft t s ih _ => rw [RTree.size]; omega

lemma density_pos (t : RTree) : 0 < t.density := by
  have : 0 < t.branchDensity := by
    induction t with
    | leaf => exact Nat.one_pos
    | graft t s ih ihs => rw [RTree.branchDensity]; exact Nat.mul_pos ih (Nat.mul_pos (size_pos s) ihs)
  exact Nat.mul_pos (size_pos t) this

lemma stageWeight_node (m : ℕ) (beta : ℕ → ℕ → ℝ) (l : List RTree) (i : ℕ) :
    (node l).stageWeight m beta i = (l.map fun s => ∑ j ∈ Finset.range m, beta i j * s.stageWeight m beta j).prod := by
  induction l using List.reverseRecOn with
  | nil => rfl
  | append_singleton l s ih => rw [node_concat, RTree.stageWeight, ih]; simp

lemma stageWeight_tree (m : ℕ) (beta : ℕ → ℕ → ℝ) (n : ℕ) (k : Fin (n + 1)) (r : Fin k → Idx n) (i : ℕ) :
    (tree (n + 1) ⟨k, r⟩).stageWeight m beta i =
      ∏ q, ∑ j ∈ Finset.range m, beta i j * (tree n (r q)).stageWeight m beta j := by
  rw [tree, stageWeight_node, List.map_ofFn, List.prod_ofFn]; rfl

variable {E : Type*} [NormedAddCommGroup E] [NormedSpace ℝ E]

/-- Elementary differential of an index: `f_k` applied to the elementary differentials of the branches. -/
noncomputable def elem (P : FormalMultilinearSeries ℝ E E) : (n : ℕ) → Idx n → E
  | n + 1, ⟨k, r⟩ => P k fun i => elem P n (r i)

/-- The tree sum with coefficients `a`. -/
noncomputable def series (P : FormalMultilinearSeries ℝ E E) (n : ℕ) (a : RTree → ℝ) (h : ℝ) : E :=
  ∑ t : Idx n, (a (tree n t) * h ^ (tree n t).size) • elem P n t

lemma pow_isBigO {m n : ℕ} (h : m ≤ n) : (fun x : ℝ => x ^ n) =O[𝓝 0] fun x => x ^ m := by
  refine IsBigO.of_bound 1 ?_
  have : ∀ᶠ x : ℝ in 𝓝 0, |x| < 1 := by
    have := (continuous_abs.tendsto (0 : ℝ)).eventually (gt_mem_nhds (by norm_num : |(0 : ℝ)| < 1))
    exact this
  filter_upwards [this] with x hx
  rw [Real.norm_eq_abs, Real.norm_eq_abs, abs_pow, abs_pow, one_mul]
  exact pow_le_pow_of_le_one (abs_nonneg x) hx.le h

lemma term_isBigO {m n : ℕ} (h : m ≤ n) (c : ℝ) (v : E) : (fun x : ℝ => (c * x ^ n) • v) =O[𝓝 0] fun x => x ^ m := by
  have h1 : (fun x : ℝ => (c * x ^ n) • v) = fun x => (x ^ n) • (c • v) := by
    funext x; rw [smul_smul, mul_comm]
  rw [h1]
  have h2 : (fun _ : ℝ => c • v) =O[𝓝 0] fun _ => (1 : ℝ) := isBigO_const_const _ one_ne_zero _
  simpa using (pow_isBigO h).smul h2

lemma series_isBigO (P : FormalMultilinearSeries ℝ E E) (n : ℕ) (a : RTree → ℝ) :
    series P n a =O[𝓝 0] fun h => h := by
  have : series P n a = fun h => ∑ t : Idx n, (a (tree n t) * h ^ (tree n t).size) • elem P n t := rfl
  rw [this]
  refine IsBigO.fun_sum fun t _ => ?_
  simpa using term_isBigO (E := E) (m := 1) (size_pos (tree n t)) (a (tree n t)) (elem P n t)

/-- Coefficients of `f` applied to a tree sum: the product over the branches, read off by `lift`. -/
def Lifts (n : ℕ) (a b : RTree → ℝ) : Prop :=
  ∀ (k : Fin (n + 1)) (r : Fin k → Idx n), b (tree (n + 1) ⟨k, r⟩) = ∏ i, a (tree n (r i))

/-- A tree sum with one power of `h` removed. -/
noncomputable def dseries (P : FormalMultilinearSeries ℝ E E) (n : ℕ) (b : RTree → ℝ) (h : ℝ) : E :=
  ∑ t : Idx n, (b (tree n t) * h ^ ((tree n t).size - 1)) • elem P n t

lemma smul_dseries (P : FormalMultilinearSeries ℝ E E) (n : ℕ) (b : RTree → ℝ) (h : ℝ) :
    h • dseries P n b h = series P n b h := by
  unfold dseries series
  rw [Finset.smul_sum]
  refine Finset.sum_congr rfl fun t _ => ?_
  rw [smul_smul]
  congr 1
  obtain ⟨m, hm⟩ := Nat.exists_eq_succ_of_ne_zero (size_pos (tree n t)).ne'
  rw [hm, Nat.succ_sub_one, pow_succ]; ring

/-- The polynomial part: `Σ_{k ≤ n} f_k` of a tree sum is the lifted tree sum, exactly. -/
lemma poly_series (P : FormalMultilinearSeries ℝ E E) (n : ℕ) {a b : RTree → ℝ} (hb : Lifts n a b) (h : ℝ) :
    P.partialSum (n + 1) (series P n a h) = dseries P (n + 1) b h := by
  unfold FormalMultilinearSeries.partialSum dseries
  rw [Finset.sum_range]
  show _ = ∑ t : (Σ k : Fin (n + 1), (Fin k → Idx n)), _
  rw [Fintype.sum_sigma]
  refine Finset.sum_congr rfl fun k _ => ?_
  unfold series
  rw [ContinuousMultilinearMap.map_sum]
  refine Finset.sum_congr rfl fun r _ => ?_
  rw [ContinuousMultilinearMap.map_smul_univ, hb, size_tree, Nat.add_sub_cancel_left, Finset.prod_mul_distrib,
    Finset.prod_pow_eq_pow_sum]
  rfl

variable {f : E → E} {P : FormalMultilinearSeries ℝ E E} {u : E}

lemma multilinear_sub (k : ℕ) (w v : ℝ → E) {n : ℕ} (hv : v =O[𝓝 0] fun h => h) (hw : w =O[𝓝 0] fun h => h)
    (hd : (fun h => v h - w h) =O[𝓝 0] fun h => h ^ n) :
    (fun h => (P k fun _ => v h) - P k fun _ => w h) =O[𝓝 0] fun h => h ^ n := by
  have h0 : Tendsto (fun h : ℝ => h) (𝓝 0) (𝓝 0) := tendsto_id
  have bv : ∀ᶠ h in 𝓝 0, ‖v h‖ ≤ 1 := by
    have := (hv.trans_tendsto h0).norm
    rw [norm_zero] at this
    exact this.eventually_le_const one_pos
  have bw : ∀ᶠ h in 𝓝 0, ‖w h‖ ≤ 1 := by
    have := (hw.trans_tendsto h0).norm
    rw [norm_zero] at this
    exact this.eventually_le_const one_pos
  refine IsBigO.trans (IsBigO.of_bound (‖P k‖ * k) ?_) hd
  filter_upwards [bv, bw] with h h1 h2
  refine ((P k).norm_image_sub_le _ _).trans ?_
  rw [Fintype.card_fin]
  have e1 : ‖fun _ : Fin k => v h‖ ≤ 1 := (pi_norm_const_le _).trans h1
  have e2 : ‖fun _ : Fin k => w h‖ ≤ 1 := (pi_norm_const_le _).trans h2
  have e3 : ‖(fun _ : Fin k => v h) - fun _ => w h‖ ≤ ‖v h - w h‖ := pi_norm_const_le (v h - w h)
  have e4 : max ‖fun _ : Fin k => v h‖ ‖fun _ : Fin k => w h‖ ^ (k - 1) ≤ 1 :=
    pow_le_one₀ (le_max_of_le_left (norm_nonneg _)) (max_le e1 e2)
  calc ‖P k‖ * k * max ‖fun _ : Fin k => v h‖ ‖fun _ : Fin k => w h‖ ^ (k - 1) * ‖(fun _ : Fin k => v h) - fun _ => w h‖
      ≤ ‖P k‖ * k * 1 * ‖v h - w h‖ := by gcongr
    _ = _ := by ring

/-- If `y = u + tree sum + O(h^(n+1))` then `f(y) = lifted tree sum + O(h^(n+1))`. -/
lemma apply_series (hf : HasFPowerSeriesAt f P u) (n : ℕ) {a b : RTree → ℝ} (hb : Lifts n a b) {y : ℝ → E}
    (hy : (fun h => y h - (u + series P n a h)) =O[𝓝 0] fun h => h ^ (n + 1)) :
    (fun h => f (y h) - dseries P (n + 1) b h) =O[𝓝 0] fun h => h ^ (n + 1) := by
  set v : ℝ → E := fun h => y h - u
  have hd : (fun h => v h - series P n a h) =O[𝓝 0] fun h => h ^ (n + 1) := by
    refine hy.congr_left fun h => ?_
    simp only [v]; abel
  have hw := series_isBigO P n a
  have hv : v =O[𝓝 0] fun h => h := by
    have : (fun h : ℝ => h ^ (n + 1)) =O[𝓝 0] fun h => h := by simpa using pow_isBigO (m := 1) (n := n + 1) (by omega)
    have := (hd.trans this).add hw
    simpa using this
  have h0 : Tendsto v (𝓝 0) (𝓝 0) := hv.trans_tendsto tendsto_id
  have h1 : (fun h => f (u + v h) - P.partialSum (n + 1) (v h)) =O[𝓝 0] fun h => h ^ (n + 1) := by
    refine ((hf.isBigO_sub_partialSum_pow (n + 1)).comp_tendsto h0).trans ?_
    exact (hv.norm_left).pow (n + 1)
  have h2 : (fun h => P.partialSum (n + 1) (v h) - P.partialSum (n + 1) (series P n a h)) =O[𝓝 0] fun h => h ^ (n + 1) := by
    unfold FormalMultilinearSeries.partialSum
    simp only [← Finset.sum_sub_distrib]
    exact IsBigO.fun_sum fun k _ => multilinear_sub k _ _ hv hw hd
  refine (h1.add h2).congr_left fun h => ?_
  rw [poly_series P n hb]
  simp only [v, add_sub_cancel]
  abel

/-! ### The numerical side -/

variable (m : ℕ) (beta : ℕ → ℕ → ℝ)

/-- Coefficient of a tree in stage value `i`. -/
noncomputable def stageCoeff (i : ℕ) (t : RTree) : ℝ := ∑ j ∈ Finset.range m, beta i j * t.stageWeight m beta j

lemma lifts_stage (n i : ℕ) : Lifts n (stageCoeff m beta i) (fun t => t.stageWeight m beta i) := by
  intro k r
  exact stageWeight_tree m beta n k r i

lemma series_sum (P : FormalMultilinearSeries ℝ E E) (n : ℕ) (s : Finset ℕ) (c : ℕ → ℝ) (w : ℕ → RTree → ℝ) (h : ℝ) :
    series P n (fun t => ∑ j ∈ s, c j * w j t) h = h • ∑ j ∈ s, c j • dseries P n (w j) h := by
  rw [Finset.smul_sum]
  simp only [smul_comm h (c _), smul_dseries]
  unfold series
  simp only [Finset.smul_sum]
  rw [Finset.sum_comm]
  refine Finset.sum_congr rfl fun t _ => ?_
  rw [Finset.sum_mul, Finset.sum_smul]
  refine Finset.sum_congr rfl fun j _ => ?_
  rw [smul_smul, mul_assoc]

lemma stageValue_eq (i : ℕ) (h : ℝ) : stageValue beta f h u i =
    u + h • ∑ j ∈ Finset.range i, beta i j • f (stageValue beta f h u j) := by
  rw [stageValue, Finset.sum_range]

lemma smul_isBigO {g : ℝ → E} {n : ℕ} (hg : g =O[𝓝 0] fun h => h ^ n) : (fun h => h • g h) =O[𝓝 0] fun h => h ^ (n + 1) := by
  have := (isBigO_refl (fun h : ℝ => h) (𝓝 0)).smul hg
  refine this.congr_right fun h => ?_
  rw [smul_eq_mul, pow_succ]; ring

lemma stage_base (hf : ContinuousAt f u) (i : ℕ) : (fun h => stageValue beta f h u i - u) =O[𝓝 0] fun h => h ^ 1 := by
  induction i using Nat.strong_induction_on with
  | _ i ih =>
    have : (fun h => stageValue beta f h u i - u) = fun h => h • ∑ j ∈ Finset.range i, beta i j • f (stageValue beta f h u j) := by
      funext h; rw [stageValue_eq]; abel
    rw [this]
    refine smul_isBigO (n := 0) ?_
    refine IsBigO.fun_sum fun j hj => ?_
    refine IsBigO.const_smul_left ?_ _
    have hj := ih j (Finset.mem_range.mp hj)
    have h1 : Tendsto (fun h : ℝ => h ^ 1) (𝓝 0) (𝓝 0) := by
      simp only [pow_one]; exact tendsto_id
    have h2 : Tendsto (fun h => stageValue beta f h u j) (𝓝 0) (𝓝 u) := by
      simpa using (hj.trans_tendsto h1).add_const u
    have h3 : Tendsto (fun h => f (stageValue beta f h u j)) (𝓝 0) (𝓝 (f u)) := hf.tendsto.comp h2
    simpa using h3.isBigO_one ℝ

lemma range_explicit (he : ∀ k < m, ∀ j < m, k ≤ j → beta k j = 0) {i : ℕ} (hi : i < m) {V : Type*} [AddCommGroup V] [Module ℝ V]
    (g : ℕ → V) : ∑ j ∈ Finset.range i, beta i j • g j = ∑ j ∈ Finset.range m, beta i j • g j := by
  refine Finset.sum_subset (Finset.range_mono hi.le) fun j hj hj' => ?_
  rw [he i hi j (Finset.mem_range.mp hj) (by simpa using hj'), zero_smul]

lemma stage_series (hf : HasFPowerSeriesAt f P u) (he : ∀ k < m, ∀ j < m, k ≤ j → beta k j = 0) (n : ℕ) :
    ∀ i < m, (fun h => stageValue beta f h u i - (u + series P n (stageCoeff m beta i) h)) =O[𝓝 0] fun h => h ^ (n + 1) := by
  induction n with
  | zero =>
    intro i _
    refine (stage_base beta hf.continuousAt i).congr_left fun h => ?_
    have : series P 0 (stageCoeff m beta i) h = 0 := Finset.sum_eq_zero fun t _ => t.elim
    rw [this, add_zero]
  | succ n ih =>
    intro i hi
    have hs : ∀ h, stageValue beta f h u i - (u + series P (n + 1) (stageCoeff m beta i) h) =
        h • ∑ j ∈ Finset.range m, beta i j • (f (stageValue beta f h u j) - dseries P (n + 1) (fun t => t.stageWeight m beta j) h) := by
      intro h
      rw [stageValue_eq, range_explicit m beta he hi]
      have := series_sum P (n + 1) (Finset.range m) (beta i) (fun j t => t.stageWeight m beta j) h
      rw [show series P (n + 1) (stageCoeff m beta i) h = _ from this]
      simp only [smul_sub, Finset.sum_sub_distrib]
      abel
    simp only [hs]
    refine smul_isBigO (IsBigO.fun_sum fun j hj => IsBigO.const_smul_left ?_ _)
    exact apply_series hf n (lifts_stage m beta n j) (ih j (Finset.mem_range.mp hj))

lemma step_series (hf : HasFPowerSeriesAt f P u) (b : List ℝ) (he : ∀ k < b.length, ∀ j < b.length, k ≤ j → beta k j = 0) (n : ℕ) :
    (fun h => rkStep b beta f h u - (u + series P (n + 1) (fun t => ∑ i ∈ Finset.range b.length, b.getD i 0 * t.stageWeight b.length beta i) h)) =O[𝓝 0]
      fun h => h ^ (n + 2) := by
  have hs : ∀ h, rkStep b beta f h u - (u + series P (n + 1) (fun t => ∑ i ∈ Finset.range b.length, b.getD i 0 * t.stageWeight b.length beta i) h) =
      h • ∑ j ∈ Finset.range b.length, b.getD j 0 • (f (stageValue beta f h u j) - dseries P (n + 1) (fun t => t.stageWeight b.length beta j) h) := by
    intro h
    rw [series_sum P (n + 1) (Finset.range b.length) (fun i => b.getD i 0) (fun j t => t.stageWeight b.length beta j) h, rkStep]
    simp only [smul_sub, Finset.sum_sub_distrib]
    abel
  simp only [hs]
  refine smul_isBigO (IsBigO.fun_sum fun j hj => IsBigO.const_smul_left ?_ _)
  exact apply_series hf n (lifts_stage b.length beta n j) (stage_series b.length beta hf he n j (Finset.mem_range.mp hj))

/-! ### The exact solution -/

/-- Coefficient of a tree in the exact solution. -/
noncomputable def exactCoeff (t : RTree) : ℝ := 1 / t.density

lemma lifts_exact (n : ℕ) : Lifts n exactCoeff (fun t => t.size * exactCoeff t) := by
  intro k r
  unfold exactCoeff
  show ((tree (n + 1) ⟨k, r⟩).size : ℝ) * (1 / ((tree (n + 1) ⟨k, r⟩).density : ℕ)) = _
  rw [density_tree]
  have h1 : ((tree (n + 1) ⟨k, r⟩).size : ℝ) ≠ 0 := by exact_mod_cast (size_pos _).ne'
  push_cast
  rw [Finset.prod_div_distrib, Finset.prod_const_one]
  field_simp

lemma hasDerivAt_series (P : FormalMultilinearSeries ℝ E E) (n : ℕ) (a : RTree → ℝ) (h : ℝ) :
    HasDerivAt (series P n a) (dseries P n (fun t => t.size * a t) h) h := by
  unfold dseries
  have : series P n a = fun h => ∑ t : Idx n, (a (tree n t) * h ^ (tree n t).size) • elem P n t := rfl
  rw [this]
  refine HasDerivAt.fun_sum fun t _ => ?_
  have := ((hasDerivAt_pow (tree n t).size h).const_mul (a (tree n t))).smul_const (elem P n t)
  convert this using 2
  ring

lemma series_zero (P : FormalMultilinearSeries ℝ E E) (n : ℕ) (a : RTree → ℝ) : series P n a 0 = 0 := by
  refine Finset.sum_eq_zero fun t _ => ?_
  rw [zero_pow (size_pos _).ne', mul_zero, zero_smul]

/-- A function that vanishes at 0 and whose derivative is `O(h^n)` is `O(h^(n+1))`. -/
lemma isBigO_of_deriv {g g' : ℝ → E} {n : ℕ} (h0 : g 0 = 0) (hd : ∀ᶠ t in 𝓝 0, HasDerivAt g (g' t) t)
    (hg : g' =O[𝓝 0] fun t => t ^ n) : g =O[𝓝 0] fun t => t ^ (n + 1) := by
  obtain ⟨C, hC⟩ := hg.bound
  obtain ⟨ε, hε, hball⟩ := Metric.eventually_nhds_iff.mp (hd.and hC)
  refine IsBigO.of_bound |C| ?_
  rw [Metric.eventually_nhds_iff]
  refine ⟨ε, hε, fun t ht => ?_⟩
  have hin : ∀ x ∈ Metric.closedBall (0 : ℝ) |t|, dist x 0 < ε := by
    intro x hx
    rw [Metric.mem_closedBall] at hx
    rw [Real.dist_0_eq_abs] at ht
    exact hx.trans_lt ht
  have := (convex_closedBall (0 : ℝ) |t|).norm_image_sub_le_of_norm_hasDerivWithin_le (f := g) (f' := g') (C := |C| * |t| ^ n)
    (fun x hx => (hball (hin x hx)).1.hasDerivWithinAt)
    (fun x hx => by
      refine (hball (hin x hx)).2.trans ?_
      rw [Metric.mem_closedBall, Real.dist_0_eq_abs] at hx
      rw [norm_pow, Real.norm_eq_abs]
      gcongr
      exact le_abs_self C)
    (Metric.mem_closedBall_self (abs_nonneg t)) (by simp : t ∈ Metric.closedBall (0 : ℝ) |t|)
  rw [h0, sub_zero, sub_zero] at this
  rw [norm_pow, Real.norm_eq_abs, pow_succ, ← mul_assoc]
  exact this

lemma exact_series (hf : HasFPowerSeriesAt f P u) {y : ℝ → E} (h0 : y 0 = u) (hy : ∀ᶠ t in 𝓝 0, HasDerivAt y (f (y t)) t) (n : ℕ) :
    (fun h => y h - (u + series P n exactCoeff h)) =O[𝓝 0] fun h => h ^ (n + 1) := by
  induction n with
  | zero =>
    have : (fun h => y h - (u + series P 0 exactCoeff h)) = fun h => y h - y 0 := by
      funext h
      have : series P 0 exactCoeff h = 0 := Finset.sum_eq_zero fun t _ => t.elim
      rw [this, add_zero, h0]
    rw [this]
    simpa using hy.self_of_nhds.isBigO_sub
  | succ n ih =>
    refine isBigO_of_deriv ?_ ?_ (apply_series hf n (lifts_exact n) ih)
    · rw [h0, series_zero, add_zero, sub_self]
    · filter_upwards [hy] with t ht
      exact ht.sub ((hasDerivAt_series P (n + 1) exactCoeff t).const_add u)

/-- **Butcher's theorem.** The order conditions up to `p` make the local error `O(h^(p+1))`. -/
theorem local_error (b : List ℝ) (he : ∀ k < b.length, ∀ j < b.length, k ≤ j → beta k j = 0) {p : ℕ} (hp : HasOrder b beta p)
    (hf : AnalyticAt ℝ f u) {y : ℝ → E} (h0 : y 0 = u) (hy : ∀ᶠ t in 𝓝 0, HasDerivAt y (f (y t)) t) :
    (fun h => rkStep b beta f h u - y h) =O[𝓝 0] fun h => h ^ (p + 1) := by
  obtain ⟨P, hP⟩ := hf
  have h1 := (step_series beta hP b he p).trans (pow_isBigO (show p + 1 ≤ p + 2 by omega))
  have h2 := (exact_series hP h0 hy (p + 1)).trans (pow_isBigO (show p + 1 ≤ p + 1 + 1 by omega))
  have h3 : (fun h => series P (p + 1) (fun t => ∑ i ∈ Finset.range b.length, b.getD i 0 * t.stageWeight b.length beta i) h -
      series P (p + 1) exactCoeff h) =O[𝓝 0] fun h => h ^ (p + 1) := by
    unfold series
    simp only [← Finset.sum_sub_distrib, ← sub_smul, ← sub_mul]
    refine IsBigO.fun_sum fun t _ => ?_
    by_cases ht : (tree (p + 1) t).size ≤ p
    · have := hp _ ht
      unfold OrderCondition at this
      rw [← Finset.sum_mul] at this
      have hd : ((tree (p + 1) t).density : ℝ) ≠ 0 := by exact_mod_cast (density_pos _).ne'
      have : ∑ i ∈ Finset.range b.length, b.getD i 0 * (tree (p + 1) t).stageWeight b.length beta i = exactCoeff (tree (p + 1) t) := by
        unfold exactCoeff
        rw [eq_div_iff hd]; exact this
      simp only [this, sub_self, zero_mul, zero_smul]
      exact isBigO_zero _ _
    · exact term_isBigO (by omega) _ _
  refine ((h1.sub h2).add h3).congr_left fun h => ?_
  abel

end Dg1d.Butcher
