import Verif.Proofs.RkTables
import Verif.Model.Stability
import Mathlib.LinearAlgebra.Matrix.SchurComplement
import Mathlib.LinearAlgebra.Matrix.Block
import Mathlib.Algebra.Module.LinearMap.End
import Mathlib.Tactic.FieldSimp

/-! Helper lemmas: Runge–Kutta steps on linear problems, stability function. -/

set_option linter.unusedSectionVars false

namespace Dg1d
open Spec
variable {F : Type*} [Field F] {V : Type*} [AddCommGroup V] [Module F V]

/-- Coefficient of `(hA)^m u` in stage `k`. -/
def tallWeight (beta : ℕ → ℕ → F) : ℕ → ℕ → F
  | 0, _ => 1
  | m + 1, k => ∑ j ∈ Finset.range k, beta k j * tallWeight beta m j

lemma tallWeight_zero (beta : ℕ → ℕ → F) (m k : ℕ) (h : k < m) : tallWeight beta m k = 0 := by
  induction m generalizing k with
  | zero => omega
  | succ m ih =>
    rw [tallWeight]
    apply Finset.sum_eq_zero
    intro j hj
    rw [ih j (by have := Finset.mem_range.mp hj; omega), mul_zero]

lemma stageValue_linear (beta : ℕ → ℕ → F) (A : V →ₗ[F] V) (h : F) (u : V) (k : ℕ) :
    ∀ N, k < N → stageValue beta A h u k =
      ∑ m ∈ Finset.range N, (h ^ m * tallWeight beta m k) • (A ^ m) u := by
  induction k using Nat.strong_induction_on with
  | _ k ih =>
    intro N hN
    obtain ⟨M, rfl⟩ : ∃ M, N = M + 1 := ⟨N - 1, by omega⟩
    rw [stageValue, Finset.sum_range_succ']
    simp only [pow_zero, tallWeight, mul_one, one_smul, Module.End.one_apply]
    rw [add_comm]
    congr 1
    rw [← Finset.sum_range (fun j => beta k j • A (stageValue beta A h u j)), Finset.smul_sum]
    have : ∀ j ∈ Finset.range k, h • beta k j • A (stageValue beta A h u j) =
        ∑ m ∈ Finset.range M, (h ^ (m + 1) * (beta k j * tallWeight beta m j)) • (A ^ (m + 1)) u := by
      intro j hj
      have hj := Finset.mem_range.mp hj
      rw [ih j hj M (by omega), map_sum, Finset.smul_sum, Finset.smul_sum]
      apply Finset.sum_congr rfl
      intro m _
      rw [map_smul, smul_smul, smul_smul, pow_succ' A, Module.End.mul_apply]
      congr 1
      ring
    rw [Finset.sum_congr rfl this, Finset.sum_comm]
    apply Finset.sum_congr rfl
    intro m _
    rw [Finset.mul_sum, Finset.sum_smul]

/-- Coefficient of `(hA)^m u` in the step. -/
def stepWeight (b : List F) (beta : ℕ → ℕ → F) : ℕ → F
  | 0 => 1
  | m + 1 => ∑ k ∈ Finset.range b.length, b.getD k 0 * tallWeight beta m k

lemma rkStep_linear (b : List F) (beta : ℕ → ℕ → F) (A : V →ₗ[F] V) (h : F) (u : V) :
    rkStep b beta A h u =
      ∑ m ∈ Finset.range (b.length + 1), (h ^ m * stepWeight b beta m) • (A ^ m) u := by
  rw [rkStep, Finset.sum_range_succ']
  simp only [pow_zero, stepWeight, mul_one, one_smul, Module.End.one_apply]
  rw [add_comm]
  congr 1
  rw [Finset.smul_sum]
  have : ∀ k ∈ Finset.range b.length, h • b.getD k 0 • A (stageValue beta A h u k) =
      ∑ m ∈ Finset.range b.length, (h ^ (m + 1) * (b.getD k 0 * tallWeight beta m k)) • (A ^ (m + 1)) u := by
    intro k hk
    rw [stageValue_linear beta A h u k b.length (Finset.mem_range.mp hk), map_sum, Finset.smul_sum,
      Finset.smul_sum]
    apply Finset.sum_congr rfl
    intro m _
    rw [map_smul, smul_smul, smul_smul, pow_succ' A, Module.End.mul_apply]
    congr 1
    ring
  rw [Finset.sum_congr rfl this, Finset.sum_comm]
  apply Finset.sum_congr rfl
  intro m _
  rw [Finset.mul_sum, Finset.sum_smul]

/-- The tall tree (a path) with `m + 1` vertices. -/
def tallTree : ℕ → RTree
  | 0 => .leaf
  | m + 1 => .graft .leaf (tallTree m)

lemma tallTree_size (m : ℕ) : (tallTree m).size = m + 1 := by
  induction m with
  | zero => rfl
  | succ m ih => simp [tallTree, RTree.size, ih]; omega

lemma tallTree_density (m : ℕ) : (tallTree m).density = (m + 1).factorial := by
  induction m with
  | zero => rfl
  | succ m ih =>
    unfold RTree.density at ih ⊢
    rw [tallTree_size] at ih ⊢
    rw [Nat.factorial_succ, ← ih]
    simp [tallTree, RTree.branchDensity, tallTree_size]

lemma tallTree_weight (beta : ℕ → ℕ → F) (n : ℕ) (he : ∀ k < n, ∀ j < n, k ≤ j → beta k j = 0) (m k : ℕ)
    (hk : k < n) : (tallTree m).stageWeight n beta k = tallWeight beta m k := by
  induction m generalizing k with
  | zero => rfl
  | succ m ih =>
    simp only [tallTree, RTree.stageWeight, one_mul, tallWeight]
    rw [← Finset.sum_subset (Finset.range_subset_range.mpr hk.le)]
    · apply Finset.sum_congr rfl
      intro j hj
      rw [ih j (by have := Finset.mem_range.mp hj; omega)]
    · intro j hj hj'
      rw [Finset.mem_range] at hj hj'
      rw [he k hk j hj (by omega), zero_mul]

lemma stepWeight_order [CharZero F] (b : List F) (beta : ℕ → ℕ → F)
    (he : ∀ k < b.length, ∀ j < b.length, k ≤ j → beta k j = 0) {p : ℕ} (ho : HasOrder b beta p) (m : ℕ)
    (hm : m ≤ p) : stepWeight b beta m = 1 / (m.factorial : F) := by
  cases m with
  | zero => simp [stepWeight]
  | succ m =>
    have := ho (tallTree m) (by rw [tallTree_size]; exact hm)
    unfold OrderCondition at this
    rw [← Finset.sum_mul, tallTree_density] at this
    rw [eq_div_iff (by exact_mod_cast (Nat.factorial_ne_zero _)), ← this, stepWeight]
    congr 1
    apply Finset.sum_congr rfl
    intro k hk
    rw [tallTree_weight beta b.length he m k (Finset.mem_range.mp hk)]

/-! ### Stability function -/

lemma stability_eq (tab : Tableau F)
    (he : ∀ k < tab.coeffs.length, ∀ j < tab.coeffs.length, k ≤ j → tab.beta k j = 0) (z : F) :
    stabilityFunction tab z =
      1 + z * ∑ k ∈ Finset.range tab.coeffs.length, tab.coeffs.getD k 0 *
        stageValue tab.beta (fun v : F => v) z 1 k := by
  set s := tab.coeffs.length with hs
  set M : Matrix (Fin s) (Fin s) F := 1 - z • formattedB tab with hM
  set U : Fin s → F := fun k => stageValue tab.beta (fun v : F => v) z 1 k with hU
  have hB : ∀ k j : Fin s, formattedB tab k j = tab.beta k j := by
    intro k j
    simp only [formattedB, Matrix.of_apply]
    split
    · rfl
    · rename_i h
      rw [he k k.2 j j.2]
      have := k.2; have := j.2; omega
  have hdet : M.det = 1 := by
    rw [Matrix.det_of_isLowerTriangular (M := M)]
    · apply Finset.prod_eq_one
      intro i _
      rw [hM, Matrix.sub_apply, Matrix.smul_apply, hB, he i i.2 i i.2 le_rfl]
      simp
    · intro i j hij
      have hij : i < j := hij
      rw [hM, Matrix.sub_apply, Matrix.smul_apply, hB, he i i.2 j j.2 (le_of_lt hij), Matrix.one_apply_ne hij.ne]
      simp
  have hMU : M.mulVec U = fun _ => 1 := by
    funext k
    rw [hM, Matrix.sub_mulVec, Matrix.one_mulVec, Pi.sub_apply, Matrix.smul_mulVec, Pi.smul_apply]
    have : (formattedB tab).mulVec U k = ∑ j ∈ Finset.range k, tab.beta k j * stageValue tab.beta (fun v : F => v) z 1 j := by
      rw [Matrix.mulVec, dotProduct]
      have h1 : ∀ j : Fin s, formattedB tab k j * U j = tab.beta k j * stageValue tab.beta (fun v : F => v) z 1 j := by
        intro j; rw [hB]
      rw [Finset.sum_congr rfl (fun j _ => h1 j),
        ← Finset.sum_range (fun j => tab.beta k j * stageValue tab.beta (fun v : F => v) z 1 j)]
      symm
      apply Finset.sum_subset (Finset.range_subset_range.mpr k.2.le)
      intro j hj hj'
      rw [Finset.mem_range] at hj hj'
      rw [he k k.2 j hj (by omega), zero_mul]
    rw [this, hU]
    simp only
    rw [stageValue, ← Finset.sum_range (fun j => tab.beta k j • stageValue tab.beta (fun v : F => v) z 1 j)]
    simp
  have key : (M + z • Matrix.of fun (_ : Fin s) (j : Fin s) => tab.coeffs.getD j.val 0) =
      M * (1 + Matrix.replicateCol Unit U * Matrix.replicateRow Unit (fun j : Fin s => z * tab.coeffs.getD j.val 0)) := by
    rw [mul_add, mul_one, ← Matrix.mul_assoc]
    congr 1
    have : M * Matrix.replicateCol Unit U = Matrix.replicateCol Unit (fun _ : Fin s => (1 : F)) := by
      rw [← hMU]; rfl
    rw [this]
    ext i j
    simp [Matrix.mul_apply]
  unfold stabilityFunction
  rw [← hM, key, Matrix.det_mul, hdet, one_mul, Matrix.det_one_add_replicateCol_mul_replicateRow, dotProduct]
  congr 1
  rw [Finset.mul_sum, Finset.sum_range]
  apply Finset.sum_congr rfl
  intro k _
  rw [mul_assoc]

lemma stageValue_scalar (beta : ℕ → ℕ → F) (lam h : F) (u : V) (k : ℕ) :
    stageValue beta (fun v : V => lam • v) h u k = stageValue beta (fun v : F => v) (lam * h) 1 k • u := by
  induction k using Nat.strong_induction_on with
  | _ k ih =>
    rw [stageValue, stageValue]
    rw [add_smul, one_smul]
    congr 1
    rw [smul_eq_mul, Finset.mul_sum, Finset.sum_smul, Finset.smul_sum]
    apply Finset.sum_congr rfl
    intro j _
    rw [ih j j.2, smul_smul, smul_smul, smul_smul, smul_eq_mul]
    congr 1
    ring

lemma rkStep_scalar (b : List F) (beta : ℕ → ℕ → F) (lam h : F) (u : V) :
    rkStep b beta (fun v : V => lam • v) h u =
      (1 + lam * h * ∑ k ∈ Finset.range b.length, b.getD k 0 *
        stageValue beta (fun v : F => v) (lam * h) 1 k) • u := by
  rw [rkStep, add_smul, one_smul]
  congr 1
  rw [Finset.mul_sum, Finset.sum_smul, Finset.smul_sum]
  apply Finset.sum_congr rfl
  intro j _
  rw [stageValue_scalar, smul_smul, smul_smul, smul_smul]
  congr 1
  ring

end Dg1d
