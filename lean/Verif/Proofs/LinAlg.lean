import Verif.Model.LinAlg
import Mathlib.LinearAlgebra.Matrix.NonsingularInverse
import Mathlib.LinearAlgebra.Matrix.ToLinearEquiv

/-! Helper lemmas on `Arr.inv`. -/

namespace Dg1d
variable {K : Type*} [Field K] [DecidableEq K]

lemma sum_fin_range {M : Type*} [AddCommMonoid M] (n : ℕ) (f : ℕ → M) : ∑ k : Fin n, f k = ∑ k ∈ Finset.range n, f k :=
  (Finset.sum_range f).symm

/-- A square array with trivial kernel has an inverse. -/
lemma inv_ok {A : Arr K} {n : ℕ} (hr : A.rows = n) (hc : A.cols = n)
    (hinj : ∀ v : ℕ → K, (∀ i < n, ∑ k ∈ Finset.range n, A.val i k * v k = 0) → ∀ k < n, v k = 0) :
    ∃ B, A.inv = .ok B := by
  subst hr
  have hd : (A.toMatrix A.rows).det ≠ 0 := by
    intro h0
    obtain ⟨v, hv, hz⟩ := Matrix.exists_mulVec_eq_zero_iff.mpr h0
    apply hv
    funext i
    have := hinj (fun k => if h : k < A.rows then v ⟨k, h⟩ else 0) (by
      intro i hi
      have := congrFun hz ⟨i, hi⟩
      rw [Matrix.mulVec, dotProduct] at this
      rw [← sum_fin_range]
      simpa [Arr.toMatrix] using this) i i.isLt
    simpa using this
  unfold Arr.inv
  rw [if_pos ⟨hc.symm, hd⟩]
  exact ⟨_, rfl⟩

/-- A square array with a non-trivial kernel makes `np.linalg.inv` raise. -/
lemma inv_error {A : Arr K} {n : ℕ} (hr : A.rows = n) {v : ℕ → K}
    (hv : ∀ i < n, ∑ k ∈ Finset.range n, A.val i k * v k = 0) {k : ℕ} (hk : k < n) (hk0 : v k ≠ 0) :
    A.inv = .error .linAlgError := by
  subst hr
  have hd : (A.toMatrix A.rows).det = 0 := by
    apply Matrix.exists_mulVec_eq_zero_iff.mp
    refine ⟨fun i => v i, fun h => hk0 (congrFun h ⟨k, hk⟩), ?_⟩
    funext i
    have := hv i i.isLt
    rw [← sum_fin_range] at this
    simpa [Matrix.mulVec, dotProduct, Arr.toMatrix] using this
  unfold Arr.inv
  rw [if_neg (by simp [hd])]

/-- What `np.linalg.inv` returns is a two-sided inverse. -/
lemma inv_spec {A B : Arr K} (h : A.inv = .ok B) : A.rows = A.cols ∧ B.rows = A.rows ∧ B.cols = A.rows ∧
    (∀ i < A.rows, ∀ j < A.rows, ∑ k ∈ Finset.range A.rows, A.val i k * B.val k j = if i = j then 1 else 0) ∧
    (∀ i < A.rows, ∀ j < A.rows, ∑ k ∈ Finset.range A.rows, B.val i k * A.val k j = if i = j then 1 else 0) := by
  unfold Arr.inv at h
  split at h
  case isFalse => cases h
  rename_i hA
  cases h
  refine ⟨hA.1, rfl, rfl, ?_, ?_⟩
  · intro i hi j hj
    have := congrFun (congrFun (Matrix.mul_adjugate (A.toMatrix A.rows)) ⟨i, hi⟩) ⟨j, hj⟩
    rw [Matrix.mul_apply] at this
    rw [← sum_fin_range]
    simp only [hj, and_true, Fin.is_lt, dif_pos, Fin.eta]
    have e : ∀ k : Fin A.rows, A.val i k * ((A.toMatrix A.rows).det⁻¹ * (A.toMatrix A.rows).adjugate k ⟨j, hj⟩) =
        (A.toMatrix A.rows).det⁻¹ * (A.toMatrix A.rows ⟨i, hi⟩ k * (A.toMatrix A.rows).adjugate k ⟨j, hj⟩) := by
      intro k; simp only [Arr.toMatrix]; ring
    simp only [e]
    rw [← Finset.mul_sum, this, Matrix.smul_apply, Matrix.one_apply, smul_eq_mul, ← mul_assoc, inv_mul_cancel₀ hA.2, one_mul]
    simp
  · intro i hi j hj
    have := congrFun (congrFun (Matrix.adjugate_mul (A.toMatrix A.rows)) ⟨i, hi⟩) ⟨j, hj⟩
    rw [Matrix.mul_apply] at this
    rw [← sum_fin_range]
    simp only [hi, true_and, Fin.is_lt, dif_pos, Fin.eta]
    have e : ∀ k : Fin A.rows, (A.toMatrix A.rows).det⁻¹ * (A.toMatrix A.rows).adjugate ⟨i, hi⟩ k * A.val k j =
        (A.toMatrix A.rows).det⁻¹ * ((A.toMatrix A.rows).adjugate ⟨i, hi⟩ k * A.toMatrix A.rows k ⟨j, hj⟩) := by
      intro k; simp only [Arr.toMatrix]; ring
    simp only [e]
    rw [← Finset.mul_sum, this, Matrix.smul_apply, Matrix.one_apply, smul_eq_mul, ← mul_assoc, inv_mul_cancel₀ hA.2, one_mul]
    simp

/-- Applying the inverse undoes the array, on vectors. -/
lemma inv_apply {A B : Arr K} (h : A.inv = .ok B) (v : ℕ → K) {i : ℕ} (hi : i < A.rows) :
    ∑ k ∈ Finset.range A.rows, B.val i k * ∑ j ∈ Finset.range A.rows, A.val k j * v j = v i := by
  obtain ⟨_, _, _, _, h5⟩ := inv_spec h
  simp only [Finset.mul_sum]
  rw [Finset.sum_comm]
  have : ∀ j ∈ Finset.range A.rows, ∑ k ∈ Finset.range A.rows, B.val i k * (A.val k j * v j) = if i = j then v j else 0 := by
    intro j hj
    have := h5 i hi j (Finset.mem_range.mp hj)
    simp only [← mul_assoc]
    rw [← Finset.sum_mul, this]
    split <;> simp
  rw [Finset.sum_congr rfl this]
  simp [hi]

/-- Applying the array undoes its inverse, on vectors. -/
lemma apply_inv {A B : Arr K} (h : A.inv = .ok B) (v : ℕ → K) {i : ℕ} (hi : i < A.rows) :
    ∑ k ∈ Finset.range A.rows, A.val i k * ∑ j ∈ Finset.range A.rows, B.val k j * v j = v i := by
  obtain ⟨_, _, _, h4, _⟩ := inv_spec h
  simp only [Finset.mul_sum]
  rw [Finset.sum_comm]
  have : ∀ j ∈ Finset.range A.rows, ∑ k ∈ Finset.range A.rows, A.val i k * (B.val k j * v j) = if i = j then v j else 0 := by
    intro j hj
    have := h4 i hi j (Finset.mem_range.mp hj)
    simp only [← mul_assoc]
    rw [← Finset.sum_mul, this]
    split <;> simp
  rw [Finset.sum_congr rfl this]
  simp [hi]

end Dg1d
