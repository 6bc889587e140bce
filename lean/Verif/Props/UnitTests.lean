import Verif.Props.Enhance
import Verif.Props.Limiter
import Verif.Props.Euler
import Verif.Props.Clock

/-! # The repository's unit tests, on the model

Each example is a test of /repo/tests with the expected values written there. They are checks of the transcription of the
code into the model, not claims about all inputs. -/

open Polynomial Dg1d.Spec

namespace Dg1d.Tests

/-! ### tests/test_rk.py -/

/-- tests/test_rk.py:21-26 -/
example : adjustForOutput (1 / 10 : ℚ) 1 2 (3 / 2) = (1 / 10, false, false) := by decide +kernel
/-- tests/test_rk.py:29-35 -/
example : adjustForOutput (1 / 10 : ℚ) 1 2 (101 / 100) = (1 / 100, true, false) := by decide +kernel
/-- tests/test_rk.py:38-44 -/
example : adjustForOutput (1 / 10 : ℚ) 1 (1001 / 1000) (11 / 10) = (1 / 1000, true, true) := by decide +kernel

/-! ### tests/test_dg.py -/

/-- The entries of an array, row by row. -/
def entries (A : Arr ℚ) : List (List ℚ) := (List.range A.rows).map fun r => (List.range A.cols).map (A.val r)

/-- tests/test_dg.py:30-50 -/
example : entries (addInteriorFaceFluxes ⟨4, 6, fun r c => 6 * r + c⟩ ⟨5, fun i => i⟩ 1) =
    [[0, 0, 1, 2, 3, 5], [6, 6, 5, 4, 3, 11], [12, 12, 13, 14, 15, 17], [18, 18, 17, 16, 15, 23]] := by decide +kernel
/-- tests/test_dg.py:53-65 -/
example : entries (inverseMassMatrixMultiply ⟨5, 5, fun r c => 5 * r + c⟩ ⟨5, fun i => i⟩) =
    [[0, 0, 0, 0, 0], [5, 6, 7, 8, 9], [20, 22, 24, 26, 28], [45, 48, 51, 54, 57], [80, 84, 88, 92, 96]] := by decide +kernel

/-! ### tests/test_limiting.py -/

/-- The limiter of order `p`, as far as `limit_monomial` uses it (the transforms are not used). -/
def tables (p : ℕ) : HrLimiter ℚ :=
  let t := integralTables (K := ℚ) { p := p, Ns := p + 1, x := ⟨0, fun _ => 0⟩, w := ⟨0, fun _ => 0⟩, NG := 0, phi := ⟨0, 0, fun _ _ => 0⟩, dphiW := ⟨0, 0, fun _ _ => 0⟩, psi := ⟨0, 0, fun _ _ => 0⟩, m := ⟨0, fun _ => 0⟩, minv := ⟨0, fun _ => 0⟩ }
  ⟨⟨0, 0, fun _ _ => 0⟩, ⟨0, 0, fun _ _ => 0⟩, t.1, t.2.1, t.2.2⟩

/-- A vector from a list. -/
def vec (l : List ℚ) : Vec ℚ := ⟨l.length, fun i => l.getD i 0⟩

/-- The entries of the result. -/
def limited (p : ℕ) (ac al ar : List ℚ) : Option (List ℚ) :=
  match (tables p).limitMonomial (vec ac) (vec al) (vec ar) with
  | .error _ => none
  | .ok v => some ((List.range v.len).map v.val)

/-- tests/test_limiting.py:148-171 -/
example : limited 1 [3, 4] [1, 2] [5, 6] = some [3, 1] := by decide +kernel
example : limited 1 [-1, 3] [0, -3] [2, 1] = some [-1, 0] := by decide +kernel
example : limited 1 [-3, 3] [-1, -3] [-4, 1] = some [-3, -1 / 2] := by decide +kernel
/-- tests/test_limiting.py:174-186 -/
example : limited 2 [-1, 5, 2] [1, 2, 3] [0, 6, 3] = some [-3 / 4, 0, 1 / 2] := by decide +kernel
example : limited 2 [1, 2, 3] [0, 6, 3] [-1, 5, 2] = some [3 / 2, 0, 0] := by decide +kernel
/-- tests/test_limiting.py:189-197; -0.76388889 and 0.58333333 are -55/72 and 7/12. -/
example : limited 3 [-1, 5, 2, 7] [1, 2, 3, 1] [0, 6, 1, 2] = some [-55 / 72, 0, 7 / 12, -1 / 2] := by decide +kernel
/-- tests/test_limiting.py:200-209 -/
example : [1, 2, 3, 4, 5].map (integrateMonomialDerivative (K := ℚ) 1) = [2, 0, 1 / 3, 0, 1 / 60] ∧
    [2, 3, 4, 5].map (integrateMonomialDerivative (K := ℚ) 2) = [2, 0, 1 / 3, 0] := by decide +kernel
/-- tests/test_limiting.py:212-221 -/
example : ([1, 2, 3, 4, 5].map fun n => integrateMonomialDerivativeBounds (K := ℚ) 1 n (-3) (-1)) = [2, -4, 13 / 3, -10 / 3, 121 / 60] ∧
    ([2, 3, 4, 5].map fun n => integrateMonomialDerivativeBounds (K := ℚ) 2 n 1 3) = [2, 4, 13 / 3, 10 / 3] := by decide +kernel
/-- tests/test_limiting.py:224-229 -/
example : scalarMinmod (-1) (1 / 2 : ℚ) = 0 ∧ scalarMinmod (7 / 10) (1 / 2 : ℚ) = 1 / 2 ∧ scalarMinmod (7 / 10) (-1 / 2 : ℚ) = 0 ∧
    scalarMinmod (-7 / 10) (-1 / 5 : ℚ) = -1 / 5 := by decide +kernel

/-! ### tests/test_enhance.py -/

lemma intPoly_pow (k : ℕ) : intPoly (X ^ k : ℝ[X]) = (1 - (-1) ^ (k + 1)) / (k + 1) := by
  have h := intPoly_derivative (C (1 / ((k : ℝ) + 1)) * X ^ (k + 1))
  have hk : (k : ℝ) + 1 ≠ 0 := by positivity
  have e : derivative (C (1 / ((k : ℝ) + 1)) * X ^ (k + 1)) = (X ^ k : ℝ[X]) := by
    rw [derivative_C_mul, derivative_X_pow, ← mul_assoc, ← C_mul]
    have : 1 / ((k : ℝ) + 1) * ((k + 1 : ℕ) : ℝ) = 1 := by push_cast; field_simp
    rw [this, C_1, one_mul]; simp
  rw [e] at h
  rw [h]
  simp only [eval_mul, eval_C, eval_pow, eval_X]
  field_simp
  ring

/-- The 7 point Newton-Cotes rule, used here to evaluate integrals of polynomials of degree at most 6. -/
noncomputable def cotes (f : ℝ[X]) : ℝ :=
  1 / 420 * (41 * f.eval (-1) + 216 * f.eval (-2 / 3) + 27 * f.eval (-1 / 3) + 272 * f.eval 0 + 27 * f.eval (1 / 3) + 216 * f.eval (2 / 3) + 41 * f.eval 1)

lemma intPoly_cotes (f : ℝ[X]) (hf : f.natDegree ≤ 6) : intPoly f = cotes f := by
  have hs := f.as_sum_range' 7 (by omega)
  have key : ∀ k ≤ 6, ∀ a : ℝ, intPoly (C a * X ^ k) = cotes (C a * X ^ k) := by
    intro k hk a
    rw [intPoly_C_mul, intPoly_pow]
    unfold cotes
    simp only [eval_mul, eval_C, eval_pow, eval_X]
    interval_cases k <;> norm_num <;> ring
  have hadd : ∀ g h : ℝ[X], cotes (g + h) = cotes g + cotes h := by
    intro g h; unfold cotes; simp only [eval_add]; ring
  rw [hs]
  simp only [← C_mul_X_pow_eq_monomial, Finset.sum_range_succ, Finset.sum_range_zero, zero_add, intPoly_add, hadd]
  simp only [key _ (by norm_num : 0 ≤ 6), key _ (by norm_num : 1 ≤ 6), key _ (by norm_num : 2 ≤ 6), key _ (by norm_num : 3 ≤ 6), key _ (by norm_num : 4 ≤ 6), key _ (by norm_num : 5 ≤ 6), key _ (by norm_num : 6 ≤ 6)]

lemma leg2 (x : ℝ) : (legendre ℝ 2).eval x = (3 * x ^ 2 - 1) / 2 := by
  simp [legendre]; ring

lemma legDeg (n : ℕ) (hn : n ≤ 2) : (legendre ℝ n).natDegree ≤ 2 := by
  rw [(legendre_degree (K := ℝ) n).1]
  exact hn

lemma projCoeff_cotes (Q : ℝ[X]) (hQ : Q.natDegree ≤ 4) (n : ℕ) (hn : n ≤ 2) :
    projCoeff Q n = cotes (Q * legendre ℝ n) * ((2 * (n : ℝ) + 1) / 2) := by
  unfold projCoeff
  rw [intPoly_cotes _ (natDegree_mul_le.trans (by have := legDeg n hn; omega))]

/-- Expected weights of tests/test_enhance.py:70-78. -/
lemma weights (σ : ℝ) (hσ : σ ^ 2 = 1) : ExactWeights 2 4
    (fun n => if n = 0 then 0.7734375 else if n = 1 then 0.6796875 * σ else 0.4375)
    (fun n => if n = 0 then 0.2265625 else if n = 1 then -0.1328125 * σ else 0) (2 * σ) σ := by
  intro Q hQ
  have hd : Q.natDegree ≤ 4 := natDegree_le_of_degree_le hQ
  have hd2 : (Q.comp (X + C (2 * σ))).natDegree ≤ 4 := by
    rw [natDegree_comp, natDegree_X_add_C, mul_one]; exact hd
  have hs := Q.as_sum_range' 5 (by omega)
  rw [Finset.sum_range_succ, Finset.sum_range_succ, Finset.sum_range_succ, Finset.sum_range_succ, Finset.sum_range_succ, Finset.sum_range_succ, Finset.sum_range_zero, Finset.sum_range_zero]
  rw [projCoeff_cotes Q hd 0 (by norm_num), projCoeff_cotes Q hd 1 (by norm_num), projCoeff_cotes Q hd 2 (by norm_num),
    projCoeff_cotes _ hd2 0 (by norm_num), projCoeff_cotes _ hd2 1 (by norm_num), projCoeff_cotes _ hd2 2 (by norm_num)]
  unfold cotes
  simp only [eval_mul, leg2, legendre_zero, legendre_one, eval_comp, eval_add, eval_X, eval_C, eval_one]
  have hev : ∀ x, Q.eval x = Q.coeff 0 + Q.coeff 1 * x + Q.coeff 2 * x ^ 2 + Q.coeff 3 * x ^ 3 + Q.coeff 4 * x ^ 4 := by
    intro x
    conv_lhs => rw [hs]
    simp [Finset.sum_range_succ]
  simp only [hev]
  obtain rfl | rfl := sq_eq_one_iff.mp hσ
  all_goals
    norm_num
    ring


/-- tests/test_enhance.py:48-78: `left_enhancement_vectors` for order 2, modes 0 and 1. -/
theorem enhancement_vectors {lib : GaussLib ℝ} {en : Enhance ℝ} (h : Enhance.init lib 2 [0, 1] = .ok en) :
    [en.alphaL.val 0, en.alphaL.val 1, en.alphaL.val 2] = [0.7734375, 0.6796875, 0.4375] ∧
    [en.alphaR.val 0, en.alphaR.val 1, en.alphaR.val 2] = [0.2265625, -0.1328125, 0] ∧
    [en.betaL.val 0, en.betaL.val 1, en.betaL.val 2] = [0.2265625, 0.1328125, 0] ∧
    [en.betaR.val 0, en.betaR.val 1, en.betaR.val 2] = [0.7734375, -0.6796875, 0.4375] := by
  have hm : ∀ m ∈ ([0, 1] : List ℤ), m ≤ (2 : ℕ) := by decide
  have hz : ∀ σ : ℝ, ∀ k : ℕ, k ≤ 2 → (k : ℤ) ∉ ([0, 1] : List ℤ) → (fun n : ℕ => if n = 0 then (0.2265625 : ℝ) else if n = 1 then -0.1328125 * σ else 0) k = 0 := by
    intro σ k hk hk'
    interval_cases k <;> simp at hk' ⊢
  obtain ⟨a1, a2⟩ := (Props.C62_unique h hm (hz 1)).1 (by simpa using weights 1 (by norm_num))
  obtain ⟨b1, b2⟩ := (Props.C62_unique h hm (hz (-1))).2 (by simpa using weights (-1) (by norm_num))
  rw [a1 0 (by norm_num), a1 1 (by norm_num), a1 2 (by norm_num), a2 0 (by norm_num), a2 1 (by norm_num), a2 2 (by norm_num),
    b1 0 (by norm_num), b1 1 (by norm_num), b1 2 (by norm_num), b2 0 (by norm_num), b2 1 (by norm_num), b2 2 (by norm_num)]
  norm_num

/-- tests/test_enhance.py:81-97 -/
example (lib : GaussLib ℝ) : ∃ en uf, Enhance.init lib 2 [0, 1] = .ok en ∧ en.faceValue ⟨3, 5, fun r c => 3 * c + r + 1⟩ 1 = .ok uf ∧
    (List.range 5).map (uf.val 0) = [0, 2.8125, 5.484375, 8.15625, 10.828125] ∧
    (List.range 5).map (uf.val 1) = [3.6875, 9.640625, 15.59375, 21.546875, 0] := by
  obtain ⟨-, -, en, h⟩ := Props.C64_leading lib 2 2
  have h : Enhance.init lib 2 [0, 1] = .ok en := h
  obtain ⟨l1, l2, l3, l4⟩ := Props.C62_lengths h
  have hm : ∀ m ∈ ([0, 1] : List ℤ), m ≤ (2 : ℕ) := by decide
  obtain ⟨v1, v2, v3, v4⟩ := enhancement_vectors h
  simp only [List.cons.injEq, and_true] at v1 v2 v3 v4
  refine ⟨en, en.faceArr ⟨3, 5, fun r c => 3 * c + r + 1⟩ 1, h, ?_, ?_, ?_⟩
  · unfold Enhance.faceValue
    exact if_pos ⟨l1, l3.mpr hm, l4.mpr hm, l2⟩
  · simp [List.range_succ, Enhance.faceArr, Vec.dotArr, Arr.colSlice, pyIdx, l2, l4.mpr hm, Finset.sum_range_succ, v3, v4]
    norm_num
  · simp [List.range_succ, Enhance.faceArr, Vec.dotArr, Arr.colSlice, pyIdx, l1, l3.mpr hm, Finset.sum_range_succ, v1, v2]
    norm_num

/-- tests/test_enhance.py:23-45 -/
example (σ : ℝ) : (List.range 3).map (fun i => (List.range 3).map ((enhancementMatrix 1 [1] (2 * σ)).val i)) =
    [[1, 0, 0], [0, 1, 0], [0, 1, 6 * σ]] := by
  have hshift : ∀ (l : ℝ[X]) s, shiftLegendrePolynomial l s = l.comp (X + C s) := fun l s => shift_eq l s
  have hint : ∀ f g : ℝ[X], f.natDegree ≤ 2 → g.natDegree ≤ 2 → integrateLegendreProduct f g = cotes (f * g) := by
    intro f g hf hg
    exact intPoly_cotes _ (natDegree_mul_le.trans (by omega))
  have hc : ∀ n ≤ 2, ((legendre ℝ n).comp (X + C (2 * σ))).natDegree ≤ 2 := by
    intro n hn
    rw [natDegree_comp, natDegree_X_add_C, mul_one]; exact legDeg n hn
  have e0 : integrateLegendreProduct (legendre ℝ 1) ((legendre ℝ 0).comp (X + C (2 * σ))) = 0 := by
    rw [hint _ _ (legDeg 1 (by norm_num)) (hc 0 (by norm_num)), cotes]
    simp only [eval_mul, legendre_zero, legendre_one, eval_comp, eval_X, eval_one]
    norm_num
  have e1 : integrateLegendreProduct (legendre ℝ 1) ((legendre ℝ 1).comp (X + C (2 * σ))) = 2 / 3 := by
    rw [hint _ _ (legDeg 1 (by norm_num)) (hc 1 (by norm_num)), cotes]
    simp only [eval_mul, legendre_one, eval_comp, eval_add, eval_X, eval_C]
    ring
  have e2 : integrateLegendreProduct (legendre ℝ 1) ((legendre ℝ 2).comp (X + C (2 * σ))) = 4 * σ := by
    rw [hint _ _ (legDeg 1 (by norm_num)) (hc 2 (by norm_num)), cotes]
    simp only [eval_mul, leg2, legendre_one, eval_comp, eval_add, eval_X, eval_C]
    ring
  have e3 : integrateLegendreProduct (legendre ℝ 1) (legendre ℝ 1) = 2 / 3 := by
    rw [hint _ _ (legDeg 1 (by norm_num)) (legDeg 1 (by norm_num)), cotes]
    simp only [eval_mul, legendre_one, eval_X]
    norm_num
  simp only [enhancementMatrix, hshift]
  generalize X + C (2 * σ) = P at *
  simp [List.range_succ, e0, e1, e2, e3]
  ring

end Dg1d.Tests
