import Verif.Model.DgStability
import Verif.Props.Dg
import Verif.Props.Enhance

/-! Helper lemmas: the matrices of analysis/dg_stability.py. -/

open Polynomial

namespace Dg1d.Stability
open Spec

lemma legval_basis (n : ℕ) (x : ℝ) : legval x (legBasisCoef n) = (legendre ℝ n).eval x := basisValue_spec n x

/-- Entries of the full matrix when the interface matrices have the upwind form. -/
lemma fullMatrix_val {lib : GaussLib ℝ} {p : ℕ} {G0 G1 : Arr ℂ} (n j : ℕ) (hn : n < p + 1) :
    (fullMatrix (diag (Basis.init lib p).minv, dgInteriorFluxMatrix p, G0, G1)).val n j =
      (((2 * (n : ℝ) + 1) / 2 : ℝ) : ℂ) * (-(G1.val n j - G0.val n j) + ((intPoly (derivative (legendre ℝ n) * legendre ℝ j) : ℝ) : ℂ)) := by
  unfold fullMatrix
  simp only [Arr.dot, Arr.add, Arr.smul, toC, diag]
  rw [Finset.sum_eq_single_of_mem n]
  · rw [if_pos rfl]
    show (((2 * (n : ℝ) + 1) / 2 : ℝ) : ℂ) * _ = _
    congr 1
    show _ + ((intPoly (derivative (legendre ℝ n) * legendre ℝ j) : ℝ) : ℂ) = _
    ring
  · exact Finset.mem_range.mpr hn
  · intro b _ hb
    rw [if_neg (Ne.symm hb)]
    simp

/-- The enhanced (or plain) upwind residual of linear advection. -/
lemma advection_residual {s : Sol ℝ} {lib : GaussLib ℝ} {p : ℕ} (h : s.Built lib p) (hk : s.kw = Advection.physics) :
    ∃ F, residual s = .ok (s.applyBc, F) ∧
    ∀ n < p + 1, ∀ e, 1 ≤ e → e ≤ s.NE → ∀ f : Fin s.NF,
      s.dx / 2 * (2 / (2 * (n : ℝ) + 1)) * F.val n (e * s.NF + f) =
        intPoly (derivative (legendre ℝ n) * cellPoly s.applyBc e f) -
        (leftState (s.withVal s.applyBc.u.val) e f * (legendre ℝ n).eval 1 -
          leftState (s.withVal s.applyBc.u.val) (e - 1) f * (legendre ℝ n).eval (-1)) := by
  have hps : s.kw.Pointwise (Advection.spec s.NF) := by rw [hk]; exact Advection.pointwise _
  obtain ⟨hv, _, hok⟩ := residual_built h hps
  obtain ⟨F, hF, _⟩ := hok (fun _ _ hf => hf)
  refine ⟨F, by rw [hF, hv], ?_⟩
  intro n hn e he1 he2 f
  have := (Props.C13_weak_form h _ hps _ F hF).2.2.2.2 n hn e he1 he2 f
  rw [this, show cellPoly s.applyBc = cellPoly (s.withVal s.applyBc.u.val) by rw [hv]]
  have hg := gauss_int h (derivative (legendre ℝ n) * cellPoly (s.withVal s.applyBc.u.val) e f) (by
    unfold cellPoly
    have : (s.withVal s.applyBc.u.val).u.rows = p + 1 := h.rows
    rw [this]
    exact degree_deriv_mul hn _)
  have hx : s.basis.x = (lib (p + 1)).1 := by rw [h.basis]; rfl
  have hw : s.basis.w = (lib (p + 1)).2 := by rw [h.basis]; rfl
  rw [hx, hw] at hg
  rw [← hg]
  simp only [eval_mul, mul_assoc]
  rfl

/-- One cell of a Bloch wave, for interface values `∑ own·u_i + ∑ other·u_{i+1}`. -/
lemma bloch_cell {s : Sol ℝ} {lib : GaussLib ℝ} {p : ℕ} (h : s.Built lib p) (hk : s.kw = Advection.physics) {f : Fin s.NF} {own other : ℕ → ℝ}
    (hls : ∀ i, leftState (s.withVal s.applyBc.u.val) i f =
      ∑ n ∈ Finset.range (p + 1), own n * s.applyBc.u.val n (i * s.NF + f) + ∑ n ∈ Finset.range (p + 1), other n * s.applyBc.u.val n ((i + 1) * s.NF + f))
    {G0 G1 : Arr ℂ} {z : ℂ} (hz : z ≠ 0)
    (hG0 : ∀ n < p + 1, ∀ j < p + 1, G0.val n j = ((legendre ℝ n).eval (-1) : ℝ) * z⁻¹ * (own j + z * other j))
    (hG1 : ∀ n < p + 1, ∀ j < p + 1, G1.val n j = ((legendre ℝ n).eval 1 : ℝ) * (own j + z * other j))
    (c : ℕ → ℂ) {e : ℕ} (he1 : 1 ≤ e) (he2 : e ≤ s.NE)
    (hu : ∀ n < p + 1, s.applyBc.u.val n ((e - 1) * s.NF + f) = (z ^ (e - 1) * c n).re ∧ s.applyBc.u.val n (e * s.NF + f) = (z ^ e * c n).re ∧
      other n * s.applyBc.u.val n ((e + 1) * s.NF + f) = other n * (z ^ (e + 1) * c n).re) :
    ∃ F, residual s = .ok (s.applyBc, F) ∧ ∀ n < p + 1, F.val n (e * s.NF + f) = (z ^ e * (((2 / s.dx : ℝ) : ℂ) *
      ∑ j ∈ Finset.range (p + 1), (fullMatrix (diag (Basis.init lib p).minv, dgInteriorFluxMatrix p, G0, G1)).val n j * c j)).re := by
  obtain ⟨F, hF, hval⟩ := advection_residual h hk
  refine ⟨F, hF, fun n hn => ?_⟩
  have hdx := h.dx
  have hn2 : (2 * (n : ℝ) + 1) ≠ 0 := by positivity
  have key := hval n hn e he1 he2 f
  -- everything as real parts
  have hre : ∀ (a : ℝ) (w : ℂ), a * w.re = ((a : ℂ) * w).re := fun a w => (Complex.re_ofReal_mul a w).symm
  have hW : ∀ i, (i = e ∨ i + 1 = e) → leftState (s.withVal s.applyBc.u.val) i f = (∑ j ∈ Finset.range (p + 1), ((own j : ℂ) + z * other j) * (z ^ i * c j)).re := by
    intro i hi
    rw [hls, Complex.re_sum, ← Finset.sum_add_distrib]
    refine Finset.sum_congr rfl fun j hj => ?_
    obtain ⟨u1, u2, u3⟩ := hu j (Finset.mem_range.mp hj)
    have e1 : s.applyBc.u.val j (i * s.NF + f) = (z ^ i * c j).re := by
      rcases hi with rfl | hi
      · exact u2
      · have : i = e - 1 := by omega
        rw [this]; exact u1
    have e2 : other j * s.applyBc.u.val j ((i + 1) * s.NF + f) = other j * (z ^ (i + 1) * c j).re := by
      rcases hi with rfl | hi
      · exact u3
      · rw [hi, u2]
    rw [e1, e2, hre, hre, ← Complex.add_re]
    congr 1
    ring
  have hI : intPoly (derivative (legendre ℝ n) * cellPoly s.applyBc e f) =
      (∑ j ∈ Finset.range (p + 1), ((intPoly (derivative (legendre ℝ n) * legendre ℝ j) : ℝ) : ℂ) * (z ^ e * c j)).re := by
    unfold cellPoly legSeries
    rw [(applyBc_shape s).1, h.rows, (applyBc_setup s).NF, Finset.mul_sum, intPoly_sum, Complex.re_sum]
    refine Finset.sum_congr rfl fun j hj => ?_
    show intPoly (_ * (C (s.applyBc.u.val j (e * s.NF + f)) * _)) = _
    rw [(hu j (Finset.mem_range.mp hj)).2.1, ← hre, ← mul_assoc, mul_comm (derivative _) (C _), mul_assoc, intPoly_C_mul, mul_comm]
  rw [hW e (.inl rfl), hW (e - 1) (.inr (by omega)), hI] at key
  have hze : z ^ (e - 1) = z ^ e * z⁻¹ := by
    obtain ⟨k, rfl⟩ : ∃ k, e = k + 1 := ⟨e - 1, by omega⟩
    rw [Nat.add_sub_cancel, pow_succ, mul_assoc, mul_inv_cancel₀ hz, mul_one]
  have hsum : z ^ e * (((2 / s.dx : ℝ) : ℂ) * ∑ j ∈ Finset.range (p + 1), (fullMatrix (diag (Basis.init lib p).minv, dgInteriorFluxMatrix p, G0, G1)).val n j * c j) =
      (((2 * (n : ℝ) + 1) / s.dx : ℝ) : ℂ) * ((∑ j ∈ Finset.range (p + 1), ((intPoly (derivative (legendre ℝ n) * legendre ℝ j) : ℝ) : ℂ) * (z ^ e * c j)) -
        ((∑ j ∈ Finset.range (p + 1), ((own j : ℂ) + z * other j) * (z ^ e * c j)) * ((legendre ℝ n).eval 1 : ℝ) -
          (∑ j ∈ Finset.range (p + 1), ((own j : ℂ) + z * other j) * (z ^ (e - 1) * c j)) * ((legendre ℝ n).eval (-1) : ℝ))) := by
    rw [Finset.sum_mul, Finset.sum_mul, ← Finset.sum_sub_distrib, ← Finset.sum_sub_distrib, Finset.mul_sum, Finset.mul_sum, Finset.mul_sum]
    refine Finset.sum_congr rfl fun j hj => ?_
    rw [fullMatrix_val n j hn, hG0 n hn j (Finset.mem_range.mp hj), hG1 n hn j (Finset.mem_range.mp hj), hze]
    push_cast
    ring
  rw [hsum, ← hre, Complex.sub_re, Complex.sub_re, Complex.re_mul_ofReal, Complex.re_mul_ofReal, ← key]
  field_simp

/-- The weights of the script: the first `p+1` columns, and the columns of the modes, of the sum of the rows of `A⁻¹`. -/
noncomputable def scriptOwn (p : ℕ) (ms : List ℕ) (Ai : Arr ℝ) (k : ℕ) : ℝ := ∑ j ∈ Finset.range (p + 1 + ms.length), (legendre ℝ j).eval 1 * Ai.val j k

noncomputable def scriptOther (p : ℕ) (ms : List ℕ) (Ai : Arr ℝ) (k : ℕ) : ℝ :=
  ∑ i ∈ Finset.range ms.length, if ms.getD i 0 = k then scriptOwn p ms Ai (p + 1 + i) else 0

/-- They are exact. -/
lemma script_exact {p : ℕ} {ms : List ℕ} (hp : ∀ m ∈ ms, m ≤ p) {Ai : Arr ℝ} (h : (enhancementMatrix p ms (2 : ℝ)).inv = .ok Ai) :
    ExactWeights p (p + ms.length) (scriptOwn p ms Ai) (scriptOther p ms Ai) 2 1 := by
  intro Q hQ
  have hd : Q.degree < ((p + 1 + ms.length : ℕ) : WithBot ℕ) := by
    refine lt_of_le_of_lt hQ ?_
    exact_mod_cast (by omega : p + ms.length < p + 1 + ms.length)
  rw [← weights_exact h (fun j => (legendre ℝ j).eval 1) 1 (fun _ => rfl) Q hd, Finset.sum_range_add _ (p + 1) ms.length]
  congr 1
  · refine Finset.sum_congr rfl fun k hk => ?_
    rw [if_pos (Finset.mem_range.mp hk)]
    rfl
  · unfold scriptOther
    simp only [Finset.sum_mul]
    rw [Finset.sum_comm]
    refine Finset.sum_congr rfl fun i hi => ?_
    have hi := Finset.mem_range.mp hi
    have hmem : ms.getD i 0 ∈ ms := by
      rw [List.getD_eq_getElem?_getD, List.getElem?_eq_getElem hi]
      exact List.getElem_mem hi
    rw [Finset.sum_eq_single_of_mem (ms.getD i 0) (Finset.mem_range.mpr (by have := hp _ hmem; omega))]
    · rw [if_pos rfl, if_neg (by omega), Nat.add_sub_cancel_left, scriptOwn, Finset.sum_mul]
    · intro b _ hb
      rw [if_neg (Ne.symm hb), zero_mul]

/-- The interface matrices of the enhanced scheme. -/
lemma icb_form {p : ℕ} {ms : List ℕ} {z : ℂ} {G0 G1 : Arr ℂ} (h : icbInterfaceFluxMatrix p ms z = .ok (G0, G1)) :
    ∃ Ai Bi, (enhancementMatrix p ms (2 : ℝ)).inv = .ok Ai ∧ (enhancementMatrix p ms (-2 : ℝ)).inv = .ok Bi ∧
    (∀ n, ∀ j < p + 1, G0.val n j = ((legendre ℝ n).eval (-1) : ℝ) * z⁻¹ * (scriptOwn p ms Ai j + z * scriptOther p ms Ai j)) ∧
    (∀ n, ∀ j < p + 1, G1.val n j = ((legendre ℝ n).eval 1 : ℝ) * (scriptOwn p ms Ai j + z * scriptOther p ms Ai j)) := by
  unfold icbInterfaceFluxMatrix at h
  simp only at h
  rcases hA : (enhancementMatrix p ms (2 : ℝ)).inv with e | Ai
  · rw [hA] at h; cases h
  rw [hA] at h
  rcases hB : (enhancementMatrix p ms (-2 : ℝ)).inv with e | Bi
  · rw [hB] at h; cases h
  rw [hB] at h
  have hc : Ai.cols = p + 1 + ms.length := by
    obtain ⟨_, _, a3, _⟩ := inv_spec hA
    rw [(matrix_shape p ms (2 : ℝ)).1] at a3
    exact a3
  have hlen : p + ms.length + 1 = p + 1 + ms.length := by omega
  have key : ∀ (a : ℂ) (g : ℕ → ℂ) (j : ℕ), j < p + 1 → (∀ k, g k = a * ((legendre ℝ k).eval 1 : ℝ)) →
      ∑ l ∈ Finset.range (p + ms.length + 1), (∑ k ∈ Finset.range Ai.cols, (∑ i ∈ Finset.range (p + ms.length + 1), g i * (Ai.val i k : ℂ)) * (icbBL p ms z).val k l) * (icbR p ms).val l j =
        a * (scriptOwn p ms Ai j + z * scriptOther p ms Ai j) := by
    intro a g j hj hg
    have hw : ∀ k, ∑ i ∈ Finset.range (p + ms.length + 1), g i * (Ai.val i k : ℂ) = a * (scriptOwn p ms Ai k : ℂ) := by
      intro k
      unfold scriptOwn
      rw [hlen, Complex.ofReal_sum, Finset.mul_sum]
      refine Finset.sum_congr rfl fun i _ => ?_
      rw [hg, Complex.ofReal_mul]
      ring
    have hbl : ∀ l < p + 1 + ms.length, ∑ k ∈ Finset.range Ai.cols, (∑ i ∈ Finset.range (p + ms.length + 1), g i * (Ai.val i k : ℂ)) * (icbBL p ms z).val k l =
        a * (scriptOwn p ms Ai l : ℂ) * (if l < p + 1 then 1 else z) := by
      intro l hl
      rw [hc, Finset.sum_eq_single_of_mem l (Finset.mem_range.mpr hl)]
      · rw [hw]
        simp only [icbBL, if_true]
      · intro b _ hb
        simp only [icbBL, if_neg hb, mul_zero]
    rw [Finset.sum_congr rfl fun l hl => by rw [hbl l (by have := Finset.mem_range.mp hl; omega)], hlen, Finset.sum_range_add _ (p + 1) ms.length]
    rw [mul_add]
    congr 1
    · rw [Finset.sum_eq_single_of_mem j (Finset.mem_range.mpr hj)]
      · rw [if_pos hj]
        simp only [icbR, if_pos hj, if_true, mul_one]
      · intro b hb hbj
        simp only [icbR, if_pos (Finset.mem_range.mp hb), if_neg hbj, mul_zero]
    · unfold scriptOther
      rw [Complex.ofReal_sum, Finset.mul_sum, Finset.mul_sum]
      refine Finset.sum_congr rfl fun i _ => ?_
      simp only [icbR, delta]
      rw [if_neg (by omega), if_neg (by omega), Nat.add_sub_cancel_left]
      split_ifs
      · ring
      · simp
  cases h
  refine ⟨Ai, Bi, rfl, rfl, fun n j hj => ?_, fun n j hj => ?_⟩
  · refine key _ _ j hj fun k => ?_
    show ((legval (-1) (legBasisCoef n) * legval 1 (legBasisCoef k) : ℝ) : ℂ) * z⁻¹ = _
    rw [legval_basis, legval_basis, Complex.ofReal_mul]
    ring
  · refine key _ _ j hj fun k => ?_
    show ((legval 1 (legBasisCoef n) * legval 1 (legBasisCoef k) : ℝ) : ℂ) = _
    rw [legval_basis, legval_basis, Complex.ofReal_mul]

end Dg1d.Stability
