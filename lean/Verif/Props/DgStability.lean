import Verif.Proofs.DgStability
import Verif.Props.ExamplesReal
import Mathlib.RingTheory.RootsOfUnity.Complex

/-! # The stability analysis scripts (C65, C68) -/

open Polynomial Dg1d.Spec

namespace Dg1d.Props
open Stability

variable {s : Sol ℝ} {lib : GaussLib ℝ} {p : ℕ}

/-- Cell `e` of field `f` holds the real part of `z^e c`. -/
def IsBloch (s : Sol ℝ) (p : ℕ) (f : ℕ) (z : ℂ) (c : ℕ → ℂ) (e : ℕ) : Prop := ∀ n < p + 1, s.u.val n (e * s.NF + f) = (z ^ e * c n).re

/-- A real part is enough: `z^e c` and `-i z^e c` give both parts of the complex wave. The periodic ghost cells continue it
when `z^NE = 1`. -/
lemma bloch_ghosts (h : s.Built lib p) (hl : s.bcl = .lit "periodic") (hr : s.bcr = .lit "periodic") {f : ℕ} (hf : f < s.NF) {z : ℂ} (hz : z ^ s.NE = 1) {c : ℕ → ℂ}
    (hb : ∀ e, 1 ≤ e → e ≤ s.NE → IsBloch s p f z c e) : ∀ e ≤ s.NE + 1, IsBloch s.applyBc p f z c e := by
  have hin : ∀ e, 1 ≤ e → e ≤ s.NE → IsBloch s.applyBc p f z c e := by
    intro e he1 he2 n hn
    rw [(applyBc_setup s).NF, applyBc_val h.NF h.NE h.cols, bcCol_interior s he1 he2 hf]
    exact hb e he1 he2 n hn
  intro e he n hn
  obtain ⟨p1, p2⟩ := periodic_cells h.NF h.NE h.cols (by rw [hl]; exact ⟨rfl, rfl⟩) (by rw [hr]; exact ⟨rfl, rfl⟩) n hf
  have hE := h.NE
  have i1 := hin s.NE h.NE le_rfl n hn
  have i2 := hin 1 le_rfl h.NE n hn
  rw [(applyBc_setup s).NF] at i1 i2 ⊢
  rcases Nat.eq_zero_or_pos e with rfl | h0
  · rw [p1, i1, hz, pow_zero]
  · rcases Nat.lt_or_ge s.NE e with h1 | h1
    · have : e = s.NE + 1 := by omega
      subst this
      rw [p2, i2, pow_succ z s.NE, hz, pow_one, one_mul]
    · have := hin e h0 h1 n hn
      rwa [(applyBc_setup s).NF] at this

/-- **C65 (one cell, any `z`).** Where cells `e-1` and `e` hold a Bloch wave, the residual of the solver in cell `e` is
`2/dx` times the matrix of the script applied to the coefficient vector. -/
theorem C65_dg_cell (h : s.Built lib p) (hk : s.kw = Advection.physics) (hen : s.enhance = none) {f : ℕ} (hf : f < s.NF) {z : ℂ} (hz : z ≠ 0) {c : ℕ → ℂ}
    {e : ℕ} (he1 : 1 ≤ e) (he2 : e ≤ s.NE) (hb : IsBloch s.applyBc p f z c (e - 1) ∧ IsBloch s.applyBc p f z c e) :
    ∃ F, residual s = .ok (s.applyBc, F) ∧ ∀ n < p + 1, F.val n (e * s.NF + f) =
      (z ^ e * (((2 / s.dx : ℝ) : ℂ) * ∑ j ∈ Finset.range (p + 1), (fullMatrix (dgMatrices lib p z)).val n j * c j)).re := by
  refine bloch_cell h hk (f := ⟨f, hf⟩) (own := fun n => (legendre ℝ n).eval 1) (other := fun _ => 0) ?_ hz ?_ ?_ c he1 he2 ?_
  · intro i
    unfold leftState
    have : (s.withVal s.applyBc.u.val).enhance = none := hen
    rw [this]
    simp only [zero_mul, Finset.sum_const_zero, add_zero]
    unfold cellPoly
    rw [legSeries_eval, show (s.withVal s.applyBc.u.val).u.rows = p + 1 from h.rows]
    exact Finset.sum_congr rfl fun n _ => mul_comm _ _
  · intro n _ j _
    simp only [legval_basis]
    push_cast
    ring
  · intro n _ j _
    simp only [legval_basis]
    push_cast
    ring
  · intro n hn
    have h1 := hb.1 n hn
    have h2 := hb.2 n hn
    rw [(applyBc_setup s).NF] at h1 h2
    exact ⟨h1, h2, by simp⟩

/-- **C65.** A Bloch wave on a periodic domain (`z^NE = 1`): the residual of every cell. -/
theorem C65_dg (h : s.Built lib p) (hk : s.kw = Advection.physics) (hen : s.enhance = none) (hl : s.bcl = .lit "periodic") (hr : s.bcr = .lit "periodic")
    {f : ℕ} (hf : f < s.NF) {z : ℂ} (hz : z ^ s.NE = 1) {c : ℕ → ℂ} (hb : ∀ e, 1 ≤ e → e ≤ s.NE → IsBloch s p f z c e) :
    ∃ F, residual s = .ok (s.applyBc, F) ∧ ∀ n < p + 1, ∀ e, 1 ≤ e → e ≤ s.NE → F.val n (e * s.NF + f) =
      (z ^ e * (((2 / s.dx : ℝ) : ℂ) * ∑ j ∈ Finset.range (p + 1), (fullMatrix (dgMatrices lib p z)).val n j * c j)).re := by
  have hE := h.NE
  have hz0 : z ≠ 0 := by
    rintro rfl
    rw [zero_pow (by omega)] at hz
    exact zero_ne_one hz
  have hg := bloch_ghosts h hl hr hf hz hb
  obtain ⟨F, hF, -⟩ := C65_dg_cell h hk hen hf hz0 le_rfl hE ⟨hg 0 (by omega), hg 1 (by omega)⟩
  refine ⟨F, hF, fun n hn e he1 he2 => ?_⟩
  obtain ⟨F', hF', hv⟩ := C65_dg_cell h hk hen hf hz0 he1 he2 ⟨hg (e - 1) (by omega), hg e (by omega)⟩
  rw [hF] at hF'
  cases hF'
  exact hv n hn

/-- **C65 (enhanced scheme, one cell).** The same for the solver with enhancement and `icb_matrices`, the modes given to the
script in any order. -/
theorem C65_icb_cell (h : s.Built lib p) (hk : s.kw = Advection.physics) {en : Enhance ℝ} {modes : List ℤ} (hi : Enhance.init lib p modes = .ok en)
    (hm : ∀ m ∈ modes, m ≤ p) (hen : s.enhance = some en) {f : ℕ} (hf : f < s.NF) {z : ℂ} (hz : z ≠ 0)
    {ms : List ℕ} (hms : (ms.map Int.ofNat).Perm modes) {M : Arr ℝ × Arr ℝ × Arr ℂ × Arr ℂ} (hM : icbMatrices lib p ms z = .ok M) {c : ℕ → ℂ}
    {e : ℕ} (he1 : 1 ≤ e) (he2 : e ≤ s.NE) (hb : IsBloch s.applyBc p f z c (e - 1) ∧ IsBloch s.applyBc p f z c e ∧ IsBloch s.applyBc p f z c (e + 1)) :
    ∃ F, residual s = .ok (s.applyBc, F) ∧ ∀ n < p + 1, F.val n (e * s.NF + f) =
      (z ^ e * (((2 / s.dx : ℝ) : ℂ) * ∑ j ∈ Finset.range (p + 1), (fullMatrix M).val n j * c j)).re := by
  have hmem : ∀ k : ℕ, k ∈ ms ↔ (k : ℤ) ∈ modes := by
    intro k
    rw [← hms.mem_iff, List.mem_map]
    constructor
    · exact fun hk => ⟨k, hk, rfl⟩
    · rintro ⟨a, ha, hak⟩
      have : a = k := Int.ofNat.inj hak
      rwa [← this]
  have hlen : ms.length = modes.length := by rw [← hms.length_eq, List.length_map]
  unfold icbMatrices at hM
  rcases hG : icbInterfaceFluxMatrix p ms z with er | ⟨G0, G1⟩
  · rw [hG] at hM; cases hM
  rw [hG] at hM
  cases hM
  obtain ⟨Ai, Bi, hA, -, g0, g1⟩ := icb_form hG
  have hex := script_exact (fun m hmm => by have := hm m ((hmem m).mp hmm); omega) hA
  rw [hlen] at hex
  obtain ⟨w1, w2⟩ := (C62_unique hi hm (own := scriptOwn p ms Ai) (other := scriptOther p ms Ai) (fun k _ hkm => by
    unfold scriptOther
    refine Finset.sum_eq_zero fun i hi' => if_neg ?_
    rintro rfl
    refine hkm ((hmem _).mp ?_)
    rw [List.getD_eq_getElem?_getD, List.getElem?_eq_getElem (Finset.mem_range.mp hi')]
    exact List.getElem_mem _)).1 hex
  refine bloch_cell h hk (f := ⟨f, hf⟩) (own := en.alphaL.val) (other := en.alphaR.val) ?_ hz ?_ ?_ c he1 he2 ?_
  · intro i
    unfold leftState
    have : (s.withVal s.applyBc.u.val).enhance = some en := hen
    rw [this]
    simp only
    rw [show (s.withVal s.applyBc.u.val).u.rows = p + 1 from h.rows]
    rfl
  · intro n _ j hj
    rw [g0 n j hj, w1 j (by omega), w2 j (by omega)]
  · intro n _ j hj
    rw [g1 n j hj, w1 j (by omega), w2 j (by omega)]
  · intro n hn
    have h1 := hb.1 n hn
    have h2 := hb.2.1 n hn
    have h3 := hb.2.2 n hn
    rw [(applyBc_setup s).NF] at h1 h2 h3
    exact ⟨h1, h2, by show _ * s.applyBc.u.val n ((e + 1) * s.NF + f) = _; rw [h3]⟩

/-- **C65 (enhanced scheme, periodic domain).** -/
theorem C65_icb (h : s.Built lib p) (hk : s.kw = Advection.physics) {en : Enhance ℝ} {modes : List ℤ} (hi : Enhance.init lib p modes = .ok en)
    (hm : ∀ m ∈ modes, m ≤ p) (hen : s.enhance = some en) (hl : s.bcl = .lit "periodic") (hr : s.bcr = .lit "periodic") {f : ℕ} (hf : f < s.NF) {z : ℂ} (hz : z ^ s.NE = 1)
    {ms : List ℕ} (hms : (ms.map Int.ofNat).Perm modes) {M : Arr ℝ × Arr ℝ × Arr ℂ × Arr ℂ} (hM : icbMatrices lib p ms z = .ok M) {c : ℕ → ℂ}
    (hb : ∀ e, 1 ≤ e → e ≤ s.NE → IsBloch s p f z c e) :
    ∃ F, residual s = .ok (s.applyBc, F) ∧ ∀ n < p + 1, ∀ e, 1 ≤ e → e ≤ s.NE → F.val n (e * s.NF + f) =
      (z ^ e * (((2 / s.dx : ℝ) : ℂ) * ∑ j ∈ Finset.range (p + 1), (fullMatrix M).val n j * c j)).re := by
  have hE := h.NE
  have hz0 : z ≠ 0 := by
    rintro rfl
    rw [zero_pow (by omega)] at hz
    exact zero_ne_one hz
  have hg := bloch_ghosts h hl hr hf hz hb
  obtain ⟨F, hF, -⟩ := C65_icb_cell h hk hi hm hen hf hz0 hms hM le_rfl hE ⟨hg 0 (by omega), hg 1 (by omega), hg 2 (by omega)⟩
  refine ⟨F, hF, fun n hn e he1 he2 => ?_⟩
  obtain ⟨F', hF', hv⟩ := C65_icb_cell h hk hi hm hen hf hz0 hms hM he1 he2 ⟨hg (e - 1) (by omega), hg e (by omega), hg (e + 1) (by omega)⟩
  rw [hF] at hF'
  cases hF'
  exact hv n hn

/-- **C65 (the script runs).** With the leading modes, as in the script, the matrices exist. -/
theorem C65_icb_defined (lib : GaussLib ℝ) (p m : ℕ) (z : ℂ) : ∃ M, icbMatrices lib p (List.range m) z = .ok M := by
  obtain ⟨⟨Ai, hA⟩, ⟨Bi, hB⟩, -⟩ := C64_leading lib p m
  unfold icbMatrices icbInterfaceFluxMatrix
  simp only [hA, hB]
  exact ⟨_, rfl⟩

open ComplexConjugate in
/-- **C68 (energy of a wave).** For `|z| = 1`, with `U(ξ) = ∑ v_j P_j(ξ)` the wave in one cell: the energy rate given by the
matrix of the script is minus half the squared jump at the interface. -/
theorem C68_energy (lib : GaussLib ℝ) (p : ℕ) {z : ℂ} (hz : ‖z‖ = 1) (v : ℕ → ℂ) :
    let U := fun ξ : ℝ => ∑ j ∈ Finset.range (p + 1), (((legendre ℝ j).eval ξ : ℝ) : ℂ) * v j
    (∑ n ∈ Finset.range (p + 1), ((2 / (2 * (n : ℝ) + 1) : ℝ) : ℂ) * (conj (v n) * ∑ j ∈ Finset.range (p + 1), (fullMatrix (dgMatrices lib p z)).val n j * v j)).re =
      -(1 / 2) * ‖U (-1) - z⁻¹ * U 1‖ ^ 2 := by
  intro U
  set I : ℕ → ℕ → ℝ := fun n j => intPoly (derivative (legendre ℝ n) * legendre ℝ j) with hI
  have hsym : ∀ n j, I n j + I j n = (legendre ℝ n).eval 1 * (legendre ℝ j).eval 1 - (legendre ℝ n).eval (-1) * (legendre ℝ j).eval (-1) := by
    intro n j
    simp only [hI]
    rw [intPoly_parts, mul_comm (legendre ℝ n)]
    ring
  set S : ℂ := ∑ n ∈ Finset.range (p + 1), ∑ j ∈ Finset.range (p + 1), conj (v n) * ((I n j : ℂ) * v j) with hS
  have hU : ∀ ξ : ℝ, conj (U ξ) = ∑ n ∈ Finset.range (p + 1), (((legendre ℝ n).eval ξ : ℝ) : ℂ) * conj (v n) := by
    intro ξ
    rw [map_sum]
    exact Finset.sum_congr rfl fun n _ => by rw [map_mul, Complex.conj_ofReal]
  have h1 : ∑ n ∈ Finset.range (p + 1), ((2 / (2 * (n : ℝ) + 1) : ℝ) : ℂ) * (conj (v n) * ∑ j ∈ Finset.range (p + 1), (fullMatrix (dgMatrices lib p z)).val n j * v j) =
      S - conj (U 1) * U 1 + conj (U (-1)) * (z⁻¹ * U 1) := by
    rw [hU, hU, Finset.sum_mul, Finset.sum_mul, ← Finset.sum_sub_distrib, ← Finset.sum_add_distrib]
    refine Finset.sum_congr rfl fun n hn => ?_
    have hn0 : (2 * (n : ℝ) + 1) ≠ 0 := by positivity
    have hrow : ∀ j, (fullMatrix (dgMatrices lib p z)).val n j = (((2 * (n : ℝ) + 1) / 2 : ℝ) : ℂ) * (-((((legendre ℝ n).eval 1 : ℝ) : ℂ) * (((legendre ℝ j).eval 1 : ℝ) : ℂ) -
        (((legendre ℝ n).eval (-1) : ℝ) : ℂ) * (((legendre ℝ j).eval 1 : ℝ) : ℂ) * z⁻¹) + (I n j : ℂ)) := by
      intro j
      unfold dgMatrices
      rw [fullMatrix_val n j (Finset.mem_range.mp hn)]
      simp only [dgInterfaceFluxMatrix, legval_basis, hI, Complex.ofReal_mul]
    have hc : ((2 / (2 * (n : ℝ) + 1) : ℝ) : ℂ) * (((2 * (n : ℝ) + 1) / 2 : ℝ) : ℂ) = 1 := by
      rw [← Complex.ofReal_mul]
      norm_cast
      field_simp
    simp only [U, Finset.mul_sum]
    rw [← Finset.sum_sub_distrib, ← Finset.sum_add_distrib]
    refine Finset.sum_congr rfl fun j _ => ?_
    rw [hrow]
    linear_combination (conj (v n) * (-((((legendre ℝ n).eval 1 : ℝ) : ℂ) * (((legendre ℝ j).eval 1 : ℝ) : ℂ) -
        (((legendre ℝ n).eval (-1) : ℝ) : ℂ) * (((legendre ℝ j).eval 1 : ℝ) : ℂ) * z⁻¹) + (I n j : ℂ)) * v j) * hc
  have h2 : S + conj S = conj (U 1) * U 1 - conj (U (-1)) * U (-1) := by
    have hc : conj S = ∑ n ∈ Finset.range (p + 1), ∑ j ∈ Finset.range (p + 1), conj (v n) * ((I j n : ℂ) * v j) := by
      rw [hS, map_sum, Finset.sum_congr rfl fun n _ => map_sum _ _ _, Finset.sum_comm]
      refine Finset.sum_congr rfl fun n _ => Finset.sum_congr rfl fun j _ => ?_
      rw [map_mul, map_mul, Complex.conj_conj, Complex.conj_ofReal]
      ring
    rw [hc, hS, hU, hU, Finset.sum_mul, Finset.sum_mul, ← Finset.sum_sub_distrib, ← Finset.sum_add_distrib]
    refine Finset.sum_congr rfl fun n _ => ?_
    simp only [U, Finset.mul_sum]
    rw [← Finset.sum_sub_distrib, ← Finset.sum_add_distrib]
    refine Finset.sum_congr rfl fun j _ => ?_
    have := congrArg (fun r : ℝ => (r : ℂ)) (hsym n j)
    simp only [Complex.ofReal_add, Complex.ofReal_sub, Complex.ofReal_mul] at this
    linear_combination conj (v n) * v j * this
  have hn : ∀ w : ℂ, conj w * w = ((‖w‖ ^ 2 : ℝ) : ℂ) := fun w => by rw [Complex.conj_mul']; push_cast; rfl
  have h3 : 2 * S.re = ‖U 1‖ ^ 2 - ‖U (-1)‖ ^ 2 := by
    have := congrArg Complex.re h2
    rw [hn, hn, Complex.add_re, Complex.conj_re, ← Complex.ofReal_sub, Complex.ofReal_re] at this
    linarith
  have h4 : ‖U (-1) - z⁻¹ * U 1‖ ^ 2 = ‖U (-1)‖ ^ 2 + ‖U 1‖ ^ 2 - 2 * (conj (U (-1)) * (z⁻¹ * U 1)).re := by
    have e1 : ‖z⁻¹ * U 1‖ = ‖U 1‖ := by rw [norm_mul, norm_inv, hz, inv_one, one_mul]
    rw [← e1, ← Complex.normSq_eq_norm_sq, ← Complex.normSq_eq_norm_sq, ← Complex.normSq_eq_norm_sq, Complex.normSq_sub]
    have : (U (-1) * conj (z⁻¹ * U 1)).re = (conj (U (-1)) * (z⁻¹ * U 1)).re := by
      rw [← Complex.conj_re (conj (U (-1)) * _), map_mul (starRingEnd ℂ) (conj (U (-1))), Complex.conj_conj]
    rw [this]
  rw [h1, h4, Complex.add_re, Complex.sub_re, hn, Complex.ofReal_re]
  linarith

/-- **C68.** In exact arithmetic every eigenvalue the script computes for the standard scheme has a real part at most 0. -/
theorem C68_spectrum (lib : GaussLib ℝ) (p : ℕ) {z : ℂ} (hz : ‖z‖ = 1) {v : ℕ → ℂ} (hv : ∃ n < p + 1, v n ≠ 0) {μ : ℂ}
    (h : ∀ n < p + 1, ∑ j ∈ Finset.range (p + 1), (fullMatrix (dgMatrices lib p z)).val n j * v j = μ * v n) : μ.re ≤ 0 := by
  have key := C68_energy lib p hz v
  simp only at key
  rw [Finset.sum_congr rfl fun n hn => by rw [h n (Finset.mem_range.mp hn)]] at key
  have hE : ∑ n ∈ Finset.range (p + 1), ((2 / (2 * (n : ℝ) + 1) : ℝ) : ℂ) * ((starRingEnd ℂ) (v n) * (μ * v n)) =
      ((∑ n ∈ Finset.range (p + 1), 2 / (2 * (n : ℝ) + 1) * ‖v n‖ ^ 2 : ℝ) : ℂ) * μ := by
    rw [Complex.ofReal_sum, Finset.sum_mul]
    refine Finset.sum_congr rfl fun n _ => ?_
    have := Complex.conj_mul' (v n)
    rw [Complex.ofReal_mul, Complex.ofReal_pow]
    linear_combination ((2 / (2 * (n : ℝ) + 1) : ℝ) : ℂ) * μ * this
  rw [hE, Complex.re_ofReal_mul] at key
  have hpos : 0 < ∑ n ∈ Finset.range (p + 1), 2 / (2 * (n : ℝ) + 1) * ‖v n‖ ^ 2 := by
    obtain ⟨n, hn, hne⟩ := hv
    refine Finset.sum_pos' (fun i _ => by positivity) ⟨n, Finset.mem_range.mpr hn, ?_⟩
    have := norm_pos_iff.mpr hne
    positivity
  by_contra hc
  push Not at hc
  have h1 := mul_pos hpos hc
  rw [key] at h1
  have h2 := sq_nonneg ‖(∑ j ∈ Finset.range (p + 1), (((legendre ℝ j).eval (-1) : ℝ) : ℂ) * v j) - z⁻¹ * ∑ j ∈ Finset.range (p + 1), (((legendre ℝ j).eval 1 : ℝ) : ℂ) * v j‖
  linarith

/-! ### Concrete cases -/

/-- A third root of unity. -/
noncomputable def root3 : ℂ := Complex.exp (2 * Real.pi * Complex.I / 3)

lemma root3_pow : root3 ^ 3 = 1 := (Complex.isPrimitiveRoot_exp 3 (by norm_num)).pow_eq_one

/-- A wave of length three cells: coefficient `n` is `(n + i) z^e`. -/
noncomputable def waveR (p : ℕ) : Sol ℝ := (Ex.solR p).withVal fun n e => (root3 ^ e * (n + Complex.I)).re

lemma waveR_built (p : ℕ) : (waveR p).Built realGauss p := (Ex.solR_built p).congr (by constructor <;> rfl) rfl rfl

example (p : ℕ) : ∃ F, residual (waveR p) = .ok ((waveR p).applyBc, F) ∧ ∀ n < p + 1, ∀ e, 1 ≤ e → e ≤ 3 → F.val n (e * 1 + 0) =
    (root3 ^ e * (((2 / (1 / 2) : ℝ) : ℂ) * ∑ j ∈ Finset.range (p + 1), (fullMatrix (dgMatrices realGauss p root3)).val n j * (j + Complex.I))).re :=
  C65_dg (waveR_built p) rfl rfl rfl rfl (f := 0) Nat.one_pos root3_pow (c := fun n => n + Complex.I) fun e _ _ n _ => by
    show (root3 ^ (e * 1 + 0) * _).re = _
    rw [mul_one, add_zero]

/-- The script's own call: order 3, modes 0, 1, 2. -/
example : ∃ en, Enhance.init realGauss 3 [0, 1, 2] = .ok en ∧ ∃ M, icbMatrices realGauss 3 [0, 1, 2] root3 = .ok M ∧ ∃ F, residual { waveR 3 with enhance := some en } = .ok (Sol.applyBc { waveR 3 with enhance := some en }, F) ∧
    ∀ n < 4, ∀ e, 1 ≤ e → e ≤ 3 → F.val n (e * 1 + 0) =
      (root3 ^ e * (((2 / (1 / 2) : ℝ) : ℂ) * ∑ j ∈ Finset.range 4, (fullMatrix M).val n j * (j + Complex.I))).re := by
  obtain ⟨-, -, en, hen⟩ := C64_leading realGauss 3 3
  have hen : Enhance.init realGauss 3 [0, 1, 2] = .ok en := hen
  obtain ⟨M, hM⟩ := C65_icb_defined realGauss 3 3 root3
  have hm : ∀ m ∈ ([0, 1, 2] : List ℤ), m ≤ (3 : ℕ) := by decide
  obtain ⟨l1, l2, l3, l4⟩ := C62_lengths hen
  refine ⟨en, hen, M, hM, ?_⟩
  have hb := waveR_built 3
  refine C65_icb (s := { waveR 3 with enhance := some en }) ⟨hb.nodes, hb.gauss, hb.basis, hb.NF, hb.NE, hb.rows, hb.cols, hb.dx, hb.minv, ?_⟩ rfl hen hm rfl rfl rfl (f := 0) Nat.one_pos root3_pow
    (ms := [0, 1, 2]) (List.Perm.refl _) hM (c := fun n => n + Complex.I) fun e _ _ n _ => ?_
  · intro en' h'
    cases h'
    exact ⟨l1, l3.mpr hm, l4.mpr hm, l2⟩
  · show (root3 ^ (e * 1 + 0) * _).re = _
    rw [mul_one, add_zero]

/-- Order 0: the matrix is the number `-(1 - 1/z)`, an eigenvalue with eigenvector 1. -/
example (lib : GaussLib ℝ) {z : ℂ} (hz : ‖z‖ = 1) : ((1 / 2 : ℂ) * (-(1 - z⁻¹))).re ≤ 0 := by
  refine C68_spectrum lib 0 hz (v := fun _ => 1) ⟨0, by norm_num, one_ne_zero⟩ fun n hn => ?_
  obtain rfl : n = 0 := by omega
  unfold dgMatrices
  rw [Finset.sum_range_one, fullMatrix_val 0 0 (by norm_num)]
  simp [dgInterfaceFluxMatrix, legval_basis, legendre_zero, intPoly, intBetween, antideriv]

end Dg1d.Props
