import Verif.Proofs.Enhance
import Verif.Proofs.Gauss
import Verif.Model.Dg

/-! # Enhanced face values (C61 – C64) -/

set_option linter.unusedSectionVars false

open Polynomial Dg1d.Spec

namespace Dg1d.Props
variable {K : Type*} [Field K] [LinearOrder K] [IsStrictOrderedRing K] {lib : GaussLib K} {p : ℕ} {modes : List ℤ} {en : Enhance K}

/-- **C62 (lengths).** Weights of the own cell always have length `p+1`; those of the neighbour have length `p+1` exactly
when no mode exceeds `p`. -/
theorem C62_lengths (h : Enhance.init lib p modes = .ok en) :
    en.alphaL.len = p + 1 ∧ en.betaR.len = p + 1 ∧
    (en.alphaR.len = p + 1 ↔ ∀ m ∈ modes, m ≤ p) ∧ (en.betaL.len = p + 1 ↔ ∀ m ∈ modes, m ≤ p) := by
  obtain ⟨hn, hd, Ai, Bi, hA, hB, hv⟩ := enhance_form h
  rw [← modeList_length modes] at hv
  obtain ⟨l1, l2, l3, l4, -⟩ := vectors_form ((modeList_nodup hn).mpr hd) hA hB hv
  have hle := rank_le_length (modeList modes) (p + 1)
  have hle' := rank_le ((modeList_nodup hn).mpr hd) (p + 1)
  have key : (modeList modes).length + (p + 1) - rank (modeList modes) (p + 1) = p + 1 ↔ ∀ m ∈ modes, m ≤ p := by
    have : (modeList modes).length + (p + 1) - rank (modeList modes) (p + 1) = p + 1 ↔
        rank (modeList modes) (p + 1) = (modeList modes).length := by omega
    rw [this, rank_all]
    constructor
    · intro h m hm
      have := h m.toNat ((mem_modeList hn _).mpr (by rw [Int.toNat_of_nonneg (hn m hm)]; exact hm))
      omega
    · intro h m hm
      have := h m ((mem_modeList hn m).mp hm)
      omega
  exact ⟨l1, l2, by rw [l3]; exact key, by rw [l4]; exact key⟩

/-- **C61 (weights).** The two pairs of weight vectors are exact for polynomials of degree `p` + number of modes. -/
theorem C61_weights_exact (h : Enhance.init lib p modes = .ok en) (hm : ∀ m ∈ modes, m ≤ p) :
    ExactWeights p (p + modes.length) en.alphaL.val en.alphaR.val 2 1 ∧
    ExactWeights p (p + modes.length) en.betaR.val en.betaL.val (-2) (-1) := by
  obtain ⟨hn, hd, Ai, Bi, hA, hB, hv⟩ := enhance_form h
  rw [← modeList_length modes] at hv ⊢
  obtain ⟨-, -, -, -, v1, v2, v3, v4⟩ := vectors_form ((modeList_nodup hn).mpr hd) hA hB hv
  have hs := modeList_sorted hn hd
  have hp : ∀ m ∈ modeList modes, m < p + 1 := by
    intro m hm'
    have := hm m ((mem_modeList hn m).mp hm')
    omega
  exact ⟨exact_of_weights hs hp hA _ (fun j => (psi_edges lib _ j).1) v1 v3,
    exact_of_weights hs hp hB _ (fun j => (psi_edges lib _ j).2) v2 v4⟩

/-- **C61.** If the columns of two neighbouring cells hold the projections of one polynomial `Q` (in the coordinate of
the left cell; `Q(x+2)` in that of the right cell) of degree at most `p` + number of modes, both enhanced values at the
common face are the value of the polynomial there. -/
theorem C61_faces_exact (h : Enhance.init lib p modes = .ok en) (hm : ∀ m ∈ modes, m ≤ p) (Q : K[X])
    (hQ : Q.degree ≤ ((p + modes.length : ℕ) : WithBot ℕ)) (u : Arr K) (hr : u.rows = p + 1) (NF : ℕ) (hF : 0 < NF) (c : ℕ)
    (hc : c + NF < u.cols) (hL : ∀ n ≤ p, u.val n c = projCoeff Q n)
    (hR : ∀ n ≤ p, u.val n (c + NF) = projCoeff (Q.comp (X + C 2)) n) :
    ∃ F, en.faceValue u NF = .ok F ∧ F.rows = 2 ∧ F.cols = u.cols ∧ F.val 1 c = Q.eval 1 ∧ F.val 0 (c + NF) = Q.eval 1 := by
  obtain ⟨l1, l2, l3, l4⟩ := C62_lengths h
  obtain ⟨e1, e2⟩ := C61_weights_exact h hm
  refine ⟨en.faceArr u NF, by unfold Enhance.faceValue; rw [if_pos ⟨l1.trans hr.symm, (l3.mpr hm).trans hr.symm, (l4.mpr hm).trans hr.symm, l2.trans hr.symm⟩],
    rfl, rfl, ?_, ?_⟩
  · have p0 : pyIdx u.cols 0 = 0 := by simpa using pyIdx_nat u.cols 0 (by omega)
    have p1 : pyIdx u.cols (-(NF : ℤ)) = u.cols - NF := pyIdx_neg _ _ hF (by omega)
    have p2 : pyIdx u.cols (NF : ℤ) = NF := pyIdx_nat _ _ (by omega)
    simp only [Enhance.faceArr, Vec.dotArr, Arr.colSlice, p0, p1, p2, l1, l3.mpr hm]
    rw [if_neg (by norm_num), if_pos (by omega), ← e1 Q hQ]
    congr 1
    · exact Finset.sum_congr rfl fun n hn => by rw [zero_add, hL n (by rw [Finset.mem_range] at hn; omega)]
    · exact Finset.sum_congr rfl fun n hn => by rw [Nat.add_comm NF c, hR n (by rw [Finset.mem_range] at hn; omega)]
  · have p0 : pyIdx u.cols 0 = 0 := by simpa using pyIdx_nat u.cols 0 (by omega)
    have p2 : pyIdx u.cols (NF : ℤ) = NF := pyIdx_nat _ _ (by omega)
    simp only [Enhance.faceArr, Vec.dotArr, Arr.colSlice, p0, p2, l2, l4.mpr hm]
    rw [if_pos trivial, if_pos (by omega), Nat.add_sub_cancel]
    have hdeg : (Q.comp (X + C 2)).degree ≤ ((p + modes.length : ℕ) : WithBot ℕ) := by
      rw [← natDegree_le_iff_degree_le] at hQ ⊢
      rwa [natDegree_comp, natDegree_X_add_C, mul_one]
    have := e2 _ hdeg
    have hback : (Q.comp (X + C 2)).comp (X + C (-2)) = Q := by
      refine Polynomial.funext fun y => ?_
      simp
    rw [hback] at this
    rw [show Q.eval 1 = (Q.comp (X + C 2)).eval (-1) by simp only [eval_comp, eval_add, eval_X, eval_C]; norm_num, ← this, add_comm]
    congr 1
    · exact Finset.sum_congr rfl fun n hn => by rw [Nat.add_comm NF c, hR n (by rw [Finset.mem_range] at hn; omega)]
    · exact Finset.sum_congr rfl fun n hn => by rw [zero_add, hL n (by rw [Finset.mem_range] at hn; omega)]

/-- **C62 (modes left out).** The weights of the neighbour vanish at the modes not listed. -/
theorem C62_excluded (h : Enhance.init lib p modes = .ok en) (k : ℕ) (hk : k ≤ p) (hm : (k : ℤ) ∉ modes) :
    en.alphaR.val k = 0 ∧ en.betaL.val k = 0 := by
  obtain ⟨hn, hd, Ai, Bi, hA, hB, hv⟩ := enhance_form h
  rw [← modeList_length modes] at hv
  obtain ⟨-, -, -, -, -, -, v3, v4⟩ := vectors_form ((modeList_nodup hn).mpr hd) hA hB hv
  have : k ∉ modeList modes := fun h => hm ((mem_modeList hn k).mp h)
  rw [v3 k (by omega), v4 k (by omega), if_neg this, if_neg this]
  exact ⟨rfl, rfl⟩

/-- **C62 (placement).** The weights are the only exact ones that use just the listed modes of the neighbour: no other
placement of the values would do. -/
theorem C62_unique (h : Enhance.init lib p modes = .ok en) (hm : ∀ m ∈ modes, m ≤ p) {own other : ℕ → K}
    (hz : ∀ k ≤ p, (k : ℤ) ∉ modes → other k = 0) :
    (ExactWeights p (p + modes.length) own other 2 1 →
      (∀ k ≤ p, en.alphaL.val k = own k) ∧ ∀ k ≤ p, en.alphaR.val k = other k) ∧
    (ExactWeights p (p + modes.length) own other (-2) (-1) →
      (∀ k ≤ p, en.betaR.val k = own k) ∧ ∀ k ≤ p, en.betaL.val k = other k) := by
  obtain ⟨e1, e2⟩ := C61_weights_exact h hm
  have hex := C62_excluded h
  obtain ⟨hn, hd, Ai, Bi, hA, hB, hv⟩ := enhance_form h
  have hs := modeList_sorted hn hd
  have hp : ∀ m ∈ modeList modes, m < p + 1 := by
    intro m hm'
    have := hm m ((mem_modeList hn m).mp hm')
    omega
  have hmem := mem_modeList hn
  rw [← modeList_length modes] at e1 e2 ⊢
  constructor
  · intro ho
    obtain ⟨q1, q2⟩ := weights_unique hp hA hs e1 ho (fun k hk hk' => (hex k (by omega) (fun h => hk' ((hmem k).mpr h))).1)
      (fun k hk hk' => hz k (by omega) (fun h => hk' ((hmem k).mpr h)))
    exact ⟨fun k hk => q1 k (by omega), fun k hk => q2 k (by omega)⟩
  · intro ho
    obtain ⟨q1, q2⟩ := weights_unique hp hB hs e2 ho (fun k hk hk' => (hex k (by omega) (fun h => hk' ((hmem k).mpr h))).2)
      (fun k hk hk' => hz k (by omega) (fun h => hk' ((hmem k).mpr h)))
    exact ⟨fun k hk => q1 k (by omega), fun k hk => q2 k (by omega)⟩

/-- **C62 (order of listing).** -/
theorem C62_perm (lib : GaussLib K) (p : ℕ) {modes modes' : List ℤ} (h : modes.Perm modes') :
    Enhance.init lib p modes = Enhance.init lib p modes' := by
  have : modes.insertionSort (· ≤ ·) = modes'.insertionSort (· ≤ ·) :=
    List.Perm.eq_of_pairwise' (r := (· ≤ ·)) (List.pairwise_insertionSort _ _) (List.pairwise_insertionSort _ _)
      ((List.perm_insertionSort _ _).trans (h.trans (List.perm_insertionSort _ _).symm))
  unfold Enhance.init
  rw [this]

/-- **C62 (mode above the order).** The set-up succeeds or not, but the first face evaluation raises. -/
theorem C62_too_high (h : Enhance.init lib p modes = .ok en) {m : ℤ} (hm : m ∈ modes) (hp : (p : ℤ) < m) :
    (∀ (u : Arr K) (NF : ℕ), u.rows = p + 1 → en.faceValue u NF = .error .valueError) ∧
    ∀ s : Sol K, s.enhance = some en → s.u.rows = p + 1 → residual s = .error .valueError := by
  obtain ⟨-, -, l3, -⟩ := C62_lengths h
  have hne : en.alphaR.len ≠ p + 1 := fun e => absurd (l3.mp e m hm) (not_le.mpr hp)
  have key : ∀ (u : Arr K) (NF : ℕ), u.rows = p + 1 → en.faceValue u NF = .error .valueError := by
    intro u NF hu
    unfold Enhance.faceValue
    rw [if_neg (fun hh => hne (hh.2.1.trans hu))]
  refine ⟨key, fun s hs hr => ?_⟩
  have : s.applyBc.evaluateFaces = .error .valueError := by
    obtain ⟨hss⟩ := applyBc_setup s
    unfold Sol.evaluateFaces
    rw [show s.applyBc.enhance = some en by simp_all]
    exact key _ _ ((applyBc_shape s).1.trans hr)
  unfold residual
  simp only [this]

/-- **C62 (repeated mode), C62 (negative mode).** -/
theorem C62_bad_modes (lib : GaussLib K) (p : ℕ) (modes : List ℤ) :
    ((∃ m ∈ modes, m < 0) → Enhance.init lib p modes = .error .valueError) ∧
    ((∀ m ∈ modes, 0 ≤ m) → ¬ modes.Nodup → Enhance.init lib p modes = .error .linAlgError) := by
  constructor
  · rintro ⟨m, hm, hlt⟩
    unfold Enhance.init
    simp only
    rw [if_pos ⟨m, (List.mem_insertionSort _).mpr hm, hlt⟩]
  · intro hn hd
    unfold Enhance.init
    simp only
    rw [if_neg (by rintro ⟨m, hm, hlt⟩; exact absurd (hn m ((List.mem_insertionSort _).mp hm)) (not_le.mpr hlt))]
    change (match (enhancementMatrix p (modeList modes) (2 : K)).inv with | .error e => _ | .ok Ainv => _) = _
    rw [matrix_singular 2 (fun h => hd ((modeList_nodup hn).mp h))]

/-- **C63.** -/
theorem C63_mirror (h : Enhance.init lib p modes = .ok en) (hm : ∀ m ∈ modes, m ≤ p) (n : ℕ) (hn : n ≤ p) :
    en.betaR.val n = (-1) ^ n * en.alphaL.val n ∧ en.betaL.val n = (-1) ^ n * en.alphaR.val n := by
  obtain ⟨e1, -⟩ := C61_weights_exact h hm
  have := (C62_unique h hm (own := fun n => (-1) ^ n * en.alphaL.val n) (other := fun n => (-1) ^ n * en.alphaR.val n)
    (fun k hk hk' => by rw [(C62_excluded h k hk hk').1, mul_zero])).2 (exact_flip e1)
  exact ⟨this.1 n hn, this.2 n hn⟩

/-- **C64.** -/
theorem C64_leading (lib : GaussLib ℝ) (p m : ℕ) :
    (∃ Ai, (enhancementMatrix p (List.range m) (2 : ℝ)).inv = .ok Ai) ∧
    (∃ Bi, (enhancementMatrix p (List.range m) (-2 : ℝ)).inv = .ok Bi) ∧
    ∃ en, Enhance.init lib p ((List.range m).map Int.ofNat) = .ok en := by
  obtain ⟨Ai, hA⟩ := leading_ok p m (s := 2) (Or.inl rfl)
  obtain ⟨Bi, hB⟩ := leading_ok p m (s := -2) (Or.inr rfl)
  refine ⟨⟨Ai, hA⟩, ⟨Bi, hB⟩, ?_⟩
  have hsort : ((List.range m).map Int.ofNat).insertionSort (· ≤ ·) = (List.range m).map Int.ofNat := by
    apply List.Pairwise.insertionSort_eq
    rw [List.pairwise_map]
    exact (List.pairwise_le_range).imp fun h => Int.ofNat_le.mpr h
  have hml : modeList ((List.range m).map Int.ofNat) = List.range m := by
    unfold modeList
    rw [hsort, List.map_map]
    exact List.map_id _
  have hnd : (List.range m).Nodup := List.nodup_range
  unfold Enhance.init
  simp only
  rw [if_neg (by
    rintro ⟨k, hk, hlt⟩
    rw [hsort, List.mem_map] at hk
    obtain ⟨j, -, rfl⟩ := hk
    exact absurd hlt (not_lt.mpr (Int.natCast_nonneg j)))]
  rw [show List.map Int.toNat (List.insertionSort (fun x1 x2 => x1 ≤ x2) (List.map Int.ofNat (List.range m))) = List.range m from hml, hA, hB]
  simp only
  obtain ⟨_, _, a3, _⟩ := inv_spec hA
  obtain ⟨_, _, b3, _⟩ := inv_spec hB
  rw [(matrix_shape p (List.range m) (2 : ℝ)).1] at a3
  rw [(matrix_shape p (List.range m) (-2 : ℝ)).1] at b3
  have hp1 : pyIdx (p + 1 + (List.range m).length) ((p : ℤ) + 1) = p + 1 := by
    have := pyIdx_nat (p + 1 + (List.range m).length) (p + 1) (by omega)
    push_cast at this
    exact this
  have hp2 : pyIdx (p + 1 + (List.range m).length) ((p + 1 + (List.range m).length : ℕ) : ℤ) = p + 1 + (List.range m).length := pyIdx_nat _ _ le_rfl
  unfold leftEnhancementVectors
  simp only
  obtain ⟨bl, g1, -⟩ := padModes_spec hnd p ((((Basis.init lib (p + (List.range m).length)).psi.row 0).dotArr Bi).slice ((p : ℤ) + 1)
    (((Basis.init lib (p + (List.range m).length)).psi.row 0).dotArr Bi).len) (by simp only [Vec.slice, Vec.dotArr, b3, hp1, hp2]; omega)
  obtain ⟨ar, k1, -⟩ := padModes_spec hnd p ((((Basis.init lib (p + (List.range m).length)).psi.row 1).dotArr Ai).slice ((p : ℤ) + 1)
    (((Basis.init lib (p + (List.range m).length)).psi.row 1).dotArr Ai).len) (by simp only [Vec.slice, Vec.dotArr, a3, hp1, hp2]; omega)
  rw [g1]
  simp only
  rw [k1]
  exact ⟨_, rfl⟩

/-- The enhancement of order 1 with both modes of the neighbour, listed in the wrong order, exists; its weights satisfy
everything above. -/
example : ∃ en, Enhance.init realGauss 1 [1, 0] = .ok en ∧ en.alphaR.len = 2 ∧ en.betaR.val 1 = -en.alphaL.val 1 := by
  obtain ⟨-, -, en, h⟩ := C64_leading realGauss 1 2
  have h' : Enhance.init realGauss 1 [1, 0] = .ok en := by
    rw [C62_perm realGauss 1 (modes' := (List.range 2).map Int.ofNat) (by decide)]; exact h
  have hm : ∀ m ∈ ([1, 0] : List ℤ), m ≤ ((1 : ℕ) : ℤ) := by decide
  refine ⟨en, h', ((C62_lengths h').2.2.1).mpr hm, ?_⟩
  have := (C63_mirror h' hm 1 le_rfl).1
  simpa using this

/-- Order 0 with mode 0 averages the two cells: the weights are 1/2 and 1/2. -/
example : ∃ en, Enhance.init realGauss 0 [0] = .ok en ∧ en.alphaL.val 0 = 1 / 2 ∧ en.alphaR.val 0 = 1 / 2 := by
  obtain ⟨-, -, en, h⟩ := C64_leading realGauss 0 1
  refine ⟨en, h, ?_⟩
  have hm : ∀ m ∈ (List.range 1).map Int.ofNat, m ≤ ((0 : ℕ) : ℤ) := by decide
  have e := (C61_weights_exact h hm).1
  have e1 := e 1 (by simp)
  have e2 := e X (by simp)
  have l1 : (1 : ℝ[X]) = legSeries 1 fun _ => 1 := by simp [legSeries, legendre_zero]
  have l2 : (X : ℝ[X]) = legSeries 2 fun k => if k = 0 then 0 else 1 := by
    simp [legSeries, Finset.sum_range_succ, legendre_one]
  have l3 : (X + C 2 : ℝ[X]) = legSeries 2 fun k => if k = 0 then 2 else 1 := by
    simp [legSeries, Finset.sum_range_succ, legendre_zero, legendre_one, add_comm]
  have k1 : projCoeff (1 : ℝ[X]) 0 = 1 := by rw [l1, projCoeff_legSeries _ _ (by norm_num)]
  have k2 : projCoeff (X : ℝ[X]) 0 = 0 := by rw [l2, projCoeff_legSeries _ _ (by norm_num), if_pos rfl]
  have k3 : projCoeff (X + C 2 : ℝ[X]) 0 = 2 := by rw [l3, projCoeff_legSeries _ _ (by norm_num), if_pos rfl]
  simp only [zero_add, Finset.sum_range_one, one_comp, X_comp, k1, k2, k3, eval_one, eval_X, mul_one, mul_zero] at e1 e2
  constructor <;> linarith

example : Enhance.init realGauss 2 [1, 0, 1] = .error .linAlgError := (C62_bad_modes realGauss 2 _).2 (by decide) (by decide)
example : Enhance.init realGauss 2 [1, -1] = .error .valueError := (C62_bad_modes realGauss 2 _).1 (by decide)

/-- Order 0 with modes 0 and 1: set up without error, unusable. -/
example : ∃ en, Enhance.init realGauss 0 [0, 1] = .ok en ∧ ∀ u : Arr ℝ, u.rows = 1 → en.faceValue u 1 = .error .valueError := by
  obtain ⟨-, -, en, h⟩ := C64_leading realGauss 0 2
  exact ⟨en, h, fun u hu => (C62_too_high h (m := 1) (by decide) (by decide)).1 u 1 hu⟩

end Dg1d.Props
