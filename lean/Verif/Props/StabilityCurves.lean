import Verif.Proofs.StabilityCurves
import Verif.Props.DgStability

/-!
# The curves of the stability scripts (C86)
-/

open Polynomial

namespace Dg1d.Props
open Spec Stability

/-- `q` is the factor of a step on `u' = λ u`, as a polynomial in `z = λ h`. -/
def IsAmplification (tab : Tableau ℂ) (q : ℂ[X]) : Prop :=
  ∀ lam h u : ℂ, rkStep tab.coeffs tab.beta (fun v => lam • v) h u = q.eval (lam * h) • u

lemma IsAmplification.eq {tab : Tableau ℂ} {q : ℂ[X]} (hq : IsAmplification tab q) : q = weightPoly tab := by
  refine Polynomial.funext fun z => ?_
  have h1 := hq z 1 1
  rw [weightPoly_step] at h1
  simpa using h1.symm

lemma IsAmplification.sigma {tab : Tableau ℂ} {q : ℂ[X]} (hq : IsAmplification tab q)
    (he : ∀ k < tab.coeffs.length, ∀ j < tab.coeffs.length, k ≤ j → tab.beta k j = 0) : sigmaPoly tab = q := by
  refine Polynomial.funext fun z => ?_
  have h1 := hq z 1 1
  rw [C10_stability_function tab he] at h1
  rw [sigmaPoly_eval]
  simpa using h1

lemma rows_facts {roots : List ℂ → List ℂ} (hroots : IsRoots roots) {q : ℂ[X]} (h1 : 1 ≤ q.natDegree) (hall : ∀ i ≤ q.natDegree, q.coeff i ≠ 0) (k : ℕ) :
    ∃ row, (do assignRow q.natDegree (roots (← shiftLast (polyCoeffs q) (theta k)))) = .ok row ∧ row.length = q.natDegree ∧
      ∀ z, z ∈ row ↔ q.eval z = -Complex.exp (Complex.I * theta k) := by
  have hne : polyCoeffs q ≠ [] := by rw [polyCoeffs_all hall]; simp
  obtain ⟨l, l1, -, -, l2⟩ := shiftLast_eq hne (theta k)
  rw [ofCoeffs_polyCoeffs hall] at l2
  have hdeg : (ofCoeffs l).natDegree = q.natDegree := by rw [l2, natDegree_add_C]
  have h0 : ofCoeffs l ≠ 0 := by
    intro h
    rw [h] at hdeg
    simp at hdeg
    omega
  have hr := hroots l h0
  have hlen : (roots l).length = q.natDegree := by
    rw [← Multiset.coe_card, hr, IsAlgClosed.card_roots_eq_natDegree, hdeg]
  refine ⟨roots l, ?_, hlen, fun z => ?_⟩
  · rw [l1]
    show assignRow _ (roots l) = _
    unfold assignRow
    rw [if_pos hlen]
  · rw [← Multiset.mem_coe, hr, mem_roots h0, l2, IsRoot.def, eval_add, eval_C]
    exact eq_neg_iff_add_eq_zero.symm

lemma mapM_rows {α : Type*} {f : ℕ → Except PyErr α} {P : ℕ → α → Prop} : ∀ {l : List ℕ}, (∀ k ∈ l, ∃ r, f k = .ok r ∧ P k r) →
    ∃ rows, l.mapM f = .ok rows ∧ List.Forall₂ P l rows
  | [], _ => ⟨[], rfl, .nil⟩
  | k :: l, h => by
    obtain ⟨r, h1, h2⟩ := h k (by simp)
    obtain ⟨rows, h3, h4⟩ := mapM_rows (l := l) fun j hj => h j (by simp [hj])
    exact ⟨r :: rows, by rw [List.mapM_cons, h1, h3]; rfl, .cons h2 h4⟩

lemma forall₂_flatten {P : ℕ → ℂ → Prop} {n : ℕ} : ∀ {l : List ℕ} {rows : List (List ℂ)}, List.Forall₂ (fun k row => row.length = n ∧ ∀ z, z ∈ row ↔ P k z) l rows →
    (∀ row ∈ rows, row.length = n) ∧ rows.flatten.length = l.length * n ∧ ∀ z, z ∈ rows.flatten ↔ ∃ k ∈ l, P k z
  | _, _, .nil => by simp
  | _, _, .cons (a := k) (b := row) (l₁ := l) (l₂ := rows) h hr => by
    obtain ⟨h1, h2, h3⟩ := forall₂_flatten hr
    refine ⟨?_, ?_, ?_⟩
    · intro r hr'
      rcases List.mem_cons.mp hr' with rfl | hr'
      · exact h.1
      · exact h1 r hr'
    · rw [List.flatten_cons, List.length_append, h2, h.1, List.length_cons]; ring
    · intro z
      rw [List.flatten_cons, List.mem_append, h.2 z, h3 z]
      simp

lemma point_mem {pts : List (ℝ × ℝ)} {l : List ℂ} (h : (pts.map point).Perm l) (z : ℂ) : (z.re, z.im) ∈ pts ↔ z ∈ l := by
  rw [← h.mem_iff, List.mem_map]
  constructor
  · intro hm; exact ⟨_, hm, rfl⟩
  · rintro ⟨q, hq, rfl⟩; exact hq

/-- **C86 (exact boundary).** For an explicit scheme whose amplification polynomial has no vanishing coefficient up to its degree
`d ≥ 1`, `exact_stability_boundary` returns `100 d` points. They are exactly the `z = λ h` for which a step on `u' = λ u` multiplies
the solution by minus one of the 100 phases, so the step conserves the modulus there. They go round their mean. -/
theorem C86_exact_boundary {roots : List ℂ → List ℂ} (hroots : IsRoots roots) (tab : Tableau ℂ)
    (he : ∀ k < tab.coeffs.length, ∀ j < tab.coeffs.length, k ≤ j → tab.beta k j = 0)
    {q : ℂ[X]} (hq : IsAmplification tab q) (h1 : 1 ≤ q.natDegree) (hall : ∀ i ≤ q.natDegree, q.coeff i ≠ 0) :
    ∃ pts, exactStabilityBoundary roots tab = .ok pts ∧ pts.length = 100 * q.natDegree ∧ GoesRound pts ∧
      (∀ z : ℂ, (z.re, z.im) ∈ pts ↔ ∃ k : ℕ, k < 100 ∧ ∀ lam h u : ℂ, lam * h = z → rkStep tab.coeffs tab.beta (fun v => lam • v) h u = -Complex.exp (Complex.I * (2 * Real.pi * (k : ℝ) / 99 : ℝ)) * u) ∧
      ∀ z : ℂ, (z.re, z.im) ∈ pts → ∀ lam h u : ℂ, lam * h = z → ‖rkStep tab.coeffs tab.beta (fun v => lam • v) h u‖ = ‖u‖ := by
  obtain ⟨rows, r1, r2⟩ := mapM_rows (l := List.range 100) fun k _ => rows_facts hroots h1 hall k
  obtain ⟨f1, f2, f3⟩ := forall₂_flatten r2
  obtain ⟨s1, s2⟩ := sortRootsAngle_facts f1
  have hok : exactStabilityBoundary roots tab = .ok (sortRootsAngle q.natDegree rows) := by
    unfold exactStabilityBoundary
    simp only [hq.sigma he]
    rw [r1]
    rfl
  have hmem : ∀ z : ℂ, (z.re, z.im) ∈ sortRootsAngle q.natDegree rows ↔ ∃ k : ℕ, k < 100 ∧ ∀ lam h u : ℂ, lam * h = z →
      rkStep tab.coeffs tab.beta (fun v => lam • v) h u = -Complex.exp (Complex.I * (2 * Real.pi * (k : ℝ) / 99 : ℝ)) * u := by
    intro z
    rw [point_mem s1, f3]
    simp only [List.mem_range]
    refine exists_congr fun k => and_congr_right fun _ => ⟨fun h lam hh u hz => ?_, fun h => ?_⟩
    · rw [hq, hz, h]; rfl
    · have := h z 1 1 (mul_one z)
      rw [hq, mul_one, smul_eq_mul, mul_one, mul_one] at this
      exact this
  refine ⟨_, hok, ?_, s2, hmem, fun z hz lam h u hl => ?_⟩
  · rw [← List.length_map (f := point), s1.length_eq, f2, List.length_range]
  · obtain ⟨k, -, hk⟩ := (hmem z).mp hz
    rw [hk lam h u hl, norm_mul, norm_neg, mul_comm Complex.I, Complex.norm_exp_ofReal_mul_I, one_mul]

/-- **C86 (gaps).** If a coefficient below the degree vanishes (that of `z` does not, as in every consistent scheme), `coeffs()` leaves
it out, the polynomial of `np.roots` has too few roots and the function raises. -/
theorem C86_gap {roots : List ℂ → List ℂ} (hroots : IsRoots roots) (tab : Tableau ℂ)
    (he : ∀ k < tab.coeffs.length, ∀ j < tab.coeffs.length, k ≤ j → tab.beta k j = 0)
    {q : ℂ[X]} (hq : IsAmplification tab q) (h1 : q.coeff 1 ≠ 0) {i : ℕ} (hi : i < q.natDegree) (h0 : q.coeff i = 0) :
    exactStabilityBoundary roots tab = .error .valueError := by
  have hc0 : q.coeff 0 ≠ 0 := by
    have := hq 0 0 1
    rw [mul_zero, ← coeff_zero_eq_eval_zero, smul_eq_mul, mul_one] at this
    rw [← this]
    unfold rkStep
    simp
  have hi1 : i ≠ 1 := fun h => h1 (h ▸ h0)
  have hi0 : i ≠ 0 := fun h => hc0 (h ▸ h0)
  have hlead : q.coeff q.natDegree ≠ 0 := by
    rw [coeff_natDegree, leadingCoeff_ne_zero]
    rintro rfl
    simp at hi
  have hlo : 3 ≤ q.support.card := by
    have : ({0, 1, q.natDegree} : Finset ℕ) ⊆ q.support := by
      intro j hj
      simp only [Finset.mem_insert, Finset.mem_singleton] at hj
      rw [mem_support_iff]
      rcases hj with rfl | rfl | rfl <;> assumption
    refine le_trans ?_ (Finset.card_le_card this)
    rw [Finset.card_insert_of_notMem, Finset.card_insert_of_notMem, Finset.card_singleton]
    · simp only [Finset.mem_singleton]; omega
    · simp only [Finset.mem_insert, Finset.mem_singleton]; omega
  have hup : q.support.card ≤ q.natDegree := by
    have : q.support ⊆ (Finset.range (q.natDegree + 1)).erase i := by
      intro j hj
      rw [mem_support_iff] at hj
      rw [Finset.mem_erase, Finset.mem_range]
      exact ⟨fun h => hj (h ▸ h0), Nat.lt_succ_of_le (le_natDegree_of_ne_zero hj)⟩
    refine (Finset.card_le_card this).trans ?_
    rw [Finset.card_erase_of_mem (by rw [Finset.mem_range]; omega), Finset.card_range]
    omega
  have hlen := polyCoeffs_length q
  have hrow : ∀ k, (do assignRow q.natDegree (roots (← shiftLast (polyCoeffs q) (theta k)))) = .error .valueError := by
    intro k
    obtain ⟨l, l1, l2, l3, -⟩ := shiftLast_eq (l := polyCoeffs q) (by intro h; rw [h] at hlen; simp at hlen; omega) (theta k)
    rw [l1]
    show assignRow _ (roots l) = _
    obtain ⟨a, m, hl, ha⟩ : ∃ a m, l = a :: m ∧ a ≠ 0 := by
      rcases hP : polyCoeffs q with _ | ⟨a, _ | ⟨b, m⟩⟩
      · rw [hP] at hlen; simp at hlen; omega
      · rw [hP] at hlen; simp at hlen; omega
      · rw [hP] at l2 l3
        rcases l with _ | ⟨c, l⟩
        · simp at l2
        · rcases l with _ | ⟨d, l⟩
          · simp at l2
          · rw [List.dropLast_cons_of_ne_nil (by simp), List.dropLast_cons_of_ne_nil (List.cons_ne_nil b m)] at l3
            refine ⟨c, _, rfl, ?_⟩
            rw [(List.cons.inj l3).1]
            exact polyCoeffs_ne_zero (q := q) (by rw [hP]; simp)
    obtain ⟨d1, d2⟩ := ofCoeffs_natDegree ha m
    rw [← hl] at d1 d2
    have hr : (roots l).length = m.length := by
      rw [← Multiset.coe_card, hroots l d2, IsAlgClosed.card_roots_eq_natDegree, d1]
    have hm : m.length + 1 = q.support.card := by rw [← hlen, ← l2, hl, List.length_cons]
    unfold assignRow
    rw [if_neg (by omega), if_neg (by omega)]
  unfold exactStabilityBoundary
  simp only [hq.sigma he]
  have : (List.range 100).mapM (fun k => do assignRow q.natDegree (roots (← shiftLast (polyCoeffs q) (theta k)))) = .error .valueError := by
    rw [List.range_succ_eq_map, List.mapM_cons, hrow 0]
    rfl
  rw [this]
  rfl

/-! ### The schemes -/

/-- A table with complex entries, as numpy makes of it together with `z`. -/
noncomputable def Ex.complexTable (rk : String) : Tableau ℂ := (tableOf rk).map Complex.ofRealHom

lemma complexTable_explicit (rk : String) : ∀ k < (Ex.complexTable rk).coeffs.length, ∀ j < (Ex.complexTable rk).coeffs.length, k ≤ j → (Ex.complexTable rk).beta k j = 0 := by
  intro k hk j hj hkj
  simp only [Ex.complexTable, Tableau.map, List.length_map] at hk hj ⊢
  rw [tableOf_explicit rk k hk j hj hkj]; simp

lemma weightPoly_coeff (tab : Tableau ℂ) (m : ℕ) : (weightPoly tab).coeff m = if m ≤ tab.coeffs.length then stepWeight tab.coeffs tab.beta m else 0 := by
  unfold weightPoly
  rw [finsetSum_coeff]
  simp only [coeff_C_mul_X_pow]
  by_cases h : m ≤ tab.coeffs.length
  · rw [if_pos h, Finset.sum_eq_single m]
    · simp
    · intro b _ hb; rw [if_neg (Ne.symm hb)]
    · intro hm; rw [Finset.mem_range] at hm; omega
  · rw [if_neg h]
    refine Finset.sum_eq_zero fun b hb => ?_
    rw [Finset.mem_range] at hb
    rw [if_neg (by omega)]

lemma stepWeight_cast (t : Tableau ℚ) (m : ℕ) : stepWeight (t.map (fun q : ℚ => (q : ℝ))).coeffs (t.map (fun q : ℚ => (q : ℝ))).beta m = ((stepWeight t.coeffs t.beta m : ℚ) : ℝ) :=
  stepWeight_map (Rat.castHom ℝ) t m

/-- **C86 (schemes).** `exact_stability_boundary` works for rk3, rk4 and rk5: it returns 300, 400 and 600 points of the unit level set of
the amplification factor, as in C86_exact_boundary. -/
theorem C86_schemes {roots : List ℂ → List ℂ} (hroots : IsRoots roots) (rk : String) (deg : ℕ) (hrk : (rk, deg) ∈ [("rk3", 3), ("rk4", 4), ("rk5", 6)]) :
    ∃ pts, exactStabilityBoundary roots ((tableOf rk).map Complex.ofRealHom) = .ok pts ∧ pts.length = 100 * deg ∧ GoesRound pts ∧
      ∀ z : ℂ, (z.re, z.im) ∈ pts → ∀ lam h u : ℂ, lam * h = z →
        ‖rkStep ((tableOf rk).map Complex.ofRealHom).coeffs ((tableOf rk).map Complex.ofRealHom).beta (fun v => lam • v) h u‖ = ‖u‖ := by
  have key : ∀ (t : Tableau ℚ) (n : ℕ), tableOf rk = t.map (fun q : ℚ => (q : ℝ)) → t.coeffs.length = n + 1 → (∀ m < n + 2, stepWeight t.coeffs t.beta m ≠ 0) →
      ∃ pts, exactStabilityBoundary roots ((tableOf rk).map Complex.ofRealHom) = .ok pts ∧ pts.length = 100 * (n + 1) ∧ GoesRound pts ∧
      ∀ z : ℂ, (z.re, z.im) ∈ pts → ∀ lam h u : ℂ, lam * h = z →
        ‖rkStep ((tableOf rk).map Complex.ofRealHom).coeffs ((tableOf rk).map Complex.ofRealHom).beta (fun v => lam • v) h u‖ = ‖u‖ := by
    intro t n ht hn hw
    set T := (tableOf rk).map Complex.ofRealHom with hT
    have hlen : T.coeffs.length = n + 1 := by rw [hT, ht]; simp [Tableau.map, hn]
    have hco : ∀ m, (weightPoly T).coeff m = if m ≤ n + 1 then ((stepWeight t.coeffs t.beta m : ℚ) : ℂ) else 0 := by
      intro m
      rw [weightPoly_coeff, hlen, hT, stepWeight_map, ht, stepWeight_cast]
      simp
    have hne : ∀ m ≤ n + 1, (weightPoly T).coeff m ≠ 0 := by
      intro m hm
      rw [hco, if_pos hm]
      exact_mod_cast hw m (by omega)
    have hdeg : (weightPoly T).natDegree = n + 1 := by
      refine le_antisymm (natDegree_le_iff_coeff_eq_zero.mpr fun m hm => ?_) (le_natDegree_of_ne_zero (hne _ le_rfl))
      rw [hco, if_neg (by omega)]
    obtain ⟨pts, p1, p2, p3, -, p5⟩ := C86_exact_boundary hroots T (complexTable_explicit rk) (q := weightPoly T) (fun lam h u => weightPoly_step T lam h u) (by omega)
      (by rw [hdeg]; exact hne)
    rw [hdeg] at p2
    exact ⟨pts, p1, p2, p3, p5⟩
  simp only [List.mem_cons, List.not_mem_nil, or_false, Prod.mk.injEq] at hrk
  rcases hrk with ⟨rfl, rfl⟩ | ⟨rfl, rfl⟩ | ⟨rfl, rfl⟩
  · exact key rk3 2 (by unfold tableOf schemeFor; simp) (by decide +kernel) (by decide +kernel)
  · exact key rk4 3 (by unfold tableOf schemeFor; simp) (by decide +kernel) (by decide +kernel)
  · exact key rk5 5 (by unfold tableOf schemeFor; simp) (by decide +kernel) (by decide +kernel)


/-- **C86 (sampled boundary).** For every scheme name, what `approximate_stability_bndry` samples in row `i` and column `j` is the factor by
which a step with `λ h = x + i y` changes the modulus, `x` the column's place in `[-6, 3]` and `y` the row's in `[0, 6]`; and the same at the
mirror image, where the script draws the contour of the same samples. -/
theorem C86_sampled (rk : String) (i j : ℕ) (lam h u : ℂ) {x y : ℝ} (hx : (x + 6) / 9 = j / 199) (hy : y / 6 = i / 199)
    (hz : lam * h = x + y * Complex.I ∨ lam * h = x - y * Complex.I) :
    ‖rkStep ((tableOf rk).map Complex.ofRealHom).coeffs ((tableOf rk).map Complex.ofRealHom).beta (fun v => lam • v) h u‖ =
      sampledSigma ((formattedTable rk).map Complex.ofRealHom) i j * ‖u‖ := by
  have hZ : sampleZ i j = x + y * Complex.I := by
    rw [show x = -6 + 9 * j / 199 by linarith, show y = 6 * i / 199 by linarith]
    apply Complex.ext <;> simp [sampleZ]
  replace hz : lam * h = sampleZ i j ∨ lam * h = (starRingEnd ℂ) (sampleZ i j) := by
    rw [hZ]
    simpa [sub_eq_add_neg] using hz
  rw [C10_same_table]
  set T := (tableOf rk).map Complex.ofRealHom with hT
  have hs : ∀ z, stabilityFunction T z = (weightPoly T).eval z := by
    intro z
    have h1 := weightPoly_step T z 1 (1 : ℂ)
    rw [C10_stability_function T (complexTable_explicit rk)] at h1
    simpa using h1
  have hconj : ∀ z, (weightPoly T).eval ((starRingEnd ℂ) z) = (starRingEnd ℂ) ((weightPoly T).eval z) := by
    intro z
    unfold weightPoly
    rw [eval_finsetSum, eval_finsetSum, map_sum]
    refine Finset.sum_congr rfl fun m _ => ?_
    simp only [eval_mul, eval_C, eval_pow, eval_X, map_mul, map_pow]
    rw [hT, stepWeight_map]
    simp
  rw [weightPoly_step T, smul_eq_mul, norm_mul]
  unfold sampledSigma
  rw [hs]
  rcases hz with hz | hz
  · rw [hz]
  · rw [hz, hconj, RCLike.norm_conj]

/-- The upper right corner of the samples, and the lower right corner. -/
example (rk : String) (s : ℂ) (hs : s = Complex.I ∨ s = -Complex.I) :
    ‖rkStep ((tableOf rk).map Complex.ofRealHom).coeffs ((tableOf rk).map Complex.ofRealHom).beta (fun v => (3 + 6 * s) • v) 1 (1 : ℂ)‖ =
      sampledSigma ((formattedTable rk).map Complex.ofRealHom) 199 199 := by
  rw [C86_sampled rk 199 199 (3 + 6 * s) 1 1 (x := 3) (y := 6) (by norm_num) (by norm_num) (by rcases hs with rfl | rfl; exacts [.inl (by push_cast; ring), .inr (by push_cast; ring)])]
  simp

/-- **C86 (eigenvalues).** `get_eigenvalue` for the standard scheme of order `p` returns `50 (p+1)` points, exactly the eigenvalues of the
matrices for 50 waves (C65: the solver's operator), which go round their mean; none is to the right of the imaginary axis. -/
theorem C86_eigenvalues {eigvals : ℕ → Arr ℂ → List ℂ} (heig : IsEigvals eigvals) (lib : GaussLib ℝ) (p : ℕ) :
    (getEigenvalue eigvals p (dgMatrices lib p)).length = 50 * (p + 1) ∧ GoesRound (getEigenvalue eigvals p (dgMatrices lib p)) ∧
    (∀ μ : ℂ, (μ.re, μ.im) ∈ getEigenvalue eigvals p (dgMatrices lib p) ↔ ∃ k : ℕ, k < 50 ∧ ∃ v : ℕ → ℂ, (∃ n < p + 1, v n ≠ 0) ∧
      ∀ n < p + 1, ∑ j ∈ Finset.range (p + 1), (fullMatrix (dgMatrices lib p (Complex.exp ((-Real.pi + 2 * Real.pi * (k : ℝ) / 49 : ℝ) * Complex.I)))).val n j * v j = μ * v n) ∧
    ∀ q ∈ getEigenvalue eigvals p (dgMatrices lib p), q.1 ≤ 0 := by
  set M : ℕ → Arr ℂ := fun k => fullMatrix (dgMatrices lib p (Complex.exp (Stability.beta k * Complex.I))) with hM
  have hrows : List.Forall₂ (fun k row => row.length = p + 1 ∧ ∀ z, z ∈ row ↔ ∃ v : ℕ → ℂ, (∃ n < p + 1, v n ≠ 0) ∧
      ∀ n < p + 1, ∑ j ∈ Finset.range (p + 1), (M k).val n j * v j = z * v n) (List.range 50) ((List.range 50).map fun k => eigvals (p + 1) (M k)) := by
    rw [List.forall₂_map_right_iff, List.forall₂_same]
    intro k _
    have h := heig (p + 1) (M k)
    refine ⟨?_, fun z => ?_⟩
    · rw [← Multiset.coe_card, h, IsAlgClosed.card_roots_eq_natDegree, Matrix.charpoly_natDegree_eq_dim, Fintype.card_fin]
    · rw [← Multiset.mem_coe, h, mem_charpoly_roots]
  obtain ⟨f1, f2, f3⟩ := forall₂_flatten hrows
  obtain ⟨s1, s2⟩ := sortRootsAngle_facts f1
  have hmem : ∀ μ : ℂ, (μ.re, μ.im) ∈ getEigenvalue eigvals p (dgMatrices lib p) ↔ ∃ k : ℕ, k < 50 ∧ ∃ v : ℕ → ℂ, (∃ n < p + 1, v n ≠ 0) ∧
      ∀ n < p + 1, ∑ j ∈ Finset.range (p + 1), (M k).val n j * v j = μ * v n := by
    intro μ
    refine (point_mem s1 μ).trans ((f3 μ).trans ?_)
    simp only [List.mem_range]
  refine ⟨?_, s2, hmem, fun q hq => ?_⟩
  · have := s1.length_eq
    rw [List.length_map, f2, List.length_range] at this
    exact this
  · obtain ⟨k, -, v, hv, h⟩ := (hmem ⟨q.1, q.2⟩).mp hq
    exact C68_spectrum lib p (z := Complex.exp (Stability.beta k * Complex.I)) (Complex.norm_exp_ofReal_mul_I _) hv h

/-! ### Concrete cases -/

/-- Both contracts can be met. -/
noncomputable def Ex.roots (l : List ℂ) : List ℂ := (ofCoeffs l).roots.toList
noncomputable def Ex.eigvals (n : ℕ) (A : Arr ℂ) : List ℂ := (asMatrix n A).charpoly.roots.toList

lemma Ex.roots_ok : IsRoots Ex.roots := fun l _ => by unfold Ex.roots; exact Multiset.coe_toList _
lemma Ex.eigvals_ok : IsEigvals Ex.eigvals := fun n A => by unfold Ex.eigvals; exact Multiset.coe_toList _

example : ∃ pts, exactStabilityBoundary Ex.roots (Ex.complexTable "rk4") = .ok pts ∧ pts.length = 400 := by
  obtain ⟨pts, h1, h2, -⟩ := C86_schemes Ex.roots_ok "rk4" 4 (by simp)
  exact ⟨pts, h1, h2⟩

example : (getEigenvalue Ex.eigvals 3 (dgMatrices realGauss 3)).length = 200 := (C86_eigenvalues Ex.eigvals_ok realGauss 3).1

/-- A table with a gap: three stages, `1 + z + z^3`. -/
noncomputable def Ex.gap : Tableau ℂ := ⟨[0, 0, 1], [0, 0, 0], fun k j => if k = 1 ∧ j = 0 then 1 else if k = 2 ∧ j = 0 then -1 else if k = 2 ∧ j = 1 then 1 else 0⟩

example : exactStabilityBoundary Ex.roots Ex.gap = .error .valueError := by
  have hq : IsAmplification Ex.gap (weightPoly Ex.gap) := fun lam h u => weightPoly_step Ex.gap lam h u
  have hw : stepWeight Ex.gap.coeffs Ex.gap.beta 1 = 1 ∧ stepWeight Ex.gap.coeffs Ex.gap.beta 2 = 0 ∧ stepWeight Ex.gap.coeffs Ex.gap.beta 3 = 1 := by
    refine ⟨?_, ?_, ?_⟩ <;> simp [Ex.gap, stepWeight, tallWeight, Finset.sum_range_succ]
  have hl : Ex.gap.coeffs.length = 3 := rfl
  have h3 : (weightPoly Ex.gap).coeff 3 ≠ 0 := by rw [weightPoly_coeff, hl, if_pos (by norm_num), hw.2.2]; exact one_ne_zero
  refine C86_gap Ex.roots_ok Ex.gap ?_ hq ?_ (i := 2) (lt_of_lt_of_le (by norm_num) (le_natDegree_of_ne_zero h3)) ?_
  · intro k hk j hj hkj
    show (if _ then _ else if _ then _ else if _ then _ else (0 : ℂ)) = 0
    rw [if_neg (by omega), if_neg (by omega), if_neg (by omega)]
  · rw [weightPoly_coeff, hl, if_pos (by norm_num), hw.1]; exact one_ne_zero
  · rw [weightPoly_coeff, hl, if_pos (by norm_num), hw.2.1]

end Dg1d.Props
