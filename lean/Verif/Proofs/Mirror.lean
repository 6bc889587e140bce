import Verif.Proofs.AdvConv
import Verif.Proofs.HrPoly
import Verif.Proofs.Runs
import Verif.Proofs.Euler

/-! Helper lemmas: reflection of the whole problem about the middle of the domain. -/

set_option linter.unusedSectionVars false

open Polynomial Dg1d.Spec

namespace Dg1d

/-! ### Gauss rules are symmetric -/

lemma intPoly_flip (f : ℝ[X]) : intPoly (f.comp (-X)) = intPoly f := by
  have := intBetween_flip (-1 : ℝ) 1 f
  rwa [neg_neg] at this

lemma degree_flip (f : ℝ[X]) : (f.comp (-X)).degree = f.degree := by
  by_cases hf : f = 0
  · simp [hf]
  · have h1 : (f.comp (-X)).natDegree = f.natDegree := by rw [natDegree_comp]; simp
    have h2 : f.comp (-X) ≠ 0 := by
      intro h
      apply hf
      have : (f.comp (-X)).comp (-X) = f := by rw [comp_assoc]; simp
      rw [← this, h, zero_comp]
    rw [degree_eq_natDegree h2, degree_eq_natDegree hf, h1]

section gauss
variable {n : ℕ} {x w : ℕ → ℝ}

/-- The Lagrange polynomials of the nodes. -/
lemma node_basis (hG : IsGaussRule n x w) {i : ℕ} (hi : i < n) : ∃ l : ℝ[X], l.degree < n ∧ l.eval (x i) = 1 ∧
    ∀ j < n, j ≠ i → l.eval (x j) = 0 := by
  have hinj : Set.InjOn x (Finset.range n : Set ℕ) := fun i hi j hj h => hG.distinct i (by simpa using hi) j (by simpa using hj) h
  refine ⟨Lagrange.basis (Finset.range n) x i, ?_, Lagrange.eval_basis_self hinj (by simpa using hi), fun j hj hne => ?_⟩
  · rw [Lagrange.degree_basis hinj (by simpa using hi), Finset.card_range]
    exact_mod_cast Nat.sub_lt (by omega) one_pos
  · exact Lagrange.eval_basis_of_ne hne.symm (by simpa using hj)

/-- Quadrature of a polynomial that vanishes at all nodes but one. -/
lemma quad_single {f : ℝ[X]} {i : ℕ} (hi : i < n) (h : ∀ j < n, j ≠ i → f.eval (x j) = 0) :
    ∑ g ∈ Finset.range n, w g * f.eval (x g) = w i * f.eval (x i) := by
  rw [Finset.sum_eq_single i]
  · intro j hj hne; rw [h j (Finset.mem_range.mp hj) hne, mul_zero]
  · intro hx; exact absurd (Finset.mem_range.mpr hi) hx

lemma gauss_weight_pos (hG : IsGaussRule n x w) {i : ℕ} (hi : i < n) : 0 < w i := by
  obtain ⟨l, hd, h1, h0⟩ := node_basis hG hi
  have hsq : (l * l).degree < 2 * n := by
    rw [degree_mul, two_mul]
    exact WithBot.add_lt_add_of_le_of_lt (by intro h; rw [degree_eq_bot] at h; rw [h] at h1; simp at h1) hd.le hd
  have := hG.exact (l * l) hsq
  rw [quad_single hi (fun j hj hne => by rw [eval_mul, h0 j hj hne, zero_mul]), eval_mul, h1, one_mul, mul_one] at this
  rw [this]
  obtain ⟨c, hc⟩ := exists_legSeries n l hd
  have hne : ∃ k ∈ Finset.range n, c k ≠ 0 := by
    by_contra hall
    push Not at hall
    have : l = 0 := by
      rw [hc]
      exact Finset.sum_eq_zero fun k hk => by simp [hall k hk]
    rw [this] at h1; simp at h1
  rw [hc, intPoly_sq]
  obtain ⟨k, hk, hck⟩ := hne
  refine Finset.sum_pos' (fun m _ => mul_nonneg (by positivity) (mul_self_nonneg _)) ⟨k, hk, ?_⟩
  have := mul_self_pos.mpr hck
  positivity

lemma gauss_mirror_node (hG : IsGaussRule n x w) {i : ℕ} (hi : i < n) : ∃ j < n, x j = - x i := by
  classical
  set F : ℝ[X] := ∏ j ∈ Finset.range n, (X - C (x j)) with hF
  have hF0 : F ≠ 0 := Finset.prod_ne_zero_iff.mpr fun j _ => X_sub_C_ne_zero _
  have hdeg : F.degree = n := by
    rw [degree_eq_natDegree hF0, hF, natDegree_prod_of_monic _ _ fun j _ => monic_X_sub_C _]
    simp
  have hroot : ∀ j < n, F.eval (x j) = 0 := by
    intro j hj
    rw [hF, eval_prod]
    exact Finset.prod_eq_zero (Finset.mem_range.mpr hj) (by simp)
  obtain ⟨l, hd, h1, h0⟩ := node_basis hG hi
  have hl : l ≠ 0 := by rintro rfl; simp at h1
  have hdG : (F * l.comp (-X)).degree < 2 * n := by
    rw [degree_mul, degree_flip, hdeg, two_mul]
    exact WithBot.add_lt_add_left (by simp) hd
  have e1 := hG.exact (F * l.comp (-X)) hdG
  rw [Finset.sum_eq_zero (fun j hj => by rw [eval_mul, hroot j (Finset.mem_range.mp hj), zero_mul, mul_zero]),
    ← intPoly_flip, ← hG.exact _ (by rw [degree_flip]; exact hdG),
    quad_single hi (fun j hj hne => by simp [h0 j hj hne])] at e1
  have e2 : F.eval (- x i) = 0 := by
    have hw := (gauss_weight_pos hG hi).ne'
    have : w i * (F.eval (- x i) * l.eval (x i)) = 0 := by
      rw [e1]; simp
    rw [h1, mul_one] at this
    exact (mul_eq_zero.mp this).resolve_left hw
  rw [hF, eval_prod, Finset.prod_eq_zero_iff] at e2
  obtain ⟨j, hj, e3⟩ := e2
  have hj := Finset.mem_range.mp hj
  refine ⟨j, hj, ?_⟩
  rw [eval_sub, eval_X, eval_C, sub_eq_zero] at e3
  exact e3.symm

lemma gauss_mirror_weight (hG : IsGaussRule n x w) {i j : ℕ} (hi : i < n) (hj : j < n) (h : x j = - x i) : w j = w i := by
  obtain ⟨m, md, m1, m0⟩ := node_basis hG hj
  have md2 : m.degree < 2 * n := lt_of_lt_of_le md (by exact_mod_cast (by omega : n ≤ 2 * n))
  have a1 := hG.exact m md2
  rw [quad_single hj m0, m1, mul_one] at a1
  have a2 := hG.exact (m.comp (-X)) (by rw [degree_flip]; exact md2)
  have hev : ∀ g, (m.comp (-X)).eval (x g) = m.eval (- x g) := fun g => by simp
  rw [quad_single hi, hev, ← h, m1, mul_one, intPoly_flip] at a2
  · rw [a1, a2]
  · intro g hg hne
    obtain ⟨g', hg', e⟩ := gauss_mirror_node hG hg
    rw [hev, ← e]
    refine m0 g' hg' ?_
    rintro rfl
    apply hne
    apply hG.distinct g hg i hi
    rw [h] at e
    exact (neg_injective e).symm

/-- The quadrature does not change when the function is reflected. -/
lemma gauss_reflect (hG : IsGaussRule n x w) (H : ℝ → ℝ) :
    ∑ g ∈ Finset.range n, w g * H (- x g) = ∑ g ∈ Finset.range n, w g * H (x g) := by
  choose! π h1 h2 using fun i (hi : i < n) => gauss_mirror_node hG hi
  refine Finset.sum_bij (fun g _ => π g) (fun g hg => ?_) (fun a ha b hb hab => ?_) (fun b hb => ?_) (fun g hg => ?_)
  · exact Finset.mem_range.mpr (h1 g (Finset.mem_range.mp hg))
  · rw [Finset.mem_range] at ha hb
    apply hG.distinct a ha b hb
    have := congrArg x hab
    rw [h2 a ha, h2 b hb] at this
    exact neg_injective this
  · rw [Finset.mem_range] at hb
    refine ⟨π b, Finset.mem_range.mpr (h1 b hb), ?_⟩
    apply hG.distinct _ (h1 _ (h1 b hb)) b hb
    rw [h2 _ (h1 b hb), h2 b hb, neg_neg]
  · rw [Finset.mem_range] at hg
    rw [← h2 g hg, gauss_mirror_weight hG hg (h1 g hg) (h2 g hg)]

end gauss

/-! ### Mirrored arrays -/

lemma legendre_derivative_flip (n : ℕ) (y : ℝ) : (derivative (legendre ℝ n)).eval (-y) = -((-1) ^ n * (derivative (legendre ℝ n)).eval y) := by
  have h : (legendre ℝ n).comp (-X) = C ((-1) ^ n) * legendre ℝ n := by
    apply Polynomial.funext
    intro z
    rw [eval_comp, eval_neg, eval_X, legendre_eval_neg, eval_mul, eval_C]
  have h2 := congrArg (fun f => (derivative f).eval y) h
  simp only [derivative_comp, derivative_C_mul, eval_mul, eval_comp, eval_neg, eval_X, eval_C, derivative_neg, derivative_X, eval_one] at h2
  rw [← h2]; ring

/-- The physics commutes with the reflection that multiplies field `f` by `σ f`. -/
structure PhysSpec.Mirror {NF : ℕ} (ps : PhysSpec ℝ NF) (σ : ℕ → ℝ) : Prop where
  flux : ∀ (u : Fin NF → ℝ) (f : Fin NF), ps.flux (fun k => σ k * u k) f = -(σ f * ps.flux u f)
  fails : ∀ uL uR : Fin NF → ℝ, ps.fails (fun k => σ k * uR k) (fun k => σ k * uL k) ↔ ps.fails uL uR
  num : ∀ uL uR : Fin NF → ℝ, ¬ ps.fails uL uR → ∀ f, ps.num (fun k => σ k * uR k) (fun k => σ k * uL k) f = -(σ f * ps.num uL uR f)

/-- The maximum wave speed does not change when the cell averages are reflected. -/
def Physics.WaveMirror (kw : Physics ℝ) (NF : ℕ) (σ : ℕ → ℝ) : Prop :=
  ∀ (A B : Arr ℝ) (N : ℕ), A.cols = N * NF → B.cols = N * NF →
    (∀ i < N, ∀ f < NF, B.val 0 (i * NF + f) = σ f * A.val 0 ((N - 1 - i) * NF + f)) →
    kw.maxWaveSpeed A = kw.maxWaveSpeed B

/-- Mirror image in the cells `lo … hi`, coefficient by coefficient. -/
def Mirrored (NE NF rows lo hi : ℕ) (σ : ℕ → ℝ) (u v : ℕ → ℕ → ℝ) : Prop :=
  ∀ n < rows, ∀ e, lo ≤ e → e ≤ hi → ∀ f < NF, v n (e * NF + f) = σ f * ((-1) ^ n * u n ((NE + 1 - e) * NF + f))

variable {s a b : Sol ℝ} {lib : GaussLib ℝ} {p : ℕ} {σ : ℕ → ℝ}

/-- Enhancement weights that are mirror images of each other. -/
def EnhanceMirror (en : Enhance ℝ) (p : ℕ) : Prop :=
  ∀ n < p + 1, en.betaR.val n = (-1) ^ n * en.alphaL.val n ∧ en.betaL.val n = (-1) ^ n * en.alphaR.val n

lemma mirrored_fill (ha : Like a s) (hb : Like b s) (h : s.Built lib p) (hk : s.BcKnown) (hbc : s.bcl = s.bcr)
    (hm : Mirrored s.NE s.NF (p + 1) 1 s.NE σ a.u.val b.u.val) :
    Mirrored s.NE s.NF (p + 1) 0 (s.NE + 1) σ a.applyBc.u.val b.applyBc.u.val := by
  have hE := h.NE
  have key : ∀ e ≤ s.NE + 1, ∃ e', 1 ≤ e' ∧ e' ≤ s.NE ∧ (∀ f < s.NF, s.bcCol (e * s.NF + f) = e' * s.NF + f) ∧
      ∀ f < s.NF, s.bcCol ((s.NE + 1 - e) * s.NF + f) = (s.NE + 1 - e') * s.NF + f := by
    intro e he
    by_cases h0 : e = 0
    · subst h0
      by_cases hp : s.bcl.isLit "periodic"
      · refine ⟨s.NE, hE, le_rfl, fun f hf => by rw [zero_mul, zero_add, bcCol_left s hf, if_pos hp, add_comm], fun f hf => ?_⟩
        rw [Nat.sub_zero, bcCol_right s hf, ← hbc, if_pos hp, Nat.add_sub_cancel_left, one_mul]
      · refine ⟨1, le_rfl, hE, fun f hf => by
          rw [zero_mul, zero_add, bcCol_left s hf, if_neg hp, if_pos (hk.1.resolve_left hp), one_mul, add_comm], fun f hf => ?_⟩
        rw [Nat.sub_zero, bcCol_right s hf, ← hbc, if_neg hp, if_pos (hk.1.resolve_left hp), Nat.add_sub_cancel]
    · by_cases h1 : e = s.NE + 1
      · subst h1
        by_cases hp : s.bcl.isLit "periodic"
        · refine ⟨1, le_rfl, hE, fun f hf => by rw [bcCol_right s hf, ← hbc, if_pos hp, one_mul], fun f hf => ?_⟩
          rw [Nat.sub_self, zero_mul, zero_add, bcCol_left s hf, if_pos hp, Nat.add_sub_cancel, add_comm]
        · refine ⟨s.NE, hE, le_rfl, fun f hf => by
            rw [bcCol_right s hf, ← hbc, if_neg hp, if_pos (hk.1.resolve_left hp)], fun f hf => ?_⟩
          rw [Nat.sub_self, zero_mul, zero_add, bcCol_left s hf, if_neg hp, if_pos (hk.1.resolve_left hp), Nat.add_sub_cancel_left,
            one_mul, add_comm]
      · exact ⟨e, by omega, by omega, fun f hf => bcCol_interior s (by omega) (by omega) hf,
          fun f hf => bcCol_interior s (by omega) (by omega) hf⟩
  have hcol : ∀ c : Sol ℝ, Like c s → c.bcCol = s.bcCol := by
    intro c hc
    funext j
    unfold Sol.bcCol
    rw [hc.setup.NE, hc.setup.NF, hc.setup.bcl, hc.setup.bcr]
  have hval : ∀ c : Sol ℝ, Like c s → ∀ n j, c.applyBc.u.val n j = c.u.val n (s.bcCol j) := by
    intro c hc n j
    have := hc.built h
    rw [applyBc_val this.NF this.NE this.cols, hcol c hc]
  intro n hn e _ he f hf
  obtain ⟨e', h1, h2, h3, h4⟩ := key e he
  rw [hval b hb, hval a ha, h3 f hf, h4 f hf]
  exact hm n hn e' h1 h2 f hf

lemma neg_one_pow_mul_self (n : ℕ) : ((-1 : ℝ) ^ n) * (-1) ^ n = 1 := by
  rw [← pow_add, ← two_mul, pow_mul]; norm_num

/-- The state on one side of an interface of the mirror image. -/
lemma mirrored_face (h : s.Built lib p) (hen : ∀ en, s.enhance = some en → EnhanceMirror en p) {u v : ℕ → ℕ → ℝ}
    (hm : Mirrored s.NE s.NF (p + 1) 0 (s.NE + 1) σ u v) {i : ℕ} (hi : i ≤ s.NE) :
    s.face 1 v i = (fun f : Fin s.NF => σ f * s.face 0 u (s.NE - i) f) ∧ s.face 0 v i = (fun f : Fin s.NF => σ f * s.face 1 u (s.NE - i) f) := by
  have hW : ∀ n < p + 1, s.faceW 0 true n = (-1) ^ n * s.faceW 1 false n ∧ s.faceW 0 false n = (-1) ^ n * s.faceW 1 true n := by
    intro n hn
    unfold Sol.faceW
    cases he : s.enhance with
    | none =>
      simp only [if_true, zero_ne_one, if_false]
      rw [h.psi0, h.psi1, legendre_eval_neg_one, legendre_eval_one]
      simp
    | some en =>
      obtain ⟨e1, e2⟩ := hen en he n hn
      simp [e1, e2]
  have c1 : s.NE + 1 - i = s.NE - i + 1 := by omega
  have c2 : s.NE + 1 - (i + 1) = s.NE - i := by omega
  constructor
  · funext f
    unfold Sol.face
    rw [Finset.mul_sum, h.ns]
    apply Finset.sum_congr rfl
    intro n hn
    have hn := Finset.mem_range.mp hn
    rw [hm n hn i (by omega) (by omega) f f.2, hm n hn (i + 1) (by omega) (by omega) f f.2, c1, c2, (hW n hn).1, (hW n hn).2]
    ring
  · funext f
    unfold Sol.face
    rw [Finset.mul_sum, h.ns]
    apply Finset.sum_congr rfl
    intro n hn
    have hn := Finset.mem_range.mp hn
    rw [hm n hn i (by omega) (by omega) f f.2, hm n hn (i + 1) (by omega) (by omega) f f.2, c1, c2, (hW n hn).1, (hW n hn).2]
    have := neg_one_pow_mul_self n
    linear_combination (σ f * s.faceW 1 true n * u n ((s.NE - i + 1) * s.NF + f) + σ f * s.faceW 1 false n * u n ((s.NE - i) * s.NF + f)) * this

/-- The volume term of the mirror image. -/
lemma mirrored_vol (h : s.Built lib p) (ps : PhysSpec ℝ s.NF) (hps : ps.Mirror σ) {u v : ℕ → ℕ → ℝ}
    (hm : Mirrored s.NE s.NF (p + 1) 0 (s.NE + 1) σ u v) {n e : ℕ} (he : e ≤ s.NE + 1) (f : Fin s.NF) :
    s.vol ps v n e f = σ f * ((-1) ^ n * s.vol ps u n (s.NE + 1 - e) f) := by
  have hU : ∀ y : ℝ, (fun f' : Fin s.NF => ∑ k ∈ Finset.range (p + 1), (legendre ℝ k).eval y * v k (e * s.NF + f')) =
      fun f' : Fin s.NF => σ f' * ∑ k ∈ Finset.range (p + 1), (legendre ℝ k).eval (-y) * u k ((s.NE + 1 - e) * s.NF + f') := by
    intro y
    funext f'
    rw [Finset.mul_sum]
    apply Finset.sum_congr rfl
    intro k hk
    rw [hm k (Finset.mem_range.mp hk) e (by omega) he f' f'.2, legendre_eval_neg]
    ring
  unfold Sol.vol
  rw [h.ng, h.ns]
  simp only [h.phi, h.dphi]
  set G : ℝ → ℝ := fun y => (derivative (legendre ℝ n)).eval y *
    ps.flux (fun f' => ∑ k ∈ Finset.range (p + 1), (legendre ℝ k).eval y * u k ((s.NE + 1 - e) * s.NF + f')) f with hG
  have := gauss_reflect h.gaussS G
  calc _ = ∑ g ∈ Finset.range (p + 1), σ f * ((-1) ^ n * (s.basis.w.val g * G (- s.basis.x.val g))) := by
        apply Finset.sum_congr rfl
        intro g _
        rw [hU, hps.flux, hG]
        simp only
        rw [legendre_derivative_flip]
        have := neg_one_pow_mul_self n
        linear_combination (s.basis.w.val g * (derivative (legendre ℝ n)).eval (s.basis.x.val g) * (σ f *
          ps.flux (fun f' => ∑ k ∈ Finset.range (p + 1), (legendre ℝ k).eval (-s.basis.x.val g) * u k ((s.NE + 1 - e) * s.NF + f')) f)) * this
    _ = _ := by
        rw [← Finset.mul_sum, ← Finset.mul_sum, this]
        congr 2
        apply Finset.sum_congr rfl
        intro g _
        rw [hG]; ring

/-- The residual of the mirror image is the mirror image of the residual. -/
lemma residual_mirror (h : s.Built lib p) (ha : Like a s) (hb : Like b s) (ps : PhysSpec ℝ s.NF) (hps : s.kw.Pointwise ps)
    (hmir : ps.Mirror σ) (hen : ∀ en, s.enhance = some en → EnhanceMirror en p) (hk : s.BcKnown) (hbc : s.bcl = s.bcr)
    (hm : Mirrored s.NE s.NF (p + 1) 1 s.NE σ a.u.val b.u.val) :
    ExRel ps.sameErr (fun x y => x.1 = a.applyBc ∧ y.1 = b.applyBc ∧ Mirrored s.NE s.NF (p + 1) 1 s.NE σ x.2.val y.2.val)
      (residual a) (residual b) := by
  have hfill := mirrored_fill ha hb h hk hbc hm
  have hface := fun i hi => mirrored_face h hen hfill (i := i) hi
  have hE := h.NE
  obtain ⟨ra1, ra2⟩ := residual_like h.wf ha hps
  obtain ⟨rb1, rb2⟩ := residual_like h.wf hb hps
  have hfail : ∀ i ≤ s.NE, ps.fails (s.face 1 b.applyBc.u.val i) (s.face 0 b.applyBc.u.val i) ↔
      ps.fails (s.face 1 a.applyBc.u.val (s.NE - i)) (s.face 0 a.applyBc.u.val (s.NE - i)) := by
    intro i hi
    rw [(hface i hi).1, (hface i hi).2]
    exact hmir.fails _ _
  by_cases hf : ∃ i < s.NE + 1, ps.fails (s.face 1 b.applyBc.u.val i) (s.face 0 b.applyBc.u.val i)
  · obtain ⟨eb, hb1, hb2⟩ := rb1 hf
    obtain ⟨i, hi, hf⟩ := hf
    obtain ⟨ea, ha1, ha2⟩ := ra1 ⟨s.NE - i, by omega, (hfail i (by omega)).mp hf⟩
    rw [ha2, hb2]
    exact .inr ⟨ha1, hb1⟩
  · have hfa : ∀ j < s.NE + 1, ¬ ps.fails (s.face 1 a.applyBc.u.val j) (s.face 0 a.applyBc.u.val j) := by
      intro j hj hj2
      refine hf ⟨s.NE - j, by omega, (hfail (s.NE - j) (by omega)).mpr ?_⟩
      rw [show s.NE - (s.NE - j) = j by omega]
      exact hj2
    push Not at hf
    obtain ⟨F, hF, _, _, hFi, _⟩ := ra2 hfa
    obtain ⟨G, hG, _, _, hGi, _⟩ := rb2 hf
    rw [hF, hG]
    refine ⟨rfl, rfl, ?_⟩
    intro n hn e he1 he2 f hff
    have hn' : n < s.basis.Ns := by rw [h.ns]; exact hn
    have eG := hGi n hn' e he1 he2 ⟨f, hff⟩
    have eF := hFi n hn' (s.NE + 1 - e) (by omega) (by omega) ⟨f, hff⟩
    simp only at eF eG ⊢
    rw [eF, eG, mirrored_vol h ps hmir hfill (by omega)]
    have hq : ∀ i ≤ s.NE, s.q ps b.applyBc.u.val i ⟨f, hff⟩ = -(σ f * s.q ps a.applyBc.u.val (s.NE - i) ⟨f, hff⟩) := by
      intro i hi
      unfold Sol.q
      rw [(hface i hi).1, (hface i hi).2]
      exact hmir.num _ _ (hfa (s.NE - i) (by omega)) _
    rw [hq e he2, hq (e - 1) (by omega), show s.NE + 1 - e - 1 = s.NE - e by omega, show s.NE - (e - 1) = s.NE + 1 - e by omega]
    by_cases hpar : n % 2 = 0
    · have : (-1 : ℝ) ^ n = 1 := Even.neg_one_pow (Nat.even_iff.mpr hpar)
      rw [if_pos hpar, if_pos hpar, this]; ring
    · have : (-1 : ℝ) ^ n = -1 := Odd.neg_one_pow (Nat.odd_iff.mpr (by omega))
      rw [if_neg hpar, if_neg hpar, this]; ring

/-- Mirror images with filled ghosts have the same maximum wave speed. -/
lemma mirrored_wave (ha : Like a s) (hb : Like b s) (h : s.Built lib p) (hk : s.BcKnown) (hbc : s.bcl = s.bcr)
    (hm : Mirrored s.NE s.NF (p + 1) 1 s.NE σ a.u.val b.u.val) (hw : s.kw.WaveMirror s.NF σ) :
    a.applyBc.kw.maxWaveSpeed a.applyBc.u = b.applyBc.kw.maxWaveSpeed b.applyBc.u := by
  rw [(applyBc_setup a).kw, (applyBc_setup b).kw, ha.setup.kw, hb.setup.kw]
  refine hw _ _ (s.NE + 2) (by rw [(applyBc_shape a).2, ha.cols, h.cols]) (by rw [(applyBc_shape b).2, hb.cols, h.cols]) ?_
  intro i hi f hf
  rw [mirrored_fill ha hb h hk hbc hm 0 (by omega) i (by omega) (by omega) f hf, pow_zero, one_mul]
  rfl

/-! ### The Euler physics -/

namespace Euler

/-- Signs of density, momentum and energy under a reflection. -/
def mirrorSign (f : ℕ) : ℝ := if f = 1 then -1 else 1

/-- Reflected state. -/
def St.mirror (s : St) : St := ⟨s.rho, -s.m, s.E⟩

variable {γ : ℝ}

lemma St.mirror_v (s : St) : s.mirror.v = - s.v := by unfold St.v St.mirror; rw [neg_div]
lemma St.mirror_p (s : St) : s.mirror.p γ = s.p γ := by
  unfold St.p; rw [St.mirror_v]; simp only [St.mirror]; ring
lemma St.mirror_a (s : St) : s.mirror.a γ = s.a γ := by unfold St.a; rw [St.mirror_p]; rfl
lemma St.mirror_H (s : St) : s.mirror.H γ = s.H γ := by unfold St.H; rw [St.mirror_p]; rfl
lemma St.mirror_real (s : St) : s.mirror.IsReal γ ↔ s.IsReal γ := by unfold St.IsReal; rw [St.mirror_p]; rfl

lemma stOf_sign (u : Fin 3 → ℝ) : stOf (fun k => mirrorSign k * u k) = (stOf u).mirror := by
  unfold stOf St.mirror mirrorSign; simp

lemma flux1_mirror (s : St) (f : Fin 3) : vecOf (flux1 γ s.mirror) f = -(mirrorSign f * vecOf (flux1 γ s) f) := by
  unfold flux1 vecOf mirrorSign
  rw [St.mirror_p, St.mirror_v]
  fin_cases f <;> simp [St.mirror]

lemma rusanov1_mirror (L R : St) (f : Fin 3) : vecOf (rusanov1 γ R.mirror L.mirror) f = -(mirrorSign f * vecOf (rusanov1 γ L R) f) := by
  unfold rusanov1 vecOf mirrorSign
  simp only [St.mirror_p, St.mirror_v, St.mirror_a, abs_neg, max_comm (|R.v| + R.a γ)]
  fin_cases f <;> simp [St.mirror] <;> ring

/-- Where the quotient of the densities has a square root, the Roe averages do not depend on the orientation. -/
lemma roe_mirror {L R : St} (hL : L.rho ≠ 0) (hR : R.rho ≠ 0) (hq : 0 ≤ R.rho / L.rho) :
    roeAverages γ R.mirror L.mirror = ((roeAverages γ L R).1, -(roeAverages γ L R).2.1, (roeAverages γ L R).2.2.1, (roeAverages γ L R).2.2.2) := by
  have hpos : 0 < R.rho / L.rho := lt_of_le_of_ne hq (div_ne_zero hR hL).symm
  have hT : 0 < √(R.rho / L.rho) := Real.sqrt_pos.mpr hpos
  have hinv : √(L.rho / R.rho) = (√(R.rho / L.rho))⁻¹ := by rw [← Real.sqrt_inv, inv_div]
  have hsq : √(R.rho / L.rho) * √(R.rho / L.rho) = R.rho / L.rho := Real.mul_self_sqrt hq
  set T := √(R.rho / L.rho) with hTd
  have hrho : T⁻¹ * R.rho = T * L.rho := by
    have : R.rho = T * T * L.rho := by rw [hsq]; field_simp
    rw [this]; field_simp
  have h1 : (-R.v + T⁻¹ * -L.v) / (1 + T⁻¹) = -((L.v + T * R.v) / (1 + T)) := by
    have : 1 + T ≠ 0 := by positivity
    have : T + 1 ≠ 0 := by positivity
    field_simp; ring
  have h2 : (R.H γ + T⁻¹ * L.H γ) / (1 + T⁻¹) = (L.H γ + T * R.H γ) / (1 + T) := by
    have : 1 + T ≠ 0 := by positivity
    have : T + 1 ≠ 0 := by positivity
    field_simp; ring
  unfold roeAverages
  simp only [St.mirror_v, St.mirror_H]
  rw [show L.mirror.rho / R.mirror.rho = L.rho / R.rho from rfl, hinv, h1, h2, show R.mirror.rho = R.rho from rfl, hrho]
  rw [← hTd]
  congr 4
  ring

lemma roeReal_mirror (L R : St) : RoeReal γ R.mirror L.mirror ↔ RoeReal γ L R := by
  have hdir : ∀ L R : St, RoeReal γ L R → RoeReal γ R.mirror L.mirror := by
    rintro L R ⟨h1, h2, h3, h4⟩
    refine ⟨h2, h1, ?_, ?_⟩
    · show 0 ≤ L.rho / R.rho
      rw [← inv_div]; exact inv_nonneg.mpr h3
    · rw [roe_mirror h1 h2 h3]
      simp only
      rw [show (γ - 1) * ((roeAverages γ L R).2.2.1 - 1 / 2 * -(roeAverages γ L R).2.1 * -(roeAverages γ L R).2.1) =
        (γ - 1) * ((roeAverages γ L R).2.2.1 - 1 / 2 * (roeAverages γ L R).2.1 * (roeAverages γ L R).2.1) by ring]
      exact h4
  refine ⟨fun h => ?_, hdir L R⟩
  have := hdir _ _ h
  have hm : ∀ s : St, s.mirror.mirror = s := fun s => by unfold St.mirror; simp
  rwa [hm, hm] at this

lemma roe1_mirror {L R : St} (h : RoeReal γ L R) (f : Fin 3) : vecOf (roe1 γ R.mirror L.mirror) f = -(mirrorSign f * vecOf (roe1 γ L R) f) := by
  obtain ⟨h1, h2, h3, -⟩ := h
  unfold roe1 vecOf mirrorSign
  rw [roe_mirror h1 h2 h3]
  obtain ⟨rho, v, H, a⟩ := roeAverages γ L R
  simp only [St.mirror_p, St.mirror_v, St.mirror_a]
  rw [show -v - a = -(v + a) by ring, show -v + a = -(v - a) by ring, show -L.v - L.a γ = -(L.v + L.a γ) by ring,
    show -R.v - R.a γ = -(R.v + R.a γ) by ring, show -L.v + L.a γ = -(L.v - L.a γ) by ring, show -R.v + R.a γ = -(R.v - R.a γ) by ring,
    abs_neg, abs_neg, abs_neg]
  have hfix : ∀ w x y : ℝ, fixedSpeed γ R.mirror L.mirror w (-x) (-y) = fixedSpeed γ L R w y x := by
    intro w x y
    have he : entropyFix w (-x) (-y) = entropyFix w y x := by
      unfold entropyFix
      rw [show -y - -x = x - y by ring]
    unfold fixedSpeed
    rw [he, St.mirror_real, St.mirror_real]
    by_cases hr : L.IsReal γ ∧ R.IsReal γ
    · rw [if_pos hr, if_pos hr.symm]
    · rw [if_neg hr, if_neg fun h => hr h.symm]
  rw [hfix, hfix]
  fin_cases f <;> simp [St.mirror] <;> ring

lemma rusanov_mirror : (rusanovSpec γ).Mirror mirrorSign where
  flux := fun u f => by
    show vecOf (flux1 γ (stOf _)) f = _
    rw [stOf_sign, flux1_mirror]; rfl
  fails := fun uL uR => by
    show ¬ ((stOf _).IsReal γ ∧ (stOf _).IsReal γ) ↔ ¬ ((stOf _).IsReal γ ∧ (stOf _).IsReal γ)
    rw [stOf_sign, stOf_sign, St.mirror_real, St.mirror_real, and_comm]
  num := fun uL uR _ f => by
    show vecOf (rusanov1 γ (stOf _) (stOf _)) f = _
    rw [stOf_sign, stOf_sign, rusanov1_mirror]; rfl

lemma roeSpec_mirror : (roeSpec γ).Mirror mirrorSign where
  flux := fun u f => by
    show vecOf (flux1 γ (stOf _)) f = _
    rw [stOf_sign, flux1_mirror]; rfl
  fails := fun uL uR => by
    show ¬ RoeReal γ (stOf _) (stOf _) ↔ ¬ RoeReal γ (stOf _) (stOf _)
    rw [stOf_sign, stOf_sign, roeReal_mirror]
  num := fun uL uR h f => by
    show vecOf (roe1 γ (stOf _) (stOf _)) f = _
    rw [stOf_sign, stOf_sign, roe1_mirror (not_not.mp h)]; rfl

lemma wave_mirror (γ : ℝ) (name : String) : (physics γ name).WaveMirror 3 mirrorSign := by
  intro A B N hA hB h
  -- the array with all momenta reversed
  set C : Arr ℝ := { A with val := fun r c => mirrorSign (c % 3) * A.val r c } with hC
  have hfield : ∀ i, fieldsAt 3 (C.val 0) i = fun k : Fin 3 => mirrorSign k * fieldsAt 3 (A.val 0) i k := by
    intro i
    funext k
    show mirrorSign ((i * 3 + k) % 3) * _ = _
    rw [show (i * 3 + (k : ℕ)) % 3 = k by have := k.2; omega]
    rfl
  have h1 : (physics γ name).maxWaveSpeed A = (physics γ name).maxWaveSpeed C := by
    show maxWaveSpeed γ A = maxWaveSpeed γ C
    have hst : ∀ i, stateAt (C.val 0) i = (stateAt (A.val 0) i).mirror := by
      intro i
      rw [stateAt_eq, stateAt_eq, hfield, stOf_sign]
    unfold maxWaveSpeed
    simp only [hst, St.mirror_v, St.mirror_a, St.mirror_p, abs_neg]
    rfl
  rw [h1]
  refine waveCells γ name C B N hA hB (fun i hi => ⟨N - 1 - i, by omega, ?_⟩) (fun j hj => ⟨N - 1 - j, by omega, ?_⟩)
  · rw [hfield]
    funext k
    show _ = B.val 0 _
    rw [h (N - 1 - i) (by omega) k k.2, show N - 1 - (N - 1 - i) = i by omega]
    rfl
  · rw [hfield]
    funext k
    show _ = B.val 0 _
    rw [h j hj k k.2]
    rfl

end Euler

end Dg1d
