import Verif.Model.Dg
import Verif.Proofs.RkStep
import Mathlib.Algebra.BigOperators.Fin

/-! Helper lemmas: boundary conditions and the residual in per-cell form. -/

set_option linter.unusedSectionVars false

namespace Dg1d
variable {K : Type*} [Field K] [LinearOrder K] [IsStrictOrderedRing K]

/-- The shapes a constructed solution has: `N_E ≥ 1` cells, one ghost cell on either side. -/
structure Sol.WF (s : Sol K) : Prop where
  NF : 0 < s.NF
  NE : 0 < s.NE
  rows : s.u.rows = s.basis.Ns
  cols : s.u.cols = (s.NE + 2) * s.NF
  phi : s.basis.phi.rows = s.basis.NG ∧ s.basis.phi.cols = s.basis.Ns
  dphi : s.basis.dphiW.rows = s.basis.Ns ∧ s.basis.dphiW.cols = s.basis.NG
  psi : s.basis.psi.cols = s.basis.Ns
  enh : ∀ en, s.enhance = some en →
    en.alphaL.len = s.basis.Ns ∧ en.alphaR.len = s.basis.Ns ∧ en.betaL.len = s.basis.Ns ∧ en.betaR.len = s.basis.Ns

/-- The column whose content column `c` has after `apply_bc`. -/
def Sol.bcCol (s : Sol K) (c : ℕ) : ℕ :=
  if c < s.NF then
    if s.bcl.isLit "periodic" then c + s.NE * s.NF else if s.bcl.isLit "zerograd" then c + s.NF else c
  else if c < (s.NE + 1) * s.NF then c
  else if c < (s.NE + 2) * s.NF then
    if s.bcr.isLit "periodic" then c - s.NE * s.NF else if s.bcr.isLit "zerograd" then c - s.NF else c
  else c

lemma pyIdx_nat (len i : ℕ) (h : i ≤ len) : pyIdx len (i : ℤ) = i := by
  unfold pyIdx
  rw [if_neg (by omega), Int.toNat_natCast, Nat.min_eq_left h]

lemma pyIdx_neg (len i : ℕ) (h0 : 0 < i) (h : i ≤ len) : pyIdx len (-(i : ℤ)) = len - i := by
  unfold pyIdx
  rw [if_pos (by omega)]
  omega

lemma pyIdx_neg2 (len i : ℕ) (h0 : 0 < i) (h : 2 * i ≤ len) : pyIdx len (-2 * (i : ℤ)) = len - 2 * i := by
  unfold pyIdx
  rw [if_pos (by omega)]
  omega

lemma pyIdx_two (len i : ℕ) (h : 2 * i ≤ len) : pyIdx len (2 * (i : ℤ)) = 2 * i := by
  unfold pyIdx
  rw [if_neg (by omega)]
  omega

/-- Shape facts used for index arithmetic: `cols = NE*NF + 2*NF`, `NF ≤ NE*NF`. -/
lemma Sol.shape_facts (s : Sol K) (hE : 0 < s.NE) (hc : s.u.cols = (s.NE + 2) * s.NF) :
    s.u.cols = s.NE * s.NF + 2 * s.NF ∧ s.NF ≤ s.NE * s.NF ∧ (s.NE + 1) * s.NF = s.NE * s.NF + s.NF ∧
      (s.NE + 2) * s.NF = s.NE * s.NF + 2 * s.NF := by
  refine ⟨by rw [hc]; ring, Nat.le_mul_of_pos_left _ hE, by ring, by ring⟩

/-- The solution with other entries in `u`. -/
def Sol.withVal (s : Sol K) (v : ℕ → ℕ → K) : Sol K := { s with u := ⟨s.u.rows, s.u.cols, v⟩ }

/-- Effect of the left half of `apply_bc` on columns. -/
def Sol.leftCol (s : Sol K) (c : ℕ) : ℕ :=
  if c < s.NF then
    if s.bcl.isLit "periodic" then c + s.NE * s.NF else if s.bcl.isLit "zerograd" then c + s.NF else c
  else c

/-- Effect of the right half of `apply_bc` on columns. -/
def Sol.rightCol (s : Sol K) (c : ℕ) : ℕ :=
  if (s.NE + 1) * s.NF ≤ c ∧ c < (s.NE + 2) * s.NF then
    if s.bcr.isLit "periodic" then c - s.NE * s.NF else if s.bcr.isLit "zerograd" then c - s.NF else c
  else c

lemma applyBcLeft_eq (s : Sol K) (hF : 0 < s.NF) (hE : 0 < s.NE) (hc : s.u.cols = (s.NE + 2) * s.NF) :
    s.applyBcLeft = s.withVal fun r c => s.u.val r (s.leftCol c) := by
  obtain ⟨h1, h2, h3, h4⟩ := s.shape_facts hE hc
  have hp : s.applyBcLeft = { s with u := s.applyBcLeft.u } := by
    unfold Sol.applyBcLeft; split_ifs <;> rfl
  rw [hp, Sol.withVal]
  congr 1
  unfold Sol.applyBcLeft Sol.leftCol
  split_ifs with ha hb
  · simp only [Arr.setColSlice, Arr.colSlice]
    congr 1
    funext r c
    have e0 : pyIdx s.u.cols 0 = 0 := by simpa using pyIdx_nat s.u.cols 0 (by omega)
    rw [e0, pyIdx_nat _ _ (by omega), pyIdx_neg2 _ _ hF (by omega)]
    by_cases h : c < s.NF
    · rw [if_pos ⟨by omega, h⟩, if_pos h]; congr 1; omega
    · rw [if_neg (by omega), if_neg h]
  · simp only [Arr.setColSlice, Arr.colSlice]
    congr 1
    funext r c
    have e0 : pyIdx s.u.cols 0 = 0 := by simpa using pyIdx_nat s.u.cols 0 (by omega)
    rw [e0, pyIdx_nat _ _ (by omega)]
    by_cases h : c < s.NF
    · rw [if_pos ⟨by omega, h⟩, if_pos h]; congr 1; omega
    · rw [if_neg (by omega), if_neg h]
  · simp

lemma applyBcRight_eq (s : Sol K) (hF : 0 < s.NF) (hE : 0 < s.NE) (hc : s.u.cols = (s.NE + 2) * s.NF) :
    s.applyBcRight = s.withVal fun r c => s.u.val r (s.rightCol c) := by
  obtain ⟨h1, h2, h3, h4⟩ := s.shape_facts hE hc
  have hp : s.applyBcRight = { s with u := s.applyBcRight.u } := by
    unfold Sol.applyBcRight; split_ifs <;> rfl
  rw [hp, Sol.withVal]
  congr 1
  unfold Sol.applyBcRight Sol.rightCol
  have e0 : pyIdx s.u.cols s.u.cols = s.u.cols := pyIdx_nat s.u.cols _ le_rfl
  split_ifs with ha hb
  · simp only [Arr.setColSlice, Arr.colSlice]
    congr 1
    funext r c
    rw [e0, pyIdx_nat _ _ (by omega), pyIdx_neg _ _ hF (by omega)]
    by_cases h : (s.NE + 1) * s.NF ≤ c ∧ c < (s.NE + 2) * s.NF
    · rw [if_pos (by omega), if_pos h]; congr 1; omega
    · rw [if_neg (by omega), if_neg h]
  · simp only [Arr.setColSlice, Arr.colSlice]
    congr 1
    funext r c
    rw [e0, pyIdx_neg _ _ hF (by omega), pyIdx_neg2 _ _ hF (by omega)]
    by_cases h : (s.NE + 1) * s.NF ≤ c ∧ c < (s.NE + 2) * s.NF
    · rw [if_pos (by omega), if_pos h]; congr 1; omega
    · rw [if_neg (by omega), if_neg h]
  · simp

/-- `apply_bc` as a relabelling of columns. -/
lemma applyBc_eq (s : Sol K) (hF : 0 < s.NF) (hE : 0 < s.NE) (hc : s.u.cols = (s.NE + 2) * s.NF) :
    s.applyBc = s.withVal fun r c => s.u.val r (s.bcCol c) := by
  obtain ⟨h1, h2, h3, h4⟩ := s.shape_facts hE hc
  unfold Sol.applyBc
  rw [applyBcLeft_eq s hF hE hc, applyBcRight_eq (s.withVal fun r c => s.u.val r (s.leftCol c)) hF hE hc]
  simp only [Sol.withVal]
  congr 2
  funext r c
  congr 1
  unfold Sol.bcCol Sol.leftCol Sol.rightCol
  simp only
  by_cases hl : c < s.NF
  · rw [if_neg (show ¬ ((s.NE + 1) * s.NF ≤ c ∧ c < (s.NE + 2) * s.NF) by omega), if_pos hl, if_pos hl]
  · rw [if_neg hl]
    by_cases hr : (s.NE + 1) * s.NF ≤ c ∧ c < (s.NE + 2) * s.NF
    · rw [if_pos hr, if_neg (show ¬ c < (s.NE + 1) * s.NF by omega), if_pos hr.2]
      split_ifs <;> omega
    · rw [if_neg hr, if_neg hl]
      by_cases hm : c < (s.NE + 1) * s.NF
      · rw [if_pos hm]
      · rw [if_neg hm, if_neg (by omega)]

lemma Sol.WF.applyBc {s : Sol K} (h : s.WF) : s.applyBc.WF := by
  rw [applyBc_eq s h.NF h.NE h.cols]
  exact ⟨h.NF, h.NE, h.rows, h.cols, h.phi, h.dphi, h.psi, h.enh⟩

/-! ### Physics contract -/

/-- State number `i` in a row of interleaved fields. -/
def fieldsAt (NF : ℕ) (v : ℕ → K) (i : ℕ) : Fin NF → K := fun f => v (i * NF + f)

/-- What an interior flux and a Riemann solver compute, point by point; `fails` are the interfaces where the solver
raises, `errs` the errors it can raise. -/
structure PhysSpec (K : Type*) (NF : ℕ) where
  flux : (Fin NF → K) → Fin NF → K
  num : (Fin NF → K) → (Fin NF → K) → Fin NF → K
  fails : (Fin NF → K) → (Fin NF → K) → Prop
  errs : PyErr → Prop

/-- Equal errors, or both errors of the Riemann solver. -/
def PhysSpec.sameErr {NF : ℕ} (ps : PhysSpec K NF) (e e' : PyErr) : Prop := e = e' ∨ ps.errs e ∧ ps.errs e'

/-- The physics entries of the dictionary act point by point as described by `ps`. -/
structure Physics.Pointwise (kw : Physics K) {NF : ℕ} (ps : PhysSpec K NF) : Prop where
  fluxShape : ∀ A, (kw.interiorFlux A).rows = A.rows ∧ (kw.interiorFlux A).cols = A.cols
  flux : ∀ (A : Arr K) (N r e : ℕ) (f : Fin NF), A.cols = N * NF → e < N → r < A.rows →
    (kw.interiorFlux A).val r (e * NF + f) = ps.flux (fieldsAt NF (A.val r) e) f
  riemannErr : ∀ (ul ur : Vec K) (m : ℕ), ul.len = m * NF → ur.len = m * NF →
    (∃ i < m, ps.fails (fieldsAt NF ul.val i) (fieldsAt NF ur.val i)) →
    ∃ e, ps.errs e ∧ kw.riemann ul ur = .error e
  riemannOk : ∀ (ul ur : Vec K) (m : ℕ), ul.len = m * NF → ur.len = m * NF →
    (∀ i < m, ¬ ps.fails (fieldsAt NF ul.val i) (fieldsAt NF ur.val i)) →
    ∃ q, kw.riemann ul ur = .ok q ∧ q.len = m * NF ∧
      ∀ i < m, ∀ f : Fin NF, q.val (i * NF + f) = ps.num (fieldsAt NF ul.val i) (fieldsAt NF ur.val i) f

/-- Weights with which the coefficients of the cell left/right of an interface enter the state on its left
side (`1`) or right side (`0`). -/
def Sol.faceW (s : Sol K) (side : ℕ) (fromRight : Bool) (n : ℕ) : K :=
  match s.enhance with
  | none => if side = 1 then (if fromRight then 0 else s.basis.psi.val 1 n)
            else (if fromRight then s.basis.psi.val 0 n else 0)
  | some en => if side = 1 then (if fromRight then en.alphaR.val n else en.alphaL.val n)
               else (if fromRight then en.betaR.val n else en.betaL.val n)

/-- State at interface `i` (between cells `i` and `i+1`). -/
def Sol.face (s : Sol K) (side : ℕ) (u : ℕ → ℕ → K) (i : ℕ) : Fin s.NF → K := fun f =>
  ∑ n ∈ Finset.range s.basis.Ns, (s.faceW side false n * u n (i * s.NF + f) +
    s.faceW side true n * u n ((i + 1) * s.NF + f))

/-- Numerical flux at interface `i`. -/
def Sol.q (s : Sol K) (ps : PhysSpec K s.NF) (u : ℕ → ℕ → K) (i : ℕ) : Fin s.NF → K :=
  ps.num (s.face 1 u i) (s.face 0 u i)

/-- Volume term of cell `e`. -/
def Sol.vol (s : Sol K) (ps : PhysSpec K s.NF) (u : ℕ → ℕ → K) (n e : ℕ) (f : Fin s.NF) : K :=
  ∑ g ∈ Finset.range s.basis.NG, s.basis.dphiW.val n g *
    ps.flux (fun f' => ∑ k ∈ Finset.range s.basis.Ns, s.basis.phi.val g k * u k (e * s.NF + f')) f

lemma mul_add_lt {e N NF f : ℕ} (he : e < N) (hf : f < NF) : e * NF + f < N * NF := by
  calc e * NF + f < e * NF + NF := by omega
    _ = (e + 1) * NF := by ring
    _ ≤ N * NF := Nat.mul_le_mul_right _ he

section Faces
variable {s : Sol K}

/-- The array `evaluate_faces` returns. -/
def Sol.faceVals (s : Sol K) : Arr K :=
  match s.enhance with
  | none => s.collocateFaces
  | some en => en.faceArr s.u s.NF

lemma evaluateFaces_eq (h : s.WF) : s.evaluateFaces = .ok s.faceVals := by
  unfold Sol.evaluateFaces Sol.faceVals
  cases hen : s.enhance with
  | none => rfl
  | some en =>
    obtain ⟨l1, l2, l3, l4⟩ := h.enh en hen
    simp only [Enhance.faceValue]
    rw [if_pos (by rw [l1, l2, l3, l4, h.rows]; exact ⟨rfl, rfl, rfl, rfl⟩)]

/-- The two vectors handed to the Riemann solver, in per-interface form. -/
lemma faces_eq (h : s.WF) :
    let ul := ((s.faceVals.row 1).slice 0 (-(s.NF : ℤ)))
    let ur := ((s.faceVals.row 0).slice s.NF s.faceVals.cols)
    ul.len = (s.NE + 1) * s.NF ∧ ur.len = (s.NE + 1) * s.NF ∧
    (∀ i < s.NE + 1, fieldsAt s.NF ul.val i = s.face 1 s.u.val i) ∧
    (∀ i < s.NE + 1, fieldsAt s.NF ur.val i = s.face 0 s.u.val i) := by
  obtain ⟨h1, h2, h3, h4⟩ := s.shape_facts h.NE h.cols
  have hF := h.NF
  have hcols : s.faceVals.cols = s.u.cols := by
    unfold Sol.faceVals; split <;> rfl
  have e0 : pyIdx s.u.cols 0 = 0 := by simpa using pyIdx_nat s.u.cols 0 (by omega)
  have e1 : pyIdx s.u.cols (-(s.NF : ℤ)) = (s.NE + 1) * s.NF := by
    rw [pyIdx_neg _ _ hF (by omega)]; omega
  have e2 : pyIdx s.u.cols (s.NF : ℤ) = s.NF := pyIdx_nat _ _ (by omega)
  have e3 : pyIdx s.u.cols (s.u.cols : ℤ) = s.u.cols := pyIdx_nat _ _ le_rfl
  simp only [Arr.row, Vec.slice, hcols, e0, e1, e2, e3]
  refine ⟨by omega, by omega, ?_, ?_⟩
  · intro i hi
    funext f
    have hlt := mul_add_lt hi f.isLt
    simp only [fieldsAt, Sol.face, zero_add]
    unfold Sol.faceVals
    cases hen : s.enhance with
    | none =>
      simp only [Sol.collocateFaces, Arr.dot, h.psi]
      apply Finset.sum_congr rfl
      intro n _
      simp [Sol.faceW, hen]
    | some en =>
      obtain ⟨l1, l2, l3, l4⟩ := h.enh en hen
      simp only [Enhance.faceArr, Vec.dotArr, Arr.colSlice, e0, e1, e2, l1, l2]
      rw [if_neg (by norm_num), if_pos hlt, ← Finset.sum_add_distrib]
      apply Finset.sum_congr rfl
      intro n _
      simp only [Sol.faceW, hen, zero_add, if_true]
      rw [if_neg (by simp)]
      congr 3
      ring
  · intro i hi
    funext f
    have hlt := mul_add_lt hi f.isLt
    have ec : s.NF + (i * s.NF + ↑f) = (i + 1) * s.NF + f := by ring
    simp only [fieldsAt, Sol.face, ec]
    unfold Sol.faceVals
    cases hen : s.enhance with
    | none =>
      simp only [Sol.collocateFaces, Arr.dot, h.psi]
      apply Finset.sum_congr rfl
      intro n _
      simp [Sol.faceW, hen]
    | some en =>
      obtain ⟨l1, l2, l3, l4⟩ := h.enh en hen
      have ed : (i + 1) * s.NF + ↑f - s.NF = i * s.NF + f := by
        rw [← ec]; omega
      simp only [Enhance.faceArr, Vec.dotArr, Arr.colSlice, e0, e1, e2, l3, l4, ed]
      rw [if_pos trivial, if_pos (by rw [← ec]; omega), ← Finset.sum_add_distrib]
      apply Finset.sum_congr rfl
      intro n _
      simp only [Sol.faceW, hen, zero_add, if_true]
      rw [if_neg (by norm_num), if_neg (by norm_num), if_neg (by simp), ec]

end Faces

/-- The residual, cell by cell. -/
lemma residual_eq {s : Sol K} (h : s.WF) {ps : PhysSpec K s.NF} (hps : s.kw.Pointwise ps) :
    let u := s.applyBc.u.val
    ((∃ i < s.NE + 1, ps.fails (s.face 1 u i) (s.face 0 u i)) →
      ∃ e, ps.errs e ∧ residual s = .error e) ∧
    ((∀ i < s.NE + 1, ¬ ps.fails (s.face 1 u i) (s.face 0 u i)) →
      ∃ F : Arr K, residual s = .ok (s.applyBc, F) ∧ F.rows = s.basis.Ns ∧ F.cols = (s.NE + 2) * s.NF ∧
        (∀ n < s.basis.Ns, ∀ e, 1 ≤ e → e ≤ s.NE → ∀ f : Fin s.NF, F.val n (e * s.NF + f) =
          (s.vol ps u n e f - (if n % 2 = 0 then s.q ps u e f - s.q ps u (e - 1) f
            else s.q ps u (e - 1) f + s.q ps u e f)) * s.scaledMinv.val n) ∧
        (∀ n < s.basis.Ns, ∀ e, (e = 0 ∨ e = s.NE + 1) → ∀ f : Fin s.NF, F.val n (e * s.NF + f) =
          s.vol ps u n e f * s.scaledMinv.val n)) := by
  have key : ∀ (w : Sol K) (pw : PhysSpec K w.NF) (_ : w.WF) (_ : w.kw.Pointwise pw),
      ((∃ i < w.NE + 1, pw.fails (w.face 1 w.u.val i) (w.face 0 w.u.val i)) →
        ∃ e, pw.errs e ∧ interfaceFluxes w.kw w.faceVals w.NF = .error e) ∧
      ((∀ i < w.NE + 1, ¬ pw.fails (w.face 1 w.u.val i) (w.face 0 w.u.val i)) →
        ∃ q, interfaceFluxes w.kw w.faceVals w.NF = .ok q ∧
          let F := inverseMassMatrixMultiply (addInteriorFaceFluxes
            (integrateInteriorFlux w.basis.dphiW (w.kw.interiorFlux w.collocate)) q w.NF) w.scaledMinv
          F.rows = w.basis.Ns ∧ F.cols = (w.NE + 2) * w.NF ∧
          (∀ n < w.basis.Ns, ∀ e, 1 ≤ e → e ≤ w.NE → ∀ f : Fin w.NF, F.val n (e * w.NF + f) =
            (w.vol pw w.u.val n e f - (if n % 2 = 0 then w.q pw w.u.val e f - w.q pw w.u.val (e - 1) f
              else w.q pw w.u.val (e - 1) f + w.q pw w.u.val e f)) * w.scaledMinv.val n) ∧
          (∀ n < w.basis.Ns, ∀ e, (e = 0 ∨ e = w.NE + 1) → ∀ f : Fin w.NF, F.val n (e * w.NF + f) =
            w.vol pw w.u.val n e f * w.scaledMinv.val n)) := by
    intro w pw hw hpw
    obtain ⟨h1, h2, h3, h4⟩ := w.shape_facts hw.NE hw.cols
    obtain ⟨hl, hr, hfl, hfr⟩ := faces_eq hw
    constructor
    · rintro ⟨i, hi, hfail⟩
      unfold interfaceFluxes
      apply hpw.riemannErr _ _ (w.NE + 1) hl hr
      exact ⟨i, hi, by rw [hfl i hi, hfr i hi]; exact hfail⟩
    · intro hok
      obtain ⟨q, hq, hqlen, hqv⟩ := hpw.riemannOk _ _ (w.NE + 1) hl hr
        (fun i hi => by rw [hfl i hi, hfr i hi]; exact hok i hi)
      have hvol : ∀ n e (f : Fin w.NF), e < w.NE + 2 →
          (integrateInteriorFlux w.basis.dphiW (w.kw.interiorFlux w.collocate)).val n (e * w.NF + f) =
            w.vol pw w.u.val n e f := by
        intro n e f he
        unfold integrateInteriorFlux Arr.dot Sol.vol
        simp only [hw.dphi.2]
        apply Finset.sum_congr rfl
        intro g hg
        have := hpw.flux w.collocate (w.NE + 2) g e f hw.cols he (by
          show g < w.basis.phi.rows
          rw [hw.phi.1]; simpa using hg)
        rw [this]
        congr 2
        funext f'
        simp only [fieldsAt, Sol.collocate, Arr.dot, hw.phi.2]
      refine ⟨q, hq, hw.dphi.1, ?_, ?_, ?_⟩
      · show (w.kw.interiorFlux w.collocate).cols = _
        rw [(hpw.fluxShape _).2]; exact hw.cols
      all_goals
        intro n hn e
      · intro he1 he2 f
        have hc : (integrateInteriorFlux w.basis.dphiW (w.kw.interiorFlux w.collocate)).cols = w.u.cols :=
          (hpw.fluxShape _).2
        simp only [inverseMassMatrixMultiply, addInteriorFaceFluxes, hc, edgeFluxMatrix, Vec.slice]
        obtain ⟨e', rfl⟩ : ∃ e', e = e' + 1 := ⟨e - 1, by omega⟩
        have hlt := mul_add_lt (show e' + 1 < w.NE + 1 by omega) f.isLt
        have hlt2 := mul_add_lt (show e' < w.NE + 1 by omega) f.isLt
        have hs : (e' + 1) * w.NF + (f : ℕ) = w.NF + (e' * w.NF + f) := by ring
        have e0 : pyIdx q.len 0 = 0 := by simpa using pyIdx_nat q.len 0 (by omega)
        rw [pyIdx_nat w.u.cols w.NF (by omega), pyIdx_neg _ _ hw.NF (by omega), e0,
          pyIdx_nat q.len w.NF (by rw [hqlen]; omega), if_pos (by omega), hvol _ _ _ (by omega)]
        have hsub : (e' + 1) * w.NF + (f : ℕ) - w.NF = e' * w.NF + f := by omega
        rw [hsub, ← hs, zero_add, hqv (e' + 1) (by omega) f, hqv e' (by omega) f, hfl _ (by omega), hfr _ (by omega),
          hfl _ (by omega), hfr _ (by omega)]
        rfl
      · intro he f
        have hc : (integrateInteriorFlux w.basis.dphiW (w.kw.interiorFlux w.collocate)).cols = w.u.cols :=
          (hpw.fluxShape _).2
        simp only [inverseMassMatrixMultiply, addInteriorFaceFluxes, hc]
        rw [pyIdx_nat w.u.cols w.NF (by omega), pyIdx_neg _ _ hw.NF (by omega), if_neg, hvol _ _ _ (by omega)]
        have := f.isLt
        rcases he with rfl | rfl
        · omega
        · omega
  have hv := h.applyBc
  have heq := applyBc_eq s h.NF h.NE h.cols
  rw [heq] at hv
  unfold residual
  simp only
  rw [heq, evaluateFaces_eq hv]
  obtain ⟨k1, k2⟩ := key (s.withVal fun r c => s.u.val r (s.bcCol c)) ps hv hps
  constructor
  · intro hf
    obtain ⟨e, he, hr⟩ := k1 hf
    exact ⟨e, he, by simp only [hr]⟩
  · intro hf
    obtain ⟨q, hq, hr⟩ := k2 hf
    simp only [hq]
    exact ⟨_, rfl, hr⟩

end Dg1d
