import Verif.Proofs.Nan
import Verif.Proofs.Runs
import Verif.Proofs.DgSpec

/-! Helper lemmas: the residual with NaN against the residual of `Model/Dg.lean`. -/

set_option linter.unusedSectionVars false

namespace Dg1d.Nan
open Num

/-- Two arrays hold the same real numbers. -/
structure Same (a : Arr Num) (b : Arr ℝ) : Prop where
  rows : a.rows = b.rows
  cols : a.cols = b.cols
  val : ∀ r < b.rows, ∀ c < b.cols, a.val r c = num (b.val r c)

lemma same_lift (u : Arr ℝ) : Same (lift u) u := ⟨rfl, rfl, fun _ _ _ _ => rfl⟩

/-! ### Sums -/

lemma fold_num {n : ℕ} {d g : ℕ → ℝ} {f : ℕ → Num} (h : ∀ k < n, f k = num (g k)) :
    (List.range n).foldl (fun acc k => acc + num (d k) * f k) (num 0) = num (∑ k ∈ Finset.range n, d k * g k) := by
  induction n with
  | zero => simp
  | succ n ih =>
    rw [List.range_succ, List.foldl_append, ih fun k hk => h k (by omega), Finset.sum_range_succ]
    simp [h n (by omega)]

lemma fold_nan {n : ℕ} {d : ℕ → ℝ} {f : ℕ → Num} (h : ∃ k < n, f k = nan) :
    (List.range n).foldl (fun acc k => acc + num (d k) * f k) (num 0) = nan := by
  induction n with
  | zero => obtain ⟨k, hk, -⟩ := h; omega
  | succ n ih =>
    rw [List.range_succ, List.foldl_append]
    obtain ⟨k, hk, hf⟩ := h
    by_cases he : k = n
    · subst he
      simp [hf]
    · rw [ih ⟨k, by omega, hf⟩]
      simp

lemma mdot_same {D : Arr ℝ} {F : Arr Num} {G : Arr ℝ} (hD : D.cols ≤ G.rows) (h : Same F G) : Same (mdot D F) (D.dot G) where
  rows := rfl
  cols := h.cols
  val := fun _ _ c hc => fold_num fun k hk => h.val k (by omega) c hc

/-! ### Boundary conditions -/

lemma bcLeft_val (s : Sol ℝ) (u : Arr Num) (hF : 0 < s.NF) (hE : 0 < s.NE) (hc : u.cols = (s.NE + 2) * s.NF) :
    bcLeft s u = ⟨u.rows, u.cols, fun r c => u.val r (s.leftCol c)⟩ := by
  have h1 : u.cols = s.NE * s.NF + 2 * s.NF := by rw [hc]; ring
  have h2 : s.NF ≤ s.NE * s.NF := Nat.le_mul_of_pos_left _ hE
  unfold bcLeft Sol.leftCol
  split_ifs with ha hb
  · simp only [Arr.setColSlice, Arr.colSlice]
    congr 1
    funext r c
    have e0 : pyIdx u.cols 0 = 0 := by simpa using pyIdx_nat u.cols 0 (by omega)
    rw [e0, pyIdx_nat _ _ (by omega), pyIdx_neg2 _ _ hF (by omega)]
    by_cases h : c < s.NF
    · rw [if_pos ⟨by omega, h⟩, if_pos h]; congr 1; omega
    · rw [if_neg (by omega), if_neg h]
  · simp only [Arr.setColSlice, Arr.colSlice]
    congr 1
    funext r c
    have e0 : pyIdx u.cols 0 = 0 := by simpa using pyIdx_nat u.cols 0 (by omega)
    rw [e0, pyIdx_nat _ _ (by omega)]
    by_cases h : c < s.NF
    · rw [if_pos ⟨by omega, h⟩, if_pos h]; congr 1; omega
    · rw [if_neg (by omega), if_neg h]
  · simp

lemma bcRight_val (s : Sol ℝ) (u : Arr Num) (hF : 0 < s.NF) (hE : 0 < s.NE) (hc : u.cols = (s.NE + 2) * s.NF) :
    bcRight s u = ⟨u.rows, u.cols, fun r c => u.val r (s.rightCol c)⟩ := by
  have h1 : u.cols = s.NE * s.NF + 2 * s.NF := by rw [hc]; ring
  have h2 : s.NF ≤ s.NE * s.NF := Nat.le_mul_of_pos_left _ hE
  have h3 : (s.NE + 1) * s.NF = s.NE * s.NF + s.NF := by ring
  have h4 : (s.NE + 2) * s.NF = s.NE * s.NF + 2 * s.NF := by ring
  unfold bcRight Sol.rightCol
  have e0 : pyIdx u.cols u.cols = u.cols := pyIdx_nat u.cols _ le_rfl
  split_ifs with ha hb
  · simp only [Arr.setColSlice, Arr.colSlice]
    congr 1
    funext r c
    rw [e0, pyIdx_nat _ _ (by omega), pyIdx_neg _ _ hF (by omega)]
    by_cases h : (s.NE + 1) * s.NF ≤ c ∧ c < (s.NE + 2) * s.NF
    · rw [if_pos (by omega), if_pos h]; congr 1; omega
    · rw [if_neg (by omega), if_neg h]
  · simp only [Arr.setColSlice, Arr.colSlice]
    congr 1
    funext r c
    rw [e0, pyIdx_neg _ _ hF (by omega), pyIdx_neg2 _ _ hF (by omega)]
    by_cases h : (s.NE + 1) * s.NF ≤ c ∧ c < (s.NE + 2) * s.NF
    · rw [if_pos (by omega), if_pos h]; congr 1; omega
    · rw [if_neg (by omega), if_neg h]
  · simp

lemma bc_val (s : Sol ℝ) (u : Arr Num) (hF : 0 < s.NF) (hE : 0 < s.NE) (hc : u.cols = (s.NE + 2) * s.NF) :
    bc s u = ⟨u.rows, u.cols, fun r c => u.val r (s.bcCol c)⟩ := by
  have h3 : (s.NE + 1) * s.NF = s.NE * s.NF + s.NF := by ring
  have h4 : (s.NE + 2) * s.NF = s.NE * s.NF + 2 * s.NF := by ring
  have h2 : s.NF ≤ s.NE * s.NF := Nat.le_mul_of_pos_left _ hE
  unfold bc
  rw [bcLeft_val s u hF hE hc, bcRight_val s ⟨u.rows, u.cols, fun r c => u.val r (s.leftCol c)⟩ hF hE hc]
  congr 1
  funext r c
  simp only
  congr 1
  unfold Sol.bcCol Sol.leftCol Sol.rightCol
  by_cases hl : c < s.NF
  · rw [if_neg (show ¬ ((s.NE + 1) * s.NF ≤ c ∧ c < (s.NE + 2) * s.NF) by omega), if_pos hl, if_pos hl]
  · rw [if_neg hl]
    by_cases hr : (s.NE + 1) * s.NF ≤ c ∧ c < (s.NE + 2) * s.NF
    · rw [if_pos hr, if_neg (show ¬ c < (s.NE + 1) * s.NF by omega), if_pos hr.2]
      split_ifs <;> omega
    · rw [if_neg hr, if_neg hl]
      by_cases hm : c < (s.NE + 1) * s.NF
      · rw [if_pos hm]
      · rw [if_neg hm, if_neg (by omega)]

lemma bcCol_lt (s : Sol ℝ) (hE : 0 < s.NE) {c : ℕ} (hc : c < (s.NE + 2) * s.NF) : s.bcCol c < (s.NE + 2) * s.NF := by
  have h3 : (s.NE + 1) * s.NF = s.NE * s.NF + s.NF := by ring
  have h4 : (s.NE + 2) * s.NF = s.NE * s.NF + 2 * s.NF := by ring
  have h2 : s.NF ≤ s.NE * s.NF := Nat.le_mul_of_pos_left _ hE
  unfold Sol.bcCol
  split_ifs <;> omega

lemma bcCol_inside (s : Sol ℝ) {c : ℕ} (h1 : s.NF ≤ c) (h2 : c < (s.NE + 1) * s.NF) : s.bcCol c = c := by
  unfold Sol.bcCol
  rw [if_neg (by omega), if_pos h2]

/-! ### The setting -/

/-- What the comparison needs of the solution object: shapes, the Euler physics with 'rusanov' or Roe, no enhancement, boundary
names that `apply_bc` recognises. -/
structure Ready (γ : ℝ) (name : String) (s : Sol ℝ) : Prop where
  wf : s.WF
  NF : s.NF = 3
  kw : s.kw = Euler.physics γ name
  solver : name ≠ "godunov"
  enh : s.enhance = none
  bcl : s.bcl.isLit "periodic" ∨ s.bcl.isLit "zerograd"
  bcr : s.bcr.isLit "periodic" ∨ s.bcr.isLit "zerograd"
  pts : 0 < s.basis.NG
  ns : 0 < s.basis.Ns

variable {γ : ℝ} {name : String} {s x : Sol ℝ}

lemma Ready.like (h : Ready γ name s) (hx : Like x s) : Ready γ name x where
  wf :=
    { NF := by rw [hx.setup.NF]; exact h.wf.NF
      NE := by rw [hx.setup.NE]; exact h.wf.NE
      rows := by rw [hx.rows, hx.setup.basis]; exact h.wf.rows
      cols := by rw [hx.cols, hx.setup.NE, hx.setup.NF]; exact h.wf.cols
      phi := by rw [hx.setup.basis]; exact h.wf.phi
      dphi := by rw [hx.setup.basis]; exact h.wf.dphi
      psi := by rw [hx.setup.basis]; exact h.wf.psi
      enh := by rw [hx.setup.enhance, hx.setup.basis]; exact h.wf.enh }
  NF := by rw [hx.setup.NF]; exact h.NF
  kw := by rw [hx.setup.kw]; exact h.kw
  solver := h.solver
  enh := by rw [hx.setup.enhance]; exact h.enh
  bcl := by rw [hx.setup.bcl]; exact h.bcl
  bcr := by rw [hx.setup.bcr]; exact h.bcr
  pts := by rw [hx.setup.basis]; exact h.pts
  ns := by rw [hx.setup.basis]; exact h.ns

/-- With recognised boundary names every column is filled from an interior one, of the same field. -/
lemma Ready.bcCol (h : Ready γ name s) {c : ℕ} (hc : c < (s.NE + 2) * 3) :
    3 ≤ s.bcCol c ∧ s.bcCol c < (s.NE + 1) * 3 ∧ s.bcCol c % 3 = c % 3 := by
  have hE := h.wf.NE
  unfold Sol.bcCol
  rw [h.NF]
  split_ifs with a1 a2 a3 a4 a5 a6
  all_goals first | omega | skip
  · exact absurd h.bcl (by tauto)
  · exact absurd h.bcr (by tauto)

lemma bcCol_like (hx : Like x s) (c : ℕ) : x.bcCol c = s.bcCol c := by
  unfold Sol.bcCol
  rw [hx.setup.NF, hx.setup.NE, hx.setup.bcl, hx.setup.bcr]

lemma bc_same (h : Ready γ name s) (hx : Like x s) {u : Arr Num} (hu : Same u x.u) : Same (bc s u) x.applyBc.u := by
  have hr := h.like hx
  have hc : u.cols = (s.NE + 2) * s.NF := by rw [hu.cols, hx.cols]; exact h.wf.cols
  rw [bc_val s u h.wf.NF h.wf.NE hc, applyBc_eq x hr.wf.NF hr.wf.NE hr.wf.cols]
  refine ⟨hu.rows, hu.cols, fun r hr' c hc' => ?_⟩
  show u.val r (s.bcCol c) = num (x.u.val r (x.bcCol c))
  rw [bcCol_like hx]
  refine hu.val r hr' _ ?_
  have hc2 : c < x.u.cols := hc'
  rw [← hu.cols, hc] at hc2 ⊢
  exact bcCol_lt s h.wf.NE hc2

/-! ### Interleaved arrays -/

lemma ofStates_rho (len : ℕ) (f : ℕ → St) (i : ℕ) : (ofStates len f).val (i * 3) = (f i).rho := by
  unfold ofStates interleave3; simp

lemma ofStates_m (len : ℕ) (f : ℕ → St) (i : ℕ) : (ofStates len f).val (i * 3 + 1) = (f i).m := by
  unfold ofStates interleave3
  simp only
  rw [if_neg (by omega), if_pos (by omega), show (i * 3 + 1) / 3 = i by omega]

lemma ofStates_nan {len : ℕ} {f : ℕ → St} {c : ℕ} (h : f (c / 3) = nanSt) : (ofStates len f).val c = nan := by
  unfold ofStates interleave3
  simp only
  split_ifs <;> rw [h] <;> rfl

lemma ofStates_num {len len' : ℕ} {f : ℕ → St} {g : ℕ → Euler.St} {c : ℕ} (h : f (c / 3) = liftSt (g (c / 3))) :
    (ofStates len f).val c = num ((Euler.ofStates len' g).val c) := by
  unfold ofStates Euler.ofStates interleave3
  simp only
  split_ifs <;> rw [h] <;> rfl

lemma stateAt_lift {v : ℕ → Num} {w : ℕ → ℝ} {i N : ℕ} (hi : i < N) (h : ∀ c < N * 3, v c = num (w c)) :
    stateAt v i = liftSt (Euler.stateAt w i) := by
  unfold stateAt Euler.stateAt liftSt
  rw [h _ (by omega), h _ (by omega), h _ (by omega)]

open Classical in
lemma real_riemann (hn : name ≠ "godunov") (ul ur : Vec ℝ) :
    (Euler.physics γ name).riemann ul ur =
      if ∃ i < (ul.len + 2) / 3, ¬ SolverReal γ name (Euler.stateAt ul.val i) (Euler.stateAt ur.val i) then .error .notReal
      else .ok (Euler.ofStates ul.len fun i => realFlux γ name (Euler.stateAt ul.val i) (Euler.stateAt ur.val i)) := by
  unfold Euler.physics SolverReal realFlux
  simp only
  by_cases h : name = "rusanov"
  · simp only [if_pos h]
    rfl
  · simp only [if_neg h, if_neg hn]
    rfl

/-! ### The residual -/

/-- The states on the two sides of interface `i` and the solver's flux, with NaN. -/
noncomputable def faceFlux (γ : ℝ) (name : String) (s : Sol ℝ) (u : Arr Num) (i : ℕ) : St :=
  solver1 γ name (stateAt (fun c => (mdot s.basis.psi (bc s u)).val 1 c) i) (stateAt (fun c => (mdot s.basis.psi (bc s u)).val 0 (3 + c)) i)

lemma residual_shape (u : Arr Num) : (residual γ name s u).rows = s.basis.dphiW.rows ∧ (residual γ name s u).cols = (bc s u).cols := ⟨rfl, rfl⟩

lemma residual_inside (h : Ready γ name s) {u : Arr Num} (hc : u.cols = (s.NE + 2) * 3) (r : ℕ) {c : ℕ} (h1 : 3 ≤ c) (h2 : c < (s.NE + 1) * 3) :
    (residual γ name s u).val r c =
      ((mdot s.basis.dphiW (interiorFlux γ (mdot s.basis.phi (bc s u)))).val r c -
        (if r % 2 = 0 then (ofStates ((s.NE + 1) * 3) (faceFlux γ name s u)).val c - (ofStates ((s.NE + 1) * 3) (faceFlux γ name s u)).val (c - 3)
         else (ofStates ((s.NE + 1) * 3) (faceFlux γ name s u)).val (c - 3) + (ofStates ((s.NE + 1) * 3) (faceFlux γ name s u)).val c)) *
        num (s.scaledMinv.val r) := by
  have hc' : u.cols = (s.NE + 2) * s.NF := by rw [h.NF]; exact hc
  have hbc : (bc s u).cols = (s.NE + 2) * 3 := by rw [bc_val s u h.wf.NF h.wf.NE hc']; exact hc
  have hN := h.NF
  unfold residual addFaces edgeFlux
  simp only
  have e1 : pyIdx (mdot s.basis.dphiW (interiorFlux γ (mdot s.basis.phi (bc s u)))).cols s.NF = 3 := by
    show pyIdx (bc s u).cols s.NF = 3
    rw [hN]; exact pyIdx_nat _ 3 (by omega)
  have e2 : pyIdx (mdot s.basis.dphiW (interiorFlux γ (mdot s.basis.phi (bc s u)))).cols (-(s.NF : ℤ)) = (s.NE + 1) * 3 := by
    show pyIdx (bc s u).cols (-(s.NF : ℤ)) = _
    rw [hN, pyIdx_neg _ 3 (by norm_num) (by omega)]; omega
  rw [e1, e2, if_pos ⟨h1, h2⟩]
  have hlen : ((mdot s.basis.psi (bc s u)).row 1).slice 0 (-(s.NF : ℤ)) = ⟨(s.NE + 1) * 3, fun c => (mdot s.basis.psi (bc s u)).val 1 c⟩ := by
    unfold Vec.slice Arr.row
    simp only
    have e3 : pyIdx (mdot s.basis.psi (bc s u)).cols 0 = 0 := by
      have := pyIdx_nat (mdot s.basis.psi (bc s u)).cols 0 (by omega)
      simpa using this
    have e4 : pyIdx (mdot s.basis.psi (bc s u)).cols (-(s.NF : ℤ)) = (s.NE + 1) * 3 := by
      show pyIdx (bc s u).cols (-(s.NF : ℤ)) = _
      rw [hN, pyIdx_neg _ 3 (by norm_num) (by omega)]; omega
    rw [e3, e4]
    simp
  have hur : (((mdot s.basis.psi (bc s u)).row 0).slice s.NF (mdot s.basis.psi (bc s u)).cols).val = fun c => (mdot s.basis.psi (bc s u)).val 0 (3 + c) := by
    unfold Vec.slice Arr.row
    simp only
    have e3 : pyIdx (mdot s.basis.psi (bc s u)).cols s.NF = 3 := by
      show pyIdx (bc s u).cols s.NF = 3
      rw [hN]; exact pyIdx_nat _ 3 (by omega)
    rw [e3]
  have hq : riemann γ name (((mdot s.basis.psi (bc s u)).row 1).slice 0 (-(s.NF : ℤ))) (((mdot s.basis.psi (bc s u)).row 0).slice s.NF (mdot s.basis.psi (bc s u)).cols)
      = ofStates ((s.NE + 1) * 3) (faceFlux γ name s u) := by
    unfold riemann
    rw [hlen, hur]
    rfl
  rw [hq]
  have hl : (ofStates ((s.NE + 1) * 3) (faceFlux γ name s u)).len = (s.NE + 1) * 3 := rfl
  unfold Vec.slice
  simp only [hl]
  have e5 : pyIdx ((s.NE + 1) * 3) (s.NF : ℤ) = 3 := by rw [hN]; exact pyIdx_nat _ 3 (by omega)
  have e6 : pyIdx ((s.NE + 1) * 3) 0 = 0 := by simpa using pyIdx_nat ((s.NE + 1) * 3) 0 (by omega)
  rw [e5, e6, show 3 + (c - 3) = c by omega, show 0 + (c - 3) = c - 3 by omega]

lemma residual_ghost (h : Ready γ name s) {u : Arr Num} (hc : u.cols = (s.NE + 2) * 3) (r : ℕ) {c : ℕ} (h1 : ¬ (3 ≤ c ∧ c < (s.NE + 1) * 3)) :
    (residual γ name s u).val r c =
      (mdot s.basis.dphiW (interiorFlux γ (mdot s.basis.phi (bc s u)))).val r c * num (s.scaledMinv.val r) := by
  have hc' : u.cols = (s.NE + 2) * s.NF := by rw [h.NF]; exact hc
  have hbc : (bc s u).cols = (s.NE + 2) * 3 := by rw [bc_val s u h.wf.NF h.wf.NE hc']; exact hc
  have hN := h.NF
  unfold residual addFaces
  simp only
  have e1 : pyIdx (mdot s.basis.dphiW (interiorFlux γ (mdot s.basis.phi (bc s u)))).cols s.NF = 3 := by
    show pyIdx (bc s u).cols s.NF = 3
    rw [hN]; exact pyIdx_nat _ 3 (by omega)
  have e2 : pyIdx (mdot s.basis.dphiW (interiorFlux γ (mdot s.basis.phi (bc s u)))).cols (-(s.NF : ℤ)) = (s.NE + 1) * 3 := by
    show pyIdx (bc s u).cols (-(s.NF : ℤ)) = _
    rw [hN, pyIdx_neg _ 3 (by norm_num) (by omega)]; omega
  rw [e1, e2, if_neg h1]

/-- The states of the real solution on the two sides of interface `i`. -/
noncomputable def leftSt (x : Sol ℝ) (i : ℕ) : Euler.St := Euler.stateAt (fun c => (x.basis.psi.dot x.applyBc.u).val 1 c) i
/-- See `leftSt`. -/
noncomputable def rightSt (x : Sol ℝ) (i : ℕ) : Euler.St := Euler.stateAt (fun c => (x.basis.psi.dot x.applyBc.u).val 0 (3 + c)) i

/-- The interface fluxes of the real solution. -/
noncomputable def realFaces (γ : ℝ) (name : String) (x : Sol ℝ) : Vec ℝ :=
  Euler.ofStates ((x.NE + 1) * 3) fun i => realFlux γ name (leftSt x i) (rightSt x i)

/-- The volume part of the real residual. -/
noncomputable def realVol (γ : ℝ) (x : Sol ℝ) : Arr ℝ := x.basis.dphiW.dot (Euler.interiorFlux γ (x.basis.phi.dot x.applyBc.u))

lemma real_residual (h : Ready γ name x) :
    ((∃ i < x.NE + 1, ¬ SolverReal γ name (leftSt x i) (rightSt x i)) → Dg1d.residual x = .error .notReal) ∧
    ((∀ i < x.NE + 1, SolverReal γ name (leftSt x i) (rightSt x i)) →
      ∃ F : Arr ℝ, Dg1d.residual x = .ok (x.applyBc, F) ∧ F.rows = x.basis.dphiW.rows ∧ F.cols = x.u.cols ∧
        (∀ r c, 3 ≤ c → c < (x.NE + 1) * 3 → F.val r c = ((realVol γ x).val r c -
          (if r % 2 = 0 then (realFaces γ name x).val c - (realFaces γ name x).val (c - 3)
           else (realFaces γ name x).val (c - 3) + (realFaces γ name x).val c)) * x.scaledMinv.val r) ∧
        (∀ r c, ¬ (3 ≤ c ∧ c < (x.NE + 1) * 3) → F.val r c = (realVol γ x).val r c * x.scaledMinv.val r)) := by
  classical
  have hN := h.NF
  have hsh := applyBc_shape x
  have hset := applyBc_setup x
  have hcols : x.applyBc.u.cols = (x.NE + 2) * 3 := by rw [hsh.2, h.wf.cols, hN]
  have e0 : pyIdx x.applyBc.u.cols 0 = 0 := by simpa using pyIdx_nat x.applyBc.u.cols 0 (by omega)
  have e1 : pyIdx x.applyBc.u.cols ((3 : ℕ) : ℤ) = 3 := pyIdx_nat _ 3 (by omega)
  have e2 : pyIdx x.applyBc.u.cols (-((3 : ℕ) : ℤ)) = (x.NE + 1) * 3 := by
    rw [pyIdx_neg _ 3 (by norm_num) (by omega)]; omega
  have hlen : ((x.basis.psi.dot x.applyBc.u).row 1).slice 0 (-((3 : ℕ) : ℤ)) = ⟨(x.NE + 1) * 3, fun c => (x.basis.psi.dot x.applyBc.u).val 1 c⟩ := by
    unfold Vec.slice Arr.row
    simp only [show (x.basis.psi.dot x.applyBc.u).cols = x.applyBc.u.cols from rfl]
    rw [e0, e2]
    simp
  have hur : (((x.basis.psi.dot x.applyBc.u).row 0).slice ((3 : ℕ) : ℤ) (x.basis.psi.dot x.applyBc.u).cols).val =
      fun c => (x.basis.psi.dot x.applyBc.u).val 0 (3 + c) := by
    unfold Vec.slice Arr.row
    simp only [show (x.basis.psi.dot x.applyBc.u).cols = x.applyBc.u.cols from rfl]
    rw [e1]
  have hres : Dg1d.residual x =
      match (Euler.physics γ name).riemann (((x.basis.psi.dot x.applyBc.u).row 1).slice 0 (-((3 : ℕ) : ℤ)))
        (((x.basis.psi.dot x.applyBc.u).row 0).slice ((3 : ℕ) : ℤ) (x.basis.psi.dot x.applyBc.u).cols) with
      | .error e => .error e
      | .ok q => .ok (x.applyBc, inverseMassMatrixMultiply (addInteriorFaceFluxes (realVol γ x) q 3) x.scaledMinv) := by
    unfold Dg1d.residual Sol.evaluateFaces interfaceFluxes
    simp only
    rw [hset.enhance, h.enh, hset.kw, h.kw, hset.NF, hN, hset.scaledMinv]
    simp only [Sol.collocateFaces, Sol.collocate, integrateInteriorFlux, hset.basis]
    cases (Euler.physics γ name).riemann (((x.basis.psi.dot x.applyBc.u).row 1).slice 0 (-((3 : ℕ) : ℤ)))
        (((x.basis.psi.dot x.applyBc.u).row 0).slice ((3 : ℕ) : ℤ) (x.basis.psi.dot x.applyBc.u).cols) <;> rfl
  rw [real_riemann h.solver, hlen, hur] at hres
  simp only at hres
  rw [show ((x.NE + 1) * 3 + 2) / 3 = x.NE + 1 by omega] at hres
  change Dg1d.residual x = match (if ∃ i < x.NE + 1, ¬ SolverReal γ name (leftSt x i) (rightSt x i) then .error .notReal
      else .ok (realFaces γ name x) : Except PyErr (Vec ℝ)) with
    | .error e => .error e
    | .ok q => .ok (x.applyBc, inverseMassMatrixMultiply (addInteriorFaceFluxes (realVol γ x) q 3) x.scaledMinv) at hres
  constructor
  · intro hbad
    rw [hres, if_pos hbad]
  · intro hgood
    rw [if_neg (by push Not; exact hgood)] at hres
    refine ⟨_, hres, rfl, hsh.2, ?_, ?_⟩
    · intro r c h1 h2
      unfold inverseMassMatrixMultiply addInteriorFaceFluxes edgeFluxMatrix
      simp only [show (realVol γ x).cols = x.applyBc.u.cols from rfl]
      rw [e1, e2, if_pos ⟨h1, h2⟩]
      unfold Vec.slice
      have hl : (realFaces γ name x).len = (x.NE + 1) * 3 := rfl
      simp only [hl]
      have e5 : pyIdx ((x.NE + 1) * 3) ((3 : ℕ) : ℤ) = 3 := pyIdx_nat _ 3 (by omega)
      have e6 : pyIdx ((x.NE + 1) * 3) 0 = 0 := by simpa using pyIdx_nat ((x.NE + 1) * 3) 0 (by omega)
      rw [e5, e6, show 3 + (c - 3) = c by omega, show 0 + (c - 3) = c - 3 by omega]
    · intro r c h1
      unfold inverseMassMatrixMultiply addInteriorFaceFluxes
      simp only [show (realVol γ x).cols = x.applyBc.u.cols from rfl]
      rw [e1, e2, if_neg h1]

lemma faces_same (h : Ready γ name s) (hx : Like x s) {u : Arr Num} (hu : Same u x.u) (r : ℕ) {c : ℕ} (hc : c < (s.NE + 2) * 3) :
    (mdot s.basis.psi (bc s u)).val r c = num ((x.basis.psi.dot x.applyBc.u).val r c) := by
  have hb := bc_same h hx hu
  rw [hx.setup.basis]
  refine fold_num fun k hk => hb.val k ?_ c ?_
  · rw [(applyBc_shape x).1, hx.rows, h.wf.rows, ← h.wf.psi]; exact hk
  · rw [(applyBc_shape x).2, hx.cols, h.wf.cols, h.NF]; exact hc

lemma faceFlux_states (h : Ready γ name s) (hx : Like x s) {u : Arr Num} (hu : Same u x.u) {i : ℕ} (hi : i < s.NE + 1) :
    faceFlux γ name s u i = solver1 γ name (liftSt (leftSt x i)) (liftSt (rightSt x i)) := by
  unfold faceFlux leftSt rightSt
  rw [stateAt_lift hi fun c hc => faces_same h hx hu 1 (by omega), stateAt_lift hi fun c hc => faces_same h hx hu 0 (by omega)]

lemma points_same (h : Ready γ name s) (hx : Like x s) {u : Arr Num} (hu : Same u x.u) :
    Same (mdot s.basis.phi (bc s u)) (x.basis.phi.dot x.applyBc.u) := by
  rw [hx.setup.basis]
  refine mdot_same ?_ (bc_same h hx hu)
  rw [(applyBc_shape x).1, hx.rows, h.wf.rows, h.wf.phi.2]

lemma vacuum_iff (x : Sol ℝ) (hc : x.u.cols = (x.NE + 2) * 3) : Euler.VacuumPoint x ↔
    ∃ g < x.basis.phi.rows, ∃ i < x.NE + 2, (Euler.stateAt ((x.basis.phi.dot x.applyBc.u).val g) i).rho = 0 := by
  unfold Euler.VacuumPoint
  have e : x.applyBc.collocate = x.basis.phi.dot x.applyBc.u := by
    unfold Sol.collocate
    rw [(applyBc_setup x).basis]
  rw [e]
  have e2 : ((x.basis.phi.dot x.applyBc.u).cols + 2) / 3 = x.NE + 2 := by
    show (x.applyBc.u.cols + 2) / 3 = _
    rw [(applyBc_shape x).2, hc]; omega
  rw [e2]
  rfl

/-- Without NaN the two residuals agree. -/
lemma residual_same (h : Ready γ name s) (hx : Like x s) {u : Arr Num} (hu : Same u x.u) {y : Sol ℝ × Arr ℝ}
    (hy : Euler.checkedResidual x = .ok y) : y.1 = x.applyBc ∧ Same (residual γ name s u) y.2 := by
  have hr := h.like hx
  have hxc : x.u.cols = (x.NE + 2) * 3 := by rw [hr.wf.cols, hr.NF]
  have huc : u.cols = (s.NE + 2) * 3 := by rw [hu.cols, hx.cols, h.wf.cols, h.NF]
  have hNE : x.NE = s.NE := hx.setup.NE
  unfold Euler.checkedResidual at hy
  split_ifs at hy with hv
  rw [vacuum_iff x hxc] at hv
  push Not at hv
  obtain ⟨r1, r2⟩ := real_residual hr
  have hgood : ∀ i < x.NE + 1, SolverReal γ name (leftSt x i) (rightSt x i) := by
    by_contra hc
    push Not at hc
    rw [r1 hc] at hy
    cases hy
  obtain ⟨F, hF, hrow, hcol, hin, hgh⟩ := r2 hgood
  rw [hF] at hy
  cases hy
  refine ⟨rfl, ?_, ?_, ?_⟩
  · show s.basis.dphiW.rows = F.rows
    rw [hrow, hx.setup.basis]
  · show (bc s u).cols = F.cols
    rw [(bc_same h hx hu).cols, (applyBc_shape x).2, hcol]
  · intro r hr' c hc
    rw [hcol, hxc, hNE] at hc
    have hpts := points_same h hx hu
    have hvol : (mdot s.basis.dphiW (interiorFlux γ (mdot s.basis.phi (bc s u)))).val r c = num ((realVol γ x).val r c) := by
      unfold realVol
      rw [hx.setup.basis]
      refine fold_num fun g hg => ?_
      rw [h.wf.dphi.2, ← h.wf.phi.1] at hg
      show (ofStates (bc s u).cols fun i => flux1 γ (stateAt ((mdot s.basis.phi (bc s u)).val g) i)).val c =
        num ((Euler.ofStates x.applyBc.u.cols fun i => Euler.flux1 γ (Euler.stateAt ((s.basis.phi.dot x.applyBc.u).val g) i)).val c)
      rw [← hx.setup.basis]
      refine ofStates_num ?_
      have hst : stateAt ((mdot s.basis.phi (bc s u)).val g) (c / 3) = liftSt (Euler.stateAt ((x.basis.phi.dot x.applyBc.u).val g) (c / 3)) := by
        refine stateAt_lift (N := s.NE + 2) (by omega) fun c' hc' => hpts.val g ?_ c' ?_
        · show g < x.basis.phi.rows
          rw [hx.setup.basis]; exact hg
        · show c' < x.applyBc.u.cols
          rw [(applyBc_shape x).2, hxc, hNE]; exact hc'
      rw [← hx.setup.basis] at hst
      rw [hst, flux1_lift (hv g (by rw [hx.setup.basis]; exact hg) (c / 3) (by omega))]
    by_cases hi : 3 ≤ c ∧ c < (s.NE + 1) * 3
    · rw [residual_inside h huc r hi.1 hi.2, hin r c hi.1 (by rw [hNE]; exact hi.2), hvol]
      have hface : ∀ c' < (s.NE + 1) * 3, (ofStates ((s.NE + 1) * 3) (faceFlux γ name s u)).val c' = num ((realFaces γ name x).val c') := by
        intro c' hc'
        unfold realFaces
        rw [hNE]
        refine ofStates_num ?_
        rw [faceFlux_states h hx hu (by omega), solver_real (hgood _ (by omega))]
      rw [hface c hi.2, hface (c - 3) (by omega), hx.setup.scaledMinv]
      split_ifs <;> simp
    · rw [residual_ghost h huc r hi, hgh r c (by rw [hNE]; exact hi), hvol, hx.setup.scaledMinv]
      simp

/-- A cell average of an interior cell is NaN. -/
def BadCell (s : Sol ℝ) (u : Arr Num) (e : ℕ) : Prop := 1 ≤ e ∧ e ≤ s.NE ∧ ∃ f < 3, u.val 0 (e * 3 + f) = nan

lemma vol_nan {ug : Arr Num} {e g : ℕ} (hg : g < s.basis.dphiW.cols) (hb : (stateAt (ug.val g) e).Bad) (r : ℕ) :
    (mdot s.basis.dphiW (interiorFlux γ ug)).val r (e * 3 + 1) = nan := by
  refine fold_nan ⟨g, hg, ?_⟩
  show (ofStates ug.cols fun i => flux1 γ (stateAt (ug.val g) i)).val (e * 3 + 1) = nan
  rw [ofStates_m]
  exact bad_flux hb

lemma bad_of_vol (h : Ready γ name s) {u : Arr Num} (hc : u.cols = (s.NE + 2) * 3) {e g : ℕ} (h1 : 1 ≤ e) (h2 : e ≤ s.NE) (hg : g < s.basis.NG)
    (hb : (stateAt ((mdot s.basis.phi (bc s u)).val g) e).Bad) : BadCell s (residual γ name s u) e := by
  refine ⟨h1, h2, 1, by norm_num, ?_⟩
  rw [residual_inside h hc 0 (by omega) (by omega), vol_nan (by rw [h.wf.dphi.2]; exact hg) hb]
  simp

/-- NaN in a cell average is NaN in the residual of that cell. -/
lemma residual_keeps (h : Ready γ name s) {u : Arr Num} (hc : u.cols = (s.NE + 2) * 3) {e : ℕ} (hb : BadCell s u e) :
    BadCell s (residual γ name s u) e := by
  obtain ⟨h1, h2, f, hf, hn⟩ := hb
  refine bad_of_vol h hc h1 h2 h.pts ?_
  have hcol : ∀ r, (mdot s.basis.phi (bc s u)).val r (e * 3 + f) = nan := by
    intro r
    refine fold_nan ⟨0, by rw [h.wf.phi.2]; exact h.ns, ?_⟩
    rw [bc_val s u h.wf.NF h.wf.NE (by rw [hc, h.NF])]
    show u.val 0 (s.bcCol (e * 3 + f)) = nan
    rw [bcCol_inside s (by rw [h.NF]; omega) (by rw [h.NF]; omega)]
    exact hn
  have := hcol 0
  unfold St.Bad stateAt
  interval_cases f
  · left; rw [show 0 + 3 * e = e * 3 + 0 by omega]; exact this
  · right; right; left; rw [show 1 + 3 * e = e * 3 + 1 by omega]; exact this
  · right; right; right; rw [show 2 + 3 * e = e * 3 + 2 by omega]; exact this

/-- Where `Model/Dg.lean` stops with `notReal`, a cell average of the residual is NaN. -/
lemma residual_nan (h : Ready γ name s) (hx : Like x s) {u : Arr Num} (hu : Same u x.u) {err : PyErr}
    (hy : Euler.checkedResidual x = .error err) : err = .notReal ∧ ∃ e, BadCell s (residual γ name s u) e := by
  have hr := h.like hx
  have hxc : x.u.cols = (x.NE + 2) * 3 := by rw [hr.wf.cols, hr.NF]
  have huc : u.cols = (s.NE + 2) * 3 := by rw [hu.cols, hx.cols, h.wf.cols, h.NF]
  have hNE : x.NE = s.NE := hx.setup.NE
  have hE := h.wf.NE
  unfold Euler.checkedResidual at hy
  split_ifs at hy with hv
  · refine ⟨by cases hy; rfl, ?_⟩
    rw [vacuum_iff x hxc] at hv
    obtain ⟨g, hg, i, hi, h0⟩ := hv
    rw [hx.setup.basis] at hg
    obtain ⟨b1, b2, b3⟩ := h.bcCol (show 0 + 3 * i < (s.NE + 2) * 3 by omega)
    have hm : s.bcCol (0 + 3 * i) = s.bcCol (0 + 3 * i) / 3 * 3 := by omega
    refine ⟨s.bcCol (0 + 3 * i) / 3, bad_of_vol h huc (by omega) (by omega) (by rw [← h.wf.phi.1]; exact hg) ?_⟩
    right; left
    have hpts := points_same h hx hu
    have key : ∀ c, (mdot s.basis.phi (bc s u)).val g c = (List.range s.basis.phi.cols).foldl (fun acc k => acc + num (s.basis.phi.val g k) * u.val k (s.bcCol c)) (num 0) := by
      intro c
      rw [bc_val s u h.wf.NF h.wf.NE (by rw [huc, h.NF])]
      rfl
    have h00 : (mdot s.basis.phi (bc s u)).val g (0 + 3 * i) = num 0 := by
      rw [hpts.val g (by show g < x.basis.phi.rows; rw [hx.setup.basis]; exact hg) _ (by
        show 0 + 3 * i < x.applyBc.u.cols
        rw [(applyBc_shape x).2, hxc]; omega)]
      rw [show (x.basis.phi.dot x.applyBc.u).val g (0 + 3 * i) = 0 from h0]
    show (mdot s.basis.phi (bc s u)).val g (0 + 3 * (s.bcCol (0 + 3 * i) / 3)) = num 0
    rw [key, show 0 + 3 * (s.bcCol (0 + 3 * i) / 3) = s.bcCol (0 + 3 * i) by omega,
      bcCol_inside s (by rw [h.NF]; exact b1) (by rw [h.NF]; exact b2), ← key]
    exact h00
  · obtain ⟨r1, r2⟩ := real_residual hr
    have hbad : ∃ i < x.NE + 1, ¬ SolverReal γ name (leftSt x i) (rightSt x i) := by
      by_contra hc
      push Not at hc
      obtain ⟨F, hF, -⟩ := r2 hc
      rw [hF] at hy
      cases hy
    have herr := r1 hbad
    rw [herr] at hy
    refine ⟨by cases hy; rfl, ?_⟩
    obtain ⟨i, hi, hs⟩ := hbad
    rw [hNE] at hi
    have hq : faceFlux γ name s u i = nanSt := by
      rw [faceFlux_states h hx hu hi]
      refine solver_nan ?_
      rintro ⟨L, R, hL, hR, hreal⟩
      refine hs ?_
      have inj : ∀ a b : Euler.St, liftSt a = liftSt b → a = b := by
        rintro ⟨a1, a2, a3⟩ ⟨b1, b2, b3⟩ hab
        unfold liftSt at hab
        simp only [St.mk.injEq, num.injEq] at hab
        obtain ⟨rfl, rfl, rfl⟩ := hab
        rfl
      rw [inj _ _ hL, inj _ _ hR]
      exact hreal
    have hval : ∀ f < 3, (ofStates ((s.NE + 1) * 3) (faceFlux γ name s u)).val (i * 3 + f) = nan := by
      intro f hf
      exact ofStates_nan (by rw [show (i * 3 + f) / 3 = i by omega]; exact hq)
    by_cases hi0 : i = 0
    · refine ⟨1, le_rfl, hE, 0, by norm_num, ?_⟩
      rw [residual_inside h huc 0 (by omega) (by omega), show 1 * 3 + 0 - 3 = i * 3 + 0 by omega, hval 0 (by norm_num)]
      simp
    · refine ⟨i, by omega, by omega, 0, by norm_num, ?_⟩
      rw [residual_inside h huc 0 (by omega) (by omega), hval 0 (by norm_num)]
      simp

end Dg1d.Nan
