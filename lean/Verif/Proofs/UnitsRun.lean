import Verif.Proofs.Units

/-! Helper lemmas: the residual, the limiter and the time loop in other units. -/

open Dg1d.Spec

namespace Dg1d
variable {γ : ℝ} {name : String} (U : Units)

/-- An Euler solution: three fields, stored cell after cell. -/
structure EulerShape (γ : ℝ) (name : String) (s : Sol ℝ) : Prop where
  kw : s.kw = Euler.physics γ name
  NF : s.NF = 3
  cols : s.u.cols % 3 = 0

lemma EulerShape.withU {s : Sol ℝ} (h : EulerShape γ name s) {A : Arr ℝ} (hA : A.cols % 3 = 0) : EulerShape γ name { s with u := A } :=
  ⟨h.kw, h.NF, hA⟩

lemma EulerShape.withT {s : Sol ℝ} (h : EulerShape γ name s) (t : ℝ) (n : ℕ) : EulerShape γ name { s with t := t, n := n } :=
  ⟨h.kw, h.NF, h.cols⟩



lemma EulerShape.left {s : Sol ℝ} (h : EulerShape γ name s) : EulerShape γ name s.applyBcLeft := by
  unfold Sol.applyBcLeft
  split
  · exact h.withU h.cols
  · split
    · exact h.withU h.cols
    · exact h

lemma EulerShape.right {s : Sol ℝ} (h : EulerShape γ name s) : EulerShape γ name s.applyBcRight := by
  unfold Sol.applyBcRight
  split
  · exact h.withU h.cols
  · split
    · exact h.withU h.cols
    · exact h

lemma EulerShape.applyBc {s : Sol ℝ} (h : EulerShape γ name s) : EulerShape γ name s.applyBc := h.left.right

lemma unit_applyBcLeft {s : Sol ℝ} (h : EulerShape γ name s) : (U.sol s).applyBcLeft = U.sol s.applyBcLeft := by
  unfold Sol.applyBcLeft
  rw [show (U.sol s).bcl = s.bcl from rfl, show (U.sol s).NF = s.NF from rfl, sol_u, h.NF]
  rw [arr_colSlice U _ h.cols _ (by norm_num), arr_colSlice U _ h.cols _ (by norm_num), arr_setColSlice U _ _ h.cols _ (by norm_num),
    arr_setColSlice U _ _ h.cols _ (by norm_num)]
  split
  · rfl
  · split <;> rfl

lemma unit_applyBcRight {s : Sol ℝ} (h : EulerShape γ name s) : (U.sol s).applyBcRight = U.sol s.applyBcRight := by
  unfold Sol.applyBcRight
  rw [show (U.sol s).bcr = s.bcr from rfl, show (U.sol s).NF = s.NF from rfl, sol_u, h.NF]
  rw [arr_colSlice U _ h.cols _ (by norm_num), arr_colSlice U _ h.cols _ (by norm_num), show ((U.arr s.u).cols : ℤ) = s.u.cols from rfl,
    arr_setColSlice U _ _ h.cols _ (by norm_num),
    arr_setColSlice U _ _ h.cols _ (by norm_num)]
  split
  · rfl
  · split <;> rfl

lemma unit_applyBc {s : Sol ℝ} (h : EulerShape γ name s) : (U.sol s).applyBc = U.sol s.applyBc := by
  unfold Sol.applyBc
  rw [unit_applyBcLeft U h, unit_applyBcRight U h.left]

lemma unit_faceArr (en : Enhance ℝ) (A : Arr ℝ) (hc : A.cols % 3 = 0) : en.faceArr (U.arr A) 3 = U.arr (en.faceArr A 3) := by
  unfold Enhance.faceArr
  rw [arr_colSlice U _ hc _ (by norm_num), show ((U.arr A).cols : ℤ) = A.cols from rfl, arr_colSlice U _ hc _ (by norm_num)]
  simp only [dotArr_arr]
  unfold Spec.Units.arr
  simp only [Arr.mk.injEq, true_and]
  funext r c
  split
  · split
    · rename_i hle; rw [colF_sub U c (pyIdx_mod hc (by norm_num)) hle]; ring
    · ring
  · split
    · ring
    · ring

lemma unit_faces {s : Sol ℝ} (h : EulerShape γ name s) : (U.sol s).evaluateFaces = s.evaluateFaces.map U.arr := by
  unfold Sol.evaluateFaces
  rw [show (U.sol s).enhance = s.enhance from rfl]
  split
  · unfold Sol.collocateFaces
    rw [sol_u, arr_dot]; rfl
  · unfold Enhance.faceValue
    rw [sol_u, show (U.sol s).NF = 3 from h.NF, h.NF, unit_faceArr U _ _ h.cols, show (U.arr s.u).rows = s.u.rows from rfl]
    split <;> rfl

lemma faces_cols {s : Sol ℝ} (h : EulerShape γ name s) {uf : Arr ℝ} (he : s.evaluateFaces = .ok uf) : uf.cols % 3 = 0 := by
  unfold Sol.evaluateFaces at he
  split at he
  · obtain rfl := Except.ok.inj he; exact h.cols
  · unfold Enhance.faceValue at he
    split at he
    · obtain rfl := Except.ok.inj he; exact h.cols
    · exact absurd he (by simp)

lemma riemann_len (hn : name ≠ "godunov") {ul ur q : Vec ℝ} (h : (Euler.physics γ name).riemann ul ur = .ok q) : q.len = ul.len := by
  unfold Euler.physics at h
  simp only [hn, if_false] at h
  split at h
  · unfold Euler.rusanov at h
    split at h
    · exact absurd h (by simp)
    · obtain rfl := Except.ok.inj h; rfl
  · unfold Euler.roe at h
    split at h
    · exact absurd h (by simp)
    · obtain rfl := Except.ok.inj h; rfl

lemma unit_interface (hn : name ≠ "godunov") (uf : Arr ℝ) (hc : uf.cols % 3 = 0) :
    interfaceFluxes (Euler.physics γ name) (U.arr uf) 3 = (interfaceFluxes (Euler.physics γ name) uf 3).map U.fvec := by
  unfold interfaceFluxes
  rw [arr_row, arr_row, vec_slice U _ hc _ (by norm_num), show ((U.arr uf).cols : ℤ) = uf.cols from rfl, vec_slice U _ hc _ (by norm_num), Euler.unit_riemann U hn]

lemma interface_len (hn : name ≠ "godunov") {uf : Arr ℝ} (hc : uf.cols % 3 = 0) {q : Vec ℝ}
    (h : interfaceFluxes (Euler.physics γ name) uf 3 = .ok q) : q.len % 3 = 0 := by
  rw [riemann_len hn h]
  show (pyIdx uf.cols (-((3 : ℕ) : ℤ)) - pyIdx uf.cols 0) % 3 = 0
  have h1 := pyIdx_mod (n := uf.cols) (i := -((3 : ℕ) : ℤ)) hc (by norm_num)
  have h2 := pyIdx_mod (n := uf.cols) (i := 0) hc (by norm_num)
  omega

/-- A residual array in the new units. -/
noncomputable def Spec.Units.rarr (U : Units) (F : Arr ℝ) : Arr ℝ := (U.arr F).smul (1 / U.time)

lemma unit_tail (F : Arr ℝ) (q : Vec ℝ) (minv minv' : Vec ℝ) (hF : F.cols % 3 = 0) (hq : q.len % 3 = 0)
    (hm : minv' = ⟨minv.len, fun n => minv.val n / U.len⟩) :
    inverseMassMatrixMultiply (addInteriorFaceFluxes ((U.arr F).smul U.vel) (U.fvec q) 3) minv' =
      U.rarr (inverseMassMatrixMultiply (addInteriorFaceFluxes F q 3) minv) := by
  have hl := U.len_pos
  have ht := U.time_pos
  have hc : U.vel / U.len = 1 / U.time := by unfold Spec.Units.vel; field_simp
  subst hm
  have hedge : ∀ r c, edgeFluxMatrix (U.fvec q) 3 r c = U.vel * (U.colF c * edgeFluxMatrix q 3 r c) := by
    intro r c
    unfold edgeFluxMatrix Vec.slice Spec.Units.fvec
    simp only
    rw [colF_add U c (pyIdx_mod hq (by norm_num)), colF_add U c (pyIdx_mod hq (by norm_num))]
    split <;> ring
  unfold inverseMassMatrixMultiply addInteriorFaceFluxes Spec.Units.rarr
  simp only [hedge]
  unfold Spec.Units.arr Arr.smul
  simp only [Arr.mk.injEq, true_and]
  funext r c
  rw [← hc]
  split
  · rename_i h
    rw [colF_sub U c (pyIdx_mod hF (by norm_num)) h.1]; ring
  · ring

lemma unit_residual (hn : name ≠ "godunov") {s : Sol ℝ} (h : EulerShape γ name s) :
    residual (U.sol s) = (residual s).map fun r => (U.sol r.1, U.rarr r.2) := by
  unfold residual
  rw [unit_applyBc U h]
  have h' := h.applyBc
  generalize s.applyBc = v at h'
  simp only
  rw [unit_faces U h', show (U.sol v).kw = Euler.physics γ name from h'.kw, h'.kw, show (U.sol v).NF = 3 from h'.NF, h'.NF,
    show (U.sol v).basis = v.basis from rfl]
  have hcol : (U.sol v).collocate = U.arr v.collocate := arr_dot U _ _
  rw [hcol, show (Euler.physics γ name).interiorFlux = Euler.interiorFlux γ from rfl, Euler.unit_interiorFlux, arr_smul]
  cases hf : v.evaluateFaces with
  | error e => rfl
  | ok uf =>
    have hufc := faces_cols h' hf
    simp only [Except.map]
    rw [unit_interface U hn uf hufc]
    cases hq : interfaceFluxes (Euler.physics γ name) uf 3 with
    | error e => rfl
    | ok q =>
      simp only [Except.map]
      refine congrArg Except.ok (Prod.ext rfl ?_)
      simp only
      unfold integrateInteriorFlux
      rw [arr_dot]
      have hsm : U.arr (v.basis.dphiW.dot ((Euler.interiorFlux γ v.collocate).smul U.vel)) =
          (U.arr (v.basis.dphiW.dot (Euler.interiorFlux γ v.collocate))).smul U.vel := by
        unfold Spec.Units.arr Arr.dot Arr.smul
        simp only [Arr.mk.injEq, true_and]
        funext r c
        rw [Finset.mul_sum, Finset.mul_sum, Finset.mul_sum]
        exact Finset.sum_congr rfl fun k _ => by ring
      rw [hsm]
      exact unit_tail U _ _ _ _ h'.cols (interface_len hn hufc hq) rfl

lemma residual_shape {s : Sol ℝ} (h : EulerShape γ name s) {r : Sol ℝ × Arr ℝ} (hr : residual s = .ok r) : EulerShape γ name r.1 := by
  have h' := h.applyBc
  unfold residual at hr
  simp only at hr
  split at hr
  · exact absurd hr (by simp)
  · split at hr
    · exact absurd hr (by simp)
    · obtain rfl := Except.ok.inj hr; exact h'

/-! ### The limiter -/

lemma minmod_mul {c : ℝ} (hc : 0 < c) (a b : ℝ) : scalarMinmod (c * a) (c * b) = c * scalarMinmod a b := by
  unfold scalarMinmod
  have h1 : ∀ x y : ℝ, c * x ≤ c * y ↔ x ≤ y := fun x y => mul_le_mul_iff_right₀ hc
  have h2 : ∀ x : ℝ, c * x ≤ 0 ↔ x ≤ 0 := fun x => by rw [show (0 : ℝ) = c * 0 by ring, h1, mul_zero]
  simp only [List.insertionSort, List.foldr, List.orderedInsert]
  simp only [h2]
  split <;> simp only [List.orderedInsert, h1, h2] <;> split <;> (try split) <;> simp

lemma step_mul (lm : HrLimiter ℝ) (N : ℕ) {c : ℝ} (hc : 0 < c) (ac al ar alim : ℕ → ℝ) (m : ℕ) :
    lm.limitStep N (fun n => c * ac n) (fun n => c * al n) (fun n => c * ar n) (fun n => c * alim n) m =
      (c * (lm.limitStep N ac al ar alim m).1, c * (lm.limitStep N ac al ar alim m).2) := by
  unfold HrLimiter.limitStep
  simp only
  have hs : ∀ (S : Finset ℕ) (a b : ℕ → ℝ), ∑ n ∈ S, c * a n * b n = c * ∑ n ∈ S, a n * b n := fun S a b => by
    rw [Finset.mul_sum]; exact Finset.sum_congr rfl fun n _ => by ring
  simp only [hs]
  refine Prod.ext (by simp only; ring) ?_
  simp only
  rw [← minmod_mul hc]
  congr 1 <;> ring

lemma loop_mul (lm : HrLimiter ℝ) (N : ℕ) {c : ℝ} (hc : 0 < c) (ac al ar : ℕ → ℝ) (m : ℕ) (st : (ℕ → ℝ) × Option ℝ) :
    lm.limitLoop N (fun n => c * ac n) (fun n => c * al n) (fun n => c * ar n) m (fun n => c * st.1 n, st.2.map (c * ·)) =
      (fun n => c * (lm.limitLoop N ac al ar m st).1 n, (lm.limitLoop N ac al ar m st).2.map (c * ·)) := by
  induction m generalizing st with
  | zero => rfl
  | succ m ih =>
    unfold HrLimiter.limitLoop
    simp only
    rw [step_mul lm N hc]
    rw [← ih]
    congr 1
    refine Prod.ext ?_ rfl
    simp only
    funext n
    unfold Function.update
    simp only [eq_rec_constant, dite_eq_ite]
    split <;> rfl

/-- A vector multiplied by a number. -/
noncomputable def Vec.times (c : ℝ) (v : Vec ℝ) : Vec ℝ := ⟨v.len, fun i => c * v.val i⟩

lemma dotVec_times (A : Arr ℝ) (c : ℝ) (v : Vec ℝ) : A.dotVec (v.times c) = (A.dotVec v).times c := by
  unfold Arr.dotVec Vec.times
  simp only [Vec.mk.injEq, true_and]
  funext i
  rw [Finset.mul_sum]
  exact Finset.sum_congr rfl fun k _ => by ring

lemma hr_mul (lm : HrLimiter ℝ) {c : ℝ} (hc : 0 < c) (uc ul ur : Vec ℝ) :
    lm.hr (uc.times c) (ul.times c) (ur.times c) = (lm.hr uc ul ur).map (Vec.times c) := by
  unfold HrLimiter.hr
  rw [dotVec_times, dotVec_times, dotVec_times]
  have hmono : ∀ ac al ar : Vec ℝ, lm.limitMonomial (ac.times c) (al.times c) (ar.times c) = (lm.limitMonomial ac al ar).map (Vec.times c) := by
    intro ac al ar
    unfold HrLimiter.limitMonomial
    have := loop_mul lm (ac.len - 1) hc ac.val al.val ar.val (ac.len - 1) (fun _ => 0, none)
    simp only [mul_zero, Option.map_none] at this
    unfold Vec.times
    simp only
    rw [this]
    generalize lm.limitLoop (ac.len - 1) ac.val al.val ar.val (ac.len - 1) (fun _ => 0, none) = R
    obtain ⟨alim, _ | avg⟩ := R
    · rfl
    · simp only [Option.map_some, Except.map, Except.ok.injEq, Vec.mk.injEq, true_and]
      funext n
      unfold Function.update
      simp only [eq_rec_constant, dite_eq_ite]
      split <;> rfl
  rw [hmono]
  cases lm.limitMonomial (lm.L2M.dotVec uc) (lm.L2M.dotVec ul) (lm.L2M.dotVec ur) with
  | error e => rfl
  | ok t => simp only [Except.map]; rw [dotVec_times]

lemma foldlM_map {α : Type*} (f f' : Arr ℝ → α → Except PyErr (Arr ℝ)) (h : ∀ A x, f' (U.arr A) x = (f A x).map U.arr) (l : List α) (A : Arr ℝ) :
    l.foldlM f' (U.arr A) = (l.foldlM f A).map U.arr := by
  induction l generalizing A with
  | nil => rfl
  | cons x l ih =>
    simp only [List.foldlM_cons, h]
    cases f A x with
    | error e => rfl
    | ok B => exact ih B

lemma foldlM_cols {α : Type*} (f : Arr ℝ → α → Except PyErr (Arr ℝ)) (h : ∀ A x B, f A x = .ok B → B.cols = A.cols) (l : List α) (A B : Arr ℝ)
    (hB : l.foldlM f A = .ok B) : B.cols = A.cols := by
  induction l generalizing A with
  | nil => obtain rfl := Except.ok.inj hB; rfl
  | cons x l ih =>
    simp only [List.foldlM_cons] at hB
    cases hf : f A x with
    | error e => rw [hf] at hB; exact absurd hB (by simp [bind, Except.bind])
    | ok C => rw [hf] at hB; rw [ih C hB, h A x C hf]

lemma unit_limitFields (lm : HrLimiter ℝ) {s : Sol ℝ} (h : EulerShape γ name s) (e : ℕ) (A : Arr ℝ) :
    lm.limitFields (U.sol s) e (U.arr A) = (lm.limitFields s e A).map U.arr := by
  unfold HrLimiter.limitFields
  rw [show (U.sol s).NF = s.NF from rfl, h.NF]
  refine foldlM_map U _ _ (fun A f => ?_) _ A
  have hcol : ∀ k, (U.sol s).u.col (k * 3 + f) = (s.u.col (k * 3 + f)).times (U.colF f) := fun k => by
    unfold Arr.col Vec.times
    rw [sol_u]
    unfold Spec.Units.arr
    simp only [Vec.mk.injEq, true_and]
    funext r
    rw [colF_add U f (by omega)]
  rw [hcol, hcol, hcol, hr_mul lm (colF_pos U f)]
  cases lm.hr (s.u.col (e * 3 + f)) (s.u.col ((e - 1) * 3 + f)) (s.u.col ((e + 1) * 3 + f)) with
  | error err => rfl
  | ok v =>
    simp only [Except.map, Except.ok.injEq]
    unfold Arr.setCol Spec.Units.arr Vec.times
    simp only [Arr.mk.injEq, true_and]
    funext r j
    split
    · rename_i hj; rw [hj, colF_add U f (by omega)]
    · rfl

lemma limitFields_cols (lm : HrLimiter ℝ) (s : Sol ℝ) (e : ℕ) (A B : Arr ℝ) (h : lm.limitFields s e A = .ok B) : B.cols = A.cols := by
  unfold HrLimiter.limitFields at h
  refine foldlM_cols _ (fun A f B hB => ?_) _ _ _ h
  split at hB
  · exact absurd hB (by simp)
  · obtain rfl := Except.ok.inj hB; rfl

lemma unit_limit (lm : Limiter ℝ) {s : Sol ℝ} (h : EulerShape γ name s) : lm.limit (U.sol s) = (lm.limit s).map U.sol := by
  cases lm with
  | none => rfl
  | some lm =>
    show lm.adaptiveHr (U.sol s) = (lm.adaptiveHr s).map U.sol
    unfold HrLimiter.adaptiveHr
    rw [show (U.sol s).sensors = s.sensors from rfl]
    cases hsn : s.sensors with
    | none => rfl
    | some sn =>
      simp only
      have hs : sn.sensing (U.sol s) = sn.sensing s := by
        unfold Sensor.sensing
        rw [show (U.sol s).kw = s.kw from rfl, h.kw, show (U.sol s).NF = s.NF from rfl, h.NF, sol_u,
          show (Euler.physics γ name).sensing = Euler.sensing γ from rfl, Euler.unit_sensing U _ _ h.cols]
      rw [hs]
      cases sn.sensing s with
      | error e => rfl
      | ok sn' =>
        simp only
        rw [show (U.sol s).NE = s.NE from rfl, sol_u]
        rw [foldlM_map U (fun ulim e => if sn'.sensors.val e ≠ 0 then lm.limitFields s e ulim else .ok ulim) _ (fun A e => by
          split
          · exact unit_limitFields U lm h e A
          · rfl)]
        cases hf : (List.range' 1 s.NE).foldlM (fun ulim e => if sn'.sensors.val e ≠ 0 then lm.limitFields s e ulim else .ok ulim) s.u with
        | error e => rfl
        | ok ulim =>
          simp only [Except.map, Except.ok.injEq]
          have hcols : ulim.cols = s.u.cols := foldlM_cols _ (fun A e B hB => by
            split at hB
            · exact limitFields_cols lm s e A B hB
            · obtain rfl := Except.ok.inj hB; rfl) _ _ _ hf
          have hsh : EulerShape γ name { s with u := ulim, sensors := some sn' } := ⟨h.kw, h.NF, by rw [← h.cols]; exact congrArg (· % 3) hcols⟩
          rw [← unit_applyBc U hsh]
          rfl

lemma limit_shape (lm : Limiter ℝ) {s r : Sol ℝ} (h : EulerShape γ name s) (hr : lm.limit s = .ok r) : EulerShape γ name r := by
  cases lm with
  | none => obtain rfl := Except.ok.inj hr; exact h
  | some lm =>
    change lm.adaptiveHr s = .ok r at hr
    unfold HrLimiter.adaptiveHr at hr
    split at hr
    · exact absurd hr (by simp)
    · split at hr
      · exact absurd hr (by simp)
      · split at hr
        · exact absurd hr (by simp)
        · rename_i ulim hf
          obtain rfl := Except.ok.inj hr
          have hcols : ulim.cols = s.u.cols := foldlM_cols _ (fun A e B hB => by
            split at hB
            · exact limitFields_cols lm s e A B hB
            · obtain rfl := Except.ok.inj hB; rfl) _ _ _ hf
          refine EulerShape.applyBc ⟨h.kw, h.NF, ?_⟩
          rw [← h.cols]; exact congrArg (· % 3) hcols

end Dg1d
