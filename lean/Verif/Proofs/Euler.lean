import Verif.Model.Euler
import Verif.Spec.Euler
import Verif.Proofs.Runs

/-! Helper lemmas: Euler physics in primitive variables, interface by interface. -/

set_option linter.unusedSectionVars false

namespace Dg1d.Euler
open Spec

/-- The state with the given conserved variables. -/
def stOf (u : Fin 3 → ℝ) : St := ⟨u 0, u 1, u 2⟩

/-- The components of a state. -/
def vecOf (s : St) : Fin 3 → ℝ := ![s.rho, s.m, s.E]

lemma stateAt_eq (v : ℕ → ℝ) (i : ℕ) : stateAt v i = stOf (fieldsAt 3 v i) := by
  unfold stateAt stOf fieldsAt
  congr 2 <;> simp <;> ring

lemma ofStates_val (len : ℕ) (f : ℕ → St) (i : ℕ) (k : Fin 3) : (ofStates len f).val (i * 3 + k) = vecOf (f i) k := by
  unfold ofStates interleave3 vecOf
  have hk := k.isLt
  have h1 : (i * 3 + (k : ℕ)) % 3 = k := by omega
  have h2 : (i * 3 + (k : ℕ)) / 3 = i := by omega
  simp only [h1, h2]
  fin_cases k <;> simp

section prim
variable {γ : ℝ} (hγ : 1 < γ) {w : Prim}

lemma v_cons (γ : ℝ) (h : w.rho ≠ 0) : (stOf (w.cons γ)).v = w.v := by
  simp only [stOf, Prim.cons, St.v, Matrix.cons_val]
  field_simp

include hγ in
lemma p_cons (h : w.rho ≠ 0) : (stOf (w.cons γ)).p γ = w.p := by
  unfold St.p
  rw [v_cons γ h]
  simp only [stOf, Prim.cons, Prim.energy, Matrix.cons_val]
  have : γ - 1 ≠ 0 := by linarith
  field_simp
  ring

include hγ in
lemma a_cons (h : w.rho ≠ 0) : (stOf (w.cons γ)).a γ = w.c γ := by
  unfold St.a Prim.c
  rw [p_cons hγ h]
  rfl

include hγ in
lemma H_cons (h : w.rho ≠ 0) : (stOf (w.cons γ)).H γ = w.enthalpy γ := by
  unfold St.H Prim.enthalpy
  rw [p_cons hγ h]
  simp only [stOf, Prim.cons, Prim.energy, Matrix.cons_val]
  have : γ - 1 ≠ 0 := by linarith
  field_simp
  ring

include hγ in
lemma flux_cons (h : w.rho ≠ 0) : vecOf (flux1 γ (stOf (w.cons γ))) = w.flux γ := by
  unfold flux1
  rw [v_cons γ h, p_cons hγ h]
  simp only [vecOf, stOf, Prim.cons, Prim.flux, Matrix.cons_val]
  funext k
  fin_cases k
  · simp
  · simp; ring
  · simp; ring

include hγ in
lemma c_pos (h : w.Phys) : 0 < w.c γ := by
  unfold Prim.c
  have := h.1; have := h.2
  have : 0 < γ := by linarith
  positivity

include hγ in
lemma c_sq (h : w.Phys) : w.c γ ^ 2 = γ * w.p / w.rho := by
  unfold Prim.c
  have := h.1; have := h.2
  have : 0 < γ := by linarith
  rw [Real.sq_sqrt (by positivity)]

include hγ in
lemma isReal_cons (h : w.Phys) : (stOf (w.cons γ)).IsReal γ := by
  refine ⟨h.1.ne', ?_⟩
  rw [p_cons hγ h.1.ne']
  have := h.1; have := h.2
  show 0 ≤ γ * w.p / w.rho
  have : 0 < γ := by linarith
  positivity

/-- Every state with positive density and pressure comes from primitive variables. -/
lemma exists_prim (hγ : 1 < γ) (s : St) (h1 : s.rho ≠ 0) : ∃ w : Prim, w.rho = s.rho ∧ w.p = s.p γ ∧ w.v = s.v ∧ stOf (w.cons γ) = s := by
  refine ⟨⟨s.rho, s.v, s.p γ⟩, rfl, rfl, rfl, ?_⟩
  have : γ - 1 ≠ 0 := by linarith
  cases s
  simp only [stOf, Prim.cons, Prim.energy, St.v, St.p, Matrix.cons_val] at h1 ⊢
  congr 1
  · field_simp
  · field_simp; ring

end prim

/-! ### Interface by interface -/

/-- Rusanov, one interface. -/
noncomputable def rusanovSpec (γ : ℝ) : PhysSpec ℝ 3 where
  flux := fun u => vecOf (flux1 γ (stOf u))
  num := fun l r => vecOf (rusanov1 γ (stOf l) (stOf r))
  fails := fun l r => ¬ ((stOf l).IsReal γ ∧ (stOf r).IsReal γ)
  errs := fun e => e = .notReal

/-- Roe, one interface. -/
noncomputable def roeSpec (γ : ℝ) : PhysSpec ℝ 3 where
  flux := fun u => vecOf (flux1 γ (stOf u))
  num := fun l r => vecOf (roe1 γ (stOf l) (stOf r))
  fails := fun l r => ¬ RoeReal γ (stOf l) (stOf r)
  errs := fun e => e = .notReal

lemma interiorFlux_val (γ : ℝ) (A : Arr ℝ) (r i : ℕ) (k : Fin 3) :
    (interiorFlux γ A).val r (i * 3 + k) = vecOf (flux1 γ (stOf (fieldsAt 3 (A.val r) i))) k := by
  unfold interiorFlux
  simp only
  rw [ofStates_val, stateAt_eq]

lemma count3 (m : ℕ) : (m * 3 + 2) / 3 = m := by omega

lemma rusanov_pointwise (γ : ℝ) : (physics γ "rusanov").Pointwise (rusanovSpec γ) where
  fluxShape := fun _ => ⟨rfl, rfl⟩
  flux := fun A N r e f _ _ _ => interiorFlux_val γ A r e f
  riemannErr := by
    rintro ul ur m h1 h2 ⟨i, hi, hf⟩
    refine ⟨.notReal, rfl, ?_⟩
    simp only [physics, if_true]
    unfold rusanov
    rw [if_pos]
    exact ⟨i, by rw [h1, count3]; exact hi, by rw [stateAt_eq, stateAt_eq]; exact hf⟩
  riemannOk := by
    intro ul ur m h1 h2 hf
    simp only [physics, if_true]
    unfold rusanov
    rw [if_neg]
    · refine ⟨_, rfl, h1, fun i hi f => ?_⟩
      rw [ofStates_val, stateAt_eq, stateAt_eq]; rfl
    · rintro ⟨i, hi, h⟩
      rw [h1, count3] at hi
      rw [stateAt_eq, stateAt_eq] at h
      exact hf i hi h

lemma roe_pointwise (γ : ℝ) {name : String} (h1 : name ≠ "rusanov") (h2 : name ≠ "godunov") :
    (physics γ name).Pointwise (roeSpec γ) where
  fluxShape := fun _ => ⟨rfl, rfl⟩
  flux := fun A N r e f _ _ _ => interiorFlux_val γ A r e f
  riemannErr := by
    rintro ul ur m h3 h4 ⟨i, hi, hf⟩
    refine ⟨.notReal, rfl, ?_⟩
    simp only [physics, if_neg h1, if_neg h2]
    unfold roe
    rw [if_pos]
    exact ⟨i, by rw [h3, count3]; exact hi, by rw [stateAt_eq, stateAt_eq]; exact hf⟩
  riemannOk := by
    intro ul ur m h3 h4 hf
    simp only [physics, if_neg h1, if_neg h2]
    unfold roe
    rw [if_neg]
    · refine ⟨_, rfl, h3, fun i hi f => ?_⟩
      rw [ofStates_val, stateAt_eq, stateAt_eq]; rfl
    · rintro ⟨i, hi, h⟩
      rw [h3, count3] at hi
      rw [stateAt_eq, stateAt_eq] at h
      exact hf i hi h

/-! ### Maximum wave speed -/

lemma foldl_max_spec (g : ℕ → ℝ) : ∀ (l : List ℕ) (m : ℝ),
    m ≤ l.foldl (fun m i => max m (g i)) m ∧ (∀ i ∈ l, g i ≤ l.foldl (fun m i => max m (g i)) m) ∧
    (l.foldl (fun m i => max m (g i)) m = m ∨ ∃ i ∈ l, l.foldl (fun m i => max m (g i)) m = g i) := by
  intro l
  induction l with
  | nil => intro m; simp
  | cons a l ih =>
    intro m
    obtain ⟨h1, h2, h3⟩ := ih (max m (g a))
    simp only [List.foldl_cons]
    refine ⟨(le_max_left _ _).trans h1, ?_, ?_⟩
    · intro i hi
      rcases List.mem_cons.mp hi with rfl | hi
      · exact (le_max_right _ _).trans h1
      · exact h2 i hi
    · rcases h3 with h3 | ⟨i, hi, h3⟩
      · rw [h3]
        rcases max_choice m (g a) with h | h
        · exact .inl h
        · exact .inr ⟨a, by simp, h⟩
      · exact .inr ⟨i, by simp [hi], h3⟩

/-- The fastest signal of one cell average. -/
noncomputable def St.speed (γ : ℝ) (s : St) : ℝ := |s.v| + s.a γ

lemma maxWaveSpeed_eq (γ : ℝ) (A : Arr ℝ) (N : ℕ) (h : A.cols = N * 3) (hN : 0 < N) :
    ((∃ i < N, ¬ (stOf (fieldsAt 3 (A.val 0) i)).IsReal γ) → maxWaveSpeed γ A = .ok .nan) ∧
    ((∀ i < N, (stOf (fieldsAt 3 (A.val 0) i)).IsReal γ) →
      ∃ c, maxWaveSpeed γ A = .ok (.fin c) ∧ (∀ i < N, (stOf (fieldsAt 3 (A.val 0) i)).speed γ ≤ c) ∧
        ∃ i < N, (stOf (fieldsAt 3 (A.val 0) i)).speed γ = c) := by
  unfold maxWaveSpeed
  simp only [h, count3, if_neg hN.ne', stateAt_eq]
  have hiff : (∃ i < N, (stOf (fieldsAt 3 (A.val 0) i)).rho = 0 ∨
      γ * (stOf (fieldsAt 3 (A.val 0) i)).p γ / (stOf (fieldsAt 3 (A.val 0) i)).rho < 0) ↔
      ∃ i < N, ¬ (stOf (fieldsAt 3 (A.val 0) i)).IsReal γ := by
    refine exists_congr fun i => and_congr_right fun _ => ?_
    unfold St.IsReal
    rw [not_and_or, not_not, not_le]
  constructor
  · intro hf
    rw [if_pos (hiff.mpr hf)]
  · intro hf
    rw [if_neg (by rw [hiff]; push Not; exact hf)]
    obtain ⟨h1, h2, h3⟩ := foldl_max_spec (fun i => (stOf (fieldsAt 3 (A.val 0) i)).speed γ) (List.range N)
      ((stOf (fieldsAt 3 (A.val 0) 0)).speed γ)
    refine ⟨_, rfl, fun i hi => h2 i (List.mem_range.mpr hi), ?_⟩
    rcases h3 with h3 | ⟨i, hi, h3⟩
    · exact ⟨0, hN, h3.symm⟩
    · exact ⟨i, List.mem_range.mp hi, h3.symm⟩

lemma waveCells (γ : ℝ) (name : String) : (physics γ name).WaveCells 3 := by
  intro A B N hA hB h1 h2
  show maxWaveSpeed γ A = maxWaveSpeed γ B
  rcases Nat.eq_zero_or_pos N with rfl | hN
  · unfold maxWaveSpeed
    simp [hA, hB]
  obtain ⟨a1, a2⟩ := maxWaveSpeed_eq γ A N hA hN
  obtain ⟨b1, b2⟩ := maxWaveSpeed_eq γ B N hB hN
  by_cases hf : ∃ i < N, ¬ (stOf (fieldsAt 3 (A.val 0) i)).IsReal γ
  · rw [a1 hf, b1]
    obtain ⟨i, hi, hf⟩ := hf
    obtain ⟨j, hj, e⟩ := h1 i hi
    exact ⟨j, hj, by rw [← e]; exact hf⟩
  · push Not at hf
    obtain ⟨c, hc, c1, i, hi, c2⟩ := a2 hf
    obtain ⟨d, hd, d1, j, hj, d2⟩ := b2 fun j hj => by
      obtain ⟨i, hi, e⟩ := h2 j hj
      rw [← e]; exact hf i hi
    rw [hc, hd]
    congr 2
    apply le_antisymm
    · obtain ⟨k, hk, e⟩ := h1 i hi
      rw [← c2, e]; exact d1 k hk
    · obtain ⟨k, hk, e⟩ := h2 j hj
      rw [← d2, ← e]; exact c1 k hk

/-! ### Godunov: interfaces do not influence each other -/

lemma a_pos {γ : ℝ} (hγ : 1 < γ) {s : St} (h1 : 0 < s.rho) (h2 : 0 < s.p γ) : 0 < s.a γ := by
  unfold St.a
  have : 0 < γ := by linarith
  positivity

/-- One of the three branches is taken whenever neither supersonic shortcut applies. -/
lemma godunovState_some {γ : ℝ} (hγ : 1 < γ) {L R : St} (hL : 0 < L.rho) (hLp : 0 < L.p γ) (hR : 0 < R.rho) (hRp : 0 < R.p γ)
    (h1 : ¬ L.v / L.a γ ≥ 1) (h2 : ¬ R.v / R.a γ ≤ -1) (pm : ℝ) :
    ∃ rmI Um2 Um3, godunovState γ L R pm = (rmI, some (Um2, Um3)) := by
  have aL := a_pos hγ hL hLp
  have aR := a_pos hγ hR hRp
  have h1' : L.v - L.a γ < 0 := by
    rw [ge_iff_le, le_div_iff₀ aL] at h1; linarith
  have h2' : R.v + R.a γ > 0 := by
    rw [div_le_iff₀ aR] at h2; linarith
  unfold godunovState
  generalize starVelocity γ L R pm = vm
  generalize starDensity γ L.rho (L.p γ) pm = rm0
  generalize starDensity γ R.rho (R.p γ) pm = rm1
  unfold sampleStar
  simp only
  by_cases g1 : vm - √(γ * pm / rm0) ≤ 0 ∧ vm + √(γ * pm / rm1) ≥ 0
  · rw [if_pos g1]; exact ⟨_, _, _, rfl⟩
  rw [if_neg g1]
  split_ifs with g2 g3
  · exact ⟨_, _, _, rfl⟩
  · exact ⟨_, _, _, rfl⟩
  all_goals
    exfalso
    simp only [h1', h2', and_true, not_lt, gt_iff_lt] at g2 g3
    exact g1 ⟨g2, g3⟩

/-- The flux of one interface, whatever was computed before: the value of `godunov1` on a first interface. -/
noncomputable def godunovSpec (γ : ℝ) : PhysSpec ℝ 3 where
  flux := fun u => vecOf (flux1 γ (stOf u))
  num := fun l r => match godunov1 γ (stOf l) (stOf r) none with
    | .ok (f, _) => vecOf f
    | .error _ => fun _ => 0
  fails := fun l r => ∃ e, godunov1 γ (stOf l) (stOf r) none = .error e
  errs := fun e => e = .notReal ∨ e = .unboundLocal ∨ e = noConvergence

lemma pmLoop_err (γ : ℝ) (L R : St) (n k : ℕ) (pm : Option ℝ) (e : PyErr) (h : pmLoop γ L R n k pm = .error e) : e = noConvergence := by
  induction n generalizing k pm with
  | zero => cases h
  | succ n ih =>
    unfold pmLoop at h
    simp only at h
    split_ifs at h with h1 h2
    · cases h; rfl
    · exact ih _ _ h

lemma godunov1_last {γ : ℝ} (hγ : 1 < γ) (L R : St) (last : Option (ℝ × ℝ)) :
    (∀ f U, godunov1 γ L R none = .ok (f, U) → ∃ U', godunov1 γ L R last = .ok (f, U')) ∧
    (∀ e, godunov1 γ L R none = .error e → ∃ e', (e' = .notReal ∨ e' = .unboundLocal ∨ e' = noConvergence) ∧
      godunov1 γ L R last = .error e') := by
  unfold godunov1
  by_cases h1 : 0 < L.rho ∧ 0 < L.p γ ∧ 0 < R.rho ∧ 0 < R.p γ
  case neg =>
    rw [if_pos h1, if_pos h1]
    exact ⟨fun f U h => (by cases h), fun e _ => ⟨_, .inl rfl, rfl⟩⟩
  rw [if_neg (not_not.mpr h1), if_neg (not_not.mpr h1)]
  by_cases h2 : L.v / L.a γ ≥ 1
  · rw [if_pos h2, if_pos h2]
    exact ⟨fun f U h => (by cases h; exact ⟨_, rfl⟩), fun e h => (by cases h)⟩
  rw [if_neg h2, if_neg h2]
  by_cases h3 : R.v / R.a γ ≤ -1
  · rw [if_pos h3, if_pos h3]
    exact ⟨fun f U h => (by cases h; exact ⟨_, rfl⟩), fun e h => (by cases h)⟩
  rw [if_neg h3, if_neg h3]
  cases hp : pmLoop γ L R 102 0 (pmStart γ L R) with
  | error e => exact ⟨fun f U h => (by cases h), fun e' h => ⟨e, .inr (.inr (pmLoop_err _ _ _ _ _ _ _ hp)), rfl⟩⟩
  | ok o =>
    cases o with
    | none => exact ⟨fun f U h => (by cases h), fun e' h => ⟨_, .inr (.inl rfl), rfl⟩⟩
    | some pm2 =>
      simp only
      obtain ⟨r, U2, U3, hs⟩ := godunovState_some hγ h1.1 h1.2.1 h1.2.2.1 h1.2.2.2 h2 h3 pm2
      rw [hs]
      simp only
      split_ifs with h4
      · refine ⟨fun f U h => (by cases h), fun e' h => ?_⟩
        cases last
        · exact ⟨_, .inr (.inl rfl), rfl⟩
        · exact ⟨_, .inl rfl, rfl⟩
      · exact ⟨fun f U h => (by cases h; exact ⟨_, rfl⟩), fun e h => (by cases h)⟩

lemma godunovLoop_spec {γ : ℝ} (hγ : 1 < γ) (ul ur : Vec ℝ) : ∀ (n i : ℕ) (F : ℕ → St) (last : Option (ℝ × ℝ)),
    ((∃ j, i ≤ j ∧ j < i + n ∧ ∃ e, godunov1 γ (stateAt ul.val j) (stateAt ur.val j) none = .error e) →
      ∃ e, (e = .notReal ∨ e = .unboundLocal ∨ e = noConvergence) ∧ godunovLoop γ ul ur n i F last = .error e) ∧
    ((∀ j, i ≤ j → j < i + n → ¬ ∃ e, godunov1 γ (stateAt ul.val j) (stateAt ur.val j) none = .error e) →
      ∃ G, godunovLoop γ ul ur n i F last = .ok G ∧ (∀ j < i, G j = F j) ∧
        ∀ j, i ≤ j → j < i + n → ∃ U, godunov1 γ (stateAt ul.val j) (stateAt ur.val j) none = .ok (G j, U)) := by
  intro n
  induction n with
  | zero =>
    intro i F last
    exact ⟨fun ⟨j, h1, h2, _⟩ => by omega, fun _ => ⟨F, rfl, fun _ _ => rfl, fun j h1 h2 => by omega⟩⟩
  | succ n ih =>
    intro i F last
    unfold godunovLoop
    obtain ⟨hok, herr⟩ := godunov1_last hγ (stateAt ul.val i) (stateAt ur.val i) last
    cases h0 : godunov1 γ (stateAt ul.val i) (stateAt ur.val i) none with
    | error e =>
      obtain ⟨e', he', h⟩ := herr e h0
      rw [h]
      exact ⟨fun _ => ⟨e', he', rfl⟩, fun hx => (hx i le_rfl (by omega) ⟨e, h0⟩).elim⟩
    | ok x =>
      obtain ⟨f, U⟩ := x
      obtain ⟨U', h⟩ := hok f U h0
      rw [h]
      simp only
      obtain ⟨i1, i2⟩ := ih (i + 1) (Function.update F i f) U'
      constructor
      · rintro ⟨j, hj1, hj2, e, he⟩
        have : j ≠ i := by rintro rfl; rw [h0] at he; cases he
        exact i1 ⟨j, by omega, by omega, e, he⟩
      · intro hx
        obtain ⟨G, hG, hG1, hG2⟩ := i2 fun j hj1 hj2 => hx j (by omega) (by omega)
        refine ⟨G, hG, fun j hj => ?_, fun j hj1 hj2 => ?_⟩
        · rw [hG1 j (by omega), Function.update_of_ne (by omega)]
        · rcases Nat.eq_or_lt_of_le hj1 with rfl | hlt
          · refine ⟨U, ?_⟩
            rw [hG1 i (by omega), Function.update_self, h0]
          · exact hG2 j (by omega) (by omega)

lemma godunov_pointwise {γ : ℝ} (hγ : 1 < γ) : (physics γ "godunov").Pointwise (godunovSpec γ) where
  fluxShape := fun _ => ⟨rfl, rfl⟩
  flux := fun A N r e f _ _ _ => interiorFlux_val γ A r e f
  riemannErr := by
    rintro ul ur m h1 h2 ⟨i, hi, hf⟩
    show ∃ e, _ ∧ (if "godunov" = "rusanov" then rusanov γ else if "godunov" = "godunov" then godunov γ else roe γ) ul ur = _
    rw [if_neg (by decide), if_pos rfl]
    unfold godunov
    rw [h1, count3]
    obtain ⟨e, he, hl⟩ := (godunovLoop_spec hγ ul ur m 0 (fun _ => ⟨0, 0, 0⟩) none).1
      ⟨i, by omega, by omega, by rw [stateAt_eq, stateAt_eq]; exact hf⟩
    exact ⟨e, he, by rw [hl]⟩
  riemannOk := by
    intro ul ur m h1 h2 hf
    show ∃ q, (if "godunov" = "rusanov" then rusanov γ else if "godunov" = "godunov" then godunov γ else roe γ) ul ur = _ ∧ _
    rw [if_neg (by decide), if_pos rfl]
    unfold godunov
    rw [h1, count3]
    obtain ⟨G, hG, _, hG2⟩ := (godunovLoop_spec hγ ul ur m 0 (fun _ => ⟨0, 0, 0⟩) none).2
      fun j _ hj => by rw [stateAt_eq, stateAt_eq]; exact hf j (by omega)
    rw [hG]
    refine ⟨_, rfl, rfl, fun i hi f => ?_⟩
    rw [ofStates_val]
    obtain ⟨U, hU⟩ := hG2 i (by omega) (by omega)
    rw [stateAt_eq, stateAt_eq] at hU
    simp only [godunovSpec, hU]

/-! ### Rusanov and Roe in primitive variables -/

section
variable {γ : ℝ} (hγ : 1 < γ) {wL wR : Prim}

include hγ in
lemma rusanov1_cons (hL : wL.Phys) (hR : wR.Phys) :
    vecOf (rusanov1 γ (stOf (wL.cons γ)) (stOf (wR.cons γ))) = rusanovFlux γ wL wR := by
  unfold rusanov1
  rw [v_cons γ hL.1.ne', v_cons γ hR.1.ne', p_cons hγ hL.1.ne', p_cons hγ hR.1.ne', a_cons hγ hL.1.ne', a_cons hγ hR.1.ne']
  funext k
  simp only [vecOf, stOf, Prim.cons, rusanovFlux, Prim.flux, Prim.speed]
  generalize max (_ : ℝ) _ = M
  fin_cases k
  · simp; ring
  · simp; ring
  · simp; ring

lemma sqrt_ratio {x y : ℝ} (hx : 0 < x) : √(y / x) = √y / √x := Real.sqrt_div' y hx.le

lemma roeV_eq (hL : wL.Phys) (hR : wR.Phys) (f : Prim → ℝ) :
    (f wL + √(wR.rho / wL.rho) * f wR) / (1 + √(wR.rho / wL.rho)) = roeMean wL wR f := by
  have h1 := Real.sqrt_pos.mpr hL.1
  have h2 := Real.sqrt_pos.mpr hR.1
  rw [sqrt_ratio hL.1]
  unfold roeMean
  field_simp

lemma roeRho_eq (hL : wL.Phys) : √(wR.rho / wL.rho) * wL.rho = roeRho wL wR := by
  have h1 := Real.sqrt_pos.mpr hL.1
  rw [sqrt_ratio hL.1]
  unfold roeRho
  rw [Real.sqrt_mul hL.1.le]
  field_simp
  rw [Real.sq_sqrt hL.1.le, mul_comm]

include hγ in
lemma roeAverages_cons (hL : wL.Phys) (hR : wR.Phys) : roeAverages γ (stOf (wL.cons γ)) (stOf (wR.cons γ)) =
    (roeRho wL wR, roeV wL wR, roeH γ wL wR, roeC γ wL wR) := by
  unfold roeAverages
  rw [v_cons γ hL.1.ne', v_cons γ hR.1.ne', H_cons hγ hL.1.ne', H_cons hγ hR.1.ne']
  have e1 : (stOf (wL.cons γ)).rho = wL.rho := rfl
  have e2 : (stOf (wR.cons γ)).rho = wR.rho := rfl
  simp only [e1, e2]
  rw [roeV_eq hL hR Prim.v, roeV_eq hL hR (Prim.enthalpy γ), roeRho_eq hL]
  unfold roeC roeH roeV
  congr 5
  ring

include hγ in
/-- The square of the Roe-averaged speed of sound is positive. -/
lemma roeC_arg (hL : wL.Phys) (hR : wR.Phys) : 0 < (γ - 1) * (roeH γ wL wR - roeV wL wR ^ 2 / 2) := by
  have h1 := Real.sqrt_pos.mpr hL.1
  have h2 := Real.sqrt_pos.mpr hR.1
  have hpL := div_pos hL.2 hL.1
  have hpR := div_pos hR.2 hR.1
  have hg : 0 < γ - 1 := by linarith
  have hg2 : 0 < γ := by linarith
  unfold roeH roeV roeMean Prim.enthalpy
  generalize √wL.rho = x at *
  generalize √wR.rho = y at *
  generalize wL.p / wL.rho = P at *
  generalize wR.p / wR.rho = Q at *
  have : (x * (γ / (γ - 1) * P + wL.v ^ 2 / 2) + y * (γ / (γ - 1) * Q + wR.v ^ 2 / 2)) / (x + y) -
      ((x * wL.v + y * wR.v) / (x + y)) ^ 2 / 2 =
      (γ / (γ - 1) * (x * P + y * Q)) / (x + y) + x * y * (wL.v - wR.v) ^ 2 / (2 * (x + y) ^ 2) := by
    field_simp
    ring
  rw [this]
  positivity

include hγ in
lemma roeC_pos (hL : wL.Phys) (hR : wR.Phys) : 0 < roeC γ wL wR := Real.sqrt_pos.mpr (roeC_arg hγ hL hR)

include hγ in
lemma roeC_sq (hL : wL.Phys) (hR : wR.Phys) : roeC γ wL wR ^ 2 = (γ - 1) * (roeH γ wL wR - roeV wL wR ^ 2 / 2) :=
  Real.sq_sqrt (roeC_arg hγ hL hR).le

include hγ in
lemma roeReal_cons (hL : wL.Phys) (hR : wR.Phys) : RoeReal γ (stOf (wL.cons γ)) (stOf (wR.cons γ)) := by
  refine ⟨hL.1.ne', hR.1.ne', ?_, ?_⟩
  · exact (div_pos hR.1 hL.1).le
  · rw [roeAverages_cons hγ hL hR]
    have := roeC_arg hγ hL hR
    simp only
    rw [show 1 / 2 * roeV wL wR * roeV wL wR = roeV wL wR ^ 2 / 2 by ring]
    exact this

lemma entropyFix_eq (x cL cR : ℝ) : entropyFix |x| cL cR = hartenAbs (max 0 (4 * (cR - cL))) x := by
  unfold entropyFix hartenAbs
  simp only
  rw [← sq, sq_abs, show 1 / 2 * max 0 (4 * (cR - cL)) = max 0 (4 * (cR - cL)) / 2 by ring,
    show 1 / 4 * max 0 (4 * (cR - cL)) = max 0 (4 * (cR - cL)) / 4 by ring]

include hγ in
lemma roe1_cons (hL : wL.Phys) (hR : wR.Phys) :
    vecOf (roe1 γ (stOf (wL.cons γ)) (stOf (wR.cons γ))) = roeFlux γ wL wR := by
  unfold roe1
  simp only [fixedSpeed, if_pos (⟨isReal_cons hγ hL, isReal_cons hγ hR⟩ : (stOf (wL.cons γ)).IsReal γ ∧ (stOf (wR.cons γ)).IsReal γ)]
  rw [roeAverages_cons hγ hL hR, v_cons γ hL.1.ne', v_cons γ hR.1.ne', p_cons hγ hL.1.ne', p_cons hγ hR.1.ne',
    a_cons hγ hL.1.ne', a_cons hγ hR.1.ne']
  simp only [entropyFix_eq]
  have h1 : |roeV wL wR| = hartenAbs 0 (roeV wL wR) := by
    unfold hartenAbs
    rw [if_neg (by simp)]
  rw [h1]
  funext k
  simp only [vecOf, stOf, Prim.cons, roeFlux, Prim.flux, Fin.sum_univ_three, fixWidth, roeLambda, roeAlpha, roeVec]
  simp only [Matrix.cons_val]
  generalize hartenAbs _ _ = w0
  generalize hartenAbs _ _ = w1
  generalize hartenAbs _ _ = w2
  fin_cases k
  · simp; ring
  · simp; ring
  · simp; ring

end

end Dg1d.Euler
