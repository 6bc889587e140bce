import Verif.Model.Nan
import Verif.Model.Checked
import Verif.Proofs.Dg

/-! Helper lemmas: arithmetic with NaN, the fluxes, the residual. -/

namespace Dg1d.Nan
open Num

/-! ### Arithmetic -/

@[simp] lemma num_add (x y : ℝ) : num x + num y = num (x + y) := rfl
@[simp] lemma nan_add (x : Num) : nan + x = nan := by cases x <;> rfl
@[simp] lemma add_nan (x : Num) : x + nan = nan := by cases x <;> rfl
@[simp] lemma num_sub (x y : ℝ) : num x - num y = num (x - y) := rfl
@[simp] lemma nan_sub (x : Num) : nan - x = nan := by cases x <;> rfl
@[simp] lemma sub_nan (x : Num) : x - nan = nan := by cases x <;> rfl
@[simp] lemma num_mul (x y : ℝ) : num x * num y = num (x * y) := rfl
@[simp] lemma nan_mul (x : Num) : nan * x = nan := by cases x <;> rfl
@[simp] lemma mul_nan (x : Num) : x * nan = nan := by cases x <;> rfl
lemma num_div (x : ℝ) {y : ℝ} (h : y ≠ 0) : num x / num y = num (x / y) := by
  show (if y = 0 then nan else num (x / y)) = _
  rw [if_neg h]
lemma num_div_zero (x : ℝ) : num x / num 0 = nan := by
  show (if (0 : ℝ) = 0 then nan else num (x / 0)) = _
  rw [if_pos rfl]
@[simp] lemma div_zero' (x : Num) : x / num 0 = nan := by cases x; exact num_div_zero _; rfl
@[simp] lemma nan_div (x : Num) : nan / x = nan := by cases x <;> rfl
@[simp] lemma div_nan (x : Num) : x / nan = nan := by cases x <;> rfl
@[simp] lemma sqrt_nan : sqrt nan = nan := rfl
lemma sqrt_num {x : ℝ} (h : 0 ≤ x) : sqrt (num x) = num √x := by
  show (if x < 0 then nan else num √x) = _
  rw [if_neg (not_lt.mpr h)]
lemma sqrt_neg {x : ℝ} (h : x < 0) : sqrt (num x) = nan := by
  show (if x < 0 then nan else num √x) = _
  rw [if_pos h]
@[simp] lemma abs_nan : abs nan = nan := rfl
@[simp] lemma abs_num (x : ℝ) : abs (num x) = num |x| := rfl
@[simp] lemma max_num (x y : ℝ) : maximum (num x) (num y) = num (max x y) := rfl
@[simp] lemma nan_max (x : Num) : maximum nan x = nan := by cases x <;> rfl
@[simp] lemma max_nan (x : Num) : maximum x nan = nan := by cases x <;> rfl
@[simp] lemma fix_nan (D : Num) : entropyFix nan D = nan := by cases D <;> rfl

/-! ### States -/

/-- A state without NaN. -/
def liftSt (s : Euler.St) : St := ⟨num s.rho, num s.m, num s.E⟩

/-- All components NaN. -/
def nanSt : St := ⟨nan, nan, nan⟩

section states
variable {γ : ℝ} {s : Euler.St}

lemma v_lift (h : s.rho ≠ 0) : (liftSt s).v = num s.v := num_div _ h

lemma p_lift (h : s.rho ≠ 0) : (liftSt s).p γ = num (s.p γ) := by
  unfold St.p
  rw [v_lift h]
  simp [liftSt, Euler.St.p]

lemma c2_lift (h : s.rho ≠ 0) : num γ * (liftSt s).p γ / (liftSt s).rho = num (γ * s.p γ / s.rho) := by
  rw [p_lift h]
  exact num_div _ h

lemma a_lift (h : s.IsReal γ) : (liftSt s).a γ = num (s.a γ) := by
  unfold St.a Euler.St.a
  rw [c2_lift h.1, sqrt_num h.2]

lemma H_lift (h : s.rho ≠ 0) : (liftSt s).H γ = num (s.H γ) := by
  unfold St.H Euler.St.H
  rw [p_lift h]
  exact num_div _ h

lemma flux1_lift (h : s.rho ≠ 0) : flux1 γ (liftSt s) = liftSt (Euler.flux1 γ s) := by
  unfold flux1
  rw [v_lift h, p_lift h]
  simp [liftSt, Euler.flux1]

/-- A state of which the velocity is NaN. -/
def St.Bad (s : St) : Prop := s.rho = nan ∨ s.rho = num 0 ∨ s.m = nan ∨ s.E = nan

lemma bad_p {s : St} (h : s.Bad) : s.p γ = nan := by
  unfold St.p St.v
  rcases h with h | h | h | h <;> simp [h]

lemma bad_a {s : St} (h : s.Bad) : s.a γ = nan := by
  unfold St.a; simp [bad_p h]

lemma bad_flux {s : St} (h : s.Bad) : (flux1 γ s).m = nan := by
  unfold flux1; simp [bad_p h]

/-- Either something is NaN or divides by zero, or the state is one of real numbers with a density other than zero. -/
lemma St.cases (s : St) : s.Bad ∨ ∃ r : Euler.St, s = liftSt r ∧ r.rho ≠ 0 := by
  obtain ⟨_ | _, _ | _, _ | _⟩ := s
  case num.num.num x y z =>
    by_cases h : x = 0
    · exact .inl (.inr (.inl (by rw [h])))
    · exact .inr ⟨⟨x, y, z⟩, rfl, h⟩
  all_goals exact .inl (by simp [St.Bad])

lemma nonreal_a (h0 : s.rho ≠ 0) (h : ¬ s.IsReal γ) : (liftSt s).a γ = nan := by
  unfold St.a
  rw [c2_lift h0, sqrt_neg]
  by_contra hc
  exact h ⟨h0, not_lt.mp hc⟩

lemma a_cases (s : St) : s.a γ = nan ∨ ∃ r : Euler.St, s = liftSt r ∧ r.IsReal γ := by
  rcases s.cases with h | ⟨r, rfl, h0⟩
  · exact .inl (bad_a h)
  · by_cases h : r.IsReal γ
    · exact .inr ⟨r, rfl, h⟩
    · exact .inl (nonreal_a h0 h)

lemma rusanov_real {L R : Euler.St} (hL : L.IsReal γ) (hR : R.IsReal γ) :
    rusanov1 γ (liftSt L) (liftSt R) = liftSt (Euler.rusanov1 γ L R) := by
  unfold rusanov1
  rw [a_lift hL, a_lift hR, v_lift hL.1, v_lift hR.1, p_lift hL.1, p_lift hR.1]
  simp [liftSt, Euler.rusanov1]

lemma rusanov_nan {l r : St} (h : ¬ ∃ L R : Euler.St, l = liftSt L ∧ r = liftSt R ∧ L.IsReal γ ∧ R.IsReal γ) :
    rusanov1 γ l r = nanSt := by
  have : l.a γ = nan ∨ r.a γ = nan := by
    rcases a_cases (γ := γ) l with h1 | ⟨L, h1, h2⟩
    · exact .inl h1
    · rcases a_cases (γ := γ) r with h3 | ⟨R, h3, h4⟩
      · exact .inr h3
      · exact absurd ⟨L, R, h1, h3, h2, h4⟩ h
  unfold rusanov1 nanSt
  rcases this with h | h <;> simp [h]

lemma roe_real {L R : Euler.St} (h : Euler.RoeReal γ L R) :
    roe1 γ (liftSt L) (liftSt R) = liftSt (Euler.roe1 γ L R) := by
  obtain ⟨h1, h2, h3, h4⟩ := h
  have hT : sqrt ((liftSt R).rho / (liftSt L).rho) = num √(R.rho / L.rho) := by
    rw [show (liftSt R).rho / (liftSt L).rho = num (R.rho / L.rho) from num_div _ h1, sqrt_num h3]
  have hT1 : 1 + √(R.rho / L.rho) ≠ 0 := by positivity
  have hfix : ∀ w x y : ℝ, ∀ sgn : Num → Num → Num, ∀ f : ℝ → ℝ → ℝ, (∀ a b, sgn (num a) (num b) = num (f a b)) →
      (∀ a, sgn a nan = nan) →
      (x = f L.v (L.a γ)) → (y = f R.v (R.a γ)) → 0 ≤ w →
      entropyFix (num w) (maximum (num 0) (num 4 * (sgn (liftSt R).v ((liftSt R).a γ) - sgn (liftSt L).v ((liftSt L).a γ)))) =
        num (Euler.fixedSpeed γ L R w x y) := by
    intro w x y sgn f hf hn hx hy hw
    unfold Euler.fixedSpeed
    by_cases hr : L.IsReal γ ∧ R.IsReal γ
    · rw [if_pos hr, a_lift hr.1, a_lift hr.2, v_lift h1, v_lift h2, hf, hf, ← hx, ← hy]
      unfold Euler.entropyFix
      show entropyFix (num w) (num (max 0 (4 * (y - x)))) = _
      generalize hD : max 0 (4 * (y - x)) = D
      show (if w < 1 / 2 * D then num w * num w / num D + num (1 / 4) * num D else num w) = _
      simp only
      split_ifs with hlt
      · have : D ≠ 0 := by intro h0; rw [h0] at hlt; linarith
        rw [num_mul, num_div _ this]; rfl
      · rfl
    · rw [if_neg hr]
      have : (liftSt L).a γ = nan ∨ (liftSt R).a γ = nan := by
        by_cases hl : L.IsReal γ
        · exact .inr (nonreal_a h2 fun h => hr ⟨hl, h⟩)
        · exact .inl (nonreal_a h1 hl)
      rcases this with h | h <;> rw [h, hn] <;> simp <;> rfl
  unfold Euler.roeAverages at h4
  simp only at h4
  have ha : √((γ - 1) * ((L.H γ + √(R.rho / L.rho) * R.H γ) / (1 + √(R.rho / L.rho)) -
      1 / 2 * ((L.v + √(R.rho / L.rho) * R.v) / (1 + √(R.rho / L.rho))) * ((L.v + √(R.rho / L.rho) * R.v) / (1 + √(R.rho / L.rho))))) ≠ 0 :=
    (Real.sqrt_pos.mpr h4).ne'
  unfold roe1
  simp only
  rw [hT, H_lift h1, H_lift h2]
  simp only [p_lift h1, p_lift h2]
  have e1 : ∀ x : ℝ, num x / (num 1 + num √(R.rho / L.rho)) = num (x / (1 + √(R.rho / L.rho))) := fun x => by
    rw [num_add, num_div _ hT1]
  have hv : ((liftSt L).v + num √(R.rho / L.rho) * (liftSt R).v) / (num 1 + num √(R.rho / L.rho)) =
      num ((L.v + √(R.rho / L.rho) * R.v) / (1 + √(R.rho / L.rho))) := by
    rw [v_lift h1, v_lift h2, num_mul, num_add, e1]
  have hH : (num (L.H γ) + num √(R.rho / L.rho) * num (R.H γ)) / (num 1 + num √(R.rho / L.rho)) =
      num ((L.H γ + √(R.rho / L.rho) * R.H γ) / (1 + √(R.rho / L.rho))) := by
    rw [num_mul, num_add, e1]
  rw [hv, hH]
  generalize hVd : (L.v + √(R.rho / L.rho) * R.v) / (1 + √(R.rho / L.rho)) = V at h4 ha ⊢
  generalize hHd : (L.H γ + √(R.rho / L.rho) * R.H γ) / (1 + √(R.rho / L.rho)) = H at h4 ha ⊢
  have hA : sqrt (num (γ - 1) * (num H - num (1 / 2) * num V * num V)) = num √((γ - 1) * (H - 1 / 2 * V * V)) := by
    simp only [num_mul, num_sub]
    rw [sqrt_num h4.le]
  rw [hA]
  generalize hAd : √((γ - 1) * (H - 1 / 2 * V * V)) = A at ha ⊢
  have w0 := hfix |V - A| (L.v - L.a γ) (R.v - R.a γ) (fun a b => a - b) (fun a b => a - b) (fun _ _ => rfl) (fun _ => by simp) rfl rfl (abs_nonneg _)
  have w2 := hfix |V + A| (L.v + L.a γ) (R.v + R.a γ) (fun a b => a + b) (fun a b => a + b) (fun _ _ => rfl) (fun _ => by simp) rfl rfl (abs_nonneg _)
  have hA2 : 2 * A * A ≠ 0 := by positivity
  have hAA : A * A ≠ 0 := by positivity
  unfold Euler.roe1 Euler.roeAverages
  simp only [hVd, hHd, hAd]
  simp only [num_sub, num_add, abs_num]
  rw [w0, w2]
  simp only [v_lift h1, v_lift h2]
  simp only [liftSt, num_sub, num_add, num_mul, num_div _ hA2, num_div _ hAA]

lemma roe_nan {l r : St} (h : ¬ ∃ L R : Euler.St, l = liftSt L ∧ r = liftSt R ∧ Euler.RoeReal γ L R) :
    roe1 γ l r = nanSt := by
  rcases l.cases with hl | ⟨L, rfl, h1⟩
  · unfold roe1 nanSt
    simp [bad_p hl]
  rcases r.cases with hr | ⟨R, rfl, h2⟩
  · unfold roe1 nanSt
    simp [bad_p hr]
  by_cases h3 : 0 ≤ R.rho / L.rho
  · have h4 : ¬ 0 < (γ - 1) * ((Euler.roeAverages γ L R).2.2.1 - 1 / 2 * (Euler.roeAverages γ L R).2.1 * (Euler.roeAverages γ L R).2.1) :=
      fun h4 => h ⟨L, R, rfl, rfl, h1, h2, h3, h4⟩
    have hT : sqrt ((liftSt R).rho / (liftSt L).rho) = num √(R.rho / L.rho) := by
      rw [show (liftSt R).rho / (liftSt L).rho = num (R.rho / L.rho) from num_div _ h1, sqrt_num h3]
    have hT1 : 1 + √(R.rho / L.rho) ≠ 0 := by positivity
    unfold Euler.roeAverages at h4
    simp only at h4
    unfold roe1 nanSt
    simp only
    rw [hT, H_lift h1, H_lift h2]
    have hv : ((liftSt L).v + num √(R.rho / L.rho) * (liftSt R).v) / (num 1 + num √(R.rho / L.rho)) =
        num ((L.v + √(R.rho / L.rho) * R.v) / (1 + √(R.rho / L.rho))) := by
      rw [v_lift h1, v_lift h2, num_mul, num_add, num_add, num_div _ hT1]
    have hH : (num (L.H γ) + num √(R.rho / L.rho) * num (R.H γ)) / (num 1 + num √(R.rho / L.rho)) =
        num ((L.H γ + √(R.rho / L.rho) * R.H γ) / (1 + √(R.rho / L.rho))) := by
      rw [num_mul, num_add, num_add, num_div _ hT1]
    rw [hv, hH]
    generalize (L.v + √(R.rho / L.rho) * R.v) / (1 + √(R.rho / L.rho)) = V at h4 ⊢
    generalize (L.H γ + √(R.rho / L.rho) * R.H γ) / (1 + √(R.rho / L.rho)) = H at h4 ⊢
    have hA : sqrt (num (γ - 1) * (num H - num (1 / 2) * num V * num V)) = nan ∨
        sqrt (num (γ - 1) * (num H - num (1 / 2) * num V * num V)) = num 0 := by
      simp only [num_mul, num_sub]
      rcases lt_or_eq_of_le (not_lt.mp h4) with h | h
      · exact .inl (sqrt_neg h)
      · right; rw [h, sqrt_num le_rfl, Real.sqrt_zero]
    rcases hA with hA | hA <;> rw [hA] <;> simp
  · have hT : sqrt ((liftSt R).rho / (liftSt L).rho) = nan := by
      rw [show (liftSt R).rho / (liftSt L).rho = num (R.rho / L.rho) from num_div _ h1, sqrt_neg (not_le.mp h3)]
    unfold roe1 nanSt
    simp [hT]

/-- Where the solver called `name` gives real numbers. -/
def SolverReal (γ : ℝ) (name : String) (L R : Euler.St) : Prop :=
  if name = "rusanov" then L.IsReal γ ∧ R.IsReal γ else Euler.RoeReal γ L R

/-- Its flux there. -/
noncomputable def realFlux (γ : ℝ) (name : String) (L R : Euler.St) : Euler.St :=
  if name = "rusanov" then Euler.rusanov1 γ L R else Euler.roe1 γ L R

lemma solver_real {name : String} {L R : Euler.St} (h : SolverReal γ name L R) :
    solver1 γ name (liftSt L) (liftSt R) = liftSt (realFlux γ name L R) := by
  unfold SolverReal at h
  unfold solver1 realFlux
  split_ifs at h ⊢ with hn
  · exact rusanov_real h.1 h.2
  · exact roe_real h

lemma solver_nan {name : String} {l r : St} (h : ¬ ∃ L R : Euler.St, l = liftSt L ∧ r = liftSt R ∧ SolverReal γ name L R) :
    solver1 γ name l r = nanSt := by
  unfold SolverReal at h
  unfold solver1
  split_ifs at h ⊢ with hn
  · exact rusanov_nan h
  · exact roe_nan h

end states

end Dg1d.Nan
