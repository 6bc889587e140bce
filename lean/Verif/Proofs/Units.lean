import Verif.Spec.Units
import Verif.Model.Dg
import Verif.Model.Limiter
import Verif.Model.Euler
import Verif.Model.Integrate
import Mathlib.Tactic.Ring
import Mathlib.Tactic.FieldSimp
import Mathlib.Tactic.Linarith
import Mathlib.Tactic.Positivity
import Mathlib.Tactic.IntervalCases

/-! Helper lemmas: a change of units commutes with every function of the time loop. -/

open Dg1d.Spec

namespace Dg1d

lemma Units_vel_pos (U : Units) : 0 < U.vel := div_pos U.len_pos U.time_pos
lemma Units_field_pos (U : Units) (f : ℕ) : 0 < U.field f := mul_pos U.dens_pos (pow_pos (Units_vel_pos U) f)

/-- Column `c` of an array of three interleaved fields. -/
noncomputable def Spec.Units.colF (U : Units) (c : ℕ) : ℝ := U.field (c % 3)

lemma colF_pos (U : Units) (c : ℕ) : 0 < U.colF c := Units_field_pos U _
lemma colF_add (U : Units) {a : ℕ} (c : ℕ) (ha : a % 3 = 0) : U.colF (a + c) = U.colF c := by
  unfold Spec.Units.colF; congr 1; omega
lemma colF_sub (U : Units) {a : ℕ} (c : ℕ) (ha : a % 3 = 0) (h : a ≤ c) : U.colF (c - a) = U.colF c := by
  unfold Spec.Units.colF; congr 1; omega

/-- Array, vector in the new units. -/
noncomputable def Spec.Units.arr (U : Units) (A : Arr ℝ) : Arr ℝ := ⟨A.rows, A.cols, fun r c => U.colF c * A.val r c⟩
noncomputable def Spec.Units.vec (U : Units) (v : Vec ℝ) : Vec ℝ := ⟨v.len, fun c => U.colF c * v.val c⟩

lemma pyIdx_mod {n : ℕ} {i : ℤ} (hn : n % 3 = 0) (hi : i % 3 = 0) : pyIdx n i % 3 = 0 := by
  unfold pyIdx; split <;> omega

section arrays
variable (U : Units)

lemma sol_u (s : Sol ℝ) : (U.sol s).u = U.arr s.u := rfl

lemma arr_colSlice (A : Arr ℝ) (hc : A.cols % 3 = 0) {lo : ℤ} (hi : ℤ) (hlo : lo % 3 = 0) :
    (U.arr A).colSlice lo hi = U.arr (A.colSlice lo hi) := by
  unfold Arr.colSlice Spec.Units.arr
  simp only [Arr.mk.injEq, true_and]
  funext r c
  rw [colF_add U c (pyIdx_mod hc hlo)]

lemma arr_setColSlice (A B : Arr ℝ) (hc : A.cols % 3 = 0) {lo : ℤ} (hi : ℤ) (hlo : lo % 3 = 0) :
    (U.arr A).setColSlice lo hi (U.arr B) = U.arr (A.setColSlice lo hi B) := by
  unfold Arr.setColSlice Spec.Units.arr
  simp only [Arr.mk.injEq, true_and]
  funext r c
  split
  · rename_i h; rw [colF_sub U c (pyIdx_mod hc hlo) h.1]
  · rfl

lemma arr_dot (A B : Arr ℝ) : A.dot (U.arr B) = U.arr (A.dot B) := by
  unfold Arr.dot Spec.Units.arr
  simp only [Arr.mk.injEq, true_and]
  funext r c
  rw [Finset.mul_sum]
  exact Finset.sum_congr rfl fun k _ => by ring

lemma arr_row (A : Arr ℝ) (r : ℕ) : (U.arr A).row r = U.vec (A.row r) := rfl

lemma vec_slice (v : Vec ℝ) (hc : v.len % 3 = 0) {lo : ℤ} (hi : ℤ) (hlo : lo % 3 = 0) : (U.vec v).slice lo hi = U.vec (v.slice lo hi) := by
  unfold Vec.slice Spec.Units.vec
  simp only [Vec.mk.injEq, true_and]
  funext c
  rw [colF_add U c (pyIdx_mod hc hlo)]

lemma arr_add (A B : Arr ℝ) : (U.arr A).add (U.arr B) = U.arr (A.add B) := by
  unfold Arr.add Spec.Units.arr
  simp only [Arr.mk.injEq, true_and]
  funext r c; ring

lemma arr_smul (a : ℝ) (A : Arr ℝ) : (U.arr A).smul a = U.arr (A.smul a) := by
  unfold Arr.smul Spec.Units.arr
  simp only [Arr.mk.injEq, true_and]
  funext r c; ring

lemma arr_zeros (r c : ℕ) : (Arr.zeros r c : Arr ℝ) = U.arr (Arr.zeros r c) := by
  unfold Arr.zeros Spec.Units.arr; simp

lemma dotArr_arr (v : Vec ℝ) (A : Arr ℝ) (c : ℕ) : (v.dotArr (U.arr A)).val c = U.colF c * (v.dotArr A).val c := by
  unfold Vec.dotArr Spec.Units.arr
  simp only
  rw [Finset.mul_sum]
  exact Finset.sum_congr rfl fun k _ => by ring

end arrays

namespace Euler
variable {γ : ℝ} (U : Units)

/-- A state in the new units. -/
noncomputable def unitSt (s : St) : St := ⟨U.field 0 * s.rho, U.field 1 * s.m, U.field 2 * s.E⟩
/-- A flux in the new units. -/
noncomputable def unitFlux (s : St) : St := ⟨U.vel * (U.field 0 * s.rho), U.vel * (U.field 1 * s.m), U.vel * (U.field 2 * s.E)⟩

lemma stateAt_vec (v : ℕ → ℝ) (i : ℕ) : stateAt (fun c => U.colF c * v c) i = unitSt U (stateAt v i) := by
  unfold stateAt unitSt Spec.Units.colF
  simp only [St.mk.injEq]
  refine ⟨?_, ?_, ?_⟩
  · rw [show (0 + 3 * i) % 3 = 0 by omega]
  · rw [show (1 + 3 * i) % 3 = 1 by omega]
  · rw [show (2 + 3 * i) % 3 = 2 by omega]

lemma unit_v (s : St) : (unitSt U s).v = U.vel * s.v := by
  have h := U.dens_pos
  unfold St.v unitSt Spec.Units.field
  simp only [pow_zero, mul_one, pow_one]
  by_cases h0 : s.rho = 0
  · simp [h0]
  · field_simp

lemma unit_p (s : St) : (unitSt U s).p γ = U.field 2 * s.p γ := by
  unfold St.p
  rw [unit_v]
  unfold unitSt Spec.Units.field
  simp only
  ring

lemma unit_c2 (s : St) : γ * (unitSt U s).p γ / (unitSt U s).rho = U.vel ^ 2 * (γ * s.p γ / s.rho) := by
  have h := U.dens_pos
  rw [unit_p]
  unfold unitSt Spec.Units.field
  simp only [pow_zero, mul_one]
  by_cases h0 : s.rho = 0
  · simp [h0]
  · field_simp

lemma unit_a (s : St) : (unitSt U s).a γ = U.vel * s.a γ := by
  unfold St.a
  rw [unit_c2, Real.sqrt_mul (sq_nonneg _), Real.sqrt_sq (Units_vel_pos U).le]

lemma unit_H (s : St) : (unitSt U s).H γ = U.vel ^ 2 * s.H γ := by
  have h := U.dens_pos
  unfold St.H
  rw [unit_p]
  unfold unitSt Spec.Units.field
  simp only [pow_zero, mul_one]
  by_cases h0 : s.rho = 0
  · simp [h0]
  · field_simp

lemma unit_rho (s : St) : (unitSt U s).rho = U.dens * s.rho := by unfold unitSt Spec.Units.field; simp

lemma unit_rho_ne (s : St) : (unitSt U s).rho ≠ 0 ↔ s.rho ≠ 0 := by
  rw [unit_rho]
  have h := U.dens_pos
  constructor
  · intro h1 h2; exact h1 (by rw [h2, mul_zero])
  · intro h1; positivity

lemma unit_isReal (s : St) : (unitSt U s).IsReal γ ↔ s.IsReal γ := by
  unfold St.IsReal
  rw [unit_rho_ne, unit_c2, mul_nonneg_iff_of_pos_left (pow_pos (Units_vel_pos U) 2)]

lemma unit_ratio (L R : St) : (unitSt U R).rho / (unitSt U L).rho = R.rho / L.rho := by
  rw [unit_rho, unit_rho, mul_div_mul_left _ _ U.dens_pos.ne']

lemma unit_roe (L R : St) : roeAverages γ (unitSt U L) (unitSt U R) =
    (U.dens * (roeAverages γ L R).1, U.vel * (roeAverages γ L R).2.1, U.vel ^ 2 * (roeAverages γ L R).2.2.1, U.vel * (roeAverages γ L R).2.2.2) := by
  unfold roeAverages
  simp only
  rw [unit_ratio, unit_rho, unit_v, unit_v, unit_H, unit_H]
  have hv : ∀ t : ℝ, (U.vel * L.v + t * (U.vel * R.v)) / (1 + t) = U.vel * ((L.v + t * R.v) / (1 + t)) := fun t => by ring
  have hH : ∀ t : ℝ, (U.vel ^ 2 * L.H γ + t * (U.vel ^ 2 * R.H γ)) / (1 + t) = U.vel ^ 2 * ((L.H γ + t * R.H γ) / (1 + t)) := fun t => by ring
  rw [hv, hH]
  refine Prod.ext ?_ (Prod.ext rfl (Prod.ext rfl ?_))
  · simp only; ring
  · simp only
    rw [show ∀ x y : ℝ, (γ - 1) * (U.vel ^ 2 * x - 1 / 2 * (U.vel * y) * (U.vel * y)) = U.vel ^ 2 * ((γ - 1) * (x - 1 / 2 * y * y)) from fun x y => by ring,
      Real.sqrt_mul (sq_nonneg _), Real.sqrt_sq (Units_vel_pos U).le]

lemma unit_roe_c2 (L R : St) : (γ - 1) * ((roeAverages γ (unitSt U L) (unitSt U R)).2.2.1
      - 1 / 2 * (roeAverages γ (unitSt U L) (unitSt U R)).2.1 * (roeAverages γ (unitSt U L) (unitSt U R)).2.1) =
    U.vel ^ 2 * ((γ - 1) * ((roeAverages γ L R).2.2.1 - 1 / 2 * (roeAverages γ L R).2.1 * (roeAverages γ L R).2.1)) := by
  rw [unit_roe]; simp only; ring

lemma unit_roeReal (L R : St) : RoeReal γ (unitSt U L) (unitSt U R) ↔ RoeReal γ L R := by
  unfold RoeReal
  rw [unit_ratio, unit_roe_c2, mul_pos_iff_of_pos_left (pow_pos (Units_vel_pos U) 2), unit_rho, unit_rho,
    mul_ne_zero_iff, mul_ne_zero_iff]
  simp only [ne_eq, U.dens_pos.ne', not_false_eq_true, true_and]

lemma unit_flux1 (s : St) : flux1 γ (unitSt U s) = unitFlux U (flux1 γ s) := by
  unfold flux1 unitFlux
  rw [unit_v, unit_p, unit_rho]
  unfold unitSt Spec.Units.field
  simp only [St.mk.injEq]
  refine ⟨by ring, by ring, by ring⟩

lemma unit_rusanov1 (L R : St) : rusanov1 γ (unitSt U L) (unitSt U R) = unitFlux U (rusanov1 γ L R) := by
  have hv := Units_vel_pos U
  unfold rusanov1 unitFlux
  simp only [unit_v, unit_p, unit_a, unit_rho]
  have hm : max (|U.vel * L.v| + U.vel * L.a γ) (|U.vel * R.v| + U.vel * R.a γ) = U.vel * max (|L.v| + L.a γ) (|R.v| + R.a γ) := by
    rw [abs_mul, abs_mul, abs_of_pos hv, ← mul_add, ← mul_add, mul_max_of_nonneg _ _ hv.le]
  rw [hm]
  generalize max (|L.v| + L.a γ) (|R.v| + R.a γ) = M
  unfold unitSt Spec.Units.field
  simp only [St.mk.injEq]
  refine ⟨by ring, by ring, by ring⟩

lemma entropyFix_mul {c : ℝ} (hc : 0 < c) (ws cL cR : ℝ) : entropyFix (c * ws) (c * cL) (c * cR) = c * entropyFix ws cL cR := by
  unfold entropyFix
  simp only
  have hD : max 0 (4 * (c * cR - c * cL)) = c * max 0 (4 * (cR - cL)) := by
    rw [← mul_sub, mul_max_of_nonneg _ _ hc.le, mul_zero]; congr 1; ring
  rw [hD]
  generalize max 0 (4 * (cR - cL)) = D
  rw [show 1 / 2 * (c * D) = c * (1 / 2 * D) by ring]
  simp only [mul_lt_mul_iff_right₀ hc]
  split
  · by_cases hD0 : D = 0
    · simp [hD0]
    · field_simp
  · rfl

lemma unit_fixed {c : ℝ} (hc : 0 < c) (L R : St) (ws cL cR : ℝ) :
    fixedSpeed γ (unitSt U L) (unitSt U R) (c * ws) (c * cL) (c * cR) = c * fixedSpeed γ L R ws cL cR := by
  unfold fixedSpeed
  rw [unit_isReal, unit_isReal, entropyFix_mul hc]
  split <;> rfl

lemma unit_roe1 (L R : St) : roe1 γ (unitSt U L) (unitSt U R) = unitFlux U (roe1 γ L R) := by
  have hv := Units_vel_pos U
  have hd := U.dens_pos
  unfold roe1
  rw [unit_roe]
  generalize roeAverages γ L R = A
  obtain ⟨rho, v, H, a⟩ := A
  simp only
  simp only [unit_v, unit_p, unit_a, unit_rho]
  rw [← mul_sub U.vel v a, ← mul_add U.vel v a, abs_mul, abs_mul, abs_mul, abs_of_pos hv, ← mul_sub U.vel L.v, ← mul_sub U.vel R.v (R.a γ),
    ← mul_add U.vel L.v, ← mul_add U.vel R.v, unit_fixed U hv, unit_fixed U hv]
  generalize fixedSpeed γ L R |v - a| (L.v - L.a γ) (R.v - R.a γ) = w0
  generalize fixedSpeed γ L R |v + a| (L.v + L.a γ) (R.v + R.a γ) = w2
  generalize |v| = w1
  have e0 : U.vel * w0 * (U.field 2 * R.p γ - U.field 2 * L.p γ - U.dens * rho * (U.vel * a) * (U.vel * R.v - U.vel * L.v)) / (2 * (U.vel * a) * (U.vel * a))
      = U.vel * U.dens * (w0 * (R.p γ - L.p γ - rho * a * (R.v - L.v)) / (2 * a * a)) := by
    rcases eq_or_ne a 0 with rfl | h
    · simp [Spec.Units.field]; try ring
    · unfold Spec.Units.field; field_simp
  have e1 : U.vel * w1 * (U.dens * R.rho - U.dens * L.rho - (U.field 2 * R.p γ - U.field 2 * L.p γ) / (U.vel * a * (U.vel * a)))
      = U.vel * U.dens * (w1 * (R.rho - L.rho - (R.p γ - L.p γ) / (a * a))) := by
    rcases eq_or_ne a 0 with rfl | h
    · simp [Spec.Units.field]; try ring
    · unfold Spec.Units.field; field_simp
  have e2 : U.vel * w2 * (U.field 2 * R.p γ - U.field 2 * L.p γ + U.dens * rho * (U.vel * a) * (U.vel * R.v - U.vel * L.v)) / (2 * (U.vel * a) * (U.vel * a))
      = U.vel * U.dens * (w2 * (R.p γ - L.p γ + rho * a * (R.v - L.v)) / (2 * a * a)) := by
    rcases eq_or_ne a 0 with rfl | h
    · simp [Spec.Units.field]; try ring
    · unfold Spec.Units.field; field_simp
  rw [e0, e1, e2]
  generalize w0 * (R.p γ - L.p γ - rho * a * (R.v - L.v)) / (2 * a * a) = d0
  generalize w1 * (R.rho - L.rho - (R.p γ - L.p γ) / (a * a)) = d1
  generalize w2 * (R.p γ - L.p γ + rho * a * (R.v - L.v)) / (2 * a * a) = d2
  unfold unitFlux unitSt Spec.Units.field
  simp only [St.mk.injEq]
  refine ⟨by ring, by ring, by ring⟩

lemma ofStates_unitFlux (len : ℕ) (f : ℕ → St) (c : ℕ) :
    (ofStates len fun i => unitFlux U (f i)).val c = U.vel * (U.colF c * (ofStates len f).val c) := by
  unfold ofStates interleave3 unitFlux Spec.Units.colF
  simp only
  have h3 : c % 3 < 3 := Nat.mod_lt _ (by norm_num)
  interval_cases c % 3 <;> simp

/-- A vector of fluxes in the new units. -/
noncomputable def _root_.Dg1d.Spec.Units.fvec (U : Units) (v : Vec ℝ) : Vec ℝ := ⟨v.len, fun c => U.vel * (U.colF c * v.val c)⟩

lemma unit_interiorFlux (A : Arr ℝ) : (interiorFlux γ (U.arr A)) = ((U.arr (interiorFlux γ A)).smul U.vel) := by
  unfold interiorFlux Spec.Units.arr Arr.smul
  simp only [Arr.mk.injEq, true_and]
  funext r c
  rw [← ofStates_unitFlux]
  congr 2
  funext i
  rw [stateAt_vec, unit_flux1]

lemma unit_solver {C C' : ℕ → Prop} (n len : ℕ) (f f' : ℕ → St) (hC : ∀ i, C' i ↔ C i) (hf : ∀ i, f' i = unitFlux U (f i))
    {d' : Decidable (∃ i < n, ¬ C' i)} {d : Decidable (∃ i < n, ¬ C i)} :
    (if ∃ i < n, ¬ C' i then .error .notReal else .ok (ofStates len f') : Except PyErr (Vec ℝ)) =
      (if ∃ i < n, ¬ C i then .error .notReal else .ok (ofStates len f) : Except PyErr (Vec ℝ)).map U.fvec := by
  have hiff : (∃ i < n, ¬ C' i) ↔ ∃ i < n, ¬ C i := by simp only [hC]
  by_cases h : ∃ i < n, ¬ C i
  · rw [if_pos h, if_pos (hiff.mpr h)]; rfl
  · rw [if_neg h, if_neg (fun h' => h (hiff.mp h'))]
    simp only [Except.map, Except.ok.injEq]
    unfold Spec.Units.fvec
    rw [show (ofStates len f).len = len from rfl]
    simp only [← ofStates_unitFlux, ← hf]
    rfl

lemma unit_rusanov (ul ur : Vec ℝ) : rusanov γ (U.vec ul) (U.vec ur) = (rusanov γ ul ur).map U.fvec := by
  unfold rusanov
  refine unit_solver U (C := fun i => (stateAt ul.val i).IsReal γ ∧ (stateAt ur.val i).IsReal γ)
    (C' := fun i => (stateAt (U.vec ul).val i).IsReal γ ∧ (stateAt (U.vec ur).val i).IsReal γ) _ _ _ _ (fun i => ?_) fun i => ?_
  · rw [show stateAt (U.vec ul).val i = _ from stateAt_vec U ul.val i, show stateAt (U.vec ur).val i = _ from stateAt_vec U ur.val i,
      unit_isReal, unit_isReal]
  · rw [show stateAt (U.vec ul).val i = _ from stateAt_vec U ul.val i, show stateAt (U.vec ur).val i = _ from stateAt_vec U ur.val i,
      unit_rusanov1]

lemma unit_roeVec (ul ur : Vec ℝ) : roe γ (U.vec ul) (U.vec ur) = (roe γ ul ur).map U.fvec := by
  unfold roe
  refine unit_solver U (C := fun i => RoeReal γ (stateAt ul.val i) (stateAt ur.val i))
    (C' := fun i => RoeReal γ (stateAt (U.vec ul).val i) (stateAt (U.vec ur).val i)) _ _ _ _ (fun i => ?_) fun i => ?_
  · rw [show stateAt (U.vec ul).val i = _ from stateAt_vec U ul.val i, show stateAt (U.vec ur).val i = _ from stateAt_vec U ur.val i,
      unit_roeReal]
  · rw [show stateAt (U.vec ul).val i = _ from stateAt_vec U ul.val i, show stateAt (U.vec ur).val i = _ from stateAt_vec U ur.val i,
      unit_roe1]

lemma unit_riemann {name : String} (hn : name ≠ "godunov") (ul ur : Vec ℝ) :
    (physics γ name).riemann (U.vec ul) (U.vec ur) = ((physics γ name).riemann ul ur).map U.fvec := by
  unfold physics
  simp only [hn, if_false]
  split
  · exact unit_rusanov U ul ur
  · exact unit_roeVec U ul ur

lemma foldl_max_mul {c : ℝ} (hc : 0 ≤ c) (g g' : ℕ → ℝ) (hg : ∀ i, g' i = c * g i) (l : List ℕ) (m : ℝ) :
    l.foldl (fun m i => max m (g' i)) (c * m) = c * l.foldl (fun m i => max m (g i)) m := by
  induction l generalizing m with
  | nil => rfl
  | cons i l ih => simp only [List.foldl_cons]; rw [hg, ← mul_max_of_nonneg _ _ hc, ih]

/-- A wave speed in the new units. -/
noncomputable def _root_.Dg1d.Spec.Units.wave (U : Units) : Wave ℝ → Wave ℝ
  | .fin v => .fin (U.vel * v)
  | .nan => .nan

lemma unit_wave (A : Arr ℝ) : maxWaveSpeed γ (U.arr A) = (maxWaveSpeed γ A).map U.wave := by
  have hst : ∀ i, stateAt ((U.arr A).val 0) i = unitSt U (stateAt (A.val 0) i) := fun i => stateAt_vec U (A.val 0) i
  have hv := Units_vel_pos U
  unfold maxWaveSpeed
  simp only [hst]
  rw [show (U.arr A).cols = A.cols from rfl]
  have hbad : (∃ i < (A.cols + 2) / 3, (unitSt U (stateAt (A.val 0) i)).rho = 0 ∨ γ * (unitSt U (stateAt (A.val 0) i)).p γ / (unitSt U (stateAt (A.val 0) i)).rho < 0) ↔
      ∃ i < (A.cols + 2) / 3, (stateAt (A.val 0) i).rho = 0 ∨ γ * (stateAt (A.val 0) i).p γ / (stateAt (A.val 0) i).rho < 0 := by
    refine exists_congr fun i => and_congr_right fun _ => or_congr ?_ ?_
    · exact not_iff_not.mp (unit_rho_ne U _)
    · rw [unit_c2]
      constructor
      · intro h; by_contra h'; exact absurd h (not_lt.mpr (mul_nonneg (by positivity) (not_lt.mp h')))
      · intro h; exact mul_neg_of_pos_of_neg (by positivity) h
  simp only [hbad]
  split
  · rfl
  · split
    · rfl
    · simp only [Except.map, Except.ok.injEq, Spec.Units.wave, Wave.fin.injEq]
      have hg : ∀ i, |(unitSt U (stateAt (A.val 0) i)).v| + (unitSt U (stateAt (A.val 0) i)).a γ =
          U.vel * (|(stateAt (A.val 0) i).v| + (stateAt (A.val 0) i).a γ) := fun i => by
        rw [unit_v, unit_a, abs_mul, abs_of_pos hv, mul_add]
      rw [hg 0]
      exact foldl_max_mul hv.le _ _ hg _ _

lemma unit_faceStates (A : Arr ℝ) (hc : A.cols % 3 = 0) (i : ℕ) :
    faceStates (U.arr A) 3 i = (unitSt U (faceStates A 3 i).1, unitSt U (faceStates A 3 i).2) := by
  unfold faceStates
  simp only [arr_row]
  rw [vec_slice U _ hc _ (by norm_num), vec_slice U _ hc _ (by norm_num)]
  exact Prod.ext (stateAt_vec U _ i) (stateAt_vec U _ i)

lemma unit_isDiscontinuity (th : ℝ) (L R : St) : isDiscontinuity γ th (unitSt U L) (unitSt U R) ↔ isDiscontinuity γ th L R := by
  have hv := Units_vel_pos U
  have hd := U.dens_pos
  unfold isDiscontinuity
  rw [unit_ratio, unit_rho_ne, unit_rho_ne]
  have hc2 := unit_roe_c2 (γ := γ) U L R
  rw [unit_roe] at hc2 ⊢
  generalize roeAverages γ L R = A at hc2 ⊢
  obtain ⟨rho, v, H, a⟩ := A
  simp only at hc2 ⊢
  rw [hc2, mul_pos_iff_of_pos_left (pow_pos hv 2), unit_p, unit_p, unit_rho, unit_rho]
  have hxsi : |U.dens * R.rho - U.dens * L.rho - (U.field 2 * R.p γ - U.field 2 * L.p γ) / (U.vel * a * (U.vel * a))| / (U.dens * L.rho + U.dens * R.rho)
      = |R.rho - L.rho - (R.p γ - L.p γ) / (a * a)| / (L.rho + R.rho) := by
    have : U.dens * R.rho - U.dens * L.rho - (U.field 2 * R.p γ - U.field 2 * L.p γ) / (U.vel * a * (U.vel * a))
        = U.dens * (R.rho - L.rho - (R.p γ - L.p γ) / (a * a)) := by
      rcases eq_or_ne a 0 with rfl | h
      · simp; ring
      · unfold Spec.Units.field; field_simp
    rw [this, abs_mul, abs_of_pos hd, ← mul_add, mul_div_mul_left _ _ hd.ne']
  rw [hxsi]

lemma unit_isShock (th : ℝ) (L R : St) : isShock γ th (unitSt U L) (unitSt U R) ↔ isShock γ th L R := by
  have hv := Units_vel_pos U
  have hf := Units_field_pos U 2
  unfold isShock
  rw [unit_ratio, unit_isReal, unit_isReal]
  have hc2 := unit_roe_c2 (γ := γ) U L R
  rw [unit_roe] at hc2 ⊢
  generalize roeAverages γ L R = A at hc2 ⊢
  obtain ⟨rho, v, H, a⟩ := A
  simp only at hc2 ⊢
  rw [hc2, mul_nonneg_iff_of_pos_left (pow_pos hv 2), unit_p, unit_p, unit_v, unit_v, unit_a, unit_a]
  have hphi : |U.field 2 * R.p γ - U.field 2 * L.p γ| / (U.field 2 * L.p γ + U.field 2 * R.p γ) = |R.p γ - L.p γ| / (L.p γ + R.p γ) := by
    rw [← mul_sub, ← mul_add, abs_mul, abs_of_pos hf, mul_div_mul_left _ _ hf.ne']
  rw [hphi, ← mul_add (U.field 2), ← mul_sub, ← mul_sub, ← mul_sub, gt_iff_lt, gt_iff_lt, gt_iff_lt,
    mul_lt_mul_iff_right₀ hv, mul_lt_mul_iff_right₀ hv]
  have h0 : U.field 2 * (L.p γ + R.p γ) ≠ 0 ↔ L.p γ + R.p γ ≠ 0 := by
    constructor
    · intro h1 h2; exact h1 (by rw [h2, mul_zero])
    · intro h1; positivity
  rw [h0]

lemma unit_sensing (th : List ℝ) (A : Arr ℝ) (hc : A.cols % 3 = 0) (v : Vec ℕ) : sensing γ th (U.arr A) 3 v = sensing γ th A 3 v := by
  have h1 : ∀ th i, isDiscontinuity γ th (faceStates (U.arr A) 3 i).1 (faceStates (U.arr A) 3 i).2 ↔
      isDiscontinuity γ th (faceStates A 3 i).1 (faceStates A 3 i).2 := fun th i => by rw [unit_faceStates U A hc, unit_isDiscontinuity]
  have h2 : ∀ th i, isShock γ th (faceStates (U.arr A) 3 i).1 (faceStates (U.arr A) 3 i).2 ↔
      isShock γ th (faceStates A 3 i).1 (faceStates A 3 i).2 := fun th i => by rw [unit_faceStates U A hc, unit_isShock]
  unfold sensing
  rcases th with _ | ⟨th0, _ | ⟨th1, rest⟩⟩
  · rfl
  · rfl
  · simp only
    congr 2
    · funext i; exact decide_eq_decide.mpr (h2 th1 i)
    · congr 1
      funext i; exact decide_eq_decide.mpr (h1 th0 i)

end Euler
end Dg1d
