import Verif.Spec.Positivity
import Mathlib.Tactic.FieldSimp
import Mathlib.Tactic.LinearCombination

/-! # The cone of physical states -/

namespace Dg1d.Spec

variable {γ : ℝ}

/-- Positive density, and more energy than kinetic energy. -/
def Cone (u : Fin 3 → ℝ) : Prop := 0 < u 0 ∧ u 1 ^ 2 < 2 * u 0 * u 2

lemma Cone.congr {u v : Fin 3 → ℝ} (h : Cone u) (he : ∀ k, v k = u k) : Cone v := by
  rwa [show v = u from funext he]

lemma Cone.add {u v : Fin 3 → ℝ} (hu : Cone u) (hv : Cone v) : Cone fun k => u k + v k := by
  obtain ⟨a1, a2⟩ := hu
  obtain ⟨b1, b2⟩ := hv
  refine ⟨add_pos a1 b1, ?_⟩
  show (u 1 + v 1) ^ 2 < 2 * (u 0 + v 0) * (u 2 + v 2)
  have hx : 0 < u 0 * v 0 * (2 * u 0 * v 2 + 2 * v 0 * u 2 - 2 * u 1 * v 1) := by
    have h1 := mul_lt_mul_of_pos_left b2 (mul_pos a1 a1)
    have h2 := mul_lt_mul_of_pos_left a2 (mul_pos b1 b1)
    nlinarith [sq_nonneg (u 0 * v 1 - v 0 * u 1)]
  have := (mul_pos_iff_of_pos_left (mul_pos a1 b1)).mp hx
  nlinarith

lemma Cone.smul {u : Fin 3 → ℝ} (hu : Cone u) {a : ℝ} (ha : 0 < a) : Cone fun k => a * u k := by
  obtain ⟨a1, a2⟩ := hu
  refine ⟨mul_pos ha a1, ?_⟩
  show (a * u 1) ^ 2 < 2 * (a * u 0) * (a * u 2)
  have := mul_lt_mul_of_pos_left a2 (mul_pos ha ha)
  linarith [this]

lemma Cone.add_smul {u v : Fin 3 → ℝ} (hu : Cone u) (hv : Cone v) {a : ℝ} (ha : 0 ≤ a) : Cone fun k => u k + a * v k := by
  rcases ha.eq_or_lt with rfl | h
  · exact hu.congr fun k => by ring
  · exact hu.add (hv.smul h)

lemma Cone.add_sum {u : Fin 3 → ℝ} (hu : Cone u) (N : ℕ) (w : ℕ → ℝ) (v : ℕ → Fin 3 → ℝ) (hw : ∀ i < N, 0 < w i)
    (hv : ∀ i < N, Cone (v i)) : Cone fun k => u k + ∑ i ∈ Finset.range N, w i * v i k := by
  induction N with
  | zero => exact hu.congr fun k => by simp
  | succ N ih =>
    exact ((ih (fun i h => hw i (by omega)) fun i h => hv i (by omega)).add ((hv N (by omega)).smul (hw N (by omega)))).congr
      fun k => by rw [Finset.sum_range_succ]; ring

lemma Prim.Phys.cone (hγ : 1 < γ) {w : Prim} (h : w.Phys) : Cone (w.cons γ) := by
  refine ⟨h.1, ?_⟩
  show (w.rho * w.v) ^ 2 < 2 * w.rho * (w.p / (γ - 1) + w.rho * w.v ^ 2 / 2)
  have : 0 < w.rho * (w.p / (γ - 1)) := mul_pos h.1 (div_pos h.2 (by linarith))
  nlinarith

lemma Cone.isGas (hγ : 1 < γ) {u : Fin 3 → ℝ} (h : Cone u) : IsGas γ u := by
  obtain ⟨h1, h2⟩ := h
  have hg : 0 < γ - 1 := by linarith
  refine ⟨⟨u 0, u 1 / u 0, (γ - 1) * (u 2 - u 1 ^ 2 / (2 * u 0))⟩, ⟨h1, mul_pos hg ?_⟩, fun k => ?_⟩
  · rw [sub_pos, div_lt_iff₀ (by linarith)]; linarith
  · fin_cases k
    · rfl
    · show u 1 = u 0 * (u 1 / u 0)
      field_simp
    · show u 2 = (γ - 1) * (u 2 - u 1 ^ 2 / (2 * u 0)) / (γ - 1) + u 0 * (u 1 / u 0) ^ 2 / 2
      field_simp
      ring

lemma IsGas.cone (hγ : 1 < γ) {u : Fin 3 → ℝ} (h : IsGas γ u) : Cone u := by
  obtain ⟨w, hw, he⟩ := h
  exact (hw.cone hγ).congr he

/-- `a u + σ f(u)` is physical for `σ = ±1` and `a` at least the largest signal speed. -/
lemma cone_flux (hγ : 1 < γ) {w : Prim} (h : w.Phys) {a σ : ℝ} (ha : w.speed γ ≤ a) (hσ : σ ^ 2 = 1) :
    Cone fun k => a * w.cons γ k + σ * w.flux γ k := by
  have hg : 0 < γ - 1 := by linarith
  have hc : 0 < w.c γ := Real.sqrt_pos.mpr (div_pos (mul_pos (by linarith) h.2) h.1)
  have hc2 : w.c γ ^ 2 = γ * w.p / w.rho := Real.sq_sqrt (div_pos (mul_pos (by linarith) h.2) h.1).le
  have hb : w.c γ ≤ a + σ * w.v := by
    have : -|w.v| ≤ σ * w.v := by
      rcases mul_self_eq_one_iff.mp ((sq σ).symm.trans hσ) with rfl | rfl
      · rw [one_mul]; exact neg_abs_le _
      · rw [neg_one_mul]; exact neg_le_neg (le_abs_self _)
    unfold Prim.speed at ha
    linarith
  set b := a + σ * w.v with hbd
  have hb0 : 0 < b := hc.trans_le hb
  have e0 : a * w.cons γ 0 + σ * w.flux γ 0 = w.rho * b := by
    show a * w.rho + σ * (w.rho * w.v) = _
    rw [hbd]; ring
  have e1 : a * w.cons γ 1 + σ * w.flux γ 1 = w.rho * w.v * b + σ * w.p := by
    show a * (w.rho * w.v) + σ * (w.rho * w.v ^ 2 + w.p) = _
    rw [hbd]; ring
  have e2 : a * w.cons γ 2 + σ * w.flux γ 2 = w.energy γ * b + σ * w.p * w.v := by
    show a * w.energy γ + σ * (w.v * (w.energy γ + w.p)) = _
    rw [hbd]; ring
  refine ⟨?_, ?_⟩
  · show 0 < a * w.cons γ 0 + σ * w.flux γ 0
    rw [e0]; exact mul_pos h.1 hb0
  · show (a * w.cons γ 1 + σ * w.flux γ 1) ^ 2 < 2 * (a * w.cons γ 0 + σ * w.flux γ 0) * (a * w.cons γ 2 + σ * w.flux γ 2)
    rw [e0, e1, e2]
    have hen : w.energy γ = w.p / (γ - 1) + w.rho * w.v ^ 2 / 2 := rfl
    have hbb : γ * w.p ≤ w.rho * b ^ 2 := by
      have : w.c γ ^ 2 ≤ b ^ 2 := pow_le_pow_left₀ hc.le hb 2
      rw [hc2, div_le_iff₀ h.1] at this
      linarith
    have hkey : w.p ^ 2 < 2 * w.rho * b ^ 2 * (w.p / (γ - 1)) := by
      rw [← mul_div_assoc, lt_div_iff₀ hg]
      nlinarith [mul_le_mul_of_nonneg_right hbb h.2.le, mul_pos h.2 h.2, mul_pos (mul_pos h.2 h.2) (show 0 < γ by linarith)]
    have : 2 * (w.rho * b) * (w.energy γ * b + σ * w.p * w.v) - (w.rho * w.v * b + σ * w.p) ^ 2 =
        2 * w.rho * b ^ 2 * (w.p / (γ - 1)) - σ ^ 2 * w.p ^ 2 := by
      rw [hen]; ring
    rw [hσ, one_mul] at this
    linarith

variable {l a b r : Prim} {t : ℝ}

/-- One cell between two neighbours. -/
lemma rusanov_cell (hγ : 1 < γ) (hl : l.Phys) (ha : a.Phys) (hr : r.Phys) (h0 : 0 ≤ t) (h1 : t * l.speed γ ≤ 1) (h2 : t * a.speed γ ≤ 1)
    (h3 : t * r.speed γ ≤ 1) : Cone fun k => a.cons γ k + t * (rusanovFlux γ l a k - rusanovFlux γ a r k) := by
  rcases h0.eq_or_lt with rfl | ht
  · exact (ha.cone hγ).congr fun k => by ring
  · have c1 := cone_flux hγ hl (le_max_left (l.speed γ) (a.speed γ)) (one_pow 2)
    have c2 := cone_flux hγ hr (le_max_right (a.speed γ) (r.speed γ)) (show (-1 : ℝ) ^ 2 = 1 by norm_num)
    have m1 : t * max (l.speed γ) (a.speed γ) ≤ 1 := by rcases max_choice (l.speed γ) (a.speed γ) with h | h <;> rw [h] <;> assumption
    have m2 : t * max (a.speed γ) (r.speed γ) ≤ 1 := by rcases max_choice (a.speed γ) (r.speed γ) with h | h <;> rw [h] <;> assumption
    refine (((c1.smul (half_pos ht)).add (c2.smul (half_pos ht))).add_smul (ha.cone hγ)
      (show 0 ≤ 1 - t * (max (l.speed γ) (a.speed γ) + max (a.speed γ) (r.speed γ)) / 2 by linarith)).congr fun k => ?_
    unfold rusanovFlux
    ring

/-- The right end of a cell with weight `ω`, less the flux through it. -/
lemma rusanov_right (hγ : 1 < γ) (ha : a.Phys) (hr : r.Phys) {ω : ℝ} (ht : 0 < t) (h2 : t * a.speed γ ≤ ω)
    (h3 : t * r.speed γ ≤ ω) : Cone fun k => ω * a.cons γ k - t * rusanovFlux γ a r k := by
  have c2 := cone_flux hγ hr (le_max_right (a.speed γ) (r.speed γ)) (show (-1 : ℝ) ^ 2 = 1 by norm_num)
  have m2 : t * max (a.speed γ) (r.speed γ) ≤ ω := by rcases max_choice (a.speed γ) (r.speed γ) with h | h <;> rw [h] <;> assumption
  have c1 := cone_flux hγ ha (a := 2 * ω / t - max (a.speed γ) (r.speed γ)) (by
    rw [le_sub_iff_add_le, le_div_iff₀ ht]; linarith) (show (-1 : ℝ) ^ 2 = 1 by norm_num)
  refine ((c1.smul (half_pos ht)).add (c2.smul (half_pos ht))).congr fun k => ?_
  unfold rusanovFlux
  field_simp
  ring

/-- The left end of a cell with weight `ω`, plus the flux through it. -/
lemma rusanov_left (hγ : 1 < γ) (hl : l.Phys) (ha : a.Phys) {ω : ℝ} (ht : 0 < t) (h2 : t * a.speed γ ≤ ω)
    (h3 : t * l.speed γ ≤ ω) : Cone fun k => ω * a.cons γ k + t * rusanovFlux γ l a k := by
  have c2 := cone_flux hγ hl (le_max_left (l.speed γ) (a.speed γ)) (one_pow 2)
  have m2 : t * max (l.speed γ) (a.speed γ) ≤ ω := by rcases max_choice (l.speed γ) (a.speed γ) with h | h <;> rw [h] <;> assumption
  have c1 := cone_flux hγ ha (a := 2 * ω / t - max (l.speed γ) (a.speed γ)) (by
    rw [le_sub_iff_add_le, le_div_iff₀ ht]; linarith) (one_pow 2)
  refine ((c1.smul (half_pos ht)).add (c2.smul (half_pos ht))).congr fun k => ?_
  unfold rusanovFlux
  field_simp
  ring

end Dg1d.Spec
