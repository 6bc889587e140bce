import Verif.Proofs.HrPoly
import Verif.Proofs.Runs

/-! Helper lemmas: the limiter on a constructed solution. -/

set_option linter.unusedSectionVars false

open Polynomial

namespace Dg1d
open Spec
variable {K : Type*} [Field K] [LinearOrder K] [IsStrictOrderedRing K] {lib : GaussLib K} {p : ℕ} {lm : HrLimiter K} {s s' s₀ : Sol K}

lemma ok_of_init (hs : s₀.Built lib p) (hi : Limiter.init "adaptive_hr" s₀ = .ok (some lm)) : LimiterOk lm p := by
  obtain ⟨lm', h1, h2⟩ := limiter_init hs.basis hs.gauss
  rw [hi] at h1
  cases h1
  exact h2

lemma hr_zero (h : LimiterOk lm 0) (uc ul ur : Vec K) : lm.hr uc ul ur = .error .unboundLocal := by
  unfold HrLimiter.hr
  rw [limitMonomial_zero lm _ _ _ h.rowsL]

/-- What a successful call of the limiter did. -/
lemma limit_form (hok : LimiterOk lm p) (hb : s.Built lib p) (h : lm.adaptiveHr s = .ok s') :
    ∃ (sn sn' : Sensor K) (v : ℕ → Vec K) (U : Arr K), s.sensors = some sn ∧ sn.sensing s = .ok sn' ∧
      s' = Sol.applyBc { s with u := U, sensors := some sn' } ∧ U.rows = s.u.rows ∧ U.cols = s.u.cols ∧
      (∀ r c, U.val r c = if 1 ≤ c / s.NF ∧ c / s.NF ≤ s.NE ∧ sn'.sensors.val (c / s.NF) ≠ 0 then (v c).val r else s.u.val r c) ∧
      ∀ e, 1 ≤ e → e ≤ s.NE → sn'.sensors.val e ≠ 0 → ∀ f < s.NF, 1 ≤ p ∧
        lm.hr (s.u.col (e * s.NF + f)) (s.u.col ((e - 1) * s.NF + f)) (s.u.col ((e + 1) * s.NF + f)) = .ok (v (e * s.NF + f)) := by
  rcases hsn : s.sensors with _ | sn
  · unfold HrLimiter.adaptiveHr at h
    rw [hsn] at h; cases h
  rcases hsn' : sn.sensing s with err | sn'
  · unfold HrLimiter.adaptiveHr at h
    rw [hsn] at h
    simp only [hsn'] at h
    cases h
  by_cases hp : 1 ≤ p
  · have hv : ∀ c, ∃ v, lm.hr (s.u.col c) (s.u.col (c - s.NF)) (s.u.col (c + s.NF)) = .ok v := by
      intro c
      obtain ⟨v, hv, _⟩ := hr_spec hok hp (s.u.col c) (s.u.col (c - s.NF)) (s.u.col (c + s.NF))
      exact ⟨v, hv⟩
    choose v hv using hv
    have hv' : ∀ e, 1 ≤ e → e ≤ s.NE → sn'.sensors.val e ≠ 0 → ∀ f < s.NF,
        lm.hr (s.u.col (e * s.NF + f)) (s.u.col ((e - 1) * s.NF + f)) (s.u.col ((e + 1) * s.NF + f)) = .ok (v (e * s.NF + f)) := by
      intro e he _ _ f _
      have := hv (e * s.NF + f)
      obtain ⟨k, rfl⟩ := Nat.exists_eq_add_of_le' he
      have e1 : (k + 1) * s.NF + f - s.NF = k * s.NF + f := by rw [Nat.add_mul]; omega
      have e2 : (k + 1) * s.NF + f + s.NF = (k + 1 + 1) * s.NF + f := by ring
      rw [e1, e2] at this
      exact this
    obtain ⟨U, h1, h2, h3, h4⟩ := adaptiveHr_spec hsn hsn' hb.NF v hv'
    rw [h] at h1
    exact ⟨sn, sn', v, U, rfl, hsn', Except.ok.inj h1, h2, h3, h4, fun e a b d f hf => ⟨hp, hv' e a b d f hf⟩⟩
  · obtain rfl : p = 0 := by omega
    have hnone : ∀ e, 1 ≤ e → e ≤ s.NE → ¬ sn'.sensors.val e ≠ 0 := by
      intro e h1 h2 h3
      have := adaptiveHr_error hsn hsn' hb.NF .unboundLocal (fun e _ _ _ f _ => hr_zero hok _ _ _) h1 h2 h3
      rw [this] at h; cases h
    obtain ⟨U, h1, h2, h3, h4⟩ := adaptiveHr_spec (lm := lm) hsn hsn' hb.NF (fun _ => ⟨0, fun _ => 0⟩)
      (fun e h1 h2 h3 => absurd h3 (hnone e h1 h2))
    rw [h] at h1
    exact ⟨sn, sn', _, U, rfl, hsn', Except.ok.inj h1, h2, h3, h4, fun e a b d => absurd d (hnone e a b)⟩

lemma div_col {e f F : ℕ} (hf : f < F) : (e * F + f) / F = e := by
  rw [mul_comm, Nat.mul_add_div (by omega), Nat.div_eq_of_lt hf, add_zero]

/-- The new array, after the boundary conditions. -/
lemma limited_val {U : Arr K} {sn' : Sensor K} (hb : s.Built lib p) (hc : U.cols = s.u.cols) (r c : ℕ) :
    (Sol.applyBc { s with u := U, sensors := some sn' }).u.val r c = U.val r (s.bcCol c) := by
  rw [applyBc_val (s := { s with u := U, sensors := some sn' }) hb.NF hb.NE (by rw [hc]; exact hb.cols)]
  rfl

lemma limited_like {U : Arr K} {sn' : Sensor K} (hr : U.rows = s.u.rows) (hc : U.cols = s.u.cols) :
    Like (Sol.applyBc { s with u := U, sensors := some sn' }) s := by
  refine ⟨(applyBc_setup _).trans (by constructor <;> rfl), ?_, ?_⟩
  · rw [(applyBc_shape _).1]; exact hr
  · rw [(applyBc_shape _).2]; exact hc

lemma hr_mean (hok : LimiterOk lm p) (hp : 1 ≤ p) {uc ul ur v : Vec K} (h : lm.hr uc ul ur = .ok v) : v.val 0 = uc.val 0 := by
  obtain ⟨w, h1, _, h3⟩ := hr_spec hok hp uc ul ur
  rw [h] at h1
  cases h1
  have := h3.mean
  rw [legSeries_mean, legSeries_mean] at this
  exact mul_left_cancel₀ two_ne_zero this

/-- Limiting leaves row 0 (the averages) alone, up to refilling the ghosts. -/
lemma limit_row0 (hok : LimiterOk lm p) (hb : s.Built lib p) (h : lm.adaptiveHr s = .ok s') :
    Like s' s ∧ s'.t = s.t ∧ s'.n = s.n ∧ ∀ c, s'.u.val 0 c = s.u.val 0 (s.bcCol c) := by
  obtain ⟨sn, sn', v, U, h1, h2, rfl, h4, h5, h6, h7⟩ := limit_form hok hb h
  refine ⟨limited_like h4 h5, applyBc_t _, applyBc_n _, fun c => ?_⟩
  rw [limited_val hb h5, h6]
  split_ifs with hc
  · have hf : s.bcCol c % s.NF < s.NF := Nat.mod_lt _ hb.NF
    have hcc : s.bcCol c / s.NF * s.NF + s.bcCol c % s.NF = s.bcCol c := by rw [mul_comm]; exact Nat.div_add_mod _ _
    obtain ⟨hp, hv⟩ := h7 _ hc.1 hc.2.1 hc.2.2 _ hf
    rw [hcc] at hv
    exact hr_mean hok hp hv
  · rfl

end Dg1d
