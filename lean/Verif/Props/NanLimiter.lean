import Verif.Proofs.NanLimiter
import Verif.Proofs.Autonomy
import Verif.Props.Limiter
import Verif.Props.Nan

/-! # The limiter and NaN (C109) -/

namespace Dg1d.Props

open Polynomial Dg1d.Spec Nan.Num

/-- The first `n` entries are numbers, those of `w`. -/
def HasNumbers (n : ℕ) (v : Vec Nan.Num) (w : Vec ℝ) : Prop := ∀ k < n, v.val k = num (w.val k)

/-- One of the first `n` entries is NaN. -/
def HasNan (n : ℕ) (v : Vec Nan.Num) : Prop := ∃ k < n, v.val k = nan

/-- The column holds a NaN. -/
def ColNan (u : Arr Nan.Num) (c : ℕ) : Prop := ∃ r < u.rows, u.val r c = nan

variable {lib : GaussLib ℝ} {p : ℕ} {lm : HrLimiter ℝ} {s s₀ : Sol ℝ} {uc ul ur : Vec Nan.Num} {uc' ul' ur' : Vec ℝ}

/-- **C109 (no NaN).** On numbers the reconstruction with NaN arithmetic and the sorting of Python is the one of the model. -/
theorem C109_real (hs : s₀.Built lib p) (hi : Limiter.init "adaptive_hr" s₀ = .ok (some lm)) (hp : 1 ≤ p)
    (hc : HasNumbers (p + 1) uc uc') (hl : HasNumbers (p + 1) ul ul') (hr : HasNumbers (p + 1) ur ur') :
    ∃ v w, Nan.hr lm uc ul ur = .ok v ∧ v.len = p + 1 ∧ lm.hr uc' ul' ur' = .ok w ∧ HasNumbers (p + 1) v w := by
  obtain ⟨v, w, h1, h2, h3, h4⟩ := Nan.hr_num (ok_of_init hs hi) hp hc hl hr
  exact ⟨v, w, h2, h3, h1, fun k _ => h4 k⟩

/-- **C109 (own cell).** A NaN anywhere in a column that is limited makes all its coefficients NaN, the average among them. -/
theorem C109_own (hs : s₀.Built lib p) (hi : Limiter.init "adaptive_hr" s₀ = .ok (some lm)) (hp : 1 ≤ p) (ul ur : Vec Nan.Num) (hc : HasNan (p + 1) uc) :
    ∃ v, Nan.hr lm uc ul ur = .ok v ∧ v.len = p + 1 ∧ ∀ k, v.val k = nan :=
  Nan.hr_own (ok_of_init hs hi) hp hc

/-- **C109 (right neighbour).** A NaN anywhere in the right neighbour does the same, even if the column itself is without. -/
theorem C109_right (hs : s₀.Built lib p) (hi : Limiter.init "adaptive_hr" s₀ = .ok (some lm)) (hp : 1 ≤ p) (uc ul : Vec Nan.Num) (hr : HasNan (p + 1) ur) :
    ∃ v, Nan.hr lm uc ul ur = .ok v ∧ v.len = p + 1 ∧ ∀ k, v.val k = nan :=
  Nan.hr_right (ok_of_init hs hi) hp hr

/-- **C109 (left neighbour).** A NaN in the left neighbour only leaves no trace: the result is the one of the model for some real left
neighbour, so that the average is kept and the result is a hierarchical reconstruction. -/
theorem C109_left (hs : s₀.Built lib p) (hi : Limiter.init "adaptive_hr" s₀ = .ok (some lm)) (hp : 1 ≤ p)
    (hc : HasNumbers (p + 1) uc uc') (hl : HasNan (p + 1) ul) (hr : HasNumbers (p + 1) ur ur') :
    ∃ v w ul', Nan.hr lm uc ul ur = .ok v ∧ v.len = p + 1 ∧ lm.hr uc' ul' ur' = .ok w ∧ HasNumbers (p + 1) v w ∧ v.val 0 = num (uc'.val 0) := by
  obtain ⟨ul', v, w, h1, h2, h3, h4⟩ := Nan.hr_left (ok_of_init hs hi) hp hc hl hr
  exact ⟨v, w, ul', h2, h3, h1, fun k _ => h4 k, by rw [h4, hr_mean (ok_of_init hs hi) hp h1]⟩

lemma not_nan {n : ℕ} {v : Vec Nan.Num} (h : ¬ HasNan n v) : ∃ w, HasNumbers n v w := by
  refine ⟨⟨n, fun k => match v.val k with | num x => x | nan => 0⟩, fun k hk => ?_⟩
  cases hv : v.val k with
  | nan => exact absurd ⟨k, hk, hv⟩ h
  | num x => simp [hv]

/-- **C109.** Limiting an array with any flags: an interior column has a NaN afterwards exactly if it had one before, or if its cell is flagged and
its right neighbour had one; the NaN of a flagged cell has then reached the average. Columns of cells that are not flagged are unchanged, and so are
the averages of all columns without NaN. -/
theorem C109_array (hs : s₀.Built lib p) (hi : Limiter.init "adaptive_hr" s₀ = .ok (some lm)) (hp : 1 ≤ p) (hb : s.Built lib p) (flag : ℕ → ℕ)
    {u : Arr Nan.Num} (hr : u.rows = p + 1) (hc : u.cols = (s.NE + 2) * s.NF) :
    ∃ u', Nan.adaptiveHr lm s flag u = .ok u' ∧ u'.rows = u.rows ∧ u'.cols = u.cols ∧
      ∀ e, 1 ≤ e → e ≤ s.NE → ∀ f < s.NF,
        (ColNan u' (e * s.NF + f) ↔ ColNan u (e * s.NF + f) ∨ flag e ≠ 0 ∧ ColNan u ((e + 1) * s.NF + f)) ∧
        (flag e ≠ 0 → ColNan u' (e * s.NF + f) → ∀ r, u'.val r (e * s.NF + f) = nan) ∧
        (flag e = 0 → ∀ r, u'.val r (e * s.NF + f) = u.val r (e * s.NF + f)) ∧
        (¬ ColNan u' (e * s.NF + f) → u'.val 0 (e * s.NF + f) = u.val 0 (e * s.NF + f)) := by
  have ok := ok_of_init hs hi
  obtain ⟨u', h1, h2, h3, -, h4⟩ := Nan.adaptive_cols hb.NF hb.NE ok hp flag hc
  refine ⟨u', h1, h2, h3, fun e g1 g2 f g3 => ?_⟩
  obtain ⟨v, hv, hval⟩ := h4 e g1 g2 f g3
  have hcol : ∀ c, ColNan u c ↔ HasNan (p + 1) (u.col c) := fun c => by unfold ColNan HasNan; rw [hr]; rfl
  by_cases hf : flag e = 0
  · have hval' : ∀ r, u'.val r (e * s.NF + f) = u.val r (e * s.NF + f) := fun r => by rw [hval, if_neg (by simpa using hf)]
    refine ⟨⟨?_, ?_⟩, fun h => absurd hf h, fun _ => hval', fun _ => hval' 0⟩
    · rintro ⟨r, r1, r2⟩
      exact .inl ⟨r, by omega, by rw [← hval', r2]⟩
    · rintro (⟨r, r1, r2⟩ | h)
      · exact ⟨r, by omega, by rw [hval', r2]⟩
      · exact absurd hf h.1
  · simp only [ne_eq, hf, not_false_eq_true, if_true] at hval
    by_cases hown : ColNan u (e * s.NF + f)
    · obtain ⟨w, e1, -, e2⟩ := Nan.hr_own (ul := u.col ((e - 1) * s.NF + f)) (ur := u.col ((e + 1) * s.NF + f)) ok hp ((hcol _).mp hown)
      rw [hv] at e1
      cases e1
      have hn : ColNan u' (e * s.NF + f) := ⟨0, by omega, by rw [hval, e2]⟩
      exact ⟨⟨fun _ => .inl hown, fun _ => hn⟩, fun _ _ r => by rw [hval, e2], fun h => absurd h hf, fun h => absurd hn h⟩
    by_cases hright : ColNan u ((e + 1) * s.NF + f)
    · obtain ⟨w, e1, -, e2⟩ := Nan.hr_right (uc := u.col (e * s.NF + f)) (ul := u.col ((e - 1) * s.NF + f)) ok hp ((hcol _).mp hright)
      rw [hv] at e1
      cases e1
      have hn : ColNan u' (e * s.NF + f) := ⟨0, by omega, by rw [hval, e2]⟩
      exact ⟨⟨fun _ => .inr ⟨hf, hright⟩, fun _ => hn⟩, fun _ _ r => by rw [hval, e2], fun h => absurd h hf, fun h => absurd hn h⟩
    obtain ⟨wc, hwc⟩ := not_nan fun h => hown ((hcol _).mpr h)
    obtain ⟨wr, hwr⟩ := not_nan fun h => hright ((hcol _).mpr h)
    have key : ∃ w : Vec ℝ, (∀ r, v.val r = num (w.val r)) ∧ w.val 0 = wc.val 0 := by
      by_cases hleft : HasNan (p + 1) (u.col ((e - 1) * s.NF + f))
      · obtain ⟨wl, v', w, k1, k2, -, k3⟩ := Nan.hr_left ok hp hwc hleft hwr
        rw [hv] at k2
        cases k2
        exact ⟨w, k3, hr_mean ok hp k1⟩
      · obtain ⟨wl, hwl⟩ := not_nan hleft
        obtain ⟨v', w, k1, k2, -, k3⟩ := Nan.hr_num ok hp hwc hwl hwr
        rw [hv] at k2
        cases k2
        exact ⟨w, k3, hr_mean ok hp k1⟩
    obtain ⟨w, w1, w2⟩ := key
    have hnot : ¬ ColNan u' (e * s.NF + f) := by
      rintro ⟨r, -, hr'⟩
      rw [hval, w1] at hr'
      cases hr'
    refine ⟨⟨fun h => absurd h hnot, fun h => (h.elim hown fun h => hright h.2).elim⟩, fun _ h => absurd h hnot, fun h => absurd h hf, fun _ => ?_⟩
    rw [hval, w1, w2]
    exact (hwc 0 (by omega)).symm

/-- **C109 (never hidden).** Limiting removes no NaN from any interior column, whatever the flags. -/
theorem C109_kept (hs : s₀.Built lib p) (hi : Limiter.init "adaptive_hr" s₀ = .ok (some lm)) (hp : 1 ≤ p) (hb : s.Built lib p) (flag : ℕ → ℕ)
    {u u' : Arr Nan.Num} (hr : u.rows = p + 1) (hc : u.cols = (s.NE + 2) * s.NF) (h : Nan.adaptiveHr lm s flag u = .ok u')
    {e f : ℕ} (h1 : 1 ≤ e) (h2 : e ≤ s.NE) (hf : f < s.NF) (hn : ColNan u (e * s.NF + f)) : ColNan u' (e * s.NF + f) := by
  obtain ⟨w, k1, -, -, k2⟩ := C109_array hs hi hp hb flag hr hc
  rw [h] at k1
  cases k1
  exact (k2 e h1 h2 f hf).1.mpr (.inl hn)

/-- **C109 (averages).** An average that is NaN stays NaN, whatever the flags: the next time step is NaN also with a limiter. -/
theorem C109_average (hs : s₀.Built lib p) (hi : Limiter.init "adaptive_hr" s₀ = .ok (some lm)) (hp : 1 ≤ p) (hb : s.Built lib p) (flag : ℕ → ℕ)
    {u u' : Arr Nan.Num} (hr : u.rows = p + 1) (hc : u.cols = (s.NE + 2) * s.NF) (h : Nan.adaptiveHr lm s flag u = .ok u')
    {e f : ℕ} (h1 : 1 ≤ e) (h2 : e ≤ s.NE) (hf : f < s.NF) (hn : u.val 0 (e * s.NF + f) = nan) : u'.val 0 (e * s.NF + f) = nan := by
  obtain ⟨w, k1, -, -, k2⟩ := C109_array hs hi hp hb flag hr hc
  rw [h] at k1
  cases k1
  obtain ⟨j1, j2, j3, -⟩ := k2 e h1 h2 f hf
  by_cases h0 : flag e = 0
  · rw [j3 h0, hn]
  · exact j2 h0 (j1.mpr (.inl ⟨0, by omega, hn⟩)) 0

/-- **C109 (no NaN, whole array).** On an array of numbers, with the flags the sensor has left, the result is the one of the model. -/
theorem C109_model (hs : s₀.Built lib p) (hi : Limiter.init "adaptive_hr" s₀ = .ok (some lm)) (hp : 1 ≤ p) (hb : s.Built lib p) {s' : Sol ℝ} {sn' : Sensor ℝ}
    (h : Limiter.limit (some lm) s = .ok s') (hf : s'.sensors = some sn') {u : Arr Nan.Num} (hu : SameNumbers u s.u) :
    ∃ u', Nan.adaptiveHr lm s sn'.sensors.val u = .ok u' ∧ SameNumbers u' s'.u := by
  have ok := ok_of_init hs hi
  obtain ⟨sn, sn1, v, U, f1, f2, f3, f4, f5, f6, f7⟩ := limit_form ok hb h
  have hsn : sn1 = sn' := by
    rw [f3, applyBc_sensors] at hf
    exact Option.some.inj hf
  subst hsn
  have hcols : u.cols = (s.NE + 2) * s.NF := hu.2.1.trans hb.cols
  have hrows : u.rows = p + 1 := hu.1.trans hb.rows
  have hcol : ∀ c < (s.NE + 2) * s.NF, ∀ k < p + 1, (u.col c).val k = num ((s.u.col c).val k) := fun c hc k hk =>
    hu.2.2 k (by omega) c (by omega)
  obtain ⟨U2, g1, g2, g3, g4⟩ := Nan.adaptive_spec (lm := lm) (s := s) (flag := sn1.sensors.val) (u := u) hb.NF
    (fun c => ⟨p + 1, fun r => num ((v c).val r)⟩) fun e e1 e2 e3 f hf => by
      have hlt : ∀ d ≤ s.NE + 1, d * s.NF + f < (s.NE + 2) * s.NF := fun d hd => by
        have h1 := Nat.mul_le_mul_right s.NF hd
        have h2 : (s.NE + 2) * s.NF = (s.NE + 1) * s.NF + s.NF := by ring
        omega
      obtain ⟨w, w', k1, k2, k3, k4⟩ := Nan.hr_num ok hp (hcol _ (hlt e (by omega))) (hcol _ (hlt (e - 1) (by omega))) (hcol _ (hlt (e + 1) (by omega)))
      rw [(f7 e e1 e2 e3 f hf).2] at k1
      cases k1
      rw [k2]
      obtain ⟨wl, wv⟩ := w
      simp only at k3 k4
      subst k3
      rw [show wv = fun r => num ((v (e * s.NF + f)).val r) from funext k4]
  have hE : ({ s with u := U, sensors := some sn1 } : Sol ℝ).applyBc = _ := applyBc_eq _ hb.NF hb.NE (f5.trans hb.cols)
  refine ⟨_, g1, ?_⟩
  rw [Nan.bc_val s U2 hb.NF hb.NE (g3.trans hcols), f3, hE]
  refine ⟨g2.trans (hu.1.trans f4.symm), g3.trans (hu.2.1.trans f5.symm), fun r hr c hc => ?_⟩
  show U2.val r (s.bcCol c) = num (U.val r (s.bcCol c))
  have hr' : r < u.rows := by rw [← g2]; exact hr
  have hc' : s.bcCol c < u.cols := by
    rw [hcols]
    exact Nan.bcCol_lt s hb.NE (by rw [← hcols, ← g3]; exact hc)
  rw [g4, f6]
  split_ifs
  · rfl
  · exact hu.2.2 r hr' _ hc'

/-- `sorted([a, b, 0])[1]` depends on the order of its arguments: a NaN in front acts like `-∞`, a NaN behind is returned. -/
example : Nan.scalarMinmod nan (num 3) = num 0 ∧ Nan.scalarMinmod nan (num (-3)) = num (-3) ∧ Nan.scalarMinmod (num 3) nan = nan := by
  refine ⟨?_, ?_, Nan.minmod_right_nan _⟩ <;> rw [Nan.minmod_left_nan] <;> norm_num

/-- The hypotheses of `C109_own`, `C109_right` and `C109_left`, every order from 1 on: the same column with a NaN on the left stays real, with a NaN on
the right it is lost. -/
example (p : ℕ) (hp : 1 ≤ p) : ∃ lm, Limiter.init "adaptive_hr" (solS p) = .ok (some lm) ∧
    (∃ v, Nan.hr lm ⟨p + 1, fun k => num k⟩ ⟨p + 1, fun _ => nan⟩ ⟨p + 1, fun _ => num 5⟩ = .ok v ∧ v.val 0 = num 0) ∧
    ∃ v, Nan.hr lm ⟨p + 1, fun k => num k⟩ ⟨p + 1, fun _ => num 5⟩ ⟨p + 1, fun k => if k = p then nan else num 2⟩ = .ok v ∧ v.val 0 = nan := by
  obtain ⟨lm, h⟩ := C60_init (solS_built p)
  refine ⟨lm, h, ?_, ?_⟩
  · obtain ⟨v, w, ul', h1, -, -, -, h2⟩ := C109_left (uc := ⟨p + 1, fun k => num k⟩) (ul := ⟨p + 1, fun _ => nan⟩) (ur := ⟨p + 1, fun _ => num 5⟩)
      (uc' := ⟨p + 1, fun k => k⟩) (ur' := ⟨p + 1, fun _ => 5⟩) (solS_built p) h hp (fun k _ => rfl) ⟨0, by omega, rfl⟩ (fun k _ => rfl)
    exact ⟨v, h1, by simpa using h2⟩
  · obtain ⟨v, h1, -, h2⟩ := C109_right (solS_built p) h hp ⟨p + 1, fun k => num k⟩ ⟨p + 1, fun _ => num 5⟩
      (ur := ⟨p + 1, fun k => if k = p then nan else num 2⟩) ⟨p, by omega, by simp⟩
    exact ⟨v, h1, h2 0⟩

/-- The hypotheses of `C109_array`: three cells, one NaN in the highest coefficient of cell 2, all cells flagged. It takes over cell 1 and leaves cell 3 alone. -/
example (p : ℕ) (hp : 1 ≤ p) : ∃ lm u', Limiter.init "adaptive_hr" (solS p) = .ok (some lm) ∧
    Nan.adaptiveHr lm (solS p) (fun _ => 1) ⟨p + 1, 5, fun r c => if r = p ∧ c = 2 then nan else num (c * c)⟩ = .ok u' ∧
    u'.val 0 1 = nan ∧ u'.val 0 2 = nan ∧ u'.val 0 3 = num 9 := by
  obtain ⟨lm, h⟩ := C60_init (solS_built p)
  obtain ⟨u', h1, h2, h3, h4⟩ := C109_array (solS_built p) h hp (solS_built p) (fun _ => 1)
    (u := ⟨p + 1, 5, fun r c => if r = p ∧ c = 2 then nan else num (c * c)⟩) rfl rfl
  have hn : ColNan ⟨p + 1, 5, fun r c => if r = p ∧ c = 2 then nan else num (c * c)⟩ 2 := ⟨p, Nat.lt_succ_self p, by simp⟩
  have hNF : (solS p).NF = 1 := rfl
  have hNE : (solS p).NE = 3 := rfl
  rw [hNF, hNE] at h4
  have k1 := h4 1 le_rfl (by omega) 0 (by omega)
  have k2 := h4 2 (by omega) (by omega) 0 (by omega)
  have k3 := h4 3 (by omega) le_rfl 0 (by omega)
  norm_num at k1 k2 k3
  refine ⟨lm, u', h, h1, k1.2.1 (k1.1.mpr (.inr hn)) 0, k2.2.1 (k2.1.mpr (.inl hn)) 0, ?_⟩
  have : ¬ ColNan u' 3 := by
    rw [k3.1]
    rintro (⟨r, -, hr⟩ | ⟨r, -, hr⟩) <;> simp at hr
  exact k3.2.2 this

end Dg1d.Props
