import Verif.Proofs.Simulation
import Verif.Proofs.Runs
import Verif.Proofs.DgAdvection
import Verif.Model.Limiter
import Verif.Model.Dg
import Verif.Model.Euler

/-! A limiter whose sensor never fires: it only fills the ghost cells again, and the run is the run without limiter. -/

set_option linter.unusedSectionVars false

namespace Dg1d
variable {K : Type*} [Field K] [LinearOrder K] [IsStrictOrderedRing K]

/-- With these thresholds the sensor raises no flag, whatever the solution. -/
def Physics.Mute (kw : Physics K) (th : List K) : Prop :=
  ∀ u NF len, kw.sensing th u NF ⟨len, fun _ => 0⟩ = .ok ⟨len, fun _ => 0⟩

/-- The limiter with a mute sensor. -/
lemma mute_limit (lm : HrLimiter K) {a : Sol K} {sn : Sensor K} (hs : a.sensors = some sn) (hm : a.kw.Mute sn.thresholds) :
    Limiter.limit (some lm) a = .ok (Sol.applyBc { a with sensors := some ⟨sn.thresholds, ⟨sn.sensors.len, fun _ => 0⟩⟩ }) := by
  unfold Limiter.limit HrLimiter.adaptiveHr
  simp only [hs]
  unfold Sensor.sensing
  rw [hm a.u a.NF sn.sensors.len]
  simp only [ne_eq, not_true_eq_false, if_false]
  have hf : ∀ l : List ℕ, l.foldlM (fun (ulim : Arr K) (_ : ℕ) => (Except.ok ulim : Except PyErr (Arr K))) a.u = .ok a.u := by
    intro l
    induction l with
    | nil => rfl
    | cons e l ih => exact ih
  rw [hf]

/-- Relation inside a step: the coefficients agree wherever `apply_bc` looks. -/
structure MuteStage (s0 a b : Sol K) : Prop where
  la : Like a s0
  lb : Like b s0
  sa : a.sensors = s0.sensors
  sb : b.sensors = s0.sensors
  t : a.t = b.t
  n : a.n = b.n
  u : ∀ r c, a.u.val r (s0.bcCol c) = b.u.val r (s0.bcCol c)

/-- Relation between steps: equal, and the ghost cells are filled. -/
structure MuteHead (s0 a b : Sol K) : Prop where
  eq : a = b
  like : Like a s0
  sensors : a.sensors = s0.sensors
  filled : ∀ r c, a.u.val r (s0.bcCol c) = a.u.val r c

lemma Like.bcCol {a s : Sol K} (h : Like a s) (c : ℕ) : a.bcCol c = s.bcCol c := by
  unfold Sol.bcCol
  rw [h.setup.NF, h.setup.NE, h.setup.bcl, h.setup.bcr]

lemma sol_ext {a b s : Sol K} (ha : SameSetup a s) (hb : SameSetup b s) (hu : a.u = b.u) (ht : a.t = b.t) (hn : a.n = b.n)
    (hs : a.sensors = b.sensors) : a = b := by
  obtain ⟨h1, h2, h3, h4, h5, h6, h7, h8, h9, h10, h11⟩ := ha.trans hb.symm
  cases a; cases b; simp_all

lemma arr_ext {A B : Arr K} (h1 : A.rows = B.rows) (h2 : A.cols = B.cols) (h3 : ∀ r c, A.val r c = B.val r c) : A = B := by
  cases A; cases B
  simp only at h1 h2 h3
  subst h1 h2
  congr 1
  funext r c
  exact h3 r c

variable {s0 : Sol K}

lemma Like.applyBc' {a s : Sol K} (h : Like a s) : Like a.applyBc s := by
  refine ⟨(applyBc_setup a).trans h.setup, ?_, ?_⟩
  · rw [← h.rows]; unfold Sol.applyBc Sol.applyBcRight Sol.applyBcLeft; split_ifs <;> rfl
  · rw [← h.cols]; unfold Sol.applyBc Sol.applyBcRight Sol.applyBcLeft; split_ifs <;> rfl

lemma like_bc_val (hF : 0 < s0.NF) (hE : 0 < s0.NE) (hc : s0.u.cols = (s0.NE + 2) * s0.NF) {a : Sol K} (h : Like a s0) (r c : ℕ) :
    a.applyBc.u.val r c = a.u.val r (s0.bcCol c) := by
  rw [applyBc_val (by rw [h.setup.NF]; exact hF) (by rw [h.setup.NE]; exact hE) (by rw [h.cols, h.setup.NE, h.setup.NF, hc]), h.bcCol]

lemma bc_sensors (s : Sol K) : s.applyBc.sensors = s.sensors := by
  unfold Sol.applyBc Sol.applyBcRight Sol.applyBcLeft; split_ifs <;> rfl

lemma MuteStage.bc (hF : 0 < s0.NF) (hE : 0 < s0.NE) (hc : s0.u.cols = (s0.NE + 2) * s0.NF) {a b : Sol K} (h : MuteStage s0 a b) :
    MuteHead s0 a.applyBc b.applyBc := by
  have hu : a.applyBc.u = b.applyBc.u :=
    arr_ext (by rw [h.la.applyBc'.rows, h.lb.applyBc'.rows]) (by rw [h.la.applyBc'.cols, h.lb.applyBc'.cols])
      fun r c => by rw [like_bc_val hF hE hc h.la, like_bc_val hF hE hc h.lb, h.u]
  refine ⟨sol_ext h.la.applyBc'.setup h.lb.applyBc'.setup hu ?_ ?_ ?_, h.la.applyBc', ?_, fun r c => ?_⟩
  · rw [(applyBc_clock a).1, (applyBc_clock b).1, h.t]
  · rw [(applyBc_clock a).2, (applyBc_clock b).2, h.n]
  · rw [bc_sensors, bc_sensors, h.sa, h.sb]
  · rw [bc_sensors, h.sa]
  · rw [like_bc_val hF hE hc h.la, like_bc_val hF hE hc h.la, bcCol_idem s0 hE]

lemma MuteHead.stage {a b : Sol K} (h : MuteHead s0 a b) : MuteStage s0 a b := by
  obtain ⟨rfl, hl, hs, -⟩ := h
  exact ⟨hl, hl, hs, hs, rfl, rfl, fun _ _ => rfl⟩

/-- The limited and the unlimited run, with a mute sensor and flags that are down at the start. -/
lemma mute_simulates (hF : 0 < s0.NF) (hE : 0 < s0.NE) (hc : s0.u.cols = (s0.NE + 2) * s0.NF) {th : List K} {len : ℕ}
    (hs : s0.sensors = some ⟨th, ⟨len, fun _ => 0⟩⟩) (hm : s0.kw.Mute th) (lm : HrLimiter K) :
    Simulates Eq (⟨residual, Limiter.limit (some lm)⟩ : Env K) ⟨residual, Limiter.limit none⟩ (MuteStage s0) (MuteHead s0) Eq := by
  have hlim : ∀ a : Sol K, Like a s0 → a.sensors = s0.sensors → Limiter.limit (some lm) a = .ok a.applyBc := by
    intro a ha hsa
    rw [mute_limit lm (hsa.trans hs) (by rw [ha.setup.kw]; exact hm)]
    have : ({ a with sensors := some ⟨th, ⟨len, fun _ => 0⟩⟩ } : Sol K) = a := by
      have := hsa.trans hs
      cases a; simp_all
    rw [this]
  exact
    { errRefl := fun _ => rfl
      zero := fun a b h => by rw [h.la.rows, h.la.cols, h.lb.rows, h.lb.cols]
      smul := fun a F F' h => by rw [h]
      axpy := by
        rintro g a b F _ h rfl
        refine ⟨⟨?_, h.la.rows, h.la.cols⟩, ⟨?_, h.lb.rows, h.lb.cols⟩, h.sa, h.sb, h.t, h.n, fun r c => ?_⟩
        · exact SameSetup.trans (by constructor <;> rfl) h.la.setup
        · exact SameSetup.trans (by constructor <;> rfl) h.lb.setup
        · show a.u.val r (s0.bcCol c) + _ = b.u.val r (s0.bcCol c) + _
          rw [h.u]
      copy := by
        intro w w' a b hw h
        refine ⟨⟨?_, h.la.rows, h.la.cols⟩, ⟨?_, h.lb.rows, h.lb.cols⟩, hw.sa, hw.sb, hw.t, hw.n, h.u⟩
        · exact SameSetup.trans (by constructor <;> rfl) hw.la.setup
        · exact SameSetup.trans (by constructor <;> rfl) hw.lb.setup
      clock := by
        intro a b x m h
        refine ⟨⟨?_, h.la.rows, h.la.cols⟩, ⟨?_, h.lb.rows, h.lb.cols⟩, h.sa, h.sb, ?_, ?_, h.u⟩
        · exact SameSetup.trans (by constructor <;> rfl) h.la.setup
        · exact SameSetup.trans (by constructor <;> rfl) h.lb.setup
        · show a.t + x = b.t + x; rw [h.t]
        · show a.n + m = b.n + m; rw [h.n]
      head := fun a b h => h.stage
      bc := fun a b h => h.bc hF hE hc
      cfl := fun a b c h => by rw [h.eq]
      headLimit := by
        rintro a _ ⟨rfl, hl, hsa, hf⟩ _ _
        show ExRel Eq _ (Limiter.limit (some lm) a) (.ok a)
        rw [hlim a hl hsa]
        have : a.applyBc = a := by
          refine sol_ext hl.applyBc'.setup hl.setup ?_ (applyBc_clock a).1 (applyBc_clock a).2 (bc_sensors a)
          exact arr_ext (by rw [hl.applyBc'.rows, hl.rows]) (by rw [hl.applyBc'.cols, hl.cols]) fun r c => by
            rw [like_bc_val hF hE hc hl, hf]
        rw [this]
        exact ⟨⟨rfl, hl, hsa, hf⟩, rfl, rfl⟩
      stageLimit := by
        intro a b h
        show ExRel Eq _ (Limiter.limit (some lm) a) (.ok b)
        rw [hlim a h.la h.sa]
        refine ⟨h.la.applyBc', h.lb, ?_, h.sb, ?_, ?_, fun r c => ?_⟩
        · rw [bc_sensors, h.sa]
        · rw [(applyBc_clock a).1, h.t]
        · rw [(applyBc_clock a).2, h.n]
        · rw [like_bc_val hF hE hc h.la, bcCol_idem s0 hE, h.u]
      res := by
        intro a b h
        have hb := h.bc hF hE hc
        have he : residual a = residual b := by
          unfold residual
          simp only [hb.eq]
        refine ExRel.of_eq (fun _ => rfl) he fun v hv => ?_
        refine ⟨?_, rfl⟩
        have : v.1 = a.applyBc := by
          change residual a = _ at hv
          unfold residual at hv
          simp only at hv
          split at hv
          · cases hv
          · split at hv
            · cases hv
            · cases hv; rfl
        rw [this]
        have hst := hb.stage
        rw [← hb.eq] at hst
        exact hst }

/-- Ghost cells that `apply_bc` leaves alone: the two runs start alike. -/
lemma mute_start (hF : 0 < s0.NF) (hE : 0 < s0.NE) (hc : s0.u.cols = (s0.NE + 2) * s0.NF) (h : s0.applyBc = s0) : MuteHead s0 s0 s0 := by
  have hl : Like s0 s0 := ⟨by constructor <;> rfl, rfl, rfl⟩
  refine ⟨rfl, hl, rfl, fun r c => ?_⟩
  rw [← like_bc_val hF hE hc hl, h]

lemma applyBc_twice (hF : 0 < s0.NF) (hE : 0 < s0.NE) (hc : s0.u.cols = (s0.NE + 2) * s0.NF) : s0.applyBc.applyBc = s0.applyBc := by
  have hl : Like s0 s0 := ⟨by constructor <;> rfl, rfl, rfl⟩
  have hl1 := hl.applyBc'
  have hl2 := hl1.applyBc'
  refine sol_ext hl2.setup hl1.setup ?_ (applyBc_clock _).1 (applyBc_clock _).2 (bc_sensors _)
  refine arr_ext (by rw [hl2.rows, hl1.rows]) (by rw [hl2.cols, hl1.cols]) fun r c => ?_
  rw [like_bc_val hF hE hc hl1, like_bc_val hF hE hc hl, like_bc_val hF hE hc hl, bcCol_idem s0 hE]

/-- `2 x / (1 + x)^2` never exceeds one half. -/
lemma ratio_le_half (x : K) : 2 * x / ((1 + x) * (1 + x)) ≤ 1 / 2 := by
  by_cases h : 1 + x = 0
  · rw [h]; simp
  · have h2 : 0 < (1 + x) * (1 + x) := mul_self_pos.mpr h
    rw [div_le_div_iff₀ h2 (by norm_num)]
    nlinarith [sq_nonneg (1 - x)]

lemma raise_none {flag : ℕ → Bool} (h : ∀ i, flag i = false) (m v : ℕ) (s : Vec ℕ) : raiseSensors flag m v s = s := by
  unfold raiseSensors
  simp [h]

lemma advection_mute {th : List K} {x : K} (hx : 1 / 2 ≤ x) : (Advection.physics (K := K)).Mute (x :: th) := by
  intro u NF len
  show Advection.sensing (x :: th) u NF _ = _
  unfold Advection.sensing
  simp only
  rw [raise_none]
  intro i
  rw [decide_eq_false_iff_not, gt_iff_lt, not_lt]
  unfold Advection.indicator
  exact (ratio_le_half _).trans hx

lemma euler_mute {γ : ℝ} {name : String} {th : List ℝ} {x y : ℝ} (hx : 1 / 2 ≤ x) (hy : 1 / 2 ≤ y) :
    (Euler.physics γ name).Mute (x :: y :: th) := by
  intro u NF len
  show Euler.sensing γ (x :: y :: th) u NF _ = _
  unfold Euler.sensing
  simp only
  rw [raise_none, raise_none]
  · intro i
    rw [decide_eq_false_iff_not]
    unfold Euler.isDiscontinuity
    intro h
    exact absurd h.2 (not_lt.mpr ((ratio_le_half _).trans hx))
  · intro i
    rw [decide_eq_false_iff_not]
    unfold Euler.isShock
    intro h
    exact absurd h.2.1 (not_lt.mpr ((ratio_le_half _).trans hy))

end Dg1d
