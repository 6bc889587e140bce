import Verif.Props.Runs
import Verif.Props.Limiter
import Verif.Props.Sensor
import Verif.Props.Enhance
import Verif.Props.Godunov
import Verif.Props.Construct

/-! # Whole runs with the limiter, the enhancement and the physics of the code

The theorems of `Props/Runs.lean` with their abstract limiter and physics replaced by those of the code. -/

open Polynomial Dg1d.Spec

namespace Dg1d.Props
open Text

/-- The physics entries chosen by the constructor. -/
structure CodePhysics (γ : ℝ) (system riemann : Str) (s : Sol ℝ) : Prop where
  kw : s.kw = (manipulationFunctions γ system riemann).1
  NF : s.NF = (manipulationFunctions γ system riemann).2

variable {γ : ℝ} {system riemann : Str} {s : Sol ℝ} {lib : GaussLib ℝ} {p : ℕ}

lemma CodePhysics.euler (h : CodePhysics γ system riemann s) (he : system = "euler".toList) :
    s.kw = Euler.physics γ (String.ofList riemann) ∧ s.NF = 3 := by
  have h1 := h.kw
  have h2 := h.NF
  unfold manipulationFunctions at h1 h2
  rw [if_pos he] at h1 h2
  exact ⟨h1, h2⟩

lemma CodePhysics.advection (h : CodePhysics γ system riemann s) (he : system ≠ "euler".toList) :
    s.kw = Advection.physics ∧ s.NF = 1 := by
  have h1 := h.kw
  have h2 := h.NF
  unfold manipulationFunctions at h1 h2
  rw [if_neg he] at h1 h2
  exact ⟨h1, h2⟩

/-- A state at which the system is in its physical regime: positive density and pressure for Euler, anything otherwise. -/
def Regular (γ : ℝ) (system : Str) (c : ℕ → ℝ) : Prop :=
  system = "euler".toList → ∃ w : Prim, w.Phys ∧ ∀ k : Fin 3, c k = w.cons γ k

lemma euler_consistent (hγ : 1 < γ) {name : String} {ps : PhysSpec ℝ 3} (hps : (Euler.physics γ name).Pointwise ps) {w : Prim} (hw : w.Phys) :
    ¬ ps.fails (w.cons γ) (w.cons γ) ∧ ps.num (w.cons γ) (w.cons γ) = ps.flux (w.cons γ) := by
  have hF : FluxAt γ name w w (w.flux γ) := by
    by_cases h : name = "godunov"
    · rw [h]; exact C38_godunov hγ hw
    · exact C38_consistent hγ h hw
  have hone : fieldsAt 3 (oneState γ w).val 0 = w.cons γ := (fieldsAt_of γ (oneState_at γ w w)).1
  obtain ⟨⟨q, hq⟩, hval⟩ := hF
  have hnf : ¬ ps.fails (w.cons γ) (w.cons γ) := by
    intro hf
    obtain ⟨e, -, he⟩ := hps.riemannErr (oneState γ w) (oneState γ w) 1 rfl rfl ⟨0, by norm_num, by rw [hone]; exact hf⟩
    rw [hq] at he
    cases he
  refine ⟨hnf, ?_⟩
  obtain ⟨q', hq', -, hv⟩ := hps.riemannOk (oneState γ w) (oneState γ w) 1 rfl rfl (fun i hi => by
    obtain rfl : i = 0 := by omega
    rw [hone]; exact hnf)
  rw [hq] at hq'
  cases hq'
  funext k
  have h1 := (hval (oneState γ w) (oneState γ w) 1 rfl rfl q hq).2 0 (by norm_num) (oneState_at γ w w) k
  have h2 := hv 0 (by norm_num) k
  rw [hone] at h2
  have h3 := hps.flux ⟨1, 3, fun _ => (oneState γ w).val⟩ 1 0 0 k rfl (by norm_num) (by norm_num)
  rw [show fieldsAt 3 (Arr.val ⟨1, 3, fun _ => (oneState γ w).val⟩ 0) 0 = w.cons γ from hone] at h3
  have h4 : ((Euler.physics γ name).interiorFlux ⟨1, 3, fun _ => (oneState γ w).val⟩).val 0 (0 * 3 + k) = w.flux γ k := by
    show (Euler.interiorFlux γ ⟨1, 3, fun _ => (oneState γ w).val⟩).val 0 (0 * 3 + k) = _
    rw [Euler.interiorFlux_val, show fieldsAt 3 (Arr.val ⟨1, 3, fun _ => (oneState γ w).val⟩ 0) 0 = w.cons γ from hone,
      Euler.flux_cons hγ hw.1.ne']
  rw [← h2, h1, ← h3, h4]

/-- The physics of the code acts point by point, and is consistent at regular states. -/
lemma CodePhysics.pointwise (hγ : 1 < γ) (h : CodePhysics γ system riemann s) :
    ∃ ps : PhysSpec ℝ s.NF, s.kw.Pointwise ps ∧ s.kw.WaveCells s.NF ∧ ∀ c : ℕ → ℝ, Regular γ system c →
      ¬ ps.fails (fun f => c f) (fun f => c f) ∧ ps.num (fun f => c f) (fun f => c f) = ps.flux (fun f => c f) := by
  by_cases he : system = "euler".toList
  · obtain ⟨h1, h2⟩ := h.euler he
    rw [h1]
    have key : ∀ n, n = 3 → ∃ ps : PhysSpec ℝ n, (Euler.physics γ (String.ofList riemann)).Pointwise ps ∧
        (Euler.physics γ (String.ofList riemann)).WaveCells n ∧ ∀ c : ℕ → ℝ, Regular γ system c →
        ¬ ps.fails (fun f => c f) (fun f => c f) ∧ ps.num (fun f => c f) (fun f => c f) = ps.flux (fun f => c f) := by
      rintro n rfl
      obtain ⟨ps, hps⟩ := euler_pointwise hγ (String.ofList riemann)
      refine ⟨ps, hps, Euler.waveCells γ _, fun c hc => ?_⟩
      obtain ⟨w, hw, hcw⟩ := hc he
      rw [show (fun f : Fin 3 => c f) = w.cons γ from funext hcw]
      exact euler_consistent hγ hps hw
    exact key _ h2
  · obtain ⟨h1, -⟩ := h.advection he
    rw [h1]
    exact ⟨Advection.spec s.NF, Advection.pointwise s.NF, Advection.waveCells s.NF, fun c _ => ⟨fun hf => hf, rfl⟩⟩

/-- **C15.** Periodic boundaries, the physics, Riemann solver, limiter and any enhancement of the code: the total of every
field is in every output and in the current state what it was initially. -/
theorem C15_limited (hγ : 1 < γ) (h : s.Built lib p) (hp : CodePhysics γ system riemann s) (hl : s.bcl = .lit "periodic") (hr : s.bcr = .lit "periodic")
    {limiting : String} {lm : Limiter ℝ} (hi : Limiter.init limiting s = .ok lm) (deck : RkDeck ℝ) (k : ℕ) :
    (∀ f < s.NF, total (integrate ⟨residual, lm.limit⟩ deck s k).sol f = total s f) ∧
    ∀ o ∈ (integrate ⟨residual, lm.limit⟩ deck s k).log, ∀ f < s.NF, total o.sol f = total s f := by
  obtain ⟨ps, hps, -⟩ := hp.pointwise hγ
  refine C15_conservation h ps hps hl hr lm.limit ?_ deck _ k
  intro a b ha hb
  cases lm with
  | none => cases hb; exact ⟨ha, fun _ _ _ _ _ => rfl⟩
  | some lm =>
    have hty : limiting = "adaptive_hr" := by
      by_contra hne
      unfold Limiter.init at hi
      rw [if_neg hne] at hi
      cases hi
    subst hty
    obtain ⟨h1, -, -, h4⟩ := limit_row0 (ok_of_init h hi) (ha.built h) hb
    refine ⟨h1.trans ha, fun e he1 he2 f hf => ?_⟩
    have hab := ha.built h
    rw [cellMean_eq (by rw [h1.rows, hab.rows]; omega), cellMean_eq (by rw [hab.rows]; omega), h1.setup.NF, h4,
      bcCol_interior a he1 (by rw [ha.setup.NE]; exact he2) (by rw [ha.setup.NF]; exact hf)]

/-! ### C16 -/

/-- The weights of an enhancement reproduce constants. -/
lemma enhance_const {modes : List ℤ} {en : Enhance ℝ} (h : Enhance.init lib p modes = .ok en) (hm : ∀ m ∈ modes, m ≤ p) : EnhanceConst en := by
  obtain ⟨h1, h2⟩ := C61_weights_exact h hm
  have hproj : ∀ n, projCoeff (1 : ℝ[X]) n = if n = 0 then 1 else 0 := by
    intro n
    unfold projCoeff
    rw [one_mul]
    split
    · rename_i h0
      subst h0
      have := intPoly_legSeries 1 (fun _ => (1 : ℝ)) 0 (by norm_num)
      simp [legSeries, legendre_zero] at this
      simp [legendre_zero, this]
    · rename_i h0
      have := intPoly_legSeries (n + 1) (fun k => if k = 0 then (1 : ℝ) else 0) n (by omega)
      have h1 : legSeries (n + 1) (fun k => if k = 0 then (1 : ℝ) else 0) = 1 := by
        unfold legSeries
        rw [Finset.sum_eq_single 0]
        · simp [legendre_zero]
        · intro b _ hb; simp [hb]
        · intro h; simp at h
      rw [h1, one_mul, if_neg h0, zero_mul] at this
      rw [this, zero_mul]
  have key : ∀ (own other : ℕ → ℝ) (sh x : ℝ), ExactWeights p (p + modes.length) own other sh x → own 0 + other 0 = 1 := by
    intro own other sh x hw
    have := hw 1 (by rw [degree_one]; exact WithBot.coe_le_coe.mpr (Nat.zero_le _))
    rw [one_comp, eval_one] at this
    simp only [hproj, mul_ite, mul_one, mul_zero] at this
    rw [Finset.sum_ite_eq' _ 0, Finset.sum_ite_eq' _ 0, if_pos (Finset.mem_range.mpr (by omega)), if_pos (Finset.mem_range.mpr (by omega))] at this
    exact this
  exact ⟨key _ _ _ _ h1, by rw [add_comm]; exact key _ _ _ _ h2⟩

/-- On a uniform solution no cell is flagged, if no threshold is negative. -/
lemma uniform_flags (hγ : 1 < γ) (h : s.Built lib p) (hp : CodePhysics γ system riemann s) {c : ℕ → ℝ} (hu : IsUniform s c) (hc : Regular γ system c)
    {sn sn' : Sensor ℝ} (hth : ∀ x ∈ sn.thresholds, 0 ≤ x) (hs : sn.sensing s = .ok sn') (e : ℕ) : sn'.sensors.val e = 0 := by
  have hmean := ((isUniform_iff h.rows c).mp hu).mean
  have hrow : 0 < s.u.rows := by rw [h.rows]; omega
  by_cases he : system = "euler".toList
  · obtain ⟨h1, h2⟩ := hp.euler he
    obtain ⟨w, hw, hcw⟩ := hc he
    have hE : EulerSol γ s (fun _ => w) :=
      ⟨⟨_, h1⟩, h2, hrow, by rw [h.cols, h2], fun _ _ => hw, fun e he k => by
        rw [cellMean_eq hrow, hmean e he k (by rw [h2]; exact k.2), hcw]⟩
    by_cases hl : sn.thresholds.length < 2
    · rw [C49_thresholds hE sn hl] at hs; cases hs
    obtain ⟨th0, th1, rest, hth'⟩ : ∃ th0 th1 rest, sn.thresholds = th0 :: th1 :: rest := by
      rcases h : sn.thresholds with _ | ⟨x, _ | ⟨y, l⟩⟩
      · rw [h] at hl; simp at hl
      · rw [h] at hl; simp at hl
      · exact ⟨x, y, l, rfl⟩
    exact C49_uniform hγ hE sn sn' th0 th1 rest hth' (hth _ (by rw [hth']; simp)) (hth _ (by rw [hth']; simp)) hs e (fun _ => rfl) (fun _ => rfl)
  · obtain ⟨h1, h2⟩ := hp.advection he
    have hA : AdvectionSol s := ⟨h1, h2, hrow, by rw [h.cols, h2, mul_one]⟩
    rcases hl : sn.thresholds with _ | ⟨th, rest⟩
    · rw [C48_no_threshold hA sn hl] at hs; cases hs
    obtain ⟨sn'', g1, -, -, g4⟩ := C48_flags hA sn th rest hl
    rw [g1] at hs
    cases hs
    refine (g4 e).2 ?_
    rintro ⟨i, hi, hgt, -⟩
    have : jumpAt s i = 0 := by
      unfold jumpAt
      rw [cellMean_eq hrow, cellMean_eq hrow, hmean _ (by omega) 0 (by omega), hmean _ (by omega) 0 (by omega), sub_self, abs_zero]
    rw [this, psi_zero] at hgt
    exact absurd (hth th (by rw [hl]; simp)) (not_le.mpr hgt)

/-- The limiter of the code keeps a uniform solution, if no threshold is negative. -/
lemma limit_uniform (hγ : 1 < γ) (h : s.Built lib p) (hp : CodePhysics γ system riemann s)
    (hl : s.bcl = .lit "periodic" ∨ s.bcl = .lit "zerograd") (hr : s.bcr = .lit "periodic" ∨ s.bcr = .lit "zerograd")
    {c : ℕ → ℝ} (hc : Regular γ system c) {limiting : String} {lm : Limiter ℝ} (hi : Limiter.init limiting s = .ok lm)
    (hth : ∀ th, s.thresholds = some th → ∀ x ∈ th, 0 ≤ x) :
    ∀ a b, Like a s → a.thresholds = s.thresholds → IsUniform a c → lm.limit a = .ok b →
      Like b s ∧ b.thresholds = s.thresholds ∧ IsUniform b c := by
  intro a b ha hta hua hb
  cases lm with
  | none => cases hb; exact ⟨ha, hta, hua⟩
  | some lm =>
    have hty : limiting = "adaptive_hr" := by
      by_contra hne
      unfold Limiter.init at hi
      rw [if_neg hne] at hi
      cases hi
    subst hty
    have hab := ha.built h
    obtain ⟨sn, sn', v, U, h1, h2, rfl, h4, h5, h6, h7⟩ := limit_form (ok_of_init h hi) hab hb
    have hpa : CodePhysics γ system riemann a := ⟨by rw [ha.setup.kw, hp.kw], by rw [ha.setup.NF, hp.NF]⟩
    have hflag := uniform_flags hγ hab hpa hua hc (sn := sn) (sn' := sn') (hth _ (by rw [← hta]; unfold Sol.thresholds; rw [h1]; rfl)) h2
    have hU : ∀ r c, U.val r c = a.u.val r c := fun r c => by rw [h6, if_neg (fun hx => hx.2.2 (hflag _))]
    have hlike := limited_like (sn' := sn') h4 h5
    refine ⟨hlike.trans ha, ?_, ?_⟩
    · rw [thresholds_applyBc, ← hta]
      unfold Sol.thresholds
      rw [h1]
      show some sn'.thresholds = some sn.thresholds
      unfold Sensor.sensing at h2
      split at h2
      · cases h2
      · cases h2; rfl
    · have hka : a.BcKnown := by
        unfold Sol.BcKnown
        rw [ha.setup.bcl, ha.setup.bcr]
        refine ⟨hl.imp ?_ ?_, hr.imp ?_ ?_⟩ <;> (intro hx; rw [hx]; exact ⟨rfl, rfl⟩)
      have hua' := (isUniform_iff hab.rows c).mp hua
      rw [isUniform_iff (by rw [hlike.rows, hab.rows]) c, hlike.setup.NE, hlike.setup.NF]
      have hval : ∀ r c, (Sol.applyBc { a with u := U, sensors := some sn' }).u.val r c = a.applyBc.u.val r c := by
        intro r c
        rw [limited_val hab h5, hU, applyBc_val hab.NF hab.NE hab.cols]
      have hf := uniform_filled hab hka hua'
      refine ⟨fun e he f hff => ?_, fun n h0 hn e he1 he2 f hff => ?_⟩
      · rw [hval, hf e he f hff 0 (by omega), if_pos rfl]
      · rw [hval, hf e (by omega) f hff n hn, if_neg (by omega)]

/-- **C16.** The solver of the code: either system, every Riemann solver name, enhancement with modes up to the order or
none, every limiter name, non-negative thresholds. A uniform solution (positive density and pressure for Euler) stays the
same in every step and every output. -/
theorem C16_limited (hγ : 1 < γ) (h : s.Built lib p) (hp : CodePhysics γ system riemann s)
    (hl : s.bcl = .lit "periodic" ∨ s.bcl = .lit "zerograd") (hr : s.bcr = .lit "periodic" ∨ s.bcr = .lit "zerograd")
    (hen : ∀ en, s.enhance = some en → ∃ modes, Enhance.init lib p modes = .ok en ∧ ∀ m ∈ modes, m ≤ p)
    {c : ℕ → ℝ} (hu : IsUniform s c) (hc : Regular γ system c) {limiting : String} {lm : Limiter ℝ} (hi : Limiter.init limiting s = .ok lm)
    (hth : ∀ th, s.thresholds = some th → ∀ x ∈ th, 0 ≤ x) (deck : RkDeck ℝ) (k : ℕ) :
    IsUniform (integrate ⟨residual, lm.limit⟩ deck s k).sol c ∧
    ∀ o ∈ (integrate ⟨residual, lm.limit⟩ deck s k).log, IsUniform o.sol c := by
  obtain ⟨ps, hps, -, hreg⟩ := hp.pointwise hγ
  obtain ⟨hfail, hcons⟩ := hreg c hc
  refine C16_uniform_flow h ps hps hl hr ?_ c hu hfail hcons lm.limit (limit_uniform hγ h hp hl hr hc hi hth) deck _ k
  intro en he
  obtain ⟨modes, h1, h2⟩ := hen en he
  exact enhance_const h1 h2

/-- Three cells of the state `wB` (density 1/8, velocity 2, pressure 1/10), any order and solver name, with sensors. -/
noncomputable def Ex.uniE (p : ℕ) (riemann : Str) : Sol ℝ :=
  { Ex.solR p with
    kw := Euler.physics (7 / 5) (String.ofList riemann), NF := 3, u := ⟨p + 1, 15, fun n c => if n = 0 then (oneState (7 / 5) Ex.wB).val (c % 3) else 0⟩
    sensors := some ⟨[1 / 10, 1 / 5], ⟨5, fun _ => 0⟩⟩ }

lemma Ex.uniE_built (p : ℕ) (riemann : Str) : (Ex.uniE p riemann).Built realGauss p where
  nodes := (Ex.solR_built p).nodes
  gauss := (Ex.solR_built p).gauss
  basis := rfl
  NF := Nat.succ_pos 2
  NE := Nat.succ_pos 2
  rows := rfl
  cols := rfl
  dx := (Ex.solR_built p).dx
  minv := (Ex.solR_built p).minv
  enh := fun en h => by cases h

lemma Ex.uniE_uniform (p : ℕ) (riemann : Str) : IsUniform (Ex.uniE p riemann) (oneState (7 / 5) Ex.wB).val := by
  rw [isUniform_iff (Ex.uniE_built p riemann).rows]
  constructor
  · intro e _ f hf
    have hf : f < 3 := hf
    show (if 0 = 0 then (oneState (7 / 5) Ex.wB).val ((e * 3 + f) % 3) else 0) = _
    rw [if_pos rfl, Nat.mul_comm, Nat.mul_add_mod, Nat.mod_eq_of_lt hf]
  · intro n h0 _ e _ _ f _
    exact if_neg (by omega)

/-- C15 and C16 apply to it, for every order, solver name, limiter and scheme. -/
example (p : ℕ) (riemann : Str) (deck : RkDeck ℝ) (k : ℕ) : ∃ lm, Limiter.init "adaptive_hr" (Ex.uniE p riemann) = .ok lm ∧
    IsUniform (integrate ⟨residual, lm.limit⟩ deck (Ex.uniE p riemann) k).sol (oneState (7 / 5) Ex.wB).val ∧
    total (integrate ⟨residual, lm.limit⟩ deck (Ex.uniE p riemann) k).sol 0 = total (Ex.uniE p riemann) 0 := by
  obtain ⟨lm, hi⟩ := C60_init (Ex.uniE_built p riemann)
  have hp : CodePhysics (7 / 5) "euler".toList riemann (Ex.uniE p riemann) :=
    ⟨by unfold manipulationFunctions; rw [if_pos rfl]; rfl, by unfold manipulationFunctions; rw [if_pos rfl]; rfl⟩
  refine ⟨_, hi, ?_, (C15_limited (by norm_num) (Ex.uniE_built p riemann) hp rfl rfl hi deck k).1 0 (Nat.succ_pos 2)⟩
  refine (C16_limited (by norm_num) (Ex.uniE_built p riemann) hp (.inl rfl) (.inl rfl) (fun en h => by cases h)
    (Ex.uniE_uniform p riemann) (fun _ => ⟨Ex.wB, Ex.wB_phys, fun k => ?_⟩) hi ?_ deck k).1
  · have := k.isLt
    simp [oneState, this]
  · intro th h x hx
    have : th = [1 / 10, 1 / 5] := (Option.some.inj h).symm
    subst this
    rcases List.mem_pair.mp hx with rfl | rfl <;> norm_num

/-! ### C21 -/

/-- The ghost cells hold what the boundary names say. -/
def GhostsAgree (s : Sol ℝ) : Prop :=
  ∀ r < s.u.rows, ∀ f < s.NF,
    (s.bcl = .lit "periodic" → s.u.val r f = s.u.val r (s.NE * s.NF + f)) ∧
    (s.bcl = .lit "zerograd" → s.u.val r f = s.u.val r (1 * s.NF + f)) ∧
    (s.bcr = .lit "periodic" → s.u.val r ((s.NE + 1) * s.NF + f) = s.u.val r (1 * s.NF + f)) ∧
    (s.bcr = .lit "zerograd" → s.u.val r ((s.NE + 1) * s.NF + f) = s.u.val r (s.NE * s.NF + f))

open Classical in
/-- A limiter with a check in front: it raises when the ghost cells it is given do not hold what they should. -/
noncomputable def watched (limit : Sol ℝ → Except PyErr (Sol ℝ)) (s : Sol ℝ) : Except PyErr (Sol ℝ) :=
  if GhostsAgree s then limit s else .error (.sysExit "stale ghosts")

lemma ghosts_applyBc (hF : 0 < s.NF) (hE : 0 < s.NE) (hc : s.u.cols = (s.NE + 2) * s.NF) : GhostsAgree s.applyBc := by
  obtain ⟨h0, -, -, hin, hpl, hzl, -, hpr, hzr, -, -⟩ := C27_apply_bc s hF hE hc
  have hset := applyBc_setup s
  intro r _ f hf
  rw [hset.bcl, hset.bcr, hset.NE, hset.NF]
  rw [hset.NF] at hf
  refine ⟨fun hb => ?_, fun hb => ?_, fun hb => ?_, fun hb => ?_⟩
  · rw [hpl hb r f hf, hin r s.NE f (by omega) le_rfl hf]
  · rw [hzl hb r f hf, hin r 1 f le_rfl (by omega) hf]
  · rw [hpr hb r f hf, hin r 1 f le_rfl (by omega) hf]
  · rw [hzr hb r f hf, hin r s.NE f (by omega) le_rfl hf]

/-- **C21 (ends of steps).** Limiter of the code: once the ghost cells have been filled, they hold what the boundary names say at the head of every step and in every output. What is missing: the
limiter calls inside a step, see `C21_stale_ghosts`. -/
theorem C21_steps_partial (h : s.Built lib p) {limiting : String} {lm : Limiter ℝ} (hi : Limiter.init limiting s = .ok lm)
    (hg : GhostsAgree s) (deck : RkDeck ℝ) (k : ℕ) :
    GhostsAgree (integrate ⟨residual, lm.limit⟩ deck s k).sol ∧
    ∀ o ∈ (integrate ⟨residual, lm.limit⟩ deck s k).log, GhostsAgree o.sol := by
  have hlim : ∀ a b, Like a s → lm.limit a = .ok b → Like b s ∧ (b = a ∨ GhostsAgree b) := by
    intro a b ha hb
    cases lm with
    | none => cases hb; exact ⟨ha, .inl rfl⟩
    | some lm =>
      have hty : limiting = "adaptive_hr" := by
        by_contra hne
        unfold Limiter.init at hi
        rw [if_neg hne] at hi
        cases hi
      subst hty
      have hab := ha.built h
      obtain ⟨sn, sn', v, U, h1, h2, rfl, h4, h5, h6, h7⟩ := limit_form (ok_of_init h hi) hab hb
      refine ⟨(limited_like h4 h5).trans ha, .inr (ghosts_applyBc hab.NF hab.NE ?_)⟩
      show U.cols = _
      rw [h5]; exact hab.cols
  have inv : Invariant (K := ℝ) ⟨residual, lm.limit⟩ (fun a => Like a s) (fun a => Like a s ∧ GhostsAgree a) (fun _ => True) :=
    { zero := fun _ _ => trivial
      smul := fun _ _ _ => trivial
      axpy := fun a x A hx _ => hx.axpy a A
      copy := fun w x hw hx => hw.copy hx
      clock := fun x a m hx => hx.clock _ _
      head := fun _ hx => hx.1
      bc := fun a ha => ⟨ha.applyBc, ghosts_applyBc (ha.built h).NF (ha.built h).NE (ha.built h).cols⟩
      headLimit := fun a b ha hb => by
        obtain ⟨h1, rfl | h2⟩ := hlim a b ha.1 hb
        · exact ha
        · exact ⟨h1, h2⟩
      stageLimit := fun a b ha hb => (hlim a b ha hb).1
      res := fun a v A ha hres => by rw [residual_sol hres]; exact ⟨ha.applyBc, trivial⟩ }
  obtain ⟨h1, h2⟩ := inv.run deck (schemeFor deck.rk) (s := s) ⟨Like.refl s, hg⟩ k
  exact ⟨h1.2, fun o ho => (h2 o ho).2⟩

/-- **C21 (second sentence false).** Advection of a constant `c ≠ 0`, order at least 1, periodic, ghost cells filled, scheme
rk4, any limiter: the limiter call in the second stage of the first step gets ghost cells that disagree with the boundary
condition. -/
theorem C21_stale_ghosts (h : s.Built lib p) (hp : 1 ≤ p) (hkw : s.kw = Advection.physics) (hen : s.enhance = none)
    (hl : s.bcl = .lit "periodic") (hr : s.bcr = .lit "periodic") {c : ℝ} (hc : c ≠ 0) (hu : IsUniform s fun _ => c) (hg : GhostsAgree s)
    (limit : Sol ℝ → Except PyErr (Sol ℝ)) (deck : RkDeck ℝ) (hrk : deck.rk = "rk4") (hrun : (initLoop deck s).status = .running)
    {dt : ℝ} {o d : Bool} (hdt : getNextTimeStep s (initLoop deck s).tout deck.cfl deck.finaltime = .ok (dt, o, d)) (h0 : dt ≠ 0) :
    (integrate ⟨residual, watched limit⟩ deck s 1).status = .failed (.sysExit "stale ghosts") := by
  have hk : s.BcKnown := ⟨.inl (by rw [hl]; exact ⟨rfl, rfl⟩), .inl (by rw [hr]; exact ⟨rfl, rfl⟩)⟩
  have huu := (isUniform_iff h.rows _).mp hu
  obtain ⟨F, hF, hz, hgh⟩ := uniform_residual h rfl (Advection.spec s.NF) (by rw [hkw]; exact Advection.pointwise _) hk
    (by rw [hen]; intro en he; cases he) huu id rfl
  have hsch : schemeFor deck.rk = .classic (rk4K ℝ) := by rw [hrk]; rfl
  have hsol : (initLoop deck s).sol = s ∧ (initLoop deck s).us = s ∧ (initLoop deck s).work = s := by
    unfold initLoop
    refine ⟨?_, ?_, ?_⟩ <;> (dsimp only; split <;> rfl)
  have hinner : ∀ inc, classicInner ⟨residual, watched limit⟩ (rk4K ℝ) s dt ⟨s, s, inc⟩ = .error (.sysExit "stale ghosts") := by
    intro inc
    have hzip : (rk4K ℝ).coeffs.zip (rk4K ℝ).alphas = (1 / 6, 0) :: (1 / 3, 1 / 2) :: [(1 / 3, 1 / 2), (1 / 6, 1)] := by
      simp [Tableau.map, rk4, Tableau.ofRows, rk4Coeffs, rk4Alphas]; norm_num
    have hst0 : classicStage ⟨residual, watched limit⟩ (rk4K ℝ) s dt 0 (1 / 6) 0 ⟨s, s, inc⟩ =
        .ok ⟨s.applyBc, s.smartAxpy (1 / 6) (F.smul dt), Function.update inc 0 (F.smul dt)⟩ := by
      unfold classicStage
      have : s.copyDataOnly s = s := rfl
      simp only [lt_irrefl, if_false, zero_mul, add_zero, this, rk4_acc0 inc (F.smul dt) s (fun h => absurd h (lt_irrefl _)),
        smartAxpy_zero, hF, Function.update_self]
    have hst1 : ∀ ss, classicStage ⟨residual, watched limit⟩ (rk4K ℝ) s dt 1 (1 / 3) (1 / 2)
        ⟨s.applyBc, ss, Function.update inc 0 (F.smul dt)⟩ = .error (.sysExit "stale ghosts") := by
      intro ss
      unfold classicStage
      simp only [gt_iff_lt, Nat.zero_lt_one, if_true, rk4_acc1 (Function.update inc 0 (F.smul dt)) (F.smul dt) _ (fun _ => Function.update_self _ _ _)]
      rw [smartAxpy_fine _ (Or.inr (by norm_num))]
      have hset := applyBc_setup s
      rw [show watched limit _ = .error (.sysExit "stale ghosts") from if_neg ?_]
      intro hga
      have h1 := (hga 1 (by show 1 < s.u.rows; rw [h.rows]; omega) 0 (by show 0 < s.applyBc.NF; rw [hset.NF]; exact h.NF)).1
        (by show s.applyBc.bcl = _; rw [hset.bcl]; exact hl)
      have h2 := (hg 1 (by rw [h.rows]; omega) 0 h.NF).1 hl
      have hE := h.NE
      have h3 := hgh 1 (by omega) 0 (.inl rfl) ⟨0, h.NF⟩
      have h4 := hz.high 1 Nat.zero_lt_one (by omega) s.NE hE le_rfl 0 h.NF
      have hsh := hset.NE
      have hsf := hset.NF
      change s.u.val 1 0 + 1 / 2 * (dt * F.val 1 0) = s.u.val 1 (s.applyBc.NE * s.applyBc.NF + 0) + 1 / 2 * (dt * F.val 1 (s.applyBc.NE * s.applyBc.NF + 0)) at h1
      rw [hsh, hsf, h4, h2] at h1
      simp only [zero_mul, zero_add, Nat.cast_one] at h3
      change F.val 1 0 = c * _ * _ at h3
      rw [h3] at h1
      have hdx := h.dx
      have hne : dt * (c * ((legendre ℝ 1).eval 1 - (legendre ℝ 1).eval (-1)) * ((2 * 1 + 1) / s.dx)) ≠ 0 := by
        rw [legendre_one, eval_X, eval_X]
        exact mul_ne_zero h0 (mul_ne_zero (mul_ne_zero hc (by norm_num)) (div_ne_zero (by norm_num) hdx))
      rw [mul_zero, mul_zero] at h1
      replace h1 := add_left_cancel h1
      exact hne ((mul_eq_zero.mp h1).resolve_left (by norm_num))
    unfold classicInner
    rw [hzip]
    unfold classicStages
    rw [hst0]
    simp only
    unfold classicStages
    rw [hst1]
  unfold integrate Scheme.run runLoop
  rw [hsch]
  show (loopBody _ _ _ (initLoop deck s)).status = _
  unfold loopBody
  rw [hrun]
  simp only [hsol.1, hsol.2.1, hsol.2.2, hdt]
  have hin : Scheme.inner ⟨residual, watched limit⟩ (.classic (rk4K ℝ)) (s.copyDataOnly s) dt ⟨s, s, (initLoop deck s).incr⟩ =
      .error (.sysExit "stale ghosts") := hinner _
  rw [hin]

/-- The hypotheses of `C21_stale_ghosts` hold of three periodic cells of value 7, order 1, CFL number 1/2, final time 1,
2 outputs: the first time step is 1/12. -/
example (limit : Sol ℝ → Except PyErr (Sol ℝ)) :
    (integrate ⟨residual, watched limit⟩ ⟨"rk4", 1, 2, 1 / 2⟩ ((Ex.solR 1).withVal fun n _ => if n = 0 then 7 else 0) 1).status =
      .failed (.sysExit "stale ghosts") := by
  have hb : ((Ex.solR 1).withVal fun n _ => if n = 0 then 7 else 0).Built realGauss 1 :=
    (Ex.solR_built 1).congr (by constructor <;> rfl) rfl rfl
  refine C21_stale_ghosts hb le_rfl rfl rfl rfl rfl (c := 7) (by norm_num) ?_ (fun r _ f _ => ⟨fun _ => rfl, fun _ => rfl, fun _ => rfl, fun _ => rfl⟩)
    limit _ rfl rfl (dt := 1 / 12) (o := false) (d := false) ?_ (by norm_num)
  · rw [isUniform_iff hb.rows]
    exact ⟨fun e _ f hf => by simp [Sol.withVal], fun n h0 _ e _ _ f _ => if_neg (by omega)⟩
  · have hst : cflTimeStep ((Ex.solR 1).withVal fun n _ => if n = 0 then (7 : ℝ) else 0) (1 / 2) = .ok (.fin (1 / 12)) := by
      unfold cflTimeStep
      show (if (1 : ℝ) * (2 * ((1 : ℕ) : ℝ) + 1) = 0 then _ else Except.ok (Fl.fin ((1 / 2) * (1 / 2) / ((1 : ℝ) * (2 * ((1 : ℕ) : ℝ) + 1))))) = _
      norm_num
    unfold getNextTimeStep
    rw [hst]
    have hs : sanityCheckDt (Fl.fin (1 / 12 : ℝ)) = .ok () := by
      unfold sanityCheckDt
      exact if_neg (by norm_num)
    simp only [hs]
    have ht : (initLoop ⟨"rk4", 1, 2, 1 / 2⟩ ((Ex.solR 1).withVal fun n _ => if n = 0 then (7 : ℝ) else 0)).tout = 1 := by
      show (linspace (0 : ℝ) 1 2).val 1 = 1
      norm_num [linspace]
    rw [ht]
    unfold adjustForOutput
    show Except.ok (if (1 / 12 : ℝ) > 1 - 0 then _ else if (1 / 12 : ℝ) > 1 - 0 then _ else _) = _
    norm_num

/-- `C21_steps_partial` on a solution with sensors, after `apply_bc`. -/
example (p : ℕ) (riemann : Str) (deck : RkDeck ℝ) (k : ℕ) : ∃ lm, Limiter.init "adaptive_hr" (Ex.uniE p riemann).applyBc = .ok lm ∧
    GhostsAgree (integrate ⟨residual, lm.limit⟩ deck (Ex.uniE p riemann).applyBc k).sol := by
  have hb := Ex.uniE_built p riemann
  have hb' := (Like.refl _).applyBc.built hb
  obtain ⟨lm, hi⟩ := C60_init hb'
  exact ⟨_, hi, (C21_steps_partial hb' hi (ghosts_applyBc hb.NF hb.NE hb.cols) deck k).1⟩

end Dg1d.Props
