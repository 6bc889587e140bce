import Verif.Proofs.LimitedLinear
import Verif.Proofs.Mirror
import Verif.Props.Regressions

/-! # Linear elements with limited slopes: no new extrema, no growing variation (C98) -/

set_option linter.unusedSectionVars false

open Polynomial Dg1d.Spec

namespace Dg1d.Props

section
variable {c s : Sol ℝ} {lib : GaussLib ℝ} {lm : HrLimiter ℝ} {th : List ℝ} {deck : RkDeck ℝ} {C : Set (ℕ → ℝ)}

lemma hr_keepsClock (lm : HrLimiter ℝ) : (⟨residual, Limiter.limit (some lm)⟩ : Env ℝ).KeepsClock := by
  intro a a' h
  have h : lm.adaptiveHr a = .ok a' := h
  unfold HrLimiter.adaptiveHr at h
  split at h
  · cases h
  split at h
  · cases h
  split at h
  · cases h
  · cases h
    exact ⟨applyBc_t _, applyBc_n _⟩

/-- The largest CFL numbers of this section. -/
noncomputable def cflLimit (rk : String) : ℝ := if rk = "rk3" then 2 / 5 else 1

/-- What holds at the head of the time loop. -/
structure LimitedHead (s : Sol ℝ) (th : List ℝ) (st : LoopState ℝ) : Prop where
  sol : Fit s th st.sol
  faces : LimitedFaces s st.sol
  work : Fit s th st.work

lemma avg_applyBc (hb : s.Built lib 1) {a : Sol ℝ} (ha : Like a s) {e : ℕ} (h1 : 1 ≤ e) (h2 : e ≤ s.NE) : avg s a.applyBc e = avg s a e := by
  have hB := ha.built hb
  unfold avg
  rw [applyBc_val hB.NF hB.NE hB.cols, ha.bcCol, bcCol_interior s h1 h2 hb.NF]

/-- One iteration of the time loop. -/
lemma limited_body (H : LimitedSetup lib s lm th) (hC : Convex ℝ C) (hK : KeptByAverages (upCell s) C)
    (hcongr : ∀ v w : ℕ → ℝ, (∀ e, 1 ≤ e → e ≤ s.NE → v e = w e) → v ∈ C → w ∈ C) {tab : Tableau ℝ} (htab : tab = rk4K ℝ ∨ tab = rk3R) {st : LoopState ℝ} (h : LimitedHead s th st)
    (hdt : ∀ dt o d, getNextTimeStep st.sol st.tout deck.cfl deck.finaltime = .ok (dt, o, d) → 0 ≤ dt ∧ dt ≤ s.dx / 3 ∧ (tab = rk3R → dt ≤ 2 * s.dx / 15)) (hm : avg s st.sol ∈ C) :
    let st' := loopBody ⟨residual, Limiter.limit (some lm)⟩ deck (classicInner ⟨residual, Limiter.limit (some lm)⟩ tab) st
    LimitedHead s th st' ∧ avg s st'.sol ∈ C := by
  intro st'
  have hst' : st' = loopBody ⟨residual, Limiter.limit (some lm)⟩ deck (classicInner ⟨residual, Limiter.limit (some lm)⟩ tab) st := rfl
  clear_value st'
  unfold loopBody at hst'
  split at hst'
  swap
  · rw [hst']; exact ⟨h, hm⟩
  split at hst'
  · rw [hst']; exact ⟨⟨h.sol, h.faces, h.work⟩, hm⟩
  rename_i dt o d hd
  obtain ⟨d0, d1, d2⟩ := hdt dt o d hd
  obtain ⟨ss, hss, w1, o1, t1, n1, hm1⟩ : ∃ ss, classicInner ⟨residual, Limiter.limit (some lm)⟩ tab (st.us.copyDataOnly st.sol) dt { work := st.work, sol := st.sol, incr := st.incr } = .ok ss ∧
      Fit s th ss.work ∧ Fit s th ss.sol ∧ ss.sol.t = st.sol.t ∧ ss.sol.n = st.sol.n ∧ avg s ss.sol ∈ C := by
    rcases htab with rfl | rfl
    · exact H.inner4 hC hK hcongr (us := st.us.copyDataOnly st.sol) (st := { work := st.work, sol := st.sol, incr := st.incr }) rfl d0 d1 h.work h.sol h.faces hm
    · exact H.inner3 hC hK hcongr (us := st.us.copyDataOnly st.sol) (st := { work := st.work, sol := st.sol, incr := st.incr }) rfl d0 (d2 rfl) h.work h.sol h.faces hm
  simp only [hss] at hst'
  set v : Sol ℝ := { ss.sol with t := ss.sol.t + dt, n := ss.sol.n + 1 } with hv
  have hvl : Like v s := o1.like.clock _ _
  have hvf : Fit s th v.applyBc := ⟨hvl.applyBc, (thresholds_applyBc v).trans o1.th⟩
  obtain ⟨a', ha', f', -, -, m', fc'⟩ := H.limit hvf
  simp only [ha'] at hst'
  have hmem : avg s a' ∈ C := by
    refine hcongr _ _ (fun e h1 h2 => ?_) hm1
    rw [m' e h1 h2, avg_applyBc H.built hvl h1 h2]
    rfl
  have hout : st'.sol = a' ∧ st'.work = ss.work := by
    rw [hst']
    unfold outputPhase
    simp only
    split
    · split
      · exact ⟨rfl, rfl⟩
      · split <;> exact ⟨rfl, rfl⟩
    · exact ⟨rfl, rfl⟩
  refine ⟨⟨?_, ?_, ?_⟩, ?_⟩
  · rw [hout.1]; exact f'
  · rw [hout.1]; exact fc'
  · rw [hout.2]; exact w1
  · rw [hout.1]; exact hmem

/-- The time steps of advection with linear elements. -/
lemma limited_dt (H : LimitedSetup lib s lm th) (hcfl : deck.cfl ≤ cflLimit deck.rk) {st : LoopState ℝ} (h : LimitedHead s th st)
    (hhi : st.sol.t ≤ deck.finaltime) (hto : st.sol.t ≤ st.tout) {dt : ℝ} {o d : Bool}
    (hd : getNextTimeStep st.sol st.tout deck.cfl deck.finaltime = .ok (dt, o, d)) : 0 ≤ dt ∧ dt ≤ s.dx / 3 ∧ (deck.rk = "rk3" → dt ≤ 2 * s.dx / 15) := by
  have h0 : 0 ≤ dt := by
    rcases getNext_cases hd with ⟨-, -, h⟩ | ⟨-, -, h, -⟩ | ⟨-, -, h, -⟩
    · linarith
    · linarith
    · exact le_trans (by positivity) h
  have h1 := advection_dt (h.sol.like.setup.kw.trans H.kw) hd
  rw [h.sol.like.setup.dx, h.sol.like.setup.basis, show s.basis.p = 1 by rw [H.built.basis]; rfl] at h1
  have hx := H.dx
  unfold cflLimit at hcfl
  norm_num at h1
  refine ⟨h0, ?_, fun h3 => ?_⟩
  · have : deck.cfl ≤ 1 := hcfl.trans (by split <;> norm_num)
    have := mul_le_mul_of_nonneg_left this hx.le
    linarith
  · rw [if_pos h3] at hcfl
    have := mul_le_mul_of_nonneg_left hcfl hx.le
    linarith

/-- The set-up seen from the solution handed to the limiter before the time loop. -/
structure LimitedStart (lib : GaussLib ℝ) (c : Sol ℝ) (lm : HrLimiter ℝ) (s : Sol ℝ) : Prop where
  built : c.Built lib 1
  kw : c.kw = Advection.physics
  NF : c.NF = 1
  enhance : c.enhance = none
  dx : 0 < c.dx
  left : c.bcl.isLit "zerograd"
  limiter : ∃ a, a.Built lib 1 ∧ Limiter.init "adaptive_hr" a = .ok (some lm)
  negative : ∃ sn t0 rest, c.sensors = some sn ∧ sn.thresholds = t0 :: rest ∧ t0 < 0
  limited : Limiter.limit (some lm) c = .ok s

lemma LimitedStart.setup (h : LimitedStart lib c lm s) :
    ∃ th, LimitedSetup lib c lm th ∧ Fit c th s ∧ s.t = c.t ∧ (∀ e, 1 ≤ e → e ≤ c.NE → avg c s e = avg c c e) ∧ LimitedFaces c s := by
  obtain ⟨sn, t0, rest, h1, h2, h3⟩ := h.negative
  have H : LimitedSetup lib c lm (t0 :: rest) := ⟨h.built, h.kw, h.NF, h.enhance, h.dx, h.left, h.limiter, t0, rfl, h3⟩
  obtain ⟨a', g1, g2, g3, -, g5, g6⟩ := H.limit (a := c) ⟨Like.refl c, by unfold Sol.thresholds; rw [h1, Option.map_some, h2]⟩
  rw [h.limited] at g1
  cases g1
  exact ⟨_, H, g2, g3, g5, g6⟩

lemma limited_scheme (hrk : deck.rk ∈ ["rk3", "rk4", "low_storage_rk4"]) : ∃ tab, (tab = rk4K ℝ ∨ tab = rk3R) ∧ (tab = rk3R → deck.rk = "rk3") ∧ tableOf deck.rk = tab := by
  simp only [List.mem_cons, List.not_mem_nil, or_false] at hrk
  rcases hrk with h | h | h
  · exact ⟨rk3R, .inr rfl, fun _ => h, by unfold tableOf schemeFor; rw [h]; simp⟩
  · refine ⟨rk4K ℝ, .inl rfl, fun h => ?_, by unfold tableOf schemeFor; rw [h]; simp⟩
    have := congrArg (fun t : Tableau ℝ => t.coeffs.length) h
    exact absurd this (by simp only [rk4K, rk3R, Tableau.map, List.length_map]; decide +kernel)
  · refine ⟨rk4K ℝ, .inl rfl, fun h => ?_, by unfold tableOf schemeFor; rw [h]; simp⟩
    have := congrArg (fun t : Tableau ℝ => t.coeffs.length) h
    exact absurd this (by simp only [rk4K, rk3R, Tableau.map, List.length_map]; decide +kernel)

lemma limited_run (h : LimitedStart lib c lm s) (hrk : deck.rk ∈ ["rk3", "rk4", "low_storage_rk4"]) (hcfl : deck.cfl ≤ cflLimit deck.rk) (ht : c.t ≤ deck.finaltime) :
    let run := fun k => (integrate ⟨residual, Limiter.limit (some lm)⟩ deck s k).sol
    (∀ k, Like (run k) c) ∧ ∀ C : Set (ℕ → ℝ), Convex ℝ C → KeptByAverages (upCell c) C → (∀ v w : ℕ → ℝ, (∀ e, 1 ≤ e → e ≤ c.NE → v e = w e) → v ∈ C → w ∈ C) →
      ∀ k, avg c (run k) ∈ C → avg c (run (k + 1)) ∈ C := by
  intro run
  obtain ⟨th, H, f0, t0, -, fc⟩ := h.setup
  obtain ⟨tab, htab, h3, htb⟩ := limited_scheme hrk
  set env : Env ℝ := ⟨residual, Limiter.limit (some lm)⟩ with henv
  set R := fun k => Scheme.run (.classic tab) env deck s k with hR
  have hsame : ∀ k, run k = (R k).sol := by
    intro k
    have := schemeFor_run deck.rk env deck s k
    rw [htb] at this
    show (integrate env deck s k).sol = _
    unfold integrate
    have h' : R k = _ := this
    rw [h']
  have hsucc : ∀ k, R (k + 1) = loopBody env deck (classicInner env tab) (R k) := fun k => runLoop_succ env deck (classicInner env tab) s k
  have hinv : ∀ k, (R k).status = .running → (R k).sol.t ≤ deck.finaltime ∧ (R k).sol.t ≤ (R k).tout := by
    intro k hr
    have := timeInv_run (hr_keepsClock lm) (.classic tab) deck s (by rw [t0]; exact ht) k
    exact ⟨this.hi, (this.run hr).2.2.2.2.1⟩
  have step : ∀ (C : Set (ℕ → ℝ)), Convex ℝ C → KeptByAverages (upCell c) C → (∀ v w : ℕ → ℝ, (∀ e, 1 ≤ e → e ≤ c.NE → v e = w e) → v ∈ C → w ∈ C) →
      ∀ k, LimitedHead c th (R k) → avg c (R k).sol ∈ C → LimitedHead c th (R (k + 1)) ∧ avg c (R (k + 1)).sol ∈ C := by
    intro C hC hK hcongr k hh hm
    rw [hsucc]
    by_cases hr : (R k).status = .running
    · refine limited_body H hC hK hcongr htab hh (fun dt o d hd => ?_) hm
      obtain ⟨b1, b2, b3⟩ := limited_dt H hcfl hh (hinv k hr).1 (hinv k hr).2 hd
      exact ⟨b1, b2, fun e => b3 (h3 e)⟩
    · have : loopBody env deck (classicInner env tab) (R k) = R k := by
        unfold loopBody
        split
        · rename_i h; exact absurd h hr
        · rfl
      rw [this]
      exact ⟨hh, hm⟩
  have hh : ∀ k, LimitedHead c th (R k) := by
    intro k
    induction k with
    | zero =>
      have h0 : (R 0).sol = s ∧ (R 0).work = s := by
        show (initLoop deck s).sol = s ∧ (initLoop deck s).work = s
        unfold initLoop
        simp only
        split <;> exact ⟨rfl, rfl⟩
      exact ⟨by rw [h0.1]; exact f0, by rw [h0.1]; exact fc, by rw [h0.2]; exact f0⟩
    | succ k ih => exact (step Set.univ convex_univ (fun _ _ _ _ => trivial) (fun _ _ _ _ => trivial) k ih trivial).1
  refine ⟨fun k => by rw [hsame]; exact (hh k).sol.like, ?_⟩
  intro C hC hK hcongr k hm
  rw [hsame] at hm ⊢
  exact (step C hC hK hcongr k (hh k) hm).2

lemma cellMean_avg (hb : c.Built lib 1) {a : Sol ℝ} (ha : Like a c) (e : ℕ) : cellMean a e 0 = avg c a e := by
  have hB := ha.built hb
  rw [cellMean_eq (by rw [hB.rows]; omega), ha.setup.NF]
  rfl

lemma LimitedStart.up (h : LimitedStart lib c lm s) : upCell c 1 = 1 ∧ ∀ e, e ≠ 1 → upCell c e = e - 1 := by
  have hl : ¬ c.bcl.isLit "periodic" := by
    rintro ⟨-, h'⟩
    rw [h.left.2] at h'
    exact absurd h' (by decide)
  exact ⟨by unfold upCell; rw [if_pos rfl, if_neg hl], fun e he => by unfold upCell; rw [if_neg he]⟩

/-- **C98 (maximum principle).** Advection with linear elements whose slopes are limited in every cell (first sensor threshold negative), zero gradient at
the left boundary, CFL number at most 1 with 'rk4' or 'low_storage_rk4' and at most 2/5 with 'rk3': if the cell averages start in `[m, M]`, they are there
after every iteration of the time loop. -/
theorem C98_bounds (h : LimitedStart lib c lm s) (deck : RkDeck ℝ) (hrk : deck.rk ∈ ["rk3", "rk4", "low_storage_rk4"]) (hcfl : deck.cfl ≤ cflLimit deck.rk)
    (ht : c.t ≤ deck.finaltime) (m M : ℝ) (hs : ∀ e, 1 ≤ e → e ≤ c.NE → cellMean c e 0 ∈ Set.Icc m M) (k e : ℕ) (h1 : 1 ≤ e) (h2 : e ≤ c.NE) :
    cellMean (integrate ⟨residual, Limiter.limit (some lm)⟩ deck s k).sol e 0 ∈ Set.Icc m M := by
  obtain ⟨hlike, hstep⟩ := limited_run h hrk hcfl ht
  set C : Set (ℕ → ℝ) := {v | ∀ e, 1 ≤ e → e ≤ c.NE → v e ∈ Set.Icc m M} with hC
  have hconv : Convex ℝ C := by
    intro x hx y hy a b ha hb' hab e h1 h2
    exact (convex_Icc m M) (hx e h1 h2) (hy e h1 h2) ha hb' hab
  have hkept : KeptByAverages (upCell c) C := by
    intro ν hν v hv e h1 h2
    obtain ⟨u1, u2⟩ := upCell_mem h.built.NE h1 h2
    have := (convex_Icc m M) (hv e h1 h2) (hv _ u1 u2) (by linarith [(hν e).2] : 0 ≤ 1 - ν e) (hν e).1 (by ring)
    convert this using 1
    simp only [jump, LinearMap.coe_mk, AddHom.coe_mk, Pi.sub_apply, smul_eq_mul]
    ring
  have hall : ∀ k, avg c (integrate ⟨residual, Limiter.limit (some lm)⟩ deck s k).sol ∈ C := by
    intro k
    induction k with
    | zero =>
      rw [integrate_zero_sol]
      obtain ⟨th, -, -, -, hm, -⟩ := h.setup
      intro e h1 h2
      rw [hm e h1 h2, ← cellMean_avg h.built (Like.refl c)]
      exact hs e h1 h2
    | succ k ih => exact hstep C hconv hkept (fun v w hvw hv e h1 h2 => by rw [← hvw e h1 h2]; exact hv e h1 h2) k ih
  rw [cellMean_avg h.built (hlike k)]
  exact hall k e h1 h2

/-- Averaging with the left neighbour, with weights that may vary, does not increase the total variation. -/
lemma variation_kept {up : ℕ → ℕ} (h1 : up 1 = 1) (h2 : ∀ e, e ≠ 1 → up e = e - 1) {ν : ℕ → ℝ} (hν : ∀ e, 0 ≤ ν e ∧ ν e ≤ 1) (v : ℕ → ℝ) (N : ℕ) (hN : 1 ≤ N) :
    ∑ e ∈ Finset.Ico 1 N, |(v - jump up ν v) (e + 1) - (v - jump up ν v) e| + ν N * |v N - v (up N)| ≤ ∑ e ∈ Finset.Ico 1 N, |v (e + 1) - v e| := by
  induction N, hN using Nat.le_induction with
  | base => rw [h1]; simp
  | succ N hN ih =>
    rw [Finset.sum_Ico_succ_top hN, Finset.sum_Ico_succ_top hN, h2 (N + 1) (by omega), Nat.add_sub_cancel]
    have : |(v - jump up ν v) (N + 1) - (v - jump up ν v) N| ≤ (1 - ν (N + 1)) * |v (N + 1) - v N| + ν N * |v N - v (up N)| := by
      have e : (v - jump up ν v) (N + 1) - (v - jump up ν v) N = (1 - ν (N + 1)) * (v (N + 1) - v N) + ν N * (v N - v (up N)) := by
        simp only [jump, LinearMap.coe_mk, AddHom.coe_mk, Pi.sub_apply, h2 (N + 1) (by omega), Nat.add_sub_cancel]
        ring
      rw [e]
      refine (abs_add_le _ _).trans_eq ?_
      rw [abs_mul, abs_mul, abs_of_nonneg (hν N).1, abs_of_nonneg (by linarith [(hν (N + 1)).2] : 0 ≤ 1 - ν (N + 1))]
    nlinarith

/-- **C98 (total variation).** Under the same conditions the total variation of the cell averages never increases: not over one iteration, not between any
two iterations, and it is never more than before the first limiting. -/
theorem C98_variation (h : LimitedStart lib c lm s) (deck : RkDeck ℝ) (hrk : deck.rk ∈ ["rk3", "rk4", "low_storage_rk4"]) (hcfl : deck.cfl ≤ cflLimit deck.rk)
    (ht : c.t ≤ deck.finaltime) (k : ℕ) :
    let tv := fun a : Sol ℝ => variation False c.NE fun e => cellMean a e 0
    let run := fun k => (integrate ⟨residual, Limiter.limit (some lm)⟩ deck s k).sol
    (∀ j ≤ k, tv (run k) ≤ tv (run j)) ∧ tv (run k) ≤ tv c := by
  intro tv run
  obtain ⟨hlike, hstep⟩ := limited_run h hrk hcfl ht
  obtain ⟨up1, up2⟩ := h.up
  have htv : ∀ {a : Sol ℝ}, Like a c → tv a = ∑ e ∈ Finset.Ico 1 c.NE, |avg c a (e + 1) - avg c a e| := by
    intro a ha
    show variation False _ _ = _
    unfold variation
    rw [if_neg not_false, add_zero]
    simp only [cellMean_avg h.built ha]
  have hone : ∀ k, tv (run (k + 1)) ≤ tv (run k) := by
    intro k
    rw [htv (hlike (k + 1)), htv (hlike k)]
    set t := ∑ e ∈ Finset.Ico 1 c.NE, |avg c (run k) (e + 1) - avg c (run k) e| with ht'
    set C : Set (ℕ → ℝ) := {v | ∑ e ∈ Finset.Ico 1 c.NE, |v (e + 1) - v e| ≤ t} with hC
    refine hstep C ?_ ?_ ?_ k (le_refl t)
    · intro x hx y hy a b ha hb' hab
      have hx : ∑ e ∈ Finset.Ico 1 c.NE, |x (e + 1) - x e| ≤ t := hx
      have hy : ∑ e ∈ Finset.Ico 1 c.NE, |y (e + 1) - y e| ≤ t := hy
      show ∑ e ∈ Finset.Ico 1 c.NE, |(a • x + b • y) (e + 1) - (a • x + b • y) e| ≤ t
      refine le_trans (Finset.sum_le_sum (g := fun e => a * |x (e + 1) - x e| + b * |y (e + 1) - y e|) fun e _ => ?_) ?_
      · simp only [Pi.add_apply, Pi.smul_apply, smul_eq_mul]
        rw [show a * x (e + 1) + b * y (e + 1) - (a * x e + b * y e) = a * (x (e + 1) - x e) + b * (y (e + 1) - y e) by ring]
        refine (abs_add_le _ _).trans_eq ?_
        rw [abs_mul, abs_mul, abs_of_nonneg ha, abs_of_nonneg hb']
      · rw [Finset.sum_add_distrib, ← Finset.mul_sum, ← Finset.mul_sum]
        have g1 := mul_le_mul_of_nonneg_left hx ha
        have g2 := mul_le_mul_of_nonneg_left hy hb'
        have g3 : a * t + b * t = t := by rw [← add_mul, hab, one_mul]
        linarith
    · intro ν hν v hv
      have hv : ∑ e ∈ Finset.Ico 1 c.NE, |v (e + 1) - v e| ≤ t := hv
      show ∑ e ∈ Finset.Ico 1 c.NE, _ ≤ t
      have := variation_kept up1 up2 hν v c.NE h.built.NE
      have h0 : 0 ≤ ν c.NE * |v c.NE - v (upCell c c.NE)| := mul_nonneg (hν _).1 (abs_nonneg _)
      linarith
    · intro v w hvw hv
      have hv : ∑ e ∈ Finset.Ico 1 c.NE, |v (e + 1) - v e| ≤ t := hv
      show ∑ e ∈ Finset.Ico 1 c.NE, |w (e + 1) - w e| ≤ t
      refine le_trans (le_of_eq (Finset.sum_congr rfl fun e he => ?_)) hv
      rw [Finset.mem_Ico] at he
      rw [hvw e he.1 (by omega), hvw (e + 1) (by omega) (by omega)]
  have hmono : ∀ j ≤ k, tv (run k) ≤ tv (run j) := by
    intro j hj
    induction k, hj using Nat.le_induction with
    | base => exact le_rfl
    | succ k _ ih => exact (hone k).trans ih
  refine ⟨hmono, (hmono 0 (Nat.zero_le k)).trans (le_of_eq ?_)⟩
  rw [htv (hlike 0), htv (Like.refl c)]
  obtain ⟨th, -, -, -, hm, -⟩ := h.setup
  refine Finset.sum_congr rfl fun e he => ?_
  rw [Finset.mem_Ico] at he
  show |avg c (integrate ⟨residual, Limiter.limit (some lm)⟩ deck s 0).sol (e + 1) - avg c (integrate ⟨residual, Limiter.limit (some lm)⟩ deck s 0).sol e| = _
  rw [integrate_zero_sol, hm e he.1 (by omega), hm (e + 1) (by omega) (by omega)]

/-- **C98 (monotone profiles).** Under the same conditions cell averages that increase from left to right do so after every iteration. -/
theorem C98_monotone (h : LimitedStart lib c lm s) (deck : RkDeck ℝ) (hrk : deck.rk ∈ ["rk3", "rk4", "low_storage_rk4"]) (hcfl : deck.cfl ≤ cflLimit deck.rk)
    (ht : c.t ≤ deck.finaltime) (hs : ∀ e, 1 ≤ e → e < c.NE → cellMean c e 0 ≤ cellMean c (e + 1) 0) (k e : ℕ) (h1 : 1 ≤ e) (h2 : e < c.NE) :
    cellMean (integrate ⟨residual, Limiter.limit (some lm)⟩ deck s k).sol e 0 ≤ cellMean (integrate ⟨residual, Limiter.limit (some lm)⟩ deck s k).sol (e + 1) 0 := by
  obtain ⟨hlike, hstep⟩ := limited_run h hrk hcfl ht
  obtain ⟨up1, up2⟩ := h.up
  set C : Set (ℕ → ℝ) := {v | ∀ e, 1 ≤ e → e < c.NE → v e ≤ v (e + 1)} with hC
  have hconv : Convex ℝ C := by
    intro x hx y hy a b ha hb' hab e h1 h2
    exact add_le_add (mul_le_mul_of_nonneg_left (hx e h1 h2) ha) (mul_le_mul_of_nonneg_left (hy e h1 h2) hb')
  have hkept : KeptByAverages (upCell c) C := by
    intro ν hν v hv e h1 h2
    show v e - ν e * (v e - v (upCell c e)) ≤ v (e + 1) - ν (e + 1) * (v (e + 1) - v (upCell c (e + 1)))
    rw [up2 (e + 1) (by omega), Nat.add_sub_cancel]
    have a1 := hv e h1 h2
    have a2 : v (upCell c e) ≤ v e := by
      by_cases he : e = 1
      · rw [he, up1]
      · rw [up2 e he]
        have := hv (e - 1) (by omega) (by omega)
        rwa [Nat.sub_add_cancel h1] at this
    have b1 := mul_nonneg (hν e).1 (sub_nonneg.mpr a2)
    have b2 := mul_nonneg (by linarith [(hν (e + 1)).2] : 0 ≤ 1 - ν (e + 1)) (sub_nonneg.mpr a1)
    linarith
  have hall : ∀ k, avg c (integrate ⟨residual, Limiter.limit (some lm)⟩ deck s k).sol ∈ C := by
    intro k
    induction k with
    | zero =>
      rw [integrate_zero_sol]
      obtain ⟨th, -, -, -, hm, -⟩ := h.setup
      intro e h1 h2
      rw [hm e h1 h2.le, hm (e + 1) (by omega) h2, ← cellMean_avg h.built (Like.refl c), ← cellMean_avg h.built (Like.refl c)]
      exact hs e h1 h2
    | succ k ih => exact hstep C hconv hkept (fun v w hvw hv e h1 h2 => by rw [← hvw e h1 h2.le, ← hvw (e + 1) (by omega) h2]; exact hv e h1 h2) k ih
  rw [cellMean_avg h.built (hlike k), cellMean_avg h.built (hlike k)]
  exact hall k e h1 h2

/-- `Ex.solR 1` with zero gradient boundaries and threshold -1: three cells with averages 1, 4, 9. -/
noncomputable def Ex.zeroR : Sol ℝ := { Ex.solR 1 with bcl := .lit "zerograd", bcr := .lit "zerograd", sensors := some ⟨[-1], ⟨5, fun _ => 0⟩⟩ }

lemma Ex.zeroR_start : ∃ lm s, LimitedStart realGauss Ex.zeroR lm s := by
  have hb : Ex.zeroR.Built realGauss 1 := by
    have := Ex.solR_built 1
    exact ⟨this.nodes, this.gauss, this.basis, this.NF, this.NE, this.rows, this.cols, this.dx, this.minv, this.enh⟩
  obtain ⟨lm, h⟩ := C60_init hb
  obtain ⟨sn', h1, -⟩ := C48_flags (s := Ex.zeroR) ⟨rfl, rfl, Nat.succ_pos 1, rfl⟩ ⟨[-1], ⟨5, fun _ => 0⟩⟩ (-1) [] rfl
  obtain ⟨s, h2⟩ := C60_works_partial hb h hb rfl h1 (Or.inl le_rfl)
  exact ⟨lm, s, hb, rfl, rfl, rfl, by norm_num [Ex.zeroR, Ex.solR], ⟨rfl, rfl⟩, ⟨_, hb, h⟩, ⟨_, -1, [], rfl, rfl, by norm_num⟩, h2⟩

lemma Ex.zeroR_mean (e : ℕ) : cellMean Ex.zeroR e 0 = (e : ℝ) ^ 2 := by
  rw [cellMean_eq (by norm_num [Ex.zeroR, Ex.solR])]
  norm_num [Ex.zeroR, Ex.solR]

/-- C98 for these three cells: averages between 1 and 9, total variation at most 8, increasing. -/
example : ∃ lm s, ∀ k, (∀ e, 1 ≤ e → e ≤ 3 → cellMean (integrate ⟨residual, Limiter.limit (some lm)⟩ ⟨"rk4", 1, 10, 1⟩ s k).sol e 0 ∈ Set.Icc (1 : ℝ) 9) ∧
    (variation False 3 fun e => cellMean (integrate ⟨residual, Limiter.limit (some lm)⟩ ⟨"rk4", 1, 10, 1⟩ s k).sol e 0) ≤ 8 ∧
    cellMean (integrate ⟨residual, Limiter.limit (some lm)⟩ ⟨"rk4", 1, 10, 1⟩ s k).sol 1 0 ≤ cellMean (integrate ⟨residual, Limiter.limit (some lm)⟩ ⟨"rk4", 1, 10, 1⟩ s k).sol 2 0 := by
  obtain ⟨lm, s, h⟩ := Ex.zeroR_start
  have hc : (1 : ℝ) ≤ cflLimit "rk4" := by unfold cflLimit; rw [if_neg (by decide)]
  have ht : Ex.zeroR.t ≤ 1 := by norm_num [Ex.zeroR, Ex.solR]
  refine ⟨lm, s, fun k => ⟨fun e h1 h2 => C98_bounds h ⟨"rk4", 1, 10, 1⟩ (by simp) hc ht 1 9 ?_ k e h1 h2, ?_,
    C98_monotone h ⟨"rk4", 1, 10, 1⟩ (by simp) hc ht ?_ k 1 le_rfl (by norm_num [Ex.zeroR, Ex.solR])⟩⟩
  · intro e h1 h2
    have h2 : e ≤ 3 := h2
    rw [Ex.zeroR_mean]
    interval_cases e <;> norm_num
  · refine (C98_variation h ⟨"rk4", 1, 10, 1⟩ (by simp) hc ht k).2.trans ?_
    simp only [Ex.zeroR_mean]
    show variation False 3 _ ≤ 8
    unfold variation
    rw [if_neg not_false, Finset.sum_Ico_succ_top (by omega), Finset.sum_Ico_succ_top (by omega)]
    norm_num
  · intro e h1 _
    rw [Ex.zeroR_mean, Ex.zeroR_mean]
    push_cast
    nlinarith [Nat.cast_nonneg (α := ℝ) e]

end

section
variable {lib : GaussLib ℝ} {ft : FloatText ℝ} {d : Deck ℝ} {N : ℕ} {ic : IC.Setup}
open Text

/-- **C98 from the deck.** Advection of order 1 with limiter 'adaptive_hr', a negative first sensor threshold, an initial condition with zero gradient
boundaries, and CFL numbers as above: if the initial condition takes values in `[m, M]`, so do all cell averages of all outputs, and their total
variation is never more than at the first output. -/
theorem C98_deck (hlib : lib.Ok) (junk : ℕ → ℝ) (hd : ValidDeck lib ft d 1 N ic) (hsys : d.system ≠ "euler".toList)
    (hrk : d.rk ∈ ["rk3".toList, "rk4".toList, "low_storage_rk4".toList]) (hlim : d.limiting = "adaptive_hr".toList) (hen : d.enhance = []) (hbc : ic.bc = "zerograd")
    (hth : ∃ t0 rest, d.sensorThresholds = t0 :: rest ∧ t0 < 0) (hcfl : d.cfl ≤ cflLimit (String.ofList d.rk)) (hT : 0 ≤ d.finaltime)
    (m M : ℝ) (hic : ∀ x, ∃ y, (ic.f (ic.gamma.getD (7 / 5)) x)[0]? = some y ∧ y ∈ Set.Icc m M) (k : ℕ) :
    ∃ s lm, start lib ft junk d = .ok (s, lm) ∧
      let log := (integrate ⟨residual, lm.limit⟩ d.rkDeck s k).log
      (∀ o ∈ log, ∀ e, 1 ≤ e → e ≤ N → cellMean o.sol e 0 ∈ Set.Icc m M) ∧
      ∀ o ∈ log, variation False N (fun e => cellMean o.sol e 0) ≤ variation False N fun e => cellMean s e 0 := by
  obtain ⟨c, s, lm, hc, hst, S⟩ := C69_starts hlib junk hd
  refine ⟨s, lm, hst, ?_⟩
  intro log
  obtain ⟨t0, rest, hth, ht0⟩ := hth
  have hAB : ic.A < ic.B := by
    obtain ⟨name, p0, rest, -, -, l3, -⟩ := hd.line
    exact (setupOf_facts l3).1
  have hN : (0 : ℝ) < N := by exact_mod_cast hd.cells
  have hdx : 0 < s.dx := by rw [S.mesh.width]; exact div_pos (by linarith) hN
  have henh : s.enhance = none := by
    have := S.enhance
    rw [hen] at this
    unfold enhancementOf at this
    rw [if_pos rfl] at this
    cases h : s.enhance with
    | none => rfl
    | some x => rw [h] at this; cases this
  obtain ⟨hk, hNF⟩ := S.physics.advection hsys
  have hrk' : d.rkDeck.rk ∈ ["rk3", "rk4", "low_storage_rk4"] := by
    show String.ofList d.rk ∈ _
    simp only [List.mem_cons, List.not_mem_nil, or_false] at hrk ⊢
    rcases hrk with h | h | h <;> rw [h, String.ofList_toList] <;> simp
  have hkin : Kin c.sol.applyBc c.sol := (Kin.refl c.sol).applyBc
  have hks : Kin s c.sol := S.kin.2
  have hinit : Limiter.init "adaptive_hr" s = .ok lm := by
    have := S.limiter
    rwa [hlim, String.ofList_toList] at this
  obtain ⟨hr, rfl⟩ : ∃ hr, lm = some hr := by
    obtain ⟨hr, h⟩ := C60_init S.built
    rw [hinit] at h
    cases h
    exact ⟨hr, rfl⟩
  obtain ⟨v, hsn, -⟩ := S.sensors (by rw [hth]; exact List.cons_ne_nil _ _)
  have L : LimitedStart lib c.sol.applyBc hr s := by
    refine ⟨hkin.like.built S.kin.1, ?_, ?_, ?_, ?_, ?_, ⟨s, S.built, hinit⟩, ?_, S.limited⟩
    · rw [hkin.like.setup.kw, ← hks.like.setup.kw, hk]
    · rw [hkin.like.setup.NF, ← hks.like.setup.NF, hNF]
    · rw [hkin.like.setup.enhance, ← hks.like.setup.enhance, henh]
    · rw [hkin.like.setup.dx, ← hks.like.setup.dx]; exact hdx
    · rw [hkin.like.setup.bcl, ← hks.like.setup.bcl, S.bc.1, hbc]; exact ⟨rfl, rfl⟩
    · have h1 := hks.sens
      rw [hsn, ← hkin.sens] at h1
      cases h2 : c.sol.applyBc.sensors with
      | none => rw [h2] at h1; cases h1
      | some sn =>
        rw [h2] at h1
        simp only [Option.map_some, Option.some.injEq, Prod.mk.injEq] at h1
        exact ⟨sn, t0, rest, rfl, by rw [← h1.1, hth], ht0⟩
  have hNEc : c.sol.applyBc.NE = N := by rw [hkin.like.setup.NE]; exact S.same.2
  have ht : c.sol.applyBc.t ≤ d.rkDeck.finaltime := by
    have : s.t = c.sol.applyBc.t := by
      obtain ⟨-, -, -, h, -⟩ := L.setup
      exact h
    rw [← this, S.clock.1]
    exact hT
  have hlike := (limited_run L hrk' hcfl ht).1
  refine ⟨?_, ?_⟩
  · intro o ho e h1 h2
    obtain ⟨j, -, hj⟩ := log_states (hr_keepsClock hr) d.rkDeck s k o ho
    rw [hj]
    refine C98_bounds L d.rkDeck hrk' hcfl ht m M ?_ j e h1 (by rw [hNEc]; exact h2)
    intro e h1 h2
    rw [hNEc] at h2
    have hm : cellMean c.sol.applyBc e 0 = c.sol.u.val 0 (e * c.sol.NF + 0) := by
      rw [cellMean_eq (by rw [L.built.rows]; omega), (Like.refl c.sol).applyBc_val S.kin.1.wf, show c.sol.applyBc.NF = c.sol.NF from (Like.refl c.sol).applyBc.setup.NF,
        bcCol_interior c.sol h1 (by rw [S.same.2]; exact h2) S.kin.1.NF]
    obtain ⟨hx, -, hG⟩ := hlib (1 + 1) (Nat.succ_pos 1)
    obtain ⟨v, hv, hval⟩ := S.data (e - 1) (by omega) 0 S.kin.1.NF
    rw [Nat.sub_add_cancel h1] at hval
    rw [Nat.sub_add_cancel h1, S.kin.1.basis] at hv
    choose y hy1 hy2 using hic
    obtain ⟨c', hc', -, -, -, -, hmean, -⟩ := C24_projection lib 1 hx hG (c.sol.x.val (e - 1)) (c.sol.x.val e) (ic.f (ic.gamma.getD (7 / 5))) 0 y (fun _ _ => hy1 _)
    rw [hv] at hc'
    cases hc'
    rw [hm, hval, hmean]
    have w0 := gauss_weight_pos hG (i := 0) (by omega)
    have w1 := gauss_weight_pos hG (i := 1) (by omega)
    have hw : (lib (1 + 1)).2.val 0 + (lib (1 + 1)).2.val 1 = 2 := by
      have := hG.exact 1 (by rw [Polynomial.degree_one]; norm_num)
      rw [Finset.sum_range_succ, Finset.sum_range_one] at this
      rw [intPoly_one] at this
      simpa using this
    rw [Finset.sum_range_succ, Finset.sum_range_one]
    set a := (lib (1 + 1)).2.val 0
    set b := (lib (1 + 1)).2.val 1
    have h3 := (convex_Icc m M) (hy2 (physPoint (c.sol.x.val (e - 1)) (c.sol.x.val e) ((lib (1 + 1)).1.val 0))) (hy2 (physPoint (c.sol.x.val (e - 1)) (c.sol.x.val e) ((lib (1 + 1)).1.val 1)))
      (half_pos w0).le (half_pos w1).le (by linarith)
    convert h3 using 1
    simp only [smul_eq_mul]
    ring
  · intro o ho
    obtain ⟨j, -, hj⟩ := log_states (hr_keepsClock hr) d.rkDeck s k o ho
    rw [hj]
    have := (C98_variation L d.rkDeck hrk' hcfl ht j).1 0 (Nat.zero_le j)
    simp only [integrate_zero_sol, hNEc] at this
    exact this

/-- Shu and Osher's density profile carried along by advection, slopes limited everywhere. -/
noncomputable def Ex.shuAdv : Deck ℝ := { Deck.init with ic := "shuoshe 8".toList, limiting := "adaptive_hr".toList, sensorThresholds := [-1], cfl := 2 / 5, rk := "rk3".toList }

lemma Ex.shuAdv_valid : ValidDeck realGauss Ex.decReal Ex.shuAdv 1 8 IC.shuoshe where
  order := rfl
  cells := by norm_num
  line := ⟨"shuoshe".toList, "8".toList, [], by decide +kernel, by decide +kernel, by unfold setupOf; rfl, by decide⟩
  enhance := C67_no_enhancement _ _
  limiter := fun _ => ⟨le_rfl, by rw [if_neg (show ¬ Ex.shuAdv.system = "euler".toList from (by decide : "advection".toList ≠ "euler".toList))]; exact le_rfl⟩

/-- C98 for that profile on 8 cells: all averages stay between 4/5 and 3.857143. -/
example (k : ℕ) : ∃ s lm, start realGauss Ex.decReal (fun _ => 0) Ex.shuAdv = .ok (s, lm) ∧
    ∀ o ∈ (integrate ⟨residual, lm.limit⟩ Ex.shuAdv.rkDeck s k).log, ∀ e, 1 ≤ e → e ≤ 8 → cellMean o.sol e 0 ∈ Set.Icc (4 / 5 : ℝ) (3857143 / 1000000) := by
  obtain ⟨s, lm, hst, h, -⟩ := C98_deck realGauss_ok (fun _ => 0) Ex.shuAdv_valid (show "advection".toList ≠ "euler".toList by decide)
    (show "rk3".toList ∈ ["rk3".toList, "rk4".toList, "low_storage_rk4".toList] by simp) rfl rfl rfl ⟨-1, [], rfl, by norm_num⟩
    (show (2 / 5 : ℝ) ≤ cflLimit (String.ofList "rk3".toList) by rw [String.ofList_toList]; unfold cflLimit; norm_num) (show (0 : ℝ) ≤ 1 by norm_num) (4 / 5) (3857143 / 1000000)
    (fun x => by
      refine ⟨_, rfl, ?_⟩
      have h1 := Real.neg_one_le_sin (5 * (x - 5))
      have h2 := Real.sin_le_one (5 * (x - 5))
      show (if x < 1 then ((3857143 / 1000000 : ℝ), (2629369 / 1000000 : ℝ), (10333333 / 1000000 : ℝ)) else (1 + 1 / 5 * Real.sin (5 * (x - 5)), 0, 1)).1 ∈ _
      split
      · constructor <;> norm_num
      · constructor <;> simp only <;> linarith) k
  exact ⟨s, lm, hst, h⟩

end
end Dg1d.Props
