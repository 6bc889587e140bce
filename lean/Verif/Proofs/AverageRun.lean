import Verif.Proofs.WaveCells
import Verif.Spec.LinearOrder

/-! Helper lemmas for C103 and C105: runs of the advection solver with any table, cell averages. -/

set_option linter.unusedSectionVars false

open Polynomial

namespace Dg1d.Props
open Spec Stability Decay

/-! ### Tables -/

section
variable {F : Type*} [Field F]

lemma chain_tall (m : ℕ) : chain m = tallTree m := by
  induction m with
  | zero => rfl
  | succ m ih => rw [chain, tallTree, ih]

lemma chain_size (m : ℕ) : (chain m).size = m + 1 := by rw [chain_tall, tallTree_size]

/-- The condition of an unbranched tree as one on a coefficient of the step. -/
lemma chain_sum {b : List F} {beta : ℕ → ℕ → F} (he : ∀ k < b.length, ∀ j < b.length, k ≤ j → beta k j = 0) (m : ℕ) :
    ∑ i ∈ Finset.range b.length, b.getD i 0 * (chain m).stageWeight b.length beta i * ((chain m).density : F) = stepWeight b beta (m + 1) * ((m + 1).factorial : F) := by
  rw [← Finset.sum_mul, chain_tall, tallTree_density, stepWeight]
  congr 1
  refine Finset.sum_congr rfl fun k hk => ?_
  rw [tallTree_weight beta b.length he m k (Finset.mem_range.mp hk)]

end

lemma near_weights {b : List ℝ} {beta : ℕ → ℕ → ℝ} (he : ∀ k < b.length, ∀ j < b.length, k ≤ j → beta k j = 0) {q : ℕ} {eps : ℝ}
    (hn : NearLinearOrder b beta q eps) (m : ℕ) (h1 : 1 ≤ m) (hm : m ≤ q) : |stepWeight b beta m - 1 / (m.factorial : ℝ)| ≤ eps := by
  obtain ⟨m, rfl⟩ : ∃ m', m = m' + 1 := ⟨m - 1, by omega⟩
  have h := hn m (by rw [chain_size]; exact hm)
  rw [chain_sum he] at h
  have hf : (1 : ℝ) ≤ ((m + 1).factorial : ℝ) := by exact_mod_cast Nat.factorial_pos _
  have e : stepWeight b beta (m + 1) * ((m + 1).factorial : ℝ) - 1 = (stepWeight b beta (m + 1) - 1 / ((m + 1).factorial : ℝ)) * ((m + 1).factorial : ℝ) := by field_simp
  rw [e, abs_mul, abs_of_pos (by linarith : (0 : ℝ) < ((m + 1).factorial : ℝ))] at h
  nlinarith [abs_nonneg (stepWeight b beta (m + 1) - 1 / ((m + 1).factorial : ℝ))]

lemma near_of_order {b : List ℝ} {beta : ℕ → ℕ → ℝ} {q : ℕ} (ho : HasOrder b beta q) : NearLinearOrder b beta q 0 := by
  intro m hm
  have h := ho (chain m) hm
  unfold OrderCondition at h
  rw [h, sub_self, abs_zero]

lemma exists_moderate {b : List ℝ} {beta : ℕ → ℕ → ℝ} (he : ∀ k < b.length, ∀ j < b.length, k ≤ j → beta k j = 0) : ∃ W, Moderate b beta b.length W := by
  refine ⟨∑ k ∈ Finset.range b.length, |b.getD k 0| + ∑ k ∈ Finset.range b.length, ∑ j ∈ Finset.range b.length, |beta k j|, le_rfl, he, fun k hk => ?_, fun k hk j hj => ?_⟩
  · have h1 := Finset.single_le_sum (f := fun k => |b.getD k 0|) (fun _ _ => abs_nonneg _) (Finset.mem_range.mpr hk)
    have h2 : 0 ≤ ∑ k ∈ Finset.range b.length, ∑ j ∈ Finset.range b.length, |beta k j| := Finset.sum_nonneg fun _ _ => Finset.sum_nonneg fun _ _ => abs_nonneg _
    linarith
  · have h1 := Finset.single_le_sum (f := fun j => |beta k j|) (fun _ _ => abs_nonneg _) (Finset.mem_range.mpr (hj.trans hk))
    have h2 := Finset.single_le_sum (f := fun k => ∑ j ∈ Finset.range b.length, |beta k j|) (fun _ _ => Finset.sum_nonneg fun _ _ => abs_nonneg _) (Finset.mem_range.mpr hk)
    have h3 : 0 ≤ ∑ k ∈ Finset.range b.length, |b.getD k 0| := Finset.sum_nonneg fun _ _ => abs_nonneg _
    linarith

lemma stepWeight_bound {b : List ℝ} {beta : ℕ → ℕ → ℝ} {n : ℕ} {W : ℝ} (h : Moderate b beta n W) (m : ℕ) : |stepWeight b beta m| ≤ (1 + n * |W|) ^ m := by
  have hn : ((b.length : ℕ) : ℝ) ≤ n := by exact_mod_cast h.stages
  have htall : ∀ m, ∀ k < b.length, |tallWeight beta m k| ≤ (1 + n * |W|) ^ m := by
    intro m
    induction m with
    | zero => intro k _; simp [tallWeight]
    | succ m ih =>
      intro k hk
      rw [tallWeight]
      have hk' : (k : ℝ) ≤ n := (by exact_mod_cast hk.le : (k : ℝ) ≤ b.length).trans hn
      calc |∑ j ∈ Finset.range k, beta k j * tallWeight beta m j| ≤ ∑ j ∈ Finset.range k, |W| * (1 + n * |W|) ^ m := by
            refine (Finset.abs_sum_le_sum_abs _ _).trans (Finset.sum_le_sum fun j hj => ?_)
            have hj := Finset.mem_range.mp hj
            rw [abs_mul]
            exact mul_le_mul ((h.entries k hk j hj).trans (le_abs_self W)) (ih j (hj.trans hk)) (abs_nonneg _) (abs_nonneg _)
        _ = k * |W| * (1 + n * |W|) ^ m := by rw [Finset.sum_const, Finset.card_range, nsmul_eq_mul, mul_assoc]
        _ ≤ (1 + n * |W|) * (1 + n * |W|) ^ m := by
            refine mul_le_mul_of_nonneg_right ?_ (by positivity)
            nlinarith [abs_nonneg W]
        _ = _ := by rw [pow_succ]; ring
  cases m with
  | zero => simp [stepWeight]
  | succ m =>
    rw [stepWeight]
    calc |∑ k ∈ Finset.range b.length, b.getD k 0 * tallWeight beta m k| ≤ ∑ k ∈ Finset.range b.length, |W| * (1 + n * |W|) ^ m := by
          refine (Finset.abs_sum_le_sum_abs _ _).trans (Finset.sum_le_sum fun k hk => ?_)
          have hk := Finset.mem_range.mp hk
          rw [abs_mul]
          exact mul_le_mul ((h.weights k hk).trans (le_abs_self W)) (htall m k hk) (abs_nonneg _) (abs_nonneg _)
      _ = b.length * |W| * (1 + n * |W|) ^ m := by rw [Finset.sum_const, Finset.card_range, nsmul_eq_mul, mul_assoc]
      _ ≤ (1 + n * |W|) * (1 + n * |W|) ^ m := by
          refine mul_le_mul_of_nonneg_right ?_ (by positivity)
          nlinarith [abs_nonneg W]
      _ = _ := by rw [pow_succ]; ring

/-! ### Runs of a scheme -/

lemma run_zero_sol (sch : Scheme ℝ) (env : Env ℝ) (deck : RkDeck ℝ) (s : Sol ℝ) : (sch.run env deck s 0).sol = s := by
  show (initLoop deck s).sol = s
  unfold initLoop
  simp only
  split <;> rfl

lemma run_log {env : Env ℝ} (hlim : env.KeepsClock) (sch : Scheme ℝ) (deck : RkDeck ℝ) (s : Sol ℝ) (k : ℕ) :
    (sch.run env deck s (k + 1)).log = (sch.run env deck s k).log ∨
    ∃ n dt, (sch.run env deck s (k + 1)).log = (sch.run env deck s k).log ++ [⟨n, dt, (sch.run env deck s (k + 1)).sol⟩] := by
  unfold Scheme.run
  rw [runLoop_succ]
  set st := runLoop env deck (sch.inner env) s k
  by_cases hr : st.status = .running
  · rcases loopBody_cases (deck := deck) hlim (Scheme.inner_keepsClock env _) hr with ⟨e, -, hl, -⟩ | ⟨dt, o, d, st1, sol', -, hs, -, -, heq⟩
    · exact .inl hl
    · rw [heq, (outputPhase_sol _ _ _ _ _).1]
      rcases outputPhase_log st1 sol' dt o d with h | h
      · left; rw [h, hs.2.2.2.2]
      · right; exact ⟨_, _, by rw [h, hs.2.2.2.2]⟩
  · rw [loopBody_stopped hr]
    exact .inl rfl

lemma run_log_states {env : Env ℝ} (hk : env.KeepsClock) (sch : Scheme ℝ) (deck : RkDeck ℝ) (s : Sol ℝ) (k : ℕ) :
    ∀ o ∈ (sch.run env deck s k).log, ∃ j ≤ k, o.sol = (sch.run env deck s j).sol := by
  induction k with
  | zero =>
    intro o ho
    have h0 : (sch.run env deck s 0).log = [⟨0, 0, s⟩] := by
      show (initLoop deck s).log = _
      unfold initLoop
      simp only
      split <;> rfl
    rw [h0, List.mem_singleton] at ho
    exact ⟨0, le_rfl, by rw [run_zero_sol, ho]⟩
  | succ k ih =>
    intro o ho
    have hold : o ∈ (sch.run env deck s k).log → ∃ j ≤ k + 1, o.sol = (sch.run env deck s j).sol := fun h => by
      obtain ⟨j, hj, hs⟩ := ih o h
      exact ⟨j, by omega, hs⟩
    rcases run_log hk sch deck s k with h | ⟨n, dt, h⟩
    · rw [h] at ho
      exact hold ho
    · rw [h, List.mem_append, List.mem_singleton] at ho
      rcases ho with ho | ho
      · exact hold ho
      · exact ⟨k + 1, le_rfl, by rw [ho]⟩

lemma run_iteration_cases {sch : Scheme ℝ} {env : Env ℝ} {deck : RkDeck ℝ} {s : Sol ℝ} {k : ℕ} :
    (sch.run env deck s (k + 1)).sol = (sch.run env deck s k).sol ∨
    (sch.run env deck s k).status = .running ∧ ∃ dt o d,
      getNextTimeStep (sch.run env deck s k).sol (sch.run env deck s k).tout deck.cfl deck.finaltime = .ok (dt, o, d) := by
  by_cases hr : (sch.run env deck s k).status = .running
  · cases hd : getNextTimeStep (sch.run env deck s k).sol (sch.run env deck s k).tout deck.cfl deck.finaltime with
    | error e =>
      left
      unfold Scheme.run at hr hd ⊢
      rw [runLoop_succ]
      unfold loopBody
      rw [hr, hd]
    | ok v => exact .inr ⟨hr, v.1, v.2.1, v.2.2, rfl⟩
  · left
    unfold Scheme.run at hr ⊢
    rw [runLoop_succ, loopBody_stopped hr]

lemma schemeFor_run_log (rk : String) (env : Env ℝ) (deck : RkDeck ℝ) (sol : Sol ℝ) (k : ℕ) :
    ((Scheme.classic (tableOf rk)).run env deck sol k).log = ((schemeFor rk).run env deck sol k).log := by
  have h := schemeFor_run rk env deck sol k
  rw [h]

/-! ### Cell averages -/

variable {lib : GaussLib ℝ}

lemma collect_wave {a c x z e g : ℝ} (ha : 0 ≤ a) (hc : 0 ≤ c) (hx : 0 ≤ x) (hz : 0 ≤ z) (he : 0 ≤ e) (hg : 0 ≤ g) :
    a * x + c * z + e + g ≤ (1 + a + c) * (x + z + e + g) := by
  have h1 := mul_nonneg ha hz
  have h2 := mul_nonneg ha he
  have h3 := mul_nonneg ha hg
  have h4 := mul_nonneg hc hx
  have h5 := mul_nonneg hc he
  have h6 := mul_nonneg hc hg
  linarith

set_option maxHeartbeats 1000000 in
/-- Cell averages of runs with any table; the constants are the same for all tables of bounded size. -/
lemma averages_run (hlib : lib.Ok) (p : ℕ) {q : ℕ} (hq : 1 ≤ q) (n₀ : ℕ) (W : ℝ) : ∃ c₀ δ : ℝ, 0 < c₀ ∧ 0 < δ ∧
    ∀ (A P T : ℝ) (S : Finset ℤ) (β : ℤ → ℂ), 0 < P → 0 ≤ T → ∃ (C : ℝ) (N₀ : ℕ), 0 ≤ C ∧
      ∀ (tab : Tableau ℝ), tab.Fine → Moderate tab.coeffs tab.beta n₀ W → ∀ eps : ℝ, 0 ≤ eps → eps ≤ 1 / 2 → NearLinearOrder tab.coeffs tab.beta q eps →
      ∀ (s : Sol ℝ), s.Built lib p → s.kw = Advection.physics → s.enhance = none → s.bcl = .lit "periodic" → s.bcr = .lit "periodic" →
      IsUniformMesh A (A + P) s.NE s.x.val s.xc.val s.dx → N₀ ≤ s.NE → ∀ f < s.NF,
      (∀ e, 1 ≤ e → e ≤ s.NE → ∀ g < p + 1, (cellPoly s e f).eval ((lib (p + 1)).1.val g) = trigPoly S β P (physPoint (s.x.val (e - 1)) (s.x.val e) ((lib (p + 1)).1.val g))) →
      ∀ (lim : Sol ℝ → Except PyErr (Sol ℝ)), (∀ a, lim a = .ok a) → ∀ (deck : RkDeck ℝ),
      0 ≤ deck.cfl → deck.cfl ≤ c₀ → s.t ≤ deck.finaltime → deck.finaltime ≤ s.t + T →
      ∀ k, ∀ o ∈ ((Scheme.classic tab).run ⟨residual, lim⟩ deck s k).log, ∀ e, 1 ≤ e → e ≤ s.NE →
        |cellMean o.sol e f - average (fun x => trigPoly S β P (x - (o.sol.t - s.t))) (s.x.val (e - 1)) (s.x.val e)| ≤
          C * (s.dx ^ (2 * p + 1) + (s.dx * deck.cfl / (2 * p + 1)) ^ q + Real.exp (-(δ * ((o.sol.t - s.t) / s.dx))) + eps) := by
  obtain ⟨-, -, hG⟩ := hlib (p + 1) (Nat.succ_pos p)
  set W' := (1 + n₀ * |W|) ^ (max n₀ q + 1) with hW'
  set n := max n₀ q + 1 with hn
  have hW0 : 0 ≤ W' := by positivity
  have hqn : q < n := by omega
  obtain ⟨k₀, η, δ, hk₀, hη, hδ, hwave⟩ := waves_bound hG hq hqn W' hW0
  refine ⟨k₀ * (2 * p + 1) / 2, 2 * δ, by positivity, by positivity, fun A P T S β hP hT => ?_⟩
  have hY : ∀ m : ℤ, 0 ≤ 2 * |2 * Real.pi * m / P| * T := fun m => by positivity
  choose! K hK hmain using hwave
  set Km : ℤ → ℝ := fun m => K (2 * |2 * Real.pi * m / P| * T) with hKm
  have hKm0 : ∀ m, 0 ≤ Km m := fun m => hK _ (hY m)
  set D : ℤ → ℝ := fun m => 1 + |2 * Real.pi * m / P| ^ (2 * p + 1) + (2 * |2 * Real.pi * m / P|) ^ q with hD
  obtain ⟨N₀, hN₀⟩ := exists_nat_gt ((∑ m ∈ S, |2 * Real.pi * m|) / η)
  refine ⟨∑ m ∈ S, ‖β m‖ * (Km m * D m), N₀, Finset.sum_nonneg fun m _ => mul_nonneg (norm_nonneg _) (mul_nonneg (hKm0 m) (by positivity)), ?_⟩
  intro tab hfine hmod eps he0 he1 hnear s hb hk hen hl hr hm hNN f hf hinit lim hlim deck hcfl0 hcfl ht hTd k₁ o ho e h1 h2
  set wt := stepWeight tab.coeffs tab.beta with hwtdef
  have hwt0 : wt 0 = 1 := rfl
  have hwt := near_weights hmod.explicit hnear
  have hwb : ∀ m < n, |wt m| ≤ W' := fun m hm => (stepWeight_bound hmod m).trans (pow_le_pow_right₀ (by linarith [show 0 ≤ (n₀ : ℝ) * |W| by positivity]) (by omega))
  have hlenn : tab.coeffs.length < n := by have := hmod.stages; omega
  have hNE : (0 : ℝ) < s.NE := by exact_mod_cast hb.NE
  have hdx : 0 < s.dx := by rw [hm.width]; exact div_pos (by linarith) hNE
  have hlen : s.NE * s.dx = P := by rw [hm.width]; field_simp; ring
  have hkc := keepsClock_off hlim
  set run := fun k => (Scheme.classic tab).run ⟨residual, lim⟩ deck s k with hrun
  have h00 : (run 0).sol = s := run_zero_sol _ _ deck s
  obtain ⟨k, -, hok⟩ := run_log_states hkc _ deck s k₁ o ho
  have hok : o.sol = (run k).sol := hok
  -- the steps
  set θ : ℤ → ℝ := fun m => 2 * Real.pi * m / P * s.dx with hθ
  have hz : ∀ m ∈ S, Complex.exp (θ m * Complex.I) ^ s.NE = 1 := fun m _ => wave_turn hP hlen
  set κ : ℕ → ℝ := fun j => 2 / s.dx * ((run (j + 1)).sol.t - (run j).sol.t) with hκ
  set v : ℤ → ℕ → Fin (p + 1) → ℂ := fun m j => Nat.rec (startVec p (lib (p + 1)).1.val (lib (p + 1)).2.val ((θ m / 2 : ℝ) * Complex.I))
    (fun j y => polyStep n wt (κ j) (waveOp p (θ m)) y) j with hv
  set b : ℤ → ℂ := fun m => β m * Complex.exp ((2 * Real.pi * m / P * (A - s.dx / 2) : ℝ) * Complex.I) with hbm
  set h := 2 * deck.cfl / (2 * (p : ℝ) + 1) with hh
  have hp0 : (0 : ℝ) < 2 * p + 1 := by positivity
  have hh0 : 0 ≤ h := by positivity
  have hhk : h ≤ k₀ := by
    rw [hh, div_le_iff₀ hp0]
    linarith
  have hall : ∀ j, Like (run j).sol s ∧ IsWaves s p f S θ (fun m => b m • v m j) (run j).sol.u.val ∧ ∀ i < j, 0 ≤ κ i ∧ κ i ≤ h := by
    intro j
    induction j with
    | zero =>
      rw [h00]
      exact ⟨Like.refl s, start_waves hG hb hm S β hinit, fun i hi => by omega⟩
    | succ j ih =>
      obtain ⟨hlike, hw, hκj⟩ := ih
      rcases run_iteration_cases (sch := Scheme.classic tab) (env := ⟨residual, lim⟩) (deck := deck) (s := s) (k := j) with hidle | ⟨hr', dt, o', d, hdt⟩
      · have hidle : (run (j + 1)).sol = (run j).sol := hidle
        have hκ0 : κ j = 0 := by simp only [hκ]; rw [hidle, sub_self, mul_zero]
        have hvj : ∀ m, v m (j + 1) = v m j := by
          intro m
          show polyStep n wt (κ j) (waveOp p (θ m)) (v m j) = v m j
          rw [hκ0, polyStep_zero (by omega) hwt0]
        rw [hidle]
        refine ⟨hlike, ?_, fun i hi => ?_⟩
        · simp only [hvj]
          exact hw
        · rcases Nat.lt_succ_iff_lt_or_eq.mp hi with hi | rfl
          · exact hκj i hi
          · rw [hκ0]; exact ⟨le_rfl, hh0⟩
      · obtain ⟨htt, hl1, hval⟩ := table_series hfine hlenn hb hk hen hlim deck j hlike hr' hdt
        have htt : (run (j + 1)).sol.t = (run j).sol.t + dt := htt
        have hκd : κ j = 2 / s.dx * dt := by simp only [hκ]; rw [htt, add_sub_cancel_left]
        refine ⟨hl1, ?_, fun i hi => ?_⟩
        · have hs := hw.step hb hk hen hl hr hf hz n wt dt
          intro i e h1 h2
          rw [show (run (j + 1)).sol.u.val i (e * s.NF + f) = _ from hval i e h1 h2 f hf]
          rw [hs i e h1 h2]
          refine Finset.sum_congr rfl fun m _ => ?_
          congr 2
          beta_reduce
          rw [polyStep_smul, ← hκd]
        · rcases Nat.lt_succ_iff_lt_or_eq.mp hi with hi | rfl
          · exact hκj i hi
          · have hinv := timeInv_run hkc (Scheme.classic tab) deck s ht i
            have hinv' : (run i).sol.t ≤ deck.finaltime ∧ (run i).sol.t ≤ (run i).tout := ⟨hinv.hi, (hinv.run hr').2.2.2.2.1⟩
            have hdt0 : 0 ≤ dt := by
              rcases getNext_cases hdt with ⟨-, -, h⟩ | ⟨-, -, h, -⟩ | ⟨-, -, h, -⟩
              · have : dt = deck.finaltime - (run i).sol.t := h
                linarith [hinv'.1]
              · have : dt = (run i).tout - (run i).sol.t := h
                linarith [hinv'.2]
              · exact le_trans (by positivity) h
            have hd := advection_dt (hlike.setup.kw.trans hk) hdt
            rw [hlike.setup.dx, hlike.setup.basis, show s.basis.p = p by rw [hb.basis]; rfl] at hd
            rw [hκd]
            refine ⟨by positivity, (mul_le_mul_of_nonneg_left hd (by positivity)).trans_eq ?_⟩
            rw [hh]
            field_simp
  obtain ⟨hlike, hw, hκk⟩ := hall k
  set τ := (run k).sol.t - s.t with hτ
  have hsum : ∑ j ∈ Finset.range k, κ j = 2 / s.dx * τ := by
    simp only [hκ]
    rw [← Finset.mul_sum, Finset.sum_range_sub (fun j => (run j).sol.t), h00]
  have hτ0 : 0 ≤ τ := by
    have h0 : 0 ≤ 2 / s.dx * τ := by rw [← hsum]; exact Finset.sum_nonneg fun j hj => (hκk j (Finset.mem_range.mp hj)).1
    exact nonneg_of_mul_nonneg_right h0 (by positivity)
  have hτT : τ ≤ T := by
    have : (run k).sol.t ≤ deck.finaltime := (timeInv_run hkc (Scheme.classic tab) deck s ht k).hi
    linarith
  -- one wave
  have hone : ∀ m ∈ S, ‖v m k 0 - Complex.exp ((-(2 * Real.pi * m / P * τ) : ℝ) * Complex.I) *
      (1 / 2 * ∫ ξ in (-1 : ℝ)..1, Complex.exp ((2 * Real.pi * m / P * s.dx / 2 : ℝ) * Complex.I * ξ))‖ ≤
      Km m * D m * (s.dx ^ (2 * p + 1) + (s.dx * deck.cfl / (2 * p + 1)) ^ q + Real.exp (-(2 * δ * (τ / s.dx))) + eps) := by
    intro m hmS
    have hθη : |θ m| < η := by
      have e1 : θ m = 2 * Real.pi * m / s.NE := by
        simp only [hθ]
        rw [← hlen]
        field_simp
      rw [e1, abs_div, abs_of_pos hNE, div_lt_iff₀ hNE]
      have h3 : |2 * Real.pi * (m : ℝ)| ≤ ∑ m ∈ S, |2 * Real.pi * (m : ℝ)| := Finset.single_le_sum (f := fun m : ℤ => |2 * Real.pi * (m : ℝ)|) (fun _ _ => abs_nonneg _) hmS
      have h4 : (N₀ : ℝ) ≤ s.NE := by exact_mod_cast hNN
      rw [div_lt_iff₀ hη] at hN₀
      nlinarith
    have hθτ : |θ m| * ∑ j ∈ Finset.range k, κ j ≤ 2 * |2 * Real.pi * m / P| * T := by
      rw [hsum]
      simp only [hθ]
      rw [abs_mul, abs_of_pos hdx]
      have : |2 * Real.pi * (m : ℝ) / P| * s.dx * (2 / s.dx * τ) = 2 * |2 * Real.pi * m / P| * τ := by field_simp
      rw [this]
      exact mul_le_mul_of_nonneg_left hτT (by positivity)
    have hb1 := hmain _ (hY m) wt eps hwt0 he0 he1 hwt hwb (θ m) hθη h κ k (v m) hh0 hhk hκk rfl (fun j _ => rfl) hθτ
    have e2 : θ m / 2 * ∑ j ∈ Finset.range k, κ j = 2 * Real.pi * m / P * τ := by
      rw [hsum]
      simp only [hθ]
      field_simp
    have e3 : δ * ∑ j ∈ Finset.range k, κ j = 2 * δ * (τ / s.dx) := by rw [hsum]; ring
    rw [e2, e3] at hb1
    refine hb1.trans ?_
    rw [show K (2 * |2 * Real.pi * m / P| * T) = Km m from rfl, mul_assoc (Km m)]
    refine mul_le_mul_of_nonneg_left ?_ (hKm0 m)
    have e4 : |θ m| ^ (2 * p + 1) = |2 * Real.pi * m / P| ^ (2 * p + 1) * s.dx ^ (2 * p + 1) := by
      simp only [hθ]
      rw [abs_mul, abs_of_pos hdx, mul_pow]
    have e5 : (h * |θ m|) ^ q = (2 * |2 * Real.pi * m / P|) ^ q * (s.dx * deck.cfl / (2 * p + 1)) ^ q := by
      simp only [hθ]
      rw [abs_mul, abs_of_pos hdx, ← mul_pow]
      congr 1
      rw [hh]
      ring
    rw [e4, e5]
    simp only [hD]
    have x1 : 0 ≤ s.dx ^ (2 * p + 1) := by positivity
    have x2 : 0 ≤ (s.dx * deck.cfl / (2 * p + 1)) ^ q := by positivity
    have x3 : 0 ≤ Real.exp (-(2 * δ * (τ / s.dx))) := Real.exp_nonneg _
    have y1 : 0 ≤ |2 * Real.pi * m / P| ^ (2 * p + 1) := by positivity
    have y2 : 0 ≤ (2 * |2 * Real.pi * m / P|) ^ q := by positivity
    exact collect_wave y1 y2 x1 x2 x3 he0
  -- all of them
  rw [hok, ← hτ, cellMean_eq (by rw [hlike.rows, hb.rows]; omega), hlike.setup.NF]
  have hw0 := hw 0 e h1 h2
  rw [Fin.val_zero] at hw0
  rw [hw0, average_trig, mesh_edges hm _ h2, mesh_edges hm _ (by omega), Nat.cast_sub h1, Nat.cast_one, ← Finset.sum_sub_distrib, Finset.sum_mul]
  refine (Finset.abs_sum_le_sum_abs _ _).trans (Finset.sum_le_sum fun m hmS => ?_)
  rw [average_wave (β m) (2 * Real.pi * m / P) τ A s.dx hdx e, ← Complex.sub_re, ← mul_sub]
  beta_reduce
  rw [Pi.smul_apply, smul_eq_mul, show β m * Complex.exp ((2 * Real.pi * m / P * (A - s.dx / 2) : ℝ) * Complex.I) = b m from rfl, ← mul_sub]
  refine (Complex.abs_re_le_norm _).trans ?_
  have hbn : ‖b m‖ = ‖β m‖ := by
    simp only [hbm]
    rw [norm_mul, Complex.norm_exp_ofReal_mul_I, mul_one]
  rw [norm_mul, norm_pow, Complex.norm_exp_ofReal_mul_I, one_pow, one_mul, norm_mul, hbn, mul_assoc ‖β m‖]
  exact mul_le_mul_of_nonneg_left (hone m hmS) (norm_nonneg _)

end Dg1d.Props
