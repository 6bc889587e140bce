import Verif.Proofs.Rk4Energy
import Verif.Props.Forget

/-!
# C115 — with the fourth order schemes the energy of advection does not grow over two equal steps, nor from output to output
-/

set_option linter.unusedSectionVars false

open Polynomial Dg1d.Spec

namespace Dg1d.Props
open Text

variable {s : Sol ℝ} {lib : GaussLib ℝ} {p N : ℕ} {ft : FloatText ℝ} {d : Deck ℝ} {ic : IC.Setup}

/-- Equal in the cells of the mesh. -/
def Agree (s : Sol ℝ) (p f : ℕ) (v w : ℕ → ℕ → ℝ) : Prop := ∀ n < p + 1, ∀ e, 1 ≤ e → e ≤ s.NE → v n (e * s.NF + f) = w n (e * s.NF + f)

lemma Agree.form {f : ℕ} {v w v' w' : ℕ → ℕ → ℝ} (h : Agree s p f v w) (h' : Agree s p f v' w') : cellForm s p f v v' = cellForm s p f w w' := by
  rw [cellForm_apply, cellForm_apply]
  refine Finset.sum_congr rfl fun e he => Finset.sum_congr rfl fun n hn => ?_
  rw [Finset.mem_Icc] at he
  rw [h n (Finset.mem_range.mp hn) e he.1 he.2, h' n (Finset.mem_range.mp hn) e he.1 he.2]

/-- The loss of energy that the fourth order step can give back, with step `h`. -/
noncomputable def gainRoom (s : Sol ℝ) (hw : s.WF) (p f : ℕ) (h : ℝ) (v : ℕ → ℕ → ℝ) : ℝ :=
  h ^ 5 * (-2 * cellForm s p f (advLin s hw (advLin s hw (advLin s hw v))) (advLin s hw (advLin s hw v)))

section Periodic
variable (hb : s.Built lib p) (hk : s.kw = Advection.physics) (hen : s.enhance = none) (hl : s.bcl = .lit "periodic") (hr : s.bcr = .lit "periodic")
include hk hen hl hr

lemma Agree.lin {f : ℕ} (hf : f < s.NF) {v w : ℕ → ℕ → ℝ} (h : Agree s p f v w) : Agree s p f (advLin s hb.wf v) (advLin s hb.wf w) :=
  advLin_congr hb hk hen hl hr hf h

lemma Agree.step {f : ℕ} (hf : f < s.NF) (c : ℝ) {v w : ℕ → ℕ → ℝ} (h : Agree s p f v w) :
    Agree s p f (rk4Step (c • advLin s hb.wf) v) (rk4Step (c • advLin s hb.wf) w) := by
  have h1 := h.lin hb hk hen hl hr hf
  have h2 := h1.lin hb hk hen hl hr hf
  have h3 := h2.lin hb hk hen hl hr hf
  have h4 := h3.lin hb hk hen hl hr hf
  intro n hn e he1 he2
  simp only [rk4Step, LinearMap.smul_apply, map_smul, Pi.add_apply, Pi.smul_apply, smul_eq_mul]
  rw [h n hn e he1 he2, h1 n hn e he1 he2, h2 n hn e he1 he2, h3 n hn e he1 he2, h4 n hn e he1 he2]

lemma Agree.room {f : ℕ} (hf : f < s.NF) (c : ℝ) {v w : ℕ → ℕ → ℝ} (h : Agree s p f v w) : gainRoom s hb.wf p f c v = gainRoom s hb.wf p f c w := by
  have h2 := (h.lin hb hk hen hl hr hf).lin hb hk hen hl hr hf
  unfold gainRoom
  rw [(h2.lin hb hk hen hl hr hf).form h2]

/-- The estimates of `rk4_forms` for the advection operator. -/
lemma rk4_advection (hdx : 0 < s.dx) {f : ℕ} (hf : f < s.NF) {h : ℝ} (h0 : 0 ≤ h) (h1 : 18 * ((p : ℝ) + 1) ^ 2 * h ≤ s.dx) (v : ℕ → ℕ → ℝ) :
    let E := fun v => cellForm s p f v v
    let R := rk4Step (h • advLin s hb.wf)
    let l := gainRoom s hb.wf p f h
    E (R v) ≤ E v + 7 / 864 * l v ∧ E (R v) + 7 / 864 * l (R v) ≤ E v + 1 / 48 * l v ∧ E (R (R v)) + 1 / 48 * l (R (R v)) ≤ E v ∧ l v ≤ 1 / 3888 * E v ∧
    E (R (R v)) + 1 / 48 * l (R (R v)) ≤ E v - 1 / 1000 * (h ^ 6 * E (advLin s hb.wf (advLin s hb.wf (advLin s hb.wf v)))) := by
  intro E R l
  have key := rk4_forms (cellForm s p f) (cellForm_symm s p f) (cellForm_nonneg s p f) (h • advLin s hb.wf)
    (fun x => by
      simp only [LinearMap.smul_apply, map_smul, smul_eq_mul]
      exact mul_nonpos_of_nonneg_of_nonpos h0 (advLin_neg hb hk hen hl hr hdx hf x))
    (fun x => by
      simp only [LinearMap.smul_apply, map_smul, smul_eq_mul]
      have b := advLin_bound hb hk hen hl hr hf x
      have n1 := cellForm_nonneg s p f x
      have n2 := cellForm_nonneg s p f (advLin s hb.wf x)
      have c : (18 * ((p : ℝ) + 1) ^ 2) ^ 2 * h ^ 2 ≤ s.dx ^ 2 := by
        rw [← mul_pow]
        exact pow_le_pow_left₀ (by positivity) h1 2
      have d1 : s.dx ^ 2 * (h ^ 2 * cellForm s p f (advLin s hb.wf x) (advLin s hb.wf x)) ≤ s.dx ^ 2 * ((1 / 6) ^ 2 * cellForm s p f x x) := by
        nlinarith [mul_le_mul_of_nonneg_right c n1, mul_le_mul_of_nonneg_left b (sq_nonneg h)]
      have := le_of_mul_le_mul_left d1 (by positivity)
      linarith) v
  have hl : ∀ w, -2 * cellForm s p f ((h • advLin s hb.wf) ((h • advLin s hb.wf) ((h • advLin s hb.wf) w))) ((h • advLin s hb.wf) ((h • advLin s hb.wf) w)) = l w := by
    intro w
    simp only [l, gainRoom, LinearMap.smul_apply, map_smul, smul_eq_mul]
    ring
  have h6 : cellForm s p f ((h • advLin s hb.wf) ((h • advLin s hb.wf) ((h • advLin s hb.wf) v))) ((h • advLin s hb.wf) ((h • advLin s hb.wf) ((h • advLin s hb.wf) v))) =
      h ^ 6 * E (advLin s hb.wf (advLin s hb.wf (advLin s hb.wf v))) := by
    simp only [E, LinearMap.smul_apply, map_smul, smul_eq_mul]
    ring
  simp only [hl] at key
  rw [h6] at key
  exact key

lemma gainRoom_nonneg (hdx : 0 < s.dx) {f : ℕ} (hf : f < s.NF) {c h : ℝ} (h0 : 0 ≤ c) (hch : c ≤ h) (v : ℕ → ℕ → ℝ) :
    0 ≤ gainRoom s hb.wf p f c v ∧ gainRoom s hb.wf p f c v ≤ gainRoom s hb.wf p f h v := by
  have := advLin_neg hb hk hen hl hr hdx hf (advLin s hb.wf (advLin s hb.wf v))
  unfold gainRoom
  refine ⟨mul_nonneg (by positivity) (by linarith), mul_le_mul_of_nonneg_right (pow_le_pow_left₀ h0 hch 5) (by linarith)⟩

end Periodic

/-- One iteration of a run with 'rk4' or 'low_storage_rk4'. -/
lemma rk4_iteration (hb : s.Built lib p) (hk : s.kw = Advection.physics) (hen : s.enhance = none)
    (hdx : 0 < s.dx) {lim : Sol ℝ → Except PyErr (Sol ℝ)} (hlim : ∀ a, lim a = .ok a) (deck : RkDeck ℝ) (hrk : deck.rk ∈ ["rk4", "low_storage_rk4"])
    (hcfl : deck.cfl ≤ (2 * p + 1) / (18 * (p + 1) ^ 2)) (ht : s.t ≤ deck.finaltime) {f : ℕ} (hf : f < s.NF) (k : ℕ)
    (hlike : Like (integrate ⟨residual, lim⟩ deck s k).sol s) {dt : ℝ} {o dn : Bool} (hrun : (integrate ⟨residual, lim⟩ deck s k).status = .running)
    (hdt : getNextTimeStep (integrate ⟨residual, lim⟩ deck s k).sol (integrate ⟨residual, lim⟩ deck s k).tout deck.cfl deck.finaltime = .ok (dt, o, dn)) :
    Like (integrate ⟨residual, lim⟩ deck s (k + 1)).sol s ∧ 0 ≤ dt ∧ 18 * ((p : ℝ) + 1) ^ 2 * dt ≤ s.dx ∧
    Agree s p f (integrate ⟨residual, lim⟩ deck s (k + 1)).sol.u.val (rk4Step (dt • advLin s hb.wf) (integrate ⟨residual, lim⟩ deck s k).sol.u.val) := by
  set run := integrate ⟨residual, lim⟩ deck s with hrundef
  have hkc : (⟨residual, lim⟩ : Env ℝ).KeepsClock := by
    intro x y h
    have : lim x = .ok y := h
    rw [hlim] at this
    cases this
    exact ⟨rfl, rfl⟩
  obtain ⟨-, hl1, hval⟩ := advection_step hb hk hen hlim deck (by simp only [List.mem_cons] at hrk ⊢; tauto) k hlike hrun hdt
  have horder : promisedOrder deck.rk = 4 := by
    simp only [List.mem_cons, List.not_mem_nil, or_false] at hrk
    rcases hrk with h | h <;> rw [h] <;> rfl
  have hsum : ∑ m ∈ Finset.range (4 + 1), (dt ^ m / (m.factorial : ℝ)) • (advLin s hb.wf ^ m) (run k).sol.u.val =
      rk4Step (dt • advLin s hb.wf) (run k).sol.u.val := by
    simp only [Finset.sum_range_succ, Finset.sum_range_zero, zero_add, pow_zero, Nat.factorial, Nat.cast_one, div_one, one_smul,
      Module.End.one_apply, pow_succ, Module.End.mul_apply, one_mul, mul_one, rk4Step, LinearMap.smul_apply, map_smul, smul_smul]
    norm_num
    module
  rw [horder] at hval
  have hinv := timeInv_run hkc (schemeFor deck.rk) deck s ht k
  have hinv' : (run k).sol.t ≤ deck.finaltime ∧ (run k).sol.t ≤ (run k).tout := ⟨hinv.hi, (hinv.run hrun).2.2.2.2.1⟩
  refine ⟨hl1, ?_, ?_, fun n hn e h1 h2 => ?_⟩
  · rcases getNext_cases hdt with ⟨-, -, h⟩ | ⟨-, -, h, -⟩ | ⟨-, -, h, -⟩
    · linarith [hinv'.1]
    · linarith [hinv'.2]
    · exact le_trans (by positivity) h
  · have hd := advection_dt (hlike.setup.kw.trans hk) hdt
    rw [hlike.setup.dx, hlike.setup.basis, show s.basis.p = p by rw [hb.basis]; rfl] at hd
    have hpos : (0 : ℝ) < 2 * p + 1 := by positivity
    have hpos2 : (0 : ℝ) < 18 * (p + 1) ^ 2 := by positivity
    rw [le_div_iff₀ hpos] at hd
    rw [le_div_iff₀ hpos2] at hcfl
    have : s.dx * (deck.cfl * (18 * (p + 1) ^ 2)) ≤ s.dx * (2 * p + 1) := mul_le_mul_of_nonneg_left hcfl hdx.le
    have h2 : 18 * ((p : ℝ) + 1) ^ 2 * (dt * (2 * p + 1)) ≤ 18 * ((p : ℝ) + 1) ^ 2 * (s.dx * deck.cfl) := mul_le_mul_of_nonneg_left hd hpos2.le
    have h3 : (18 * ((p : ℝ) + 1) ^ 2 * dt) * (2 * p + 1) ≤ s.dx * (2 * p + 1) := by linarith
    exact le_of_mul_le_mul_right h3 hpos
  · rw [← hsum]
    exact hval n e h1 h2 f hf

/-- Energies over one output interval: equal steps with at most one shorter one at the end. -/
lemma interval_energy (e l : ℕ → ℝ) (K : ℕ) (he : ∀ i, 0 ≤ e i) (hl : ∀ i, 0 ≤ l i) (h1 : ∀ i < K, e (i + 1) ≤ e i + 7 / 864 * l i)
    (h2 : ∀ i < K, e (i + 1) + 7 / 864 * l (i + 1) ≤ e i + 1 / 48 * l i) (h3 : ∀ i, i + 2 ≤ K → e (i + 2) + 1 / 48 * l (i + 2) ≤ e i) (h4 : ∀ i, l i ≤ 1 / 3888 * e i) :
    ∀ i ≤ K, (i ≠ 0 → i ≠ 1 → e i + 7 / 864 * l i ≤ e 0) ∧ (i ≠ 1 → e i ≤ e 0) ∧ e i ≤ (1 + 1 / 400000) * e 0 := by
  have even : ∀ i, 2 * i ≤ K → e (2 * i) ≤ e 0 ∧ (0 < i → e (2 * i) + 1 / 48 * l (2 * i) ≤ e 0) := by
    intro i
    induction i with
    | zero => intro _; exact ⟨le_rfl, fun h => absurd h (lt_irrefl 0)⟩
    | succ i ih =>
      intro hi
      have := h3 (2 * i) (by omega)
      have h5 : e (2 * (i + 1)) + 1 / 48 * l (2 * (i + 1)) ≤ e 0 := this.trans (ih (by omega)).1
      exact ⟨by linarith [hl (2 * (i + 1))], fun _ => h5⟩
  have main : ∀ i ≤ K, i ≠ 0 → i ≠ 1 → e i + 7 / 864 * l i ≤ e 0 := by
    intro i hi h0 h1'
    obtain ⟨j, hj | hj⟩ := Nat.even_or_odd' i
    · rw [hj] at hi ⊢
      linarith [(even j hi).2 (by omega), hl (2 * j)]
    · rw [hj] at hi ⊢
      exact (h2 (2 * j) (by omega)).trans ((even j (by omega)).2 (by omega))
  have mid : ∀ i ≤ K, i ≠ 1 → e i ≤ e 0 := by
    intro i hi h1'
    by_cases h0 : i = 0
    · rw [h0]
    · linarith [main i hi h0 h1', hl i]
  refine fun i hi => ⟨main i hi, mid i hi, ?_⟩
  by_cases hi1 : i = 1
  · rw [hi1] at hi ⊢
    have := h1 0 (by omega)
    linarith [h4 0, he 0]
  · linarith [mid i hi hi1, he 0]

lemma rk4_like (hb : s.Built lib p) (hk : s.kw = Advection.physics) (hen : s.enhance = none)
    {lim : Sol ℝ → Except PyErr (Sol ℝ)} (hlim : ∀ a, lim a = .ok a) (deck : RkDeck ℝ) (hrk : deck.rk ∈ ["rk4", "low_storage_rk4"]) (k : ℕ) :
    Like (integrate ⟨residual, lim⟩ deck s k).sol s := by
  induction k with
  | zero =>
    have : (integrate ⟨residual, lim⟩ deck s 0).sol = s := run_zero_sol _ _ _ _
    rw [this]
    exact Like.refl s
  | succ k ih =>
    by_cases hidle : (integrate ⟨residual, lim⟩ deck s k).status ≠ .running ∨
        ∃ e, getNextTimeStep (integrate ⟨residual, lim⟩ deck s k).sol (integrate ⟨residual, lim⟩ deck s k).tout deck.cfl deck.finaltime = .error e
    · rw [show (integrate ⟨residual, lim⟩ deck s (k + 1)).sol = (integrate ⟨residual, lim⟩ deck s k).sol from integrate_idle _ deck s k hidle]
      exact ih
    push Not at hidle
    obtain ⟨hrunning, hne⟩ := hidle
    cases hdt : getNextTimeStep (integrate ⟨residual, lim⟩ deck s k).sol (integrate ⟨residual, lim⟩ deck s k).tout deck.cfl deck.finaltime with
    | error e => exact absurd hdt (hne e)
    | ok v =>
    obtain ⟨dt, o, dn⟩ := v
    exact (advection_step hb hk hen hlim deck (by simp only [List.mem_cons] at hrk ⊢; tauto) k ih hrunning hdt).2.1

/-- **C115 (steps).** Linear advection on a periodic domain with 'rk4' or 'low_storage_rk4', no limiter, no enhancement, CFL number at most `(2p+1) / (18 (p+1)²)`: an iteration
multiplies the energy by at most `1 + 1/400000`, and two iterations with equal time steps do not increase it. -/
theorem C115_steps (hb : s.Built lib p) (hk : s.kw = Advection.physics) (hen : s.enhance = none) (hl : s.bcl = .lit "periodic") (hr : s.bcr = .lit "periodic")
    (hdx : 0 < s.dx) (lim : Sol ℝ → Except PyErr (Sol ℝ)) (hlim : ∀ a, lim a = .ok a) (deck : RkDeck ℝ) (hrk : deck.rk ∈ ["rk4", "low_storage_rk4"])
    (hcfl : deck.cfl ≤ (2 * p + 1) / (18 * (p + 1) ^ 2)) (ht : s.t ≤ deck.finaltime) (f : ℕ) (hf : f < s.NF) (k : ℕ) :
    let run := integrate ⟨residual, lim⟩ deck s
    energy (run (k + 1)).sol f ≤ (1 + 1 / 400000) * energy (run k).sol f ∧
    ∀ dt o dn o' dn', (run k).status = .running → (run (k + 1)).status = .running →
      getNextTimeStep (run k).sol (run k).tout deck.cfl deck.finaltime = .ok (dt, o, dn) →
      getNextTimeStep (run (k + 1)).sol (run (k + 1)).tout deck.cfl deck.finaltime = .ok (dt, o', dn') →
      energy (run (k + 2)).sol f ≤ energy (run k).sol f := by
  intro run
  have hlk : ∀ k, Like (run k).sol s := rk4_like hb hk hen hlim deck hrk
  have hpos : ∀ v, 0 ≤ cellForm s p f v v := cellForm_nonneg s p f
  refine ⟨?_, fun dt o dn o' dn' hr1 hr2 hd1 hd2 => ?_⟩
  · rw [energy_eq hb (hlk _), energy_eq hb (hlk _)]
    by_cases hidle : (run k).status ≠ .running ∨ ∃ e, getNextTimeStep (run k).sol (run k).tout deck.cfl deck.finaltime = .error e
    · rw [show (run (k + 1)).sol = (run k).sol from integrate_idle _ deck s k hidle]
      have := mul_nonneg (show 0 ≤ s.dx / 2 by positivity) (hpos (run k).sol.u.val)
      linarith
    push Not at hidle
    obtain ⟨hrunning, hne⟩ := hidle
    cases hdt : getNextTimeStep (run k).sol (run k).tout deck.cfl deck.finaltime with
    | error e => exact absurd hdt (hne e)
    | ok v =>
    obtain ⟨dt, o, dn⟩ := v
    obtain ⟨-, h0, h1, ha⟩ := rk4_iteration hb hk hen hdx hlim deck hrk hcfl ht hf k (hlk k) hrunning hdt
    obtain ⟨g1, -, -, g4, -⟩ := rk4_advection hb hk hen hl hr hdx hf h0 h1 (run k).sol.u.val
    rw [show cellForm s p f (run (k + 1)).sol.u.val (run (k + 1)).sol.u.val = _ from ha.form ha]
    have hp := hpos (run k).sol.u.val
    have : cellForm s p f (rk4Step (dt • advLin s hb.wf) (run k).sol.u.val) (rk4Step (dt • advLin s hb.wf) (run k).sol.u.val) ≤
        (1 + 1 / 400000) * cellForm s p f (run k).sol.u.val (run k).sol.u.val := by linarith
    have := mul_le_mul_of_nonneg_left this (show 0 ≤ s.dx / 2 by positivity)
    linarith
  · rw [energy_eq hb (hlk _), energy_eq hb (hlk _)]
    refine mul_le_mul_of_nonneg_left ?_ (by positivity)
    obtain ⟨-, h0, h1, ha⟩ := rk4_iteration hb hk hen hdx hlim deck hrk hcfl ht hf k (hlk k) hr1 hd1
    obtain ⟨-, -, -, ha2⟩ := rk4_iteration hb hk hen hdx hlim deck hrk hcfl ht hf (k + 1) (hlk (k + 1)) hr2 hd2
    obtain ⟨-, -, g3, -⟩ := rk4_advection hb hk hen hl hr hdx hf h0 h1 (run k).sol.u.val
    have hstep := ha.step hb hk hen hl hr hf dt
    rw [show cellForm s p f (run (k + 2)).sol.u.val (run (k + 2)).sol.u.val = _ from ha2.form ha2, hstep.form hstep]
    have := (gainRoom_nonneg hb hk hen hl hr hdx hf h0 le_rfl (rk4Step (dt • advLin s hb.wf) (rk4Step (dt • advLin s hb.wf) (run k).sol.u.val))).1
    linarith

/-- Linear advection with any data, no limiter: no iteration raises an exception and the CFL step is always the same. -/
lemma steady_built (hb : s.Built lib p) (hk : s.kw = Advection.physics) {lim : Sol ℝ → Except PyErr (Sol ℝ)} (hlim : ∀ a, lim a = .ok a) (deck : RkDeck ℝ) {δ : ℝ}
    (hδ : δ = s.dx * deck.cfl / (2 * p + 1)) (hbig : 1 / 10 ^ 14 ≤ δ) (hout : 2 ≤ deck.nout) (ht : s.t ≤ deck.finaltime) :
    SteadySteps (schemeFor deck.rk) ⟨residual, lim⟩ deck s δ := by
  have hclock : Env.KeepsClock (K := ℝ) ⟨residual, lim⟩ := fun a v hv => by
    obtain rfl : a = v := Except.ok.inj ((hlim a).symm.trans hv)
    exact ⟨rfl, rfl⟩
  have hcfl : ∀ a, Like a s → cflTimeStep a deck.cfl = .ok (.fin δ) := fun a ha => by
    have hba := ha.built hb
    have hden : (1 : ℝ) * (2 * (a.basis.p : ℝ) + 1) ≠ 0 := by positivity
    unfold cflTimeStep
    rw [ha.setup.kw, hk]
    show (if _ then _ else _) = _
    rw [if_neg hden, ha.setup.dx, hba.basis, one_mul, hδ]
    rfl
  have hprog : Progress (K := ℝ) ⟨residual, lim⟩ deck.cfl (Like · s) (Like · s) (fun _ => True) :=
    { zero := fun _ _ => trivial
      smul := fun _ _ _ => trivial
      axpy := fun a x A hx _ => hx.axpy a A
      copy := fun w x hw hx => hw.copy hx
      clock := fun x a m hx => hx.clock _ _
      head := fun _ hx => hx
      bc := fun _ hx => hx.applyBc
      headLimit := fun a v ha hv => by
        obtain rfl : a = v := Except.ok.inj ((hlim a).symm.trans hv)
        exact ha
      stageLimit := fun a v ha hv => by
        obtain rfl : a = v := Except.ok.inj ((hlim a).symm.trans hv)
        exact ha
      res := fun x v A hx hr => by
        rw [residual_sol hr]
        exact ⟨hx.applyBc, trivial⟩
      limOk := fun a _ => ⟨a, hlim a⟩
      resOk := fun a ha => by
        have hps : a.kw.Pointwise (Advection.spec a.NF) := by
          rw [ha.setup.kw, hk]
          exact Advection.pointwise a.NF
        obtain ⟨F, hF, -⟩ := (residual_eq (ha.built hb).wf hps).2 (fun _ _ h => h)
        exact ⟨_, _, hF⟩
      dtOk := fun a ha => ⟨.fin δ, hcfl a ha, by
        unfold sanityCheckDt
        simp only
        rw [if_neg (not_lt.mpr hbig)]⟩ }
  exact ⟨hclock, ht, hout, hbig, fun k _ => hcfl _ (hprog.toInvariant.run deck (schemeFor deck.rk) (Like.refl s) k).1,
    fun k e => hprog.never_fails (deck := deck) hclock (schemeFor deck.rk) (Like.refl s) ht hout k e⟩

/-- **C115 (outputs).** Linear advection on a periodic domain from any data, 'rk4' or 'low_storage_rk4', no limiter, no enhancement, CFL number at most `(2p+1) / (18 (p+1)²)`, outputs at
least two CFL steps apart: the energy never increases from one output to a later one, and at no iteration it is more than `1 + 1/400000` times the energy at the start. -/
theorem C115_outputs (hb : s.Built lib p) (hk : s.kw = Advection.physics) (henh : s.enhance = none) (hbl : s.bcl = .lit "periodic") (hbr : s.bcr = .lit "periodic")
    (hdx : 0 < s.dx) (lim : Sol ℝ → Except PyErr (Sol ℝ)) (hl0 : ∀ a, lim a = .ok a) (deck : RkDeck ℝ) (hrkd : deck.rk ∈ ["rk4", "low_storage_rk4"])
    (hcfl : deck.cfl ≤ (2 * p + 1) / (18 * (p + 1) ^ 2)) {δ : ℝ} (hδ : δ = s.dx * deck.cfl / (2 * p + 1)) (hbig : 1 / 10 ^ 14 ≤ δ) {M : ℕ} (hM : 1 ≤ M) (hnout : deck.nout = M + 1)
    (hts : s.t ≤ deck.finaltime) (hfit : 2 * δ ≤ (deck.finaltime - s.t) / M) (f : ℕ) (hf : f < s.NF) (k : ℕ) :
    (∀ o ∈ (integrate ⟨residual, lim⟩ deck s k).log, energy o.sol f ≤ energy s f ∧
      ∀ o' ∈ (integrate ⟨residual, lim⟩ deck s k).log, o.nout ≤ o'.nout → energy o'.sol f ≤ energy o.sol f) ∧
    energy (integrate ⟨residual, lim⟩ deck s k).sol f ≤ (1 + 1 / 400000) * energy s f := by
  have hδ0 : 0 < δ := lt_of_lt_of_le (by norm_num) hbig
  have h := steady_built hb hk hl0 deck hδ hbig (by omega) hts
  set τ := (deck.finaltime - s.t) / M with hτd
  set K := ⌊τ / δ⌋₊ with hK
  set m := K + 1 with hm
  have hm0 : 0 < m := by omega
  have hK2 : 2 ≤ K := by
    rw [hK]
    exact Nat.le_floor (by rw [le_div_iff₀ hδ0]; exact_mod_cast hfit)
  have hτ' : τ = (deck.finaltime - s.t) / M := hτd
  have hfit' : δ ≤ τ := by linarith
  have hcount := C113_counts h M m τ hnout hτ' hfit' hm
  set run := integrate ⟨residual, lim⟩ deck s with hrun
  have hlk : ∀ j, Like (run j).sol s := rk4_like hb hk henh hl0 deck hrkd
  set E := fun j => cellForm s p f (run j).sol.u.val (run j).sol.u.val with hE
  set l := fun j => gainRoom s hb.wf p f δ (run j).sol.u.val with hldef
  have hE0 : ∀ j, 0 ≤ E j := fun j => cellForm_nonneg s p f _
  have hen : ∀ j, energy (run j).sol f = s.dx / 2 * E j := fun j => energy_eq hb (hlk j) f
  -- the full steps
  have hfull : ∀ j, j < M * m → j % m + 1 < m → 18 * ((p : ℝ) + 1) ^ 2 * δ ≤ s.dx ∧
      Agree s p f (run (j + 1)).sol.u.val (rk4Step (δ • advLin s hb.wf) (run j).sol.u.val) := by
    intro j hj hjm
    exact (rk4_iteration hb hk henh hdx hl0 deck hrkd hcfl hts hf j (hlk j) ((hcount j).1 hj).1 (h.full hnout hτ' hfit' hm hj hjm)).2.2
  -- one interval
  have interval : ∀ q < M, (∀ i ≤ K, E (q * m + i) ≤ (1 + 1 / 400000) * E (q * m)) ∧ E ((q + 1) * m) ≤ E (q * m) := by
    intro q hq
    have hqM : (q + 1) * m ≤ M * m := Nat.mul_le_mul_right _ hq
    have hqs : (q + 1) * m = q * m + K + 1 := by rw [hm]; ring
    have hmod : ∀ i ≤ K, (q * m + i) % m = i := by
      intro i hi
      rw [mul_comm, Nat.mul_add_mod, Nat.mod_eq_of_lt (by omega)]
    have hst : ∀ i < K, 18 * ((p : ℝ) + 1) ^ 2 * δ ≤ s.dx ∧
        Agree s p f (run (q * m + (i + 1))).sol.u.val (rk4Step (δ • advLin s hb.wf) (run (q * m + i)).sol.u.val) := by
      intro i hi
      exact hfull (q * m + i) (by omega) (by rw [hmod i hi.le]; omega)
    have hδx := (hst 0 (by omega)).1
    have hest := fun v => rk4_advection hb hk henh hbl hbr hdx hf hδ0.le hδx v
    have hint := interval_energy (fun i => E (q * m + i)) (fun i => l (q * m + i)) K (fun i => hE0 _)
      (fun i => (gainRoom_nonneg hb hk henh hbl hbr hdx hf hδ0.le le_rfl _).1)
      (fun i hi => by
        have a := (hst i hi).2
        have g := (hest (run (q * m + i)).sol.u.val).1
        simp only at g
        rw [← a.form a] at g
        exact g)
      (fun i hi => by
        have a := (hst i hi).2
        have g := (hest (run (q * m + i)).sol.u.val).2.1
        simp only at g
        rw [← a.form a, ← a.room hb hk henh hbl hbr hf δ] at g
        exact g)
      (fun i hi => by
        have a := (hst i (by omega)).2
        have a2 := (hst (i + 1) (by omega)).2
        have a3 := a.step hb hk henh hbl hbr hf δ
        have g := (hest (run (q * m + i)).sol.u.val).2.2.1
        simp only at g
        rw [← a3.form a3, ← a3.room hb hk henh hbl hbr hf δ, ← a2.form a2, ← a2.room hb hk henh hbl hbr hf δ] at g
        exact g)
      (fun i => (hest (run (q * m + i)).sol.u.val).2.2.2.1)
    refine ⟨fun i hi => (hint i hi).2.2, ?_⟩
    have hlast := (hint K le_rfl).1 (by omega) (by omega)
    have hjM : q * m + K < M * m := by omega
    obtain ⟨r1, r2, -⟩ := (hcount (q * m + K)).1 hjM
    have hnx := h.next r1
    generalize hadj : adjustForOutput δ ((schemeFor deck.rk).run ⟨residual, lim⟩ deck s (q * m + K)).sol.t deck.finaltime
      ((schemeFor deck.rk).run ⟨residual, lim⟩ deck s (q * m + K)).tout = x at hnx
    obtain ⟨dt, o, dn⟩ := x
    have hdtδ : dt ≤ δ := by
      unfold adjustForOutput at hadj
      split_ifs at hadj with c1 c2 <;> cases hadj
      · exact c1.le
      · exact c2.le
      · exact le_rfl
    obtain ⟨-, b0, b1, ba⟩ := rk4_iteration hb hk henh hdx hl0 deck hrkd hcfl hts hf (q * m + K) (hlk _) r1 hnx
    have g := (rk4_advection hb hk henh hbl hbr hdx hf b0 b1 (run (q * m + K)).sol.u.val).1
    simp only at g
    have ba' : Agree s p f (run (q * m + K + 1)).sol.u.val (rk4Step (dt • advLin s hb.wf) (run (q * m + K)).sol.u.val) := ba
    rw [← ba'.form ba'] at g
    have g2 := (gainRoom_nonneg hb hk henh hbl hbr hdx hf b0 hdtδ (run (q * m + K)).sol.u.val).2
    rw [hqs]
    simp only [hE, hldef, add_zero] at hlast g ⊢
    linarith
  have mono : ∀ a b, a ≤ b → b ≤ M → E (b * m) ≤ E (a * m) := by
    intro a b hab
    induction b, hab using Nat.le_induction with
    | base => intro _; exact le_rfl
    | succ b _ ih => intro hb'; exact (interval b (by omega)).2.trans (ih (by omega))
  have hstay : ∀ j, M * m ≤ j → run j = run (M * m) := fun j hj => SteadySteps.stays (by rw [((hcount (M * m)).2.1 le_rfl).1]; simp) hj
  have hzero : (run 0).sol = s := run_zero_sol _ _ _ _
  have hdx2 : 0 ≤ s.dx / 2 := by positivity
  have hs0 : energy s f = s.dx / 2 * E 0 := by rw [← hen 0, hzero]
  have hout' : ∀ o ∈ (run k).log, o.nout ≤ M ∧ o.sol = (run (o.nout * m)).sol := by
    intro o ho
    obtain ⟨j, -, hj⟩ := run_log_states h.clock (schemeFor deck.rk) deck s k o ho
    have hpr : (o.nout, o.sol.n, o.sol.t, o.dt) ∈ printout (run k).log := List.mem_map_of_mem ho
    rw [show printout (run k).log = _ from (hcount k).2.2, List.mem_map] at hpr
    obtain ⟨q, hq, he⟩ := hpr
    simp only [Prod.mk.injEq] at he
    rw [List.mem_range] at hq
    have hqM : q ≤ M := by omega
    have hn : o.sol.n = s.n + q * m := by rw [← he.2.1]
    refine ⟨he.1 ▸ hqM, ?_⟩
    rw [← he.1]
    rcases lt_or_ge j (M * m) with hjM | hjM
    · have hjn := ((hcount j).1 hjM).2.2
      rw [← hj, hn] at hjn
      rw [hj, Nat.add_left_cancel hjn]
      rfl
    · have hjn := ((hcount j).2.1 hjM).2.2
      rw [← hj, hn] at hjn
      rw [hj, Nat.add_left_cancel hjn]
      exact congrArg LoopState.sol (hstay j hjM)
  refine ⟨fun o ho => ⟨?_, fun o' ho' hoo => ?_⟩, ?_⟩
  · obtain ⟨g1, g2⟩ := hout' o ho
    rw [g2, hen, hs0]
    have := mono 0 o.nout (Nat.zero_le _) g1
    rw [zero_mul] at this
    exact mul_le_mul_of_nonneg_left this hdx2
  · obtain ⟨g1, g2⟩ := hout' o ho
    obtain ⟨g1', g2'⟩ := hout' o' ho'
    rw [g2, g2', hen, hen]
    exact mul_le_mul_of_nonneg_left (mono _ _ hoo g1') hdx2
  · rw [hen, hs0, ← mul_assoc, mul_comm (1 + 1 / 400000 : ℝ), mul_assoc]
    refine mul_le_mul_of_nonneg_left ?_ hdx2
    rcases lt_or_ge k (M * m) with hkM | hkM
    · have hq : k / m < M := Nat.div_lt_of_lt_mul (by rw [mul_comm]; exact hkM)
      have e : k / m * m + k % m = k := by rw [mul_comm]; exact Nat.div_add_mod k m
      have := (interval (k / m) hq).1 (k % m) (by have := Nat.mod_lt k hm0; omega)
      rw [e] at this
      have h2 := mono 0 (k / m) (Nat.zero_le _) hq.le
      rw [zero_mul] at h2
      linarith
    · have h2 := mono 0 M (Nat.zero_le _) le_rfl
      rw [zero_mul] at h2
      have : E k = E (M * m) := by simp only [hE]; rw [hstay k hkM]
      rw [this]
      linarith [hE0 0]

/-- **C115 (whole runs).** A valid advection deck on a periodic domain with 'rk4' or 'low_storage_rk4', no limiter, no enhancement, CFL number at most `(2p+1) / (18 (p+1)²)`, outputs at
least two CFL steps apart: the energy never increases from one output to a later one, and at no iteration it is more than `1 + 1/400000` times the energy at the start. -/
theorem C115_deck (hlib : lib.Ok) (junk : ℕ → ℝ) (hd : ValidDeck lib ft d p N ic) (hsys : d.system ≠ "euler".toList) (hper : ic.bc = "periodic")
    (hrk : d.rk ∈ ["rk4".toList, "low_storage_rk4".toList]) (hlim : d.limiting ≠ "adaptive_hr".toList) (hen : d.enhance = []) {δ : ℝ}
    (hδ : δ = (ic.B - ic.A) / N * d.cfl / (2 * p + 1)) (hbig : 1 / 10 ^ 14 ≤ δ) (hcfl : d.cfl ≤ (2 * p + 1) / (18 * (p + 1) ^ 2)) {M : ℕ} (hM : 1 ≤ M) (hout : d.nout = M + 1)
    (hT : 0 ≤ d.finaltime) (hfit : 2 * δ ≤ d.finaltime / M) :
    ∃ s, start lib ft junk d = .ok (s, none) ∧ ∀ k,
      (∀ o ∈ (integrate ⟨residual, Limiter.limit none⟩ d.rkDeck s k).log, energy o.sol 0 ≤ energy s 0 ∧
        ∀ o' ∈ (integrate ⟨residual, Limiter.limit none⟩ d.rkDeck s k).log, o.nout ≤ o'.nout → energy o'.sol 0 ≤ energy o.sol 0) ∧
      energy (integrate ⟨residual, Limiter.limit none⟩ d.rkDeck s k).sol 0 ≤ (1 + 1 / 400000) * energy s 0 := by
  obtain ⟨c, s, lm, hc, hst, S⟩ := C69_starts hlib junk hd
  have hAB : ic.A < ic.B := by
    obtain ⟨name, p0, rest, -, -, l3, -⟩ := hd.line
    exact (setupOf_facts l3).1
  have hN : (0 : ℝ) < N := by exact_mod_cast hd.cells
  have hdx : 0 < s.dx := by rw [S.mesh.width]; exact div_pos (by linarith) hN
  have henh : s.enhance = none := by
    have := S.enhance
    rw [hen] at this
    unfold enhancementOf at this
    rw [if_pos rfl] at this
    cases h : s.enhance with
    | none => rfl
    | some x => rw [h] at this; cases this
  have hk := (S.physics.advection hsys).1
  have hbl : s.bcl = .lit "periodic" := by rw [S.bc.1, hper]
  have hbr : s.bcr = .lit "periodic" := by rw [S.bc.2, hper]
  obtain ⟨s', lm', hst', h0, h1, h, hb, hNE, hNF, hnone, hlike⟩ := steady_deck (δ := δ) hlib junk hd hsys (by rw [hout]; omega) hT hδ hbig
  rw [hst] at hst'
  cases hst'
  obtain rfl := hnone hlim
  have hrkd : d.rkDeck.rk ∈ ["rk4", "low_storage_rk4"] := by
    show String.ofList d.rk ∈ _
    simp only [List.mem_cons, List.not_mem_nil, or_false] at hrk ⊢
    rcases hrk with h | h <;> rw [h, String.ofList_toList] <;> simp
  exact ⟨s, hst, fun k => C115_outputs S.built hk henh hbl hbr hdx _ (fun _ => rfl) d.rkDeck hrkd hcfl (by rw [hδ, S.mesh.width]; rfl) hbig hM (by show d.nout.toNat = _; rw [hout]; omega)
    (by rw [h0]; exact hT) (by rw [h0, sub_zero]; exact hfit) 0 S.built.NF k⟩

/-! ### Cases -/

/-- The sine wave with 'rk4' and CFL number 1/30. -/
noncomputable def Ex.sine4 : Deck ℝ := { Ex.sineDeck with rk := "rk4".toList, cfl := 1 / 30, finaltime := 1, nout := 5 }

lemma Ex.sine4_valid : ValidDeck realGauss Ex.decReal Ex.sine4 1 8 IC.sinewave :=
  ⟨Ex.sine_valid.order, Ex.sine_valid.cells, Ex.sine_valid.line, Ex.sine_valid.enhance, Ex.sine_valid.limiter⟩

/-- `C115_deck`: eight cells, order 1, five outputs. -/
example : ∃ s, start realGauss Ex.decReal (fun _ => 0) Ex.sine4 = .ok (s, none) ∧ ∀ k,
    energy (integrate ⟨residual, Limiter.limit none⟩ Ex.sine4.rkDeck s k).sol 0 ≤ (1 + 1 / 400000) * energy s 0 := by
  obtain ⟨s, h1, h2⟩ := C115_deck (δ := 1 / 360) (M := 4) realGauss_ok (fun _ => 0) Ex.sine4_valid (show "advection".toList ≠ "euler".toList by decide) rfl
    (by simp [Ex.sine4]) (show ([] : Str) ≠ "adaptive_hr".toList by decide) rfl
    (show (1 / 360 : ℝ) = ((1 : ℝ) - -1) / (8 : ℕ) * (1 / 30) / (2 * (1 : ℕ) + 1) by norm_num) (by norm_num)
    (show (1 / 30 : ℝ) ≤ (2 * (1 : ℕ) + 1) / (18 * ((1 : ℕ) + 1) ^ 2) by norm_num) (by norm_num) (by simp [Ex.sine4]) (by norm_num [Ex.sine4]) (by norm_num [Ex.sine4])
  exact ⟨s, h1, fun k => (h2 k).2⟩

/-- `C115_outputs`: three cells of any order up to 100, data that are no initial condition of the code, two outputs after the first. -/
example (p : ℕ) (hp : p ≤ 100) (k : ℕ) :
    let y := (Ex.solR p).withVal fun n c => n + c ^ 3
    let deck : RkDeck ℝ := { rk := "rk4", nout := 3, cfl := (2 * p + 1) / (18 * (p + 1) ^ 2), finaltime := 1 }
    ∀ o ∈ (integrate ⟨residual, fun a => .ok a⟩ deck y k).log, energy o.sol 0 ≤ energy y 0 := by
  intro y deck o ho
  have hy : Like y (Ex.solR p) := withVal_like _ _
  have hp0 : (0 : ℝ) ≤ p := Nat.cast_nonneg p
  have hp1 : (p : ℝ) ≤ 100 := by exact_mod_cast hp
  have hstep : y.dx * deck.cfl / (2 * p + 1) = y.dx / (18 * (p + 1) ^ 2) := by
    simp only [deck]
    field_simp
  exact ((C115_outputs (hy.built (Ex.solR_built p)) rfl rfl rfl rfl (by norm_num [y, Ex.solR, Sol.withVal]) (fun s => .ok s) (fun _ => rfl) deck (by simp [deck]) le_rfl rfl
    (by
      rw [hstep, le_div_iff₀ (by positivity)]
      norm_num [y, Ex.solR, Sol.withVal]
      nlinarith)
    (M := 2) (by norm_num) rfl (by norm_num [y, deck, Ex.solR, Sol.withVal])
    (by
      rw [hstep]
      norm_num [y, deck, Ex.solR, Sol.withVal]
      rw [← mul_div_assoc, div_le_iff₀ (by positivity)]
      nlinarith) 0 (by norm_num [y, Ex.solR, Sol.withVal]) k).1 o ho).1

/-- `C115_steps`: three cells of any order, at the largest CFL number allowed. -/
example (p k : ℕ) : energy (integrate ⟨residual, fun a => .ok a⟩ { rk := "low_storage_rk4", nout := 3, cfl := (2 * p + 1) / (18 * (p + 1) ^ 2), finaltime := 1 } (Ex.solR p) (k + 1)).sol 0 ≤
    (1 + 1 / 400000) * energy (integrate ⟨residual, fun a => .ok a⟩ { rk := "low_storage_rk4", nout := 3, cfl := (2 * p + 1) / (18 * (p + 1) ^ 2), finaltime := 1 } (Ex.solR p) k).sol 0 :=
  (C115_steps (Ex.solR_built p) rfl rfl rfl rfl (by norm_num [Ex.solR]) (fun s => .ok s) (fun _ => rfl) _ (by simp) le_rfl (by norm_num [Ex.solR]) 0
    (by norm_num [Ex.solR]) k).1

end Dg1d.Props
