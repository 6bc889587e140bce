import Verif.Proofs.Runs
import Verif.Props.Dg

/-! # Properties of whole runs: conservation, uniform flow, translation, ghost cells

`sch` ranges over all schemes (`low_storage_rk4`, or `classic_rk` with any table), `k` is the number of iterations
of the main loop done so far. -/

set_option linter.unusedSectionVars false

open Polynomial Dg1d.Spec

namespace Dg1d.Props
variable {K : Type*} [Field K] [LinearOrder K] [IsStrictOrderedRing K] {s : Sol K} {lib : GaussLib K} {p : ℕ}

/-- Total amount of field `f` divided by the cell width: the sum of the cell averages. -/
noncomputable def total (s : Sol K) (f : ℕ) : K := ∑ e ∈ Finset.Icc 1 s.NE, cellMean s e f

/-- **C15 (conservation over a run).** Periodic boundaries, any physics, enhancement or not, any scheme, any
limiter that keeps the cell averages: the total of every field is in every output and in the current state what it
was initially. -/
theorem C15_conservation (h : s.Built lib p) (ps : PhysSpec K s.NF) (hps : s.kw.Pointwise ps)
    (hl : s.bcl = .lit "periodic") (hr : s.bcr = .lit "periodic") (limit : Sol K → Except PyErr (Sol K))
    (hlim : ∀ a b, Like a s → limit a = .ok b → Like b s ∧
      ∀ e, 1 ≤ e → e ≤ s.NE → ∀ f < s.NF, cellMean b e f = cellMean a e f)
    (deck : RkDeck K) (sch : Scheme K) (k : ℕ) :
    (∀ f < s.NF, total (sch.run ⟨residual, limit⟩ deck s k).sol f = total s f) ∧
    ∀ o ∈ (sch.run ⟨residual, limit⟩ deck s k).log, ∀ f < s.NF, total o.sol f = total s f := by
  have hmean : ∀ a, Like a s → ∀ e f, cellMean a e f = a.u.val 0 (e * s.NF + f) := by
    intro a ha e f
    rw [cellMean_eq (by rw [ha.rows, h.rows]; omega), ha.setup.NF]
  have htot : ∀ a, Like a s → ∀ f, total a f = ∑ e ∈ Finset.Icc 1 s.NE, a.u.val 0 (e * s.NF + f) := by
    intro a ha f
    unfold total
    rw [ha.setup.NE]
    exact Finset.sum_congr rfl fun e _ => hmean a ha e f
  let S : Sol K → Prop := fun a => Like a s ∧ ∀ f < s.NF, ∑ e ∈ Finset.Icc 1 s.NE, a.u.val 0 (e * s.NF + f) = total s f
  have hlimS : ∀ a b, S a → limit a = .ok b → S b := by
    intro a b ha hb
    obtain ⟨hb1, hb2⟩ := hlim a b ha.1 hb
    refine ⟨hb1, fun f hf => ?_⟩
    rw [← ha.2 f hf]
    apply Finset.sum_congr rfl
    intro e he
    rw [Finset.mem_Icc] at he
    rw [← hmean b hb1, ← hmean a ha.1]
    exact hb2 e he.1 he.2 f hf
  have hbcS : ∀ a, S a → S a.applyBc := by
    intro a ha
    refine ⟨ha.1.applyBc, fun f hf => ?_⟩
    rw [← ha.2 f hf]
    apply Finset.sum_congr rfl
    intro e he
    rw [Finset.mem_Icc] at he
    have hb := ha.1.built h
    rw [applyBc_val hb.NF hb.NE hb.cols, ← ha.1.setup.NF,
      bcCol_interior a he.1 (by rw [ha.1.setup.NE]; exact he.2) (by rw [ha.1.setup.NF]; exact hf)]
  have inv : Invariant (K := K) ⟨residual, limit⟩ S S
      (fun A => ∀ f < s.NF, ∑ e ∈ Finset.Icc 1 s.NE, A.val 0 (e * s.NF + f) = 0) :=
    { zero := fun _ _ _ _ => Finset.sum_const_zero
      smul := fun a A hA f hf => by
        simp only [Arr.smul]; rw [← Finset.mul_sum, hA f hf, mul_zero]
      axpy := fun a x A hx hA => by
        refine ⟨hx.1.axpy a A, fun f hf => ?_⟩
        simp only [Arr.add, Arr.smul]
        rw [Finset.sum_add_distrib, ← Finset.mul_sum, hA f hf, hx.2 f hf, mul_zero, add_zero]
      copy := fun w x hw hx => ⟨hw.1.copy hx.1, hx.2⟩
      clock := fun x a m hx => ⟨hx.1.clock _ _, hx.2⟩
      head := fun _ hx => hx
      bc := hbcS
      headLimit := hlimS
      stageLimit := hlimS
      res := by
        intro x v A hx hres
        rw [residual_sol hres]
        refine ⟨hbcS x hx, fun f hf => ?_⟩
        have hx1 := hx.1
        have hb := hx1.built h
        obtain ⟨F, hF⟩ : ∃ F, residual x = .ok F := ⟨_, hres⟩
        rw [hx1.eq_reb] at hres hb
        have c14 := (C14_conservation hb (ps := ps) hps v A hres ⟨f, hf⟩).2 (by exact hl) (by exact hr)
        refine Eq.trans (Finset.sum_congr rfl fun e _ => ?_) c14
        have := intPoly_legSeries (p + 1) (fun n => A.val n (e * s.NF + f)) 0 (by omega)
        rw [legendre_zero, mul_one] at this
        show A.val 0 (e * s.NF + f) = intPoly (legSeries (p + 1) fun n => A.val n (e * s.NF + f)) / 2
        rw [this]
        norm_num }
  have hS0 : S s := ⟨Like.refl s, fun f _ => (htot s (Like.refl s) f).symm⟩
  obtain ⟨h1, h2⟩ := inv.run deck sch hS0 k
  exact ⟨fun f hf => by rw [htot _ h1.1, h1.2 f hf], fun o ho f hf => by rw [htot _ (h2 o ho).1, (h2 o ho).2 f hf]⟩

/-- C15 on a concrete three-cell solution of any order, with rk4 and no limiter. -/
example (p : ℕ) (deck : RkDeck ℝ) (k : ℕ) :
    total ((Scheme.classic (rk4K ℝ)).run ⟨residual, fun s => .ok s⟩ deck (Ex.solR p) k).sol 0 = total (Ex.solR p) 0 :=
  (C15_conservation (Ex.solR_built p) (Advection.spec 1) (Advection.pointwise 1) rfl rfl (fun s => .ok s)
    (fun a b ha hb => by cases hb; exact ⟨ha, fun _ _ _ _ _ => rfl⟩) deck _ k).1 0 (by norm_num [Ex.solR])

/-- The interior of `a` is the constant state `c` (as polynomials) in every cell, and the ghost averages are `c` too. -/
def IsUniform (a : Sol K) (c : ℕ → K) : Prop :=
  (∀ e, 1 ≤ e → e ≤ a.NE → ∀ f < a.NF, cellPoly a e f = C (c f)) ∧
  ∀ e, (e = 0 ∨ e = a.NE + 1) → ∀ f < a.NF, cellMean a e f = c f

lemma isUniform_iff {a : Sol K} (hr : a.u.rows = p + 1) (c : ℕ → K) : IsUniform a c ↔ Uniform a.NE a.NF (p + 1) c a.u.val := by
  have hC : ∀ x : K, C x = legSeries (p + 1) fun n => if n = 0 then x else 0 := by
    intro x
    unfold legSeries
    rw [Finset.sum_eq_single 0]
    · simp [legendre_zero]
    · intro b _ hb; simp [hb]
    · intro h; simp at h
  constructor
  · rintro ⟨h1, h2⟩
    have key : ∀ e, 1 ≤ e → e ≤ a.NE → ∀ f < a.NF, ∀ n < p + 1, a.u.val n (e * a.NF + f) = if n = 0 then c f else 0 := by
      intro e he1 he2 f hf n hn
      have := h1 e he1 he2 f hf
      unfold cellPoly at this
      rw [hr, hC] at this
      exact legSeries_injective (p + 1) _ _ this n hn
    constructor
    · intro e he f hf
      by_cases hg : e = 0 ∨ e = a.NE + 1
      · rw [← cellMean_eq (by omega)]; exact h2 e hg f hf
      · rw [key e (by omega) (by omega) f hf 0 (by omega), if_pos rfl]
    · intro n h0 hn e he1 he2 f hf
      rw [key e he1 he2 f hf n hn, if_neg (by omega)]
  · rintro ⟨h1, h2⟩
    constructor
    · intro e he1 he2 f hf
      unfold cellPoly
      rw [hr, hC]
      unfold legSeries
      apply Finset.sum_congr rfl
      intro n hn
      congr 2
      beta_reduce
      split
      · rename_i h0; subst h0; exact h1 e (by omega) f hf
      · exact h2 n (by omega) (Finset.mem_range.mp hn) e he1 he2 f hf
    · intro e he f hf
      rw [cellMean_eq (by omega)]
      exact h1 e (by omega) f hf

/-- **C16 (residual of a uniform flow).** It is defined, and zero in every interior cell. -/
theorem C16_uniform_residual (h : s.Built lib p) (ps : PhysSpec K s.NF) (hps : s.kw.Pointwise ps)
    (hl : s.bcl = .lit "periodic" ∨ s.bcl = .lit "zerograd") (hr : s.bcr = .lit "periodic" ∨ s.bcr = .lit "zerograd")
    (hen : ∀ en, s.enhance = some en →
      en.alphaL.val 0 + en.alphaR.val 0 = 1 ∧ en.betaL.val 0 + en.betaR.val 0 = 1)
    (c : ℕ → K) (hu : IsUniform s c)
    (hfail : ¬ ps.fails (fun f => c f) (fun f => c f))
    (hcons : ps.num (fun f => c f) (fun f => c f) = ps.flux (fun f => c f)) :
    ∃ F, residual s = .ok (s.applyBc, F) ∧ ∀ n < p + 1, ∀ e, 1 ≤ e → e ≤ s.NE → ∀ f < s.NF, F.val n (e * s.NF + f) = 0 := by
  have hb : s.BcKnown := by
    refine ⟨hl.imp ?_ ?_, hr.imp ?_ ?_⟩ <;> (intro hx; rw [hx]; exact ⟨rfl, rfl⟩)
  obtain ⟨F, hF, hz, -⟩ := uniform_residual h rfl ps hps hb hen ((isUniform_iff h.rows c).mp hu) hfail hcons
  refine ⟨F, hF, fun n hn e he1 he2 f hf => ?_⟩
  by_cases h0 : n = 0
  · subst h0; exact hz.mean e (by omega) f hf
  · exact hz.high n (by omega) hn e he1 he2 f hf

/-- Like `s`, holding the constant state `c`, with the thresholds of `s`. -/
def UniformLike (s : Sol K) (p : ℕ) (c : ℕ → K) (a : Sol K) : Prop :=
  Like a s ∧ Uniform s.NE s.NF (p + 1) c a.u.val ∧ a.thresholds = s.thresholds

lemma uniformLike_iff (h : s.Built lib p) (c : ℕ → K) (a : Sol K) :
    UniformLike s p c a ↔ Like a s ∧ IsUniform a c ∧ a.thresholds = s.thresholds := by
  refine and_congr_right fun ha => ?_
  rw [isUniform_iff (by rw [ha.rows, h.rows]) c, ha.setup.NE, ha.setup.NF]

/-- Uniform solutions stay uniform through all operations of a run. -/
lemma uniform_invariant (h : s.Built lib p) (ps : PhysSpec K s.NF) (hps : s.kw.Pointwise ps)
    (hl : s.bcl = .lit "periodic" ∨ s.bcl = .lit "zerograd") (hr : s.bcr = .lit "periodic" ∨ s.bcr = .lit "zerograd")
    (hen : ∀ en, s.enhance = some en →
      en.alphaL.val 0 + en.alphaR.val 0 = 1 ∧ en.betaL.val 0 + en.betaR.val 0 = 1)
    (c : ℕ → K)
    (hfail : ¬ ps.fails (fun f => c f) (fun f => c f))
    (hcons : ps.num (fun f => c f) (fun f => c f) = ps.flux (fun f => c f))
    (limit : Sol K → Except PyErr (Sol K))
    (hlim : ∀ a b, Like a s → a.thresholds = s.thresholds → IsUniform a c → limit a = .ok b →
      Like b s ∧ b.thresholds = s.thresholds ∧ IsUniform b c) :
    Invariant (K := K) ⟨residual, limit⟩ (UniformLike s p c) (UniformLike s p c) (fun A => Uniform s.NE s.NF (p + 1) (fun _ => 0) A.val) := by
  have hk : s.BcKnown := by
    refine ⟨hl.imp ?_ ?_, hr.imp ?_ ?_⟩ <;> (intro hx; rw [hx]; exact ⟨rfl, rfl⟩)
  let S : Sol K → Prop := UniformLike s p c
  have hS : ∀ a, S a ↔ Like a s ∧ IsUniform a c ∧ a.thresholds = s.thresholds := uniformLike_iff h c
  have hlimS : ∀ a b, S a → limit a = .ok b → S b := by
    intro a b ha hb
    rw [hS] at ha ⊢
    obtain ⟨h1, h2, h3⟩ := hlim a b ha.1 ha.2.2 ha.2.1 hb
    exact ⟨h1, h3, h2⟩
  have hbcS : ∀ a, S a → S a.applyBc := by
    intro a ha
    have hb := ha.1.built h
    have hka : a.BcKnown := by unfold Sol.BcKnown; rw [ha.1.setup.bcl, ha.1.setup.bcr]; exact hk
    have hu' : Uniform a.NE a.NF (p + 1) c a.u.val := by rw [ha.1.setup.NE, ha.1.setup.NF]; exact ha.2.1
    have hf := uniform_filled hb hka hu'
    rw [ha.1.setup.NE, ha.1.setup.NF] at hf
    refine ⟨ha.1.applyBc, ⟨fun e he f hff => ?_, fun n h0 hn e he1 he2 f hff => ?_⟩, by rw [thresholds_applyBc]; exact ha.2.2⟩
    · rw [hf e he f hff 0 (by omega), if_pos rfl]
    · rw [hf e (by omega) f hff n hn, if_neg (by omega)]
  exact
    { zero := fun _ _ => ⟨fun _ _ _ _ => rfl, fun _ _ _ _ _ _ _ _ => rfl⟩
      smul := fun a A hA => by
        refine ⟨fun e he f hf => ?_, fun n h0 hn e h1 h2 f hf => ?_⟩
        · simp only [Arr.smul]; rw [hA.mean e he f hf, mul_zero]
        · simp only [Arr.smul]; rw [hA.high n h0 hn e h1 h2 f hf, mul_zero]
      axpy := fun a x A hx hA => by
        refine ⟨hx.1.axpy a A, ⟨fun e he f hf => ?_, fun n h0 hn e h1 h2 f hf => ?_⟩, hx.2.2⟩
        · simp only [Arr.add, Arr.smul]; rw [hA.mean e he f hf, hx.2.1.mean e he f hf, mul_zero, add_zero]
        · simp only [Arr.add, Arr.smul]
          rw [hA.high n h0 hn e h1 h2 f hf, hx.2.1.high n h0 hn e h1 h2 f hf, mul_zero, add_zero]
      copy := fun w x hw hx => ⟨hw.1.copy hx.1, hx.2.1, hw.2.2⟩
      clock := fun x a m hx => ⟨hx.1.clock _ _, hx.2⟩
      head := fun _ hx => hx
      bc := hbcS
      headLimit := hlimS
      stageLimit := hlimS
      res := by
        intro x v A hx hres
        rw [residual_sol hres]
        refine ⟨hbcS x hx, ?_⟩
        have hb := hx.1.built h
        have hka : x.BcKnown := by unfold Sol.BcKnown; rw [hx.1.setup.bcl, hx.1.setup.bcr]; exact hk
        obtain ⟨F, hF, hz, -⟩ := uniform_residual hb hx.1.setup.NF ps (by rw [hx.1.setup.kw]; exact hps) hka
          (by rw [hx.1.setup.enhance]; exact hen) (c := c) (by rw [hx.1.setup.NE]; exact hx.2.1) hfail hcons
        change residual x = _ at hres
        rw [hF] at hres
        cases hres
        rw [hx.1.setup.NE] at hz
        exact hz }

/-- **C16 (uniform flow is preserved).** `limit` is any limiter that keeps uniform solutions with the thresholds of `s`
(in particular none; that of the code: `C16_limited`); the Riemann solver is consistent at the state `c` and does not
fail there. -/
theorem C16_uniform_flow (h : s.Built lib p) (ps : PhysSpec K s.NF) (hps : s.kw.Pointwise ps)
    (hl : s.bcl = .lit "periodic" ∨ s.bcl = .lit "zerograd") (hr : s.bcr = .lit "periodic" ∨ s.bcr = .lit "zerograd")
    (hen : ∀ en, s.enhance = some en →
      en.alphaL.val 0 + en.alphaR.val 0 = 1 ∧ en.betaL.val 0 + en.betaR.val 0 = 1)
    (c : ℕ → K) (hu : IsUniform s c)
    (hfail : ¬ ps.fails (fun f => c f) (fun f => c f))
    (hcons : ps.num (fun f => c f) (fun f => c f) = ps.flux (fun f => c f))
    (limit : Sol K → Except PyErr (Sol K))
    (hlim : ∀ a b, Like a s → a.thresholds = s.thresholds → IsUniform a c → limit a = .ok b →
      Like b s ∧ b.thresholds = s.thresholds ∧ IsUniform b c)
    (deck : RkDeck K) (sch : Scheme K) (k : ℕ) :
    IsUniform (sch.run ⟨residual, limit⟩ deck s k).sol c ∧
    ∀ o ∈ (sch.run ⟨residual, limit⟩ deck s k).log, IsUniform o.sol c := by
  have inv := uniform_invariant h ps hps hl hr hen c hfail hcons limit hlim
  have hS := uniformLike_iff h c
  obtain ⟨h1, h2⟩ := inv.run deck sch ((hS s).mpr ⟨Like.refl s, hu, rfl⟩) k
  exact ⟨((hS _).mp h1).2.1, fun o ho => ((hS _).mp (h2 o ho)).2.1⟩

/-- C16 on a concrete solution of any order: advection of the constant 7. -/
example (p : ℕ) (deck : RkDeck ℝ) (k : ℕ) :
    IsUniform ((Scheme.classic (rk4K ℝ)).run ⟨residual, fun s => .ok s⟩ deck
      ((Ex.solR p).withVal fun n _ => if n = 0 then 7 else 0) k).sol (fun _ => 7) := by
  have hb : ((Ex.solR p).withVal fun n _ => if n = 0 then 7 else 0).Built realGauss p :=
    (Ex.solR_built p).congr (by constructor <;> rfl) rfl rfl
  refine (C16_uniform_flow hb (Advection.spec 1) (Advection.pointwise 1) (.inl rfl) (.inl rfl)
    (fun en h => by cases h) (fun _ => 7) ?_ (fun h => h) rfl (fun s => .ok s)
    (fun a b ha ht hu hb => by cases hb; exact ⟨ha, ht, hu⟩) deck _ k).1
  rw [isUniform_iff hb.rows]
  exact ⟨fun e _ f _ => by simp [Sol.withVal], fun n h0 _ e _ _ f _ => by simp [Sol.withVal, Nat.pos_iff_ne_zero.mp h0]⟩

/-- Cell `e` of `b` holds what cell `e + m` (on the ring of interior cells `1 … N_E`) of `a` holds. -/
def IsShift (m : ℕ) (a b : Sol K) : Prop :=
  ∀ e, 1 ≤ e → e ≤ a.NE → ∀ f < a.NF, cellPoly b e f = cellPoly a ((e - 1 + m) % a.NE + 1) f

lemma ringShift_eq {NE e : ℕ} (m : ℕ) (h1 : 1 ≤ e) : ringShift NE m e = (e - 1 + m) % NE + 1 := by
  unfold ringShift
  rw [show e + NE - 1 + m = (e - 1 + m) + NE by omega, Nat.add_mod_right]

lemma isShift_iff {a b : Sol K} (ha : Like a s) (hb : Like b s) (hr : s.u.rows = p + 1) (m : ℕ) :
    IsShift m a b ↔ Shifted s.NE s.NF (p + 1) m a.u.val b.u.val := by
  unfold IsShift Shifted
  rw [ha.setup.NE, ha.setup.NF]
  unfold cellPoly
  rw [ha.rows, hb.rows, hr, ha.setup.NF, hb.setup.NF]
  constructor
  · intro h n hn e h1 h2 f hf
    rw [ringShift_eq m h1]
    exact legSeries_injective (p + 1) _ _ (h e h1 h2 f hf) n hn
  · intro h e h1 h2 f hf
    unfold legSeries
    apply Finset.sum_congr rfl
    intro n hn
    beta_reduce
    rw [h n (Finset.mem_range.mp hn) e h1 h2 f hf, ringShift_eq m h1]

/-- **C18 (shifted residual).** -/
theorem C18_residual_shift (h : s.Built lib p) (ps : PhysSpec K s.NF) (hps : s.kw.Pointwise ps)
    (hl : s.bcl = .lit "periodic") (hr : s.bcr = .lit "periodic") (m : ℕ) (s' : Sol K) (hlike : Like s' s)
    (hshift : IsShift m s s') :
    (∀ err, residual s = .error err → ∃ err', residual s' = .error err' ∧ (err = err' ∨ ps.errs err ∧ ps.errs err')) ∧
    (∀ err', residual s' = .error err' → ∃ err, residual s = .error err) ∧
    ∀ v v' F F', residual s = .ok (v, F) → residual s' = .ok (v', F') → ∀ n < p + 1, ∀ e, 1 ≤ e → e ≤ s.NE → ∀ f < s.NF,
      F'.val n (e * s.NF + f) = F.val n (((e - 1 + m) % s.NE + 1) * s.NF + f) := by
  have hlit : s.bcl.isLit "periodic" ∧ s.bcr.isLit "periodic" := by
    rw [hl, hr]; exact ⟨⟨rfl, rfl⟩, ⟨rfl, rfl⟩⟩
  have := residual_shift h (Like.refl s) hlike ps hps hlit.1 hlit.2 ((isShift_iff (Like.refl s) hlike h.rows m).mp hshift)
  rcases this.cases with ⟨e, e', h1, h2, hE⟩ | ⟨x, y, h1, h2, h3, h4, h5⟩
  · rw [h1, h2]
    exact ⟨fun err he => by cases he; exact ⟨e', rfl, hE⟩, fun err he => ⟨e, rfl⟩, fun v v' F F' hx => by cases hx⟩
  · rw [h1, h2]
    refine ⟨fun err hx => (by cases hx), fun err hx => (by cases hx), fun v v' F F' hx hy n hn e he1 he2 f hf => ?_⟩
    cases hx
    cases hy
    rw [← ringShift_eq m he1]
    exact h5 n hn e he1 he2 f hf

/-- **C18 (a whole run commutes with the shift).** Limiter off; `s` and `s'` start at the same time with the same
maximum wave speed (which is so for advection, and whenever the ghost cells have been filled, as main.py does). -/
theorem C18_run_shift (h : s.Built lib p) (ps : PhysSpec K s.NF) (hps : s.kw.Pointwise ps) (hwave : s.kw.WaveCells s.NF)
    (hl : s.bcl = .lit "periodic") (hr : s.bcr = .lit "periodic") (m : ℕ) (s' : Sol K) (hlike : Like s' s)
    (hshift : IsShift m s s') (ht : s.t = s'.t) (hn : s.n = s'.n)
    (hspeed : s.kw.maxWaveSpeed s.u = s.kw.maxWaveSpeed s'.u)
    (deck : RkDeck K) (sch : Scheme K) (k : ℕ) :
    let r := sch.run ⟨residual, fun a => .ok a⟩ deck s k
    let r' := sch.run ⟨residual, fun a => .ok a⟩ deck s' k
    IsShift m r.sol r'.sol ∧ r.sol.t = r'.sol.t ∧ r.sol.n = r'.sol.n ∧ EndSim ps.sameErr r.status r'.status ∧
    List.Forall₂ (fun o o' => o.nout = o'.nout ∧ o.dt = o'.dt ∧ o.sol.t = o'.sol.t ∧ o.sol.n = o'.sol.n ∧
      IsShift m o.sol o'.sol) r.log r'.log := by
  have hlit : s.bcl.isLit "periodic" ∧ s.bcr.isLit "periodic" := by
    rw [hl, hr]; exact ⟨⟨rfl, rfl⟩, ⟨rfl, rfl⟩⟩
  let RS : Sol K → Sol K → Prop := fun a b => Like a s ∧ Like b s ∧ Shifted s.NE s.NF (p + 1) m a.u.val b.u.val
  let RH : Sol K → Sol K → Prop := fun a b => RS a b ∧ a.kw.maxWaveSpeed a.u = b.kw.maxWaveSpeed b.u
  have hbc : ∀ a b, RS a b → RS a.applyBc b.applyBc := by
    rintro a b ⟨ha, hb, hs⟩
    refine ⟨ha.applyBc, hb.applyBc, fun n hn e h1 h2 f hf => ?_⟩
    exact shifted_fill ha hb h.wf hlit.1 hlit.2 hs hn (by omega) hf
  have sim : Simulates (K := K) ps.sameErr ⟨residual, fun a => .ok a⟩ ⟨residual, fun a => .ok a⟩ RS RH
      (fun A B => Shifted s.NE s.NF (p + 1) m A.val B.val) :=
    { errRefl := fun _ => .inl rfl
      zero := fun _ _ _ _ _ _ _ _ _ _ => rfl
      smul := fun a F F' hF n hn e h1 h2 f hf => by simp only [Arr.smul]; rw [hF n hn e h1 h2 f hf]
      axpy := by
        rintro a x y F F' ⟨hx, hy, hs⟩ hF
        refine ⟨hx.axpy a F, hy.axpy a F', fun n hn e h1 h2 f hf => ?_⟩
        simp only [Arr.add, Arr.smul]
        rw [hF n hn e h1 h2 f hf, hs n hn e h1 h2 f hf]
      copy := by
        rintro w w' x y ⟨hw, hw', _⟩ ⟨hx, hy, hs⟩
        exact ⟨hw.copy hx, hw'.copy hy, hs⟩
      clock := by
        rintro x y a q ⟨hx, hy, hs⟩
        exact ⟨hx.clock _ _, hy.clock _ _, hs⟩
      head := fun _ _ hx => hx.1
      bc := fun a b hx => ⟨hbc a b hx, shifted_wave hx.1 hx.2.1 h.wf hlit.1 hlit.2 (Nat.succ_pos p) hx.2.2 hwave⟩
      cfl := fun a b c hx => cflTimeStep_congr (hx.1.1.setup.trans hx.1.2.1.setup.symm) hx.2 c
      headLimit := fun a b hx h1 h2 => ⟨hx, h1, h2⟩
      stageLimit := fun a b hx => hx
      res := by
        intro a b hx
        rcases (residual_shift h hx.1 hx.2.1 ps hps hlit.1 hlit.2 hx.2.2).cases with ⟨e, e', h1, h2, hE⟩ | ⟨x, y, h1, h2, h3, h4, h5⟩
        · show ExRel _ _ (residual a) (residual b)
          rw [h1, h2]; exact hE
        · show ExRel _ _ (residual a) (residual b)
          rw [h1, h2]
          refine ⟨?_, h5⟩
          rw [h3, h4]
          exact hbc a b hx }
  have h0 : RH s s' := ⟨⟨Like.refl s, hlike, (isShift_iff (Like.refl s) hlike h.rows m).mp hshift⟩,
    by rw [hlike.setup.kw]; exact hspeed⟩
  have hrun := sim.run deck sch h0 ht hn k
  intro r r'
  have conv : ∀ a b, RH a b → IsShift m a b := fun a b hx => (isShift_iff hx.1.1 hx.1.2.1 h.rows m).mpr hx.1.2.2
  exact ⟨conv _ _ hrun.sol, hrun.t, hrun.n, hrun.status,
    hrun.log.imp fun o o' ho => ⟨ho.nout, ho.dt, ho.t, ho.n, conv _ _ ho.sol⟩⟩

/-- **C21 (ghosts do not matter, residual).** -/
theorem C21_residual_ghosts (h : s.Built lib p) (ps : PhysSpec K s.NF) (hps : s.kw.Pointwise ps)
    (hl : s.bcl = .lit "periodic" ∨ s.bcl = .lit "zerograd") (hr : s.bcr = .lit "periodic" ∨ s.bcr = .lit "zerograd")
    (s' : Sol K) (hlike : Like s' s)
    (hsame : ∀ n < p + 1, ∀ e, 1 ≤ e → e ≤ s.NE → ∀ f < s.NF, s.u.val n (e * s.NF + f) = s'.u.val n (e * s.NF + f)) :
    (∀ err, residual s = .error err → ∃ err', residual s' = .error err' ∧ (err = err' ∨ ps.errs err ∧ ps.errs err')) ∧
    (∀ err', residual s' = .error err' → ∃ err, residual s = .error err) ∧
    ∀ v v' F F', residual s = .ok (v, F) → residual s' = .ok (v', F') → ∀ n < p + 1, ∀ e, 1 ≤ e → e ≤ s.NE → ∀ f < s.NF,
      F.val n (e * s.NF + f) = F'.val n (e * s.NF + f) := by
  have hk : s.BcKnown := by
    refine ⟨hl.imp ?_ ?_, hr.imp ?_ ?_⟩ <;> (intro hx; rw [hx]; exact ⟨rfl, rfl⟩)
  rcases (residual_ghosts h (Like.refl s) hlike ps hps hk hsame).cases with ⟨e, e', h1, h2, hE⟩ | ⟨x, y, h1, h2, h3, h4, h5⟩
  · rw [h1, h2]
    exact ⟨fun err he => by cases he; exact ⟨e', rfl, hE⟩, fun err he => ⟨e, rfl⟩, fun v v' F F' hx => by cases hx⟩
  · rw [h1, h2]
    refine ⟨fun err hx => (by cases hx), fun err hx => (by cases hx), fun v v' F F' hx hy n hn e he1 he2 f hf => ?_⟩
    cases hx
    cases hy
    exact h5 n hn e he1 he2 f hf

/-- **C21 (ghosts do not matter, whole run).** Limiter off; same first maximum wave speed (always so for advection,
and for Euler whenever the ghosts were filled from the boundary condition before, as main.py does). -/
theorem C21_run_ghosts_partial (h : s.Built lib p) (ps : PhysSpec K s.NF) (hps : s.kw.Pointwise ps) (hwave : s.kw.WaveCells s.NF)
    (hl : s.bcl = .lit "periodic" ∨ s.bcl = .lit "zerograd") (hr : s.bcr = .lit "periodic" ∨ s.bcr = .lit "zerograd")
    (s' : Sol K) (hlike : Like s' s)
    (hsame : ∀ n < p + 1, ∀ e, 1 ≤ e → e ≤ s.NE → ∀ f < s.NF, s.u.val n (e * s.NF + f) = s'.u.val n (e * s.NF + f))
    (ht : s.t = s'.t) (hn : s.n = s'.n) (hspeed : s.kw.maxWaveSpeed s.u = s.kw.maxWaveSpeed s'.u)
    (deck : RkDeck K) (sch : Scheme K) (k : ℕ) :
    let same := fun a b : Sol K => ∀ n < p + 1, ∀ e, 1 ≤ e → e ≤ s.NE → ∀ f < s.NF,
      a.u.val n (e * s.NF + f) = b.u.val n (e * s.NF + f)
    let r := sch.run ⟨residual, fun a => .ok a⟩ deck s k
    let r' := sch.run ⟨residual, fun a => .ok a⟩ deck s' k
    same r.sol r'.sol ∧ r.sol.t = r'.sol.t ∧ r.sol.n = r'.sol.n ∧ EndSim ps.sameErr r.status r'.status ∧
    List.Forall₂ (fun o o' => o.nout = o'.nout ∧ o.dt = o'.dt ∧ o.sol.t = o'.sol.t ∧ o.sol.n = o'.sol.n ∧
      same o.sol o'.sol) r.log r'.log := by
  have hk : s.BcKnown := by
    refine ⟨hl.imp ?_ ?_, hr.imp ?_ ?_⟩ <;> (intro hx; rw [hx]; exact ⟨rfl, rfl⟩)
  let RS : Sol K → Sol K → Prop := fun a b => Like a s ∧ Like b s ∧ SameInterior s.NE s.NF (p + 1) a.u.val b.u.val
  let RH : Sol K → Sol K → Prop := fun a b => RS a b ∧ a.kw.maxWaveSpeed a.u = b.kw.maxWaveSpeed b.u
  have hbc : ∀ a b, RS a b → RS a.applyBc b.applyBc := by
    rintro a b ⟨ha, hb, hs⟩
    exact ⟨ha.applyBc, hb.applyBc, fun n hn e h1 h2 f hf => sameInterior_fill ha hb h.wf hk hs hn (by omega) hf⟩
  have sim : Simulates (K := K) ps.sameErr ⟨residual, fun a => .ok a⟩ ⟨residual, fun a => .ok a⟩ RS RH
      (fun A B => SameInterior s.NE s.NF (p + 1) A.val B.val) :=
    { errRefl := fun _ => .inl rfl
      zero := fun _ _ _ _ _ _ _ _ _ _ => rfl
      smul := fun a F F' hF n hn e h1 h2 f hf => by simp only [Arr.smul]; rw [hF n hn e h1 h2 f hf]
      axpy := by
        rintro a x y F F' ⟨hx, hy, hs⟩ hF
        refine ⟨hx.axpy a F, hy.axpy a F', fun n hn e h1 h2 f hf => ?_⟩
        simp only [Arr.add, Arr.smul]
        rw [hF n hn e h1 h2 f hf, hs n hn e h1 h2 f hf]
      copy := by
        rintro w w' x y ⟨hw, hw', _⟩ ⟨hx, hy, hs⟩
        exact ⟨hw.copy hx, hw'.copy hy, hs⟩
      clock := by
        rintro x y a q ⟨hx, hy, hs⟩
        exact ⟨hx.clock _ _, hy.clock _ _, hs⟩
      head := fun _ _ hx => hx.1
      bc := fun a b hx => ⟨hbc a b hx, ghosts_wave hx.1 hx.2.1 h.wf hk (Nat.succ_pos p) hx.2.2 hwave⟩
      cfl := fun a b c hx => cflTimeStep_congr (hx.1.1.setup.trans hx.1.2.1.setup.symm) hx.2 c
      headLimit := fun a b hx h1 h2 => ⟨hx, h1, h2⟩
      stageLimit := fun a b hx => hx
      res := by
        intro a b hx
        rcases (residual_ghosts h hx.1 hx.2.1 ps hps hk hx.2.2).cases with ⟨e, e', h1, h2, hE⟩ | ⟨x, y, h1, h2, h3, h4, h5⟩
        · show ExRel _ _ (residual a) (residual b)
          rw [h1, h2]; exact hE
        · show ExRel _ _ (residual a) (residual b)
          rw [h1, h2]
          refine ⟨?_, h5⟩
          rw [h3, h4]
          exact hbc a b hx }
  have hrun := sim.run deck sch (s := s) (s' := s') ⟨⟨Like.refl s, hlike, hsame⟩, by rw [hlike.setup.kw]; exact hspeed⟩ ht hn k
  intro same r r'
  exact ⟨hrun.sol.1.2.2, hrun.t, hrun.n, hrun.status,
    hrun.log.imp fun o o' ho => ⟨ho.nout, ho.dt, ho.t, ho.n, ho.sol.1.2.2⟩⟩

/-- C18 on a concrete solution: `solR` and its shift by one cell. -/
example (p : ℕ) (deck : RkDeck ℝ) (k : ℕ) :
    IsShift 1 ((Scheme.classic (rk4K ℝ)).run ⟨residual, fun a => .ok a⟩ deck (Ex.solR p) k).sol
      ((Scheme.classic (rk4K ℝ)).run ⟨residual, fun a => .ok a⟩ deck
        ((Ex.solR p).withVal fun n e => (((e - 1 + 1) % 3 + 1 : ℕ) : ℝ) ^ 2 + n) k).sol := by
  have hlike : Like ((Ex.solR p).withVal fun n e => (((e - 1 + 1) % 3 + 1 : ℕ) : ℝ) ^ 2 + n) (Ex.solR p) :=
    ⟨by constructor <;> rfl, rfl, rfl⟩
  refine (C18_run_shift (Ex.solR_built p) (Advection.spec 1) (Advection.pointwise 1) (Advection.waveCells 1) rfl rfl 1
    _ hlike ?_ rfl rfl rfl deck _ k).1
  rw [isShift_iff (s := Ex.solR p) (Like.refl _) hlike rfl]
  intro n hn e h1 h2 f hf
  obtain rfl : f = 0 := by have : (Ex.solR p).NF = 1 := rfl; omega
  rw [ringShift_eq 1 h1]
  simp [Ex.solR, Sol.withVal]

/-- C21 on a concrete solution: other ghost contents. -/
example (p : ℕ) (deck : RkDeck ℝ) (k n e : ℕ) (hn : n < p + 1) (h1 : 1 ≤ e) (h2 : e ≤ 3) :
    ((Scheme.classic (rk4K ℝ)).run ⟨residual, fun a => .ok a⟩ deck (Ex.solR p) k).sol.u.val n (e * 1 + 0) =
    ((Scheme.classic (rk4K ℝ)).run ⟨residual, fun a => .ok a⟩ deck
      ((Ex.solR p).withVal fun n e => if e = 0 then 1000 else (e : ℝ) ^ 2 + n) k).sol.u.val n (e * 1 + 0) := by
  have hlike : Like ((Ex.solR p).withVal fun n e => if e = 0 then 1000 else (e : ℝ) ^ 2 + n) (Ex.solR p) :=
    ⟨by constructor <;> rfl, rfl, rfl⟩
  refine (C21_run_ghosts_partial (Ex.solR_built p) (Advection.spec 1) (Advection.pointwise 1) (Advection.waveCells 1) (.inl rfl)
    (.inl rfl) _ hlike ?_ rfl rfl rfl deck _ k).1 n hn e h1 h2 0 (by norm_num [Ex.solR])
  intro n hn e h1 h2 f hf
  obtain rfl : f = 0 := by have : (Ex.solR p).NF = 1 := rfl; omega
  simp [Ex.solR, Sol.withVal, Nat.pos_iff_ne_zero.mp h1]

end Dg1d.Props
