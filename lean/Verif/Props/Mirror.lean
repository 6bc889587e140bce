import Verif.Proofs.Energy
import Verif.Proofs.Mirror
import Verif.Props.Enhance
import Verif.Props.LocalError
import Verif.Props.RunsLimited

/-! # C80: reflection of a whole Euler run

`C40` compares the fluxes at one interface, `C63` the enhancement weights; here whole runs are compared. -/

set_option linter.unusedSectionVars false

open Polynomial Dg1d.Spec

namespace Dg1d.Props
open Text
variable {γ : ℝ} {riemann : Str} {s s' : Sol ℝ} {lib : GaussLib ℝ} {p : ℕ}

/-- `b` is the gas `a` reflected about the middle of the domain, ghost cells included: the point with local coordinate
`ξ` in cell `e` corresponds to `-ξ` in cell `NE + 1 - e`; density and energy are the same, the momentum is reversed. -/
def IsMirror (a b : Sol ℝ) : Prop :=
  ∀ e ≤ a.NE + 1, ∀ ξ : ℝ,
    (cellPoly b e 0).eval ξ = (cellPoly a (a.NE + 1 - e) 0).eval (-ξ) ∧
    (cellPoly b e 1).eval ξ = -(cellPoly a (a.NE + 1 - e) 1).eval (-ξ) ∧
    (cellPoly b e 2).eval ξ = (cellPoly a (a.NE + 1 - e) 2).eval (-ξ)

lemma isMirror_iff {a b : Sol ℝ} (ha : Like a s) (hb : Like b s) (hr : s.u.rows = p + 1) (hF : s.NF = 3) :
    IsMirror a b ↔ Mirrored s.NE s.NF (p + 1) 0 (s.NE + 1) Euler.mirrorSign a.u.val b.u.val := by
  have hpoly : ∀ e f, (∀ ξ : ℝ, (cellPoly b e f).eval ξ = Euler.mirrorSign f * (cellPoly a (s.NE + 1 - e) f).eval (-ξ)) ↔
      ∀ n < p + 1, b.u.val n (e * s.NF + f) = Euler.mirrorSign f * ((-1) ^ n * a.u.val n ((s.NE + 1 - e) * s.NF + f)) := by
    intro e f
    unfold cellPoly
    rw [ha.rows, hb.rows, hr, ha.setup.NF, hb.setup.NF]
    have hflip : ∀ ξ : ℝ, Euler.mirrorSign f * (legSeries (p + 1) fun n => a.u.val n ((s.NE + 1 - e) * s.NF + f)).eval (-ξ) =
        (legSeries (p + 1) fun n => Euler.mirrorSign f * ((-1) ^ n * a.u.val n ((s.NE + 1 - e) * s.NF + f))).eval ξ := by
      intro ξ
      rw [legSeries_eval, legSeries_eval, Finset.mul_sum]
      apply Finset.sum_congr rfl
      intro n _
      rw [legendre_eval_neg]; ring
    constructor
    · intro h n hn
      refine legSeries_injective (p + 1) (fun n => b.u.val n (e * s.NF + f))
        (fun n => Euler.mirrorSign f * ((-1) ^ n * a.u.val n ((s.NE + 1 - e) * s.NF + f))) (Polynomial.funext (R := ℝ) fun ξ => ?_) n hn
      rw [h ξ, hflip]
    · intro h ξ
      rw [hflip, legSeries_eval, legSeries_eval]
      apply Finset.sum_congr rfl
      intro n hn
      rw [h n (Finset.mem_range.mp hn)]
  unfold IsMirror Mirrored
  rw [ha.setup.NE]
  constructor
  · intro h n hn e _ he f hf
    refine (hpoly e f).mp (fun ξ => ?_) n hn
    obtain ⟨h0, h1, h2⟩ := h e he ξ
    rw [hF] at hf
    interval_cases f
    · rw [h0]; simp [Euler.mirrorSign]
    · rw [h1]; simp [Euler.mirrorSign]
    · rw [h2]; simp [Euler.mirrorSign]
  · intro h e he ξ
    have key : ∀ f < 3, (cellPoly b e f).eval ξ = Euler.mirrorSign f * (cellPoly a (s.NE + 1 - e) f).eval (-ξ) := fun f hf =>
      (hpoly e f).mpr (fun n hn => h n hn e (by omega) he f (by rw [hF]; exact hf)) ξ
    refine ⟨?_, ?_, ?_⟩
    · rw [key 0 (by norm_num)]; simp [Euler.mirrorSign]
    · rw [key 1 (by norm_num)]; simp [Euler.mirrorSign]
    · rw [key 2 (by norm_num)]; simp [Euler.mirrorSign]

/-- The Rusanov and Roe physics of the code commutes with the reflection. -/
lemma euler_mirror {n : ℕ} (hn : n = 3) {name : String} (hg : name ≠ "godunov") :
    ∃ ps : PhysSpec ℝ n, (Euler.physics γ name).Pointwise ps ∧ ps.Mirror Euler.mirrorSign ∧
      (Euler.physics γ name).WaveMirror n Euler.mirrorSign ∧ ∀ e, ps.errs e → e = .notReal := by
  subst hn
  by_cases hr : name = "rusanov"
  · subst hr
    exact ⟨Euler.rusanovSpec γ, Euler.rusanov_pointwise γ, Euler.rusanov_mirror, Euler.wave_mirror γ _, fun _ h => h⟩
  · exact ⟨Euler.roeSpec γ, Euler.roe_pointwise γ hr hg, Euler.roeSpec_mirror, Euler.wave_mirror γ _, fun _ h => h⟩

/-- **C80.** Euler equations, Rusanov or Roe flux (any solver name but 'godunov'), limiter off, any enhancement built by the
code, the same boundary condition on both sides: the run from the mirror image of a state is the mirror image of the run
— the same times, steps and end (errors included), every output and the current state mirror images of each other. -/
theorem C80_run_mirror (h : s.Built lib p) (hp : CodePhysics γ "euler".toList riemann s) (hg : String.ofList riemann ≠ "godunov")
    (hbc : s.bcl = .lit "periodic" ∧ s.bcr = .lit "periodic" ∨ s.bcl = .lit "zerograd" ∧ s.bcr = .lit "zerograd")
    (hen : ∀ en, s.enhance = some en → ∃ modes, Enhance.init lib p modes = .ok en ∧ ∀ m ∈ modes, m ≤ p)
    (hlike : Like s' s) (hmir : IsMirror s s') (ht : s.t = s'.t) (hn : s.n = s'.n) (deck : RkDeck ℝ) (k : ℕ) :
    let r := integrate ⟨residual, Limiter.limit none⟩ deck s k
    let r' := integrate ⟨residual, Limiter.limit none⟩ deck s' k
    IsMirror r.sol r'.sol ∧ r.sol.t = r'.sol.t ∧ r.sol.n = r'.sol.n ∧ r.status = r'.status ∧
    List.Forall₂ (fun o o' => o.nout = o'.nout ∧ o.dt = o'.dt ∧ o.sol.t = o'.sol.t ∧ o.sol.n = o'.sol.n ∧
      IsMirror o.sol o'.sol) r.log r'.log := by
  obtain ⟨hkw, hF⟩ := hp.euler rfl
  obtain ⟨ps, hps, hpm, hwave, herr⟩ := euler_mirror (γ := γ) hF hg
  rw [← hkw] at hps hwave
  have hk : s.BcKnown := by
    rcases hbc with ⟨h1, h2⟩ | ⟨h1, h2⟩
    · exact ⟨.inl (by rw [h1]; exact ⟨rfl, rfl⟩), .inl (by rw [h2]; exact ⟨rfl, rfl⟩)⟩
    · exact ⟨.inr (by rw [h1]; exact ⟨rfl, rfl⟩), .inr (by rw [h2]; exact ⟨rfl, rfl⟩)⟩
  have hsame : s.bcl = s.bcr := by rcases hbc with ⟨h1, h2⟩ | ⟨h1, h2⟩ <;> rw [h1, h2]
  have henm : ∀ en, s.enhance = some en → EnhanceMirror en p := by
    intro en he n hn
    obtain ⟨modes, h1, h2⟩ := hen en he
    exact C63_mirror h1 h2 n (by omega)
  let RS : Sol ℝ → Sol ℝ → Prop := fun a b => Like a s ∧ Like b s ∧ Mirrored s.NE s.NF (p + 1) 1 s.NE Euler.mirrorSign a.u.val b.u.val
  let RH : Sol ℝ → Sol ℝ → Prop := fun a b => Like a s ∧ Like b s ∧
    Mirrored s.NE s.NF (p + 1) 0 (s.NE + 1) Euler.mirrorSign a.u.val b.u.val
  have hdown : ∀ u v, Mirrored s.NE s.NF (p + 1) 0 (s.NE + 1) Euler.mirrorSign u v → Mirrored s.NE s.NF (p + 1) 1 s.NE Euler.mirrorSign u v :=
    fun u v hm n hn e h1 h2 f hf => hm n hn e (by omega) (by omega) f hf
  have sim : Simulates (K := ℝ) ps.sameErr ⟨residual, Limiter.limit none⟩ ⟨residual, Limiter.limit none⟩ RS RH
      (fun A B => Mirrored s.NE s.NF (p + 1) 1 s.NE Euler.mirrorSign A.val B.val) :=
    { errRefl := fun _ => .inl rfl
      zero := fun _ _ _ n _ e _ _ f _ => by simp [Arr.zeros]
      smul := fun a F F' hF n hn e h1 h2 f hf => by simp only [Arr.smul]; rw [hF n hn e h1 h2 f hf]; ring
      axpy := by
        rintro a x y F F' ⟨hx, hy, hs⟩ hF
        refine ⟨hx.axpy a F, hy.axpy a F', fun n hn e h1 h2 f hf => ?_⟩
        simp only [Arr.add, Arr.smul]
        rw [hF n hn e h1 h2 f hf, hs n hn e h1 h2 f hf]; ring
      copy := by
        rintro w w' x y ⟨hw, hw', _⟩ ⟨hx, hy, hs⟩
        exact ⟨hw.copy hx, hw'.copy hy, hs⟩
      clock := by
        rintro x y a q ⟨hx, hy, hs⟩
        exact ⟨hx.clock _ _, hy.clock _ _, hs⟩
      head := fun a b hx => ⟨hx.1, hx.2.1, hdown _ _ hx.2.2⟩
      bc := fun a b hx => ⟨hx.1.applyBc, hx.2.1.applyBc, mirrored_fill hx.1 hx.2.1 h hk hsame hx.2.2⟩
      cfl := fun a b c hx => by
        refine cflTimeStep_congr (hx.1.setup.trans hx.2.1.setup.symm) ?_ c
        rw [hx.1.setup.kw, hx.2.1.setup.kw]
        refine hwave _ _ (s.NE + 2) (by rw [hx.1.cols, h.cols]) (by rw [hx.2.1.cols, h.cols]) fun i hi f hf => ?_
        rw [hx.2.2 0 (by omega) i (by omega) (by omega) f hf, pow_zero, one_mul]
        rfl
      headLimit := fun a b hx h1 h2 => ⟨hx, h1, h2⟩
      stageLimit := fun a b hx => hx
      res := by
        intro a b hx
        rcases (residual_mirror h hx.1 hx.2.1 ps hps hpm henm hk hsame hx.2.2).cases with ⟨e, e', h1, h2, hE⟩ | ⟨x, y, h1, h2, h3, h4, h5⟩
        · show ExRel _ _ (residual a) (residual b)
          rw [h1, h2]; exact hE
        · show ExRel _ _ (residual a) (residual b)
          rw [h1, h2]
          refine ⟨?_, h5⟩
          rw [h3, h4]
          exact ⟨hx.1.applyBc, hx.2.1.applyBc, hdown _ _ (mirrored_fill hx.1 hx.2.1 h hk hsame hx.2.2)⟩ }
  have h0 : RH s s' := ⟨Like.refl s, hlike, (isMirror_iff (Like.refl s) hlike h.rows hF).mp hmir⟩
  have hrun := sim.run deck (schemeFor deck.rk) h0 ht hn k
  intro r r'
  have conv : ∀ a b, RH a b → IsMirror a b := fun a b hx => (isMirror_iff hx.1 hx.2.1 h.rows hF).mpr hx.2.2
  refine ⟨conv _ _ hrun.sol, hrun.t, hrun.n, ?_, hrun.log.imp fun o o' ho => ⟨ho.nout, ho.dt, ho.t, ho.n, conv _ _ ho.sol⟩⟩
  rcases hrun.status with h1 | ⟨e, e', h1, h2, h3⟩
  · exact h1
  · show (integrate _ deck s k).status = (integrate _ deck s' k).status
    have he : e = e' := by
      rcases h3 with h3 | ⟨h3, h4⟩
      · exact h3
      · rw [herr e h3, herr e' h4]
    rw [show (integrate ⟨residual, Limiter.limit none⟩ deck s k).status = _ from h1,
      show (integrate ⟨residual, Limiter.limit none⟩ deck s' k).status = _ from h2, he]

/-- **C80, symmetric data.** A gas that is its own mirror image stays so. -/
theorem C80_symmetric (h : s.Built lib p) (hp : CodePhysics γ "euler".toList riemann s) (hg : String.ofList riemann ≠ "godunov")
    (hbc : s.bcl = .lit "periodic" ∧ s.bcr = .lit "periodic" ∨ s.bcl = .lit "zerograd" ∧ s.bcr = .lit "zerograd")
    (hen : ∀ en, s.enhance = some en → ∃ modes, Enhance.init lib p modes = .ok en ∧ ∀ m ∈ modes, m ≤ p)
    (hsym : IsMirror s s) (deck : RkDeck ℝ) (k : ℕ) :
    IsMirror (integrate ⟨residual, Limiter.limit none⟩ deck s k).sol (integrate ⟨residual, Limiter.limit none⟩ deck s k).sol ∧
    ∀ o ∈ (integrate ⟨residual, Limiter.limit none⟩ deck s k).log, IsMirror o.sol o.sol := by
  obtain ⟨h1, -, -, -, h2⟩ := C80_run_mirror h hp hg hbc hen (Like.refl s) hsym rfl rfl deck k
  refine ⟨h1, fun o ho => ?_⟩
  generalize (integrate ⟨residual, Limiter.limit none⟩ deck s k).log = l at h2 ho
  induction l with
  | nil => cases ho
  | cons x l ih =>
    rw [List.forall₂_cons] at h2
    rcases List.mem_cons.mp ho with rfl | ho
    · exact h2.1.2.2.2.2
    · exact ih h2.2 ho

/-- Every state has a mirror image. -/
lemma exists_mirror (h : s.Built lib p) (hF : s.NF = 3) :
    ∃ s', Like s' s ∧ IsMirror s s' ∧ s.t = s'.t ∧ s.n = s'.n := by
  refine ⟨s.withVal fun n c => Euler.mirrorSign (c % 3) * ((-1) ^ n * s.u.val n ((s.NE + 1 - c / 3) * 3 + c % 3)),
    withVal_like s _, (isMirror_iff (Like.refl s) (withVal_like s _) h.rows hF).mpr ?_, rfl, rfl⟩
  intro n _ e _ _ f hf
  rw [hF] at hf ⊢
  show Euler.mirrorSign ((e * 3 + f) % 3) * ((-1) ^ n * s.u.val n ((s.NE + 1 - (e * 3 + f) / 3) * 3 + (e * 3 + f) % 3)) = _
  rw [show (e * 3 + f) % 3 = f by omega, show (e * 3 + f) / 3 = e by omega]

/-- C80 applied to the two cells of `Ex.gas` (density 1, different momenta and energies, not its own mirror image), every order,
any deck. -/
example (p : ℕ) (deck : RkDeck ℝ) (k : ℕ) : ∃ s', Like s' (Ex.gas p "roe") ∧ IsMirror (Ex.gas p "roe") s' ∧
    ¬ IsMirror (Ex.gas p "roe") (Ex.gas p "roe") ∧
    IsMirror (integrate ⟨residual, Limiter.limit none⟩ deck (Ex.gas p "roe") k).sol
      (integrate ⟨residual, Limiter.limit none⟩ deck s' k).sol := by
  have hb := Ex.gas_built p "roe"
  obtain ⟨s', h1, h2, h3, h4⟩ := exists_mirror hb rfl
  refine ⟨s', h1, h2, fun hs => ?_, (C80_run_mirror (γ := 7 / 5) (riemann := "roe".toList) hb
    ⟨by unfold manipulationFunctions; rw [if_pos rfl]; rfl, by unfold manipulationFunctions; rw [if_pos rfl]; rfl⟩ (by decide)
    (.inl ⟨rfl, rfl⟩) (fun en he => by cases he) h1 h2 h3 h4 deck k).1⟩
  have := (isMirror_iff (Like.refl _) (Like.refl _) hb.rows rfl).mp hs 0 (by omega) 1 (by omega) (by show 1 ≤ 2 + 1; omega) 1 (by show 1 < 3; omega)
  have e1 : (Ex.gas p "roe").u.val 0 (1 * (Ex.gas p "roe").NF + 1) = 10 := by
    simp [Ex.gas, Ex.gasState]
  have e2 : (Ex.gas p "roe").u.val 0 (((Ex.gas p "roe").NE + 1 - 1) * (Ex.gas p "roe").NF + 1) = 11 := by
    simp [Ex.gas, Ex.gasState]
  rw [e1, e2] at this
  simp [Euler.mirrorSign] at this
  norm_num at this

/-- Two colliding streams: density 1, energy 5, momenta 1 and -1 in two periodic cells. -/
noncomputable def Ex.streams (p : ℕ) (riemann : String) : Sol ℝ :=
  (Ex.gas p riemann).withVal fun n c => if n = 0 then (if c % 3 = 0 then 1 else if c % 3 = 1 then (-1) ^ (c / 3 + 1) else 5) else 0

/-- They are symmetric, so C80 applies to them, every order, both solvers. -/
example (p : ℕ) (riemann : Str) (hg : String.ofList riemann ≠ "godunov") (deck : RkDeck ℝ) (k : ℕ) :
    IsMirror (integrate ⟨residual, Limiter.limit none⟩ deck (Ex.streams p (String.ofList riemann)) k).sol
      (integrate ⟨residual, Limiter.limit none⟩ deck (Ex.streams p (String.ofList riemann)) k).sol := by
  have hl : Like (Ex.streams p (String.ofList riemann)) (Ex.gas p (String.ofList riemann)) := withVal_like _ _
  have hb := hl.built (Ex.gas_built p (String.ofList riemann))
  refine (C80_symmetric (γ := 7 / 5) (riemann := riemann) hb
    ⟨by unfold manipulationFunctions; rw [if_pos rfl]; rfl, by unfold manipulationFunctions; rw [if_pos rfl]; rfl⟩ hg
    (.inl ⟨rfl, rfl⟩) (fun en he => by cases he) ?_ deck k).1
  rw [isMirror_iff (Like.refl _) (Like.refl _) hb.rows rfl]
  intro n _ e _ he f hf
  have hf : f < 3 := hf
  have he : e ≤ 3 := he
  show (if n = 0 then (if (e * 3 + f) % 3 = 0 then (1 : ℝ) else if (e * 3 + f) % 3 = 1 then (-1) ^ ((e * 3 + f) / 3 + 1) else 5) else 0) =
    Euler.mirrorSign f * ((-1) ^ n * if n = 0 then (if ((3 - e) * 3 + f) % 3 = 0 then (1 : ℝ) else
      if ((3 - e) * 3 + f) % 3 = 1 then (-1) ^ (((3 - e) * 3 + f) / 3 + 1) else 5) else 0)
  by_cases h0 : n = 0
  · subst h0
    rw [show (e * 3 + f) % 3 = f by omega, show (e * 3 + f) / 3 = e by omega, show ((3 - e) * 3 + f) % 3 = f by omega,
      show ((3 - e) * 3 + f) / 3 = 3 - e by omega]
    interval_cases f <;> interval_cases e <;> norm_num [Euler.mirrorSign]
  · simp [h0]

end Dg1d.Props
