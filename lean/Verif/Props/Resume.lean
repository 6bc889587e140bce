import Verif.Props.IO
import Verif.Props.Euler
import Verif.Props.Plot
import Verif.Props.Dg
import Verif.Proofs.Clock
import Verif.Model.Integrate

/-! # C34: resuming a run from a file -/

open Dg1d.Spec

namespace Dg1d.Props
open Text

/-- A loop whose first time step cannot be computed never moves. -/
lemma stops_at_once {env : Env ℝ} {deck : RkDeck ℝ} {s : Sol ℝ} {e : PyErr} (sch : Scheme ℝ)
    (h : ∀ tout, getNextTimeStep s tout deck.cfl deck.finaltime = .error e) {k : ℕ} (hk : 1 ≤ k) :
    let r := sch.run env deck s k
    (r.status = .failed e ∨ r.status = .failed .stopIteration) ∧ (2 ≤ deck.nout → r.status = .failed e) ∧ r.sol = s ∧ r.log = [⟨0, 0, s⟩] := by
  have hfix : ∀ (st : LoopState ℝ) (err : PyErr), st.status = .failed err → ∀ j, (loopBody env deck (sch.inner env))^[j] st = st := by
    intro st err hst j
    induction j with
    | zero => rfl
    | succ j ih =>
      rw [Function.iterate_succ_apply']
      rw [ih]
      unfold loopBody
      rw [hst]
  obtain ⟨k, rfl⟩ : ∃ j, k = j + 1 := ⟨k - 1, by omega⟩
  intro r
  have hr : r = (loopBody env deck (sch.inner env))^[k] (loopBody env deck (sch.inner env) (initLoop deck s)) := by
    show runLoop env deck (sch.inner env) s (k + 1) = _
    unfold runLoop
    rw [Function.iterate_succ_apply]
  rcases ht : ((List.range deck.nout).map (linspace s.t deck.finaltime deck.nout).val).tail with _ | ⟨tout, rest⟩
  · have hn : deck.nout < 2 := by
      have := congrArg List.length ht
      simp at this
      omega
    have hs : (initLoop deck s).status = .failed .stopIteration := by unfold initLoop; simp only [ht]
    have hb := hfix _ _ hs 1
    rw [Function.iterate_one] at hb
    rw [hb, hfix _ _ hs] at hr
    rw [hr]
    refine ⟨.inr hs, fun h2 => absurd h2 (by omega), ?_, ?_⟩ <;> (unfold initLoop; simp only [ht])
  · have hs : (initLoop deck s).status = .running := by unfold initLoop; simp only [ht]
    have hsol : (initLoop deck s).sol = s := by unfold initLoop; simp only [ht]
    have hlog : (initLoop deck s).log = [⟨0, 0, s⟩] := by unfold initLoop; simp only [ht]
    have hb : loopBody env deck (sch.inner env) (initLoop deck s) = { initLoop deck s with status := .failed e } := by
      unfold loopBody
      rw [hs]
      simp only
      rw [hsol, h]
    rw [hb, hfix _ e rfl] at hr
    rw [hr]
    exact ⟨.inl rfl, fun _ => rfl, hsol, hlog⟩

/-- **C34, resuming a gas.** Save any Euler solution of at least two cells, load it into any Euler object, and run on: with
every scheme, limiter and deck the first time step is NaN, the program exits, and nothing but the loaded solution has been
written. The ghost cells are zero after loading, and nothing fills them. -/
theorem C34_resume_euler {γ : ℝ} {name : String} {ft : FloatText ℝ} {rep : ℝ → Prop} (hft : ft.Ok rep) {lib : GaussLib ℝ} {p : ℕ} {s s0 : Sol ℝ}
    (h : Savable ft rep lib p s) (h2 : 2 ≤ s.NE) (h3 : s.NF = 3) (hNF : s0.NF = s.NF) (hfl : s0.kw.fields = s.kw.fields)
    (hk0 : s0.kw = Euler.physics γ name) (j : ℕ) (fs : Files) :
    ∃ fs' s', s.printer ft j fs = .ok fs' ∧ s0.loader lib ft fs' j = .ok s' ∧
      ∀ (env : Env ℝ) (deck : RkDeck ℝ) (k : ℕ), 2 ≤ deck.nout → 1 ≤ k →
        (integrate env deck s' k).status = .failed (.sysExit "Time step is NaN") ∧ (integrate env deck s' k).sol = s' ∧
        (integrate env deck s' k).log = [⟨0, 0, s'⟩] := by
  obtain ⟨fs', s', hp, hlo, -, -, -, -, -, hNE', hNF', -, -, -, -, -, -, hcols, -, hz, hkw, -⟩ := C33_round_trip hft h h2 j fs hNF hfl
  refine ⟨fs', s', hp, hlo, fun env deck k hn hk => ?_⟩
  have hzero : s'.u.val 0 (0 * 3) = 0 := (hz 0 (by omega) 0 (by omega)).1
  have hnan := (C46_breakdown γ name s'.u (s.NE + 2) (by rw [hcols, h3]) 0 (by omega) (.inl hzero)).1
  have hstep : ∀ tout, getNextTimeStep s' tout deck.cfl deck.finaltime = .error (.sysExit "Time step is NaN") := fun tout => by
    unfold getNextTimeStep cflTimeStep
    rw [hkw, hk0, hnan]
    rfl
  obtain ⟨-, a, b, c⟩ := stops_at_once (env := env) (schemeFor deck.rk) hstep hk
  exact ⟨a hn, b, c⟩


/-- **C34, resuming linear advection.** After saving and loading, the residual works on the array as it was loaded, and what
leaves at the right end does not come back on the left: the total changes at the rate of the outflow alone, whatever the
boundary names in the file say. -/
theorem C34_resume_advection {ft : FloatText ℝ} {rep : ℝ → Prop} (hft : ft.Ok rep) {lib : GaussLib ℝ} {p : ℕ} {s s0 : Sol ℝ}
    (h : Savable ft rep lib p s) (h2 : 2 ≤ s.NE) (hb : s.Built lib p) (hNF : s0.NF = s.NF) (hk : s.kw = Advection.physics) (hk0 : s0.kw = Advection.physics)
    (hm : s0.scaledMinv = s.scaledMinv) (he0 : s0.enhance = none) (j : ℕ) (fs : Files) :
    ∃ fs' s' F, s.printer ft j fs = .ok fs' ∧ s0.loader lib ft fs' j = .ok s' ∧ residual s' = .ok (s', F) ∧
      ∀ f < s.NF, s.dx * ∑ e ∈ Finset.Icc 1 s.NE, intPoly (legSeries (p + 1) fun n => F.val n (e * s.NF + f)) / 2 = -(cellPoly s s.NE f).eval 1 := by
  obtain ⟨fs', s', hp, hlo, -, -, -, -, hbas, hNE', hNF', -, -, -, -, hdx, hrows, hcols, hin, hz, hkw, hmin, hen, -⟩ :=
    C33_round_trip hft h h2 j fs hNF (by rw [hk, hk0])
  have hkw' : s'.kw = Advection.physics := hkw.trans hk0
  have hen' : s'.enhance = none := hen.trans he0
  have hB : s'.Built lib p :=
    { nodes := hb.nodes, gauss := hb.gauss, basis := hbas.trans hb.basis, NF := by rw [hNF']; exact hb.NF, NE := by rw [hNE']; exact hb.NE, rows := hrows,
      cols := by rw [hcols, hNE', hNF'], dx := by rw [hdx]; exact hb.dx, minv := by rw [hmin, hm, hdx]; exact hb.minv, enh := fun en he => by rw [hen'] at he; cases he }
  obtain ⟨F, hF, hval⟩ := C13_advection hB hkw' hen'
  rw [C34_not_reapplied hlo] at hF hval
  refine ⟨fs', s', F, hp, hlo, hF, fun f hf => ?_⟩
  rw [hNE', hNF', hdx] at hval
  have hmean : ∀ e, intPoly (legSeries (p + 1) fun n => F.val n (e * s.NF + f)) / 2 = F.val 0 (e * s.NF + f) := by
    intro e
    have := intPoly_legSeries (p + 1) (fun n => F.val n (e * s.NF + f)) 0 (by omega)
    rw [legendre_zero, mul_one] at this
    rw [this]
    norm_num
  have hcell : ∀ e ∈ Finset.Icc 1 s.NE, s.dx * (intPoly (legSeries (p + 1) fun n => F.val n (e * s.NF + f)) / 2) =
      (cellPoly s' (e - 1) f).eval 1 - (cellPoly s' e f).eval 1 := by
    intro e he
    rw [Finset.mem_Icc] at he
    have := hval 0 (by omega) e he.1 he.2 f hf
    rw [hmean]
    simp only [legendre_zero, Polynomial.derivative_one, zero_mul, Polynomial.eval_one, mul_one, Nat.cast_zero, mul_zero, zero_add, div_one] at this
    have h0 : intPoly (0 : Polynomial ℝ) = 0 := by simp [intPoly, intBetween, antideriv]
    rw [h0] at this
    linarith
  have htel : ∀ N, ∑ e ∈ Finset.Icc 1 N, ((cellPoly s' (e - 1) f).eval 1 - (cellPoly s' e f).eval 1) = (cellPoly s' 0 f).eval 1 - (cellPoly s' N f).eval 1 := by
    intro N
    induction N with
    | zero => simp
    | succ N ih => rw [Finset.sum_Icc_succ_top (by omega), ih]; simp
  have hghost : (cellPoly s' 0 f).eval 1 = 0 := by
    unfold cellPoly legSeries
    rw [Polynomial.eval_finsetSum]
    refine Finset.sum_eq_zero fun n hn => ?_
    rw [hrows, Finset.mem_range] at hn
    have := (hz n hn f hf).1
    rw [hNF', show (0 * s.NF + f : ℕ) = f by omega]
    simp only [this]
    simp
  have hlast : cellPoly s' s.NE f = cellPoly s s.NE f := by
    unfold cellPoly legSeries
    rw [hrows, h.rows]
    refine Finset.sum_congr rfl fun n hn => ?_
    simp only [hNF', hin n (Finset.mem_range.mp hn) s.NE (by omega) le_rfl f hf]
  rw [Finset.mul_sum, Finset.sum_congr rfl hcell, htel, hghost, hlast, zero_sub]

/-! ### Concrete cases -/

/-- Uniform flow of air in three periodic cells, saved and loaded into the object it came from: no run gets further. -/
example (p : ℕ) : ∃ fs' s', (Ex.gasE p (7 / 5) "roe".toList).printer Ex.ratReal 3 (fun _ => none) = .ok fs' ∧
    (Ex.gasE p (7 / 5) "roe".toList).loader realGauss Ex.ratReal fs' 3 = .ok s' ∧ ∀ env : Env ℝ,
      (integrate env ⟨"rk4", 1, 3, 1 / 2⟩ s' 100).status = .failed (.sysExit "Time step is NaN") := by
  obtain ⟨fs', s', h1, h2, h3⟩ := C34_resume_euler Ex.ratReal_ok (Ex.gasE_savable p (7 / 5) "roe".toList) (by norm_num [Ex.gasE, Ex.uniE, Ex.solR]) rfl rfl rfl
    (γ := 7 / 5) (name := String.ofList "roe".toList) rfl 3 (fun _ => none)
  exact ⟨fs', s', h1, h2, fun env => (h3 env _ 100 (by norm_num) (by norm_num)).1⟩

/-- Three periodic cells with values 1, 4 and 9: after loading, 9 leaves on the right and nothing enters. -/
example : ∃ fs' s' F, (Ex.solR 0).printer Ex.ratReal 3 (fun _ => none) = .ok fs' ∧ (Ex.solR 0).loader realGauss Ex.ratReal fs' 3 = .ok s' ∧
    residual s' = .ok (s', F) ∧ 1 / 2 * ∑ e ∈ Finset.Icc 1 3, intPoly (legSeries 1 fun n => F.val n (e * 1 + 0)) / 2 = -9 := by
  obtain ⟨fs', s', F, h1, h2, h3, h4⟩ := C34_resume_advection Ex.ratReal_ok (Ex.solR_savable 0) (s0 := Ex.solR 0) (by norm_num [Ex.solR]) (Ex.solR_built 0) rfl rfl rfl rfl rfl 3 (fun _ => none)
  refine ⟨fs', s', F, h1, h2, h3, (h4 0 (Ex.solR_built 0).NF).trans ?_⟩
  norm_num [cellPoly, legSeries, Ex.solR, legendre]

end Dg1d.Props
