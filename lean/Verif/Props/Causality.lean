import Verif.Proofs.Causality
import Verif.Props.Runs
import Verif.Props.Enhance
import Verif.Props.ExamplesReal

/-! # C108: advection carries no information upstream

The signal moves to the right with speed 1. Without enhancement and with a zero-gradient left boundary, what a run
computes in the first `m` cells depends on the initial data of these cells only: not on the data further right, not on the
right boundary condition and not on where the domain ends. With enhanced faces this is lost. -/

set_option linter.unusedSectionVars false

open Polynomial Dg1d.Spec

namespace Dg1d.Props
variable {K : Type*} [Field K] [LinearOrder K] [IsStrictOrderedRing K] {s s' : Sol K} {lib : GaussLib K} {p : ℕ}

/-- The first `m` cells of the two solutions hold the same polynomials. -/
def SameUpTo (m : ℕ) (a b : Sol K) : Prop := ∀ e, 1 ≤ e → e ≤ m → cellPoly a e 0 = cellPoly b e 0

lemma sameUpTo_iff {a b : Sol K} (ha : Like a s) (hb : Like b s') (hr : s.u.rows = p + 1) (hr' : s'.u.rows = p + 1)
    (hN : s.NF = 1) (hN' : s'.NF = 1) (m : ℕ) :
    SameUpTo m a b ↔ ∀ n < p + 1, ∀ e, 1 ≤ e → e ≤ m → a.u.val n e = b.u.val n e := by
  unfold SameUpTo cellPoly
  rw [ha.rows, hb.rows, hr, hr', ha.setup.NF, hb.setup.NF, hN, hN']
  simp only [mul_one, add_zero]
  constructor
  · intro h n hn e h1 h2
    exact legSeries_injective (p + 1) _ _ (h e h1 h2) n hn
  · intro h e h1 h2
    unfold legSeries
    exact Finset.sum_congr rfl fun n hn => by beta_reduce; rw [h n (Finset.mem_range.mp hn) e h1 h2]

/-- The set-up of C108: linear advection with plain faces and a zero-gradient left boundary. Any number of cells, any
right boundary condition. -/
structure PlainAdvection (s : Sol K) (lib : GaussLib K) (p : ℕ) : Prop where
  built : s.Built lib p
  kw : s.kw = Advection.physics
  NF : s.NF = 1
  enhance : s.enhance = none
  bcl : s.bcl = .lit "zerograd"

/-- **C108 (no upstream influence, whole run).** Two advection runs on meshes of the same cell width, possibly with
different numbers of cells and different right boundary conditions, whose first `m` cells start from the same polynomials:
the first `m` cells agree in every iteration and in every output, and so do the clocks, the number of outputs and the way
the runs end. -/
theorem C108_upstream (h : PlainAdvection s lib p) (h' : PlainAdvection s' lib p) (hdx : s.dx = s'.dx) (m : ℕ) (hm : 1 ≤ m)
    (hmN : m ≤ s.NE) (hmN' : m ≤ s'.NE) (hsame : SameUpTo m s s') (ht : s.t = s'.t) (hn : s.n = s'.n)
    (deck : RkDeck K) (sch : Scheme K) (k : ℕ) :
    let r := sch.run ⟨residual, fun a => .ok a⟩ deck s k
    let r' := sch.run ⟨residual, fun a => .ok a⟩ deck s' k
    SameUpTo m r.sol r'.sol ∧ r.sol.t = r'.sol.t ∧ r.sol.n = r'.sol.n ∧ r.status = r'.status ∧
    List.Forall₂ (fun o o' => o.nout = o'.nout ∧ o.dt = o'.dt ∧ o.sol.t = o'.sol.t ∧ o.sol.n = o'.sol.n ∧
      SameUpTo m o.sol o'.sol) r.log r'.log := by
  let RF : Arr K → Arr K → Prop := fun A B => ∀ n < p + 1, ∀ e, 1 ≤ e → e ≤ m → A.val n e = B.val n e
  let RS : Sol K → Sol K → Prop := fun a b => Like a s ∧ Like b s' ∧ RF a.u b.u
  have hbc : ∀ a b, RS a b → RS a.applyBc b.applyBc := by
    rintro a b ⟨ha, hb, hs⟩
    refine ⟨ha.applyBc, hb.applyBc, fun n hn e h1 h2 => ?_⟩
    rw [fill_upstream h.built ha h.NF h.bcl n e (by omega), fill_upstream h'.built hb h'.NF h'.bcl n e (by omega), if_neg (by omega)]
    exact hs n hn e h1 h2
  have sim : Simulates (K := K) Eq ⟨residual, fun a => .ok a⟩ ⟨residual, fun a => .ok a⟩ RS RS RF :=
    { errRefl := fun _ => rfl
      zero := fun _ _ _ _ _ _ _ _ => rfl
      smul := fun a F F' hF n hn e h1 h2 => by simp only [Arr.smul]; rw [hF n hn e h1 h2]
      axpy := by
        rintro a x y F F' ⟨hx, hy, hs⟩ hF
        refine ⟨hx.axpy a F, hy.axpy a F', fun n hn e h1 h2 => ?_⟩
        simp only [Arr.add, Arr.smul]
        rw [hF n hn e h1 h2, hs n hn e h1 h2]
      copy := by
        rintro w w' x y ⟨hw, hw', _⟩ ⟨hx, hy, hs⟩
        exact ⟨hw.copy hx, hw'.copy hy, hs⟩
      clock := by
        rintro x y a q ⟨hx, hy, hs⟩
        exact ⟨hx.clock _ _, hy.clock _ _, hs⟩
      head := fun _ _ hx => hx
      bc := hbc
      cfl := by
        rintro a b c ⟨ha, hb, _⟩
        unfold cflTimeStep
        rw [ha.setup.kw, hb.setup.kw, ha.setup.dx, hb.setup.dx, ha.setup.basis, hb.setup.basis, h.kw, h'.kw, hdx, h.built.basis,
          h'.built.basis]
        rfl
      headLimit := fun a b hx h1 h2 => ⟨hx, h1, h2⟩
      stageLimit := fun a b hx => hx
      res := by
        intro a b hx
        obtain ⟨F, G, hF, hG, hFG⟩ := residual_upstream h.built h'.built hx.1 hx.2.1 h.kw h'.kw h.NF h'.NF h.enhance h'.enhance h.bcl
          h'.bcl hdx hm hmN hmN' hx.2.2
        show ExRel _ _ (residual a) (residual b)
        rw [hF, hG]
        exact ⟨hbc a b hx, hFG⟩ }
  have conv : ∀ a b, RS a b → SameUpTo m a b := fun a b hx =>
    (sameUpTo_iff hx.1 hx.2.1 h.built.rows h'.built.rows h.NF h'.NF m).mpr hx.2.2
  have h0 : RS s s' := ⟨Like.refl s, Like.refl s',
    (sameUpTo_iff (Like.refl s) (Like.refl s') h.built.rows h'.built.rows h.NF h'.NF m).mp hsame⟩
  have hrun := sim.run deck sch h0 ht hn k
  intro r r'
  refine ⟨conv _ _ hrun.sol, hrun.t, hrun.n, ?_, hrun.log.imp fun o o' ho => ⟨ho.nout, ho.dt, ho.t, ho.n, conv _ _ ho.sol⟩⟩
  rcases hrun.status with hs | ⟨e, e', h1, h2, rfl⟩
  · exact hs
  · exact h1.trans h2.symm

/-- **C108 (quiet upstream).** Where the first `m` cells hold the constant `c`, they hold it for ever, whatever comes
further right. -/
theorem C108_quiet (h : PlainAdvection s lib p) (m : ℕ) (hm : 1 ≤ m) (hmN : m ≤ s.NE) (c : K)
    (hc : ∀ e, 1 ≤ e → e ≤ m → cellPoly s e 0 = C c) (deck : RkDeck K) (sch : Scheme K) (k : ℕ) :
    let r := sch.run ⟨residual, fun a => .ok a⟩ deck s k
    (∀ e, 1 ≤ e → e ≤ m → cellPoly r.sol e 0 = C c) ∧ ∀ o ∈ r.log, ∀ e, 1 ≤ e → e ≤ m → cellPoly o.sol e 0 = C c := by
  let v : Sol K := { s.withVal (fun n _ => if n = 0 then c else 0) with bcr := .lit "zerograd" }
  have hb : v.Built lib p :=
    { nodes := h.built.nodes, gauss := h.built.gauss, basis := h.built.basis, NF := h.built.NF, NE := h.built.NE,
      rows := h.built.rows, cols := h.built.cols, dx := h.built.dx, minv := h.built.minv, enh := h.built.enh }
  have hv : PlainAdvection v lib p := ⟨hb, h.kw, h.NF, h.enhance, h.bcl⟩
  have hU : IsUniform v (fun _ => c) := by
    rw [isUniform_iff hb.rows]
    exact ⟨fun e _ f _ => by simp [v, Sol.withVal], fun n h0 _ e _ _ f _ => by simp [v, Sol.withVal, Nat.pos_iff_ne_zero.mp h0]⟩
  have hps : v.kw.Pointwise (Advection.spec (K := K) v.NF) := by rw [hv.kw]; exact Advection.pointwise _
  have hNE : ∀ a, (∃ c : ℕ → K, UniformLike v p c a) → a.NE = s.NE := fun a ⟨_, ha⟩ => ha.1.setup.NE
  obtain ⟨u1, u2⟩ := (uniform_invariant hb (Advection.spec v.NF) hps (.inr h.bcl) (.inr rfl)
    (fun en he => by rw [hv.enhance] at he; cases he) (fun _ => c) (fun h => h) rfl (fun s => .ok s)
    (fun a b ha ht hu hb => by cases hb; exact ⟨ha, ht, hu⟩)).run deck sch
    (((uniformLike_iff hb (fun _ => c)) v).mpr ⟨Like.refl v, hU, rfl⟩) k
  have hconst : ∀ a, UniformLike v p (fun _ => c) a → ∀ e, 1 ≤ e → e ≤ m → cellPoly a e 0 = C c := by
    intro a ha e h1 h2
    have hx := ((uniformLike_iff hb (fun _ => c)) a).mp ha
    exact hx.2.1.1 e h1 (by rw [hNE a ⟨_, ha⟩]; omega) 0 (by rw [ha.1.setup.NF]; exact hb.NF)
  have hsame : SameUpTo m s v := fun e h1 h2 => (hc e h1 h2).trans
    (hU.1 e h1 (show e ≤ s.NE by omega) 0 hb.NF).symm
  obtain ⟨r1, -, -, -, r5⟩ := C108_upstream h hv rfl m hm hmN hmN hsame rfl rfl deck sch k
  refine ⟨fun e h1 h2 => (r1 e h1 h2).trans (hconst _ u1 e h1 h2), fun o ho e h1 h2 => ?_⟩
  obtain ⟨o', ho', hx⟩ : ∃ o' ∈ (sch.run ⟨residual, fun a => .ok a⟩ deck v k).log, SameUpTo m o.sol o'.sol := by
    clear u1 u2 r1
    generalize (sch.run ⟨residual, fun a => .ok a⟩ deck s k).log = A at r5 ho
    generalize (sch.run ⟨residual, fun a => .ok a⟩ deck v k).log = B at r5
    induction r5 with
    | nil => cases ho
    | cons hh ht ih =>
      rcases List.mem_cons.mp ho with rfl | ho
      · exact ⟨_, List.mem_cons_self, hh.2.2.2.2⟩
      · obtain ⟨o', h1, h2⟩ := ih ho
        exact ⟨o', List.mem_cons_of_mem _ h1, h2⟩
  exact (hx e h1 h2).trans (hconst _ (u2 o' ho') e h1 h2)

/-- With enhancement the right neighbour always enters the upwind face value. -/
lemma alphaR_ne_zero {modes : List ℤ} {en : Enhance K} (h : Enhance.init lib p modes = .ok en) (hm : ∀ m ∈ modes, m ≤ p)
    (hne : modes ≠ []) : ∃ k < p + 1, en.alphaR.val k ≠ 0 := by
  by_contra hz
  push Not at hz
  have hlen : 1 ≤ modes.length := List.length_pos_iff.mpr hne
  have e := (C61_weights_exact h hm).1 (legendre K (p + 1)) (by
    rw [legendre_degree']; exact_mod_cast (by omega : p + 1 ≤ p + modes.length))
  have z1 : ∀ n < p + 1, projCoeff (legendre K (p + 1)) n = 0 := by
    intro n hn
    have : legendre K (p + 1) = legSeries (p + 2) fun k => if k = p + 1 then 1 else 0 := by
      unfold legSeries
      rw [Finset.sum_eq_single (p + 1)]
      · simp
      · intro b _ hb; simp [hb]
      · intro hx; simp at hx
    rw [this, projCoeff_legSeries _ _ (by omega), if_neg (by omega)]
  rw [Finset.sum_eq_zero fun n hn => by rw [z1 n (Finset.mem_range.mp hn), mul_zero],
    Finset.sum_eq_zero fun n hn => by rw [hz n (Finset.mem_range.mp hn), zero_mul], legendre_eval_one] at e
  norm_num at e

/-- **C108 (enhancement looks downstream).** With any enhancement, of any order and any non-empty list of modes, cell `e` does
feel the cell to its right: there is a change of cell `e + 1` alone that changes the residual of the average of cell `e`. -/
theorem C108_enhanced (h : s.Built lib p) (hkw : s.kw = Advection.physics) (hNF : s.NF = 1) (hl : s.bcl = .lit "zerograd")
    {modes : List ℤ} {en : Enhance K} (hi : Enhance.init lib p modes = .ok en) (hm : ∀ m ∈ modes, m ≤ p) (hne : modes ≠ [])
    (hen : s.enhance = some en) (e : ℕ) (he1 : 1 ≤ e) (he2 : e + 1 ≤ s.NE) :
    ∃ v : ℕ → ℕ → K, (∀ n c, c ≠ e + 1 → v n c = s.u.val n c) ∧
      ∃ a F b G, residual s = .ok (a, F) ∧ residual (s.withVal v) = .ok (b, G) ∧ F.val 0 e ≠ G.val 0 e := by
  obtain ⟨k, hk, hak⟩ := alphaR_ne_zero hi hm hne
  let v : ℕ → ℕ → K := fun n c => if c = e + 1 ∧ n = k then s.u.val n c + 1 else s.u.val n c
  have hps : s.kw.Pointwise (Advection.spec (K := K) s.NF) := by rw [hkw]; exact Advection.pointwise s.NF
  have hlike : Like (s.withVal v) s := ⟨by constructor <;> rfl, rfl, rfl⟩
  obtain ⟨F, hF, _, _, eF, _⟩ := (residual_like h.wf (Like.refl s) hps).2 (fun i _ hf => hf)
  obtain ⟨G, hG, _, _, eG, _⟩ := (residual_like h.wf hlike hps).2 (fun i _ hf => hf)
  refine ⟨v, fun n c hc => if_neg (fun hx => hc hx.1), _, F, _, G, hF, hG, ?_⟩
  have f0 : (0 : ℕ) < s.NF := by omega
  have a1 := eF 0 (by rw [h.ns]; omega) e he1 (by omega) ⟨0, f0⟩
  have a2 := eG 0 (by rw [h.ns]; omega) e he1 (by omega) ⟨0, f0⟩
  have fs := fun r c hc => fill_upstream h (Like.refl s) hNF hl r c hc
  have fv := fun r c hc => fill_upstream h hlike hNF hl r c hc
  have same : ∀ r c, c ≤ e → (s.withVal v).applyBc.u.val r c = s.applyBc.u.val r c := by
    intro r c hc
    rw [fs r c (by omega), fv r c (by omega)]
    exact if_neg (fun hx => by have := hx.1; split at this <;> omega)
  have next : ∀ r, (s.withVal v).applyBc.u.val r (e + 1) = s.applyBc.u.val r (e + 1) + if r = k then 1 else 0 := by
    intro r
    rw [fs r _ he2, fv r _ he2, if_neg (by omega)]
    show (if e + 1 = e + 1 ∧ r = k then s.u.val r (e + 1) + 1 else s.u.val r (e + 1)) = _
    by_cases hr : r = k
    · rw [if_pos ⟨rfl, hr⟩, if_pos hr]
    · rw [if_neg (fun hx => hr hx.2), if_neg hr, add_zero]
  have hvol : s.vol (Advection.spec s.NF) (s.withVal v).applyBc.u.val 0 e ⟨0, f0⟩ =
      s.vol (Advection.spec s.NF) s.applyBc.u.val 0 e ⟨0, f0⟩ := by
    unfold Sol.vol Advection.spec
    simp only [hNF, mul_one, add_zero]
    exact Finset.sum_congr rfl fun g _ => by
      rw [Finset.sum_congr rfl fun k _ => by rw [same k e le_rfl]]
  have hq1 : s.q (Advection.spec s.NF) (s.withVal v).applyBc.u.val (e - 1) ⟨0, f0⟩ =
      s.q (Advection.spec s.NF) s.applyBc.u.val (e - 1) ⟨0, f0⟩ := by
    show s.face 1 _ (e - 1) ⟨0, f0⟩ = s.face 1 _ (e - 1) ⟨0, f0⟩
    unfold Sol.face
    simp only [hNF, mul_one, add_zero]
    exact Finset.sum_congr rfl fun n _ => by rw [same n (e - 1) (by omega), same n (e - 1 + 1) (by omega)]
  have hq2 : s.q (Advection.spec s.NF) (s.withVal v).applyBc.u.val e ⟨0, f0⟩ =
      s.q (Advection.spec s.NF) s.applyBc.u.val e ⟨0, f0⟩ + en.alphaR.val k := by
    show s.face 1 _ e ⟨0, f0⟩ = s.face 1 _ e ⟨0, f0⟩ + _
    unfold Sol.face
    simp only [hNF, mul_one, add_zero]
    rw [← show ∑ n ∈ Finset.range s.basis.Ns, (if n = k then en.alphaR.val n else 0) = en.alphaR.val k by
      rw [h.ns, Finset.sum_ite_eq' (Finset.range (p + 1)) k, if_pos (Finset.mem_range.mpr hk)], ← Finset.sum_add_distrib]
    refine Finset.sum_congr rfl fun n _ => ?_
    rw [same n e le_rfl, next n]
    have : s.faceW 1 true n = en.alphaR.val n := by simp [Sol.faceW, hen]
    rw [this]
    split <;> ring
  rw [hvol, hq1, hq2] at a2
  simp only [hNF, mul_one, add_zero] at a1 a2
  rw [a1, a2, h.minv 0 (by omega)]
  simp only [if_true]
  intro hx
  have hdx := h.dx
  have h2 := mul_right_cancel₀ (by simp [hdx] : (2 * ((0 : ℕ) : K) + 1) / s.dx ≠ 0) hx
  exact hak (by linear_combination h2)

/-- The data of C108: order `p`, cells of width 1/2, `N` of them, zero-gradient on the left, anything on the right. -/
noncomputable def openR (p N : ℕ) (bcr : PyStr) (v : ℕ → ℕ → ℝ) : Sol ℝ :=
  { Ex.solR p with NE := N, u := ⟨p + 1, (N + 2) * 1, v⟩, bcl := .lit "zerograd", bcr := bcr }

lemma openR_plain (p N : ℕ) (hN : 0 < N) (bcr : PyStr) (v : ℕ → ℕ → ℝ) : PlainAdvection (openR p N bcr v) realGauss p where
  built := { nodes := (Ex.solR_built p).nodes, gauss := (Ex.solR_built p).gauss, basis := rfl, NF := Nat.one_pos, NE := hN, rows := rfl,
             cols := rfl, dx := (Ex.solR_built p).dx, minv := fun n _ => rfl, enh := fun en h => by cases h }
  kw := rfl
  NF := rfl
  enhance := rfl
  bcl := rfl

/-- C108 on concrete runs: eight cells with an unknown right boundary condition and fifty cells with a zero-gradient one, data that
differ from cell 6 on. -/
example (p : ℕ) (deck : RkDeck ℝ) (k : ℕ) :
    SameUpTo 5 ((Scheme.classic (rk4K ℝ)).run ⟨residual, fun a => .ok a⟩ deck (openR p 8 (.lit "wall") fun n e => (e : ℝ) ^ 2 + n) k).sol
      ((Scheme.classic (rk4K ℝ)).run ⟨residual, fun a => .ok a⟩ deck
        (openR p 50 (.lit "zerograd") fun n e => if e ≤ 5 then (e : ℝ) ^ 2 + n else -1000 * e) k).sol := by
  refine (C108_upstream (openR_plain p 8 (by norm_num) _ _) (openR_plain p 50 (by norm_num) _ _) rfl 5 (by norm_num) (by norm_num [openR])
    (by norm_num [openR]) ?_ rfl rfl deck _ k).1
  rw [sameUpTo_iff (p := p) (Like.refl _) (Like.refl _) rfl rfl rfl rfl]
  intro n _ e _ h2
  simp [openR, h2]

/-- A jump at cell 4 leaves the constant 7 before it alone. -/
example (p : ℕ) (deck : RkDeck ℝ) (k : ℕ) :
    cellPoly ((Scheme.low (K := ℝ)).run ⟨residual, fun a => .ok a⟩ deck
      (openR p 8 (.lit "zerograd") fun n e => if e < 4 then (if n = 0 then 7 else 0) else 9) k).sol 3 0 = C 7 := by
  refine (C108_quiet (openR_plain p 8 (by norm_num) _ _) 3 (by norm_num) (by norm_num [openR]) 7 ?_ deck _ k).1 3 (by norm_num) le_rfl
  intro e h1 h2
  unfold cellPoly legSeries
  have h3 : e < 4 := by omega
  rw [Finset.sum_eq_single 0]
  · simp [openR, Ex.solR, h3, legendre_zero]
  · intro n _ hn; simp [openR, Ex.solR, h3, hn]
  · intro hx; simp [openR] at hx

/-- Order 1 enhanced with both modes of the neighbour. -/
example : ∃ en : Enhance ℝ, ∃ v : ℕ → ℕ → ℝ, ∃ a F b G,
    residual { openR 1 8 (.lit "zerograd") (fun n e => (e : ℝ) + n) with enhance := some en } = .ok (a, F) ∧
    residual ({ openR 1 8 (.lit "zerograd") (fun n e => (e : ℝ) + n) with enhance := some en }.withVal v) = .ok (b, G) ∧
    F.val 0 3 ≠ G.val 0 3 := by
  obtain ⟨-, -, en, hi⟩ := C64_leading realGauss 1 2
  have hm : ∀ m ∈ (List.range 2).map Int.ofNat, m ≤ ((1 : ℕ) : ℤ) := by decide
  obtain ⟨l1, l2, l3, l4⟩ := C62_lengths hi
  have hp := (openR_plain 1 8 (by norm_num) (.lit "zerograd") (fun n e => (e : ℝ) + n)).built
  obtain ⟨v, -, a, F, b, G, h1, h2, h3⟩ := C108_enhanced
    (s := { openR 1 8 (.lit "zerograd") (fun n e => (e : ℝ) + n) with enhance := some en })
    { nodes := hp.nodes, gauss := hp.gauss, basis := hp.basis, NF := hp.NF, NE := hp.NE, rows := hp.rows, cols := hp.cols, dx := hp.dx,
      minv := hp.minv, enh := fun en' he => by cases he; exact ⟨l1, l3.mpr hm, l4.mpr hm, l2⟩ } rfl rfl rfl hi hm (by decide) rfl 3
    (by norm_num) (by norm_num [openR])
  exact ⟨en, v, a, F, b, G, h1, h2, h3⟩

end Dg1d.Props
