import Verif.Props.Linear
import Verif.Props.Rk4Forget

/-!
# C116 — two runs of linear advection do not drift apart
-/

set_option linter.unusedSectionVars false

open Polynomial Dg1d.Spec

namespace Dg1d.Props

variable {s : Sol ℝ} {lib : GaussLib ℝ} {p : ℕ}

/-- The integral over the mesh of the squared difference of field `f` of two solutions. -/
noncomputable def distance2 (a b : Sol ℝ) (f : ℕ) : ℝ := a.dx / 2 * ∑ e ∈ Finset.Icc 1 a.NE, intPoly ((cellPoly a e f - cellPoly b e f) ^ 2)

lemma distance2_eq {x y z : Sol ℝ} (hxz : x.dx = z.dx) (hNE : x.NE = z.NE) (h : IsCombination 1 (-1) x y z) {f : ℕ} (hf : f < z.NF) : distance2 x y f = energy z f := by
  unfold distance2 energy
  rw [hxz, hNE]
  have : ∀ e ∈ Finset.Icc 1 z.NE, intPoly ((cellPoly x e f - cellPoly y e f) ^ 2) = intPoly (cellPoly z e f ^ 2) := by
    intro e he
    rw [Finset.mem_Icc] at he
    rw [h e (by omega) f hf, map_one, map_neg, map_one, one_mul, neg_one_mul, sub_eq_add_neg]
  rw [Finset.sum_congr rfl this]

/-- The difference of two runs is a run. -/
lemma difference_run (hb : s.Built lib p) (hk : s.kw = Advection.physics) (deck : RkDeck ℝ) (x y : Sol ℝ) (hx : Like x s) (hy : Like y s) (ht : x.t = y.t) (hn : x.n = y.n)
    {f : ℕ} (hf : f < s.NF) :
    ∃ z : Sol ℝ, Like z s ∧ z.t = x.t ∧ energy z f = distance2 x y f ∧ total z f = total x f - total y f ∧ ∀ k,
      let X := integrate ⟨residual, fun s => .ok s⟩ deck x k
      let Y := integrate ⟨residual, fun s => .ok s⟩ deck y k
      let Z := integrate ⟨residual, fun s => .ok s⟩ deck z k
      X.status = Z.status ∧ Y.status = Z.status ∧ X.sol.t = Z.sol.t ∧ Y.sol.t = Z.sol.t ∧ X.tout = Z.tout ∧ distance2 X.sol Y.sol f = energy Z.sol f ∧ Like X.sol s ∧ Like Z.sol s ∧
      X.log.length = Z.log.length ∧ Y.log.length = Z.log.length ∧
      ∀ (i : ℕ) (a b c : OutRec ℝ), X.log[i]? = some a → Y.log[i]? = some b → Z.log[i]? = some c →
        a.nout = c.nout ∧ b.nout = c.nout ∧ a.dt = c.dt ∧ b.dt = c.dt ∧ a.sol.t = c.sol.t ∧ b.sol.t = c.sol.t ∧ distance2 a.sol b.sol f = energy c.sol f := by
  set z := x.withVal fun n c => x.u.val n c - y.u.val n c with hz
  have hlz : Like z s := (withVal_like x _).trans hx
  have hval : LinVal s (p + 1) 1 (-1) x.u.val y.u.val z.u.val := by
    intro n _ e _ g _
    simp only [hz, Sol.withVal]
    ring
  have h0 : LinSol s (p + 1) 1 (-1) x y z := ⟨hx, hy, hlz, hval⟩
  have dist : ∀ a b c, LinSol s (p + 1) 1 (-1) a b c → distance2 a b f = energy c f := fun a b c h =>
    distance2_eq (h.lx.setup.dx.trans h.lz.setup.dx.symm) (h.lx.setup.NE.trans h.lz.setup.NE.symm) ((isCombination_iff hb h.lx h.ly h.lz).mpr h.val) (by rw [h.lz.setup.NF]; exact hf)
  refine ⟨z, hlz, rfl, (dist x y z h0).symm, ?_, fun k => ?_⟩
  · rw [total_means hb hlz, total_means hb hx, total_means hb hy]
    unfold sumMeans
    rw [← Finset.sum_sub_distrib]
    rfl
  intro X Y Z
  have h : LinLoop s (p + 1) 1 (-1) X Y Z := LinLoop.run hb hk deck (schemeFor deck.rk) h0 ⟨rfl, ht.symm⟩ ⟨rfl, hn.symm⟩ k
  refine ⟨h.status.1, h.status.2, h.t.1, h.t.2, h.tout.1, dist _ _ _ h.sol, h.sol.lx, h.sol.lz, h.log.1, h.log.2.1, fun i a b c ha hb' hc => ?_⟩
  have ho := h.log.2.2 i a b c ha hb' hc
  exact ⟨ho.nout.1, ho.nout.2, ho.dt.1, ho.dt.2, ho.t.1, ho.t.2, dist _ _ _ ho.sol⟩

/-- **C116 (third order).** Linear advection on a periodic domain with 'rk3', no limiter, no enhancement, CFL number at most `(2p+1) / (3 (p+1)²)`. Two runs of the same deck from any two initial
data on the same mesh: after every iteration both have the same status and time; no iteration increases the integral of the squared difference; their outputs have the same number, the same
times and time steps, and the differences of the outputs never increase and are bounded by that of the initial data. -/
theorem C116_rk3 (hb : s.Built lib p) (hk : s.kw = Advection.physics) (hen : s.enhance = none) (hl : s.bcl = .lit "periodic") (hr : s.bcr = .lit "periodic") (hdx : 0 < s.dx)
    (deck : RkDeck ℝ) (hrk : deck.rk = "rk3") (hcfl : deck.cfl ≤ (2 * p + 1) / (3 * (p + 1) ^ 2)) (x y : Sol ℝ) (hx : Like x s) (hy : Like y s) (ht : x.t = y.t) (hn : x.n = y.n)
    (htf : x.t ≤ deck.finaltime) (f : ℕ) (hf : f < s.NF) (k : ℕ) :
    let X := integrate ⟨residual, fun s => .ok s⟩ deck x
    let Y := integrate ⟨residual, fun s => .ok s⟩ deck y
    (X k).status = (Y k).status ∧ (X k).sol.t = (Y k).sol.t ∧ distance2 (X (k + 1)).sol (Y (k + 1)).sol f ≤ distance2 (X k).sol (Y k).sol f ∧
    (X k).log.length = (Y k).log.length ∧
    ∀ (i : ℕ) (a b : OutRec ℝ), (X k).log[i]? = some a → (Y k).log[i]? = some b →
      a.nout = b.nout ∧ a.dt = b.dt ∧ a.sol.t = b.sol.t ∧ distance2 a.sol b.sol f ≤ distance2 x y f ∧
      ∀ (j : ℕ) (a' b' : OutRec ℝ), i < j → (X k).log[j]? = some a' → (Y k).log[j]? = some b' → distance2 a'.sol b'.sol f ≤ distance2 a.sol b.sol f := by
  intro X Y
  obtain ⟨z, hz, hzt, he, -, h⟩ := difference_run hb hk deck x y hx hy ht hn hf
  have hC := C75_rk3_energy (hz.built hb) (hz.setup.kw.trans hk) (hz.setup.enhance.trans hen) (hz.setup.bcl.trans hl) (hz.setup.bcr.trans hr) (by rw [hz.setup.dx]; exact hdx)
    (fun s => .ok s) (fun _ => rfl) deck hrk hcfl (by rw [hzt]; exact htf) f (by rw [hz.setup.NF]; exact hf) k
  obtain ⟨c1, c2, c3⟩ := hC
  obtain ⟨s1, s2, t1, t2, -, d, -, -, l1, l2, lg⟩ := h k
  obtain ⟨-, -, -, -, -, d', -⟩ := h (k + 1)
  refine ⟨s1.trans s2.symm, t1.trans t2.symm, ?_, l1.trans l2.symm, fun i a b ha hb' => ?_⟩
  · show distance2 (X (k + 1)).sol (Y (k + 1)).sol f ≤ distance2 (X k).sol (Y k).sol f
    rw [show distance2 (X (k + 1)).sol (Y (k + 1)).sol f = _ from d', show distance2 (X k).sol (Y k).sol f = _ from d]
    exact c1
  · set L := (integrate ⟨residual, fun s => .ok s⟩ deck z k).log with hL
    have get : ∀ (i : ℕ) (a : OutRec ℝ), (X k).log[i]? = some a → ∃ hi : i < L.length, L[i]? = some L[i] := by
      intro i a ha
      have hi : i < L.length := by
        rw [← l1]
        exact (List.getElem?_eq_some_iff.mp ha).1
      exact ⟨hi, List.getElem?_eq_getElem hi⟩
    obtain ⟨hi, hci⟩ := get i a ha
    obtain ⟨g1, g2, g3, g4, g5, g6, g7⟩ := lg i a b _ ha hb' hci
    refine ⟨g1.trans g2.symm, g3.trans g4.symm, g5.trans g6.symm, ?_, fun j a' b' hij ha' hb'' => ?_⟩
    · rw [g7, ← he]
      exact c3 _ (List.getElem_mem hi)
    · obtain ⟨hj, hcj⟩ := get j a' ha'
      obtain ⟨-, -, -, -, -, -, g7'⟩ := lg j a' b' _ ha' hb'' hcj
      rw [g7, g7']
      have hp := List.pairwise_iff_getElem.mp c2 i j (by rw [List.length_map]; exact hi) (by rw [List.length_map]; exact hj) hij
      simpa using hp

/-- **C116 (fourth order).** The same with 'rk4' or 'low_storage_rk4' and CFL number at most `(2p+1) / (18 (p+1)²)`: an iteration multiplies the integral of the squared difference by at most
`1 + 1/400000`, and two iterations with equal time steps do not increase it. -/
theorem C116_rk4 (hb : s.Built lib p) (hk : s.kw = Advection.physics) (hen : s.enhance = none) (hl : s.bcl = .lit "periodic") (hr : s.bcr = .lit "periodic") (hdx : 0 < s.dx)
    (deck : RkDeck ℝ) (hrk : deck.rk ∈ ["rk4", "low_storage_rk4"]) (hcfl : deck.cfl ≤ (2 * p + 1) / (18 * (p + 1) ^ 2)) (x y : Sol ℝ) (hx : Like x s) (hy : Like y s) (ht : x.t = y.t)
    (hn : x.n = y.n) (htf : x.t ≤ deck.finaltime) (f : ℕ) (hf : f < s.NF) (k : ℕ) :
    let X := integrate ⟨residual, fun s => .ok s⟩ deck x
    let Y := integrate ⟨residual, fun s => .ok s⟩ deck y
    distance2 (X (k + 1)).sol (Y (k + 1)).sol f ≤ (1 + 1 / 400000) * distance2 (X k).sol (Y k).sol f ∧
    ∀ dt o dn o' dn', (X k).status = .running → (X (k + 1)).status = .running →
      getNextTimeStep (X k).sol (X k).tout deck.cfl deck.finaltime = .ok (dt, o, dn) →
      getNextTimeStep (X (k + 1)).sol (X (k + 1)).tout deck.cfl deck.finaltime = .ok (dt, o', dn') →
      distance2 (X (k + 2)).sol (Y (k + 2)).sol f ≤ distance2 (X k).sol (Y k).sol f := by
  intro X Y
  obtain ⟨z, hz, hzt, he, -, h⟩ := difference_run hb hk deck x y hx hy ht hn hf
  obtain ⟨c1, c2⟩ := C115_steps (hz.built hb) (hz.setup.kw.trans hk) (hz.setup.enhance.trans hen) (hz.setup.bcl.trans hl) (hz.setup.bcr.trans hr) (by rw [hz.setup.dx]; exact hdx)
    (fun s => .ok s) (fun _ => rfl) deck hrk hcfl (by rw [hzt]; exact htf) f (by rw [hz.setup.NF]; exact hf) k
  have d : ∀ k, distance2 (X k).sol (Y k).sol f = energy (integrate ⟨residual, fun s => .ok s⟩ deck z k).sol f := fun k => (h k).2.2.2.2.2.1
  have next : ∀ k, getNextTimeStep (X k).sol (X k).tout deck.cfl deck.finaltime = getNextTimeStep (integrate ⟨residual, fun s => .ok s⟩ deck z k).sol
      (integrate ⟨residual, fun s => .ok s⟩ deck z k).tout deck.cfl deck.finaltime := by
    intro k
    obtain ⟨-, -, t1, -, to1, -, lX, lZ, -⟩ := h k
    rw [show (X k).tout = _ from to1]
    exact Like.step_eq hk lX lZ t1 _ _ _
  refine ⟨by rw [d, d]; exact c1, fun dt o dn o' dn' r1 r2 n1 n2 => ?_⟩
  rw [d, d]
  rw [next] at n1 n2
  exact c2 dt o dn o' dn' (((h k).1).symm.trans r1) (((h (k + 1)).1).symm.trans r2) n1 n2

/-- **C116 (fourth order, outputs).** With outputs at least two CFL steps apart the outputs of the two runs have the same numbers, times and time steps, their differences never increase from
one output to a later one and are bounded by that of the initial data. -/
theorem C116_rk4_outputs (hb : s.Built lib p) (hk : s.kw = Advection.physics) (hen : s.enhance = none) (hl : s.bcl = .lit "periodic") (hr : s.bcr = .lit "periodic") (hdx : 0 < s.dx)
    (deck : RkDeck ℝ) (hrk : deck.rk ∈ ["rk4", "low_storage_rk4"]) (hcfl : deck.cfl ≤ (2 * p + 1) / (18 * (p + 1) ^ 2)) (x y : Sol ℝ) (hx : Like x s) (hy : Like y s) (ht : x.t = y.t)
    (hn : x.n = y.n) (htf : x.t ≤ deck.finaltime) {δ : ℝ} (hδ : δ = s.dx * deck.cfl / (2 * p + 1)) (hbig : 1 / 10 ^ 14 ≤ δ) {M : ℕ} (hM : 1 ≤ M) (hnout : deck.nout = M + 1)
    (hfit : 2 * δ ≤ (deck.finaltime - x.t) / M) (f : ℕ) (hf : f < s.NF) (k : ℕ) :
    let X := integrate ⟨residual, fun s => .ok s⟩ deck x k
    let Y := integrate ⟨residual, fun s => .ok s⟩ deck y k
    X.status = Y.status ∧ X.sol.t = Y.sol.t ∧ distance2 X.sol Y.sol f ≤ (1 + 1 / 400000) * distance2 x y f ∧ X.log.length = Y.log.length ∧
    ∀ (i : ℕ) (a b : OutRec ℝ), X.log[i]? = some a → Y.log[i]? = some b →
      a.nout = b.nout ∧ a.dt = b.dt ∧ a.sol.t = b.sol.t ∧ distance2 a.sol b.sol f ≤ distance2 x y f ∧
      ∀ (j : ℕ) (a' b' : OutRec ℝ), a.nout ≤ a'.nout → X.log[j]? = some a' → Y.log[j]? = some b' → distance2 a'.sol b'.sol f ≤ distance2 a.sol b.sol f := by
  intro X Y
  obtain ⟨z, hz, hzt, he, -, h⟩ := difference_run hb hk deck x y hx hy ht hn hf
  obtain ⟨c1, c2⟩ := C115_outputs (hz.built hb) (hz.setup.kw.trans hk) (hz.setup.enhance.trans hen) (hz.setup.bcl.trans hl) (hz.setup.bcr.trans hr) (by rw [hz.setup.dx]; exact hdx)
    (fun s => .ok s) (fun _ => rfl) deck hrk hcfl (by rw [hz.setup.dx]; exact hδ) hbig hM hnout (by rw [hzt]; exact htf) (by rw [hzt]; exact hfit) f (by rw [hz.setup.NF]; exact hf) k
  obtain ⟨s1, s2, t1, t2, -, d, -, -, l1, l2, lg⟩ := h k
  set L := (integrate ⟨residual, fun s => .ok s⟩ deck z k).log with hL
  have get : ∀ (i : ℕ) (a : OutRec ℝ), X.log[i]? = some a → ∃ hi : i < L.length, L[i]? = some L[i] := by
    intro i a ha
    have hi : i < L.length := by
      rw [← l1]
      exact (List.getElem?_eq_some_iff.mp ha).1
    exact ⟨hi, List.getElem?_eq_getElem hi⟩
  refine ⟨s1.trans s2.symm, t1.trans t2.symm, ?_, l1.trans l2.symm, fun i a b ha hb' => ?_⟩
  · rw [show distance2 X.sol Y.sol f = _ from d, ← he]
    exact c2
  obtain ⟨hi, hci⟩ := get i a ha
  obtain ⟨g1, g2, g3, g4, g5, g6, g7⟩ := lg i a b _ ha hb' hci
  refine ⟨g1.trans g2.symm, g3.trans g4.symm, g5.trans g6.symm, ?_, fun j a' b' hij ha' hb'' => ?_⟩
  · rw [g7, ← he]
    exact (c1 _ (List.getElem_mem hi)).1
  · obtain ⟨hj, hcj⟩ := get j a' ha'
    obtain ⟨g1', -, -, -, -, -, g7'⟩ := lg j a' b' _ ha' hb'' hcj
    rw [g7, g7']
    exact (c1 _ (List.getElem_mem hi)).2 _ (List.getElem_mem hj) (by rw [← g1, ← g1']; exact hij)

/-- Without a mean the distance from the mean is the energy. -/
lemma spread_of_total {z : Sol ℝ} {f : ℕ} (h : total z f = 0) : spread z f = energy z f := by
  unfold spread energy
  simp only [h, zero_div, map_zero, sub_zero]

/-- **C116 (convergence).** If moreover the two data have the same total, the outputs of the two runs converge to each other: with the factor `ρ < 1` of `C114_rk4`, the same for all such data,
final times and numbers of outputs, the squared difference of output `q` is at most `ρ ^ (q ⌊K/2⌋)` times that of the data. -/
theorem C116_converge (hb : s.Built lib p) (hk : s.kw = Advection.physics) (hen : s.enhance = none) (hl : s.bcl = .lit "periodic") (hr : s.bcr = .lit "periodic") (hdx : 0 < s.dx)
    {δ : ℝ} (hbig : 1 / 10 ^ 14 ≤ δ) (f : ℕ) (hf : f < s.NF) :
    ∃ ρ : ℝ, 0 ≤ ρ ∧ ρ < 1 ∧ ∀ (x y : Sol ℝ) (deck : RkDeck ℝ) (M : ℕ), Like x s → Like y s → x.t = y.t → x.n = y.n → total x f = total y f → deck.rk ∈ ["rk4", "low_storage_rk4"] →
      deck.cfl ≤ (2 * p + 1) / (18 * (p + 1) ^ 2) → δ = s.dx * deck.cfl / (2 * p + 1) → 1 ≤ M → deck.nout = M + 1 → x.t ≤ deck.finaltime → 2 * δ ≤ (deck.finaltime - x.t) / M →
      let K := ⌊(deck.finaltime - x.t) / M / δ⌋₊
      ∀ (k i : ℕ) (a b : OutRec ℝ), (integrate ⟨residual, fun s => .ok s⟩ deck x k).log[i]? = some a → (integrate ⟨residual, fun s => .ok s⟩ deck y k).log[i]? = some b →
        a.nout = b.nout ∧ a.sol.t = b.sol.t ∧ distance2 a.sol b.sol f ≤ ρ ^ (a.nout * (K / 2)) * distance2 x y f := by
  obtain ⟨ρ, h0, h1, hρ⟩ := C114_rk4 hb hk hen hl hr hdx hbig f hf
  refine ⟨ρ, h0, h1, fun x y deck M hx hy ht hn htot hrk hcfl hδ hM hnout htf hfit => ?_⟩
  intro K k i a b ha hb'
  obtain ⟨z, hz, hzt, he, hzero, h⟩ := difference_run hb hk deck x y hx hy ht hn hf
  rw [htot, sub_self] at hzero
  obtain ⟨-, -, -, -, -, -, -, -, l1, -, lg⟩ := h k
  have hi : i < (integrate ⟨residual, fun s => .ok s⟩ deck z k).log.length := by
    rw [← l1]
    exact (List.getElem?_eq_some_iff.mp ha).1
  obtain ⟨g1, g2, -, -, g5, g6, g7⟩ := lg i a b _ ha hb' (List.getElem?_eq_getElem hi)
  have c := hρ z deck (fun s => .ok s) M hz (fun _ => rfl) hrk hcfl hδ hM hnout (by rw [hzt]; exact htf) (by rw [hzt]; exact hfit)
  simp only [hzt] at c
  obtain ⟨c1, c2⟩ := (c k).1 _ (List.getElem_mem hi)
  refine ⟨g1.trans g2.symm, g5.trans g6.symm, ?_⟩
  rw [g7, ← he, g1, ← spread_of_total hzero, ← spread_of_total (c1.trans hzero)]
  exact c2

/-- **C116 (convergence, third order).** The same with 'rk3' and CFL number at most `θ < 1` times `(2p+1) / (3 (p+1)²)`: a step of length `dt` multiplies the squared difference of two runs
whose data have the same total by at most `1 - κ dt⁴`, with one `κ > 0` for all data, decks and iterations. -/
theorem C116_converge_rk3 (hb : s.Built lib p) (hk : s.kw = Advection.physics) (hen : s.enhance = none) (hl : s.bcl = .lit "periodic") (hr : s.bcr = .lit "periodic") (hdx : 0 < s.dx)
    {θ : ℝ} (hθ0 : 0 ≤ θ) (hθ : θ < 1) (f : ℕ) (hf : f < s.NF) :
    ∃ κ : ℝ, 0 < κ ∧ ∀ (x y : Sol ℝ) (deck : RkDeck ℝ), Like x s → Like y s → x.t = y.t → x.n = y.n → total x f = total y f → deck.rk = "rk3" →
      deck.cfl ≤ θ * ((2 * p + 1) / (3 * (p + 1) ^ 2)) → x.t ≤ deck.finaltime → ∀ k,
      let X := integrate ⟨residual, fun s => .ok s⟩ deck x
      let Y := integrate ⟨residual, fun s => .ok s⟩ deck y
      ∀ dt o dn, (X k).status = .running → getNextTimeStep (X k).sol (X k).tout deck.cfl deck.finaltime = .ok (dt, o, dn) →
        distance2 (X (k + 1)).sol (Y (k + 1)).sol f ≤ (1 - κ * dt ^ 4) * distance2 (X k).sol (Y k).sol f := by
  obtain ⟨κ, h0, hκ⟩ := C114_step hb hk hen hl hr hdx hθ0 hθ hf
  refine ⟨κ, h0, fun x y deck hx hy ht hn htot hrk hcfl htf k => ?_⟩
  intro X Y dt o dn hrun hdt
  obtain ⟨z, hz, hzt, -, hzero, h⟩ := difference_run hb hk deck x y hx hy ht hn hf
  rw [htot, sub_self] at hzero
  have hcons : ∀ j, total (integrate ⟨residual, fun s => .ok s⟩ deck z j).sol f = 0 := by
    intro j
    have hps : z.kw.Pointwise (Advection.spec z.NF) := by
      rw [hz.setup.kw, hk]
      exact Advection.pointwise z.NF
    have c := (C15_conservation (hz.built hb) _ hps (hz.setup.bcl.trans hl) (hz.setup.bcr.trans hr) (fun s => .ok s)
      (fun a b ha hab => by cases hab; exact ⟨ha, fun _ _ _ _ _ => rfl⟩) deck (schemeFor deck.rk) j).1 f (by rw [hz.setup.NF]; exact hf)
    exact c.trans hzero
  obtain ⟨s1, -, t1, -, to1, d, lX, lZ, -⟩ := h k
  obtain ⟨-, -, -, -, -, d', -⟩ := h (k + 1)
  have next : getNextTimeStep (integrate ⟨residual, fun s => .ok s⟩ deck z k).sol (integrate ⟨residual, fun s => .ok s⟩ deck z k).tout deck.cfl deck.finaltime = .ok (dt, o, dn) := by
    rw [← hdt, show (X k).tout = _ from to1]
    exact (Like.step_eq hk lX lZ t1 _ _ _).symm
  have c := (hκ z deck (fun s => .ok s) hz hrk hcfl (by rw [hzt]; exact htf) (fun _ => rfl) k).2 dt o dn (s1.symm.trans hrun) next
  rw [spread_of_total (hcons _), spread_of_total (hcons _)] at c
  rw [show distance2 (X (k + 1)).sol (Y (k + 1)).sol f = _ from d', show distance2 (X k).sol (Y k).sol f = _ from d]
  exact c

/-! ### Cases -/

/-- `C116_rk3`: three cells of any order, two different initial data. -/
example (p k : ℕ) :
    let y := (Ex.solR p).withVal fun n c => n + c ^ 3
    let deck : RkDeck ℝ := { rk := "rk3", nout := 3, cfl := (2 * p + 1) / (3 * (p + 1) ^ 2), finaltime := 1 }
    (Ex.solR p).u.val 0 2 ≠ y.u.val 0 2 ∧
    distance2 (integrate ⟨residual, fun s => .ok s⟩ deck (Ex.solR p) (k + 1)).sol (integrate ⟨residual, fun s => .ok s⟩ deck y (k + 1)).sol 0 ≤
      distance2 (integrate ⟨residual, fun s => .ok s⟩ deck (Ex.solR p) k).sol (integrate ⟨residual, fun s => .ok s⟩ deck y k).sol 0 := by
  intro y deck
  refine ⟨by norm_num [y, Ex.solR, Sol.withVal], ?_⟩
  exact (C116_rk3 (Ex.solR_built p) rfl rfl rfl rfl (by norm_num [Ex.solR]) deck rfl le_rfl (Ex.solR p) y (Like.refl _) (withVal_like _ _) rfl rfl (by norm_num [Ex.solR, deck]) 0
    (by norm_num [Ex.solR]) k).2.2.1

/-- `C116_rk4`: the same data with the low storage scheme. -/
example (p k : ℕ) :
    let y := (Ex.solR p).withVal fun n c => n + c ^ 3
    let deck : RkDeck ℝ := { rk := "low_storage_rk4", nout := 3, cfl := (2 * p + 1) / (18 * (p + 1) ^ 2), finaltime := 1 }
    distance2 (integrate ⟨residual, fun s => .ok s⟩ deck (Ex.solR p) (k + 1)).sol (integrate ⟨residual, fun s => .ok s⟩ deck y (k + 1)).sol 0 ≤
      (1 + 1 / 400000) * distance2 (integrate ⟨residual, fun s => .ok s⟩ deck (Ex.solR p) k).sol (integrate ⟨residual, fun s => .ok s⟩ deck y k).sol 0 := by
  intro y deck
  exact (C116_rk4 (Ex.solR_built p) rfl rfl rfl rfl (by norm_num [Ex.solR]) deck (by simp [deck]) le_rfl (Ex.solR p) y (Like.refl _) (withVal_like _ _) rfl rfl (by norm_num [Ex.solR, deck]) 0
    (by norm_num [Ex.solR]) k).1

/-- `C116_rk4_outputs`: three cells of order 1, outputs at 0, 1/2 and 1. -/
example (k : ℕ) :
    let y := (Ex.solR 1).withVal fun n c => n + c ^ 3
    let deck : RkDeck ℝ := { rk := "rk4", nout := 3, cfl := 1 / 24, finaltime := 1 }
    ∀ (i : ℕ) (a b : OutRec ℝ), (integrate ⟨residual, fun s => .ok s⟩ deck (Ex.solR 1) k).log[i]? = some a → (integrate ⟨residual, fun s => .ok s⟩ deck y k).log[i]? = some b →
      distance2 a.sol b.sol 0 ≤ distance2 (Ex.solR 1) y 0 := by
  intro y deck i a b ha hb
  exact ((C116_rk4_outputs (Ex.solR_built 1) rfl rfl rfl rfl (by norm_num [Ex.solR]) deck (by simp [deck]) (by norm_num [deck]) (Ex.solR 1) y (Like.refl _) (withVal_like _ _) rfl rfl
    (by norm_num [Ex.solR, deck]) rfl (by norm_num [Ex.solR, deck]) (M := 2) (by norm_num) rfl (by norm_num [Ex.solR, deck]) 0 (by norm_num [Ex.solR]) k).2.2.2.2 i a b ha hb).2.2.2.1

/-- `C116_converge_rk3`: three cells of order 1, CFL number half of the bound. -/
example : ∃ κ : ℝ, 0 < κ ∧
    let x := (Ex.solR 1).withVal fun n c => if n = 1 then c else 3
    let y := (Ex.solR 1).withVal fun n _ => if n = 1 then 0 else 3
    let deck : RkDeck ℝ := { rk := "rk3", nout := 3, cfl := 1 / 8, finaltime := 1 }
    ∀ k dt o dn, (integrate ⟨residual, fun s => .ok s⟩ deck x k).status = .running →
      getNextTimeStep (integrate ⟨residual, fun s => .ok s⟩ deck x k).sol (integrate ⟨residual, fun s => .ok s⟩ deck x k).tout deck.cfl deck.finaltime = .ok (dt, o, dn) →
      distance2 (integrate ⟨residual, fun s => .ok s⟩ deck x (k + 1)).sol (integrate ⟨residual, fun s => .ok s⟩ deck y (k + 1)).sol 0 ≤
        (1 - κ * dt ^ 4) * distance2 (integrate ⟨residual, fun s => .ok s⟩ deck x k).sol (integrate ⟨residual, fun s => .ok s⟩ deck y k).sol 0 := by
  obtain ⟨κ, h0, h⟩ := C116_converge_rk3 (Ex.solR_built 1) rfl rfl rfl rfl (by norm_num [Ex.solR]) (θ := 1 / 2) (by norm_num) (by norm_num) 0 (by norm_num [Ex.solR])
  refine ⟨κ, h0, ?_⟩
  intro x y deck k
  have hx : Like x (Ex.solR 1) := withVal_like _ _
  have hy : Like y (Ex.solR 1) := withVal_like _ _
  exact h x y deck hx hy rfl rfl (by rw [total_means (Ex.solR_built 1) hx, total_means (Ex.solR_built 1) hy]; simp [sumMeans, x, y, Sol.withVal]) rfl (by norm_num [deck])
    (by norm_num [x, deck, Ex.solR, Sol.withVal]) k

/-- `C116_converge`: three cells of order 1, two different data with the same total, 100 outputs after the first. -/
example : ∃ ρ : ℝ, 0 ≤ ρ ∧ ρ < 1 ∧
    let x := (Ex.solR 1).withVal fun n c => if n = 1 then c else 3
    let y := (Ex.solR 1).withVal fun n _ => if n = 1 then 0 else 3
    let deck : RkDeck ℝ := { rk := "rk4", nout := 101, cfl := 1 / 24, finaltime := 100 }
    x.u.val 1 2 ≠ y.u.val 1 2 ∧
    ∀ (k i : ℕ) (a b : OutRec ℝ), (integrate ⟨residual, fun s => .ok s⟩ deck x k).log[i]? = some a → (integrate ⟨residual, fun s => .ok s⟩ deck y k).log[i]? = some b →
      distance2 a.sol b.sol 0 ≤ ρ ^ (a.nout * 72) * distance2 x y 0 := by
  obtain ⟨ρ, h0, h1, h⟩ := C116_converge (Ex.solR_built 1) rfl rfl rfl rfl (by norm_num [Ex.solR]) (δ := 1 / 144) (by norm_num) 0 (by norm_num [Ex.solR])
  refine ⟨ρ, h0, h1, ?_⟩
  intro x y deck
  refine ⟨by norm_num [x, y, Sol.withVal], fun k i a b ha hb => ?_⟩
  have hx : Like x (Ex.solR 1) := withVal_like _ _
  have hy : Like y (Ex.solR 1) := withVal_like _ _
  have hK : ⌊(deck.finaltime - x.t) / (100 : ℕ) / (1 / 144 : ℝ)⌋₊ = 144 := by
    rw [show (deck.finaltime - x.t) / (100 : ℕ) / (1 / 144 : ℝ) = (144 : ℕ) by norm_num [x, deck, Ex.solR, Sol.withVal], Nat.floor_natCast]
  have g := h x y deck 100 hx hy rfl rfl (by rw [total_means (Ex.solR_built 1) hx, total_means (Ex.solR_built 1) hy]; simp [sumMeans, x, y, Sol.withVal]) (by simp [deck])
    (by norm_num [deck]) (by norm_num [deck, Ex.solR]) (by norm_num) rfl (by norm_num [x, deck, Ex.solR, Sol.withVal]) (by norm_num [x, deck, Ex.solR, Sol.withVal])
  simp only [hK] at g
  exact (g k i a b ha hb).2.2

end Dg1d.Props
