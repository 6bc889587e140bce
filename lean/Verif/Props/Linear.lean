import Verif.Proofs.Superposition
import Verif.Props.ExamplesReal

/-! # Linear advection: superposition of whole runs (C74) -/

set_option linter.unusedSectionVars false

open Polynomial Dg1d.Spec

namespace Dg1d.Props
variable {K : Type*} [Field K] [LinearOrder K] [IsStrictOrderedRing K] {s : Sol K} {lib : GaussLib K} {p : ℕ}

/-- `z` is the combination `α x + β y`, as polynomials, in every cell including the ghost cells. -/
def IsCombination (α β : K) (x y z : Sol K) : Prop :=
  ∀ e ≤ z.NE + 1, ∀ f < z.NF, cellPoly z e f = C α * cellPoly x e f + C β * cellPoly y e f

lemma legSeries_combination (m : ℕ) (α β : K) (a b : ℕ → K) :
    C α * legSeries m a + C β * legSeries m b = legSeries m fun n => α * a n + β * b n := by
  unfold legSeries
  rw [Finset.mul_sum, Finset.mul_sum, ← Finset.sum_add_distrib]
  apply Finset.sum_congr rfl
  intro n _
  simp only [map_add, map_mul]
  ring

lemma isCombination_iff (hb : s.Built lib p) {α β : K} {x y z : Sol K} (hx : Like x s) (hy : Like y s) (hz : Like z s) :
    IsCombination α β x y z ↔ LinVal s (p + 1) α β x.u.val y.u.val z.u.val := by
  unfold IsCombination LinVal cellPoly
  rw [hx.rows, hy.rows, hz.rows, hb.rows, hx.setup.NF, hy.setup.NF, hz.setup.NF, hz.setup.NE]
  constructor
  · intro h n hn e he f hf
    have := h e he f hf
    rw [legSeries_combination] at this
    exact legSeries_injective (p + 1) _ _ this n hn
  · intro h e he f hf
    rw [legSeries_combination]
    unfold legSeries
    apply Finset.sum_congr rfl
    intro n hn
    simp only [h n (Finset.mem_range.mp hn) e he f hf]

/-- **C74 (superposition).** Linear advection without limiting, with or without enhancement, any boundary names, any scheme: when
the initial data `z` are the combination `α x + β y` and the clocks agree, then after any number of iterations the three runs have
the same status, the same number of outputs with the same numbers, steps and times, and every output and the current
solution of `z` are the same combination of those of `x` and `y`. -/
theorem C74_superposition (hb : s.Built lib p) (hk : s.kw = Advection.physics) (deck : RkDeck K) (sch : Scheme K) (α β : K)
    (x y z : Sol K) (hx : Like x s) (hy : Like y s) (hz : Like z s) (hcomb : IsCombination α β x y z)
    (ht : x.t = z.t ∧ y.t = z.t) (hn : x.n = z.n ∧ y.n = z.n) (k : ℕ) :
    let X := sch.run ⟨residual, fun s => .ok s⟩ deck x k
    let Y := sch.run ⟨residual, fun s => .ok s⟩ deck y k
    let Z := sch.run ⟨residual, fun s => .ok s⟩ deck z k
    X.status = Z.status ∧ Y.status = Z.status ∧ X.sol.t = Z.sol.t ∧ Y.sol.t = Z.sol.t ∧ IsCombination α β X.sol Y.sol Z.sol ∧
    X.log.length = Z.log.length ∧ Y.log.length = Z.log.length ∧
    ∀ (i : ℕ) (a b c : OutRec K), X.log[i]? = some a → Y.log[i]? = some b → Z.log[i]? = some c →
      a.nout = c.nout ∧ b.nout = c.nout ∧ a.dt = c.dt ∧ b.dt = c.dt ∧ a.sol.t = c.sol.t ∧ b.sol.t = c.sol.t ∧
      IsCombination α β a.sol b.sol c.sol := by
  intro X Y Z
  have h0 : LinSol s (p + 1) α β x y z := ⟨hx, hy, hz, (isCombination_iff hb hx hy hz).mp hcomb⟩
  have h : LinLoop s (p + 1) α β X Y Z := LinLoop.run hb hk deck sch h0 ht hn k
  refine ⟨h.status.1, h.status.2, h.t.1, h.t.2, (isCombination_iff hb h.sol.lx h.sol.ly h.sol.lz).mpr h.sol.val,
    h.log.1, h.log.2.1, ?_⟩
  intro i a b c ha hb' hc
  have ho := h.log.2.2 i a b c ha hb' hc
  exact ⟨ho.nout.1, ho.nout.2, ho.dt.1, ho.dt.2, ho.t.1, ho.t.2, (isCombination_iff hb ho.sol.lx ho.sol.ly ho.sol.lz).mpr ho.sol.val⟩

/-- C74 on three-cell solutions of any order: the data `2 x - 3 y` for two different `x`, `y`, with rk5. -/
example (p : ℕ) (deck : RkDeck ℝ) (k : ℕ) :
    let x := Ex.solR p
    let y := (Ex.solR p).withVal fun n c => n + c ^ 3
    let z := (Ex.solR p).withVal fun n c => 2 * (Ex.solR p).u.val n c - 3 * (n + c ^ 3)
    let run := fun v => ((Scheme.classic (rk5.map (fun q : ℚ => (q : ℝ)))).run ⟨residual, fun s => .ok s⟩ deck v k).sol
    x.u.val 0 2 ≠ y.u.val 0 2 ∧ IsCombination 2 (-3) (run x) (run y) (run z) := by
  intro x y z run
  have hl : ∀ v, Like ((Ex.solR p).withVal v) (Ex.solR p) := fun v => ⟨by constructor <;> rfl, rfl, rfl⟩
  refine ⟨?_, ?_⟩
  · norm_num [x, y, Ex.solR, Sol.withVal]
  have h := C74_superposition (Ex.solR_built p) rfl deck (.classic (rk5.map (fun q : ℚ => (q : ℝ)))) 2 (-3) x y z
    (Like.refl _) (hl _) (hl _) ?_ ⟨rfl, rfl⟩ ⟨rfl, rfl⟩ k
  · exact h.2.2.2.2.1
  · rw [isCombination_iff (Ex.solR_built p) (Like.refl _) (hl _) (hl _)]
    intro n _ e _ f _
    simp only [Sol.withVal]
    ring

end Dg1d.Props
