import Verif.Proofs.DgAdvection

/-! A concrete solution of any order over ℝ, and one of order 0 over ℚ, used by the examples. -/

open Polynomial Dg1d.Spec

namespace Dg1d.Ex

/-- Order `p`, three periodic cells of width 1/2, linear advection; coefficient `n` of cell `e` is `e² + n`. -/
noncomputable def solR (p : ℕ) : Sol ℝ :=
  { basis := Basis.init realGauss p, kw := Advection.physics, t := 0, n := 0, NE := 3, NF := 1
    x := ⟨4, fun i => (i : ℝ) / 2⟩, xc := ⟨3, fun i => (2 * i + 1 : ℝ) / 4⟩, dx := 1 / 2
    u := ⟨p + 1, 5, fun n e => (e : ℝ) ^ 2 + n⟩
    scaledMinv := ⟨p + 1, fun n => (2 * (n : ℝ) + 1) / (1 / 2)⟩
    bcl := .lit "periodic", bcr := .lit "periodic", enhance := none, sensors := none }

lemma solR_built (p : ℕ) : (solR p).Built realGauss p where
  nodes := (realGauss_ok (p + 1) (by omega)).1
  gauss := (realGauss_ok (p + 1) (by omega)).2.2
  basis := rfl
  NF := by norm_num [solR]
  NE := by norm_num [solR]
  rows := rfl
  cols := rfl
  dx := by norm_num [solR]
  minv := fun n _ => rfl
  enh := fun en h => by cases h

/-- Order at least 1; cell `e` holds the polynomial `2e + ξ`: a globally continuous straight line. -/
noncomputable def lineR (p : ℕ) : Sol ℝ :=
  (solR (p + 1)).withVal fun n e => if n = 0 then 2 * (e : ℝ) else if n = 1 then 1 else 0

lemma lineR_built (p : ℕ) : (lineR p).Built realGauss (p + 1) := (solR_built (p + 1)).congr (by constructor <;> rfl) rfl rfl

lemma lineR_cell (p : ℕ) {e : ℕ} (h1 : 1 ≤ e) (h2 : e ≤ 3) : cellPoly (lineR p).applyBc e 0 = C (2 * (e : ℝ)) + X := by
  have hb := lineR_built p
  unfold cellPoly
  rw [(applyBc_shape _).1, (applyBc_setup _).NF, hb.rows]
  have hv : ∀ r, (lineR p).applyBc.u.val r (e * (lineR p).NF + 0) = (lineR p).u.val r (e * (lineR p).NF + 0) := by
    intro r
    rw [applyBc_val hb.NF hb.NE hb.cols, bcCol_interior _ h1 h2 hb.NF]
  simp only [hv]
  unfold legSeries
  rw [Finset.sum_range_succ', Finset.sum_range_succ']
  simp [lineR, Sol.withVal, solR, legendre_zero, legendre_one]
  ring

/-- One-point Gauss rule over ℚ. -/
def gauss0 : GaussLib ℚ := fun n => (⟨n, fun _ => 0⟩, ⟨n, fun _ => 2⟩)

lemma gauss0_rule : IsGaussRule 1 (gauss0 1).1.val (gauss0 1).2.val := by
  refine ⟨fun i hi j hj _ => by omega, fun f hf => ?_⟩
  obtain ⟨c, rfl⟩ := exists_legSeries 2 f (by exact_mod_cast hf)
  have := intPoly_legSeries 2 c 0 (by omega)
  rw [legendre_zero, mul_one] at this
  rw [this]
  simp [Finset.sum_range_succ, legSeries, legendre_zero, legendre_one, gauss0]
  ring

/-- Order 0 on five periodic cells of width 1/2; cell averages 1, 4, 9, 16, 25. -/
def sol0 : Sol ℚ :=
  { basis := Basis.init gauss0 0, kw := Advection.physics, t := 0, n := 0, NE := 5, NF := 1
    x := ⟨6, fun i => (i : ℚ) / 2⟩, xc := ⟨5, fun i => (2 * i + 1 : ℚ) / 4⟩, dx := 1 / 2
    u := ⟨1, 7, fun _ e => (e : ℚ) ^ 2⟩
    scaledMinv := ⟨1, fun n => (2 * (n : ℚ) + 1) / (1 / 2)⟩
    bcl := .lit "periodic", bcr := .lit "periodic", enhance := none, sensors := none }

lemma sol0_built : sol0.Built gauss0 0 where
  nodes := rfl
  gauss := gauss0_rule
  basis := rfl
  NF := by decide
  NE := by decide
  rows := rfl
  cols := rfl
  dx := by norm_num [sol0]
  minv := fun n _ => rfl
  enh := fun en h => by cases h

/-- The residual of `sol0` as an explicit array (used to evaluate it). -/
def resOf (s : Sol ℚ) : Option (Arr ℚ) :=
  match residual s with
  | .ok (_, F) => some F
  | .error _ => none

end Dg1d.Ex
