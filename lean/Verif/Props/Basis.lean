import Verif.Proofs.Gauss

/-!
# Properties C22–C25: basis tables, mass matrix, projection, polynomial helpers

`leggauss` enters through its contract only (`lib` returns `p+1` nodes/weights, where stated forming a Gauss
rule); `realGauss` in Proofs/Gauss.lean shows the contract is satisfiable for every order.
-/

open Polynomial

namespace Dg1d.Props
open Spec

section Tables
variable {K : Type*} [Field K] [CharZero K]

/-- **C22.** Every table of `Basis(order)` holds values of Legendre polynomials. -/
theorem C22_basis_tables (lib : GaussLib K) (p : ℕ) (h1 : (lib (p + 1)).1.len = p + 1) :
    let B := Basis.init lib p
    B.p = p ∧ B.Ns = p + 1 ∧ B.NG = p + 1 ∧ B.x = (lib (p + 1)).1 ∧ B.w = (lib (p + 1)).2 ∧
    (B.phi.rows = p + 1 ∧ B.phi.cols = p + 1 ∧ ∀ g < p + 1, ∀ n < p + 1,
      B.phi.val g n = (legendre K n).eval (B.x.val g)) ∧
    (B.dphiW.rows = p + 1 ∧ B.dphiW.cols = p + 1 ∧ ∀ n < p + 1, ∀ g < p + 1,
      B.dphiW.val n g = B.w.val g * (derivative (legendre K n)).eval (B.x.val g)) ∧
    (B.psi.rows = 2 ∧ B.psi.cols = p + 1 ∧ ∀ n < p + 1,
      B.psi.val 0 n = (legendre K n).eval (-1) ∧ B.psi.val 1 n = (legendre K n).eval 1) := by
  refine ⟨rfl, rfl, h1, rfl, rfl, ⟨h1, rfl, ?_⟩, ⟨h1, rfl, ?_⟩, rfl, rfl, ?_⟩
  · intro g _ n _
    exact basisValue_spec n _
  · intro n _ g _
    change basisDeriv n _ * _ = _
    rw [basisDeriv_spec, mul_comm]; rfl
  · intro n _
    refine ⟨?_, ?_⟩
    · rw [legendre_eval_neg_one]
      change (if 0 = 0 ∧ n % 2 = 1 then (-1 : K) else 1) = _
      rcases Nat.even_or_odd n with h | h
      · rw [if_neg (by rw [Nat.even_iff] at h; omega), h.neg_one_pow]
      · rw [if_pos ⟨rfl, Nat.odd_iff.mp h⟩, h.neg_one_pow]
    · rw [legendre_eval_one]
      change (if 1 = 0 ∧ n % 2 = 1 then (-1 : K) else 1) = _
      simp

/-- **C22, numpy routines.** Clenshaw summation is evaluation of the Legendre series and the derivative
recursion is differentiation, for coefficient vectors of any length and content. -/
theorem C22_numpy_routines (c : Vec K) (hc : 0 < c.len) (x : K) :
    legval x c = (legSeries c.len c.val).eval x ∧
    legval x (legder c) = (derivative (legSeries c.len c.val)).eval x := by
  have h := legder_spec c hc
  refine ⟨?_, ?_⟩
  · rw [legval_spec x c hc, legSeries_eval]
  · rw [legval_spec x _ h.1, ← h.2, legSeries_eval]

/-- **C23 (any field).** The mass matrix is the Gram matrix of the basis; so is its quadrature version. -/
theorem C23_mass_matrix (lib : GaussLib K) (p : ℕ) :
    let B := Basis.init lib p
    B.m.len = p + 1 ∧ B.minv.len = p + 1 ∧
    (∀ n < p + 1, B.m.val n * B.minv.val n = 1) ∧
    (∀ m n, n < p + 1 → intPoly (legendre K m * legendre K n) = if m = n then B.m.val n else 0) ∧
    (IsGaussRule (p + 1) (lib (p + 1)).1.val (lib (p + 1)).2.val → ∀ m < p + 1, ∀ n < p + 1,
      ∑ g ∈ Finset.range (p + 1), B.w.val g * (B.phi.val g m * B.phi.val g n) = if m = n then B.m.val n else 0) := by
  refine ⟨rfl, rfl, ?_, ?_, ?_⟩
  · intro n _
    have := norm_ne_zero (K := K) n
    change 2 / (2 * (n : K) + 1) * ((2 * (n : K) + 1) / 2) = 1
    field_simp
  · intro m n _
    split
    · rename_i h; subst h; exact legendre_norm m
    · rename_i h; exact legendre_orthogonal h
  · intro hG m hm n hn
    rw [← show (if m = n then 2 / (2 * (n : K) + 1) else 0) = if m = n then (Basis.init lib p).m.val n else 0 from rfl,
      ← gauss_orthogonal hG hm hn]
    apply Finset.sum_congr rfl
    intro g _
    change _ * (basisValue m _ * basisValue n _) = _
    rw [basisValue_spec, basisValue_spec]; rfl

end Tables

/-- **C23.** Over the reals, with the integral of calculus. -/
theorem C23_mass_matrix_integral (lib : GaussLib ℝ) (p m n : ℕ) (hn : n < p + 1) :
    ∫ x in (-1 : ℝ)..1, (legendre ℝ m).eval x * (legendre ℝ n).eval x =
      if m = n then (Basis.init lib p).m.val n else 0 := by
  rw [← (C23_mass_matrix lib p).2.2.2.1 m n hn, ← integral_eq_intPoly]
  simp only [eval_mul]

section Projection
variable {K : Type*} [Field K] [LinearOrder K] [IsStrictOrderedRing K]

/-- The point of cell `[a,b]` with local coordinate `ξ`. -/
def physPoint (a b ξ : K) : K := (a + b) / 2 + (b - a) / 2 * ξ

/-- **C24.** If `f` has the requested component at the nodes of the cell, `projection` returns `p+1`
coefficients; the polynomial with these coefficients is the only one of degree `≤ p` through the nodal values;
coefficient `n` is the quadrature inner product, coefficient 0 the quadrature mean. -/
theorem C24_projection (lib : GaussLib K) (p : ℕ) (hx : (lib (p + 1)).1.len = p + 1)
    (hG : IsGaussRule (p + 1) (lib (p + 1)).1.val (lib (p + 1)).2.val) (a b : K) (f : K → List K) (comp : ℕ)
    (v : K → K) (hv : ∀ g < p + 1, (f (physPoint a b ((lib (p + 1)).1.val g)))[comp]? =
      some (v (physPoint a b ((lib (p + 1)).1.val g)))) :
    ∃ c : Vec K, (Basis.init lib p).projection a b f comp = .ok c ∧ c.len = p + 1 ∧
      (∀ g < p + 1, (legSeries (p + 1) c.val).eval ((lib (p + 1)).1.val g) =
        v (physPoint a b ((lib (p + 1)).1.val g))) ∧
      (∀ q : K[X], q.degree < ((p + 1 : ℕ) : WithBot ℕ) → (∀ g < p + 1, q.eval ((lib (p + 1)).1.val g) =
        v (physPoint a b ((lib (p + 1)).1.val g))) → q = legSeries (p + 1) c.val) ∧
      (∀ n < p + 1, c.val n = (2 * (n : K) + 1) / 2 * ∑ g ∈ Finset.range (p + 1), (lib (p + 1)).2.val g *
        v (physPoint a b ((lib (p + 1)).1.val g)) * (legendre K n).eval ((lib (p + 1)).1.val g)) ∧
      c.val 0 = (∑ g ∈ Finset.range (p + 1), (lib (p + 1)).2.val g *
        v (physPoint a b ((lib (p + 1)).1.val g))) / 2 ∧
      ∀ q : K[X], q.degree < ((p + 1 : ℕ) : WithBot ℕ) → (∀ g < p + 1,
        v (physPoint a b ((lib (p + 1)).1.val g)) = q.eval (physPoint a b ((lib (p + 1)).1.val g))) →
        ∀ ξ, (legSeries (p + 1) c.val).eval ξ = q.eval (physPoint a b ξ) := by
  set x := (lib (p + 1)).1.val with hxdef
  set w := (lib (p + 1)).2.val with hwdef
  have hnode : ∀ g, ((Basis.init lib p).shiftedXgauss a b).val g = physPoint a b (x g) := by
    intro g
    change 1 / 2 * (b - a) * x g + 1 / 2 * (b + a) = _
    unfold physPoint; ring
  have hlen : ((Basis.init lib p).shiftedXgauss a b).len = p + 1 := hx
  let y : ℕ → K := fun g => (f (((Basis.init lib p).shiftedXgauss a b).val g)).getD comp 0
  have hy : ∀ g < p + 1, y g = v (physPoint a b (x g)) := by
    intro g hg
    have := hv g hg
    rw [← hnode] at this
    change (f (((Basis.init lib p).shiftedXgauss a b).val g)).getD comp 0 = _
    rw [List.getD_eq_getElem?_getD, this, hnode]; rfl
  have heval : evalComponent f ((Basis.init lib p).shiftedXgauss a b) comp = .ok y := by
    unfold evalComponent
    rw [if_pos]
    intro g hg
    rw [hlen, List.mem_range] at hg
    rw [hnode]
    exact (List.getElem?_eq_some_iff.mp (hv g hg)).1
  let c : Vec K := legfit (lib (p + 1)).1 y p
  have hint : ∀ g < p + 1, (legSeries (p + 1) c.val).eval (x g) = v (physPoint a b (x g)) := by
    intro g hg
    rw [← hy g hg]
    exact legfit_interp _ y p hx hG.distinct g hg
  have huniq : ∀ q : K[X], q.degree < ((p + 1 : ℕ) : WithBot ℕ) →
      (∀ g < p + 1, q.eval (x g) = v (physPoint a b (x g))) → q = legSeries (p + 1) c.val := by
    intro q hq hqv
    apply Polynomial.eq_of_degrees_lt_of_eval_index_eq (s := Finset.range (p + 1)) (v := x)
    · intro i hi j hj h
      exact hG.distinct i (by simpa using hi) j (by simpa using hj) h
    · simpa using hq
    · simpa using legSeries_degree (p + 1) c.val
    · intro g hg
      rw [hqv g (by simpa using hg), hint g (by simpa using hg)]
  have hcoef : ∀ n < p + 1, c.val n = (2 * (n : K) + 1) / 2 * ∑ g ∈ Finset.range (p + 1), w g *
        v (physPoint a b (x g)) * (legendre K n).eval (x g) := by
    intro n hn
    exact (quadCoef_of_values hG c.val (fun g => v (physPoint a b (x g))) hint hn).symm
  refine ⟨c, ?_, rfl, hint, huniq, hcoef, ?_, ?_⟩
  · unfold Basis.projection
    rw [heval]; rfl
  · rw [hcoef 0 (by omega)]
    simp [legendre_zero]
    ring
  · intro q hq hqv ξ
    have hcomp : (q.comp (C ((a + b) / 2) + C ((b - a) / 2) * X)).degree < ((p + 1 : ℕ) : WithBot ℕ) := by
      rw [degree_lt_iff_coeff_zero]
      intro m hm
      apply coeff_eq_zero_of_natDegree_lt
      have h1 : (C ((a + b) / 2) + C ((b - a) / 2) * X : K[X]).natDegree ≤ 1 := by
        compute_degree
      have h2 : q.natDegree < p + 1 := by
        by_cases h0 : q = 0
        · rw [h0]; simp
        · exact (natDegree_lt_iff_degree_lt h0).mpr hq
      calc _ = q.natDegree * _ := natDegree_comp
        _ ≤ q.natDegree * 1 := Nat.mul_le_mul_left _ h1
        _ < m := by omega
    rw [← huniq _ hcomp]
    · simp [physPoint]
    · intro g hg
      rw [hqv g hg]
      simp [physPoint]

/-- **C24, error branch.** If `f` has no such component at some node, `projection` raises IndexError. -/
theorem C24_projection_missing_component (lib : GaussLib K) (p : ℕ) (hx : (lib (p + 1)).1.len = p + 1)
    (a b : K) (f : K → List K) (comp : ℕ) (g : ℕ) (hg : g < p + 1)
    (hv : (f (physPoint a b ((lib (p + 1)).1.val g)))[comp]? = none) :
    (Basis.init lib p).projection a b f comp = .error .indexError := by
  unfold Basis.projection evalComponent
  rw [if_neg]
  intro h
  have := h g (by rw [List.mem_range]; exact hx ▸ hg)
  rw [List.getElem?_eq_none_iff] at hv
  have hnode : ((Basis.init lib p).shiftedXgauss a b).val g = physPoint a b ((lib (p + 1)).1.val g) := by
    change 1 / 2 * (b - a) * (lib (p + 1)).1.val g + 1 / 2 * (b + a) = _
    unfold physPoint; ring
  rw [hnode] at this
  omega

end Projection

/-- **C25.** `shift_legendre_polynomial(l, s)` is `x ↦ l(x+s)`. -/
theorem C25_shift {K : Type*} [Field K] [CharZero K] (l : K[X]) (s x : K) :
    (shiftLegendrePolynomial l s).eval x = l.eval (x + s) := by
  unfold shiftLegendrePolynomial castWindow mapparms
  simp only [eval_comp, eval_add, eval_mul, eval_C, eval_X]
  congr 1
  have h : (1 - s - (-1 - s) : K) = 2 := by ring
  rw [h]
  ring

/-- **C25.** `integrate_legendre_product(l1, l2)` is the integral of the product over `[-1,1]`. -/
theorem C25_integrate_product (l1 l2 : ℝ[X]) :
    integrateLegendreProduct l1 l2 = ∫ x in (-1 : ℝ)..1, l1.eval x * l2.eval x := by
  have := integral_eq_intPoly (l1 * l2)
  simp only [eval_mul] at this
  rw [this]; rfl

/-! ### Concrete cases -/

/-- Two-point rule over ℝ, three-point tables: orders 1 and 2 of an actual basis. -/
example : (Basis.init realGauss 2).phi.val 1 2 = (legendre ℝ 2).eval ((Basis.init realGauss 2).x.val 1) :=
  ((C22_basis_tables realGauss 2 (realGauss_ok 3 (by norm_num)).1).2.2.2.2.2.1).2.2 1 (by norm_num) 2 (by norm_num)

/-- P₂(x) = (3x²-1)/2, computed by the model's Clenshaw recursion. -/
example : basisValue 2 (1 / 3 : ℚ) = (3 * (1 / 3) ^ 2 - 1) / 2 := by decide +kernel
/-- P₃'(x) = (15x²-3)/2. -/
example : basisDeriv 3 (1 / 5 : ℚ) = (15 * (1 / 5) ^ 2 - 3) / 2 := by decide +kernel

/-- numpy routines on `1 + 2P₁ + 3P₂ + 4P₃` at 1/2. -/
example : legval (1 / 2 : ℚ) ⟨4, fun i => (i : ℚ) + 1⟩ = 1 + 2 * (1 / 2) + 3 * (-1 / 8) + 4 * (-7 / 16) := by
  decide +kernel

example : ∫ x in (-1 : ℝ)..1, (legendre ℝ 2).eval x * (legendre ℝ 2).eval x = 2 / 5 := by
  rw [C23_mass_matrix_integral realGauss 2 2 2 (by norm_num), if_pos rfl]
  change 2 / (2 * ((2 : ℕ) : ℝ) + 1) = 2 / 5
  norm_num

/-- Order 2 projection of `x²` on `[1,3]`: reproduced at every point, e.g. the cell's right end. -/
example : ∃ c : Vec ℝ, (Basis.init realGauss 2).projection 1 3 (fun x => [x ^ 2]) 0 = .ok c ∧
    (legSeries 3 c.val).eval 1 = 9 := by
  obtain ⟨c, h1, _, _, _, _, _, h7⟩ := C24_projection realGauss 2 (realGauss_ok 3 (by norm_num)).1
    (realGauss_ok 3 (by norm_num)).2.2 1 3 (fun x => [x ^ 2]) 0 (fun x => x ^ 2) (fun g _ => rfl)
  refine ⟨c, h1, ?_⟩
  rw [h7 (X ^ 2) (by rw [degree_X_pow]; norm_num) (fun g _ => by simp)]
  simp [physPoint]; norm_num

example : (Basis.init realGauss 1).projection 0 1 (fun x => [x ^ 2]) 1 = .error .indexError :=
  C24_projection_missing_component realGauss 1 (realGauss_ok 2 (by norm_num)).1 0 1 _ 1 0 (by norm_num) rfl

example : (shiftLegendrePolynomial (X ^ 2 : ℚ[X]) 2).eval 1 = 9 := by rw [C25_shift]; norm_num

example : integrateLegendreProduct (legendre ℝ 1) (legendre ℝ 2) = 0 := by
  rw [C25_integrate_product, C23_mass_matrix_integral realGauss 2 1 2 (by norm_num)]; simp

end Dg1d.Props
