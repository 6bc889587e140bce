import Verif.Model.Basis
import Verif.Spec.Legendre
import Mathlib.Algebra.Order.Field.Basic
import Mathlib.Data.Nat.Factorial.Basic

/-!
# dg1d/basis.py — construction of the basis, projection, polynomial helpers

numpy's Legendre routines are modelled by the algorithms numpy uses (Clenshaw summation, the downward
derivative recursion) on coefficient arrays; `Legendre` *objects* of basis.py:143-168 are modelled by the
polynomial they denote. `leggauss` is a parameter (contract: `GaussLib`).
-/

open Polynomial

namespace Dg1d
variable {K : Type*} [Field K]

/-- numpy.polynomial.legendre.legval, the loop `for i in range(3, len(c)+1)`. With `k+2` the value of
`nd` after the decrement, the entry read is `c[-i] = c[k]`. Called at basis.py:68, 72. -/
def clenshaw (x : K) (c : ℕ → K) : ℕ → K → K → K × K
  | 0, c0, c1 => (c0, c1)
  | k + 1, c0, c1 =>
    let nd : K := (k : K) + 2
    clenshaw x c k (c k - c1 * ((nd - 1) / nd)) (c0 + c1 * x * ((2 * nd - 1) / nd))

/-- numpy.polynomial.legendre.legval(x, c). Called at basis.py:68, 72. -/
def legval (x : K) (c : Vec K) : K :=
  if c.len = 1 then c.val 0 + 0 * x
  else
    let r := clenshaw x c.val (c.len - 2) (c.val (c.len - 2)) (c.val (c.len - 1))
    r.1 + r.2 * x

/-- numpy.polynomial.legendre.legder, the loop `for j in range(n, 2, -1)` on `(c, der)`. Behind `l.deriv()`, basis.py:65. -/
def legderLoop : ℕ → (ℕ → K) → (ℕ → K) → (ℕ → K) × (ℕ → K)
  | j + 3, c, der =>
    legderLoop (j + 2) (Function.update c (j + 1) (c (j + 1) + c (j + 3)))
      (Function.update der (j + 2) ((2 * ((j : K) + 3) - 1) * c (j + 3)))
  | _, c, der => (c, der)

/-- numpy.polynomial.legendre.legder(c) (first derivative). Behind `l.deriv()`, basis.py:65. -/
def legder (c : Vec K) : Vec K :=
  if c.len ≤ 1 then ⟨1, fun _ => 0⟩
  else
    let n := c.len - 1
    let r := legderLoop n c.val (fun _ => 0)
    let der := if n > 1 then Function.update r.2 1 (3 * r.1 2) else r.2
    ⟨n, Function.update der 0 (r.1 1)⟩

/-- numpy `Legendre.basis(n).coef`: `[0]*n + [1]`. basis.py:64. -/
def legBasisCoef (n : ℕ) : Vec K := ⟨n + 1, fun i => if i = n then 1 else 0⟩

/-- basis.py:68-72, one column/row: values of mode `n` at the nodes. -/
def basisValue (n : ℕ) (x : K) : K := legval x (legBasisCoef n)

/-- basis.py:65, 72: derivative of mode `n` at a node. -/
def basisDeriv (n : ℕ) (x : K) : K := legval x (legder (legBasisCoef n))

/-- `leg.leggauss` as a function of the number of nodes: (nodes, weights). basis.py:36. -/
abbrev GaussLib (K : Type*) := ℕ → Vec K × Vec K

/-- Contract of `leggauss(n)`: `n` nodes and weights forming a Gauss rule. basis.py:36. -/
def GaussLib.Ok (lib : GaussLib K) : Prop :=
  ∀ n, 0 < n → (lib n).1.len = n ∧ (lib n).2.len = n ∧ Spec.IsGaussRule n (lib n).1.val (lib n).2.val

/-- basis.py:21-46 `Basis.__init__(order)`, with 49-74 `evaluate_basis_gauss`, 77-85
`evaluate_basis_edges`, 88-96 `mass_matrix`. -/
def Basis.init (lib : GaussLib K) (order : ℕ) : Basis K :=
  let Ns := order + 1
  let x := (lib (order + 1)).1
  let w := (lib (order + 1)).2
  { p := order
    Ns := Ns
    x := x
    w := w
    NG := x.len
    phi := ⟨x.len, Ns, fun g n => basisValue n (x.val g)⟩
    dphiW := ⟨x.len, Ns, fun n g => basisDeriv n (x.val g) * w.val g⟩
    psi := ⟨2, Ns, fun r n => if r = 0 ∧ n % 2 = 1 then -1 else 1⟩
    m := ⟨Ns, fun n => 2 / (2 * (n : K) + 1)⟩
    minv := ⟨Ns, fun n => (2 * (n : K) + 1) / 2⟩ }

/-- basis.py:137-139 `shifted_xgauss(a, b)`. -/
def Basis.shiftedXgauss (B : Basis K) (a b : K) : Vec K :=
  ⟨B.x.len, fun g => 1 / 2 * (b - a) * B.x.val g + 1 / 2 * (b + a)⟩

section Fit
variable [LinearOrder K]

/-- The least-squares functional that `legfit` minimises. basis.py:132. -/
def fitError (x : Vec K) (y : ℕ → K) (deg : ℕ) (c : ℕ → K) : K :=
  ∑ g ∈ Finset.range x.len, (∑ n ∈ Finset.range (deg + 1), c n * basisValue n (x.val g) - y g) ^ 2

/-- Contract of numpy.polynomial.legendre.legfit(x, y, deg): coefficients minimising the sum of squares. basis.py:132. -/
def IsFit (x : Vec K) (y : ℕ → K) (deg : ℕ) (c : ℕ → K) : Prop :=
  ∀ d : ℕ → K, fitError x y deg c ≤ fitError x y deg d

open Classical in
/-- numpy.polynomial.legendre.legfit(x, y, deg): some minimiser (0 entries past the degree). basis.py:132. -/
noncomputable def legfit (x : Vec K) (y : ℕ → K) (deg : ℕ) : Vec K :=
  ⟨deg + 1, if h : ∃ c, IsFit x y deg c then h.choose else fun _ => 0⟩

/-- basis.py:117-119: `fgauss[g] = f(xg)[component]`. `f` returns the list of fields; a missing
component is an `IndexError`. -/
def evalComponent (f : K → List K) (xs : Vec K) (component : ℕ) : Except PyErr (ℕ → K) :=
  if ∀ g ∈ List.range xs.len, component < (f (xs.val g)).length then
    .ok fun g => (f (xs.val g)).getD component 0
  else .error .indexError

/-- basis.py:99-134 `projection(a, b, f, component)`. -/
noncomputable def Basis.projection (B : Basis K) (a b : K) (f : K → List K) (component : ℕ) :
    Except PyErr (Vec K) :=
  match evalComponent f (B.shiftedXgauss a b) component with
  | .error e => .error e
  | .ok y => .ok (legfit B.x y B.p)

end Fit

/-! ### basis.py:143-168, on the polynomial a numpy `Legendre` object denotes -/

/-- numpy `polyutils.mapparms(old, new)`: the affine map `off + scl*x` from one interval to another. Behind basis.py:143-154. -/
def mapparms (old new : K × K) : K × K :=
  let oldlen := old.2 - old.1
  let newlen := new.2 - new.1
  ((old.2 * new.1 - old.1 * new.2) / oldlen, newlen / oldlen)

/-- numpy `L.cast(l, window=win)` followed by `.coef`: the polynomial in the window variable, for a
series with domain and window `[-1, 1]`; the window variable `y` stands for `x = off + scl*y`. Behind basis.py:143-154. -/
noncomputable def castWindow (l : K[X]) (win : K × K) : K[X] :=
  let os := mapparms win (-1, 1)
  l.comp (C os.1 + C os.2 * X)

/-- basis.py:143-154 `shift_legendre_polynomial(l, shift)`: `l.window - shift`, then a series with the
default window. -/
noncomputable def shiftLegendrePolynomial (l : K[X]) (shift : K) : K[X] :=
  castWindow l (-1 - shift, 1 - shift)

/-- basis.py:158-168 `integrate_legendre_product(l1, l2)`: `integ()` is the antiderivative. -/
noncomputable def integrateLegendreProduct (l1 l2 : K[X]) : K :=
  let imul := Spec.antideriv (l1 * l2)
  imul.eval 1 - imul.eval (-1)

end Dg1d
