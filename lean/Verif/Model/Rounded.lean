import Verif.Model.Dg
import Verif.Model.Rk
import Mathlib.Data.Real.Basic

/-!
# The advection solver in rounded arithmetic

`dg.residual` and one iteration of `rk.classic_rk` for linear advection without enhancement and without limiter, with the
result of every numpy operation rounded. Products of matrices (`np.dot`) are an arbitrary function with rows and columns as
arguments, because the order of the additions is up to the library. Shapes and index arithmetic are exact and as in
`Model/Dg.lean`, `Model/Rk.lean`. The tables of the solution object and the Butcher table are whatever is stored.
-/

namespace Dg1d.Rounded

/-- Rounded arithmetic: the rounding applied to the exact result of an elementwise operation (dg.py:81-94, rk.py:105,
solution.py:559), and the inner product of the first `n` entries computed by `np.dot` (solution.py:579, 591, dg.py:71). -/
structure Arith where
  rnd : ℝ → ℝ
  dot : ℕ → (ℕ → ℝ) → (ℕ → ℝ) → ℝ

variable (A : Arith)

/-- `np.dot(D, F)` for two matrices. solution.py:579, 591, dg.py:71. -/
def mdot (D F : Arr ℝ) : Arr ℝ :=
  { rows := D.rows, cols := F.cols, val := fun i j => A.dot D.cols (fun k => D.val i k) (fun k => F.val k j) }

/-- dg.py:81-82: the edge flux matrix. -/
def edgeFlux (q : Vec ℝ) (NF : ℕ) : ℕ → ℕ → ℝ :=
  let qr := q.slice NF q.len
  let ql := q.slice 0 (-(NF : ℤ))
  fun r c => if r % 2 = 0 then A.rnd (qr.val c - ql.val c) else A.rnd (ql.val c + qr.val c)

/-- dg.py:74-86 `add_interior_face_fluxes`. -/
def addFaces (F : Arr ℝ) (q : Vec ℝ) (NF : ℕ) : Arr ℝ :=
  let lo := pyIdx F.cols NF
  let hi := pyIdx F.cols (-(NF : ℤ))
  { F with val := fun r c => if lo ≤ c ∧ c < hi then A.rnd (F.val r c - edgeFlux A q NF r (c - lo)) else F.val r c }

/-- dg.py:89-94 `inverse_mass_matrix_multiply`. -/
def massInv (F : Arr ℝ) (minv : Vec ℝ) : Arr ℝ := { F with val := fun r c => A.rnd (F.val r c * minv.val r) }

/-- dg.py:31-66 `residual` for linear advection (the interior flux is the solution itself, advection_physics.py:29-31, the
interface flux the left value, advection_physics.py:22-24). Copies are exact. -/
def residual (s : Sol ℝ) : Arr ℝ :=
  let s := s.applyBc
  let ug := mdot A s.basis.phi s.u
  let uf := mdot A s.basis.psi s.u
  let F := mdot A s.basis.dphiW ug
  let q := (uf.row 1).slice 0 (-(s.NF : ℤ))
  massInv A (addFaces A F q s.NF) s.scaledMinv

/-- solution.py:556-559 `smart_axpy` on the array; the literal `1e-15` is rounded. -/
noncomputable def axpy (u : Arr ℝ) (a : ℝ) (x : Arr ℝ) : Arr ℝ :=
  if |a| > A.rnd (1 / 10 ^ 15) then { u with val := fun r c => A.rnd (u.val r c + A.rnd (a * x.val r c)) } else u

/-- rk.py:95-96. -/
noncomputable def accumulate (tab : Tableau ℝ) (k : ℕ) (incr : ℕ → Arr ℝ) (u : Arr ℝ) : Arr ℝ :=
  (List.range k).foldl (fun u j => axpy A u (tab.beta k j) (incr j)) u

/-- rk.py:105: `K[k] = dt * residual(uk)` at the stage value rk.py:94-96. -/
noncomputable def increment (tab : Tableau ℝ) (s : Sol ℝ) (dt : ℝ) (k : ℕ) (incr : ℕ → Arr ℝ) : Arr ℝ :=
  let F := residual A { s with u := accumulate A tab k incr s.u }
  { F with val := fun r c => A.rnd (dt * F.val r c) }

/-- rk.py:89-108: the stages from `k` on; `u` is the data of `solution`, `s` holds the previous step. -/
noncomputable def stages (tab : Tableau ℝ) (s : Sol ℝ) (dt : ℝ) : ℕ → List (ℝ × ℝ) → Arr ℝ → (ℕ → Arr ℝ) → Arr ℝ
  | _, [], u, _ => u
  | k, (c, _) :: rest, u, incr =>
    let incr := Function.update incr k (increment A tab s dt k incr)
    stages tab s dt (k + 1) rest (axpy A u c (incr k)) incr

/-- rk.py:88-113: one iteration of the main loop with the step `dt`, `apply_bc` included. (The clock is `Model/FloatClock.lean`;
the residual of linear advection does not read it.) -/
noncomputable def step (tab : Tableau ℝ) (dt : ℝ) (s : Sol ℝ) : Sol ℝ :=
  ({ s with u := stages A tab s dt 0 (tab.coeffs.zip tab.alphas) s.u fun _ => Arr.zeros s.u.rows s.u.cols } : Sol ℝ).applyBc

/-- rk.py:79-124: `k` iterations with the steps `dt 0, dt 1, …`. -/
noncomputable def run (tab : Tableau ℝ) (dt : ℕ → ℝ) (s : Sol ℝ) : ℕ → Sol ℝ
  | 0 => s
  | k + 1 => step A tab (dt k) (run tab dt s k)

/-- Arithmetic without rounding: the arithmetic of dg.py:31-94, rk.py:89-113 as modelled elsewhere. -/
def exact : Arith := ⟨id, fun n a b => ∑ i ∈ Finset.range n, a i * b i⟩

/-- Inner products summed from left to right, every product and sum rounded: one order `np.dot` may use.
solution.py:579, 591, dg.py:71. -/
def leftToRight (rnd : ℝ → ℝ) : ℕ → (ℕ → ℝ) → (ℕ → ℝ) → ℝ
  | 0, _, _ => 0
  | n + 1, a, b => rnd (leftToRight rnd n a b + rnd (a n * b n))

end Dg1d.Rounded
