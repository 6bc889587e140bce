import Verif.Model.Solution

/-!
# dg1d/dg.py — the DG residual
-/

namespace Dg1d
variable {K : Type*}

/-- dg.py:69-71 `integrate_interior_flux`: `F = np.dot(D, F)`. -/
def integrateInteriorFlux [NonUnitalNonAssocSemiring K] (D F : Arr K) : Arr K := D.dot F

/-- dg.py:81-82: the edge flux matrix `Q`, even rows the difference, odd rows the sum of the two
adjacent interface fluxes. -/
def edgeFluxMatrix [Field K] (q : Vec K) (NF : ℕ) : ℕ → ℕ → K :=
  let qr := q.slice NF q.len          -- q[N_F:]
  let ql := q.slice 0 (-(NF : ℤ))     -- q[:-N_F]
  fun r c => if r % 2 = 0 then qr.val c - ql.val c else ql.val c + qr.val c

/-- dg.py:74-86 `add_interior_face_fluxes`: `F[:, N_F:-N_F] -= Q`. -/
def addInteriorFaceFluxes [Field K] (F : Arr K) (q : Vec K) (NF : ℕ) : Arr K :=
  let lo := pyIdx F.cols NF
  let hi := pyIdx F.cols (-(NF : ℤ))
  { F with val := fun r c =>
      if lo ≤ c ∧ c < hi then F.val r c - edgeFluxMatrix q NF r (c - lo) else F.val r c }

/-- dg.py:89-94 `inverse_mass_matrix_multiply`: `einsum('ij,i->ij', F, minv)`. -/
def inverseMassMatrixMultiply [Mul K] (F : Arr K) (minv : Vec K) : Arr K :=
  { F with val := fun r c => F.val r c * minv.val r }

/-- dg.py:57-58: the interface fluxes, `riemann(uf[1,:-N_F], uf[0,N_F:])`. -/
def interfaceFluxes (kw : Physics K) (uf : Arr K) (NF : ℕ) : Except PyErr (Vec K) :=
  kw.riemann ((uf.row 1).slice 0 (-(NF : ℤ))) ((uf.row 0).slice NF uf.cols)

/-- dg.py:31-66 `residual`. Returns the solution with its ghost cells filled (dg.py:42 mutates it)
and the residual array. -/
def residual [Field K] (s : Sol K) : Except PyErr (Sol K × Arr K) :=
  let s := s.applyBc
  let ug := s.collocate
  match s.evaluateFaces with
  | .error e => .error e
  | .ok uf =>
    let F := s.kw.interiorFlux ug
    let F := integrateInteriorFlux s.basis.dphiW F
    match interfaceFluxes s.kw uf s.NF with
    | .error e => .error e
    | .ok q =>
      let F := addInteriorFaceFluxes F q s.NF
      let F := inverseMassMatrixMultiply F s.scaledMinv
      .ok (s, F)

end Dg1d
