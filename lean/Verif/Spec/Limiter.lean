import Verif.Spec.Legendre
import Mathlib.Data.Nat.Factorial.Basic

/-! # Hierarchical reconstruction (specification)

Y. Liu, C.-W. Shu, E. Tadmor, M. Zhang, SIAM J. Numer. Anal. 45 (2007): non-oscillatory hierarchical reconstruction.
Cells have width 2 in the local coordinate; `UL`, `UC`, `UR` are the polynomials of the left, centre and right cell,
each in its own local coordinate, `V` is the reconstructed polynomial of the centre cell. -/

open Polynomial

namespace Dg1d.Spec
variable {K : Type*} [Field K]

/-- The minmod function: 0 unless both arguments have the same strict sign, else the one of smaller magnitude. -/
def minmod [LinearOrder K] (a b : K) : K :=
  if 0 < a ∧ 0 < b then min a b else if a < 0 ∧ b < 0 then max a b else 0

/-- The part of `V` of degree greater than `m` (`V` of degree at most `p`). -/
noncomputable def highPart (p m : ℕ) (V : K[X]) : K[X] := ∑ n ∈ Finset.Ico (m + 1) (p + 1), monomial n (V.coeff n)

/-- Average over the cell `[a, a+2]` (in the coordinate of the centre cell) of what is left of the `(m-1)`-th derivative
of the cell polynomial `U` (in its own coordinate) after subtracting the reconstructed higher order terms. -/
noncomputable def linearAverage (p m : ℕ) (V U : K[X]) (a : K) : K :=
  (intPoly (derivative^[m - 1] U) - intBetween a (a + 2) (derivative^[m - 1] (highPart p m V))) / 2

/-- `V` is the hierarchical reconstruction of the centre cell. -/
structure IsHR [LinearOrder K] (p : ℕ) (UL UC UR V : K[X]) : Prop where
  degree : V.degree < ((p + 1 : ℕ) : WithBot ℕ)
  mean : intPoly V = intPoly UC
  slope : ∀ m, 1 ≤ m → m ≤ p → V.coeff m * (m.factorial : K) =
    minmod ((linearAverage p m V UC (-1) - linearAverage p m V UL (-3)) / 2)
      ((linearAverage p m V UR 1 - linearAverage p m V UC (-1)) / 2)

end Dg1d.Spec
