import Verif.Model.Advection
import Verif.Model.Dg
import Verif.Model.Rk

/-! Concrete small objects over ℚ, used by the examples that show theorem hypotheses can be met. -/

namespace Dg1d.Ex

/-- Order 1 basis data with a rational two-point rule on [-1,1] (nodes ±1/2: not Gauss, only used where
the quadrature does not matter). -/
def basis1 : Basis ℚ :=
  { p := 1, Ns := 2, x := ⟨2, fun g => if g = 0 then -1/2 else 1/2⟩, w := ⟨2, fun _ => 1⟩, NG := 2
    phi := ⟨2, 2, fun g n => if n = 0 then 1 else if g = 0 then -1/2 else 1/2⟩
    dphiW := ⟨2, 2, fun n _ => if n = 1 then 1 else 0⟩
    psi := ⟨2, 2, fun r n => if r = 0 ∧ n = 1 then -1 else 1⟩
    m := ⟨2, fun n => if n = 0 then 2 else 2/3⟩
    minv := ⟨2, fun n => if n = 0 then 1/2 else 3/2⟩ }

/-- Two cells of width 1/2 on [0,1], order 1, periodic, linear advection, averages 1 and 3, slopes 0 and 1. -/
def sol2 : Sol ℚ :=
  { basis := basis1, kw := Advection.physics, t := 0, n := 0, NE := 2, NF := 1
    x := ⟨3, fun i => (i : ℚ) / 2⟩, xc := ⟨2, fun i => (2 * i + 1 : ℚ) / 4⟩, dx := 1/2
    u := ⟨2, 4, fun r c => if r = 0 then (if c = 1 then 1 else if c = 2 then 3 else 0)
      else if c = 2 then 1 else 0⟩
    scaledMinv := ⟨2, fun n => if n = 0 then 2 else 6⟩
    bcl := .lit "periodic", bcr := .lit "periodic", enhance := none, sensors := none }

/-- The DG residual without limiter. -/
def env : Env ℚ := ⟨residual, fun s => .ok s⟩

/-- Final time 1/4, three outputs (times 0, 1/8, 1/4), CFL 3/10: the CFL step is 1/20. -/
def deck : RkDeck ℚ := ⟨"", 1/4, 3, 3/10⟩

end Dg1d.Ex
