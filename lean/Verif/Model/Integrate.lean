import Verif.Model.RkCoeffs

/-!
# dg1d/rk.py — `integrate`
-/

namespace Dg1d

/-- rk.py:19-54 `integrate`: the scheme chosen by the deck string (the unrecognised case also prints
a message). -/
noncomputable def schemeFor (rk : String) : Scheme ℝ :=
  if rk = "low_storage_rk4" then .low
  else .classic <|
    if rk = "rk3" then rk3.map (↑)
    else if rk = "rk4" then rk4.map (↑)
    else if rk = "rk5" then rk5.map (↑)
    else if rk = "rk6" then rk6
    else if rk = "rk8" then rk8.map (↑)
    else if rk = "rk10" then rk10.map (↑)
    else if rk = "rk12" then rk12.map (↑)
    else if rk = "rk14" then rk14.map (↑)
    else rk4.map (↑)

/-- rk.py:19-54 `integrate(solution, deck, dgsolver, limiter)`: state after `k` main-loop iterations. -/
noncomputable def integrate (env : Env ℝ) (deck : RkDeck ℝ) (sol : Sol ℝ) (k : ℕ) : LoopState ℝ :=
  (schemeFor deck.rk).run env deck sol k

end Dg1d
