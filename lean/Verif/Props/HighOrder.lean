import Verif.Props.SuperConvergence
import Verif.Props.NearOrder

/-!
# The schemes with rounded tables on linear problems: order, and cell averages of advected waves (C105)

rk8, rk10, rk12 and rk14 come from tables with 18 to 60 digits. On linear problems they have the order of their names up to rounding, so
C103 holds for them down to a floor proportional to the rounding. The convergence study of the project runs with rk12.
-/

set_option linter.unusedSectionVars false

open Polynomial

namespace Dg1d.Props
open Spec Stability Decay

/-! ### The tables -/

lemma near_linear_rational (c a : List ℚ) (rows : List (List ℚ)) (h : Square c (padRows rows)) (q : ℕ) (d : ℚ)
    (hd : ∀ m < q, |(c.zipWith (· * ·) (weightList c.length (padRows rows) (chain m))).sum * ((chain m).density : ℚ) - 1| ≤ d) {eps : ℝ} (he : d ≤ eps) :
    NearLinearOrder ((Tableau.ofRows c a rows).map (fun q : ℚ => (q : ℝ))).coeffs ((Tableau.ofRows c a rows).map (fun q : ℚ => (q : ℝ))).beta q eps := by
  intro m hm
  rw [chain_size] at hm
  have h2 := weight_sum (Rat.castHom ℝ) c (padRows rows) h _ (fun k _ j _ => hbeta_cast rows k j c a) (chain m)
  have e : ((Tableau.ofRows c a rows).map (fun q : ℚ => (q : ℝ))).coeffs = c.map (Rat.castHom ℝ) := rfl
  rw [e, h2]
  have h3 := (Rat.cast_le (K := ℝ)).mpr (hd m (by omega))
  rw [Rat.cast_abs, Rat.cast_sub, Rat.cast_one] at h3
  simp only [Rat.coe_castHom]
  linarith

lemma not_near_linear_rational (c a : List ℚ) (rows : List (List ℚ)) (h : Square c (padRows rows)) (q : ℕ) (d : ℚ)
    (hd : d < |(c.zipWith (· * ·) (weightList c.length (padRows rows) (chain q))).sum * ((chain q).density : ℚ) - 1|) {eps : ℝ} (he : eps ≤ d) :
    ¬ NearLinearOrder ((Tableau.ofRows c a rows).map (fun q : ℚ => (q : ℝ))).coeffs ((Tableau.ofRows c a rows).map (fun q : ℚ => (q : ℝ))).beta (q + 1) eps := by
  intro hn
  have h1 := hn q (by rw [chain_size])
  have h2 := weight_sum (Rat.castHom ℝ) c (padRows rows) h _ (fun k _ j _ => hbeta_cast rows k j c a) (chain q)
  have e : ((Tableau.ofRows c a rows).map (fun q : ℚ => (q : ℝ))).coeffs = c.map (Rat.castHom ℝ) := rfl
  rw [e, h2] at h1
  have h3 := (Rat.cast_lt (K := ℝ)).mpr hd
  rw [Rat.cast_abs, Rat.cast_sub, Rat.cast_one] at h3
  simp only [Rat.coe_castHom] at h1
  linarith

lemma moderate_rational {c a : List ℚ} {rows : List (List ℚ)} {n : ℕ} {W : ℚ}
    (he : ∀ k < ((Tableau.ofRows c a rows).map (fun q : ℚ => (q : ℝ))).coeffs.length, ∀ j < ((Tableau.ofRows c a rows).map (fun q : ℚ => (q : ℝ))).coeffs.length, k ≤ j →
      ((Tableau.ofRows c a rows).map (fun q : ℚ => (q : ℝ))).beta k j = 0)
    (hn : c.length ≤ n) (hc : ∀ x ∈ c, |x| ≤ W) (hr : ∀ l ∈ rows, ∀ x ∈ l, |x| ≤ W) (hW : 0 ≤ W) :
    Moderate ((Tableau.ofRows c a rows).map (fun q : ℚ => (q : ℝ))).coeffs ((Tableau.ofRows c a rows).map (fun q : ℚ => (q : ℝ))).beta n (W : ℝ) := by
  have hget : ∀ (l : List ℚ) (k : ℕ), (∀ x ∈ l, |x| ≤ W) → |l.getD k 0| ≤ W := by
    intro l k h
    rw [List.getD_eq_getElem?_getD]
    cases hk : l[k]? with
    | none => simpa using hW
    | some x => exact h x (List.mem_of_getElem? hk)
  have e : ((Tableau.ofRows c a rows).map (fun q : ℚ => (q : ℝ))).coeffs = c.map (fun q : ℚ => (q : ℝ)) := rfl
  refine ⟨by rw [e, List.length_map]; exact hn, he, fun k _ => ?_, fun k _ j _ => ?_⟩
  · have h1 : (c.map fun q : ℚ => (q : ℝ)).getD k 0 = ((c.getD k 0 : ℚ) : ℝ) := by
      rw [List.getD_eq_getElem?_getD, List.getD_eq_getElem?_getD, List.getElem?_map]
      cases c[k]? <;> simp
    rw [e, h1, ← Rat.cast_abs]
    exact_mod_cast hget c k hc
  · show |((((rows.getD k []).getD j 0 : ℚ)) : ℝ)| ≤ _
    rw [← Rat.cast_abs]
    refine Rat.cast_le.mpr (hget _ j fun x hx => ?_)
    rw [List.getD_eq_getElem?_getD] at hx
    cases hk : rows[k]? with
    | none => rw [hk] at hx; simp at hx
    | some l => rw [hk] at hx; exact hr l (List.mem_of_getElem? hk) x hx

/-- **C105 (order on linear problems).** rk8, rk10, rk12 and rk14 satisfy the conditions of linear problems up to the order of their names within 1e-16, 1e-56,
1e-56 and 1e-51. -/
theorem C105_linear_order (rk : String) (q : ℕ) (eps : ℝ) (h : (rk, q, eps) ∈ [("rk8", 8, (1 / 10 ^ 16 : ℝ)), ("rk10", 10, 1 / 10 ^ 56), ("rk12", 12, 1 / 10 ^ 56), ("rk14", 14, 1 / 10 ^ 51)]) :
    NearLinearOrder (tableOf rk).coeffs (tableOf rk).beta q eps := by
  simp only [List.mem_cons, List.not_mem_nil, or_false, Prod.mk.injEq] at h
  rcases h with ⟨rfl, rfl, rfl⟩ | ⟨rfl, rfl, rfl⟩ | ⟨rfl, rfl, rfl⟩ | ⟨rfl, rfl, rfl⟩
  · have e : tableOf "rk8" = rk8.map (fun q : ℚ => (q : ℝ)) := by simp [tableOf, schemeFor]
    rw [e]
    exact near_linear_rational rk8Coeffs rk8Alphas rk8Betas ⟨by decide +kernel, by decide +kernel⟩ 8 (1 / 10 ^ 16) (by decide +kernel) (by norm_num)
  · have e : tableOf "rk10" = rk10.map (fun q : ℚ => (q : ℝ)) := by simp [tableOf, schemeFor]
    rw [e]
    exact near_linear_rational rk10Coeffs rk10Alphas rk10Betas ⟨by decide +kernel, by decide +kernel⟩ 10 (1 / 10 ^ 56) (by decide +kernel) (by norm_num)
  · have e : tableOf "rk12" = rk12.map (fun q : ℚ => (q : ℝ)) := by simp [tableOf, schemeFor]
    rw [e]
    exact near_linear_rational rk12Coeffs rk12Alphas rk12Betas ⟨by decide +kernel, by decide +kernel⟩ 12 (1 / 10 ^ 56) (by decide +kernel) (by norm_num)
  · have e : tableOf "rk14" = rk14.map (fun q : ℚ => (q : ℝ)) := by simp [tableOf, schemeFor]
    rw [e]
    exact near_linear_rational rk14Coeffs rk14Alphas rk14Betas ⟨by decide +kernel, by decide +kernel⟩ 14 (1 / 10 ^ 51) (by decide +kernel) (by norm_num)

/-- **C105 (no higher order).** On linear problems the next condition fails by more than 1/1000, 42, 6 and 400000. -/
theorem C105_linear_sharp (rk : String) (q : ℕ) (d : ℝ) (h : (rk, q, d) ∈ [("rk8", 8, (1 / 1000 : ℝ)), ("rk10", 10, 42), ("rk12", 12, 6), ("rk14", 14, 400000)]) :
    ¬ NearLinearOrder (tableOf rk).coeffs (tableOf rk).beta (q + 1) d := by
  simp only [List.mem_cons, List.not_mem_nil, or_false, Prod.mk.injEq] at h
  rcases h with ⟨rfl, rfl, rfl⟩ | ⟨rfl, rfl, rfl⟩ | ⟨rfl, rfl, rfl⟩ | ⟨rfl, rfl, rfl⟩
  · have e : tableOf "rk8" = rk8.map (fun q : ℚ => (q : ℝ)) := by simp [tableOf, schemeFor]
    rw [e]
    exact not_near_linear_rational rk8Coeffs rk8Alphas rk8Betas ⟨by decide +kernel, by decide +kernel⟩ 8 (1 / 1000) (by decide +kernel) (by norm_num)
  · have e : tableOf "rk10" = rk10.map (fun q : ℚ => (q : ℝ)) := by simp [tableOf, schemeFor]
    rw [e]
    exact not_near_linear_rational rk10Coeffs rk10Alphas rk10Betas ⟨by decide +kernel, by decide +kernel⟩ 10 42 (by decide +kernel) (by norm_num)
  · have e : tableOf "rk12" = rk12.map (fun q : ℚ => (q : ℝ)) := by simp [tableOf, schemeFor]
    rw [e]
    exact not_near_linear_rational rk12Coeffs rk12Alphas rk12Betas ⟨by decide +kernel, by decide +kernel⟩ 12 6 (by decide +kernel) (by norm_num)
  · have e : tableOf "rk14" = rk14.map (fun q : ℚ => (q : ℝ)) := by simp [tableOf, schemeFor]
    rw [e]
    exact not_near_linear_rational rk14Coeffs rk14Alphas rk14Betas ⟨by decide +kernel, by decide +kernel⟩ 14 400000 (by decide +kernel) (by norm_num)

/-- **C105 (size of the tables).** All four have at most 35 stages and entries of at most 2000. -/
theorem C105_moderate (rk : String) (h : rk ∈ ["rk8", "rk10", "rk12", "rk14"]) : Moderate (tableOf rk).coeffs (tableOf rk).beta 35 2000 := by
  have he := tableOf_explicit rk
  simp only [List.mem_cons, List.not_mem_nil, or_false] at h
  rcases h with rfl | rfl | rfl | rfl
  · have e : tableOf "rk8" = (Tableau.ofRows rk8Coeffs rk8Alphas rk8Betas).map (fun q : ℚ => (q : ℝ)) := by simp [tableOf, schemeFor, rk8]
    rw [e] at he ⊢
    exact_mod_cast moderate_rational he (W := 2000) (by decide +kernel) (by decide +kernel) (by decide +kernel) (by norm_num)
  · have e : tableOf "rk10" = (Tableau.ofRows rk10Coeffs rk10Alphas rk10Betas).map (fun q : ℚ => (q : ℝ)) := by simp [tableOf, schemeFor, rk10]
    rw [e] at he ⊢
    exact_mod_cast moderate_rational he (W := 2000) (by decide +kernel) (by decide +kernel) (by decide +kernel) (by norm_num)
  · have e : tableOf "rk12" = (Tableau.ofRows rk12Coeffs rk12Alphas rk12Betas).map (fun q : ℚ => (q : ℝ)) := by simp [tableOf, schemeFor, rk12]
    rw [e] at he ⊢
    exact_mod_cast moderate_rational he (W := 2000) (by decide +kernel) (by decide +kernel) (by decide +kernel) (by norm_num)
  · have e : tableOf "rk14" = (Tableau.ofRows rk14Coeffs rk14Alphas rk14Betas).map (fun q : ℚ => (q : ℝ)) := by simp [tableOf, schemeFor, rk14]
    rw [e] at he ⊢
    exact_mod_cast moderate_rational he (W := 2000) (by decide +kernel) (by decide +kernel) (by decide +kernel) (by norm_num)

/-- **C105 (what the conditions mean).** A step of an explicit method on `u' = A u` is a polynomial in `h A`; the conditions hold within `eps` exactly when its
coefficients up to degree `q` are those of the exponential within the relative error `eps`. -/
theorem C105_linear_step {b : List ℝ} {beta : ℕ → ℕ → ℝ} (he : ∀ k < b.length, ∀ j < b.length, k ≤ j → beta k j = 0) : ∃ c : ℕ → ℝ, c 0 = 1 ∧
    (∀ {V : Type} [AddCommGroup V] [Module ℝ V] (A : V →ₗ[ℝ] V) (h : ℝ) (u : V), rkStep b beta A h u = ∑ m ∈ Finset.range (b.length + 1), (h ^ m * c m) • (A ^ m) u) ∧
    ∀ q eps, 0 ≤ eps → (NearLinearOrder b beta q eps ↔ ∀ m ≤ q, |c m * (m.factorial : ℝ) - 1| ≤ eps) := by
  refine ⟨stepWeight b beta, rfl, fun A h u => rkStep_linear b beta A h u, fun q eps heps => ⟨fun h m hm => ?_, fun h m hm => ?_⟩⟩
  · cases m with
    | zero => simpa [stepWeight] using heps
    | succ m =>
      have := h m (by rw [chain_size]; exact hm)
      rwa [chain_sum he] at this
  · rw [chain_sum he]
    rw [chain_size] at hm
    exact h (m + 1) hm

/-- All order conditions include those of linear problems. -/
lemma NearOrder.linear {b : List ℝ} {beta : ℕ → ℕ → ℝ} {q : ℕ} {eps : ℝ} (h : NearOrder b beta q eps) : NearLinearOrder b beta q eps := fun m hm => h (chain m) hm

section
variable {lib : GaussLib ℝ}

/-- **C105 (averages).** C103 for every table, down to its rounding. For every order `p`, order `q`, number of stages `n` and size `W` of the entries there
are a bound `c₀` for the CFL number and a rate `δ`, and for all trigonometric polynomials one constant `C`, such that for every deck string whose table
has at most that size and satisfies the linear conditions up to `q` within `eps ≤ 1/2`, on all meshes fine enough, at all outputs, in all cells, the
error of the average is at most `C (dx^(2p+1) + dt^q + exp (-δ t/dx) + eps)`. -/
theorem C105_averages (hlib : lib.Ok) (p q n : ℕ) (hq : 1 ≤ q) (W : ℝ) : ∃ c₀ δ : ℝ, 0 < c₀ ∧ 0 < δ ∧
    ∀ (A P T : ℝ) (S : Finset ℤ) (β : ℤ → ℂ), 0 < P → 0 ≤ T → ∃ (C : ℝ) (N₀ : ℕ), 0 ≤ C ∧
      ∀ (rk : String) (eps : ℝ), Moderate (tableOf rk).coeffs (tableOf rk).beta n W → 0 ≤ eps → eps ≤ 1 / 2 → NearLinearOrder (tableOf rk).coeffs (tableOf rk).beta q eps →
      ∀ (s : Sol ℝ), s.Built lib p → s.kw = Advection.physics → s.enhance = none → s.bcl = .lit "periodic" → s.bcr = .lit "periodic" →
      IsUniformMesh A (A + P) s.NE s.x.val s.xc.val s.dx → N₀ ≤ s.NE → ∀ f < s.NF,
      (∀ e, 1 ≤ e → e ≤ s.NE → ∀ g < p + 1, (cellPoly s e f).eval ((lib (p + 1)).1.val g) = trigPoly S β P (physPoint (s.x.val (e - 1)) (s.x.val e) ((lib (p + 1)).1.val g))) →
      ∀ (lim : Sol ℝ → Except PyErr (Sol ℝ)), (∀ a, lim a = .ok a) → ∀ (deck : RkDeck ℝ), deck.rk = rk →
      0 ≤ deck.cfl → deck.cfl ≤ c₀ → s.t ≤ deck.finaltime → deck.finaltime ≤ s.t + T →
      ∀ k, ∀ o ∈ (integrate ⟨residual, lim⟩ deck s k).log, ∀ e, 1 ≤ e → e ≤ s.NE →
        |cellMean o.sol e f - average (fun x => trigPoly S β P (x - (o.sol.t - s.t))) (s.x.val (e - 1)) (s.x.val e)| ≤
          C * (s.dx ^ (2 * p + 1) + (s.dx * deck.cfl / (2 * p + 1)) ^ q + Real.exp (-(δ * ((o.sol.t - s.t) / s.dx))) + eps) := by
  obtain ⟨c₀, δ, hc₀, hδ, hmain⟩ := averages_run hlib p hq n W
  refine ⟨c₀, δ, hc₀, hδ, fun A P T S β hP hT => ?_⟩
  obtain ⟨C, N₀, hC, key⟩ := hmain A P T S β hP hT
  refine ⟨C, N₀, hC, ?_⟩
  intro rk eps hmod he0 he1 hnear s hb hk hen hl hr hm hNN f hf hinit lim hlim deck hdk hcfl0 hcfl ht hTd k o hok e h1 h2
  exact key (tableOf rk) (tableOf_fine rk) hmod eps he0 he1 hnear s hb hk hen hl hr hm hNN f hf hinit lim hlim deck hcfl0 hcfl ht hTd k o
    (by rw [schemeFor_run_log, ← hdk]; exact hok) e h1 h2

open Text

/-- **C105 from the deck.** The sine wave of the program with rk8, rk10, rk12 or rk14, one set of constants for each order `q`: all cell averages in all outputs
up to time `T` are within `C (N^-(2p+1) + N^-q + exp (-δ N t) + eps)` of those of `sin (2π (x - t))`, `eps` being the rounding of the table; at the start they
are within `C N^-(2p+2)`. -/
theorem C105_deck (hlib : lib.Ok) (p q : ℕ) (hq : 1 ≤ q) : ∃ c₀ δ : ℝ, 0 < c₀ ∧ 0 < δ ∧
    ∀ T : ℝ, 0 ≤ T → ∃ (C : ℝ) (N₀ : ℕ), 0 ≤ C ∧
      ∀ (rk : String) (eps : ℝ), rk ∈ ["rk8", "rk10", "rk12", "rk14"] → 0 ≤ eps → eps ≤ 1 / 2 → NearLinearOrder (tableOf rk).coeffs (tableOf rk).beta q eps →
      ∀ (N : ℕ) (ft : FloatText ℝ) (junk : ℕ → ℝ) (d : Deck ℝ), N₀ ≤ N → ValidDeck lib ft d p N IC.sinewave → d.system ≠ "euler".toList →
      d.rk = rk.toList → d.limiting ≠ "adaptive_hr".toList → d.enhance = [] → 0 ≤ d.cfl → d.cfl ≤ c₀ → 0 ≤ d.finaltime → d.finaltime ≤ T →
      ∃ s lm, start lib ft junk d = .ok (s, lm) ∧
        (∀ e, 1 ≤ e → e ≤ N → |cellMean s e 0 - average (fun x => Real.sin (2 * Real.pi * x)) (s.x.val (e - 1)) (s.x.val e)| ≤ C / N ^ (2 * p + 2)) ∧
        ∀ k, ∀ o ∈ (integrate ⟨residual, lm.limit⟩ d.rkDeck s k).log, ∀ e, 1 ≤ e → e ≤ N →
          |cellMean o.sol e 0 - average (fun x => Real.sin (2 * Real.pi * (x - o.sol.t))) (s.x.val (e - 1)) (s.x.val e)| ≤
            C * (1 / N ^ (2 * p + 1) + 1 / N ^ q + Real.exp (-(δ * N * o.sol.t)) + eps) := by
  obtain ⟨c₀, δ, hc₀, hδ, hmain⟩ := C105_averages hlib p q 35 hq 2000
  refine ⟨c₀, δ / 2, hc₀, by positivity, fun T hT => ?_⟩
  obtain ⟨C, N₀, hC, key⟩ := hmain (-1) 2 T {2} (fun _ => -Complex.I) (by norm_num) hT
  obtain ⟨C', N₀', hC', h⟩ := averages_deck hlib p q (T := T) (δ := δ) hc₀ hC N₀
  exact ⟨C', N₀', hC', fun rk eps hrk he0 he1 hnear => h rk eps he0 (key rk eps (C105_moderate rk hrk) he0 he1 hnear)⟩

/-- **C105, what the study measures.** Half the root mean square over the cells of the differences of the averages at the end and at the start (C85), after a
whole number of periods, with rk8, rk10, rk12 or rk14: `C (N^-min(2p+1, q) + eps)`. -/
theorem C105_study (hlib : lib.Ok) (p q : ℕ) (hq : 1 ≤ q) : ∃ c₀ : ℝ, 0 < c₀ ∧
    ∀ j : ℕ, 0 < j → ∃ (C : ℝ) (N₀ : ℕ), 0 ≤ C ∧
      ∀ (rk : String) (eps : ℝ), rk ∈ ["rk8", "rk10", "rk12", "rk14"] → 0 ≤ eps → eps ≤ 1 / 2 → NearLinearOrder (tableOf rk).coeffs (tableOf rk).beta q eps →
      ∀ (N : ℕ) (ft : FloatText ℝ) (junk : ℕ → ℝ) (d : Deck ℝ), N₀ ≤ N → ValidDeck lib ft d p N IC.sinewave → d.system ≠ "euler".toList →
      d.rk = rk.toList → d.limiting ≠ "adaptive_hr".toList → d.enhance = [] → 0 ≤ d.cfl → d.cfl ≤ c₀ → d.finaltime = j →
      ∃ s lm, start lib ft junk d = .ok (s, lm) ∧ ∀ k, ∀ o ∈ (integrate ⟨residual, lm.limit⟩ d.rkDeck s k).log, o.sol.t = j →
        1 / 2 * Real.sqrt ((∑ e ∈ Finset.range N, (cellMean s (e + 1) 0 - cellMean o.sol (e + 1) 0) ^ 2) / N) ≤ C * (1 / N ^ min (2 * p + 1) q + eps) := by
  obtain ⟨c₀, δ, hc₀, hδ, hmain⟩ := C105_deck hlib p q hq
  refine ⟨c₀, hc₀, fun j hj => ?_⟩
  have hj1 : (1 : ℝ) ≤ j := by exact_mod_cast hj
  obtain ⟨C, N₀, hC, key⟩ := hmain j (by linarith)
  set r := min (2 * p + 1) q with hr
  obtain ⟨K, hK, hexp⟩ := exp_decay (show 0 < δ * j by positivity) r
  refine ⟨C * (2 + K), N₀, by positivity, ?_⟩
  intro rk eps hrk he0 he1 hnear N ft junk d hNN hd hsys hrkd hlim hen hcfl0 hcfl htf
  obtain ⟨s, lm, hst, hini, hout⟩ := key rk eps hrk he0 he1 hnear N ft junk d hNN hd hsys hrkd hlim hen hcfl0 hcfl (by rw [htf]; linarith) htf.le
  refine ⟨s, lm, hst, fun k o ho ht => ?_⟩
  have hN1 : (1 : ℝ) ≤ N := by exact_mod_cast hd.cells
  have hN0 : (0 : ℝ) < N := by linarith
  have hpow : ∀ j, r ≤ j → 1 / (N : ℝ) ^ j ≤ 1 / N ^ r := fun j hj => one_div_le_one_div_of_le (by positivity) (pow_le_pow_right₀ hN1 hj)
  have hp : 0 ≤ 1 / (N : ℝ) ^ r := by positivity
  set E := C * (2 + K) * (1 / (N : ℝ) ^ r + eps) with hE
  have hE0 : 0 ≤ E := by positivity
  have hperiod : (fun x : ℝ => Real.sin (2 * Real.pi * (x - o.sol.t))) = fun x => Real.sin (2 * Real.pi * x) := by
    funext x
    rw [ht, show 2 * Real.pi * (x - (j : ℝ)) = 2 * Real.pi * x - (j : ℕ) * (2 * Real.pi) by ring, Real.sin_sub_nat_mul_two_pi]
  have hexp' : Real.exp (-(δ * N * o.sol.t)) ≤ K * (1 / N ^ r) := by
    have h := hexp N hN0
    rw [ht, show δ * N * (j : ℝ) = δ * j * N by ring, mul_one_div]
    exact h
  have hcell : ∀ e ∈ Finset.range N, (cellMean s (e + 1) 0 - cellMean o.sol (e + 1) 0) ^ 2 ≤ (2 * E) ^ 2 := by
    intro e he
    have he := Finset.mem_range.mp he
    have h1 : _ ≤ E := (hini (e + 1) (by omega) (by omega)).trans (by
      rw [div_eq_mul_one_div, hE, mul_assoc]
      refine mul_le_mul_of_nonneg_left ((hpow _ (by omega)).trans ?_) hC
      nlinarith [mul_nonneg hK hp, mul_nonneg hK he0])
    have h2 : _ ≤ E := (hout k o ho (e + 1) (by omega) (by omega)).trans (by
      rw [hE, mul_assoc C (2 + K)]
      refine mul_le_mul_of_nonneg_left ?_ hC
      have h4 := hpow (2 * p + 1) (min_le_left _ _)
      have h5 := hpow q (min_le_right _ _)
      nlinarith [mul_nonneg hK he0])
    rw [hperiod] at h2
    set I := average (fun x => Real.sin (2 * Real.pi * x)) (s.x.val (e + 1 - 1)) (s.x.val (e + 1))
    rw [← sq_abs]
    refine pow_le_pow_left₀ (abs_nonneg _) ?_ 2
    rw [abs_le] at h1 h2 ⊢
    constructor <;> linarith [h1.1, h1.2, h2.1, h2.2]
  have hsum : (∑ e ∈ Finset.range N, (cellMean s (e + 1) 0 - cellMean o.sol (e + 1) 0) ^ 2) / N ≤ (2 * E) ^ 2 := by
    rw [div_le_iff₀ hN0]
    refine (Finset.sum_le_sum hcell).trans ?_
    rw [Finset.sum_const, Finset.card_range, nsmul_eq_mul, mul_comm]
  have := (Real.sqrt_le_sqrt hsum).trans_eq (Real.sqrt_sq (by positivity))
  linarith

end

/-! ### The hypotheses can be met -/

section
open Text

/-- The sine wave on `N` cells, order 5, with rk12, a given CFL number and final time 1, no limiter. -/
noncomputable def Ex.highDeck (N : ℕ) (cfl : ℝ) : Deck ℝ :=
  { Deck.init with ic := "sinewave".toList ++ ' ' :: natText N, order := 5, rk := "rk12".toList, cfl := cfl, finaltime := 1 }

lemma Ex.high_valid {N : ℕ} (hN : 0 < N) (cfl : ℝ) : ValidDeck realGauss Ex.decReal (Ex.highDeck N cfl) 5 N IC.sinewave where
  order := rfl
  cells := hN
  line := ⟨"sinewave".toList, natText N, [], by
      show split ("sinewave".toList ++ ' ' :: natText N) = _
      rw [split_cons (by decide) (by decide) (by decide), split_word (natText_ne_nil N) fun c hc => by obtain ⟨d, hd, rfl⟩ := mem_natText hc; exact (digitChar_facts hd).2.2.1], intOf_natText N, by
      unfold setupOf; rw [if_pos rfl], fun h => absurd h (by show ("advection".toList : Str) ≠ "euler".toList; decide)⟩
  enhance := C67_no_enhancement _ _
  limiter := fun h => absurd (show ([] : Str) = "adaptive_hr".toList from h) (by decide)

/-- The study's scheme with polynomials of degree 5: order 11 down to 1e-56. -/
example : ∃ c₀ : ℝ, 0 < c₀ ∧ ∃ (C : ℝ) (N₀ : ℕ), ∀ N : ℕ, 0 < N → N₀ ≤ N → ∃ s lm, start realGauss Ex.decReal (fun _ => 0) (Ex.highDeck N c₀) = .ok (s, lm) ∧
    ∀ k, ∀ o ∈ (integrate ⟨residual, lm.limit⟩ (Ex.highDeck N c₀).rkDeck s k).log, o.sol.t = 1 →
      1 / 2 * Real.sqrt ((∑ e ∈ Finset.range N, (cellMean s (e + 1) 0 - cellMean o.sol (e + 1) 0) ^ 2) / N) ≤ C * (1 / N ^ 11 + 1 / 10 ^ 56) := by
  obtain ⟨c₀, hc₀, h⟩ := C105_study realGauss_ok 5 12 (by norm_num)
  obtain ⟨C, N₀, -, h⟩ := h 1 (by norm_num)
  refine ⟨c₀, hc₀, C, N₀, fun N hN hle => ?_⟩
  obtain ⟨s, lm, hst, h⟩ := h "rk12" (1 / 10 ^ 56) (by simp) (by positivity) (by norm_num) (C105_linear_order "rk12" 12 _ (by simp)) N Ex.decReal (fun _ => 0) (Ex.highDeck N c₀) hle
    (Ex.high_valid hN c₀) (show ("advection".toList : Str) ≠ "euler".toList by decide) rfl (show ([] : Str) ≠ "adaptive_hr".toList by decide) rfl hc₀.le le_rfl (by show (1 : ℝ) = (1 : ℕ); norm_num)
  exact ⟨s, lm, hst, fun k o ho ht => h k o ho (by rw [ht]; norm_num)⟩

/-- The same runs meet the hypotheses of `C105_deck`, hence of `C105_averages`. -/
example : ∃ c₀ δ : ℝ, 0 < c₀ ∧ 0 < δ ∧ ∃ (C : ℝ) (N₀ : ℕ), ∀ N : ℕ, 0 < N → N₀ ≤ N → ∃ s lm, start realGauss Ex.decReal (fun _ => 0) (Ex.highDeck N c₀) = .ok (s, lm) ∧
    ∀ k, ∀ o ∈ (integrate ⟨residual, lm.limit⟩ (Ex.highDeck N c₀).rkDeck s k).log, ∀ e, 1 ≤ e → e ≤ N →
      |cellMean o.sol e 0 - average (fun x => Real.sin (2 * Real.pi * (x - o.sol.t))) (s.x.val (e - 1)) (s.x.val e)| ≤
        C * (1 / N ^ 11 + 1 / N ^ 12 + Real.exp (-(δ * N * o.sol.t)) + 1 / 10 ^ 56) := by
  obtain ⟨c₀, δ, hc₀, hδ, h⟩ := C105_deck realGauss_ok 5 12 (by norm_num)
  obtain ⟨C, N₀, -, h⟩ := h 1 (by norm_num)
  refine ⟨c₀, δ, hc₀, hδ, C, N₀, fun N hN hle => ?_⟩
  obtain ⟨s, lm, hst, -, h⟩ := h "rk12" (1 / 10 ^ 56) (by simp) (by positivity) (by norm_num) (C105_linear_order "rk12" 12 _ (by simp)) N Ex.decReal (fun _ => 0) (Ex.highDeck N c₀) hle
    (Ex.high_valid hN c₀) (show ("advection".toList : Str) ≠ "euler".toList by decide) rfl (show ([] : Str) ≠ "adaptive_hr".toList by decide) rfl hc₀.le le_rfl (show (0 : ℝ) ≤ 1 by norm_num) (show (1 : ℝ) ≤ 1 by norm_num)
  exact ⟨s, lm, hst, h⟩

/-- A step of rk12 on a rotation: the coefficients of the exponential up to degree 12 within 1e-56. -/
example : ∃ c : ℕ → ℝ, (∀ m ≤ 12, |c m * (m.factorial : ℝ) - 1| ≤ 1 / 10 ^ 56) ∧ ∀ (h : ℝ) (u : ℝ × ℝ),
    rkStep (tableOf "rk12").coeffs (tableOf "rk12").beta (((-LinearMap.snd ℝ ℝ ℝ).prod (LinearMap.fst ℝ ℝ ℝ) : ℝ × ℝ →ₗ[ℝ] ℝ × ℝ)) h u =
      ∑ m ∈ Finset.range ((tableOf "rk12").coeffs.length + 1), (h ^ m * c m) • (((-LinearMap.snd ℝ ℝ ℝ).prod (LinearMap.fst ℝ ℝ ℝ) : ℝ × ℝ →ₗ[ℝ] ℝ × ℝ) ^ m) u := by
  obtain ⟨c, -, h1, h2⟩ := C105_linear_step (tableOf_explicit "rk12")
  exact ⟨c, (h2 12 _ (by positivity)).mp (C105_linear_order "rk12" 12 _ (by simp)), fun h u => h1 _ h u⟩

end

end Dg1d.Props
