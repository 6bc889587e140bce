import Verif.Proofs.AverageRun

/-!
# Linear advection: the cell averages converge with order 2p+1 (C103)

The `L²` errors are of order `p+1` (C78). The convergence study of the project compares cell averages and finds the order `2p+1`.
-/

set_option linter.unusedSectionVars false

open Polynomial

namespace Dg1d.Props
open Spec Stability Decay

section
variable {lib : GaussLib ℝ}

/-- **C103 (averages).** For every order `p` and each of the schemes of order `q` (3 to 6) there are a bound `c₀` for the CFL number and a rate
`δ` such that for all trigonometric polynomials there is one constant `C` with which, on all meshes fine enough, at all outputs, in all
cells, the average of the computed solution differs from that of the exact one by at most
`C (dx^(2p+1) + dt^q + exp (-δ t/dx))`. -/
theorem C103_averages (hlib : lib.Ok) (p : ℕ) (rk : String) (hrk : rk ∈ ["rk3", "rk4", "low_storage_rk4", "rk5", "rk6"]) : ∃ c₀ δ : ℝ, 0 < c₀ ∧ 0 < δ ∧
    ∀ (A P T : ℝ) (S : Finset ℤ) (β : ℤ → ℂ), 0 < P → 0 ≤ T → ∃ (C : ℝ) (N₀ : ℕ), 0 ≤ C ∧
      ∀ (s : Sol ℝ), s.Built lib p → s.kw = Advection.physics → s.enhance = none → s.bcl = .lit "periodic" → s.bcr = .lit "periodic" →
      IsUniformMesh A (A + P) s.NE s.x.val s.xc.val s.dx → N₀ ≤ s.NE → ∀ f < s.NF,
      (∀ e, 1 ≤ e → e ≤ s.NE → ∀ g < p + 1, (cellPoly s e f).eval ((lib (p + 1)).1.val g) = trigPoly S β P (physPoint (s.x.val (e - 1)) (s.x.val e) ((lib (p + 1)).1.val g))) →
      ∀ (lim : Sol ℝ → Except PyErr (Sol ℝ)), (∀ a, lim a = .ok a) → ∀ (deck : RkDeck ℝ), deck.rk = rk →
      0 ≤ deck.cfl → deck.cfl ≤ c₀ → s.t ≤ deck.finaltime → deck.finaltime ≤ s.t + T →
      ∀ k, ∀ o ∈ (integrate ⟨residual, lim⟩ deck s k).log, ∀ e, 1 ≤ e → e ≤ s.NE →
        |cellMean o.sol e f - average (fun x => trigPoly S β P (x - (o.sol.t - s.t))) (s.x.val (e - 1)) (s.x.val e)| ≤
          C * (s.dx ^ (2 * p + 1) + (s.dx * deck.cfl / (2 * p + 1)) ^ promisedOrder rk + Real.exp (-(δ * ((o.sol.t - s.t) / s.dx)))) := by
  obtain ⟨ho, hq3⟩ := C08_order rk hrk
  obtain ⟨W, hW⟩ := exists_moderate (tableOf_explicit rk)
  obtain ⟨c₀, δ, hc₀, hδ, hmain⟩ := averages_run hlib p (show 1 ≤ promisedOrder rk by omega) (tableOf rk).coeffs.length W
  refine ⟨c₀, δ, hc₀, hδ, fun A P T S β hP hT => ?_⟩
  obtain ⟨C, N₀, hC, key⟩ := hmain A P T S β hP hT
  refine ⟨C, N₀, hC, ?_⟩
  intro s hb hk hen hl hr hm hNN f hf hinit lim hlim deck hdk hcfl0 hcfl ht hTd k o hok e h1 h2
  have h := key (tableOf rk) (tableOf_fine rk) hW 0 le_rfl (by norm_num) (near_of_order ho) s hb hk hen hl hr hm hNN f hf hinit lim hlim deck hcfl0 hcfl ht hTd k o
    (by rw [schemeFor_run_log, ← hdk]; exact hok) e h1 h2
  rwa [add_zero] at h

/-- **C103 (the start).** The averages of the interpolant at the Gauss nodes differ from those of the function by at most a constant times
`dx^(2p+2)`. -/
theorem C103_start (hlib : lib.Ok) (p : ℕ) (A P : ℝ) (S : Finset ℤ) (β : ℤ → ℂ) (hP : 0 < P) : ∃ (C : ℝ) (N₀ : ℕ), 0 ≤ C ∧
      ∀ (s : Sol ℝ), s.Built lib p → IsUniformMesh A (A + P) s.NE s.x.val s.xc.val s.dx → N₀ ≤ s.NE → ∀ f,
      (∀ e, 1 ≤ e → e ≤ s.NE → ∀ g < p + 1, (cellPoly s e f).eval ((lib (p + 1)).1.val g) = trigPoly S β P (physPoint (s.x.val (e - 1)) (s.x.val e) ((lib (p + 1)).1.val g))) →
      ∀ e, 1 ≤ e → e ≤ s.NE → |cellMean s e f - average (trigPoly S β P) (s.x.val (e - 1)) (s.x.val e)| ≤ C * s.dx ^ (2 * p + 2) := by
  obtain ⟨-, -, hG⟩ := hlib (p + 1) (Nat.succ_pos p)
  obtain ⟨K, hK, hquad⟩ := quad_exp hG 1 (k := 0) (by simp) (by omega)
  obtain ⟨N₀, hN₀⟩ := exists_nat_gt (∑ m ∈ S, |2 * Real.pi * m|)
  refine ⟨∑ m ∈ S, ‖β m‖ * (K * |2 * Real.pi * m / P| ^ (2 * p + 2)), N₀, Finset.sum_nonneg fun m _ => by positivity, ?_⟩
  intro s hb hm hNN f hinit e h1 h2
  have hNE : (0 : ℝ) < s.NE := by exact_mod_cast hb.NE
  have hdx : 0 < s.dx := by rw [hm.width]; exact div_pos (by linarith) hNE
  have hlen : s.NE * s.dx = P := by rw [hm.width]; field_simp; ring
  have hw0 := start_waves hG hb hm S β hinit 0 e h1 h2
  have hav := average_trig S β P 0 (s.x.val (e - 1)) (s.x.val e)
  simp only [sub_zero] at hav
  rw [Fin.val_zero] at hw0
  rw [cellMean_eq (by rw [hb.rows]; omega), hw0, hav, mesh_edges hm _ h2, mesh_edges hm _ (by omega), Nat.cast_sub h1, Nat.cast_one, ← Finset.sum_sub_distrib, Finset.sum_mul]
  refine (Finset.abs_sum_le_sum_abs _ _).trans (Finset.sum_le_sum fun m hmS => ?_)
  have haw := average_wave (β m) (2 * Real.pi * m / P) 0 A s.dx hdx e
  simp only [sub_zero, mul_zero, neg_zero, Complex.ofReal_zero, zero_mul, Complex.exp_zero, one_mul] at haw
  rw [haw, ← Complex.sub_re]
  beta_reduce
  rw [← mul_sub, Pi.smul_apply, smul_eq_mul, ← mul_sub]
  refine (Complex.abs_re_le_norm _).trans ?_
  rw [norm_mul, norm_pow, Complex.norm_exp_ofReal_mul_I, one_pow, one_mul, norm_mul, norm_mul, Complex.norm_exp_ofReal_mul_I, mul_one, mul_assoc ‖β m‖]
  refine mul_le_mul_of_nonneg_left ?_ (norm_nonneg _)
  have hθ1 : |2 * Real.pi * (m : ℝ) / P * s.dx| ≤ 1 := by
    have e1 : 2 * Real.pi * (m : ℝ) / P * s.dx = 2 * Real.pi * m / s.NE := by
      rw [← hlen]
      field_simp
    rw [e1, abs_div, abs_of_pos hNE, div_le_iff₀ hNE]
    have h3 : |2 * Real.pi * (m : ℝ)| ≤ ∑ m ∈ S, |2 * Real.pi * (m : ℝ)| := Finset.single_le_sum (f := fun m : ℤ => |2 * Real.pi * (m : ℝ)|) (fun _ _ => abs_nonneg _) hmS
    have h4 : (N₀ : ℝ) ≤ s.NE := by exact_mod_cast hNN
    linarith
  have han : ‖((2 * Real.pi * (m : ℝ) / P * s.dx / 2 : ℝ) : ℂ) * Complex.I‖ = |2 * Real.pi * (m : ℝ) / P * s.dx| / 2 := by
    rw [norm_mul, Complex.norm_I, mul_one, Complex.norm_real, Real.norm_eq_abs, abs_div, abs_of_pos (by norm_num : (0 : ℝ) < 2)]
  have hq := hquad (((2 * Real.pi * (m : ℝ) / P * s.dx / 2 : ℝ) : ℂ) * Complex.I) (by rw [han]; linarith)
  simp only [eval_one, one_mul, Nat.sub_zero] at hq
  have hs : startVec p (lib (p + 1)).1.val (lib (p + 1)).2.val (((2 * Real.pi * (m : ℝ) / P * s.dx / 2 : ℝ) : ℂ) * Complex.I) 0 =
      1 / 2 * ∑ g ∈ Finset.range (p + 1), ((lib (p + 1)).2.val g : ℂ) * Complex.exp (((2 * Real.pi * (m : ℝ) / P * s.dx / 2 : ℝ) : ℂ) * Complex.I * (lib (p + 1)).1.val g) := by
    unfold startVec
    rw [Fin.val_zero, legendre_zero]
    simp only [eval_one, mul_one]
    push_cast
    ring
  rw [hs, ← mul_sub, norm_mul]
  have hpow : (|2 * Real.pi * (m : ℝ) / P * s.dx| / 2) ^ (2 * p + 2) ≤ |2 * Real.pi * m / P| ^ (2 * p + 2) * s.dx ^ (2 * p + 2) := by
    rw [← mul_pow, abs_mul, abs_of_pos hdx]
    refine pow_le_pow_left₀ (by positivity) ?_ _
    linarith [show 0 ≤ |2 * Real.pi * (m : ℝ) / P| * s.dx by positivity]
  rw [han] at hq
  have h5 := hq.trans (mul_le_mul_of_nonneg_left hpow hK)
  have h6 : ‖(1 / 2 : ℂ)‖ ≤ 1 := by norm_num
  calc ‖(1 / 2 : ℂ)‖ * _ ≤ 1 * _ := mul_le_mul_of_nonneg_right h6 (norm_nonneg _)
    _ ≤ _ := by rw [one_mul, mul_assoc K]; exact h5

end

/-! ### The sine wave of the program -/

section
variable {lib : GaussLib ℝ}
open Text

lemma sine_trig : trigPoly {2} (fun _ => -Complex.I) 2 = fun x => Real.sin (2 * Real.pi * x) := by
  funext x
  unfold trigPoly
  rw [Finset.sum_singleton, Complex.exp_mul_I, show (2 * Real.pi * ((2 : ℤ) : ℝ) / 2 * x : ℝ) = 2 * Real.pi * x by push_cast; ring, ← Complex.ofReal_cos, ← Complex.ofReal_sin, mul_add, Complex.add_re]
  rw [show -Complex.I * (((Real.sin (2 * Real.pi * x) : ℝ) : ℂ) * Complex.I) = ((Real.sin (2 * Real.pi * x) : ℝ) : ℂ) by linear_combination (-((Real.sin (2 * Real.pi * x) : ℝ) : ℂ)) * Complex.I_mul_I, Complex.ofReal_re,
    neg_mul, Complex.neg_re, Complex.I_mul_re, Complex.ofReal_im, neg_zero, neg_zero, zero_add]

lemma exp_decay {δ : ℝ} (hδ : 0 < δ) (r : ℕ) : ∃ K : ℝ, 0 ≤ K ∧ ∀ N : ℝ, 0 < N → Real.exp (-(δ * N)) ≤ K / N ^ r := by
  refine ⟨r.factorial / δ ^ r, by positivity, fun N hN => ?_⟩
  have h := Real.pow_div_factorial_le_exp (δ * N) (by positivity) r
  rw [Real.exp_neg, div_div, ← mul_pow]
  rw [div_le_iff₀ (by positivity)] at h
  rw [inv_eq_one_div, div_le_div_iff₀ (Real.exp_pos _) (by positivity), one_mul, mul_comm (r.factorial : ℝ)]
  exact h

/-- From runs to the sine wave of the program. -/
lemma averages_deck (hlib : lib.Ok) (p : ℕ) (q : ℕ) {c₀ δ C T : ℝ} (hc₀ : 0 < c₀) (hC : 0 ≤ C) (N₀ : ℕ) : ∃ (C' : ℝ) (N₀' : ℕ), 0 ≤ C' ∧
    ∀ (rk : String) (eps : ℝ), 0 ≤ eps →
      (∀ (s : Sol ℝ), s.Built lib p → s.kw = Advection.physics → s.enhance = none → s.bcl = .lit "periodic" → s.bcr = .lit "periodic" →
        IsUniformMesh (-1) (-1 + 2) s.NE s.x.val s.xc.val s.dx → N₀ ≤ s.NE → ∀ f < s.NF,
        (∀ e, 1 ≤ e → e ≤ s.NE → ∀ g < p + 1, (cellPoly s e f).eval ((lib (p + 1)).1.val g) =
          trigPoly {2} (fun _ => -Complex.I) 2 (physPoint (s.x.val (e - 1)) (s.x.val e) ((lib (p + 1)).1.val g))) →
        ∀ (lim : Sol ℝ → Except PyErr (Sol ℝ)), (∀ a, lim a = .ok a) → ∀ (deck : RkDeck ℝ), deck.rk = rk →
        0 ≤ deck.cfl → deck.cfl ≤ c₀ → s.t ≤ deck.finaltime → deck.finaltime ≤ s.t + T →
        ∀ k, ∀ o ∈ (integrate ⟨residual, lim⟩ deck s k).log, ∀ e, 1 ≤ e → e ≤ s.NE →
          |cellMean o.sol e f - average (fun x => trigPoly {2} (fun _ => -Complex.I) 2 (x - (o.sol.t - s.t))) (s.x.val (e - 1)) (s.x.val e)| ≤
            C * (s.dx ^ (2 * p + 1) + (s.dx * deck.cfl / (2 * p + 1)) ^ q + Real.exp (-(δ * ((o.sol.t - s.t) / s.dx))) + eps)) →
      ∀ (N : ℕ) (ft : FloatText ℝ) (junk : ℕ → ℝ) (d : Deck ℝ), N₀' ≤ N → ValidDeck lib ft d p N IC.sinewave → d.system ≠ "euler".toList →
      d.rk = rk.toList → d.limiting ≠ "adaptive_hr".toList → d.enhance = [] → 0 ≤ d.cfl → d.cfl ≤ c₀ → 0 ≤ d.finaltime → d.finaltime ≤ T →
      ∃ s lm, start lib ft junk d = .ok (s, lm) ∧
        (∀ e, 1 ≤ e → e ≤ N → |cellMean s e 0 - average (fun x => Real.sin (2 * Real.pi * x)) (s.x.val (e - 1)) (s.x.val e)| ≤ C' / N ^ (2 * p + 2)) ∧
        ∀ k, ∀ o ∈ (integrate ⟨residual, lm.limit⟩ d.rkDeck s k).log, ∀ e, 1 ≤ e → e ≤ N →
          |cellMean o.sol e 0 - average (fun x => Real.sin (2 * Real.pi * (x - o.sol.t))) (s.x.val (e - 1)) (s.x.val e)| ≤
            C' * (1 / N ^ (2 * p + 1) + 1 / N ^ q + Real.exp (-(δ / 2 * N * o.sol.t)) + eps) := by
  obtain ⟨C', N₀', hC', key'⟩ := C103_start hlib p (-1) 2 {2} (fun _ => -Complex.I) (by norm_num)
  set B := 2 ^ (2 * p + 1) + (2 * c₀) ^ q + 1 with hB
  refine ⟨C * B + C' * 2 ^ (2 * p + 2), max N₀ N₀', by positivity, ?_⟩
  intro rk eps he0 key N ft junk d hNN hd hsys hrkd hlim hen hcfl0 hcfl ht0 htT
  obtain ⟨c, s, lm, hc, hst, S⟩ := C69_starts hlib junk hd
  have hl : ∀ a, lm.limit a = .ok a := by
    intro a
    have hne : String.ofList d.limiting ≠ "adaptive_hr" := by
      intro h
      apply hlim
      rw [← h, String.toList_ofList]
    obtain ⟨lm', h1, h2⟩ := C57_disabled (String.ofList d.limiting) hne s a
    rw [S.limiter] at h1
    cases h1
    exact h2
  have hs : s = c.sol.applyBc := S.unlimited hlim
  have henh : s.enhance = none := by
    have := S.enhance
    rw [hen] at this
    unfold enhancementOf at this
    rw [if_pos rfl] at this
    cases h : s.enhance with
    | none => rfl
    | some x => rw [h] at this; cases this
  have hmesh : IsUniformMesh (-1) (-1 + 2) s.NE s.x.val s.xc.val s.dx := by
    have := S.mesh
    rw [S.NE]
    norm_num
    exact this
  have hdx : s.dx = 2 / N := by
    rw [S.mesh.width]
    show ((1 : ℝ) - -1) / N = _
    norm_num
  have hN0 : (0 : ℝ) < N := by exact_mod_cast hd.cells
  have hinit : ∀ e, 1 ≤ e → e ≤ s.NE → ∀ g < p + 1, (cellPoly s e 0).eval ((lib (p + 1)).1.val g) =
      trigPoly {2} (fun _ => -Complex.I) 2 (physPoint (s.x.val (e - 1)) (s.x.val e) ((lib (p + 1)).1.val g)) := by
    rw [sine_trig]
    intro e h1 h2 g hg
    rw [S.NE] at h2
    obtain ⟨hx, -, hG⟩ := hlib (p + 1) (Nat.succ_pos p)
    obtain ⟨v, hv, hval⟩ := S.data (e - 1) (by omega) 0 S.kin.1.NF
    rw [Nat.sub_add_cancel h1, add_zero] at hval
    rw [Nat.sub_add_cancel h1, S.kin.1.basis] at hv
    obtain ⟨c', hc', -, hint, -⟩ := C24_projection lib p hx hG (c.sol.x.val (e - 1)) (c.sol.x.val e) (IC.sinewave.f (IC.sinewave.gamma.getD (7 / 5))) 0
      (fun x => Real.sin (2 * Real.pi * x)) (fun _ _ => rfl)
    rw [hv] at hc'
    cases hc'
    have h3 := hint g hg
    rw [← show s.x = c.sol.x from S.kin.2.like.setup.x] at h3
    refine Eq.trans ?_ h3
    unfold cellPoly
    rw [S.built.rows]
    congr 2
    funext n
    rw [hs, (Like.refl c.sol).applyBc_val S.kin.1.wf, show c.sol.applyBc.NF = c.sol.NF from (Like.refl c.sol).applyBc.setup.NF,
      bcCol_interior c.sol h1 (by rw [S.same.2]; exact h2) S.kin.1.NF, add_zero]
    exact hval n
  have hp2 : ∀ r : ℕ, (2 / (N : ℝ)) ^ r = 2 ^ r * (1 / N ^ r) := fun r => by rw [div_pow]; ring
  refine ⟨s, lm, hst, fun e h1 h2 => ?_, fun k o ho e h1 h2 => ?_⟩
  · have h := key' s S.built hmesh (by rw [S.NE]; exact (le_max_right _ _).trans hNN) 0 hinit e h1 (by rw [S.NE]; exact h2)
    rw [sine_trig, hdx, hp2] at h
    refine h.trans ?_
    have h1 : 0 ≤ C * B * (1 / (N : ℝ) ^ (2 * p + 2)) := by positivity
    rw [div_eq_mul_one_div (C * B + C' * 2 ^ (2 * p + 2)), add_mul]
    linarith
  · have h := key s S.built (S.physics.advection hsys).1 henh (by rw [S.bc.1]; rfl) (by rw [S.bc.2]; rfl) hmesh (by rw [S.NE]; exact (le_max_left _ _).trans hNN) 0 S.built.NF hinit
      lm.limit hl d.rkDeck (by show String.ofList d.rk = rk; rw [hrkd, String.ofList_toList]) hcfl0 hcfl (by rw [S.clock.1]; exact ht0) (by rw [S.clock.1, zero_add]; exact htT)
      k o ho e h1 (by rw [S.NE]; exact h2)
    rw [S.clock.1, sub_zero, hdx] at h
    simp only [sine_trig] at h
    refine h.trans ?_
    have e1 : (2 / (N : ℝ) * d.rkDeck.cfl / (2 * p + 1)) ^ q ≤ (2 * c₀) ^ q * (1 / N ^ q) := by
      rw [one_div, ← inv_pow, ← mul_pow]
      refine pow_le_pow_left₀ (by have : 0 ≤ d.rkDeck.cfl := hcfl0; positivity) ?_ q
      rw [div_le_iff₀ (by positivity)]
      have h3 : d.rkDeck.cfl ≤ c₀ := hcfl
      have h4 : 0 ≤ 2 / (N : ℝ) := by positivity
      have h5 : 0 ≤ 2 * c₀ * (N : ℝ)⁻¹ * (2 * p) := by positivity
      calc 2 / (N : ℝ) * d.rkDeck.cfl ≤ 2 / N * c₀ := mul_le_mul_of_nonneg_left h3 h4
        _ = 2 * c₀ * (N : ℝ)⁻¹ := by ring
        _ ≤ _ := by linarith
    have e2 : -(δ * (o.sol.t / (2 / (N : ℝ)))) = -(δ / 2 * N * o.sol.t) := by
      field_simp
    rw [hp2, e2]
    have x1 : 0 ≤ 1 / (N : ℝ) ^ (2 * p + 1) := by positivity
    have x2 : 0 ≤ 1 / (N : ℝ) ^ q := by positivity
    have x3 := Real.exp_nonneg (-(δ / 2 * N * o.sol.t))
    have y1 : (0 : ℝ) ≤ 2 ^ (2 * p + 1) := by positivity
    have y2 : 0 ≤ (2 * c₀) ^ q := by positivity
    have hin : 2 ^ (2 * p + 1) * (1 / (N : ℝ) ^ (2 * p + 1)) + (2 / (N : ℝ) * d.rkDeck.cfl / (2 * p + 1)) ^ q + Real.exp (-(δ / 2 * N * o.sol.t)) + eps ≤
        B * (1 / (N : ℝ) ^ (2 * p + 1) + 1 / N ^ q + Real.exp (-(δ / 2 * N * o.sol.t)) + eps) := by
      generalize 1 / (N : ℝ) ^ (2 * p + 1) = a at *
      generalize 1 / (N : ℝ) ^ q = b at *
      generalize Real.exp (-(δ / 2 * N * o.sol.t)) = c at *
      rw [hB]
      nlinarith [mul_nonneg y1 x2, mul_nonneg y1 x3, mul_nonneg y2 x1, mul_nonneg y2 x3, mul_nonneg y1 he0, mul_nonneg y2 he0]
    refine (mul_le_mul_of_nonneg_left hin hC).trans ?_
    rw [← mul_assoc]
    refine mul_le_mul_of_nonneg_right ?_ (by positivity)
    have : 0 ≤ C' * 2 ^ (2 * p + 2) := by positivity
    linarith

/-- **C103 from the deck.** The sine wave of the program: for every order `p` and each scheme of order `q` there are a bound `c₀` for the CFL number
and a rate `δ`, and for all `T` one constant `C`, such that with any large enough number `N` of cells, no limiter and no enhancement, all cell
averages in all outputs up to time `T` are within `C (N^-(2p+1) + N^-q + exp (-δ N t))` of those of `sin (2π (x - t))`; at the start they
are within `C N^-(2p+2)`. -/
theorem C103_deck (hlib : lib.Ok) (p : ℕ) (rk : String) (hrk : rk ∈ ["rk3", "rk4", "low_storage_rk4", "rk5", "rk6"]) : ∃ c₀ δ : ℝ, 0 < c₀ ∧ 0 < δ ∧
    ∀ T : ℝ, 0 ≤ T → ∃ (C : ℝ) (N₀ : ℕ), 0 ≤ C ∧
      ∀ (N : ℕ) (ft : FloatText ℝ) (junk : ℕ → ℝ) (d : Deck ℝ), N₀ ≤ N → ValidDeck lib ft d p N IC.sinewave → d.system ≠ "euler".toList →
      d.rk = rk.toList → d.limiting ≠ "adaptive_hr".toList → d.enhance = [] → 0 ≤ d.cfl → d.cfl ≤ c₀ → 0 ≤ d.finaltime → d.finaltime ≤ T →
      ∃ s lm, start lib ft junk d = .ok (s, lm) ∧
        (∀ e, 1 ≤ e → e ≤ N → |cellMean s e 0 - average (fun x => Real.sin (2 * Real.pi * x)) (s.x.val (e - 1)) (s.x.val e)| ≤ C / N ^ (2 * p + 2)) ∧
        ∀ k, ∀ o ∈ (integrate ⟨residual, lm.limit⟩ d.rkDeck s k).log, ∀ e, 1 ≤ e → e ≤ N →
          |cellMean o.sol e 0 - average (fun x => Real.sin (2 * Real.pi * (x - o.sol.t))) (s.x.val (e - 1)) (s.x.val e)| ≤
            C * (1 / N ^ (2 * p + 1) + 1 / N ^ promisedOrder rk + Real.exp (-(δ * N * o.sol.t))) := by
  obtain ⟨c₀, δ, hc₀, hδ, hmain⟩ := C103_averages hlib p rk hrk
  refine ⟨c₀, δ / 2, hc₀, by positivity, fun T hT => ?_⟩
  obtain ⟨C, N₀, hC, key⟩ := hmain (-1) 2 T {2} (fun _ => -Complex.I) (by norm_num) hT
  obtain ⟨C', N₀', hC', h⟩ := averages_deck hlib p (promisedOrder rk) (T := T) (δ := δ) hc₀ hC N₀
  refine ⟨C', N₀', hC', fun N ft junk d hNN hd hsys hrkd hlim hen hcfl0 hcfl ht0 htT => ?_⟩
  have := h rk 0 le_rfl (by
    intro s h1 h2 h3 h4 h5 h6 h7 f h8 h9 lim h10 deck h11 h12 h13 h14 h15 k o ho e h16 h17
    rw [add_zero]
    exact key s h1 h2 h3 h4 h5 h6 h7 f h8 h9 lim h10 deck h11 h12 h13 h14 h15 k o ho e h16 h17) N ft junk d hNN hd hsys hrkd hlim hen hcfl0 hcfl ht0 htT
  simpa only [add_zero] using this

/-- **C103, the order.** In terms of the number of cells alone: from any time `t₁ > 0` on, the error of the cell averages is
`O(N^-min(2p+1, q))`, so of order `2p+1` when the time scheme is accurate enough. -/
theorem C103_order (hlib : lib.Ok) (p : ℕ) (rk : String) (hrk : rk ∈ ["rk3", "rk4", "low_storage_rk4", "rk5", "rk6"]) : ∃ c₀ : ℝ, 0 < c₀ ∧
    ∀ t₁ T : ℝ, 0 < t₁ → t₁ ≤ T → ∃ (C : ℝ) (N₀ : ℕ), 0 ≤ C ∧
      ∀ (N : ℕ) (ft : FloatText ℝ) (junk : ℕ → ℝ) (d : Deck ℝ), N₀ ≤ N → ValidDeck lib ft d p N IC.sinewave → d.system ≠ "euler".toList →
      d.rk = rk.toList → d.limiting ≠ "adaptive_hr".toList → d.enhance = [] → 0 ≤ d.cfl → d.cfl ≤ c₀ → 0 ≤ d.finaltime → d.finaltime ≤ T →
      ∃ s lm, start lib ft junk d = .ok (s, lm) ∧
        (∀ e, 1 ≤ e → e ≤ N → |cellMean s e 0 - average (fun x => Real.sin (2 * Real.pi * x)) (s.x.val (e - 1)) (s.x.val e)| ≤ C / N ^ min (2 * p + 1) (promisedOrder rk)) ∧
        ∀ k, ∀ o ∈ (integrate ⟨residual, lm.limit⟩ d.rkDeck s k).log, t₁ ≤ o.sol.t → ∀ e, 1 ≤ e → e ≤ N →
          |cellMean o.sol e 0 - average (fun x => Real.sin (2 * Real.pi * (x - o.sol.t))) (s.x.val (e - 1)) (s.x.val e)| ≤ C / N ^ min (2 * p + 1) (promisedOrder rk) := by
  obtain ⟨c₀, δ, hc₀, hδ, hmain⟩ := C103_deck hlib p rk hrk
  refine ⟨c₀, hc₀, fun t₁ T ht₁ hT => ?_⟩
  obtain ⟨C, N₀, hC, key⟩ := hmain T (by linarith)
  set r := min (2 * p + 1) (promisedOrder rk) with hr
  obtain ⟨K, hK, hexp⟩ := exp_decay (show 0 < δ * t₁ by positivity) r
  refine ⟨C * (2 + K), N₀, by positivity, ?_⟩
  intro N ft junk d hNN hd hsys hrkd hlim hen hcfl0 hcfl ht0 htT
  obtain ⟨s, lm, hst, hini, hout⟩ := key N ft junk d hNN hd hsys hrkd hlim hen hcfl0 hcfl ht0 htT
  have hN1 : (1 : ℝ) ≤ N := by exact_mod_cast hd.cells
  have hN0 : (0 : ℝ) < N := by linarith
  have hpow : ∀ j, r ≤ j → 1 / (N : ℝ) ^ j ≤ 1 / N ^ r := fun j hj => one_div_le_one_div_of_le (by positivity) (pow_le_pow_right₀ hN1 hj)
  have hp : 0 ≤ 1 / (N : ℝ) ^ r := by positivity
  refine ⟨s, lm, hst, fun e h1 h2 => (hini e h1 h2).trans ?_, fun k o ho ht e h1 h2 => (hout k o ho e h1 h2).trans ?_⟩
  · rw [div_eq_mul_one_div C, div_eq_mul_one_div (C * (2 + K)), mul_assoc]
    refine mul_le_mul_of_nonneg_left ((hpow _ (by omega)).trans ?_) hC
    nlinarith [mul_nonneg hK hp]
  · rw [mul_div_assoc]
    refine mul_le_mul_of_nonneg_left ?_ hC
    have h3 : Real.exp (-(δ * N * o.sol.t)) ≤ K / N ^ r := by
      refine le_trans (Real.exp_le_exp.mpr ?_) (hexp N hN0)
      have := mul_le_mul_of_nonneg_left ht (show 0 ≤ δ * N by positivity)
      linarith [show δ * t₁ * N = δ * N * t₁ by ring]
    have h4 := hpow (2 * p + 1) (min_le_left _ _)
    have h5 := hpow (promisedOrder rk) (min_le_right _ _)
    rw [add_div, show (2 : ℝ) / N ^ r = 1 / N ^ r + 1 / N ^ r by ring]
    linarith

/-- **C103, what the study measures.** After a whole number of periods the exact solution is the initial one. The norm plot.py takes (C85), half the root
mean square over the cells of the differences of the averages at the end and at the start, is `O(N^-min(2p+1, q))`. -/
theorem C103_study (hlib : lib.Ok) (p : ℕ) (rk : String) (hrk : rk ∈ ["rk3", "rk4", "low_storage_rk4", "rk5", "rk6"]) : ∃ c₀ : ℝ, 0 < c₀ ∧
    ∀ j : ℕ, 0 < j → ∃ (C : ℝ) (N₀ : ℕ), 0 ≤ C ∧
      ∀ (N : ℕ) (ft : FloatText ℝ) (junk : ℕ → ℝ) (d : Deck ℝ), N₀ ≤ N → ValidDeck lib ft d p N IC.sinewave → d.system ≠ "euler".toList →
      d.rk = rk.toList → d.limiting ≠ "adaptive_hr".toList → d.enhance = [] → 0 ≤ d.cfl → d.cfl ≤ c₀ → d.finaltime = j →
      ∃ s lm, start lib ft junk d = .ok (s, lm) ∧ ∀ k, ∀ o ∈ (integrate ⟨residual, lm.limit⟩ d.rkDeck s k).log, o.sol.t = j →
        1 / 2 * Real.sqrt ((∑ e ∈ Finset.range N, (cellMean s (e + 1) 0 - cellMean o.sol (e + 1) 0) ^ 2) / N) ≤ C / N ^ min (2 * p + 1) (promisedOrder rk) := by
  obtain ⟨c₀, hc₀, hmain⟩ := C103_order hlib p rk hrk
  refine ⟨c₀, hc₀, fun j hj => ?_⟩
  have hj1 : (1 : ℝ) ≤ j := by exact_mod_cast hj
  obtain ⟨C, N₀, hC, key⟩ := hmain 1 j one_pos hj1
  refine ⟨C, N₀, hC, ?_⟩
  intro N ft junk d hNN hd hsys hrkd hlim hen hcfl0 hcfl htf
  obtain ⟨s, lm, hst, hini, hout⟩ := key N ft junk d hNN hd hsys hrkd hlim hen hcfl0 hcfl (by rw [htf]; linarith) htf.le
  refine ⟨s, lm, hst, fun k o ho ht => ?_⟩
  have hN0 : (0 : ℝ) < N := by exact_mod_cast hd.cells
  set E := C / (N : ℝ) ^ min (2 * p + 1) (promisedOrder rk) with hE
  have hE0 : 0 ≤ E := by positivity
  have hperiod : (fun x : ℝ => Real.sin (2 * Real.pi * (x - o.sol.t))) = fun x => Real.sin (2 * Real.pi * x) := by
    funext x
    rw [ht, show 2 * Real.pi * (x - (j : ℝ)) = 2 * Real.pi * x - (j : ℕ) * (2 * Real.pi) by ring, Real.sin_sub_nat_mul_two_pi]
  have hcell : ∀ e ∈ Finset.range N, (cellMean s (e + 1) 0 - cellMean o.sol (e + 1) 0) ^ 2 ≤ (2 * E) ^ 2 := by
    intro e he
    have he := Finset.mem_range.mp he
    have h1 := hini (e + 1) (by omega) (by omega)
    have h2 := hout k o ho (by rw [ht]; exact hj1) (e + 1) (by omega) (by omega)
    rw [hperiod] at h2
    set I := average (fun x => Real.sin (2 * Real.pi * x)) (s.x.val (e + 1 - 1)) (s.x.val (e + 1))
    rw [← sq_abs]
    refine pow_le_pow_left₀ (abs_nonneg _) ?_ 2
    rw [abs_le] at h1 h2 ⊢
    constructor <;> linarith [h1.1, h1.2, h2.1, h2.2]
  have hsum : (∑ e ∈ Finset.range N, (cellMean s (e + 1) 0 - cellMean o.sol (e + 1) 0) ^ 2) / N ≤ (2 * E) ^ 2 := by
    rw [div_le_iff₀ hN0]
    refine (Finset.sum_le_sum hcell).trans ?_
    rw [Finset.sum_const, Finset.card_range, nsmul_eq_mul, mul_comm]
  have := (Real.sqrt_le_sqrt hsum).trans_eq (Real.sqrt_sq (by positivity))
  linarith

end

/-! ### The hypotheses can be met -/

section
open Text

/-- The sine wave on `N` cells, order 1, with rk6, a given CFL number and final time 3, no limiter. -/
noncomputable def Ex.superDeck (N : ℕ) (cfl : ℝ) : Deck ℝ :=
  { Deck.init with ic := "sinewave".toList ++ ' ' :: natText N, rk := "rk6".toList, cfl := cfl, finaltime := 3 }

lemma Ex.super_valid {N : ℕ} (hN : 0 < N) (cfl : ℝ) : ValidDeck realGauss Ex.decReal (Ex.superDeck N cfl) 1 N IC.sinewave where
  order := rfl
  cells := hN
  line := ⟨"sinewave".toList, natText N, [], by
      show split ("sinewave".toList ++ ' ' :: natText N) = _
      rw [split_cons (by decide) (by decide) (by decide), split_word (natText_ne_nil N) fun c hc => by obtain ⟨d, hd, rfl⟩ := mem_natText hc; exact (digitChar_facts hd).2.2.1], intOf_natText N, by
      unfold setupOf; rw [if_pos rfl], fun h => absurd h (by show ("advection".toList : Str) ≠ "euler".toList; decide)⟩
  enhance := C67_no_enhancement _ _
  limiter := fun h => absurd (show ([] : Str) = "adaptive_hr".toList from h) (by decide)

/-- With linear polynomials the averages after three periods are right to third order, one more than the polynomials (C78). -/
example : ∃ c₀ : ℝ, 0 < c₀ ∧ ∃ (C : ℝ) (N₀ : ℕ), ∀ N : ℕ, 0 < N → N₀ ≤ N → ∃ s lm, start realGauss Ex.decReal (fun _ => 0) (Ex.superDeck N c₀) = .ok (s, lm) ∧
    ∀ k, ∀ o ∈ (integrate ⟨residual, lm.limit⟩ (Ex.superDeck N c₀).rkDeck s k).log, o.sol.t = 3 →
      1 / 2 * Real.sqrt ((∑ e ∈ Finset.range N, (cellMean s (e + 1) 0 - cellMean o.sol (e + 1) 0) ^ 2) / N) ≤ C / N ^ 3 := by
  obtain ⟨c₀, hc₀, h⟩ := C103_study realGauss_ok 1 "rk6" (by simp)
  obtain ⟨C, N₀, -, h⟩ := h 3 (by norm_num)
  refine ⟨c₀, hc₀, C, N₀, fun N hN hle => ?_⟩
  obtain ⟨s, lm, hst, h⟩ := h N Ex.decReal (fun _ => 0) (Ex.superDeck N c₀) hle (Ex.super_valid hN c₀) (show ("advection".toList : Str) ≠ "euler".toList by decide) rfl
    (show ([] : Str) ≠ "adaptive_hr".toList by decide) rfl hc₀.le le_rfl (by show (3 : ℝ) = (3 : ℕ); norm_num)
  exact ⟨s, lm, hst, fun k o ho ht => h k o ho (by rw [ht]; norm_num)⟩

/-- The same runs meet the hypotheses of `C103_deck` and `C103_order`, hence of `C103_averages` and `C103_start`: an output at time 1 or later. -/
example : ∃ c₀ : ℝ, 0 < c₀ ∧ ∃ (C : ℝ) (N₀ : ℕ), ∀ N : ℕ, 0 < N → N₀ ≤ N → ∃ s lm, start realGauss Ex.decReal (fun _ => 0) (Ex.superDeck N c₀) = .ok (s, lm) ∧
    ∀ k, ∀ o ∈ (integrate ⟨residual, lm.limit⟩ (Ex.superDeck N c₀).rkDeck s k).log, 1 ≤ o.sol.t → ∀ e, 1 ≤ e → e ≤ N →
      |cellMean o.sol e 0 - average (fun x => Real.sin (2 * Real.pi * (x - o.sol.t))) (s.x.val (e - 1)) (s.x.val e)| ≤ C / N ^ 3 := by
  obtain ⟨c₀, hc₀, h⟩ := C103_order realGauss_ok 1 "rk6" (by simp)
  obtain ⟨C, N₀, -, h⟩ := h 1 3 one_pos (by norm_num)
  refine ⟨c₀, hc₀, C, N₀, fun N hN hle => ?_⟩
  obtain ⟨s, lm, hst, -, h⟩ := h N Ex.decReal (fun _ => 0) (Ex.superDeck N c₀) hle (Ex.super_valid hN c₀) (show ("advection".toList : Str) ≠ "euler".toList by decide) rfl
    (show ([] : Str) ≠ "adaptive_hr".toList by decide) rfl hc₀.le le_rfl (show (0 : ℝ) ≤ 3 by norm_num) (show (3 : ℝ) ≤ 3 by norm_num)
  exact ⟨s, lm, hst, h⟩

end

end Dg1d.Props
