import Verif.Proofs.Runs
import Verif.Proofs.Simulation
import Verif.Proofs.DgAdvection

/-! Helper lemmas for C108: the advection residual written out with the plain tables, and its dependence on the cells
upstream only. -/

set_option linter.unusedSectionVars false

namespace Dg1d
open Spec
variable {K : Type*} [Field K] [LinearOrder K] [IsStrictOrderedRing K] {s s' : Sol K} {lib : GaussLib K} {p : ℕ}

/-- Volume term of a cell whose coefficients are `c`. -/
def advVol (B : Basis K) (p : ℕ) (c : ℕ → K) (n : ℕ) : K :=
  ∑ g ∈ Finset.range (p + 1), B.dphiW.val n g * ∑ k ∈ Finset.range (p + 1), B.phi.val g k * c k

/-- Value at the right end of a cell whose coefficients are `c`. -/
def advEnd (B : Basis K) (p : ℕ) (c : ℕ → K) : K := ∑ k ∈ Finset.range (p + 1), B.psi.val 1 k * c k

lemma advVol_congr (B : Basis K) (p : ℕ) {c c' : ℕ → K} (h : ∀ k < p + 1, c k = c' k) (n : ℕ) :
    advVol B p c n = advVol B p c' n := by
  unfold advVol
  refine Finset.sum_congr rfl fun g _ => ?_
  rw [Finset.sum_congr rfl fun k hk => by rw [h k (Finset.mem_range.mp hk)]]

lemma advEnd_congr (B : Basis K) (p : ℕ) {c c' : ℕ → K} (h : ∀ k < p + 1, c k = c' k) :
    advEnd B p c = advEnd B p c' := by
  unfold advEnd
  exact Finset.sum_congr rfl fun k hk => by rw [h k (Finset.mem_range.mp hk)]

/-- The residual of an advection problem without enhancement: cell `e` sees its own coefficients and the right end of the
cell before it. -/
lemma residual_adv (h : s.Built lib p) {a : Sol K} (ha : Like a s) (hkw : s.kw = Advection.physics) (hNF : s.NF = 1)
    (hen : s.enhance = none) :
    ∃ F, residual a = .ok (a.applyBc, F) ∧ ∀ n < p + 1, ∀ e, 1 ≤ e → e ≤ s.NE → F.val n e =
      (advVol s.basis p (fun k => a.applyBc.u.val k e) n -
        (if n % 2 = 0 then advEnd s.basis p (fun k => a.applyBc.u.val k e) - advEnd s.basis p (fun k => a.applyBc.u.val k (e - 1))
          else advEnd s.basis p (fun k => a.applyBc.u.val k (e - 1)) + advEnd s.basis p (fun k => a.applyBc.u.val k e))) *
        ((2 * (n : K) + 1) / s.dx) := by
  have hps : s.kw.Pointwise (Advection.spec (K := K) s.NF) := by rw [hkw]; exact Advection.pointwise s.NF
  obtain ⟨F, hF, _, _, hi, _⟩ := (residual_like h.wf ha hps).2 (fun i _ hf => hf)
  refine ⟨F, hF, fun n hn e h1 h2 => ?_⟩
  have hq : ∀ (u : ℕ → ℕ → K) (i : ℕ), s.q (Advection.spec s.NF) u i ⟨0, by omega⟩ = advEnd s.basis p (fun k => u k i) := by
    intro u i
    show s.face 1 u i ⟨0, _⟩ = _
    unfold Sol.face advEnd
    rw [h.ns]
    refine Finset.sum_congr rfl fun k _ => ?_
    simp only [Sol.faceW, hen, if_true]
    simp [hNF]
  have hv : ∀ (u : ℕ → ℕ → K), s.vol (Advection.spec s.NF) u n e ⟨0, by omega⟩ = advVol s.basis p (fun k => u k e) n := by
    intro u
    unfold Sol.vol advVol
    rw [h.ng, h.ns]
    simp [Advection.spec, hNF]
  have := hi n (by rw [h.ns]; exact hn) e h1 h2 ⟨0, by omega⟩
  rw [hq, hq, hv, h.minv n hn] at this
  simpa [hNF] using this

/-- Interior cells keep their data under the ghost fill; the zero-gradient ghost copies the first cell. -/
lemma fill_upstream (h : s.Built lib p) {a : Sol K} (ha : Like a s) (hNF : s.NF = 1) (hl : s.bcl = .lit "zerograd") (r e : ℕ)
    (he : e ≤ s.NE) : a.applyBc.u.val r e = a.u.val r (if e = 0 then 1 else e) := by
  have hset := ha.setup
  have hNFa : a.NF = 1 := hset.NF.trans hNF
  have hc : a.u.cols = (a.NE + 2) * a.NF := by rw [ha.cols, h.cols, hset.NE, hset.NF]
  rw [applyBc_val (by omega) (by rw [hset.NE]; exact h.NE) hc]
  by_cases h0 : e = 0
  · subst h0
    have hlit : ¬ a.bcl.isLit "periodic" ∧ a.bcl.isLit "zerograd" := by
      rw [hset.bcl, hl]
      exact ⟨by rintro ⟨_, h2⟩; exact absurd h2 (by decide), ⟨rfl, rfl⟩⟩
    have := bcCol_left a (f := 0) (by omega)
    rw [this, if_neg hlit.1, if_pos hlit.2, hNFa]
    rfl
  · have := bcCol_interior a (e := e) (f := 0) (by omega) (by rw [hset.NE]; exact he) (by omega)
    rw [hNFa, mul_one, add_zero] at this
    rw [this, if_neg h0]

/-- Two residuals agree up to cell `m` when the data do. -/
lemma residual_upstream (h : s.Built lib p) (h' : s'.Built lib p) {a b : Sol K} (ha : Like a s) (hb : Like b s')
    (hkw : s.kw = Advection.physics) (hkw' : s'.kw = Advection.physics) (hNF : s.NF = 1) (hNF' : s'.NF = 1)
    (hen : s.enhance = none) (hen' : s'.enhance = none) (hl : s.bcl = .lit "zerograd") (hl' : s'.bcl = .lit "zerograd")
    (hdx : s.dx = s'.dx) {m : ℕ} (hm : 1 ≤ m) (hmN : m ≤ s.NE) (hmN' : m ≤ s'.NE)
    (hab : ∀ n < p + 1, ∀ e, 1 ≤ e → e ≤ m → a.u.val n e = b.u.val n e) :
    ∃ F G, residual a = .ok (a.applyBc, F) ∧ residual b = .ok (b.applyBc, G) ∧
      ∀ n < p + 1, ∀ e, 1 ≤ e → e ≤ m → F.val n e = G.val n e := by
  obtain ⟨F, hF, eF⟩ := residual_adv h ha hkw hNF hen
  obtain ⟨G, hG, eG⟩ := residual_adv h' hb hkw' hNF' hen'
  refine ⟨F, G, hF, hG, fun n hn e h1 h2 => ?_⟩
  have hcell : ∀ e ≤ m, ∀ k < p + 1, a.applyBc.u.val k e = b.applyBc.u.val k e := by
    intro e he k hk
    rw [fill_upstream h ha hNF hl k e (by omega), fill_upstream h' hb hNF' hl' k e (by omega)]
    exact hab k hk _ (by split <;> omega) (by split <;> omega)
  have hB : s.basis = s'.basis := h.basis.trans h'.basis.symm
  rw [eF n hn e h1 (by omega), eG n hn e h1 (by omega), hB, hdx, advVol_congr _ _ (hcell e h2), advEnd_congr _ _ (hcell e h2),
    advEnd_congr _ _ (hcell (e - 1) (by omega))]

end Dg1d
