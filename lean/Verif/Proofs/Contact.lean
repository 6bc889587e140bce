import Verif.Proofs.Mirror
import Verif.Proofs.Progress

/-! Helper lemmas: solutions with three fields whose second and third field are `v` and `v²/2` times the first plus a
constant (a gas of uniform velocity and pressure) keep this form. -/

set_option linter.unusedSectionVars false

open Polynomial Dg1d.Spec

namespace Dg1d

/-- Density `r`, momentum `v r`, energy `v²/2 r + b`. -/
noncomputable def drift (v b r : ℝ) (f : ℕ) : ℝ := if f = 0 then r else if f = 1 then v * r else v ^ 2 / 2 * r + b

/-- What the physics does to such states: interior flux where the density is not zero, numerical flux `mass` where the
solver does not fail. `c` is the flux of the constant part. -/
structure PhysSpec.Drift {NF : ℕ} (ps : PhysSpec ℝ NF) (v b : ℝ) (c : ℕ → ℝ) (mass : ℝ → ℝ → ℝ) : Prop where
  c0 : c 0 = 0
  flux : ∀ r, r ≠ 0 → ∀ f : Fin NF, ps.flux (fun k => drift v b r k) f = drift v 0 (v * r) f + c f
  num : ∀ rL rR, ¬ ps.fails (fun k => drift v b rL k) (fun k => drift v b rR k) →
    ∀ f : Fin NF, ps.num (fun k => drift v b rL k) (fun k => drift v b rR k) f = drift v 0 (mass rL rR) f + c f

/-- The form, coefficient by coefficient, in the cells `lo … hi`. -/
def Drifting (NF rows lo hi : ℕ) (v b : ℝ) (u : ℕ → ℕ → ℝ) : Prop :=
  ∀ n < rows, ∀ e, lo ≤ e → e ≤ hi → ∀ f < NF, u n (e * NF + f) = drift v (if n = 0 then b else 0) (u n (e * NF)) f

variable {s a : Sol ℝ} {lib : GaussLib ℝ} {p : ℕ} {v b : ℝ} {c : ℕ → ℝ} {mass : ℝ → ℝ → ℝ}

lemma drift_add (v b b' r r' : ℝ) (f : ℕ) : drift v b r f + drift v b' r' f = drift v (b + b') (r + r') f := by
  unfold drift; split_ifs <;> ring

lemma drift_mul (v b r k : ℝ) (f : ℕ) : k * drift v b r f = drift v (k * b) (k * r) f := by
  unfold drift; split_ifs <;> ring

lemma drift_sum {ι : Type*} (t : Finset ι) (v : ℝ) (b r : ι → ℝ) (f : ℕ) :
    ∑ i ∈ t, drift v (b i) (r i) f = drift v (∑ i ∈ t, b i) (∑ i ∈ t, r i) f := by
  classical
  induction t using Finset.induction_on with
  | empty => simp only [Finset.sum_empty]; unfold drift; split_ifs <;> ring
  | insert i t hi ih => rw [Finset.sum_insert hi, Finset.sum_insert hi, Finset.sum_insert hi, ih, drift_add]

lemma drifting_fill (h : s.Built lib p) (ha : Like a s) (hk : s.BcKnown) (hd : Drifting s.NF (p + 1) 1 s.NE v b a.u.val) :
    Drifting s.NF (p + 1) 0 (s.NE + 1) v b a.applyBc.u.val := by
  intro n hn e _ he f hf
  obtain ⟨e', h1, h2, h3⟩ := bc_cell hk h.NE e he
  rw [ha.applyBc_val h.wf, ha.applyBc_val h.wf, h3 f hf, show e * s.NF = e * s.NF + 0 from rfl, h3 0 h.NF]
  exact hd n hn e' h1 h2 f hf

/-- The sum of the face weights of the constant mode. -/
lemma faceW_const (h : s.Built lib p) (hen : ∀ en, s.enhance = some en → EnhanceConst en) {side : ℕ} (hside : side = 0 ∨ side = 1) :
    s.faceW side false 0 + s.faceW side true 0 = 1 := by
  unfold Sol.faceW
  have p0 : s.basis.psi.val 0 0 = 1 := by rw [h.psi0]; simp [legendre_zero]
  have p1 : s.basis.psi.val 1 0 = 1 := by rw [h.psi1]; simp [legendre_zero]
  cases he : s.enhance with
  | none => rcases hside with rfl | rfl <;> simp [p0, p1]
  | some en =>
    obtain ⟨a, b⟩ := hen en he
    rcases hside with rfl | rfl <;> simp [a, b]

/-- Density on one side of an interface. -/
noncomputable def Sol.faceRho (s : Sol ℝ) (side : ℕ) (u : ℕ → ℕ → ℝ) (i : ℕ) : ℝ :=
  ∑ n ∈ Finset.range s.basis.Ns, (s.faceW side false n * u n (i * s.NF) + s.faceW side true n * u n ((i + 1) * s.NF))

lemma drifting_face (h : s.Built lib p) (hen : ∀ en, s.enhance = some en → EnhanceConst en) {u : ℕ → ℕ → ℝ}
    (hu : Drifting s.NF (p + 1) 0 (s.NE + 1) v b u) {side : ℕ} (hside : side = 0 ∨ side = 1) {i : ℕ} (hi : i ≤ s.NE) :
    s.face side u i = fun f : Fin s.NF => drift v b (s.faceRho side u i) f := by
  funext f
  unfold Sol.face Sol.faceRho
  rw [h.ns]
  have hterm : ∀ n ∈ Finset.range (p + 1), s.faceW side false n * u n (i * s.NF + f) + s.faceW side true n * u n ((i + 1) * s.NF + f) =
      drift v (if n = 0 then b else 0) (s.faceW side false n * u n (i * s.NF) + s.faceW side true n * u n ((i + 1) * s.NF)) f := by
    intro n hn
    have hn := Finset.mem_range.mp hn
    rw [hu n hn i (by omega) (by omega) f f.2, hu n hn (i + 1) (by omega) (by omega) f f.2, drift_mul, drift_mul, drift_add, ← add_mul]
    by_cases h0 : n = 0
    · subst h0
      rw [if_pos rfl, faceW_const h hen hside, one_mul]
    · rw [if_neg h0, mul_zero]
  rw [Finset.sum_congr rfl hterm, drift_sum, Finset.sum_ite_eq' _ 0, if_pos (Finset.mem_range.mpr (by omega))]

/-- Density at a Gauss point. -/
noncomputable def Sol.gaussRho (s : Sol ℝ) (u : ℕ → ℕ → ℝ) (e g : ℕ) : ℝ := ∑ k ∈ Finset.range s.basis.Ns, s.basis.phi.val g k * u k (e * s.NF)

lemma drifting_gauss (h : s.Built lib p) {u : ℕ → ℕ → ℝ} (hu : Drifting s.NF (p + 1) 0 (s.NE + 1) v b u) {e : ℕ} (he : e ≤ s.NE + 1) (g : ℕ) :
    (fun f' : Fin s.NF => ∑ k ∈ Finset.range s.basis.Ns, s.basis.phi.val g k * u k (e * s.NF + f')) = fun f' : Fin s.NF => drift v b (s.gaussRho u e g) f' := by
  funext f
  unfold Sol.gaussRho
  rw [h.ns]
  have hterm : ∀ k ∈ Finset.range (p + 1), s.basis.phi.val g k * u k (e * s.NF + f) = drift v (if k = 0 then b else 0) (s.basis.phi.val g k * u k (e * s.NF)) f := by
    intro k hk
    rw [hu k (Finset.mem_range.mp hk) e (by omega) he f f.2, drift_mul]
    by_cases h0 : k = 0
    · subst h0
      rw [if_pos rfl, h.phi]
      simp [legendre_zero]
    · rw [if_neg h0, mul_zero]
  rw [Finset.sum_congr rfl hterm, drift_sum, Finset.sum_ite_eq' _ 0, if_pos (Finset.mem_range.mpr (by omega))]

/-- The weights of the volume term add up to what the faces take away from a constant. -/
lemma dphiW_sum (h : s.Built lib p) {n : ℕ} (hn : n < p + 1) :
    ∑ g ∈ Finset.range (p + 1), s.basis.dphiW.val n g = if n % 2 = 0 then 0 else 2 := by
  have e1 : ∑ g ∈ Finset.range (p + 1), s.basis.dphiW.val n g = (legendre ℝ n).eval 1 - (legendre ℝ n).eval (-1) := by
    rw [← intPoly_derivative, ← gauss_int h (derivative (legendre ℝ n))]
    · exact Finset.sum_congr rfl fun g _ => h.dphi n g
    · have := degree_deriv_mul hn (fun k => if k = 0 then (1 : ℝ) else 0)
      have h1 : legSeries (p + 1) (fun k => if k = 0 then (1 : ℝ) else 0) = 1 := by
        unfold legSeries
        rw [Finset.sum_eq_single 0]
        · simp [legendre_zero]
        · intro b _ hb; simp [hb]
        · intro h; simp at h
      rwa [h1, mul_one] at this
  rw [e1, legendre_eval_one, legendre_eval_neg_one, neg_one_pow_parity]
  split_ifs <;> ring

/-- The residual of the density. -/
noncomputable def Sol.rhoRes (s : Sol ℝ) (v : ℝ) (mass : ℝ → ℝ → ℝ) (u : ℕ → ℕ → ℝ) (n e : ℕ) : ℝ :=
  (∑ g ∈ Finset.range s.basis.NG, s.basis.dphiW.val n g * (v * s.gaussRho u e g) -
    (if n % 2 = 0 then mass (s.faceRho 1 u e) (s.faceRho 0 u e) - mass (s.faceRho 1 u (e - 1)) (s.faceRho 0 u (e - 1))
      else mass (s.faceRho 1 u (e - 1)) (s.faceRho 0 u (e - 1)) + mass (s.faceRho 1 u e) (s.faceRho 0 u e))) * s.scaledMinv.val n

/-- The residual of such a solution whose density vanishes at no Gauss point. -/
lemma residual_drift (h : s.Built lib p) (ha : Like a s) (ps : PhysSpec ℝ s.NF) (hps : s.kw.Pointwise ps) (hdr : ps.Drift v b c mass)
    (hen : ∀ en, s.enhance = some en → EnhanceConst en) (hk : s.BcKnown) (hd : Drifting s.NF (p + 1) 1 s.NE v b a.u.val)
    (hvac : ∀ e, 1 ≤ e → e ≤ s.NE → ∀ g < p + 1, s.gaussRho a.u.val e g ≠ 0) :
    ((∃ i < s.NE + 1, ps.fails (fun f => drift v b (s.faceRho 1 a.applyBc.u.val i) f) (fun f => drift v b (s.faceRho 0 a.applyBc.u.val i) f)) →
      ∃ e, ps.errs e ∧ residual a = .error e) ∧
    ((∀ i < s.NE + 1, ¬ ps.fails (fun f => drift v b (s.faceRho 1 a.applyBc.u.val i) f) (fun f => drift v b (s.faceRho 0 a.applyBc.u.val i) f)) →
      ∃ F : Arr ℝ, residual a = .ok (a.applyBc, F) ∧ F.rows = p + 1 ∧ F.cols = (s.NE + 2) * s.NF ∧ Drifting s.NF (p + 1) 1 s.NE v 0 F.val ∧
        ∀ n < p + 1, ∀ e, 1 ≤ e → e ≤ s.NE → F.val n (e * s.NF) = s.rhoRes v mass a.applyBc.u.val n e) := by
  have hfill := drifting_fill h ha hk hd
  have hface : ∀ side, (side = 0 ∨ side = 1) → ∀ i ≤ s.NE, s.face side a.applyBc.u.val i = fun f : Fin s.NF => drift v b (s.faceRho side a.applyBc.u.val i) f :=
    fun side hs i hi => drifting_face h hen hfill hs hi
  obtain ⟨r1, r2⟩ := residual_like h.wf ha hps
  constructor
  · rintro ⟨i, hi, hf⟩
    refine r1 ⟨i, hi, ?_⟩
    rw [hface 1 (.inr rfl) i (by omega), hface 0 (.inl rfl) i (by omega)]
    exact hf
  intro hok
  obtain ⟨F, hF, hFr, hFc, hin, -⟩ := r2 (fun i hi => by
    rw [hface 1 (.inr rfl) i (by omega), hface 0 (.inl rfl) i (by omega)]
    exact hok i hi)
  have key : ∀ n < p + 1, ∀ e, 1 ≤ e → e ≤ s.NE → ∀ f : Fin s.NF, F.val n (e * s.NF + f) = drift v 0 (s.rhoRes v mass a.applyBc.u.val n e) f := by
    intro n hn e h1 h2 f
    have hq : ∀ i ≤ s.NE, s.q ps a.applyBc.u.val i f = drift v 0 (mass (s.faceRho 1 a.applyBc.u.val i) (s.faceRho 0 a.applyBc.u.val i)) f + c f := by
      intro i hi
      unfold Sol.q
      rw [hface 1 (.inr rfl) i hi, hface 0 (.inl rfl) i hi]
      exact hdr.num _ _ (hok i (by omega)) f
    have hvol : s.vol ps a.applyBc.u.val n e f =
        drift v 0 (∑ g ∈ Finset.range s.basis.NG, s.basis.dphiW.val n g * (v * s.gaussRho a.applyBc.u.val e g)) f + (if n % 2 = 0 then 0 else 2) * c f := by
      unfold Sol.vol
      have hg : ∀ g ∈ Finset.range s.basis.NG, s.basis.dphiW.val n g * ps.flux (fun f' => ∑ k ∈ Finset.range s.basis.Ns, s.basis.phi.val g k * a.applyBc.u.val k (e * s.NF + f')) f =
          drift v 0 (s.basis.dphiW.val n g * (v * s.gaussRho a.applyBc.u.val e g)) f + s.basis.dphiW.val n g * c f := by
        intro g hg
        rw [h.ng] at hg
        have hr : s.gaussRho a.applyBc.u.val e g ≠ 0 := by
          have := hvac e h1 h2 g (Finset.mem_range.mp hg)
          convert this using 1
          unfold Sol.gaussRho
          refine Finset.sum_congr rfl fun k _ => ?_
          have := bcCol_interior s h1 h2 h.NF
          rw [ha.applyBc_val h.wf, show e * s.NF = e * s.NF + 0 from rfl, this]
        rw [drifting_gauss h hfill (by omega), hdr.flux _ hr, mul_add, drift_mul, mul_zero]
      rw [Finset.sum_congr rfl hg, Finset.sum_add_distrib, drift_sum, Finset.sum_const_zero, ← Finset.sum_mul, h.ng, dphiW_sum h hn]
    rw [hin n (by rw [h.ns]; exact hn) e h1 h2 f, hvol, hq e h2, hq (e - 1) (by omega)]
    unfold Sol.rhoRes
    split_ifs with hpar
    · generalize mass (s.faceRho 1 a.applyBc.u.val e) _ = A
      generalize mass (s.faceRho 1 a.applyBc.u.val (e - 1)) _ = B
      unfold drift; split_ifs <;> ring
    · generalize mass (s.faceRho 1 a.applyBc.u.val e) _ = A
      generalize mass (s.faceRho 1 a.applyBc.u.val (e - 1)) _ = B
      unfold drift; split_ifs <;> ring
  have key0 : ∀ n < p + 1, ∀ e, 1 ≤ e → e ≤ s.NE → F.val n (e * s.NF) = s.rhoRes v mass a.applyBc.u.val n e :=
    fun n hn e h1 h2 => key n hn e h1 h2 ⟨0, h.NF⟩
  refine ⟨F, hF, by rw [hFr, h.ns], hFc, ?_, key0⟩
  intro n hn e h1 h2 f hf
  rw [key n hn e h1 h2 ⟨f, hf⟩, key0 n hn e h1 h2, ite_self]

end Dg1d
