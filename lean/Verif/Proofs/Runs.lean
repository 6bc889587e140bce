import Verif.Proofs.DgAdvection
import Verif.Proofs.Simulation

/-! Helper lemmas: array relations kept by whole runs (conservation, uniform flow, shift, ghosts). -/

set_option linter.unusedSectionVars false

open Polynomial Dg1d.Spec

namespace Dg1d
variable {K : Type*} [Field K] [LinearOrder K] [IsStrictOrderedRing K]

/-- Same discretisation and same array shape as `s`. -/
structure Like (a s : Sol K) : Prop where
  setup : SameSetup a s
  rows : a.u.rows = s.u.rows
  cols : a.u.cols = s.u.cols

lemma Like.refl (s : Sol K) : Like s s := ⟨SameSetup.refl s, rfl, rfl⟩

lemma Like.built {a s : Sol K} {lib : GaussLib K} {p : ℕ} (h : Like a s) (hb : s.Built lib p) : a.Built lib p :=
  hb.congr h.setup h.rows h.cols

lemma Like.trans {a b c : Sol K} (h : Like a b) (g : Like b c) : Like a c :=
  ⟨h.setup.trans g.setup, h.rows.trans g.rows, h.cols.trans g.cols⟩

lemma Like.applyBc {a s : Sol K} (h : Like a s) : Like a.applyBc s :=
  ⟨(applyBc_setup a).trans h.setup, by rw [(applyBc_shape a).1, h.rows], by rw [(applyBc_shape a).2, h.cols]⟩

lemma Like.copy {w a s : Sol K} (hw : Like w s) (h : Like a s) : Like (w.copyDataOnly a) s := by
  refine ⟨?_, h.rows, h.cols⟩
  have : SameSetup (w.copyDataOnly a) w := by constructor <;> rfl
  exact this.trans hw.setup

lemma Like.axpy {a s : Sol K} (h : Like a s) (c : K) (A : Arr K) : Like { a with u := a.u.add (A.smul c) } s := by
  refine ⟨?_, h.rows, h.cols⟩
  have : SameSetup { a with u := a.u.add (A.smul c) } a := by constructor <;> rfl
  exact this.trans h.setup

lemma Like.clock {a s : Sol K} (h : Like a s) (t : K) (n : ℕ) : Like { a with t := t, n := n } s := by
  refine ⟨?_, h.rows, h.cols⟩
  have : SameSetup { a with t := t, n := n } a := by constructor <;> rfl
  exact this.trans h.setup

lemma cellMean_eq {s : Sol K} (hr : 0 < s.u.rows) (e f : ℕ) : cellMean s e f = s.u.val 0 (e * s.NF + f) := by
  unfold cellMean cellPoly
  have := intPoly_legSeries s.u.rows (fun n => s.u.val n (e * s.NF + f)) 0 hr
  rw [legendre_zero, mul_one] at this
  rw [this]
  norm_num

/-- The residual of a successful call returns the solution with ghosts filled. -/
lemma residual_sol {s s' : Sol K} {F : Arr K} (h : residual s = .ok (s', F)) : s' = s.applyBc := by
  unfold residual at h
  simp only at h
  revert h
  split
  · intro h; cases h
  · split
    · intro h; cases h
    · intro h; cases h; rfl

/-- The physics dictionary's maximum wave speed depends only on the set of cell averages. -/
def Physics.WaveCells (kw : Physics K) (NF : ℕ) : Prop :=
  ∀ (A B : Arr K) (N : ℕ), A.cols = N * NF → B.cols = N * NF →
    (∀ i < N, ∃ j < N, fieldsAt NF (A.val 0) i = fieldsAt NF (B.val 0) j) →
    (∀ j < N, ∃ i < N, fieldsAt NF (A.val 0) i = fieldsAt NF (B.val 0) j) →
    kw.maxWaveSpeed A = kw.maxWaveSpeed B

lemma cflTimeStep_congr {a b : Sol K} (hs : SameSetup a b) (hw : a.kw.maxWaveSpeed a.u = b.kw.maxWaveSpeed b.u) (c : K) :
    cflTimeStep a c = cflTimeStep b c := by
  unfold cflTimeStep
  rw [hw, hs.dx, hs.basis]

/-- The thresholds of the sensors, if there are any. -/
def Sol.thresholds (s : Sol K) : Option (List K) := s.sensors.map (·.thresholds)

lemma thresholds_applyBc (s : Sol K) : s.applyBc.thresholds = s.thresholds := by
  unfold Sol.thresholds Sol.applyBc Sol.applyBcRight Sol.applyBcLeft; split_ifs <;> rfl

/-! ### Uniform states -/

/-- Interior cells hold the constant state `c`, ghost cells have the average `c`. -/
structure Uniform (NE NF : ℕ) (rows : ℕ) (c : ℕ → K) (v : ℕ → ℕ → K) : Prop where
  mean : ∀ e ≤ NE + 1, ∀ f < NF, v 0 (e * NF + f) = c f
  high : ∀ n, 0 < n → n < rows → ∀ e, 1 ≤ e → e ≤ NE → ∀ f < NF, v n (e * NF + f) = 0

/-- Both boundary names are ones `apply_bc` knows. -/
def Sol.BcKnown (s : Sol K) : Prop :=
  (s.bcl.isLit "periodic" ∨ s.bcl.isLit "zerograd") ∧ (s.bcr.isLit "periodic" ∨ s.bcr.isLit "zerograd")

/-- Source cell of the ghost fill. -/
lemma bc_cell {s : Sol K} (hb : s.BcKnown) (hE : 0 < s.NE) (e : ℕ) (he : e ≤ s.NE + 1) :
    ∃ e', 1 ≤ e' ∧ e' ≤ s.NE ∧ ∀ f < s.NF, s.bcCol (e * s.NF + f) = e' * s.NF + f := by
  by_cases h0 : e = 0
  · subst h0
    by_cases hp : s.bcl.isLit "periodic"
    · exact ⟨s.NE, hE, le_rfl, fun f hf => by rw [zero_mul, zero_add, bcCol_left s hf, if_pos hp, add_comm]⟩
    · exact ⟨1, le_rfl, hE, fun f hf => by
        rw [zero_mul, zero_add, bcCol_left s hf, if_neg hp, if_pos (hb.1.resolve_left hp), one_mul, add_comm]⟩
  · by_cases h1 : e = s.NE + 1
    · subst h1
      by_cases hp : s.bcr.isLit "periodic"
      · exact ⟨1, le_rfl, hE, fun f hf => by rw [bcCol_right s hf, if_pos hp, one_mul]⟩
      · exact ⟨s.NE, hE, le_rfl, fun f hf => by
          rw [bcCol_right s hf, if_neg hp, if_pos (hb.2.resolve_left hp)]⟩
    · exact ⟨e, by omega, by omega, fun f hf => bcCol_interior s (by omega) (by omega) hf⟩

/-- After filling the ghosts of a uniform solution every cell holds the constant. -/
lemma uniform_filled {s : Sol K} {lib : GaussLib K} {p : ℕ} (h : s.Built lib p) (hb : s.BcKnown) {c : ℕ → K}
    (hu : Uniform s.NE s.NF (p + 1) c s.u.val) (e : ℕ) (he : e ≤ s.NE + 1) (f : ℕ) (hf : f < s.NF) (n : ℕ) (hn : n < p + 1) :
    s.applyBc.u.val n (e * s.NF + f) = if n = 0 then c f else 0 := by
  obtain ⟨e', h1, h2, h3⟩ := bc_cell hb h.NE e he
  rw [applyBc_val h.NF h.NE h.cols, h3 f hf]
  split
  · rename_i h0; subst h0; exact hu.mean e' (by omega) f hf
  · exact hu.high n (by omega) hn e' h1 h2 f hf

/-- Enhanced faces reproduce constants. -/
def EnhanceConst (en : Enhance K) : Prop :=
  en.alphaL.val 0 + en.alphaR.val 0 = 1 ∧ en.betaL.val 0 + en.betaR.val 0 = 1

lemma uniform_face {s : Sol K} {lib : GaussLib K} {p : ℕ} (h : s.Built lib p) (hen : ∀ en, s.enhance = some en → EnhanceConst en)
    (side : ℕ) (hside : side = 0 ∨ side = 1) (u : ℕ → ℕ → K) (c : ℕ → K) (i : ℕ)
    (hu : ∀ e, (e = i ∨ e = i + 1) → ∀ f < s.NF, ∀ n < p + 1, u n (e * s.NF + f) = if n = 0 then c f else 0) :
    s.face side u i = fun f : Fin s.NF => c f := by
  funext f
  unfold Sol.face
  rw [h.ns]
  have : ∀ n ∈ Finset.range (p + 1), (s.faceW side false n * u n (i * s.NF + f) + s.faceW side true n * u n ((i + 1) * s.NF + f)) =
      if n = 0 then (s.faceW side false 0 + s.faceW side true 0) * c f else 0 := by
    intro n hn
    have hn := Finset.mem_range.mp hn
    rw [hu i (Or.inl rfl) f f.2 n hn, hu (i + 1) (Or.inr rfl) f f.2 n hn]
    split
    · rename_i h0; subst h0; ring
    · ring
  rw [Finset.sum_congr rfl this, Finset.sum_ite_eq' _ 0, if_pos (Finset.mem_range.mpr (by omega))]
  have hw : s.faceW side false 0 + s.faceW side true 0 = 1 := by
    unfold Sol.faceW
    have p0 : s.basis.psi.val 0 0 = 1 := by rw [h.psi0]; simp [legendre_zero]
    have p1 : s.basis.psi.val 1 0 = 1 := by rw [h.psi1]; simp [legendre_zero]
    cases he : s.enhance with
    | none => rcases hside with rfl | rfl <;> simp [p0, p1]
    | some en =>
      obtain ⟨a, b⟩ := hen en he
      rcases hside with rfl | rfl <;> simp [a, b]
  rw [hw, one_mul]

/-- The residual of a uniform solution: defined, zero inside, in the ghosts the volume term (zero average). -/
lemma uniform_residual {s : Sol K} {lib : GaussLib K} {p : ℕ} (h : s.Built lib p) {NF : ℕ} (hNF : s.NF = NF)
    (ps : PhysSpec K NF) (hps : s.kw.Pointwise ps) (hb : s.BcKnown) (hen : ∀ en, s.enhance = some en → EnhanceConst en)
    {c : ℕ → K} (hu : Uniform s.NE NF (p + 1) c s.u.val)
    (hfail : ¬ ps.fails (fun f => c f) (fun f => c f))
    (hcons : ps.num (fun f => c f) (fun f => c f) = ps.flux (fun f => c f)) :
    ∃ F, residual s = .ok (s.applyBc, F) ∧ Uniform s.NE NF (p + 1) (fun _ => 0) F.val ∧
      ∀ n < p + 1, ∀ e, (e = 0 ∨ e = s.NE + 1) → ∀ f : Fin NF, F.val n (e * NF + f) =
        ps.flux (fun f => c f) f * ((legendre K n).eval 1 - (legendre K n).eval (-1)) * ((2 * (n : K) + 1) / s.dx) := by
  subst hNF
  have hfill := uniform_filled h hb hu
  have hface : ∀ side, (side = 0 ∨ side = 1) → ∀ i < s.NE + 1, s.face side s.applyBc.u.val i = fun f : Fin s.NF => c f := by
    intro side hs i hi
    exact uniform_face h hen side hs _ c i fun e he f hf n hn => hfill e (by omega) f hf n hn
  obtain ⟨F, hF, hr, hcl, hin, hgh⟩ := (residual_eq h.wf hps).2 (by
    intro i hi; rw [hface 1 (Or.inr rfl) i hi, hface 0 (Or.inl rfl) i hi]; exact hfail)
  have hvol : ∀ n < p + 1, ∀ e ≤ s.NE + 1, ∀ f : Fin s.NF, s.vol ps s.applyBc.u.val n e f =
      ps.flux (fun f => c f) f * ((legendre K n).eval 1 - (legendre K n).eval (-1)) := by
    intro n hn e he f
    unfold Sol.vol
    rw [h.ng, h.ns]
    have hin : ∀ g, (fun f' : Fin s.NF => ∑ k ∈ Finset.range (p + 1), s.basis.phi.val g k * s.applyBc.u.val k (e * s.NF + f')) =
        fun f' : Fin s.NF => c f' := by
      intro g
      funext f'
      have : ∀ k ∈ Finset.range (p + 1), s.basis.phi.val g k * s.applyBc.u.val k (e * s.NF + f') =
          if k = 0 then c f' else 0 := by
        intro k hk
        rw [hfill e he f' f'.2 k (Finset.mem_range.mp hk), h.phi]
        split
        · rename_i h0; subst h0; simp [legendre_zero]
        · ring
      rw [Finset.sum_congr rfl this, Finset.sum_ite_eq' _ 0, if_pos (Finset.mem_range.mpr (by omega))]
    simp only [hin]
    rw [← Finset.sum_mul, mul_comm]
    congr 1
    rw [← intPoly_derivative, ← gauss_int h (derivative (legendre K n))]
    · exact Finset.sum_congr rfl fun g _ => h.dphi n g
    · have := degree_deriv_mul hn (fun k => if k = 0 then (1 : K) else 0)
      have h1 : legSeries (p + 1) (fun k => if k = 0 then (1 : K) else 0) = 1 := by
        unfold legSeries
        rw [Finset.sum_eq_single 0]
        · simp [legendre_zero]
        · intro b _ hb; simp [hb]
        · intro h; simp at h
      rwa [h1, mul_one] at this
  refine ⟨F, hF, ⟨?_, ?_⟩, fun n hn e he f => by
    rw [hgh n (by rw [h.ns]; exact hn) e he f, hvol n hn e (by omega), h.minv n hn]⟩
  · intro e he f hf
    by_cases hg : e = 0 ∨ e = s.NE + 1
    · have := hgh 0 (by rw [h.ns]; omega) e hg ⟨f, hf⟩
      rw [this, hvol 0 (by omega) e he]
      simp [legendre_zero]
    · have := hin 0 (by rw [h.ns]; omega) e (by omega) (by omega) ⟨f, hf⟩
      rw [this, hvol 0 (by omega) e he]
      unfold Sol.q
      rw [hface 1 (Or.inr rfl) e (by omega), hface 0 (Or.inl rfl) e (by omega),
        hface 1 (Or.inr rfl) (e - 1) (by omega), hface 0 (Or.inl rfl) (e - 1) (by omega)]
      simp [legendre_zero]
  · intro n hn0 hn e he1 he2 f hf
    have := hin n (by rw [h.ns]; omega) e he1 he2 ⟨f, hf⟩
    rw [this, hvol n hn e (by omega)]
    unfold Sol.q
    rw [hface 1 (Or.inr rfl) e (by omega), hface 0 (Or.inl rfl) e (by omega),
      hface 1 (Or.inr rfl) (e - 1) (by omega), hface 0 (Or.inl rfl) (e - 1) (by omega), hcons, legendre_eval_one,
      legendre_eval_neg_one]
    rcases Nat.even_or_odd n with hp | hp
    · rw [hp.neg_one_pow, if_pos (Nat.even_iff.mp hp)]; ring
    · rw [hp.neg_one_pow, if_neg (by rw [Nat.odd_iff.mp hp]; norm_num)]; ring

/-! ### Equal cells up to renumbering -/

/-- `s` with other values, clock and flags. -/
def Sol.reb (s : Sol K) (u : Arr K) (t : K) (n : ℕ) (se : Option (Sensor K)) : Sol K :=
  { s with u := u, t := t, n := n, sensors := se }

lemma Like.eq_reb {a s : Sol K} (h : Like a s) : a = s.reb a.u a.t a.n a.sensors := by
  obtain ⟨⟨h1, h2, h3, h4, h5, h6, h7, h8, h9, h10, h11⟩, _, _⟩ := h
  cases a
  cases s
  simp_all [Sol.reb]

/-- `residual_eq` for a solution of the same kind, written with the data of the reference solution. -/
lemma residual_like {s a : Sol K} (h : s.WF) (ha : Like a s) {ps : PhysSpec K s.NF} (hps : s.kw.Pointwise ps) :
    ((∃ i < s.NE + 1, ps.fails (s.face 1 a.applyBc.u.val i) (s.face 0 a.applyBc.u.val i)) →
      ∃ e, ps.errs e ∧ residual a = .error e) ∧
    ((∀ i < s.NE + 1, ¬ ps.fails (s.face 1 a.applyBc.u.val i) (s.face 0 a.applyBc.u.val i)) →
      ∃ F : Arr K, residual a = .ok (a.applyBc, F) ∧ F.rows = s.basis.Ns ∧ F.cols = (s.NE + 2) * s.NF ∧
        (∀ n < s.basis.Ns, ∀ e, 1 ≤ e → e ≤ s.NE → ∀ f : Fin s.NF, F.val n (e * s.NF + f) =
          (s.vol ps a.applyBc.u.val n e f - (if n % 2 = 0 then s.q ps a.applyBc.u.val e f - s.q ps a.applyBc.u.val (e - 1) f
            else s.q ps a.applyBc.u.val (e - 1) f + s.q ps a.applyBc.u.val e f)) * s.scaledMinv.val n) ∧
        (∀ n < s.basis.Ns, ∀ e, (e = 0 ∨ e = s.NE + 1) → ∀ f : Fin s.NF, F.val n (e * s.NF + f) =
          s.vol ps a.applyBc.u.val n e f * s.scaledMinv.val n)) := by
  obtain ⟨hset, hr, hc⟩ := ha
  rw [Like.eq_reb ⟨hset, hr, hc⟩]
  have hw : (s.reb a.u a.t a.n a.sensors).WF :=
    { NF := h.NF, NE := h.NE, rows := hr.trans h.rows, cols := hc.trans h.cols, phi := h.phi, dphi := h.dphi, psi := h.psi, enh := h.enh }
  exact residual_eq (s := s.reb a.u a.t a.n a.sensors) hw (ps := ps) hps

/-- Two solutions of the same kind whose cells (after the ghost fill) correspond by `τ`, so that neighbouring
cells correspond to neighbouring cells. -/
lemma residual_renumber {s : Sol K} {lib : GaussLib K} {p : ℕ} (h : s.Built lib p) {a b : Sol K} (ha : Like a s) (hb : Like b s)
    (ps : PhysSpec K s.NF) (hps : s.kw.Pointwise ps) (τ : ℕ → ℕ)
    (hface : ∀ i ≤ s.NE, τ i ≤ s.NE ∧ ∀ n < p + 1, ∀ f < s.NF,
      b.applyBc.u.val n (i * s.NF + f) = a.applyBc.u.val n (τ i * s.NF + f) ∧
      b.applyBc.u.val n ((i + 1) * s.NF + f) = a.applyBc.u.val n ((τ i + 1) * s.NF + f))
    (hsurj : ∀ j ≤ s.NE, ∃ i ≤ s.NE, ∀ side, s.face side a.applyBc.u.val j = s.face side a.applyBc.u.val (τ i))
    (hprev : ∀ e, 1 ≤ e → e ≤ s.NE → 1 ≤ τ e ∧
      ∀ side, s.face side a.applyBc.u.val (τ e - 1) = s.face side a.applyBc.u.val (τ (e - 1))) :
    ExRel ps.sameErr (fun x y => x.1 = a.applyBc ∧ y.1 = b.applyBc ∧ ∀ n < p + 1, ∀ e, 1 ≤ e → e ≤ s.NE → ∀ f < s.NF,
      y.2.val n (e * s.NF + f) = x.2.val n (τ e * s.NF + f)) (residual a) (residual b) := by
  have hfc : ∀ side, ∀ i ≤ s.NE, s.face side b.applyBc.u.val i = s.face side a.applyBc.u.val (τ i) := by
    intro side i hi
    apply Sol.face_congr
    intro n hn f hf
    exact (hface i hi).2 n (by rw [← h.ns]; exact hn) f hf
  obtain ⟨ra1, ra2⟩ := residual_like h.wf ha hps
  obtain ⟨rb1, rb2⟩ := residual_like h.wf hb hps
  by_cases hf : ∃ i < s.NE + 1, ps.fails (s.face 1 b.applyBc.u.val i) (s.face 0 b.applyBc.u.val i)
  · obtain ⟨eb, hb1, hb2⟩ := rb1 hf
    obtain ⟨i, hi, hf⟩ := hf
    rw [hfc 1 i (by omega), hfc 0 i (by omega)] at hf
    obtain ⟨ea, ha1, ha2⟩ := ra1 ⟨τ i, by have := (hface i (by omega)).1; omega, hf⟩
    rw [ha2, hb2]
    exact .inr ⟨ha1, hb1⟩
  · have hfa : ∀ j < s.NE + 1, ¬ ps.fails (s.face 1 a.applyBc.u.val j) (s.face 0 a.applyBc.u.val j) := by
      intro j hj hj2
      obtain ⟨i, hi, hi2⟩ := hsurj j (by omega)
      rw [hi2, hi2, ← hfc 1 i hi, ← hfc 0 i hi] at hj2
      exact hf ⟨i, by omega, hj2⟩
    push Not at hf
    obtain ⟨F, hF, _, _, hFi, _⟩ := ra2 hfa
    obtain ⟨G, hG, _, _, hGi, _⟩ := rb2 hf
    rw [hF, hG]
    refine ⟨rfl, rfl, ?_⟩
    intro n hn e he1 he2 f hff
    have hn' : n < s.basis.Ns := by rw [h.ns]; exact hn
    have eG := hGi n hn' e he1 he2 ⟨f, hff⟩
    obtain ⟨hp1, hp2⟩ := hprev e he1 he2
    obtain ⟨ht, hcell⟩ := hface e he2
    have eF := hFi n hn' (τ e) hp1 ht ⟨f, hff⟩
    simp only at eF eG ⊢
    rw [eF, eG]
    have hq : s.q ps b.applyBc.u.val e = s.q ps a.applyBc.u.val (τ e) := by
      unfold Sol.q; rw [hfc 1 e he2, hfc 0 e he2]
    have hq' : s.q ps b.applyBc.u.val (e - 1) = s.q ps a.applyBc.u.val (τ e - 1) := by
      unfold Sol.q; rw [hfc 1 (e - 1) (by omega), hfc 0 (e - 1) (by omega), hp2, hp2]
    have hv : s.vol ps b.applyBc.u.val n e ⟨f, hff⟩ = s.vol ps a.applyBc.u.val n (τ e) ⟨f, hff⟩ := by
      unfold Sol.vol
      apply Finset.sum_congr rfl
      intro g _
      congr 2
      funext f'
      apply Finset.sum_congr rfl
      intro k hk
      rw [(hcell k (by rw [← h.ns]; exact Finset.mem_range.mp hk) f' f'.2).1]
    rw [hq, hq', hv]

/-- Cell `e` of the solution shifted by `m` cells on a ring of `NE` cells (interior cells are `1 … NE`). -/
def ringShift (NE m e : ℕ) : ℕ := (e + NE - 1 + m) % NE + 1

lemma ringShift_range {NE : ℕ} (m e : ℕ) (h : 0 < NE) : 1 ≤ ringShift NE m e ∧ ringShift NE m e ≤ NE := by
  unfold ringShift
  have := Nat.mod_lt (e + NE - 1 + m) h
  omega

lemma ringShift_succ {NE : ℕ} (m e : ℕ) (h : 0 < NE) :
    ringShift NE m (e + 1) = if ringShift NE m e = NE then 1 else ringShift NE m e + 1 := by
  unfold ringShift
  have e1 : e + 1 + NE - 1 + m = (e + NE - 1 + m) + 1 := by omega
  rw [e1, Nat.add_mod (e + NE - 1 + m) 1]
  generalize hq : (e + NE - 1 + m) % NE = q
  have hlt : q < NE := by rw [← hq]; exact Nat.mod_lt _ h
  by_cases h1 : NE = 1
  · subst h1
    obtain rfl : q = 0 := by omega
    simp
  · rw [Nat.mod_eq_of_lt (show 1 < NE by omega)]
    by_cases hl : q + 1 = NE
    · rw [if_pos hl, hl, Nat.mod_self]
    · rw [if_neg hl, Nat.mod_eq_of_lt (by omega)]

lemma ringShift_surj {NE : ℕ} (m : ℕ) (h : 0 < NE) (j : ℕ) (h1 : 1 ≤ j) (h2 : j ≤ NE) :
    ∃ i, 1 ≤ i ∧ i ≤ NE ∧ ringShift NE m i = j := by
  have key : ∀ d < NE, ∃ i, 1 ≤ i ∧ i ≤ NE ∧ ringShift NE m i = d + 1 := by
    intro d
    induction d with
    | zero =>
      intro _
      refine ⟨(NE - m % NE) % NE + 1, by omega, by have := Nat.mod_lt (NE - m % NE) h; omega, ?_⟩
      unfold ringShift
      have hm := Nat.mod_lt m h
      have : ((NE - m % NE) % NE + 1 + NE - 1 + m) % NE = 0 := by
        rw [show (NE - m % NE) % NE + 1 + NE - 1 + m = (NE - m % NE) % NE + (NE + m) by omega, Nat.add_mod,
          Nat.mod_mod, ← Nat.add_mod, Nat.add_mod]
        rw [Nat.add_mod_left, Nat.mod_add_mod]
        rw [show NE - m % NE + m % NE = NE by omega, Nat.mod_self]
      rw [this]
    | succ d ih =>
      intro hd
      obtain ⟨i, hi1, hi2, hi3⟩ := ih (by omega)
      have hs := ringShift_succ (NE := NE) m i h
      rw [hi3, if_neg (by omega)] at hs
      by_cases hi : i = NE
      · refine ⟨1, le_rfl, h, ?_⟩
        rw [← hs, hi]
        unfold ringShift
        congr 1
        rw [show NE + 1 + NE - 1 + m = (1 + NE - 1 + m) + NE by omega, Nat.add_mod_right]
      · exact ⟨i + 1, by omega, by omega, hs⟩
  obtain ⟨i, a, b, c⟩ := key (j - 1) (by omega)
  exact ⟨i, a, b, by omega⟩

/-- Cell `e` of `b` is cell `ringShift e` of `a`, for interior cells. -/
def Shifted (NE NF rows m : ℕ) (A B : ℕ → ℕ → K) : Prop :=
  ∀ n < rows, ∀ e, 1 ≤ e → e ≤ NE → ∀ f < NF, B n (e * NF + f) = A n (ringShift NE m e * NF + f)

/-- The periodic ghost fill as a statement about all cells. -/
lemma periodic_fill {a s : Sol K} (h : Like a s) (hw : s.WF) (hl : s.bcl.isLit "periodic") (hr : s.bcr.isLit "periodic")
    (n : ℕ) {e : ℕ} (he : e ≤ s.NE + 1) {f : ℕ} (hf : f < s.NF) :
    a.applyBc.u.val n (e * s.NF + f) = a.u.val n (ringShift s.NE 0 e * s.NF + f) := by
  have hNE := h.setup.NE
  have hNF := h.setup.NF
  rw [applyBc_val (by rw [hNF]; exact hw.NF) (by rw [hNE]; exact hw.NE) (by rw [h.cols, hNE, hNF]; exact hw.cols)]
  have hE := hw.NE
  rw [← hNF] at hf ⊢
  rw [← hNE] at he ⊢ hE
  have hring : ∀ x < a.NE, (x + a.NE) % a.NE = x := fun x hx => by rw [Nat.add_mod_right, Nat.mod_eq_of_lt hx]
  by_cases h0 : e = 0
  · subst h0
    rw [zero_mul, zero_add, bcCol_left a hf, h.setup.bcl, if_pos hl]
    unfold ringShift
    rw [show (0 + a.NE - 1 + 0) % a.NE = a.NE - 1 by
      rw [show 0 + a.NE - 1 + 0 = a.NE - 1 by omega]; exact Nat.mod_eq_of_lt (by omega), Nat.sub_add_cancel hE, add_comm]
  · by_cases h1 : e = a.NE + 1
    · subst h1
      rw [bcCol_right a hf, h.setup.bcr, if_pos hr]
      unfold ringShift
      rw [show a.NE + 1 + a.NE - 1 + 0 = (0 + a.NE) + a.NE by omega, Nat.add_mod_right, hring 0 hE, zero_add, one_mul]
    · rw [bcCol_interior a (by omega) (by omega) hf]
      unfold ringShift
      rw [show e + a.NE - 1 + 0 = (e - 1) + a.NE by omega, hring (e - 1) (by omega), Nat.sub_add_cancel (by omega)]

lemma ringShift_comp {NE : ℕ} (m e : ℕ) (h : 0 < NE) : ringShift NE m (ringShift NE 0 e) = ringShift NE m e := by
  unfold ringShift
  rw [add_zero, show (e + NE - 1) % NE + 1 + NE - 1 + m = (e + NE - 1) % NE + (NE + m) by omega, Nat.mod_add_mod,
    show e + NE - 1 + (NE + m) = e + NE - 1 + m + NE by omega, Nat.add_mod_right]

lemma ringShift_zero {NE : ℕ} {e : ℕ} (h1 : 1 ≤ e) (h2 : e ≤ NE) : ringShift NE 0 e = e := by
  unfold ringShift
  rw [show e + NE - 1 + 0 = (e - 1) + NE by omega, Nat.add_mod_right, Nat.mod_eq_of_lt (by omega)]
  omega

lemma shifted_fill {a b s : Sol K} (ha : Like a s) (hb : Like b s) (hw : s.WF) (hl : s.bcl.isLit "periodic")
    (hr : s.bcr.isLit "periodic") {rows m : ℕ} (hs : Shifted s.NE s.NF rows m a.u.val b.u.val) {n : ℕ} (hn : n < rows)
    {e : ℕ} (he : e ≤ s.NE + 1) {f : ℕ} (hf : f < s.NF) :
    b.applyBc.u.val n (e * s.NF + f) = a.applyBc.u.val n (ringShift s.NE m e * s.NF + f) := by
  have hr1 := ringShift_range (NE := s.NE) 0 e hw.NE
  have hr2 := ringShift_range (NE := s.NE) m e hw.NE
  rw [periodic_fill hb hw hl hr n he hf, periodic_fill ha hw hl hr n (by omega) hf, hs n hn _ hr1.1 hr1.2 f hf,
    ringShift_comp m e hw.NE, ringShift_zero hr2.1 hr2.2]

/-- The residual of a shifted solution is the shifted residual. -/
lemma residual_shift {s : Sol K} {lib : GaussLib K} {p : ℕ} (h : s.Built lib p) {a b : Sol K} (ha : Like a s) (hb : Like b s)
    (ps : PhysSpec K s.NF) (hps : s.kw.Pointwise ps) (hl : s.bcl.isLit "periodic") (hr : s.bcr.isLit "periodic") {m : ℕ}
    (hs : Shifted s.NE s.NF (p + 1) m a.u.val b.u.val) :
    ExRel ps.sameErr (fun x y => x.1 = a.applyBc ∧ y.1 = b.applyBc ∧ Shifted s.NE s.NF (p + 1) m x.2.val y.2.val)
      (residual a) (residual b) := by
  have hE := h.NE
  have hper : ∀ n, ∀ f < s.NF, a.applyBc.u.val n ((s.NE + 1) * s.NF + f) = a.applyBc.u.val n (1 * s.NF + f) ∧
      a.applyBc.u.val n (0 * s.NF + f) = a.applyBc.u.val n (s.NE * s.NF + f) := by
    intro n f hf
    rw [periodic_fill ha h.wf hl hr n le_rfl hf, periodic_fill ha h.wf hl hr n (by omega) hf,
      periodic_fill ha h.wf hl hr n (by omega) hf, periodic_fill ha h.wf hl hr n (by omega) hf]
    have e1 : ringShift s.NE 0 (s.NE + 1) = 1 := by
      rw [ringShift_succ 0 s.NE hE, ringShift_zero hE le_rfl, if_pos rfl]
    have e2 : ringShift s.NE 0 0 = s.NE := by
      unfold ringShift
      rw [Nat.mod_eq_of_lt (by omega)]; omega
    rw [e1, e2, ringShift_zero le_rfl hE, ringShift_zero hE le_rfl]
    exact ⟨rfl, rfl⟩
  have hface0 : ∀ side, s.face side a.applyBc.u.val 0 = s.face side a.applyBc.u.val s.NE := by
    intro side
    apply Sol.face_congr
    intro n _ f hf
    exact ⟨(hper n f hf).2, by rw [(hper n f hf).1, zero_add]⟩
  have hnext : ∀ n, ∀ f < s.NF, ∀ i, a.applyBc.u.val n (ringShift s.NE m (i + 1) * s.NF + f) =
      a.applyBc.u.val n ((ringShift s.NE m i + 1) * s.NF + f) := by
    intro n f hf i
    rw [ringShift_succ m i hE]
    split
    · rename_i hx; rw [hx, (hper n f hf).1]
    · rfl
  refine residual_renumber h ha hb ps hps (ringShift s.NE m) ?_ ?_ ?_
  · intro i hi
    refine ⟨(ringShift_range m i hE).2, fun n hn f hf => ⟨shifted_fill ha hb h.wf hl hr hs hn (by omega) hf, ?_⟩⟩
    rw [shifted_fill ha hb h.wf hl hr hs hn (by omega) hf, hnext n f hf]
  · intro j hj
    by_cases h0 : j = 0
    · obtain ⟨i, h1, h2, h3⟩ := ringShift_surj m hE s.NE hE le_rfl
      exact ⟨i, h2, fun side => by rw [h3, h0, hface0]⟩
    · obtain ⟨i, h1, h2, h3⟩ := ringShift_surj m hE j (by omega) hj
      exact ⟨i, h2, fun side => by rw [h3]⟩
  · intro e he1 he2
    refine ⟨(ringShift_range m e hE).1, fun side => ?_⟩
    obtain ⟨d, rfl⟩ : ∃ d, e = d + 1 := ⟨e - 1, by omega⟩
    rw [Nat.add_sub_cancel, ringShift_succ m d hE]
    split
    · rename_i hx; rw [hx, Nat.sub_self, hface0]
    · rw [Nat.add_sub_cancel]

/-- Shifted solutions with filled ghosts have the same maximum wave speed. -/
lemma shifted_wave {a b s : Sol K} (ha : Like a s) (hb : Like b s) (hw : s.WF) (hl : s.bcl.isLit "periodic")
    (hr : s.bcr.isLit "periodic") {rows m : ℕ} (hrow : 0 < rows) (hs : Shifted s.NE s.NF rows m a.u.val b.u.val)
    (hwc : s.kw.WaveCells s.NF) :
    a.applyBc.kw.maxWaveSpeed a.applyBc.u = b.applyBc.kw.maxWaveSpeed b.applyBc.u := by
  rw [(applyBc_setup a).kw, (applyBc_setup b).kw, ha.setup.kw, hb.setup.kw]
  have hE := hw.NE
  refine hwc _ _ (s.NE + 2) (by rw [(applyBc_shape a).2, ha.cols, hw.cols]) (by rw [(applyBc_shape b).2, hb.cols, hw.cols]) ?_ ?_
  · intro i hi
    have hr1 := ringShift_range (NE := s.NE) 0 i hE
    obtain ⟨j, h1, h2, h3⟩ := ringShift_surj m hE (ringShift s.NE 0 i) hr1.1 hr1.2
    refine ⟨j, by omega, ?_⟩
    funext f
    show a.applyBc.u.val 0 _ = b.applyBc.u.val 0 _
    rw [shifted_fill ha hb hw hl hr hs hrow (by omega) f.2, h3, periodic_fill ha hw hl hr 0 (by omega) f.2,
      periodic_fill ha hw hl hr 0 (by omega) f.2, ringShift_comp 0 i hE]
  · intro j hj
    have hr1 := ringShift_range (NE := s.NE) m j hE
    refine ⟨ringShift s.NE m j, by omega, ?_⟩
    funext f
    show a.applyBc.u.val 0 _ = b.applyBc.u.val 0 _
    rw [shifted_fill ha hb hw hl hr hs hrow (by omega) f.2]

/-! ### Ghost cells -/

/-- Equal interior cells. -/
def SameInterior (NE NF rows : ℕ) (A B : ℕ → ℕ → K) : Prop :=
  ∀ n < rows, ∀ e, 1 ≤ e → e ≤ NE → ∀ f < NF, A n (e * NF + f) = B n (e * NF + f)

lemma sameInterior_fill {a b s : Sol K} (ha : Like a s) (hb : Like b s) (hw : s.WF) (hk : s.BcKnown) {rows : ℕ}
    (hs : SameInterior s.NE s.NF rows a.u.val b.u.val) {n : ℕ} (hn : n < rows) {e : ℕ} (he : e ≤ s.NE + 1) {f : ℕ}
    (hf : f < s.NF) : a.applyBc.u.val n (e * s.NF + f) = b.applyBc.u.val n (e * s.NF + f) := by
  have key : ∀ x : Sol K, Like x s → ∀ r c, x.applyBc.u.val r c = x.u.val r (s.bcCol c) := by
    intro x hx r c
    rw [applyBc_val (by rw [hx.setup.NF]; exact hw.NF) (by rw [hx.setup.NE]; exact hw.NE)
      (by rw [hx.cols, hx.setup.NE, hx.setup.NF]; exact hw.cols)]
    congr 1
    unfold Sol.bcCol
    rw [hx.setup.NE, hx.setup.NF, hx.setup.bcl, hx.setup.bcr]
  obtain ⟨e', h1, h2, h3⟩ := bc_cell hk hw.NE e he
  rw [key a ha, key b hb, h3 f hf, hs n hn e' h1 h2 f hf]

lemma residual_ghosts {s : Sol K} {lib : GaussLib K} {p : ℕ} (h : s.Built lib p) {a b : Sol K} (ha : Like a s) (hb : Like b s)
    (ps : PhysSpec K s.NF) (hps : s.kw.Pointwise ps) (hk : s.BcKnown)
    (hs : SameInterior s.NE s.NF (p + 1) a.u.val b.u.val) :
    ExRel ps.sameErr (fun x y => x.1 = a.applyBc ∧ y.1 = b.applyBc ∧ SameInterior s.NE s.NF (p + 1) x.2.val y.2.val)
      (residual a) (residual b) := by
  have hfill := fun {n} (hn : n < p + 1) {e} (he : e ≤ s.NE + 1) {f} (hf : f < s.NF) => (sameInterior_fill ha hb h.wf hk hs hn he hf).symm
  have := residual_renumber h ha hb ps hps id
    (fun i hi => ⟨hi, fun n hn f hf => ⟨hfill hn (by omega) hf, hfill hn (by omega) hf⟩⟩)
    (fun j hj => ⟨j, hj, fun _ => rfl⟩) (fun e he1 he2 => ⟨he1, fun _ => rfl⟩)
  rcases this.cases with ⟨e, e', h1, h2, hE⟩ | ⟨x, y, h1, h2, h3, h4, h5⟩
  · rw [h1, h2]; exact hE
  · rw [h1, h2]
    exact ⟨h3, h4, fun n hn e he1 he2 f hf => (h5 n hn e he1 he2 f hf).symm⟩

lemma ghosts_wave {a b s : Sol K} (ha : Like a s) (hb : Like b s) (hw : s.WF) (hk : s.BcKnown) {rows : ℕ} (hrow : 0 < rows)
    (hs : SameInterior s.NE s.NF rows a.u.val b.u.val) (hwc : s.kw.WaveCells s.NF) :
    a.applyBc.kw.maxWaveSpeed a.applyBc.u = b.applyBc.kw.maxWaveSpeed b.applyBc.u := by
  rw [(applyBc_setup a).kw, (applyBc_setup b).kw, ha.setup.kw, hb.setup.kw]
  have h1 : ∀ i < s.NE + 2, ∃ j < s.NE + 2, fieldsAt s.NF (a.applyBc.u.val 0) i = fieldsAt s.NF (b.applyBc.u.val 0) j := by
    intro i hi
    refine ⟨i, hi, ?_⟩
    funext f
    exact sameInterior_fill ha hb hw hk hs hrow (by omega) f.2
  have h2 : ∀ j < s.NE + 2, ∃ i < s.NE + 2, fieldsAt s.NF (a.applyBc.u.val 0) i = fieldsAt s.NF (b.applyBc.u.val 0) j := by
    intro i hi
    refine ⟨i, hi, ?_⟩
    funext f
    exact sameInterior_fill ha hb hw hk hs hrow (by omega) f.2
  exact hwc _ _ (s.NE + 2) (by rw [(applyBc_shape a).2, ha.cols, hw.cols]) (by rw [(applyBc_shape b).2, hb.cols, hw.cols]) h1 h2

lemma Advection.waveCells (NF : ℕ) : (Advection.physics (K := K)).WaveCells NF := fun _ _ _ _ _ _ _ => rfl

end Dg1d
