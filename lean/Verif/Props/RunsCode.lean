import Verif.Props.RunsLimited

/-! # Translation and ghost cells for whole runs of the code

`C18_run_shift` and `C21_run_ghosts_partial` with the physics of the code and the ghost cells filled before the run, which
is what main.py does (main.py:68). -/

open Polynomial Dg1d.Spec

namespace Dg1d.Props
open Text

variable {γ : ℝ} {system riemann : Str} {s : Sol ℝ} {lib : GaussLib ℝ} {p : ℕ}

lemma EndSim.iff {E : PyErr → PyErr → Prop} {x y : Status} (h : EndSim E x y) :
    (x = .done ↔ y = .done) ∧ (x = .running ↔ y = .running) := by
  rcases h with rfl | ⟨e, e', rfl, rfl, -⟩
  · exact ⟨Iff.rfl, Iff.rfl⟩
  · exact ⟨⟨fun h => (by cases h), fun h => (by cases h)⟩, ⟨fun h => (by cases h), fun h => (by cases h)⟩⟩

lemma EndSim.failed {E : PyErr → PyErr → Prop} {x y : Status} (h : EndSim E x y) : (∃ e, x = .failed e) ↔ ∃ e, y = .failed e := by
  rcases h with rfl | ⟨e, e', rfl, rfl, -⟩
  · exact Iff.rfl
  · exact ⟨fun _ => ⟨e', rfl⟩, fun _ => ⟨e, rfl⟩⟩

/-- **C18 (runs of the code).** Either system, every Riemann solver name, every scheme, any enhancement, no limiter. `s` and
`s'` hold the same data shifted by `m` cells on a periodic domain; the ghost cells are filled and the integrator is
started. The two runs stay shifted copies of each other, have the same clock and outputs, and end in the same way. -/
theorem C18_run_code (hγ : 1 < γ) (h : s.Built lib p) (hp : CodePhysics γ system riemann s)
    (hl : s.bcl = .lit "periodic") (hr : s.bcr = .lit "periodic") (m : ℕ) (s' : Sol ℝ) (hlike : Like s' s)
    (hshift : IsShift m s s') (ht : s.t = s'.t) (hn : s.n = s'.n) (deck : RkDeck ℝ) (k : ℕ) :
    let r := integrate ⟨residual, Limiter.limit none⟩ deck s.applyBc k
    let r' := integrate ⟨residual, Limiter.limit none⟩ deck s'.applyBc k
    IsShift m r.sol r'.sol ∧ r.sol.t = r'.sol.t ∧ r.sol.n = r'.sol.n ∧
    (r.status = .done ↔ r'.status = .done) ∧ ((∃ e, r.status = .failed e) ↔ ∃ e, r'.status = .failed e) ∧
    List.Forall₂ (fun o o' => o.nout = o'.nout ∧ o.dt = o'.dt ∧ o.sol.t = o'.sol.t ∧ o.sol.n = o'.sol.n ∧
      IsShift m o.sol o'.sol) r.log r'.log := by
  have hlit : s.bcl.isLit "periodic" ∧ s.bcr.isLit "periodic" := by
    rw [hl, hr]; exact ⟨⟨rfl, rfl⟩, ⟨rfl, rfl⟩⟩
  have hset := applyBc_setup s
  have hla : Like s.applyBc s := (Like.refl s).applyBc
  have hlb : Like s'.applyBc s := hlike.applyBc
  have hsh := (isShift_iff (Like.refl s) hlike h.rows m).mp hshift
  have hp' : CodePhysics γ system riemann s.applyBc := ⟨by rw [hset.kw]; exact hp.kw, by rw [hset.NF]; exact hp.NF⟩
  obtain ⟨ps, hps, hwave, -⟩ := hp'.pointwise hγ
  obtain ⟨ps0, hps0, hwave0, -⟩ := hp.pointwise hγ
  have hshift' : IsShift m s.applyBc s'.applyBc :=
    (isShift_iff hla hlb h.rows m).mpr fun n hn e h1 h2 f hf => shifted_fill (Like.refl s) hlike h.wf hlit.1 hlit.2 hsh hn (by omega) hf
  have hspeed := shifted_wave (Like.refl s) hlike h.wf hlit.1 hlit.2 (Nat.succ_pos p) hsh hwave0
  have hsp : s.applyBc.kw.maxWaveSpeed s.applyBc.u = s.applyBc.kw.maxWaveSpeed s'.applyBc.u := by
    rw [hspeed, (applyBc_setup s').kw, hset.kw, hlike.setup.kw]
  have hback : Like s'.applyBc s.applyBc := ⟨hlb.setup.trans hla.setup.symm, hlb.rows.trans hla.rows.symm, hlb.cols.trans hla.cols.symm⟩
  have := C18_run_shift (hla.built h) ps hps hwave (by rw [hset.bcl]; exact hl) (by rw [hset.bcr]; exact hr) m s'.applyBc hback hshift'
    (by rw [(applyBc_clock s).1, (applyBc_clock s').1]; exact ht) (by rw [(applyBc_clock s).2, (applyBc_clock s').2]; exact hn) hsp deck (schemeFor deck.rk) k
  obtain ⟨h1, h2, h3, h4, h5⟩ := this
  exact ⟨h1, h2, h3, (EndSim.iff h4).1, EndSim.failed h4, h5⟩

/-- **C21 (whole runs of the code).** Either system, every Riemann solver name, every scheme, any enhancement, no limiter.
Two solutions with the same interior, whatever their ghost cells: after the ghost cells have been filled the two runs
agree in every interior cell, the clock, the outputs and how they end. What is missing against the property: ghost cells
have to be filled before the first step (see `C21_first_step`), and the limiter (see `C21_stale_ghosts`). -/
theorem C21_run_code_partial (hγ : 1 < γ) (h : s.Built lib p) (hp : CodePhysics γ system riemann s)
    (hl : s.bcl = .lit "periodic" ∨ s.bcl = .lit "zerograd") (hr : s.bcr = .lit "periodic" ∨ s.bcr = .lit "zerograd")
    (s' : Sol ℝ) (hlike : Like s' s)
    (hsame : ∀ n < p + 1, ∀ e, 1 ≤ e → e ≤ s.NE → ∀ f < s.NF, s.u.val n (e * s.NF + f) = s'.u.val n (e * s.NF + f))
    (ht : s.t = s'.t) (hn : s.n = s'.n) (deck : RkDeck ℝ) (k : ℕ) :
    let same := fun a b : Sol ℝ => ∀ n < p + 1, ∀ e, 1 ≤ e → e ≤ s.NE → ∀ f < s.NF,
      a.u.val n (e * s.NF + f) = b.u.val n (e * s.NF + f)
    let r := integrate ⟨residual, Limiter.limit none⟩ deck s.applyBc k
    let r' := integrate ⟨residual, Limiter.limit none⟩ deck s'.applyBc k
    same r.sol r'.sol ∧ r.sol.t = r'.sol.t ∧ r.sol.n = r'.sol.n ∧
    (r.status = .done ↔ r'.status = .done) ∧ ((∃ e, r.status = .failed e) ↔ ∃ e, r'.status = .failed e) ∧
    List.Forall₂ (fun o o' => o.nout = o'.nout ∧ o.dt = o'.dt ∧ o.sol.t = o'.sol.t ∧ o.sol.n = o'.sol.n ∧
      same o.sol o'.sol) r.log r'.log := by
  have hk : s.BcKnown := by
    refine ⟨hl.imp ?_ ?_, hr.imp ?_ ?_⟩ <;> (intro hx; rw [hx]; exact ⟨rfl, rfl⟩)
  have hset := applyBc_setup s
  have hla : Like s.applyBc s := (Like.refl s).applyBc
  have hlb : Like s'.applyBc s := hlike.applyBc
  have hp' : CodePhysics γ system riemann s.applyBc := ⟨by rw [hset.kw]; exact hp.kw, by rw [hset.NF]; exact hp.NF⟩
  obtain ⟨ps, hps, hwave, -⟩ := hp'.pointwise hγ
  obtain ⟨ps0, hps0, hwave0, -⟩ := hp.pointwise hγ
  have hspeed := ghosts_wave (Like.refl s) hlike h.wf hk (Nat.succ_pos p) hsame hwave0
  have hsp : s.applyBc.kw.maxWaveSpeed s.applyBc.u = s.applyBc.kw.maxWaveSpeed s'.applyBc.u := by
    rw [hspeed, (applyBc_setup s').kw, hset.kw, hlike.setup.kw]
  have hback : Like s'.applyBc s.applyBc := ⟨hlb.setup.trans hla.setup.symm, hlb.rows.trans hla.rows.symm, hlb.cols.trans hla.cols.symm⟩
  have hs2 : ∀ n < p + 1, ∀ e, 1 ≤ e → e ≤ s.applyBc.NE → ∀ f < s.applyBc.NF,
      s.applyBc.u.val n (e * s.applyBc.NF + f) = s'.applyBc.u.val n (e * s.applyBc.NF + f) := by
    rw [hset.NE, hset.NF]
    exact fun n hn e h1 h2 f hf => sameInterior_fill (Like.refl s) hlike h.wf hk hsame hn (by omega) hf
  have := C21_run_ghosts_partial (hla.built h) ps hps hwave (by rw [hset.bcl]; exact hl) (by rw [hset.bcr]; exact hr) s'.applyBc hback hs2
    (by rw [(applyBc_clock s).1, (applyBc_clock s').1]; exact ht) (by rw [(applyBc_clock s).2, (applyBc_clock s').2]; exact hn) hsp deck (schemeFor deck.rk) k
  simp only [hset.NE, hset.NF] at this
  obtain ⟨h1, h2, h3, h4, h5⟩ := this
  exact ⟨h1, h2, h3, (EndSim.iff h4).1, EndSim.failed h4, h5⟩

/-- `Ex.uniE` with another state in the left ghost cell: velocity 10 instead of 2. -/
noncomputable def Ex.fastGhost (p : ℕ) (riemann : Str) : Sol ℝ :=
  (Ex.uniE p riemann).withVal fun n c => if n = 0 then (if c < 3 then (oneState (7 / 5) ⟨1 / 8, 10, 1 / 10⟩).val c else (oneState (7 / 5) Ex.wB).val (c % 3)) else 0

lemma Ex.uniE_physics (p : ℕ) (riemann : Str) : CodePhysics (7 / 5) "euler".toList riemann (Ex.uniE p riemann) :=
  ⟨by unfold manipulationFunctions; rw [if_pos rfl]; rfl, by unfold manipulationFunctions; rw [if_pos rfl]; rfl⟩

lemma Ex.fastGhost_like (p : ℕ) (riemann : Str) : Like (Ex.fastGhost p riemann) (Ex.uniE p riemann) := ⟨by constructor <;> rfl, rfl, rfl⟩

lemma Ex.fastGhost_interior (p : ℕ) (riemann : Str) (n e f : ℕ) (he : 1 ≤ e) :
    (Ex.uniE p riemann).u.val n (e * 3 + f) = (Ex.fastGhost p riemann).u.val n (e * 3 + f) := by
  show _ = (if n = 0 then (if e * 3 + f < 3 then _ else _) else (0 : ℝ))
  rw [if_neg (by omega : ¬ e * 3 + f < 3)]
  rfl

/-- **C21 (the first step).** Without filling the ghost cells first the claim is false for Euler: the wave speed that sets the
time step is taken over ghost cells, too. Same interior, different ghost cell, strictly smaller first CFL step; for every
order and Riemann solver name. -/
theorem C21_first_step (p : ℕ) (riemann : Str) : ∃ s s' : Sol ℝ, s.Built realGauss p ∧ CodePhysics (7 / 5) "euler".toList riemann s ∧ Like s' s ∧
    (∀ n e f, 1 ≤ e → e ≤ s.NE → s.u.val n (e * s.NF + f) = s'.u.val n (e * s.NF + f)) ∧
    ∀ cfl : ℝ, 0 < cfl → ∃ dt dt', cflTimeStep s cfl = .ok (.fin dt) ∧ cflTimeStep s' cfl = .ok (.fin dt') ∧ dt' < dt := by
  refine ⟨Ex.uniE p riemann, Ex.fastGhost p riemann, Ex.uniE_built p riemann, Ex.uniE_physics p riemann, Ex.fastGhost_like p riemann,
    fun n e f he _ => Ex.fastGhost_interior p riemann n e f he, fun cfl hcfl => ?_⟩
  have hF : (⟨1 / 8, 10, 1 / 10⟩ : Prim).Phys := ⟨by norm_num, by norm_num⟩
  obtain ⟨c, h1, -, i, -, h3⟩ := C46_bound (γ := 7 / 5) (by norm_num) (String.ofList riemann) (Ex.uniE p riemann).u 5 (by norm_num) rfl
    (fun _ => Ex.wB) (fun i hi => ⟨Ex.wB_phys, fun k => by
      have := k.isLt
      show (if 0 = 0 then (oneState (7 / 5) Ex.wB).val ((i * 3 + k) % 3) else 0) = _
      rw [if_pos rfl, Nat.mul_comm, Nat.mul_add_mod, Nat.mod_eq_of_lt this]
      simp [oneState, this]⟩)
  obtain ⟨c', h1', h2', -⟩ := C46_bound (γ := 7 / 5) (by norm_num) (String.ofList riemann) (Ex.fastGhost p riemann).u 5 (by norm_num) rfl
    (fun i => if i = 0 then ⟨1 / 8, 10, 1 / 10⟩ else Ex.wB) (fun i hi => by
      rcases Nat.eq_zero_or_pos i with rfl | hi0
      · refine ⟨by simpa using hF, fun k => ?_⟩
        have := k.isLt
        show (if 0 = 0 then (if 0 * 3 + k.val < 3 then (oneState (7 / 5) ⟨1 / 8, 10, 1 / 10⟩).val (0 * 3 + k) else _) else (0 : ℝ)) = _
        rw [if_pos rfl, if_pos (by omega), Nat.zero_mul, Nat.zero_add]
        simp [oneState, this]
      · rw [if_neg hi0.ne']
        refine ⟨Ex.wB_phys, fun k => ?_⟩
        rw [← Ex.fastGhost_interior p riemann 0 i k hi0]
        have := k.isLt
        show (if 0 = 0 then (oneState (7 / 5) Ex.wB).val ((i * 3 + k) % 3) else 0) = _
        rw [if_pos rfl, Nat.mul_comm, Nat.mul_add_mod, Nat.mod_eq_of_lt this]
        simp [oneState, this])
  have hc : 0 < c := by
    rw [← h3]
    have : 0 ≤ Ex.wB.c (7 / 5) := Real.sqrt_nonneg _
    have : (0 : ℝ) < |Ex.wB.v| := by norm_num [Ex.wB]
    linarith
  have hcc : c < c' := by
    have h0 := h2' 0 (by norm_num)
    simp only [if_true] at h0
    have e1 : (⟨1 / 8, 10, 1 / 10⟩ : Prim).c (7 / 5) = Ex.wB.c (7 / 5) := rfl
    have e2 : |Ex.wB.v| = 2 := by norm_num [Ex.wB]
    rw [e1] at h0
    rw [← h3, e2]
    have : |(10 : ℝ)| = 10 := by norm_num
    rw [this] at h0
    linarith
  have hdx : 0 < (Ex.uniE p riemann).dx := by show (0 : ℝ) < (Ex.solR p).dx; norm_num [Ex.solR]
  have hq : (0 : ℝ) < 2 * ((Ex.uniE p riemann).basis.p : ℝ) + 1 := by positivity
  refine ⟨(Ex.uniE p riemann).dx * cfl / (c * (2 * ((Ex.uniE p riemann).basis.p : ℝ) + 1)),
    (Ex.uniE p riemann).dx * cfl / (c' * (2 * ((Ex.uniE p riemann).basis.p : ℝ) + 1)), ?_, ?_, ?_⟩
  · unfold cflTimeStep
    rw [show (Ex.uniE p riemann).kw.maxWaveSpeed (Ex.uniE p riemann).u = .ok (.fin c) from h1]
    simp only
    rw [if_neg (mul_pos hc hq).ne']
  · unfold cflTimeStep
    rw [show (Ex.fastGhost p riemann).kw.maxWaveSpeed (Ex.fastGhost p riemann).u = .ok (.fin c') from h1']
    simp only
    rw [if_neg]
    · rfl
    · exact (mul_pos (hc.trans hcc) hq).ne'
  · exact div_lt_div_of_pos_left (mul_pos hdx hcfl) (mul_pos hc hq) (mul_lt_mul_of_pos_right hcc hq)

/-- `C21_run_code_partial` on these two solutions: every order, solver name, scheme and run length. -/
example (p : ℕ) (riemann : Str) (deck : RkDeck ℝ) (k n e f : ℕ) (hn : n < p + 1) (h1 : 1 ≤ e) (h2 : e ≤ 3) (hf : f < 3) :
    (integrate ⟨residual, Limiter.limit none⟩ deck (Ex.uniE p riemann).applyBc k).sol.u.val n (e * 3 + f) =
    (integrate ⟨residual, Limiter.limit none⟩ deck (Ex.fastGhost p riemann).applyBc k).sol.u.val n (e * 3 + f) :=
  (C21_run_code_partial (γ := 7 / 5) (by norm_num) (Ex.uniE_built p riemann) (Ex.uniE_physics p riemann) (.inl rfl) (.inl rfl) _
    (Ex.fastGhost_like p riemann) (fun n _ e he _ f _ => Ex.fastGhost_interior p riemann n e f he) rfl rfl deck k).1 n hn e h1 h2 f hf

/-- `C18_run_code` on `solR` (values 1, 4, 9 plus the mode number) and its shift by one cell. -/
example (p : ℕ) (deck : RkDeck ℝ) (k : ℕ) :
    IsShift 1 (integrate ⟨residual, Limiter.limit none⟩ deck (Ex.solR p).applyBc k).sol
      (integrate ⟨residual, Limiter.limit none⟩ deck ((Ex.solR p).withVal fun n e => (((e - 1 + 1) % 3 + 1 : ℕ) : ℝ) ^ 2 + n).applyBc k).sol := by
  have hlike : Like ((Ex.solR p).withVal fun n e => (((e - 1 + 1) % 3 + 1 : ℕ) : ℝ) ^ 2 + n) (Ex.solR p) :=
    ⟨by constructor <;> rfl, rfl, rfl⟩
  have hp : CodePhysics (7 / 5) "advection".toList [] (Ex.solR p) :=
    ⟨by unfold manipulationFunctions; rw [if_neg (by decide)]; rfl, by unfold manipulationFunctions; rw [if_neg (by decide)]; rfl⟩
  refine (C18_run_code (γ := 7 / 5) (by norm_num) (Ex.solR_built p) hp rfl rfl 1 _ hlike ?_ rfl rfl deck k).1
  rw [isShift_iff (s := Ex.solR p) (Like.refl _) hlike rfl]
  intro n hn e h1 h2 f hf
  obtain rfl : f = 0 := by have : (Ex.solR p).NF = 1 := rfl; omega
  rw [ringShift_eq 1 h1]
  simp [Ex.solR, Sol.withVal]

end Dg1d.Props
