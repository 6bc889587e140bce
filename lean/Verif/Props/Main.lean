import Verif.Proofs.Main

/-! # The whole program (C69 – C73)

`start` is main.py up to the first limiting, `program … k` the files and the status after `k` iterations of the main loop. -/

open Polynomial Dg1d.Spec

namespace Dg1d.Props
open Text

variable {lib : GaussLib ℝ} {ft : FloatText ℝ} {d : Deck ℝ} {p N : ℕ} {ic : IC.Setup}

/-- A parsed deck that makes sense: an order, an initial condition line naming an initial condition of the system with at
least one cell, an enhancement line that fits the order, and for the limiter an order of at least 1 and enough thresholds. -/
structure ValidDeck (lib : GaussLib ℝ) (ft : FloatText ℝ) (d : Deck ℝ) (p N : ℕ) (ic : IC.Setup) : Prop where
  order : d.order = p
  cells : 0 < N
  line : ∃ name p0 rest, split d.ic = name :: p0 :: rest ∧ intOf p0 = some (N : ℤ) ∧ setupOf ft name (p0 :: rest) = some ic ∧
    (d.system = "euler".toList → name ≠ "sinewave".toList ∧ name ≠ "ictest".toList)
  enhance : EnhanceFits lib p d.enhance
  limiter : d.limiting = "adaptive_hr".toList → 1 ≤ p ∧ (if d.system = "euler".toList then 2 else 1) ≤ d.sensorThresholds.length

/-- What `start` hands to the integrator. `c` is the solution the constructor returned. -/
structure Started (lib : GaussLib ℝ) (d : Deck ℝ) (p N : ℕ) (ic : IC.Setup) (c s : Sol ℝ) (lm : Limiter ℝ) : Prop where
  built : s.Built lib p
  physics : CodePhysics (ic.gamma.getD (7 / 5)) d.system d.riemann s
  limiter : Limiter.init (String.ofList d.limiting) s = .ok lm
  works : LimiterFits (String.ofList d.limiting) d.system p s
  bc : s.bcl = .lit ic.bc ∧ s.bcr = .lit ic.bc
  clock : s.t = 0 ∧ s.n = 0
  NE : s.NE = N
  xc : s.xc.len = N
  mesh : IsUniformMesh ic.A ic.B N s.x.val s.xc.val s.dx
  noSensors : d.sensorThresholds = [] → s.sensors = none
  sensors : d.sensorThresholds ≠ [] → ∃ v : Vec ℕ, s.sensors = some ⟨d.sensorThresholds, v⟩ ∧ v.len = N + 2
  enhance : enhancementOf lib p d.enhance = .ok s.enhance
  ghosts : GhostsAgree s
  same : s.NF = c.NF ∧ c.NE = N
  kin : c.Built lib p ∧ Kin s c
  data : ∀ e < N, ∀ g < c.NF, ∃ v, c.basis.projection (c.x.val e) (c.x.val (e + 1)) (ic.f (ic.gamma.getD (7 / 5))) g = .ok v ∧
    ∀ r, c.u.val r ((e + 1) * c.NF + g) = v.val r
  limited : lm.limit c.applyBc = .ok s
  means : ∀ e, 1 ≤ e → e ≤ N → ∀ f < s.NF, cellMean s e f = cellMean c e f
  unlimited : d.limiting ≠ "adaptive_hr".toList → s = c.applyBc

/-- **C69.** A valid deck starts: no error up to the time integration, which gets a well-formed solution at time zero with the
physics of the deck, filled ghost cells, a limiter that works, and the cell averages of the initial condition. -/
theorem C69_starts (hlib : lib.Ok) (junk : ℕ → ℝ) (hd : ValidDeck lib ft d p N ic) :
    ∃ c s lm, construct lib ft junk d.ic d.system d.order d.riemann d.enhance d.sensorThresholds = .ok c ∧
      start lib ft junk d = .ok (s, lm) ∧ Started lib d p N ic c.sol s lm := by
  obtain ⟨name, p0, rest, l1, l2, l3, l4⟩ := hd.line
  obtain ⟨c, h1, hB, h2, h3, h4, h5, h6, h7, h8, h9, h10, h11, h12, h13, h14, h15, h16, h17⟩ :=
    C67_construct hlib junk (riemann := d.riemann) (enhLine := d.enhance) (th := d.sensorThresholds) l1 l2 hd.cells l3 l4 hd.enhance
  rw [← hd.order] at h1
  -- after apply_bc
  have hk0 : Kin c.sol.applyBc c.sol := (Kin.refl c.sol).applyBc
  set a := c.sol.applyBc with ha
  have hBa : a.Built lib p := hk0.like.built hB
  have hpc : CodePhysics (ic.gamma.getD (7 / 5)) d.system d.riemann c.sol := by
    refine ⟨by rw [h6, h5], ?_⟩
    rw [h4]
    unfold manipulationFunctions
    split <;> rfl
  have hpa := hk0.physics hpc
  -- the limiter
  have hlim : ∃ lm, Limiter.init (String.ofList d.limiting) a = .ok lm := by
    by_cases hty : String.ofList d.limiting = "adaptive_hr"
    · rw [hty]
      obtain ⟨lm, h⟩ := C60_init hBa
      exact ⟨_, h⟩
    · refine ⟨none, ?_⟩
      unfold Limiter.init
      rw [if_neg hty]
  obtain ⟨lm, hi⟩ := hlim
  have hsens : ∀ x : Sol ℝ, Kin x c.sol → (d.sensorThresholds = [] → x.sensors = none) ∧
      (d.sensorThresholds ≠ [] → ∃ v : Vec ℕ, x.sensors = some ⟨d.sensorThresholds, v⟩ ∧ v.len = N + 2) := by
    intro x hx
    have := hx.sens
    refine ⟨fun h => ?_, fun h => ?_⟩
    · rw [h15 h] at this
      simpa using this
    · rw [h16 h] at this
      rcases hx : x.sensors with _ | ⟨th, v⟩
      · rw [hx] at this; cases this
      · rw [hx] at this
        simp only [Option.map_some, Option.some.injEq, Prod.mk.injEq] at this
        exact ⟨v, by rw [this.1], this.2⟩
  have hfit : ∀ x : Sol ℝ, Kin x c.sol → LimiterFits (String.ofList d.limiting) d.system p x := by
    intro x hx hty
    obtain ⟨g1, g2⟩ := hd.limiter (ofList_hr.mp hty)
    refine ⟨g1, d.sensorThresholds, ?_, g2⟩
    obtain ⟨v, hv, -⟩ := (hsens x hx).2 (fun h0 => by rw [h0] at g2; split at g2 <;> simp at g2)
    unfold Sol.thresholds
    rw [hv]
    rfl
  obtain ⟨s, hs⟩ := limit_ok hBa hpa hi (hfit a hk0) (Kin.refl a)
  have hks := limit_kin hBa hpa hi (Kin.refl a) hs
  have hkc := hks.trans hk0
  refine ⟨c, s, lm, h1, ?_, ?_⟩
  · unfold start
    rw [h1]
    simp only
    unfold dgInit
    rw [if_neg (by show ¬ c.nE < 0; rw [h2]; omega)]
    simp only [← ha, hi, hs]
  have hmean0 : ∀ e, 1 ≤ e → e ≤ N → ∀ f < c.sol.NF, a.u.val 0 (e * c.sol.NF + f) = c.sol.u.val 0 (e * c.sol.NF + f) := by
    intro e e1 e2 f hf
    rw [ha, applyBc_val hB.NF hB.NE hB.cols, bcCol_interior c.sol e1 (by rw [h3]; exact e2) hf]
  refine
    { built := hks.like.built hBa
      physics := hkc.physics hpc
      limiter := by rw [limiter_init_congr hks.like.setup.basis]; exact hi
      works := hfit s hkc
      bc := ⟨by rw [hkc.like.setup.bcl, h7], by rw [hkc.like.setup.bcr, h8]⟩
      clock := ?_
      NE := by rw [hkc.like.setup.NE, h3]
      xc := by rw [hkc.like.setup.xc, h12]
      mesh := by rw [hkc.like.setup.x, hkc.like.setup.xc, hkc.like.setup.dx]; exact h13
      noSensors := (hsens s hkc).1
      sensors := (hsens s hkc).2
      enhance := by rw [hkc.like.setup.enhance]; exact h17
      ghosts := ?_
      same := ⟨hkc.like.setup.NF, h3⟩
      kin := ⟨hB, hkc⟩
      data := by rw [← h5]; exact h14
      limited := hs
      means := ?_
      unlimited := ?_ }
  · obtain ⟨t1, t2⟩ := limit_clock _ _ hs
    rw [t1, t2, ha, applyBc_t, applyBc_n]
    exact ⟨h9, h10⟩
  · have hga : GhostsAgree a := ghosts_applyBc hB.NF hB.NE hB.cols
    cases lm with
    | none => cases hs; exact hga
    | some lm =>
      obtain hty := limiter_type hi
      rw [hty] at hi
      obtain ⟨sn, sn', v, U, -, -, rfl, -, h5, -, -⟩ := limit_form (ok_of_init hBa hi) hBa hs
      exact ghosts_applyBc hBa.NF hBa.NE (by show U.cols = _; rw [h5]; exact hBa.cols)
  · intro e e1 e2 f hf
    rw [hkc.like.setup.NF] at hf
    rw [cellMean_eq (by rw [hkc.like.rows, hB.rows]; omega), cellMean_eq (by rw [hB.rows]; omega), hkc.like.setup.NF, ← hmean0 e e1 e2 f hf]
    cases lm with
    | none => cases hs; rfl
    | some lm =>
      obtain hty := limiter_type hi
      rw [hty] at hi
      obtain ⟨-, -, -, g⟩ := limit_row0 (ok_of_init hBa hi) hBa hs
      rw [g, ← hk0.like.setup.NF, bcCol_interior a e1 (by rw [hk0.like.setup.NE, h3]; exact e2) (by rw [hk0.like.setup.NF]; exact hf)]
  · intro hne
    unfold Limiter.init at hi
    rw [if_neg (fun h => hne (ofList_hr.mp h))] at hi
    cases hi
    cases hs
    rfl

lemma Started.gamma (hd : ValidDeck lib ft d p N ic) : 1 < ic.gamma.getD (7 / 5) := by
  obtain ⟨name, p0, rest, -, -, l3, -⟩ := hd.line
  obtain ⟨-, -, -, -, h, -⟩ := setupOf_facts l3
  rcases h with h | h | h <;> rw [h] <;> norm_num

lemma noNewline : '\n' ∉ "periodic".toList ∧ '\n' ∉ "zerograd".toList := by decide

/-- **C70.** The files after `k` iterations of the main loop: no `printer` call fails, the status is that of the loop, the
output sets are numbered 0, 1, 2, … and start with the initial solution; for every one of them every field (and the sensors,
if there are any) is in its file, and no other file has changed. -/
theorem C70_files (hlib : lib.Ok) (junk : ℕ → ℝ) (hd : ValidDeck lib ft d p N ic) (hn : 0 ≤ d.nout) (hft : ∀ x, '\n' ∉ ft.fmt x)
    {fs : Files} {deckname : Str} (hparse : Deck.init.parser ft fs deckname = .ok d) (k : ℕ) :
    ∃ s lm, start lib ft junk d = .ok (s, lm) ∧ ∃ st, st = integrate ⟨residual, lm.limit⟩ d.rkDeck s k ∧
      (program lib ft junk fs deckname k).2 = st.status ∧
      st.log.map (fun o => o.nout) = List.range st.log.length ∧ (∃ l, st.log = ⟨0, 0, s⟩ :: l) ∧
      (∀ o ∈ st.log, o.sol.NE = N ∧ o.sol.kw.fields = (if d.system = "euler".toList then ["rho", "rhou", "E"] else ["u"]) ∧
        (∀ g (h : g < o.sol.kw.fields.length), (program lib ft junk fs deckname k).1 (nameOf o.sol.kw.fields[g] o.nout) = some (fieldText ft o.sol g)) ∧
        (d.sensorThresholds ≠ [] → ∃ sen, o.sol.sensors = some sen ∧
          (program lib ft junk fs deckname k).1 (nameOf "sensor" o.nout) = some (sensorText ft o.sol sen))) ∧
      ∀ n, (∀ o ∈ st.log, ¬ OutName o n) → (program lib ft junk fs deckname k).1 n = fs n := by
  obtain ⟨c, s, lm, -, hst, S⟩ := C69_starts hlib junk hd
  refine ⟨s, lm, hst, _, rfl, ?_⟩
  set st := integrate ⟨residual, lm.limit⟩ d.rkDeck s k with hstd
  obtain ⟨-, hkin⟩ := (kin_invariant S.built S.physics S.limiter).run d.rkDeck (schemeFor d.rkDeck.rk) (Kin.refl s) k
  have hkin : ∀ o ∈ st.log, Kin o.sol s := hkin
  obtain ⟨c1, c2, -⟩ := C04_numbering (schemeFor d.rkDeck.rk) ⟨residual, lm.limit⟩ limit_clock d.rkDeck s k
  obtain ⟨name, p0, rest, -, -, l3, -⟩ := hd.line
  obtain ⟨-, hbc, -⟩ := setupOf_facts l3
  have hnl : '\n' ∉ ic.bc.toList := by rcases hbc with h | h <;> rw [h]; exacts [noNewline.1, noNewline.2]
  have hsens : ∀ o ∈ st.log, ∀ sen, o.sol.sensors = some sen → sen.sensors.len = N + 2 := by
    intro o ho sen hs
    have := (hkin o ho).sens
    by_cases hth : d.sensorThresholds = []
    · rw [S.noSensors hth, hs] at this; cases this
    · obtain ⟨v, hv, hv2⟩ := S.sensors hth
      rw [hv, hs] at this
      simp only [Option.map_some, Option.some.injEq, Prod.mk.injEq] at this
      rw [this.2]; exact hv2
  have hpr : ∀ o ∈ st.log, Printable ft o.sol := by
    intro o ho
    have hk := hkin o ho
    have hb := hk.like.built S.built
    refine ⟨hb.cols, by rw [hk.like.setup.xc, hk.like.setup.NE, S.xc, S.NE], code_fields (hk.physics S.physics), hft _, ?_, fun sen hs => ⟨?_, hb.NE⟩⟩
    · rw [hk.like.setup.bcl, hk.like.setup.bcr, S.bc.1, S.bc.2]; exact ⟨hnl, hnl⟩
    · rw [hsens o ho sen hs, hk.like.setup.NE, S.NE]
  obtain ⟨fs', w1, w2, w3⟩ := writeOutputs_ok ft st.log hpr (by show (st.log.map (·.nout)).Nodup; rw [show st.log.map (·.nout) = _ from c1]; exact List.nodup_range) fs
  have hprog : program lib ft junk fs deckname k = (fs', st.status) := by
    unfold program
    rw [hparse]
    simp only
    rw [hst]
    simp only
    unfold solve
    rw [if_neg (by omega)]
    simp only [← hstd, w1]
  rw [hprog]
  refine ⟨rfl, c1, c2, fun o ho => ⟨?_, ?_, (w2 o ho).1, fun hth => ?_⟩, w3⟩
  · rw [(hkin o ho).like.setup.NE, S.NE]
  · have hp := (hkin o ho).physics S.physics
    split
    · rename_i he; rw [(hp.euler he).1]; rfl
    · rename_i he; rw [(hp.advection he).1]; rfl
  · obtain ⟨v, hv, -⟩ := S.sensors hth
    have := (hkin o ho).sens
    rw [hv] at this
    rcases hs : o.sol.sensors with _ | sen
    · rw [hs] at this; cases this
    · exact ⟨sen, rfl, (w2 o ho).2 sen hs⟩

/-- A run that makes progress, at the level of the program. -/
lemma program_finishes (hlib : lib.Ok) (junk : ℕ → ℝ) (hd : ValidDeck lib ft d p N ic) (hn : 2 ≤ d.nout) (hT : 0 ≤ d.finaltime)
    (hft : ∀ x, '\n' ∉ ft.fmt x) {fs : Files} {deckname : Str} (hparse : Deck.init.parser ft fs deckname = .ok d)
    {s : Sol ℝ} {lm : Limiter ℝ} (hst : start lib ft junk d = .ok (s, lm)) (h0 : s.t = 0) {S H : Sol ℝ → Prop} {F : Arr ℝ → Prop}
    (hprog : Progress ⟨residual, lm.limit⟩ d.cfl S H F) (hs : H s) :
    ∃ k₀, ∀ k, k₀ ≤ k → (program lib ft junk fs deckname k).2 = .done ∧ program lib ft junk fs deckname k = program lib ft junk fs deckname k₀ ∧
      ∃ o, (integrate ⟨residual, lm.limit⟩ d.rkDeck s k).log.getLast? = some o ∧ o.sol.t = d.finaltime ∧
        (program lib ft junk fs deckname k).1 (nameOf (if d.system = "euler".toList then "rho" else "u") o.nout) = some (fieldText ft o.sol 0) := by
  obtain ⟨k₀, hk₀⟩ := hprog.finishes (deck := d.rkDeck) limit_clock (schemeFor d.rkDeck.rk) hs (by rw [h0]; exact hT)
    (by show 2 ≤ d.nout.toNat; omega)
  have hstay : ∀ k, k₀ ≤ k → integrate ⟨residual, lm.limit⟩ d.rkDeck s k = integrate ⟨residual, lm.limit⟩ d.rkDeck s k₀ := by
    intro k hk
    obtain ⟨m, rfl⟩ := Nat.exists_eq_add_of_le hk
    exact run_stays _ _ _ _ (by rw [hk₀]; simp) m
  refine ⟨k₀, fun k hk => ?_⟩
  obtain ⟨s', lm', hst', st, rfl, f1, -, -, f4, -⟩ := C70_files hlib junk hd (by omega) hft hparse k
  rw [hst] at hst'
  cases hst'
  have hdone : (integrate ⟨residual, lm.limit⟩ d.rkDeck s k).status = .done := by rw [hstay k hk]; exact hk₀
  refine ⟨by rw [f1]; exact hdone, ?_, ?_⟩
  · unfold program
    rw [hparse]
    simp only
    rw [hst]
    simp only
    unfold solve
    simp only [hstay k hk]
  · obtain ⟨o, ho1, ho2⟩ := C04_final_output _ _ _ _ _ hdone
    refine ⟨o, ho1, ?_, ?_⟩
    · rw [ho2]
      exact (C01_clock (schemeFor d.rkDeck.rk) ⟨residual, lm.limit⟩ limit_clock d.rkDeck s k).1 hdone
    · obtain ⟨-, g2, g3, -⟩ := f4 o (List.mem_of_getLast? ho1)
      have hlen : 0 < o.sol.kw.fields.length := by rw [g2]; split <;> simp
      have := g3 0 hlen
      rw [← this]
      have : o.sol.kw.fields[0]? = some (if d.system = "euler".toList then "rho" else "u") := by rw [g2]; split <;> rfl
      rw [List.getElem?_eq_getElem hlen] at this
      rw [Option.some.inj this]

/-- **C71.** Advection decks run to the end: the program stops with status `done`, having written the solution at the final
time as its last set; with or without limiter and enhancement, every order, scheme and initial condition, as long as the CFL
step is not below 1e-14. -/
theorem C71_advection_finishes (hlib : lib.Ok) (junk : ℕ → ℝ) (hd : ValidDeck lib ft d p N ic) (hsys : d.system ≠ "euler".toList)
    (hn : 2 ≤ d.nout) (hT : 0 ≤ d.finaltime) (hcfl : 1 / 10 ^ 14 ≤ (ic.B - ic.A) / N * d.cfl / (2 * p + 1))
    (hft : ∀ x, '\n' ∉ ft.fmt x) {fs : Files} {deckname : Str} (hparse : Deck.init.parser ft fs deckname = .ok d) :
    ∃ s lm, start lib ft junk d = .ok (s, lm) ∧
    ∃ k₀, ∀ k, k₀ ≤ k → (program lib ft junk fs deckname k).2 = .done ∧ program lib ft junk fs deckname k = program lib ft junk fs deckname k₀ ∧
      ∃ o, (integrate ⟨residual, lm.limit⟩ d.rkDeck s k).log.getLast? = some o ∧ o.sol.t = d.finaltime ∧
        (program lib ft junk fs deckname k).1 (nameOf "u" o.nout) = some (fieldText ft o.sol 0) := by
  obtain ⟨c, s, lm, -, hst, S⟩ := C69_starts hlib junk hd
  have hprog : Progress (K := ℝ) ⟨residual, lm.limit⟩ d.cfl (Kin · s) (Kin · s) (fun _ => True) :=
    { kin_invariant S.built S.physics S.limiter with
      limOk := fun a ha => limit_ok S.built S.physics S.limiter S.works ha
      resOk := fun a ha => by
        have hb := ha.like.built S.built
        have hps : a.kw.Pointwise (Advection.spec a.NF) := by
          rw [((ha.physics S.physics).advection hsys).1]
          exact Advection.pointwise a.NF
        obtain ⟨F, hF, -⟩ := (residual_eq hb.wf hps).2 (fun _ _ h => h)
        exact ⟨_, _, hF⟩
      dtOk := fun a ha => by
        have hb := ha.like.built S.built
        have hden : (1 : ℝ) * (2 * (a.basis.p : ℝ) + 1) ≠ 0 := by positivity
        refine ⟨.fin (a.dx * d.cfl / (1 * (2 * (a.basis.p : ℝ) + 1))), ?_, ?_⟩
        · unfold cflTimeStep
          rw [((ha.physics S.physics).advection hsys).1]
          show (if _ then _ else _) = _
          rw [if_neg hden]
        · unfold sanityCheckDt
          simp only
          rw [if_neg]
          rw [not_lt, ha.like.setup.dx, hb.basis, S.mesh.width, one_mul]
          exact hcfl }
  have := program_finishes hlib junk hd hn hT hft hparse hst S.clock.1 hprog (Kin.refl s)
  rw [if_neg hsys] at this
  exact ⟨s, lm, hst, this⟩

/-- **C72.** Periodic decks: in every output set the total of every field over the cells is the total of the projected initial
condition, for either system, every Riemann solver, order, scheme, limiter and enhancement. -/
theorem C72_conservation (hlib : lib.Ok) (junk : ℕ → ℝ) (hd : ValidDeck lib ft d p N ic) (hper : ic.bc = "periodic") (k : ℕ) :
    ∃ c s lm, construct lib ft junk d.ic d.system d.order d.riemann d.enhance d.sensorThresholds = .ok c ∧ start lib ft junk d = .ok (s, lm) ∧
      ∀ o ∈ (integrate ⟨residual, lm.limit⟩ d.rkDeck s k).log, ∀ f < s.NF, total o.sol f = total c.sol f := by
  obtain ⟨c, s, lm, hc, hst, S⟩ := C69_starts hlib junk hd
  refine ⟨c, s, lm, hc, hst, fun o ho f hf => ?_⟩
  rw [(C15_limited (Started.gamma hd) S.built S.physics (by rw [S.bc.1, hper]) (by rw [S.bc.2, hper]) S.limiter d.rkDeck k).2 o ho f hf]
  unfold total
  rw [S.NE, S.same.2]
  refine Finset.sum_congr rfl fun e he => ?_
  rw [Finset.mem_Icc] at he
  exact S.means e he.1 he.2 f hf

/-- The enhancement line is absent or lists modes up to the order. -/
def EnhanceModes (p : ℕ) (line : Str) : Prop :=
  line = [] ∨ ∃ w words modes, split line = w :: words ∧ words.mapM (fun w => (intOf w : Option ℤ)) = some modes ∧ ∀ m ∈ modes, m ≤ p

lemma EnhanceModes.init {line : Str} (h : EnhanceModes p line) {en : Enhance ℝ} (he : enhancementOf lib p line = .ok (some en)) :
    ∃ modes, Enhance.init lib p modes = .ok en ∧ ∀ m ∈ modes, m ≤ p := by
  rcases h with rfl | ⟨w, words, modes, h1, h2, h3⟩
  · cases he
  · refine ⟨modes, ?_, h3⟩
    unfold enhancementOf at he
    split at he
    · cases he
    · rw [h1] at he
      simp only at he
      rw [h2] at he
      simp only at he
      cases h : Enhance.init lib p modes with
      | error e => rw [h] at he; cases he
      | ok e => rw [h] at he; cases he; rfl

/-- **C73.** Euler decks whose initial condition is one constant physical state run to the end, and that state is in every
cell of every output set. Every Riemann solver, order, scheme, limiter and non-negative thresholds, enhancement modes up to
the order, as long as the CFL step is not below 1e-14. -/
theorem C73_constant_state (hlib : lib.Ok) (junk : ℕ → ℝ) (hd : ValidDeck lib ft d p N ic) (hsys : d.system = "euler".toList)
    {γ : ℝ} (hγ : γ = ic.gamma.getD (7 / 5)) {w : Prim} (hw : w.Phys) (hf : ∀ x, ic.f γ x = [w.cons γ 0, w.cons γ 1, w.cons γ 2])
    (hen : EnhanceModes p d.enhance) (hth : ∀ x ∈ d.sensorThresholds, 0 ≤ x)
    (hn : 2 ≤ d.nout) (hT : 0 ≤ d.finaltime) (hcfl : 1 / 10 ^ 14 ≤ (ic.B - ic.A) / N * d.cfl / ((|w.v| + w.c γ) * (2 * p + 1)))
    (hft : ∀ x, '\n' ∉ ft.fmt x) {fs : Files} {deckname : Str} (hparse : Deck.init.parser ft fs deckname = .ok d) :
    ∃ s lm, start lib ft junk d = .ok (s, lm) ∧
    (∀ k, ∀ o ∈ (integrate ⟨residual, lm.limit⟩ d.rkDeck s k).log, ∀ e, 1 ≤ e → e ≤ N → ∀ f : Fin 3, cellPoly o.sol e f = C (w.cons γ f)) ∧
    ∃ k₀, ∀ k, k₀ ≤ k → (program lib ft junk fs deckname k).2 = .done ∧ program lib ft junk fs deckname k = program lib ft junk fs deckname k₀ ∧
      ∃ o, (integrate ⟨residual, lm.limit⟩ d.rkDeck s k).log.getLast? = some o ∧ o.sol.t = d.finaltime ∧
        (program lib ft junk fs deckname k).1 (nameOf "rho" o.nout) = some (fieldText ft o.sol 0) := by
  obtain ⟨pc, s, lm, hc, hst, S⟩ := C69_starts hlib junk hd
  have hγ1 : 1 < γ := hγ ▸ Started.gamma hd
  have hphys := S.physics
  rw [← hγ] at hphys
  obtain ⟨name, p0, rest, -, -, l3, -⟩ := hd.line
  obtain ⟨-, hbc, -⟩ := setupOf_facts l3
  have hbl : s.bcl = .lit "periodic" ∨ s.bcl = .lit "zerograd" := by rw [S.bc.1]; rcases hbc with h | h <;> rw [h] <;> simp
  have hbr : s.bcr = .lit "periodic" ∨ s.bcr = .lit "zerograd" := by rw [S.bc.2]; rcases hbc with h | h <;> rw [h] <;> simp
  set c : ℕ → ℝ := fun f => if h : f < 3 then w.cons γ ⟨f, h⟩ else 0 with hcdef
  have hreg : Regular γ d.system c := fun _ => ⟨w, hw, fun k => by simp [hcdef]⟩
  obtain ⟨hkw, hNF⟩ := hphys.euler hsys
  have hthr : ∀ th, s.thresholds = some th → ∀ x ∈ th, 0 ≤ x := by
    intro th h x hx
    unfold Sol.thresholds at h
    by_cases h0 : d.sensorThresholds = []
    · rw [S.noSensors h0] at h; cases h
    · obtain ⟨v, hv, -⟩ := S.sensors h0
      rw [hv] at h
      cases h
      exact hth x hx
  -- the projected initial condition is uniform, and so is what the limiter makes of it
  have hu : IsUniform s c := by
    obtain ⟨hB, hkc⟩ := S.kin
    set a := pc.sol.applyBc with ha
    have hka : Kin a pc.sol := (Kin.refl _).applyBc
    have hBa := hka.like.built hB
    have hNFc : pc.sol.NF = 3 := by rw [← S.same.1, hNF]
    have hcell : ∀ e, 1 ≤ e → e ≤ pc.sol.NE → ∀ f < 3, ∀ n < p + 1, pc.sol.u.val n (e * 3 + f) = if n = 0 then c f else 0 := by
      intro e e1 e2 f hf3 n hn
      obtain ⟨v, hv1, hv2⟩ := S.data (e - 1) (by rw [S.same.2] at e2; omega) f (by omega)
      rw [show e - 1 + 1 = e by omega, hNFc] at hv2
      rw [hB.basis] at hv1
      obtain ⟨v', g1, g2, g3, g4, -⟩ := C24_projection lib p (hlib (p + 1) (by omega)).1 (hlib (p + 1) (by omega)).2.2 (pc.sol.x.val (e - 1))
        (pc.sol.x.val (e - 1 + 1)) (ic.f (ic.gamma.getD (7 / 5))) f (fun _ => c f) (fun g _ => by
          rw [← hγ, hf]; interval_cases f <;> simp [hcdef])
      rw [hv1] at g1
      cases g1
      rw [hv2]
      have hC := g4 (C (c f)) (lt_of_le_of_lt degree_C_le (by exact_mod_cast Nat.succ_pos p)) (fun g _ => by simp)
      have hC' : C (c f) = legSeries (p + 1) fun n => if n = 0 then c f else 0 := by
        unfold legSeries
        rw [Finset.sum_eq_single 0]
        · simp [legendre_zero]
        · intro b _ hb; simp [hb]
        · simp
      rw [hC'] at hC
      exact (legSeries_injective (p + 1) _ _ hC n hn).symm
    have hka' : pc.sol.BcKnown := by
      have h1 := hkc.like.setup.bcl
      have h2 := hkc.like.setup.bcr
      refine ⟨hbl.imp ?_ ?_, hbr.imp ?_ ?_⟩ <;> (intro hx; first | (rw [← h1, hx]; exact ⟨rfl, rfl⟩) | (rw [← h2, hx]; exact ⟨rfl, rfl⟩))
    have hua : IsUniform a c := by
      rw [isUniform_iff hBa.rows, hka.like.setup.NE, hka.like.setup.NF]
      have hval : ∀ e ≤ pc.sol.NE + 1, ∀ f < 3, ∀ n < p + 1, a.u.val n (e * 3 + f) = if n = 0 then c f else 0 := by
        intro e he f hf3 n hn
        obtain ⟨e', h1, h2, h3⟩ := bc_cell hka' hB.NE e he
        rw [ha, applyBc_val hB.NF hB.NE hB.cols]
        rw [hNFc] at h3
        rw [h3 f hf3, hcell e' h1 h2 f hf3 n hn]
      rw [hNFc]
      exact ⟨fun e he f hf3 => by rw [hval e he f hf3 0 (by omega), if_pos rfl], fun n h0 hn e _ he2 f hf3 => by
        rw [hval e (by omega) f hf3 n hn, if_neg (by omega)]⟩
    have hsa : SameSetup s a := by
      have h1 := hkc.like.setup
      have h2 := hka.like.setup
      exact h1.trans h2.symm
    have hta : a.thresholds = s.thresholds := (sensors_thresholds hka.sens).trans (sensors_thresholds hkc.sens).symm
    exact (limit_uniform hγ1 hBa ⟨by rw [← hsa.kw]; exact hphys.kw, by rw [← hsa.NF]; exact hphys.NF⟩ (by rw [← hsa.bcl]; exact hbl)
      (by rw [← hsa.bcr]; exact hbr) hreg (by rw [← limiter_init_congr hsa.basis]; exact S.limiter) (by rw [hta]; exact hthr) a s (Like.refl a) rfl hua
      S.limited).2.2
  obtain ⟨ps, hps, -, hreg'⟩ := hphys.pointwise hγ1
  obtain ⟨hfail, hcons⟩ := hreg' c hreg
  have henc : ∀ en, s.enhance = some en → EnhanceConst en := by
    intro en he
    obtain ⟨modes, h1, h2⟩ := hen.init (by rw [S.enhance, he])
    exact enhance_const h1 h2
  have inv := (uniform_invariant S.built ps hps hbl hbr henc c hfail hcons lm.limit (limit_uniform hγ1 S.built hphys hbl hbr hreg S.limiter hthr)).and
    (kin_invariant S.built S.physics S.limiter)
  have hprog : Progress (K := ℝ) ⟨residual, lm.limit⟩ d.cfl _ _ _ :=
    { inv with
      limOk := fun a ha => limit_ok S.built S.physics S.limiter S.works ha.2
      resOk := fun a ha => by
        have hsa := ha.1.1.setup
        have hNFa := hsa.NF
        have hka : a.BcKnown := by
          refine ⟨hbl.imp ?_ ?_, hbr.imp ?_ ?_⟩ <;> (intro hx; first | (rw [hsa.bcl, hx]; exact ⟨rfl, rfl⟩) | (rw [hsa.bcr, hx]; exact ⟨rfl, rfl⟩))
        obtain ⟨F, hF, -⟩ := uniform_residual (ha.1.1.built S.built) hNFa ps (by rw [hsa.kw]; exact hps) hka
          (fun en he => henc en (by rw [← hsa.enhance]; exact he)) (by rw [hsa.NE]; exact ha.1.2.1) hfail hcons
        exact ⟨_, _, hF⟩
      dtOk := fun a ha => by
        have hsa := ha.1.1.setup
        have hb := ha.1.1.built S.built
        obtain ⟨v, h1, h2, i, hi, h3⟩ := C46_bound hγ1 (String.ofList d.riemann) a.u (N + 2) (by omega)
          (by rw [hb.cols, hsa.NE, hsa.NF, S.NE, hNF]) (fun _ => w) (fun i hi => ⟨hw, fun k => by
            have := ha.1.2.1.mean i (by rw [S.NE]; omega) k (by rw [hNF]; exact k.2)
            rw [hNF] at this
            rw [this]; simp [hcdef]⟩)
        have hpos : 0 < |w.v| + w.c γ := add_pos_of_nonneg_of_pos (abs_nonneg _) (Real.sqrt_pos.mpr (div_pos (mul_pos (by linarith) hw.2) hw.1))
        have hden : v * (2 * (a.basis.p : ℝ) + 1) ≠ 0 := by rw [← h3]; positivity
        refine ⟨.fin (a.dx * d.cfl / (v * (2 * (a.basis.p : ℝ) + 1))), ?_, ?_⟩
        · unfold cflTimeStep
          rw [hsa.kw, hkw, h1]
          show (if _ then _ else _) = _
          rw [if_neg hden]
        · unfold sanityCheckDt
          simp only
          rw [if_neg]
          rw [not_lt, hsa.dx, hb.basis, S.mesh.width, ← h3]
          exact hcfl }
  have hs0 : UniformLike s p c s ∧ Kin s s := ⟨(uniformLike_iff S.built c s).mpr ⟨Like.refl s, hu, rfl⟩, Kin.refl s⟩
  refine ⟨s, lm, hst, ?_, ?_⟩
  · intro k o ho e e1 e2 f
    have h1 := (inv.run d.rkDeck (schemeFor d.rkDeck.rk) hs0 k).2 o ho
    have h2 := ((uniformLike_iff S.built c o.sol).mp h1.1).2.1.1 e e1 (by rw [h1.2.like.setup.NE, S.NE]; exact e2) f (by rw [h1.2.like.setup.NF, hNF]; exact f.2)
    rw [h2]
    simp [hcdef]
  · have := program_finishes hlib junk hd hn hT hft hparse hst S.clock.1 hprog hs0
    rw [if_pos hsys] at this
    exact this

end Dg1d.Props
