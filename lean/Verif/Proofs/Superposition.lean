import Verif.Proofs.Runs

/-! Helper lemmas: three runs of linear advection whose data are related by `w = a u + b v`. -/

set_option linter.unusedSectionVars false

open Polynomial Dg1d.Spec

namespace Dg1d
variable {K : Type*} [Field K] [LinearOrder K] [IsStrictOrderedRing K]

/-- `C = α A + β B` in every cell (ghost cells included), for the shape of `s`. -/
def LinVal (s : Sol K) (rows : ℕ) (α β : K) (A B C : ℕ → ℕ → K) : Prop :=
  ∀ n < rows, ∀ e ≤ s.NE + 1, ∀ f < s.NF, C n (e * s.NF + f) = α * A n (e * s.NF + f) + β * B n (e * s.NF + f)

/-- Three solutions of the same kind as `s` whose values are so related. -/
structure LinSol (s : Sol K) (rows : ℕ) (α β : K) (x y z : Sol K) : Prop where
  lx : Like x s
  ly : Like y s
  lz : Like z s
  val : LinVal s rows α β x.u.val y.u.val z.u.val

variable {s : Sol K} {rows : ℕ} {α β : K}

lemma bc_cell_any (s : Sol K) (hE : 0 < s.NE) (e : ℕ) (he : e ≤ s.NE + 1) :
    ∃ e' ≤ s.NE + 1, ∀ f < s.NF, s.bcCol (e * s.NF + f) = e' * s.NF + f := by
  by_cases h0 : e = 0
  · subst h0
    by_cases hp : s.bcl.isLit "periodic"
    · exact ⟨s.NE, by omega, fun f hf => by rw [zero_mul, zero_add, bcCol_left s hf, if_pos hp, add_comm]⟩
    · by_cases hz : s.bcl.isLit "zerograd"
      · exact ⟨1, by omega, fun f hf => by
          rw [zero_mul, zero_add, bcCol_left s hf, if_neg hp, if_pos hz, one_mul, add_comm]⟩
      · exact ⟨0, by omega, fun f hf => by
          rw [zero_mul, zero_add, bcCol_left s hf, if_neg hp, if_neg hz]⟩
  · by_cases h1 : e = s.NE + 1
    · subst h1
      by_cases hp : s.bcr.isLit "periodic"
      · exact ⟨1, by omega, fun f hf => by rw [bcCol_right s hf, if_pos hp, one_mul]⟩
      · by_cases hz : s.bcr.isLit "zerograd"
        · exact ⟨s.NE, by omega, fun f hf => by rw [bcCol_right s hf, if_neg hp, if_pos hz]⟩
        · exact ⟨s.NE + 1, by omega, fun f hf => by rw [bcCol_right s hf, if_neg hp, if_neg hz]⟩
    · exact ⟨e, by omega, fun f hf => bcCol_interior s (by omega) (by omega) hf⟩

lemma Like.applyBc_val {x s : Sol K} (hx : Like x s) (hw : s.WF) (r c : ℕ) : x.applyBc.u.val r c = x.u.val r (s.bcCol c) := by
  rw [Dg1d.applyBc_val (by rw [hx.setup.NF]; exact hw.NF) (by rw [hx.setup.NE]; exact hw.NE)
    (by rw [hx.cols, hx.setup.NE, hx.setup.NF]; exact hw.cols)]
  congr 1
  unfold Sol.bcCol
  rw [hx.setup.NE, hx.setup.NF, hx.setup.bcl, hx.setup.bcr]

lemma LinSol.applyBc {x y z : Sol K} (h : LinSol s rows α β x y z) (hw : s.WF) :
    LinSol s rows α β x.applyBc y.applyBc z.applyBc := by
  refine ⟨h.lx.applyBc, h.ly.applyBc, h.lz.applyBc, ?_⟩
  intro n hn e he f hf
  obtain ⟨e', h1, h2⟩ := bc_cell_any s hw.NE e he
  rw [h.lx.applyBc_val hw, h.ly.applyBc_val hw, h.lz.applyBc_val hw, h2 f hf]
  exact h.val n hn e' h1 f hf

lemma LinSol.smart {x y z : Sol K} {X Y Z : Arr K} (h : LinSol s rows α β x y z) (c : K)
    (hX : LinVal s rows α β X.val Y.val Z.val) :
    LinSol s rows α β (x.smartAxpy c X) (y.smartAxpy c Y) (z.smartAxpy c Z) := by
  unfold Sol.smartAxpy
  split
  · refine ⟨h.lx.axpy c X, h.ly.axpy c Y, h.lz.axpy c Z, ?_⟩
    intro n hn e he f hf
    simp only [Arr.add, Arr.smul]
    rw [h.val n hn e he f hf, hX n hn e he f hf]
    ring
  · exact h

lemma LinSol.copy {x y z x' y' z' : Sol K} (h : LinSol s rows α β x y z) (h' : LinSol s rows α β x' y' z') :
    LinSol s rows α β (x.copyDataOnly x') (y.copyDataOnly y') (z.copyDataOnly z') :=
  ⟨h.lx.copy h'.lx, h.ly.copy h'.ly, h.lz.copy h'.lz, h'.val⟩

lemma LinSol.clock {x y z : Sol K} (h : LinSol s rows α β x y z) (a b c : K) (i j k : ℕ) :
    LinSol s rows α β { x with t := a, n := i } { y with t := b, n := j } { z with t := c, n := k } :=
  ⟨h.lx.clock a i, h.ly.clock b j, h.lz.clock c k, h.val⟩

lemma LinSol.time {x y z : Sol K} (h : LinSol s rows α β x y z) (a b c : K) :
    LinSol s rows α β { x with t := a } { y with t := b } { z with t := c } := h.clock a b c x.n y.n z.n

lemma LinVal.smul {A B C : Arr K} (h : LinVal s rows α β A.val B.val C.val) (c : K) :
    LinVal s rows α β (A.smul c).val (B.smul c).val (C.smul c).val := by
  intro n hn e he f hf
  simp only [Arr.smul]
  rw [h n hn e he f hf]
  ring

/-- The residual of linear advection is linear. -/
lemma LinSol.residual {lib : GaussLib K} {p : ℕ} (hb : s.Built lib p) (hk : s.kw = Advection.physics) {x y z : Sol K}
    (h : LinSol s (p + 1) α β x y z) :
    ∃ X Y Z, residual x = .ok (x.applyBc, X) ∧ Dg1d.residual y = .ok (y.applyBc, Y) ∧ Dg1d.residual z = .ok (z.applyBc, Z) ∧
      LinVal s (p + 1) α β X.val Y.val Z.val := by
  have hps : s.kw.Pointwise (Advection.spec s.NF) := by rw [hk]; exact Advection.pointwise _
  obtain ⟨X, hX, _, _, iX, gX⟩ := (residual_like hb.wf h.lx hps).2 fun _ _ hf => hf
  obtain ⟨Y, hY, _, _, iY, gY⟩ := (residual_like hb.wf h.ly hps).2 fun _ _ hf => hf
  obtain ⟨Z, hZ, _, _, iZ, gZ⟩ := (residual_like hb.wf h.lz hps).2 fun _ _ hf => hf
  refine ⟨X, Y, Z, hX, hY, hZ, ?_⟩
  have hval := (h.applyBc hb.wf).val
  have hface : ∀ i ≤ s.NE, ∀ f : Fin s.NF, s.face 1 z.applyBc.u.val i f =
      α * s.face 1 x.applyBc.u.val i f + β * s.face 1 y.applyBc.u.val i f := by
    intro i hi f
    unfold Sol.face
    rw [Finset.mul_sum, Finset.mul_sum, ← Finset.sum_add_distrib]
    apply Finset.sum_congr rfl
    intro n hn
    rw [Finset.mem_range, hb.ns] at hn
    rw [hval n hn i (by omega) f f.2, hval n hn (i + 1) (by omega) f f.2]
    ring
  have hvol : ∀ n, ∀ e ≤ s.NE + 1, ∀ f : Fin s.NF, s.vol (Advection.spec s.NF) z.applyBc.u.val n e f =
      α * s.vol (Advection.spec s.NF) x.applyBc.u.val n e f + β * s.vol (Advection.spec s.NF) y.applyBc.u.val n e f := by
    intro n e he f
    unfold Sol.vol
    rw [Finset.mul_sum, Finset.mul_sum, ← Finset.sum_add_distrib]
    apply Finset.sum_congr rfl
    intro g _
    simp only [Advection.spec]
    have : ∑ k ∈ Finset.range s.basis.Ns, s.basis.phi.val g k * z.applyBc.u.val k (e * s.NF + f) =
        α * ∑ k ∈ Finset.range s.basis.Ns, s.basis.phi.val g k * x.applyBc.u.val k (e * s.NF + f) +
        β * ∑ k ∈ Finset.range s.basis.Ns, s.basis.phi.val g k * y.applyBc.u.val k (e * s.NF + f) := by
      rw [Finset.mul_sum, Finset.mul_sum, ← Finset.sum_add_distrib]
      apply Finset.sum_congr rfl
      intro k hk
      rw [Finset.mem_range, hb.ns] at hk
      rw [hval k hk e he f f.2]
      ring
    rw [this]
    ring
  intro n hn e he f hf
  have hn' : n < s.basis.Ns := by rw [hb.ns]; exact hn
  by_cases hg : e = 0 ∨ e = s.NE + 1
  · have e1 := gX n hn' e hg ⟨f, hf⟩
    have e2 := gY n hn' e hg ⟨f, hf⟩
    have e3 := gZ n hn' e hg ⟨f, hf⟩
    simp only at e1 e2 e3
    rw [e1, e2, e3, hvol n e he]
    ring
  · have e1 := iX n hn' e (by omega) (by omega) ⟨f, hf⟩
    have e2 := iY n hn' e (by omega) (by omega) ⟨f, hf⟩
    have e3 := iZ n hn' e (by omega) (by omega) ⟨f, hf⟩
    simp only at e1 e2 e3
    rw [e1, e2, e3, hvol n e he]
    unfold Sol.q
    simp only [Advection.spec]
    rw [hface e (by omega), hface (e - 1) (by omega)]
    split <;> ring

/-- Three stage states related entry by entry. -/
structure LinStage (s : Sol K) (rows : ℕ) (α β : K) (x y z : StageState K) : Prop where
  work : LinSol s rows α β x.work y.work z.work
  sol : LinSol s rows α β x.sol y.sol z.sol
  incr : ∀ j, LinVal s rows α β (x.incr j).val (y.incr j).val (z.incr j).val

lemma LinSol.acc {x y z : Sol K} (tab : Tableau K) (k : ℕ) {i j l : ℕ → Arr K} (h : LinSol s rows α β x y z)
    (hi : ∀ m, LinVal s rows α β (i m).val (j m).val (l m).val) :
    LinSol s rows α β (accumulate tab k i x) (accumulate tab k j y) (accumulate tab k l z) := by
  unfold accumulate
  generalize List.range k = r
  induction r generalizing x y z with
  | nil => exact h
  | cons m r ih => exact ih (h.smart _ (hi m))

/-- No limiting. -/
abbrev noLimit (K : Type*) [Field K] [LinearOrder K] : Env K := ⟨Dg1d.residual, fun s => .ok s⟩

/-- Outcome of a stage or of the inner loop for the three runs. The clocks of the solutions stay. -/
def LinRes (s : Sol K) (rows : ℕ) (α β : K) (x0 y0 z0 : StageState K) (x y z : Except PyErr (StageState K)) : Prop :=
  ∃ a b c, x = .ok a ∧ y = .ok b ∧ z = .ok c ∧ LinStage s rows α β a b c ∧ a.sol.t = x0.sol.t ∧ a.sol.n = x0.sol.n ∧
    b.sol.t = y0.sol.t ∧ b.sol.n = y0.sol.n ∧ c.sol.t = z0.sol.t ∧ c.sol.n = z0.sol.n

section
variable {lib : GaussLib K} {p : ℕ}

lemma LinStage.classic (hb : s.Built lib p) (hk : s.kw = Advection.physics) (tab : Tableau K) {u v w : Sol K}
    (hu : LinSol s (p + 1) α β u v w) (dt : K) (k : ℕ) (c a : K) {x y z : StageState K} (h : LinStage s (p + 1) α β x y z) :
    LinRes s (p + 1) α β x y z (classicStage (noLimit K) tab u dt k c a x) (classicStage (noLimit K) tab v dt k c a y)
      (classicStage (noLimit K) tab w dt k c a z) := by
  unfold classicStage
  have h1 := ((h.work.copy hu).acc tab k h.incr).time ((accumulate tab k x.incr (x.work.copyDataOnly u)).t + a * dt)
    ((accumulate tab k y.incr (y.work.copyDataOnly v)).t + a * dt) ((accumulate tab k z.incr (z.work.copyDataOnly w)).t + a * dt)
  obtain ⟨X, Y, Z, hX, hY, hZ, hv⟩ := h1.residual hb hk
  have hv2 := hv.smul dt
  simp only [ite_self, hX, hY, hZ, Function.update_self]
  refine ⟨_, _, _, rfl, rfl, rfl, ⟨h1.applyBc hb.wf, h.sol.smart c hv2, ?_⟩, ?_⟩
  · intro j
    by_cases hj : j = k
    · subst hj; simp only [Function.update_self]; exact hv2
    · simp only [Function.update_of_ne hj]; exact h.incr j
  · exact ⟨(smartAxpy_clock _ _ _).1, (smartAxpy_clock _ _ _).2, (smartAxpy_clock _ _ _).1, (smartAxpy_clock _ _ _).2,
      (smartAxpy_clock _ _ _).1, (smartAxpy_clock _ _ _).2⟩

lemma LinStage.low (hb : s.Built lib p) (hk : s.kw = Advection.physics) {u v w : Sol K}
    (hu : LinSol s (p + 1) α β u v w) (dt : K) (k : ℕ) (a c : K) {x y z : StageState K} (h : LinStage s (p + 1) α β x y z) :
    LinRes s (p + 1) α β x y z (lowStage (noLimit K) u dt k a c x) (lowStage (noLimit K) v dt k a c y)
      (lowStage (noLimit K) w dt k a c z) := by
  unfold lowStage
  have h1 := ((h.work.copy hu).smart a (h.incr 0)).time (((x.work.copyDataOnly u).smartAxpy a (x.incr 0)).t + a * dt)
    (((y.work.copyDataOnly v).smartAxpy a (y.incr 0)).t + a * dt) (((z.work.copyDataOnly w).smartAxpy a (z.incr 0)).t + a * dt)
  obtain ⟨X, Y, Z, hX, hY, hZ, hv⟩ := h1.residual hb hk
  have hv2 := hv.smul dt
  simp only [ite_self, hX, hY, hZ]
  refine ⟨_, _, _, rfl, rfl, rfl, ⟨h1.applyBc hb.wf, h.sol.smart c hv2, ?_⟩, ?_⟩
  · intro j
    by_cases hj : j = 0
    · subst hj; simp only [Function.update_self]; exact hv2
    · simp only [Function.update_of_ne hj]; exact h.incr j
  · exact ⟨(smartAxpy_clock _ _ _).1, (smartAxpy_clock _ _ _).2, (smartAxpy_clock _ _ _).1, (smartAxpy_clock _ _ _).2,
      (smartAxpy_clock _ _ _).1, (smartAxpy_clock _ _ _).2⟩

lemma LinRes.next {x0 y0 z0 a b c : StageState K} {x y z : Except PyErr (StageState K)} (h : LinRes s rows α β a b c x y z)
    (ha : a.sol.t = x0.sol.t ∧ a.sol.n = x0.sol.n ∧ b.sol.t = y0.sol.t ∧ b.sol.n = y0.sol.n ∧ c.sol.t = z0.sol.t ∧ c.sol.n = z0.sol.n) :
    LinRes s rows α β x0 y0 z0 x y z := by
  obtain ⟨a', b', c', h1, h2, h3, h4, h5, h6, h7, h8, h9, h10⟩ := h
  obtain ⟨g1, g2, g3, g4, g5, g6⟩ := ha
  exact ⟨a', b', c', h1, h2, h3, h4, h5.trans g1, h6.trans g2, h7.trans g3, h8.trans g4, h9.trans g5, h10.trans g6⟩

lemma LinStage.classics (hb : s.Built lib p) (hk : s.kw = Advection.physics) (tab : Tableau K) {u v w : Sol K}
    (hu : LinSol s (p + 1) α β u v w) (dt : K) (l : List (K × K)) : ∀ (k : ℕ) (x y z : StageState K), LinStage s (p + 1) α β x y z →
    LinRes s (p + 1) α β x y z (classicStages (noLimit K) tab u dt k l x) (classicStages (noLimit K) tab v dt k l y)
      (classicStages (noLimit K) tab w dt k l z) := by
  induction l with
  | nil => intro k x y z h; exact ⟨x, y, z, rfl, rfl, rfl, h, rfl, rfl, rfl, rfl, rfl, rfl⟩
  | cons c l ih =>
    obtain ⟨c, a⟩ := c
    intro k x y z h
    obtain ⟨x1, y1, z1, h1, h2, h3, h4, h5⟩ := h.classic hb hk tab hu dt k c a
    unfold classicStages
    rw [h1, h2, h3]
    exact (ih (k + 1) x1 y1 z1 h4).next h5

lemma LinStage.lows (hb : s.Built lib p) (hk : s.kw = Advection.physics) {u v w : Sol K}
    (hu : LinSol s (p + 1) α β u v w) (dt : K) (l : List (K × K)) : ∀ (k : ℕ) (x y z : StageState K), LinStage s (p + 1) α β x y z →
    LinRes s (p + 1) α β x y z (lowStages (noLimit K) u dt k l x) (lowStages (noLimit K) v dt k l y)
      (lowStages (noLimit K) w dt k l z) := by
  induction l with
  | nil => intro k x y z h; exact ⟨x, y, z, rfl, rfl, rfl, h, rfl, rfl, rfl, rfl, rfl, rfl⟩
  | cons c l ih =>
    obtain ⟨a, c⟩ := c
    intro k x y z h
    obtain ⟨x1, y1, z1, h1, h2, h3, h4, h5⟩ := h.low hb hk hu dt k a c
    unfold lowStages
    rw [h1, h2, h3]
    exact (ih (k + 1) x1 y1 z1 h4).next h5

lemma LinStage.inner (hb : s.Built lib p) (hk : s.kw = Advection.physics) (sch : Scheme K) {u v w : Sol K}
    (hu : LinSol s (p + 1) α β u v w) (dt : K) {x y z : StageState K} (h : LinStage s (p + 1) α β x y z) :
    LinRes s (p + 1) α β x y z (sch.inner (noLimit K) u dt x) (sch.inner (noLimit K) v dt y) (sch.inner (noLimit K) w dt z) := by
  cases sch with
  | low => exact h.lows hb hk hu dt _ 0 x y z
  | classic tab => exact h.classics hb hk tab hu dt _ 0 x y z

/-- Related outputs of the three runs. -/
structure LinOut (s : Sol K) (rows : ℕ) (α β : K) (x y z : OutRec K) : Prop where
  nout : x.nout = z.nout ∧ y.nout = z.nout
  dt : x.dt = z.dt ∧ y.dt = z.dt
  t : x.sol.t = z.sol.t ∧ y.sol.t = z.sol.t
  n : x.sol.n = z.sol.n ∧ y.sol.n = z.sol.n
  sol : LinSol s rows α β x.sol y.sol z.sol

/-- Related logs of the three runs. -/
def LinLog (s : Sol K) (rows : ℕ) (α β : K) (x y z : List (OutRec K)) : Prop :=
  x.length = z.length ∧ y.length = z.length ∧ ∀ (i : ℕ) (a b c : OutRec K), x[i]? = some a → y[i]? = some b → z[i]? = some c → LinOut s rows α β a b c

lemma LinLog.append {x y z : List (OutRec K)} (h : LinLog s rows α β x y z) {a b c : OutRec K} (hn : LinOut s rows α β a b c) :
    LinLog s rows α β (x ++ [a]) (y ++ [b]) (z ++ [c]) := by
  obtain ⟨h1, h2, h3⟩ := h
  refine ⟨by simp [h1], by simp [h2], ?_⟩
  intro i a' b' c' ha hb hc
  by_cases hi : i < z.length
  · rw [List.getElem?_append_left (by omega)] at ha hb hc
    exact h3 i a' b' c' ha hb hc
  · rw [List.getElem?_append_right (by omega)] at ha hb hc
    have : i - x.length = 0 := by
      rcases Nat.eq_zero_or_pos (i - x.length) with h | h
      · exact h
      · rw [List.getElem?_eq_none (by rw [List.length_singleton]; omega)] at ha; cases ha
    rw [h1] at this ha
    rw [h2] at hb
    rw [this] at ha hb hc
    simp only [List.getElem?_cons_zero, Option.some.injEq] at ha hb hc
    subst ha hb hc
    exact hn

/-- Related loop states of the three runs. -/
structure LinLoop (s : Sol K) (rows : ℕ) (α β : K) (x y z : LoopState K) : Prop where
  sol : LinSol s rows α β x.sol y.sol z.sol
  t : x.sol.t = z.sol.t ∧ y.sol.t = z.sol.t
  n : x.sol.n = z.sol.n ∧ y.sol.n = z.sol.n
  us : LinSol s rows α β x.us y.us z.us
  work : LinSol s rows α β x.work y.work z.work
  incr : ∀ j, LinVal s rows α β (x.incr j).val (y.incr j).val (z.incr j).val
  nout : x.nout = z.nout ∧ y.nout = z.nout
  tout : x.tout = z.tout ∧ y.tout = z.tout
  touts : x.touts = z.touts ∧ y.touts = z.touts
  status : x.status = z.status ∧ y.status = z.status
  log : LinLog s rows α β x.log y.log z.log

lemma Like.step_eq {x z s : Sol K} (hk : s.kw = Advection.physics) (hx : Like x s) (hz : Like z s) (ht : x.t = z.t) (tout cfl tf : K) :
    getNextTimeStep x tout cfl tf = getNextTimeStep z tout cfl tf := by
  apply getNextTimeStep_congr _ _ _ _ ht
  apply cflTimeStep_congr (hx.setup.trans hz.setup.symm)
  rw [hx.setup.kw, hz.setup.kw, hk]
  rfl

lemma LinLoop.output {x y z : LoopState K} (h : LinLoop s rows α β x y z) {a b c : Sol K} (hs : LinSol s rows α β a b c)
    (ht : a.t = c.t ∧ b.t = c.t) (hn : a.n = c.n ∧ b.n = c.n) (dt : K) (o d : Bool) :
    LinLoop s rows α β (outputPhase x a dt o d) (outputPhase y b dt o d) (outputPhase z c dt o d) := by
  have hlog : LinLog s rows α β (x.log ++ [⟨x.nout, dt, a⟩]) (y.log ++ [⟨y.nout, dt, b⟩]) (z.log ++ [⟨z.nout, dt, c⟩]) :=
    h.log.append ⟨h.nout, ⟨rfl, rfl⟩, ht, hn, hs⟩
  unfold outputPhase
  split
  · simp only
    split
    · exact ⟨hs, ht, hn, h.us, h.work, h.incr, h.nout, h.tout, h.touts, ⟨rfl, rfl⟩, hlog⟩
    · rw [h.touts.1, h.touts.2]
      split
      · exact ⟨hs, ht, hn, h.us, h.work, h.incr, ⟨by simp [h.nout.1], by simp [h.nout.2]⟩, h.tout, ⟨rfl, rfl⟩, ⟨rfl, rfl⟩, hlog⟩
      · exact ⟨hs, ht, hn, h.us, h.work, h.incr, ⟨by simp [h.nout.1], by simp [h.nout.2]⟩, ⟨rfl, rfl⟩, ⟨rfl, rfl⟩, h.status, hlog⟩
  · exact ⟨hs, ht, hn, h.us, h.work, h.incr, h.nout, h.tout, h.touts, h.status, h.log⟩

lemma LinLoop.body (hb : s.Built lib p) (hk : s.kw = Advection.physics) (deck : RkDeck K) (sch : Scheme K) {x y z : LoopState K}
    (h : LinLoop s (p + 1) α β x y z) :
    LinLoop s (p + 1) α β (loopBody (noLimit K) deck (sch.inner (noLimit K)) x) (loopBody (noLimit K) deck (sch.inner (noLimit K)) y)
      (loopBody (noLimit K) deck (sch.inner (noLimit K)) z) := by
  unfold loopBody
  rw [h.status.1, h.status.2]
  split
  case h_2 => exact h
  rw [h.tout.1, h.tout.2, Like.step_eq hk h.sol.lx h.sol.lz h.t.1, Like.step_eq hk h.sol.ly h.sol.lz h.t.2]
  cases hg : getNextTimeStep z.sol z.tout deck.cfl deck.finaltime with
  | error e => exact ⟨h.sol, h.t, h.n, h.us, h.work, h.incr, h.nout, ⟨rfl, rfl⟩, h.touts, ⟨rfl, rfl⟩, h.log⟩
  | ok v =>
    obtain ⟨dt, o, d⟩ := v
    simp only
    have hus := h.us.copy h.sol
    obtain ⟨a, b, c, h1, h2, h3, h4, t1, n1, t2, n2, t3, n3⟩ :=
      LinStage.inner hb hk sch hus dt (x := ⟨x.work, x.sol, x.incr⟩) (y := ⟨y.work, y.sol, y.incr⟩) (z := ⟨z.work, z.sol, z.incr⟩)
        ⟨h.work, h.sol, h.incr⟩
    rw [h1, h2, h3]
    simp only at t1 n1 t2 n2 t3 n3 ⊢
    refine LinLoop.output ?_ ((h4.sol.clock _ _ _ _ _ _).applyBc hb.wf) ?_ ?_ dt o d
    · exact ⟨h.sol, h.t, h.n, hus, h4.work, h4.incr, h.nout, ⟨rfl, rfl⟩, h.touts, ⟨rfl, rfl⟩, h.log⟩
    · simp only [(applyBc_clock _).1, t1, t2, t3, h.t.1, h.t.2, and_self]
    · simp only [(applyBc_clock _).2, n1, n2, n3, h.n.1, h.n.2, and_self]

/-- Runs whose data are in a linear relation stay so. -/
lemma LinLoop.run (hb : s.Built lib p) (hk : s.kw = Advection.physics) (deck : RkDeck K) (sch : Scheme K) {x y z : Sol K}
    (h : LinSol s (p + 1) α β x y z) (ht : x.t = z.t ∧ y.t = z.t) (hn : x.n = z.n ∧ y.n = z.n) (k : ℕ) :
    LinLoop s (p + 1) α β (sch.run (noLimit K) deck x k) (sch.run (noLimit K) deck y k) (sch.run (noLimit K) deck z k) := by
  unfold Scheme.run runLoop
  induction k with
  | succ k ih =>
    rw [Function.iterate_succ_apply', Function.iterate_succ_apply', Function.iterate_succ_apply']
    exact ih.body hb hk deck sch
  | zero =>
    simp only [Function.iterate_zero, id]
    unfold initLoop
    have hlog : LinLog s (p + 1) α β [⟨0, 0, x⟩] [⟨0, 0, y⟩] [⟨0, 0, z⟩] :=
      LinLog.append (x := []) (y := []) (z := []) ⟨rfl, rfl, by intro i a b c ha; simp at ha⟩ ⟨⟨rfl, rfl⟩, ⟨rfl, rfl⟩, ht, hn, h⟩
    have hz : ∀ j : ℕ, LinVal s (p + 1) α β (Arr.zeros (K := K) x.u.rows x.u.cols).val (Arr.zeros (K := K) y.u.rows y.u.cols).val
        (Arr.zeros (K := K) z.u.rows z.u.cols).val := by
      intro j n hn e he f hf
      simp [Arr.zeros]
    rw [ht.1, ht.2]
    simp only
    split
    · exact ⟨h, ht, hn, h, h, hz, ⟨rfl, rfl⟩, ⟨rfl, rfl⟩, ⟨rfl, rfl⟩, ⟨rfl, rfl⟩, hlog⟩
    · exact ⟨h, ht, hn, h, h, hz, ⟨rfl, rfl⟩, ⟨rfl, rfl⟩, ⟨rfl, rfl⟩, ⟨rfl, rfl⟩, hlog⟩

end

end Dg1d
