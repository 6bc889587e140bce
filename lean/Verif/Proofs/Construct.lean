import Verif.Model.Construct
import Verif.Proofs.Text
import Verif.Proofs.DgSpec
import Verif.Props.Basis
import Verif.Props.Enhance
import Verif.Props.InitialConditions

/-! Helper lemmas: constructing a solution. -/

open Dg1d.Spec

namespace Dg1d
open Text

lemma populateLoop_ok (B : Basis ℝ) (x : Vec ℝ) (NF : ℕ) (f : ℝ → List ℝ) (c : ℕ → ℕ → Vec ℝ) (l : List (ℕ × ℕ))
    (hl : ∀ q ∈ l, q.2 < NF) (h : ∀ q ∈ l, B.projection (x.val q.1) (x.val (q.1 + 1)) f q.2 = .ok (c q.1 q.2)) (u : Arr ℝ) :
    ∃ u', populateLoop B x NF f l u = (u', none) ∧ u'.rows = u.rows ∧ u'.cols = u.cols ∧
      (∀ q ∈ l, ∀ r, u'.val r (q.1 * NF + q.2) = (c q.1 q.2).val r) ∧
      ∀ col, (∀ q ∈ l, q.1 * NF + q.2 ≠ col) → ∀ r, u'.val r col = u.val r col := by
  induction l generalizing u with
  | nil => exact ⟨u, rfl, rfl, rfl, by simp, fun _ _ _ => rfl⟩
  | cons q l ih =>
    obtain ⟨u', h1, h2, h3, h4, h5⟩ := ih (fun q hq => hl q (List.mem_cons_of_mem _ hq)) (fun q hq => h q (List.mem_cons_of_mem _ hq))
      (u.setCol (q.1 * NF + q.2) (c q.1 q.2))
    refine ⟨u', ?_, h2, h3, ?_, ?_⟩
    · obtain ⟨e, g⟩ := q
      rw [populateLoop]
      simp only [h (e, g) (List.mem_cons_self ..)]
      exact h1
    · intro q' hq' r
      by_cases hin : q' ∈ l
      · exact h4 q' hin r
      · have : q' = q := by rcases List.mem_cons.mp hq' with h | h <;> [exact h; exact absurd h hin]
        subst this
        rw [h5]
        · simp [Arr.setCol]
        · intro q'' hq'' heq
          have a1 := hl q' (List.mem_cons_self ..)
          have a2 := hl q'' (List.mem_cons_of_mem _ hq'')
          have e1 : q''.1 = q'.1 := by
            have e := congrArg (· / NF) heq
            simpa [Nat.mul_comm _ NF, Nat.mul_add_div (by omega : 0 < NF), Nat.div_eq_of_lt a1, Nat.div_eq_of_lt a2] using e
          have e2 : q''.2 = q'.2 := by rw [e1] at heq; omega
          exact hin (by rw [← Prod.ext e1 e2]; exact hq'')
    · intro col hcol r
      rw [h5 col (fun q' hq' => hcol q' (List.mem_cons_of_mem _ hq')) r]
      have := hcol q (List.mem_cons_self ..)
      simp [Arr.setCol, Ne.symm this]

lemma mem_populateOrder {NE NF : ℕ} {q : ℕ × ℕ} : q ∈ populateOrder NE NF ↔ q.1 < NE ∧ q.2 < NF := by
  unfold populateOrder
  obtain ⟨e, f⟩ := q
  simp [List.mem_flatMap]

/-- Edges, centroids and spacing of a uniform mesh. -/
lemma linspace_mesh {A B : ℝ} {N : ℕ} (h : 0 < N) {i : ℕ} :
    (linspace A B (N + 1)).val i = A + (i : ℝ) * ((B - A) / (N : ℝ)) := by
  have hN : (N : ℝ) ≠ 0 := Nat.cast_ne_zero.mpr (by omega)
  unfold linspace
  simp only [Nat.add_sub_cancel]
  split
  · rename_i hh
    rw [hh.1]
    field_simp
    ring
  · rfl

lemma centroids_val {A B : ℝ} {N : ℕ} (h : 0 < N) : (centroids (linspace A B (N + 1))).len = N ∧
    ∀ i < N, (centroids (linspace A B (N + 1))).val i = ((linspace A B (N + 1)).val i + (linspace A B (N + 1)).val (i + 1)) / 2 := by
  have hlen : (linspace A B (N + 1)).len = N + 1 := rfl
  have p1 : pyIdx (N + 1) 1 = 1 := by simpa using pyIdx_nat (N + 1) 1 (by omega)
  have p2 : pyIdx (N + 1) ((N + 1 : ℕ) : ℤ) = N + 1 := pyIdx_nat _ _ le_rfl
  have p3 : pyIdx (N + 1) 0 = 0 := by simpa using pyIdx_nat (N + 1) 0 (by omega)
  constructor
  · simp only [centroids, Vec.slice, hlen, p1, p2]; omega
  · intro i hi
    simp only [centroids, Vec.slice, hlen, p1, p3, zero_add]
    rw [Nat.add_comm 1 i]
    ring

/-- `setup_common_ic` with at least one cell, when `f` has all the fields. -/
lemma setup_ok {s : Partial} {p : ℕ} {lib : GaussLib ℝ} (hb : s.sol.basis = Basis.init lib p) {p0 : Str} {rest : List Str} {N : ℕ}
    (hN : intOf p0 = some (N : ℤ)) (h0 : 0 < N) {f : ℝ → List ℝ} (hf : ∀ y, s.sol.NF ≤ (f y).length) (A B : ℝ) :
    ∃ (u : Arr ℝ) (c : ℕ → ℕ → Vec ℝ), setupCommonIc s (p0 :: rest) f A B =
      ({ s with
          nE := N
          sol := { s.sol with NE := N, x := linspace A B (N + 1), dx := (B - A) / N, xc := centroids (linspace A B (N + 1)), u := u, scaledMinv := ⟨p + 1, fun n => (2 * (n : ℝ) + 1) / 2 * 2 / ((B - A) / N)⟩ } }, none) ∧
      u.rows = p + 1 ∧ u.cols = (N + 2) * s.sol.NF ∧
      (∀ e < N, ∀ g < s.sol.NF, (Basis.init lib p).projection ((linspace A B (N + 1)).val e) ((linspace A B (N + 1)).val (e + 1)) f g = .ok (c e g)) ∧
      (∀ e < N, ∀ g < s.sol.NF, ∀ r, u.val r ((e + 1) * s.sol.NF + g) = (c e g).val r) ∧
      (∀ g < s.sol.NF, ∀ r, u.val r g = 0) ∧ ∀ g < s.sol.NF, ∀ r, u.val r ((N + 1) * s.sol.NF + g) = 0 := by
  have hproj : ∀ e g, g < s.sol.NF → ∃ c, (Basis.init lib p).projection ((linspace A B (N + 1)).val e)
      ((linspace A B (N + 1)).val (e + 1)) f g = .ok c := by
    intro e g hg
    unfold Basis.projection evalComponent
    rw [if_pos (fun i _ => lt_of_lt_of_le hg (hf _))]
    exact ⟨_, rfl⟩
  have : Nonempty (Vec ℝ) := ⟨⟨0, fun _ => 0⟩⟩
  choose! c hc using hproj
  obtain ⟨u', h1, h2, h3, h4, h5⟩ := populateLoop_ok (Basis.init lib p) (linspace A B (N + 1)) s.sol.NF f c (populateOrder N s.sol.NF)
    (fun q hq => (mem_populateOrder.mp hq).2) (fun q hq => hc q.1 q.2 (mem_populateOrder.mp hq).2) (Arr.zeros (p + 1) (N * s.sol.NF))
  have hcast : ((N : ℤ) + 1).toNat = N + 1 := by omega
  set u : Arr ℝ := ⟨p + 1, s.sol.NF + N * s.sol.NF + s.sol.NF, fun r c => if c < s.sol.NF then 0 else if c < s.sol.NF + N * s.sol.NF then u'.val r (c - s.sol.NF) else 0⟩ with hu
  have hpop : ∀ t : Sol ℝ, t.basis = Basis.init lib p → t.x = linspace A B (N + 1) → t.NF = s.sol.NF → t.NE = N →
      t.u = Arr.zeros (p + 1) (N * s.sol.NF) → populate t f = ({ t with u := u' }, none) := by
    intro t a b c d e
    unfold populate
    rw [a, b, c, d, e, h1]
  refine ⟨u, c, ?_, rfl, ?_, fun e _ g hg => hc e g hg, ?_, ?_, ?_⟩
  · unfold setupCommonIc
    simp only [hN]
    rw [if_neg (by omega), if_neg (by omega)]
    rw [hpop]
    · simp only [Sol.addGhosts, hb, h2, h3, Int.toNat_natCast, hcast, Int.cast_natCast]
      rfl
    · exact hb
    · simp only [hcast]
    · rfl
    · exact Int.toNat_natCast N
    · simp only [hb, Int.toNat_natCast]; rfl
  · simp only [hu]; ring
  · intro e he g hg r
    have hlt : e * s.sol.NF + g < N * s.sol.NF := by
      have : (e + 1) * s.sol.NF ≤ N * s.sol.NF := Nat.mul_le_mul_right _ he
      rw [Nat.succ_mul] at this
      omega
    have hidx : (e + 1) * s.sol.NF + g = s.sol.NF + (e * s.sol.NF + g) := by ring
    simp only [hu, hidx]
    rw [if_neg (by omega), if_pos (by omega), Nat.add_sub_cancel_left]
    exact h4 (e, g) (mem_populateOrder.mpr ⟨he, hg⟩) r
  · intro g hg r
    simp only [hu]; rw [if_pos hg]
  · intro g hg r
    have hidx : (N + 1) * s.sol.NF + g = s.sol.NF + (N * s.sol.NF) + g := by ring
    simp only [hu, hidx]
    rw [if_neg (by omega), if_neg (by omega)]

/-- Number of fields of a system. -/
lemma manipulation_NF (γ : ℝ) (system riemann : Str) :
    (manipulationFunctions γ system riemann).2 = if system = "euler".toList then 3 else 1 := by
  unfold manipulationFunctions; split <;> rfl

/-- The initial condition a name and its parameters stand for. -/
noncomputable def setupOf (ft : FloatText ℝ) (name : Str) (params : List Str) : Option IC.Setup :=
  if name = "sinewave".toList then some IC.sinewave
  else if name = "simplew".toList then some IC.simplew
  else if name = "entrpyw".toList then some IC.entrpyw
  else if name = "acsticw".toList then some IC.acsticw
  else if name = "scktube".toList then
    if params.length = 8 then
      match scktubeParams ft params with
      | .ok [xd, rL, uL, pL, rR, uR, pR] => some (IC.scktube xd rL uL pL rR uR pR)
      | _ => none
    else none
  else if name = "shuoshe".toList then some IC.shuoshe
  else if name = "ictest".toList then some IC.ictest
  else none

lemma call_setup {ft : FloatText ℝ} {name : Str} {params : List Str} {ic : IC.Setup} (h : setupOf ft name params = some ic)
    (system riemann : Str) (s : Partial) : callKeyword ft system riemann s name params = runSetup system riemann s params ic := by
  unfold setupOf at h
  unfold callKeyword
  by_cases h1 : name = "sinewave".toList
  · rw [if_pos h1] at h ⊢; cases h; rfl
  rw [if_neg h1] at h ⊢
  by_cases h2 : name = "simplew".toList
  · rw [if_pos h2] at h ⊢; cases h; rfl
  rw [if_neg h2] at h ⊢
  by_cases h3 : name = "entrpyw".toList
  · rw [if_pos h3] at h ⊢; cases h; rfl
  rw [if_neg h3] at h ⊢
  by_cases h4 : name = "acsticw".toList
  · rw [if_pos h4] at h ⊢; cases h; rfl
  rw [if_neg h4] at h ⊢
  by_cases h5 : name = "scktube".toList
  · rw [if_pos h5] at h ⊢
    unfold runScktube
    by_cases hl : params.length = 8
    · rw [if_pos hl] at h
      rw [if_neg (not_not.mpr hl)]
      split at h
      · rename_i heq
        rw [heq]
        cases h; rfl
      · cases h
    · rw [if_neg hl] at h; cases h
  rw [if_neg h5] at h ⊢
  by_cases h6 : name = "shuoshe".toList
  · rw [if_pos h6] at h ⊢; cases h; rfl
  rw [if_neg h6] at h ⊢
  by_cases h7 : name = "ictest".toList
  · rw [if_pos h7] at h ⊢; cases h; rfl
  rw [if_neg h7] at h ⊢
  cases h

/-- Every initial condition has a proper domain; the Euler ones have three fields. -/
lemma setupOf_facts {ft : FloatText ℝ} {name : Str} {params : List Str} {ic : IC.Setup} (h : setupOf ft name params = some ic) :
    ic.A < ic.B ∧ (ic.bc = "periodic" ∨ ic.bc = "zerograd") ∧ (∀ γ x, 1 ≤ (ic.f γ x).length) ∧
    (name ≠ "sinewave".toList → name ≠ "ictest".toList → ∀ γ x, (ic.f γ x).length = 3) ∧
    (ic.gamma = none ∨ ic.gamma = some (7 / 5) ∨ ic.gamma = some 3) ∧ (ic.gamma = some 3 ↔ name = "simplew".toList) := by
  have hs : ∀ γ x, (IC.simplewF γ x).length = 3 := by
    intro γ x
    unfold IC.simplewF
    have := Props.C28_simplew_covers γ x
    split
    · rename_i h; exact absurd h this
    · rfl
  have n3 : (some (7 / 5 : ℝ)) ≠ some 3 := by simp only [ne_eq, Option.some.injEq]; norm_num
  unfold setupOf at h
  by_cases h1 : name = "sinewave".toList
  · rw [if_pos h1] at h; cases h
    subst h1
    exact ⟨by norm_num [IC.sinewave], Or.inl rfl, fun _ _ => le_rfl, fun h => absurd rfl h, Or.inl rfl, by simp [IC.sinewave]⟩
  rw [if_neg h1] at h
  by_cases h2 : name = "simplew".toList
  · rw [if_pos h2] at h; cases h
    exact ⟨by norm_num [IC.simplew], Or.inr rfl, fun γ x => by rw [show (IC.simplew.f γ x).length = 3 from hs γ x]; norm_num,
      fun _ _ => hs, Or.inr (Or.inr rfl), iff_of_true rfl h2⟩
  rw [if_neg h2] at h
  by_cases h3 : name = "entrpyw".toList
  · rw [if_pos h3] at h; cases h
    exact ⟨by norm_num [IC.entrpyw], Or.inl rfl, fun _ _ => by norm_num [IC.entrpyw, IC.entrpywF], fun _ _ _ _ => rfl, Or.inl rfl, iff_of_false (by simp [IC.entrpyw]) h2⟩
  rw [if_neg h3] at h
  by_cases h4 : name = "acsticw".toList
  · rw [if_pos h4] at h; cases h
    exact ⟨by norm_num [IC.acsticw], Or.inl rfl, fun _ _ => by norm_num [IC.acsticw, IC.acsticwF], fun _ _ _ _ => rfl, Or.inl rfl, iff_of_false (by simp [IC.acsticw]) h2⟩
  rw [if_neg h4] at h
  by_cases h5 : name = "scktube".toList
  · rw [if_pos h5] at h
    split at h
    · split at h
      · cases h
        exact ⟨by norm_num [IC.scktube], Or.inr rfl, fun _ _ => by norm_num [IC.scktube, IC.scktubeF], fun _ _ _ _ => rfl, Or.inr (Or.inl rfl), by simp only [IC.scktube, n3, h2]⟩
      · cases h
    · cases h
  rw [if_neg h5] at h
  by_cases h6 : name = "shuoshe".toList
  · rw [if_pos h6] at h; cases h
    exact ⟨by norm_num [IC.shuoshe], Or.inr rfl, fun _ _ => by norm_num [IC.shuoshe, IC.shuosheF], fun _ _ _ _ => rfl, Or.inl rfl, iff_of_false (by simp [IC.shuoshe]) h2⟩
  rw [if_neg h6] at h
  by_cases h7 : name = "ictest".toList
  · rw [if_pos h7] at h; cases h
    exact ⟨by norm_num [IC.ictest], Or.inl rfl, fun _ _ => le_rfl, fun _ h => absurd h7 h, Or.inl rfl, iff_of_false (by simp [IC.ictest]) h2⟩
  rw [if_neg h7] at h; cases h

/-! ### Failures -/

lemma projection_error {B : Basis ℝ} {a b : ℝ} {f : ℝ → List ℝ} {g : ℕ} {e : PyErr} (h : B.projection a b f g = .error e) : e = .indexError := by
  unfold Basis.projection evalComponent at h
  split at h
  · rename_i heq
    split at heq
    · cases heq
    · cases heq; cases h; rfl
  · cases h

lemma populateLoop_shape (B : Basis ℝ) (x : Vec ℝ) (NF : ℕ) (f : ℝ → List ℝ) (l : List (ℕ × ℕ)) (u : Arr ℝ) :
    (populateLoop B x NF f l u).1.rows = u.rows ∧ (populateLoop B x NF f l u).1.cols = u.cols ∧
    ((populateLoop B x NF f l u).2 = none ∨ (populateLoop B x NF f l u).2 = some .indexError) ∧
    ((∃ q ∈ l, ∃ e, B.projection (x.val q.1) (x.val (q.1 + 1)) f q.2 = .error e) → (populateLoop B x NF f l u).2 = some .indexError) := by
  induction l generalizing u with
  | nil => exact ⟨rfl, rfl, Or.inl rfl, by simp⟩
  | cons q l ih =>
    obtain ⟨e, g⟩ := q
    rw [populateLoop]
    rcases hp : B.projection (x.val e) (x.val (e + 1)) f g with er | c
    · rw [projection_error hp]
      exact ⟨rfl, rfl, Or.inr rfl, fun _ => rfl⟩
    · simp only
      obtain ⟨i1, i2, i3, i4⟩ := ih (u.setCol (e * NF + g) c)
      refine ⟨i1, i2, i3, ?_⟩
      rintro ⟨q, hq, er, her⟩
      rcases List.mem_cons.mp hq with rfl | hq
      · rw [hp] at her; cases her
      · exact i4 ⟨q, hq, er, her⟩

/-- Whatever happens, `setup_common_ic` changes neither gamma nor the boundary names, and it fails only with ordinary
exceptions. -/
lemma setup_any (s : Partial) (params : List Str) (f : ℝ → List ℝ) (A B : ℝ) :
    (setupCommonIc s params f A B).1.gamma = s.gamma ∧ (setupCommonIc s params f A B).1.sol.kw = s.sol.kw ∧
    ∀ e, (setupCommonIc s params f A B).2 = some e → e = .indexError ∨ e = .valueError := by
  unfold setupCommonIc
  rcases params with _ | ⟨p0, rest⟩
  · exact ⟨rfl, rfl, fun e h => by cases h; exact Or.inl rfl⟩
  simp only
  rcases intOf p0 with _ | N
  · exact ⟨rfl, rfl, fun e h => by cases h; exact Or.inr rfl⟩
  simp only
  by_cases h1 : N + 1 < 0
  · rw [if_pos h1]
    exact ⟨rfl, rfl, fun e h => by cases h; exact Or.inr rfl⟩
  rw [if_neg h1]
  by_cases h2 : N < 0
  · rw [if_pos h2]
    exact ⟨rfl, rfl, fun e h => by cases h; exact Or.inr rfl⟩
  rw [if_neg h2]
  split
  · rename_i sol e heq
    simp only [populate, Prod.mk.injEq] at heq
    obtain ⟨rfl, heq2⟩ := heq
    refine ⟨rfl, rfl, fun e' h => ?_⟩
    cases h
    rcases (populateLoop_shape s.sol.basis (linspace A B (N + 1).toNat) s.sol.NF f (populateOrder N.toNat s.sol.NF)
      (Arr.zeros (s.sol.basis.p + 1) (N.toNat * s.sol.NF))).2.2.1 with h | h
    · rw [heq2] at h; cases h
    · rw [heq2] at h; cases h; exact Or.inl rfl
  · rename_i sol heq
    simp only [populate, Prod.mk.injEq] at heq
    obtain ⟨rfl, -⟩ := heq
    exact ⟨rfl, rfl, fun e h => by cases h⟩

lemma runSetup_any (system riemann : Str) (s : Partial) (params : List Str) (ic : IC.Setup) :
    (runSetup system riemann s params ic).1.gamma = ic.gamma.getD s.gamma ∧
    ∀ e, (runSetup system riemann s params ic).2 = some e → e = .indexError ∨ e = .valueError :=
  ⟨(setup_any _ _ _ _ _).1, (setup_any _ _ _ _ _).2.2⟩

/-- Gamma after an initial condition, and the ways it can fail (other than the shock tube). -/
lemma call_any (ft : FloatText ℝ) (system riemann : Str) (s : Partial) (hs : s.gamma = 7 / 5) (name : Str) (params : List Str) :
    (callKeyword ft system riemann s name params).1.gamma = (if name = "simplew".toList then 3 else 7 / 5) ∧
    (name ≠ "scktube".toList → ∀ e, (callKeyword ft system riemann s name params).2 = some e → e.isException = true) := by
  have hrun : ∀ ic : IC.Setup, ∀ e, (runSetup system riemann s params ic).2 = some e → e.isException = true := by
    intro ic e he
    rcases (runSetup_any system riemann s params ic).2 e he with rfl | rfl <;> rfl
  unfold callKeyword
  by_cases h1 : name = "sinewave".toList
  · rw [if_pos h1]
    exact ⟨by rw [(runSetup_any _ _ _ _ _).1, if_neg (by rw [h1]; decide), hs]; rfl, fun _ => hrun _⟩
  rw [if_neg h1]
  by_cases h2 : name = "simplew".toList
  · rw [if_pos h2]
    exact ⟨by rw [(runSetup_any _ _ _ _ _).1, if_pos h2]; rfl, fun _ => hrun _⟩
  rw [if_neg h2, if_neg h2]
  by_cases h3 : name = "entrpyw".toList
  · rw [if_pos h3]
    exact ⟨by rw [(runSetup_any _ _ _ _ _).1, hs]; rfl, fun _ => hrun _⟩
  rw [if_neg h3]
  by_cases h4 : name = "acsticw".toList
  · rw [if_pos h4]
    exact ⟨by rw [(runSetup_any _ _ _ _ _).1, hs]; rfl, fun _ => hrun _⟩
  rw [if_neg h4]
  by_cases h5 : name = "scktube".toList
  · rw [if_pos h5]
    refine ⟨?_, fun h => absurd h5 h⟩
    unfold runScktube
    split
    · exact hs
    · split
      · rw [(runSetup_any _ _ _ _ _).1]; rfl
      · exact hs
      · exact hs
  rw [if_neg h5]
  by_cases h6 : name = "shuoshe".toList
  · rw [if_pos h6]
    exact ⟨by rw [(runSetup_any _ _ _ _ _).1, hs]; rfl, fun _ => hrun _⟩
  rw [if_neg h6]
  by_cases h7 : name = "ictest".toList
  · rw [if_pos h7]
    exact ⟨by rw [(runSetup_any _ _ _ _ _).1, hs]; rfl, fun _ => hrun _⟩
  rw [if_neg h7]
  split
  · exact ⟨hs, fun _ e he => by cases he⟩
  · split
    · exact ⟨hs, fun _ e he => by cases he; rfl⟩
    · exact ⟨hs, fun _ e he => by cases he; rfl⟩

lemma finish_form {lib : GaussLib ℝ} {p : ℕ} {enhLine : Str} {th : List ℝ} {s s' : Partial} (h : finishConstruct lib p enhLine th s = .ok s') :
    ∃ en sn, s' = { s with sol := { s.sol with enhance := en, sensors := sn } } := by
  unfold finishConstruct at h
  split at h
  · cases h
  · split at h
    · cases h
    · cases h; exact ⟨_, _, rfl⟩

/-- What a successful construction did. -/
lemma construct_form {lib : GaussLib ℝ} {ft : FloatText ℝ} {junk : ℕ → ℝ} {icline system riemann enhLine : Str} {order : ℤ} {th : List ℝ}
    {s : Partial} (h : construct lib ft junk icline system order riemann enhLine th = .ok s) :
    0 ≤ order ∧ ∃ name params, split icline = name :: params ∧
      finishConstruct lib order.toNat enhLine th
        (callKeyword ft system riemann (emptySolution lib junk system order.toNat riemann) name params).1 = .ok s := by
  unfold construct at h
  split at h
  · cases h
  · rename_i hord
    refine ⟨not_lt.mp hord, ?_⟩
    split at h
    · cases h
    · rename_i name params heq
      refine ⟨name, params, heq, ?_⟩
      simp only at h
      split at h
      · split at h
        · exact h
        · cases h
      · exact h

/-- A component the initial condition does not have: `populate` stops and the solution stays without ghosts. -/
lemma setup_stops {s : Partial} {p0 : Str} {rest : List Str} {N : ℕ} (hN : intOf p0 = some (N : ℤ)) {f : ℝ → List ℝ} {A B : ℝ}
    (h : ∃ q ∈ populateOrder N s.sol.NF, ∃ e, s.sol.basis.projection ((linspace A B (N + 1)).val q.1) ((linspace A B (N + 1)).val (q.1 + 1)) f q.2 = .error e) :
    ∃ s', setupCommonIc s (p0 :: rest) f A B = (s', some .indexError) ∧ s'.nE = N ∧ s'.sol.NE = N ∧ s'.sol.NF = s.sol.NF ∧
      s'.sol.u.cols = N * s.sol.NF ∧ s'.sol.bcl = s.sol.bcl := by
  obtain ⟨q1, q2, -, q4⟩ := populateLoop_shape s.sol.basis (linspace A B (N + 1)) s.sol.NF f (populateOrder N s.sol.NF)
    (Arr.zeros (s.sol.basis.p + 1) (N * s.sol.NF))
  have q5 := q4 h
  have hcast : ((N : ℤ) + 1).toNat = N + 1 := by omega
  unfold setupCommonIc populate
  simp only [hN]
  rw [if_neg (by omega), if_neg (by omega)]
  simp only [hcast, Int.toNat_natCast, q5]
  exact ⟨_, rfl, rfl, rfl, rfl, q2, rfl⟩

end Dg1d
