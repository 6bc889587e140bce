import Verif.Proofs.RkTables
import Mathlib.Data.ZMod.Basic
import Mathlib.Data.Nat.Factorial.BigOperators

/-!
Helper lemmas: order conditions of all rooted trees of a given size, up to a tolerance, by evaluation.

The weights of a tree are integers over a common denominator, kept modulo a large number; trees that differ by the order of
their branches have the same weights, so one entry per unordered tree is enough. The definitions use recursors directly, which
the kernel evaluates fast.
-/

namespace Dg1d
open Spec

namespace OrderTable

/-- Weights of the stages and product of the densities of the branches. -/
abbrev Ent := List ℕ × ℕ

/-- Scalar product, up to the shorter length. -/
noncomputable def dotN (l : List ℕ) : List ℕ → ℕ :=
  List.rec (motive := fun _ => List ℕ → ℕ) (fun _ => 0)
    (fun a _ ih m => List.rec (motive := fun _ => ℕ) 0 (fun b m' _ => Nat.add (Nat.mul a b) (ih m')) m) l

/-- Products of the entries modulo `M`. -/
noncomputable def mulV (M : ℕ) (l : List ℕ) : List ℕ → List ℕ :=
  List.rec (motive := fun _ => List ℕ → List ℕ) (fun _ => [])
    (fun a _ ih m => List.rec (motive := fun _ => List ℕ) [] (fun b m' _ => Nat.mod (Nat.mul a b) M :: ih m') m) l

/-- Matrix times vector modulo `M`. -/
noncomputable def appV (M : ℕ) (rows : List (List ℕ)) (w : List ℕ) : List ℕ :=
  List.rec (motive := fun _ => List ℕ) [] (fun r _ ih => Nat.mod (dotN r w) M :: ih) rows

/-- One more branch `g` at the root. -/
noncomputable def mulE (M : ℕ) (x g : Ent) : Ent := (mulV M x.1 g.1, Nat.mul x.2 g.2)

/-- A tree of size `n` as a branch. -/
noncomputable def genE (M : ℕ) (rows : List (List ℕ)) (n : ℕ) (x : Ent) : Ent := (appV M rows x.1, Nat.mul n x.2)

/-- The trees of `l` whose last branch is at most number `j`, with branch `j` added, before the list `tl`. -/
noncomputable def selMul (M j : ℕ) (g : Ent) (l tl : List (ℕ × Ent)) : List (ℕ × Ent) :=
  List.rec (motive := fun _ => List (ℕ × Ent)) tl (fun e _ ih => Bool.rec ih ((j, mulE M e.2 g) :: ih) (Nat.ble e.1 j)) l

/-- All trees with one vertex more than those in `T`, from the branches `G` numbered from `j`. -/
noncomputable def newLevel (M : ℕ) (T : List (List (ℕ × Ent))) (n : ℕ) (G : List (ℕ × Ent)) : ℕ → List (ℕ × Ent) :=
  List.rec (motive := fun _ => ℕ → List (ℕ × Ent)) (fun _ => [])
    (fun g _ ih j => selMul M j g.2 (T.getD (n - g.1) []) (ih (Nat.succ j))) G

/-- Trees by size, and all of them as branches. -/
structure Tab where
  T : List (List (ℕ × Ent))
  G : List (ℕ × Ent)

/-- One more size. -/
noncomputable def stepTab (M : ℕ) (rows : List (List ℕ)) (s : Tab) : Tab :=
  let n := s.T.length
  let new := newLevel M s.T n s.G 0
  ⟨s.T ++ [new], s.G ++ new.map fun e => (n + 1, genE M rows (n + 1) e.2)⟩

/-- The single vertex. -/
def leafE (s : ℕ) : Ent := (List.replicate s 1, 1)

/-- Trees with one vertex. -/
noncomputable def startTab (M : ℕ) (rows : List (List ℕ)) (s : ℕ) : Tab := ⟨[[(0, leafE s)]], [(1, genE M rows 1 (leafE s))]⟩

/-- `k` more sizes. -/
noncomputable def iter (M : ℕ) (rows : List (List ℕ)) : ℕ → Tab → Tab
  | 0, s => s
  | k + 1, s => iter M rows k (stepTab M rows s)

/-- The condition of every tree in the table up to `1/N`: residue of weight times density minus one near zero. -/
noncomputable def chk (c : List ℕ) (M D N : ℕ) : ℕ → List (List (ℕ × Ent)) → Bool
  | _, [] => true
  | n, l :: T =>
    l.all (fun e => Nat.ble (Nat.mod (Nat.add (Nat.mul (dotN c e.2.1) (Nat.mul n e.2.2)) (M - D ^ n + D ^ n / N)) M) (2 * (D ^ n / N))) && chk c M D N (n + 1) T

/-! ### Every tree is in the table -/

/-- The entry of a tree. -/
noncomputable def entry (M : ℕ) (rows : List (List ℕ)) (s : ℕ) : RTree → Ent
  | .leaf => leafE s
  | .graft t u => mulE M (entry M rows s t) (genE M rows u.size (entry M rows s u))

@[simp] lemma mulV_nil (M : ℕ) (m : List ℕ) : mulV M [] m = [] := rfl
@[simp] lemma mulV_cons_nil (M a : ℕ) (l : List ℕ) : mulV M (a :: l) [] = [] := rfl
@[simp] lemma mulV_cons (M a b : ℕ) (l m : List ℕ) : mulV M (a :: l) (b :: m) = a * b % M :: mulV M l m := rfl

lemma mulV_right_comm (M : ℕ) (x g h : List ℕ) : mulV M (mulV M x g) h = mulV M (mulV M x h) g := by
  induction x generalizing g h with
  | nil => simp
  | cons a x ih =>
    cases g with
    | nil => cases h <;> simp
    | cons b g =>
      cases h with
      | nil => simp
      | cons c h =>
        simp only [mulV_cons, ih]
        congr 1
        rw [Nat.mod_mul_mod, Nat.mod_mul_mod, mul_right_comm]

lemma mulE_right_comm (M : ℕ) (x g h : Ent) : mulE M (mulE M x g) h = mulE M (mulE M x h) g := by
  unfold mulE
  simp only [mulV_right_comm M x.1 g.1 h.1]
  congr 1
  exact mul_right_comm x.2 g.2 h.2

lemma mem_selMul {M j : ℕ} {g : Ent} {l tl : List (ℕ × Ent)} {y : ℕ × Ent} :
    y ∈ selMul M j g l tl ↔ (∃ e ∈ l, e.1 ≤ j ∧ y = (j, mulE M e.2 g)) ∨ y ∈ tl := by
  induction l with
  | nil => simp [selMul]
  | cons e l ih =>
    have : selMul M j g (e :: l) tl = Bool.rec (selMul M j g l tl) ((j, mulE M e.2 g) :: selMul M j g l tl) (Nat.ble e.1 j) := rfl
    rw [this]
    rcases hb : Nat.ble e.1 j with _ | _
    · have h' : ¬ e.1 ≤ j := fun h => by rw [Nat.ble_eq_true_of_le h] at hb; cases hb
      simp only [ih, List.mem_cons, exists_eq_or_imp, h', false_and, false_or]
    · have h' : e.1 ≤ j := Nat.le_of_ble_eq_true hb
      simp only [List.mem_cons, ih, exists_eq_or_imp, h', true_and, or_assoc]

lemma mem_newLevel {M n : ℕ} {T : List (List (ℕ × Ent))} {G : List (ℕ × Ent)} {j : ℕ} {y : ℕ × Ent} :
    y ∈ newLevel M T n G j ↔ ∃ i g, G[i]? = some g ∧ ∃ e ∈ T.getD (n - g.1) [], e.1 ≤ j + i ∧ y = (j + i, mulE M e.2 g.2) := by
  induction G generalizing j with
  | nil => simp [newLevel]
  | cons g G ih =>
    have : newLevel M T n (g :: G) j = selMul M j g.2 (T.getD (n - g.1) []) (newLevel M T n G (j + 1)) := rfl
    rw [this, mem_selMul, ih]
    constructor
    · rintro (⟨e, he, h1, h2⟩ | ⟨i, g', hg, e, he, h1, h2⟩)
      · exact ⟨0, g, rfl, e, he, h1, h2⟩
      · exact ⟨i + 1, g', by simpa using hg, e, he, by omega, by rw [h2, show j + (i + 1) = j + 1 + i by omega]⟩
    · rintro ⟨i, g', hg, e, he, h1, h2⟩
      cases i with
      | zero =>
        simp only [List.getElem?_cons_zero, Option.some.injEq] at hg
        subst hg
        exact .inl ⟨e, he, h1, h2⟩
      | succ i => exact .inr ⟨i, g', by simpa using hg, e, he, by omega, by rw [h2, show j + (i + 1) = j + 1 + i by omega]⟩

/-- What the table holds after `n` sizes. -/
structure Good (M : ℕ) (rows : List (List ℕ)) (s n : ℕ) (t : Tab) : Prop where
  len : t.T.length = n
  pos : 1 ≤ n
  leaf : t.T.getD 0 [] = [(0, leafE s)]
  sizes : ∀ g ∈ t.G, 1 ≤ g.1 ∧ g.1 ≤ n
  /-- every entry beyond the first size has a last branch -/
  last : ∀ k, 1 ≤ k → k < n → ∀ y ∈ t.T.getD k [], ∃ g, t.G[y.1]? = some g ∧ g.1 ≤ k ∧ ∃ e ∈ t.T.getD (k - g.1) [], e.1 ≤ y.1 ∧ y.2 = mulE M e.2 g.2
  /-- and every such combination is there -/
  all : ∀ (i : ℕ) g, t.G[i]? = some g → ∀ k, g.1 ≤ k → k < n → ∀ e ∈ t.T.getD (k - g.1) [], e.1 ≤ i → (i, mulE M e.2 g.2) ∈ t.T.getD k []
  /-- every entry is a branch -/
  gens : ∀ k < n, ∀ y ∈ t.T.getD k [], ∃ i : ℕ, t.G[i]? = some (k + 1, genE M rows (k + 1) y.2)

variable {M : ℕ} {rows : List (List ℕ)} {s : ℕ}

lemma good_start : Good M rows s 1 (startTab M rows s) where
  len := rfl
  pos := le_rfl
  leaf := rfl
  sizes g hg := by
    have : g = (1, genE M rows 1 (leafE s)) := by simpa [startTab] using hg
    subst this
    exact ⟨le_rfl, le_rfl⟩
  last k h1 h2 := by omega
  all i g hg k h1 h2 := by
    have : g.1 = 1 := by
      have hm := List.mem_of_getElem? hg
      have : g = (1, genE M rows 1 (leafE s)) := by simpa [startTab] using hm
      rw [this]
    omega
  gens k hk y hy := by
    obtain rfl : k = 0 := by omega
    have : y = (0, leafE s) := by simpa [startTab] using hy
    subst this
    exact ⟨0, rfl⟩

lemma getD_append_lt {α : Type*} (l : List (List α)) (x : List α) {k : ℕ} (h : k < l.length) : (l ++ [x]).getD k [] = l.getD k [] := by
  simp [List.getD_eq_getElem?_getD, List.getElem?_append_left h]

lemma getD_append_eq {α : Type*} (l : List (List α)) (x : List α) : (l ++ [x]).getD l.length [] = x := by
  simp [List.getD_eq_getElem?_getD]

lemma good_step {n : ℕ} {t : Tab} (h : Good M rows s n t) : Good M rows s (n + 1) (stepTab M rows t) := by
  have hl := h.len
  set new := newLevel M t.T n t.G 0 with hnew
  have hT : (stepTab M rows t).T = t.T ++ [new] := by unfold stepTab; simp only [hl]; rfl
  have hG : (stepTab M rows t).G = t.G ++ new.map fun e => (n + 1, genE M rows (n + 1) e.2) := by unfold stepTab; simp only [hl]; rfl
  have hold : ∀ k < n, (stepTab M rows t).T.getD k [] = t.T.getD k [] := fun k hk => by
    rw [hT]; exact getD_append_lt _ _ (by omega)
  have hn : (stepTab M rows t).T.getD n [] = new := by rw [hT]; conv_lhs => rw [← hl]
                                                       exact getD_append_eq _ _
  have hGold : ∀ {i : ℕ} {g}, t.G[i]? = some g → (stepTab M rows t).G[i]? = some g := fun {i g} hi => by
    rw [hG, List.getElem?_append_left]
    · exact hi
    · exact (List.getElem?_eq_some_iff.mp hi).1
  have hnewG : ∀ {i : ℕ} {g}, (stepTab M rows t).G[i]? = some g → t.G[i]? = some g ∨ g.1 = n + 1 := fun {i g} hi => by
    rw [hG] at hi
    rcases lt_or_ge i t.G.length with hlt | hge
    · rw [List.getElem?_append_left hlt] at hi; exact .inl hi
    · rw [List.getElem?_append_right hge] at hi
      have := List.mem_of_getElem? hi
      obtain ⟨e, _, rfl⟩ := List.mem_map.mp this
      exact .inr rfl
  have hpos := h.pos
  refine ⟨by rw [hT]; simp [hl], by omega, by rw [hold 0 (by omega)]; exact h.leaf, ?_, ?_, ?_, ?_⟩
  · intro g hg
    rw [hG, List.mem_append] at hg
    rcases hg with hg | hg
    · have := h.sizes g hg; omega
    · obtain ⟨e, _, rfl⟩ := List.mem_map.mp hg; simp
  · intro k h1 h2 y hy
    rcases Nat.lt_succ_iff_lt_or_eq.mp h2 with hk | rfl
    · rw [hold k hk] at hy
      obtain ⟨g, a, b, e, he, c, d⟩ := h.last k h1 hk y hy
      exact ⟨g, hGold a, b, e, by rw [hold _ (by omega)]; exact he, c, d⟩
    · rw [hn, hnew, mem_newLevel] at hy
      obtain ⟨i, g, hg, e, he, c, rfl⟩ := hy
      have hs := h.sizes g (List.mem_of_getElem? hg)
      exact ⟨g, by simp only [Nat.zero_add]; exact hGold hg, hs.2, e, by rw [hold _ (by omega)]; exact he, c, rfl⟩
  · intro i g hg k h1 h2 e he hei
    rcases hnewG hg with hg' | hg'
    · have hs := h.sizes g (List.mem_of_getElem? hg')
      rcases Nat.lt_succ_iff_lt_or_eq.mp h2 with hk | rfl
      · rw [hold _ (by omega)] at he
        rw [hold _ hk]
        exact h.all i g hg' k h1 hk e he hei
      · rw [hold _ (by omega)] at he
        rw [hn, hnew, mem_newLevel]
        exact ⟨i, g, hg', e, he, by omega, by rw [Nat.zero_add]⟩
    · omega
  · intro k hk y hy
    rcases Nat.lt_succ_iff_lt_or_eq.mp hk with hk | rfl
    · rw [hold k hk] at hy
      obtain ⟨i, hi⟩ := h.gens k hk y hy
      exact ⟨i, hGold hi⟩
    · rw [hn] at hy
      obtain ⟨i, hi⟩ := List.getElem?_of_mem hy
      refine ⟨t.G.length + i, ?_⟩
      rw [hG, List.getElem?_append_right (by omega), Nat.add_sub_cancel_left, List.getElem?_map, hi]
      rfl

lemma good_iter (k : ℕ) {n : ℕ} {t : Tab} (h : Good M rows s n t) : Good M rows s (n + k) (iter M rows k t) := by
  induction k generalizing n t with
  | zero => exact h
  | succ k ih =>
    have := ih (good_step h)
    rw [show n + (k + 1) = n + 1 + k by omega]
    exact this

/-- Adding any branch to an entry leads to an entry. -/
lemma Good.closed {n : ℕ} {t : Tab} (h : Good M rows s n t) {j : ℕ} {g : ℕ × Ent} (hg : t.G[j]? = some g) (a : ℕ) :
    ∀ x ∈ t.T.getD a [], a + g.1 < n → ∃ k, k ≤ max x.1 j ∧ (k, mulE M x.2 g.2) ∈ t.T.getD (a + g.1) [] := by
  induction a using Nat.strong_induction_on with
  | _ a ih =>
    intro x hx hlt
    have hsz := h.sizes g (List.mem_of_getElem? hg)
    rcases le_or_gt x.1 j with hle | hgt
    · exact ⟨j, le_max_right _ _, h.all j g hg _ (by omega) hlt x (by rw [Nat.add_sub_cancel]; exact hx) hle⟩
    · rcases Nat.eq_zero_or_pos a with rfl | hpos
      · rw [h.leaf] at hx
        have : x = (0, leafE s) := by simpa using hx
        rw [this] at hgt
        exact absurd hgt (by simp)
      · obtain ⟨g', hg', hk', e, he, hei, hx2⟩ := h.last a hpos (by omega) x hx
        have hs' := h.sizes g' (List.mem_of_getElem? hg')
        obtain ⟨k, hk, hmem⟩ := ih (a - g'.1) (by omega) e he (by omega)
        refine ⟨x.1, le_max_left _ _, ?_⟩
        have := h.all x.1 g' hg' (a + g.1) (by omega) hlt (k, mulE M e.2 g.2) (by rw [show a + g.1 - g'.1 = a - g'.1 + g.1 by omega]; exact hmem) (by
          rcases le_total e.1 j with h1 | h1
          · rw [max_eq_right h1] at hk; show k ≤ x.1; omega
          · rw [max_eq_left h1] at hk; show k ≤ x.1; omega)
        rw [hx2, mulE_right_comm]
        exact this

lemma Good.mem {n : ℕ} {t : Tab} (h : Good M rows s n t) (τ : RTree) (hτ : τ.size ≤ n) : ∃ k, (k, entry M rows s τ) ∈ t.T.getD (τ.size - 1) [] := by
  induction τ with
  | leaf => exact ⟨0, by show _ ∈ t.T.getD 0 []; rw [h.leaf]; simp [entry]⟩
  | graft τ υ h1 h2 =>
    have hs : (RTree.graft τ υ).size = τ.size + υ.size := rfl
    have p1 := RTree.size_pos τ
    have p2 := RTree.size_pos υ
    rw [hs] at hτ
    obtain ⟨k1, m1⟩ := h1 (by omega)
    obtain ⟨k2, m2⟩ := h2 (by omega)
    obtain ⟨j, hj⟩ := h.gens (υ.size - 1) (by omega) _ m2
    rw [Nat.sub_add_cancel p2] at hj
    obtain ⟨k, -, hk⟩ := h.closed hj (τ.size - 1) _ m1 (by show _ + υ.size < n; omega)
    refine ⟨k, ?_⟩
    rw [hs, show τ.size + υ.size - 1 = τ.size - 1 + υ.size by omega]
    exact hk

/-! ### The condition of a tree -/

lemma chk_sound {c : List ℕ} {D N : ℕ} {T : List (List (ℕ × Ent))} {n : ℕ} (h : chk c M D N n T = true) {k : ℕ} {e : ℕ × Ent} (he : e ∈ T.getD k []) :
    (dotN c e.2.1 * ((n + k) * e.2.2) + (M - D ^ (n + k) + D ^ (n + k) / N)) % M ≤ 2 * (D ^ (n + k) / N) := by
  induction T generalizing n k with
  | nil => simp at he
  | cons l T ih =>
    unfold chk at h
    rw [Bool.and_eq_true, List.all_eq_true] at h
    cases k with
    | zero =>
      have := h.1 e (by simpa using he)
      exact Nat.le_of_ble_eq_true this
    | succ k =>
      have := ih h.2 (k := k) (by simpa using he)
      rw [show n + (k + 1) = n + 1 + k by omega]
      exact this

/-- Weights of the stages with an integer matrix. -/
def intWeight (s : ℕ) (B : ℕ → ℕ → ℤ) : RTree → ℕ → ℤ
  | .leaf, _ => 1
  | .graft t u, i => intWeight s B t i * ∑ j ∈ Finset.range s, B i j * intWeight s B u j

lemma dotN_eq (c w : List ℕ) : dotN c w = ∑ j ∈ Finset.range w.length, c.getD j 0 * w.getD j 0 := by
  induction c generalizing w with
  | nil => simp [dotN]
  | cons a c ih =>
    cases w with
    | nil => simp [dotN]
    | cons b w =>
      have : dotN (a :: c) (b :: w) = a * b + dotN c w := rfl
      rw [this, ih, List.length_cons, Finset.sum_range_succ']
      simp [add_comm]

lemma mulV_getD (x g : List ℕ) (hl : x.length = g.length) (i : ℕ) : (mulV M x g).length = x.length ∧ ((mulV M x g).getD i 0 : ZMod M) = x.getD i 0 * g.getD i 0 := by
  induction x generalizing g i with
  | nil => cases g <;> simp at hl; simp
  | cons a x ih =>
    cases g with
    | nil => simp at hl
    | cons b g =>
      rw [mulV_cons]
      have := ih g (by simpa using hl)
      refine ⟨by simp [(this 0).1], ?_⟩
      cases i with
      | zero => simp
      | succ i => simpa using (this i).2

lemma appV_getD (rows : List (List ℕ)) (w : List ℕ) (i : ℕ) (hi : i < rows.length) : (appV M rows w).length = rows.length ∧
    ((appV M rows w).getD i 0 : ZMod M) = ((dotN (rows.getD i []) w : ℕ) : ZMod M) := by
  have hlen : ∀ rows : List (List ℕ), (appV M rows w).length = rows.length := by
    intro rows
    induction rows with
    | nil => rfl
    | cons r rows ih =>
      have : appV M (r :: rows) w = dotN r w % M :: appV M rows w := rfl
      rw [this]; simp [ih]
  refine ⟨hlen rows, ?_⟩
  induction rows generalizing i with
  | nil => simp at hi
  | cons r rows ih =>
    have : appV M (r :: rows) w = dotN r w % M :: appV M rows w := rfl
    rw [this]
    cases i with
    | zero => simp
    | succ i => simpa using ih i (by simpa using hi)

lemma entry_spec {B : ℕ → ℕ → ℤ} (hr : rows.length = s) (hB : ∀ i < s, ∀ j < s, ((B i j : ℤ) : ZMod M) = ((rows.getD i []).getD j 0 : ℕ)) (t : RTree) :
    (entry M rows s t).1.length = s ∧ (entry M rows s t).2 = t.branchDensity ∧
    ∀ i < s, (((entry M rows s t).1.getD i 0 : ℕ) : ZMod M) = ((intWeight s B t i : ℤ) : ZMod M) := by
  induction t with
  | leaf =>
    refine ⟨by simp [entry, leafE], rfl, fun i hi => ?_⟩
    simp [entry, leafE, intWeight, List.getD_eq_getElem?_getD, hi]
  | graft t u ht hu =>
    have hlen : ∀ i < s, (appV M rows (entry M rows s u).1).length = s := fun i hi => by
      rw [(appV_getD rows _ i (by omega)).1, hr]
    rcases Nat.eq_zero_or_pos s with rfl | hs
    · refine ⟨?_, ?_, fun i hi => by omega⟩
      · have : (entry M rows 0 t).1 = [] := List.length_eq_zero_iff.mp ht.1
        show (mulV M (entry M rows 0 t).1 _).length = 0
        rw [this]; rfl
      · show (entry M rows 0 t).2 * (u.size * (entry M rows 0 u).2) = _
        rw [ht.2.1, hu.2.1]; rfl
    have hl0 := hlen 0 hs
    refine ⟨?_, ?_, fun i hi => ?_⟩
    · show (mulV M (entry M rows s t).1 (appV M rows (entry M rows s u).1)).length = s
      rw [(mulV_getD _ _ (by rw [ht.1, hl0]) 0).1, ht.1]
    · show (entry M rows s t).2 * (u.size * (entry M rows s u).2) = _
      rw [ht.2.1, hu.2.1]; rfl
    · show (((mulV M (entry M rows s t).1 (appV M rows (entry M rows s u).1)).getD i 0 : ℕ) : ZMod M) = _
      rw [(mulV_getD _ _ (by rw [ht.1, hl0]) i).2, ht.2.2 i hi, (appV_getD rows _ i (by omega)).2, dotN_eq, hu.1]
      simp only [intWeight]
      push_cast
      congr 1
      refine Finset.sum_congr rfl fun j hj => ?_
      have hj := Finset.mem_range.mp hj
      rw [hu.2.2 j hj, hB i hi j hj]

lemma intWeight_le {B : ℕ → ℕ → ℤ} {R : ℕ} (hR : ∀ i < s, ∑ j ∈ Finset.range s, |B i j| ≤ R) (t : RTree) : ∀ i < s, |intWeight s B t i| ≤ (R : ℤ) ^ (t.size - 1) := by
  induction t with
  | leaf => intro i _; simp [intWeight, RTree.size]
  | graft t u ht hu =>
    intro i hi
    have p1 := RTree.size_pos t
    have p2 := RTree.size_pos u
    have e : (RTree.graft t u).size - 1 = (t.size - 1) + (1 + (u.size - 1)) := by show t.size + u.size - 1 = _; omega
    rw [e, pow_add, pow_add, pow_one]
    simp only [intWeight]
    rw [abs_mul]
    refine mul_le_mul (ht i hi) ?_ (abs_nonneg _) (by positivity)
    calc |∑ j ∈ Finset.range s, B i j * intWeight s B u j| ≤ ∑ j ∈ Finset.range s, |B i j * intWeight s B u j| := Finset.abs_sum_le_sum_abs _ _
      _ ≤ ∑ j ∈ Finset.range s, |B i j| * (R : ℤ) ^ (u.size - 1) := Finset.sum_le_sum fun j hj => by
          rw [abs_mul]; exact mul_le_mul_of_nonneg_left (hu j (Finset.mem_range.mp hj)) (abs_nonneg _)
      _ = (∑ j ∈ Finset.range s, |B i j|) * (R : ℤ) ^ (u.size - 1) := by rw [Finset.sum_mul]
      _ ≤ R * (R : ℤ) ^ (u.size - 1) := mul_le_mul_of_nonneg_right (hR i hi) (by positivity)

lemma branchDensity_le (t : RTree) : t.branchDensity ≤ (t.size - 1).factorial := by
  induction t with
  | leaf => simp [RTree.branchDensity, RTree.size]
  | graft t u ht hu =>
    have p1 := RTree.size_pos t
    have p2 := RTree.size_pos u
    show t.branchDensity * (u.size * u.branchDensity) ≤ (t.size + u.size - 1).factorial
    rw [show t.size + u.size - 1 = t.size - 1 + u.size by omega]
    refine le_trans (Nat.mul_le_mul ht ?_) (Nat.le_of_dvd (Nat.factorial_pos _) (Nat.factorial_mul_factorial_dvd_factorial_add _ _))
    calc u.size * u.branchDensity ≤ u.size * (u.size - 1).factorial := Nat.mul_le_mul_left _ hu
      _ = u.size.factorial := Nat.mul_factorial_pred (by omega)

lemma density_le (t : RTree) : t.density ≤ t.size.factorial := by
  unfold RTree.density
  calc t.size * t.branchDensity ≤ t.size * (t.size - 1).factorial := Nat.mul_le_mul_left _ (branchDensity_le t)
    _ = t.size.factorial := Nat.mul_factorial_pred (by have := RTree.size_pos t; omega)

/-- What has to be evaluated for a table with matrix `B / D` and weights `c / D`. -/
structure Checks (s : ℕ) (cI : ℕ → ℤ) (B : ℕ → ℕ → ℤ) (c : List ℕ) (rows : List (List ℕ)) (D M R N p : ℕ) : Prop where
  pos : 1 ≤ p
  nrows : rows.length = s
  cols : ∀ i < s, ∀ j < s, (M : ℤ) ∣ ((rows.getD i []).getD j 0 : ℕ) - B i j
  weights : ∀ i < s, (M : ℤ) ∣ (c.getD i 0 : ℕ) - cI i
  rowSum : ∀ i < s, ∑ j ∈ Finset.range s, |B i j| ≤ R
  weightSum : ∑ i ∈ Finset.range s, |cI i| ≤ R
  room : ∀ n < p, R ^ (n + 1) * (n + 1).factorial + D ^ (n + 1) + 3 * (D ^ (n + 1) / N) < M
  table : chk c M D N 1 (iter M rows (p - 1) (startTab M rows s)).T = true

lemma cast_of_dvd {a : ℕ} {b : ℤ} (h : (M : ℤ) ∣ (a : ℤ) - b) : ((b : ℤ) : ZMod M) = ((a : ℕ) : ZMod M) := by
  have := (ZMod.intCast_zmod_eq_zero_iff_dvd ((a : ℤ) - b) M).mpr h
  push_cast at this
  exact (sub_eq_zero.mp this).symm

lemma int_condition {cI : ℕ → ℤ} {B : ℕ → ℕ → ℤ} {c : List ℕ} {D R N p : ℕ} (h : Checks s cI B c rows D M R N p) (t : RTree) (ht : t.size ≤ p) :
    |(∑ i ∈ Finset.range s, cI i * intWeight s B t i) * t.density - (D : ℤ) ^ t.size| ≤ ((D ^ t.size / N : ℕ) : ℤ) := by
  have hp := RTree.size_pos t
  have hgood : Good M rows s p (iter M rows (p - 1) (startTab M rows s)) := by
    have := good_iter (M := M) (rows := rows) (s := s) (p - 1) good_start
    rwa [show 1 + (p - 1) = p by have := h.pos; omega] at this
  obtain ⟨k, hk⟩ := hgood.mem t ht
  have hc := chk_sound h.table hk
  rw [show 1 + (t.size - 1) = t.size by omega] at hc
  obtain ⟨e1, e2, e3⟩ := entry_spec (B := B) h.nrows (fun i hi j hj => cast_of_dvd (h.cols i hi j hj)) t
  set X : ℤ := (∑ i ∈ Finset.range s, cI i * intWeight s B t i) * t.density with hX
  set E : ℕ := D ^ t.size / N with hE
  have hroom := h.room (t.size - 1) (by omega)
  rw [Nat.sub_add_cancel hp] at hroom
  -- size of X
  have hXle : |X| ≤ (R : ℤ) ^ t.size * t.size.factorial := by
    rw [hX, abs_mul]
    refine mul_le_mul ?_ (by rw [Nat.abs_cast]; exact_mod_cast density_le t) (abs_nonneg _) (by positivity)
    calc |∑ i ∈ Finset.range s, cI i * intWeight s B t i| ≤ ∑ i ∈ Finset.range s, |cI i * intWeight s B t i| := Finset.abs_sum_le_sum_abs _ _
      _ ≤ ∑ i ∈ Finset.range s, |cI i| * (R : ℤ) ^ (t.size - 1) := Finset.sum_le_sum fun i hi => by
          rw [abs_mul]; exact mul_le_mul_of_nonneg_left (intWeight_le h.rowSum t i (Finset.mem_range.mp hi)) (abs_nonneg _)
      _ = (∑ i ∈ Finset.range s, |cI i|) * (R : ℤ) ^ (t.size - 1) := by rw [Finset.sum_mul]
      _ ≤ R * (R : ℤ) ^ (t.size - 1) := mul_le_mul_of_nonneg_right h.weightSum (by positivity)
      _ = (R : ℤ) ^ t.size := by rw [← pow_succ', Nat.sub_add_cancel hp]
  -- the residue
  set Y : ℕ := dotN c (entry M rows s t).1 * (t.size * (entry M rows s t).2) + (M - D ^ t.size + E) with hY
  have hDM : D ^ t.size ≤ M := by omega
  have hcong : ((Y % M : ℕ) : ZMod M) = ((X - (D : ℤ) ^ t.size + E : ℤ) : ZMod M) := by
    rw [ZMod.natCast_mod, hY, e2, dotN_eq, e1]
    push_cast [Nat.cast_sub hDM]
    rw [ZMod.natCast_self, hX]
    push_cast
    have : ∑ j ∈ Finset.range s, ((c.getD j 0 : ℕ) : ZMod M) * (((entry M rows s t).1.getD j 0 : ℕ) : ZMod M) = ∑ i ∈ Finset.range s, (cI i : ZMod M) * (intWeight s B t i : ZMod M) :=
      Finset.sum_congr rfl fun i hi => by
        have hi := Finset.mem_range.mp hi
        rw [e3 i hi, ← cast_of_dvd (h.weights i hi)]
    rw [this]
    unfold RTree.density
    push_cast
    ring
  have hdvd : (M : ℤ) ∣ (X - (D : ℤ) ^ t.size + E) - ((Y % M : ℕ) : ℤ) := by
    rw [← ZMod.intCast_zmod_eq_zero_iff_dvd]
    rw [Int.cast_sub, Int.cast_natCast, hcong, sub_self]
  have hr : ((Y % M : ℕ) : ℤ) ≤ 2 * E := by exact_mod_cast hc
  have hr0 : (0 : ℤ) ≤ ((Y % M : ℕ) : ℤ) := by positivity
  have hroomZ : (R : ℤ) ^ t.size * t.size.factorial + (D : ℤ) ^ t.size + 3 * E < M := by exact_mod_cast hroom
  have hD0 : (0 : ℤ) ≤ (D : ℤ) ^ t.size := by positivity
  have hE0 : (0 : ℤ) ≤ (E : ℤ) := by positivity
  have hXa := abs_le.mp hXle
  have hz : (X - (D : ℤ) ^ t.size + E) - ((Y % M : ℕ) : ℤ) = 0 := by
    refine Int.eq_zero_of_abs_lt_dvd hdvd ?_
    rw [abs_lt]
    constructor <;> linarith
  rw [abs_le]
  constructor <;> linarith

/-- The stage weights are the integer weights over a power of the denominator. -/
lemma stageWeight_int {F : Type*} [Field F] {D : ℕ} (hD : (D : F) ≠ 0) {B : ℕ → ℕ → ℤ} {beta : ℕ → ℕ → F} (hb : ∀ i < s, ∀ j < s, beta i j = (B i j : F) / D) (t : RTree) :
    ∀ i < s, t.stageWeight s beta i * (D : F) ^ (t.size - 1) = (intWeight s B t i : F) := by
  induction t with
  | leaf => intro i _; simp [RTree.stageWeight, intWeight, RTree.size]
  | graft t u ht hu =>
    intro i hi
    have p1 := RTree.size_pos t
    have p2 := RTree.size_pos u
    have e : (RTree.graft t u).size - 1 = (t.size - 1) + (1 + (u.size - 1)) := by show t.size + u.size - 1 = _; omega
    simp only [RTree.stageWeight, intWeight]
    push_cast
    rw [e, pow_add, pow_add, pow_one, ← ht i hi, mul_mul_mul_comm, Finset.sum_mul]
    congr 1
    refine Finset.sum_congr rfl fun j hj => ?_
    have hj := Finset.mem_range.mp hj
    rw [hb i hi j hj, ← hu j hj]
    field_simp

/-! ### Tables of rational numbers -/

/-- Common denominator. -/
def denLcm (l : List ℚ) : ℕ := l.foldr (fun q d => Nat.lcm q.den d) 1

/-- Numerator over the denominator `D`. -/
def intOf (D : ℕ) (q : ℚ) : ℤ := q.num * ((D / q.den : ℕ) : ℤ)

lemma denLcm_ne_zero (l : List ℚ) : denLcm l ≠ 0 := by
  induction l with
  | nil => simp [denLcm]
  | cons q l ih => exact Nat.lcm_ne_zero q.den_nz ih

lemma den_dvd {l : List ℚ} {q : ℚ} (h : q ∈ l) : q.den ∣ denLcm l := by
  induction l with
  | nil => simp at h
  | cons a l ih =>
    rcases List.mem_cons.mp h with rfl | h
    · exact Nat.dvd_lcm_left _ _
    · exact (ih h).trans (Nat.dvd_lcm_right _ _)

lemma intOf_div {F : Type*} [Field F] [CharZero F] {D : ℕ} (hD : D ≠ 0) {q : ℚ} (h : q.den ∣ D) : (q : F) = (intOf D q : F) / D := by
  obtain ⟨k, rfl⟩ := h
  have hk : k ≠ 0 := by rintro rfl; simp at hD
  have hq : (q.den : F) ≠ 0 := by exact_mod_cast q.den_nz
  unfold intOf
  rw [Nat.mul_div_cancel_left _ q.den_pos, Rat.cast_def]
  have hk' : (k : F) ≠ 0 := by exact_mod_cast hk
  push_cast
  field_simp

/-- Numerators modulo `M`. -/
def scaleRow (M D : ℕ) (l : List ℚ) : List ℕ := l.map fun q => (intOf D q % (M : ℤ)).toNat

/-- Largest row sum of absolute values of numerators, and of the weights. -/
def maxSum (D : ℕ) (c : List ℚ) (betas : List (List ℚ)) : ℕ := (c :: betas).foldr (fun r m => max (r.foldr (fun q a => (intOf D q).natAbs + a) 0) m) 0

/-- Everything to evaluate for the table `c`, `betas`: shape, room below the modulus, and the conditions themselves. -/
def TableOk (c : List ℚ) (betas : List (List ℚ)) (N p : ℕ) : Prop :=
  let D := denLcm (c ++ betas.flatten)
  let M := (D * 65536) ^ p
  let rows := betas.mapIdx fun i r => scaleRow M D (r.take i)
  1 ≤ p ∧ betas.length = c.length ∧ (∀ i < c.length, ∀ j < c.length, i ≤ j → (betas.getD i []).getD j 0 = 0) ∧
    (∀ n < p, (maxSum D c betas) ^ (n + 1) * (n + 1).factorial + D ^ (n + 1) + 3 * (D ^ (n + 1) / N) < M) ∧
    chk (scaleRow M D c) M D N 1 (iter M rows (p - 1) (startTab M rows c.length)).T = true

noncomputable instance (c : List ℚ) (betas : List (List ℚ)) (N p : ℕ) : Decidable (TableOk c betas N p) := by unfold TableOk; infer_instance

lemma scaleRow_dvd {D : ℕ} (hM : M ≠ 0) (l : List ℚ) (j : ℕ) : (M : ℤ) ∣ ((scaleRow M D l).getD j 0 : ℕ) - intOf D (l.getD j 0) := by
  have h0 : intOf D 0 = 0 := by simp [intOf]
  rcases lt_or_ge j l.length with h | h
  · have e : (scaleRow M D l).getD j 0 = (intOf D (l.getD j 0) % (M : ℤ)).toNat := by
      simp [scaleRow, List.getD_eq_getElem?_getD, h]
    rw [e, Int.toNat_of_nonneg (Int.emod_nonneg _ (by exact_mod_cast hM))]
    exact (Int.dvd_iff_emod_eq_zero).mpr (by simp [Int.sub_emod])
  · have e : (scaleRow M D l).getD j 0 = 0 := by simp [scaleRow, List.getD_eq_getElem?_getD, h]
    have e' : l.getD j 0 = 0 := by simp [List.getD_eq_getElem?_getD, h]
    rw [e, e', h0]; simp

lemma sum_natAbs_le {D : ℕ} (l : List ℚ) (s : ℕ) : ∑ j ∈ Finset.range s, |intOf D (l.getD j 0)| ≤ ((l.foldr (fun q a => (intOf D q).natAbs + a) 0 : ℕ) : ℤ) := by
  have h0 : intOf D 0 = 0 := by simp [intOf]
  induction l generalizing s with
  | nil => simp [h0]
  | cons q l ih =>
    cases s with
    | zero => simp only [Finset.range_zero, Finset.sum_empty]; positivity
    | succ s =>
      rw [Finset.sum_range_succ']
      have := ih s
      simp only [List.getD_cons_succ, List.getD_cons_zero, List.foldr_cons, Nat.cast_add, Int.natCast_natAbs]
      linarith

lemma le_maxSum {D : ℕ} {c : List ℚ} {betas : List (List ℚ)} {r : List ℚ} (h : r ∈ c :: betas) : r.foldr (fun q a => (intOf D q).natAbs + a) 0 ≤ maxSum D c betas := by
  unfold maxSum
  generalize c :: betas = l at h
  induction l with
  | nil => simp at h
  | cons a l ih =>
    rw [List.foldr_cons]
    rcases List.mem_cons.mp h with rfl | h
    · exact le_max_left _ _
    · exact (ih h).trans (le_max_right _ _)

/-- A table that passes the evaluation satisfies the order conditions up to `1/N`. -/
lemma near_of_ok {F : Type*} [Field F] [LinearOrder F] [IsStrictOrderedRing F] {c : List ℚ} {betas : List (List ℚ)} {N p : ℕ} (hN : 0 < N)
    (h : TableOk c betas N p) (beta : ℕ → ℕ → F) (hbeta : ∀ i < c.length, ∀ j < c.length, beta i j = (((betas.getD i []).getD j 0 : ℚ) : F)) :
    NearOrder (c.map fun q : ℚ => (q : F)) beta p (1 / N) := by
  unfold TableOk at h
  simp only at h
  set D := denLcm (c ++ betas.flatten) with hDdef
  set M := (D * 65536) ^ p with hMdef
  obtain ⟨h1, h2, h3, h4, h5⟩ := h
  have hD : D ≠ 0 := denLcm_ne_zero _
  have hM : M ≠ 0 := pow_ne_zero _ (by omega)
  have hDF : (D : F) ≠ 0 := by exact_mod_cast hD
  have hzero : intOf D 0 = 0 := by simp [intOf]
  have hcd : ∀ i, (c.getD i 0).den ∣ D := fun i => by
    rcases lt_or_ge i c.length with h | h
    · apply den_dvd
      rw [List.getD_eq_getElem?_getD, List.getElem?_eq_getElem h]
      exact List.mem_append_left _ (List.getElem_mem h)
    · simp [List.getD_eq_getElem?_getD, h]
  have hbd : ∀ i j, ((betas.getD i []).getD j 0).den ∣ D := fun i j => by
    rcases lt_or_ge i betas.length with h | h
    · rw [List.getD_eq_getElem?_getD (l := betas), List.getElem?_eq_getElem h, Option.getD_some]
      rcases lt_or_ge j betas[i].length with h' | h'
      · apply den_dvd
        rw [List.getD_eq_getElem?_getD, List.getElem?_eq_getElem h']
        exact List.mem_append_right _ (List.mem_flatten.mpr ⟨_, List.getElem_mem h, List.getElem_mem h'⟩)
      · simp [List.getD_eq_getElem?_getD, h']
    · simp [List.getD_eq_getElem?_getD, h]
  have hck : Checks c.length (fun i => intOf D (c.getD i 0)) (fun i j => intOf D ((betas.getD i []).getD j 0)) (scaleRow M D c)
      (betas.mapIdx fun i r => scaleRow M D (r.take i)) D M (maxSum D c betas) N p := by
    refine ⟨h1, by simp [h2], fun i hi j hj => ?_, fun i hi => scaleRow_dvd hM _ _, fun i hi => ?_, ?_, h4, h5⟩
    · have e : (betas.mapIdx fun i r => scaleRow M D (r.take i)).getD i [] = scaleRow M D ((betas.getD i []).take i) := by
        simp [List.getD_eq_getElem?_getD, show i < betas.length by omega]
      rw [e]
      have := scaleRow_dvd (D := D) hM ((betas.getD i []).take i) j
      have e2 : ((betas.getD i []).take i).getD j 0 = (betas.getD i []).getD j 0 := by
        rcases lt_or_ge j i with hlt | hge
        · simp [List.getD_eq_getElem?_getD, hlt]
        · rw [h3 i hi j hj hge]
          simp [List.getD_eq_getElem?_getD, hge]
      rw [e2] at this
      exact this
    · refine (sum_natAbs_le _ _).trans ?_
      have : betas.getD i [] ∈ c :: betas := by
        rw [List.getD_eq_getElem?_getD, List.getElem?_eq_getElem (by omega : i < betas.length)]
        exact List.mem_cons_of_mem _ (List.getElem_mem _)
      exact_mod_cast le_maxSum this
    · refine (sum_natAbs_le _ _).trans ?_
      exact_mod_cast le_maxSum (List.mem_cons_self)
  intro t ht
  have hi := int_condition hck t ht
  have hw := stageWeight_int (F := F) hDF (B := fun i j => intOf D ((betas.getD i []).getD j 0)) (beta := beta) (s := c.length)
    (fun i hi j hj => by rw [hbeta i hi j hj]; exact intOf_div hD (hbd i j)) t
  have hpos := RTree.size_pos t
  set X : ℤ := (∑ i ∈ Finset.range c.length, intOf D (c.getD i 0) * intWeight c.length (fun i j => intOf D ((betas.getD i []).getD j 0)) t i) * t.density with hX
  have hDp : (0 : F) < (D : F) ^ t.size := by
    have : (0 : F) < D := by exact_mod_cast Nat.pos_of_ne_zero hD
    positivity
  have hsum : (∑ i ∈ Finset.range (c.map fun q : ℚ => (q : F)).length, (c.map fun q : ℚ => (q : F)).getD i 0 * t.stageWeight (c.map fun q : ℚ => (q : F)).length beta i * (t.density : F)) = (X : F) / (D : F) ^ t.size := by
    rw [List.length_map, eq_div_iff hDp.ne', hX]
    push_cast
    rw [Finset.sum_mul, Finset.sum_mul]
    refine Finset.sum_congr rfl fun i hi => ?_
    have hi := Finset.mem_range.mp hi
    rw [← hw i hi]
    have ec : (c.map fun q : ℚ => (q : F)).getD i 0 = (intOf D (c.getD i 0) : F) / D := by
      rw [← intOf_div hD (hcd i)]
      simp [List.getD_eq_getElem?_getD, hi]
    rw [ec]
    have : (D : F) ^ t.size = D * (D : F) ^ (t.size - 1) := by rw [← pow_succ', Nat.sub_add_cancel hpos]
    rw [this]
    field_simp
  rw [hsum]
  have hXF : |(X : F) - (D : F) ^ t.size| ≤ ((D ^ t.size / N : ℕ) : F) := by
    have := (Int.cast_le (R := F)).mpr hi
    rwa [Int.cast_abs, Int.cast_natCast, Int.cast_sub, Int.cast_pow, Int.cast_natCast] at this
  have hNF : (0 : F) < N := by exact_mod_cast hN
  have hq : ((D ^ t.size / N : ℕ) : F) ≤ (D : F) ^ t.size / N := by
    rw [le_div_iff₀ hNF]
    exact_mod_cast Nat.div_mul_le_self _ _
  have e : (X : F) / (D : F) ^ t.size - 1 = ((X : F) - (D : F) ^ t.size) / (D : F) ^ t.size := by field_simp
  rw [e, abs_div, abs_of_pos hDp, div_le_iff₀ hDp]
  calc _ ≤ _ := hXF
    _ ≤ _ := hq
    _ = 1 / N * (D : F) ^ t.size := by ring

end OrderTable
end Dg1d
