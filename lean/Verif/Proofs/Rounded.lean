import Verif.Model.Rounded
import Verif.Spec.RoundedRun
import Verif.Props.AdvectionConvergence

/-! Helper lemmas: error of the rounded residual and of the rounded Runge–Kutta step. -/

set_option linter.unusedSectionVars false

open Dg1d.Spec

namespace Dg1d.Rounded

/-- `x` approximates `y`, a number of size at most `B`, up to `ε B`. -/
structure Apx (ε B x y : ℝ) : Prop where
  size : |y| ≤ B
  err : |x - y| ≤ ε * B

section scalar
variable {ε η B B' x x' y y' : ℝ}

lemma Apx.nonneg (h : Apx ε B x y) : 0 ≤ B := (abs_nonneg y).trans h.size

lemma Apx.abs (h1 : ε ≤ 1) (h : Apx ε B x y) : |x| ≤ 2 * B := by
  have e : x = (x - y) + y := by ring
  have h2 := abs_add_le (x - y) y
  rw [← e] at h2
  have := mul_le_mul_of_nonneg_right h1 h.nonneg
  linarith [h.size, h.err]

lemma Apx.self (h0 : 0 ≤ ε) (h : |x| ≤ B) : Apx ε B x x :=
  ⟨h, by rw [sub_self, abs_zero]; exact mul_nonneg h0 ((abs_nonneg x).trans h)⟩

lemma Apx.mono (h0 : 0 ≤ ε) (h : Apx ε B x y) (hB : B ≤ B') : Apx ε B' x y :=
  ⟨h.size.trans hB, h.err.trans (mul_le_mul_of_nonneg_left hB h0)⟩

lemma Apx.rnd {rnd : ℝ → ℝ} (hr : RoundsWithin rnd ε η) (h0 : 0 ≤ ε) (h1 : ε ≤ 1) (h : Apx ε B x y) (hη : η ≤ B) : Apx ε (4 * B) (rnd x) y := by
  have hB := h.nonneg
  refine ⟨by linarith [h.size], ?_⟩
  have e : rnd x - y = (rnd x - x) + (x - y) := by ring
  rw [e]
  have h2 := hr x
  have h3 := mul_le_mul_of_nonneg_left (add_le_add (h.abs h1) hη) h0
  have h4 := abs_add_le (rnd x - x) (x - y)
  have h5 := h.err
  nlinarith

lemma Apx.add (h : Apx ε B x y) (h' : Apx ε B' x' y') : Apx ε (B + B') (x + x') (y + y') := by
  refine ⟨(abs_add_le _ _).trans (add_le_add h.size h'.size), ?_⟩
  rw [show x + x' - (y + y') = (x - y) + (x' - y') by ring, mul_add]
  exact (abs_add_le _ _).trans (add_le_add h.err h'.err)

lemma Apx.sub (h : Apx ε B x y) (h' : Apx ε B' x' y') : Apx ε (B + B') (x - x') (y - y') := by
  refine ⟨(abs_sub _ _).trans (add_le_add h.size h'.size), ?_⟩
  rw [show x - x' - (y - y') = (x - y) - (x' - y') by ring, mul_add]
  exact (abs_sub _ _).trans (add_le_add h.err h'.err)

lemma mul_err (h1 : ε ≤ 1) (h : Apx ε B x y) (h' : Apx ε B' x' y') : |x * x' - y * y'| ≤ ε * (3 * (B * B')) := by
  rw [show x * x' - y * y' = (x - y) * x' + y * (x' - y') by ring]
  refine (abs_add_le _ _).trans ?_
  rw [abs_mul, abs_mul]
  have a1 := mul_le_mul h.err (h'.abs h1) (abs_nonneg _) ((abs_nonneg _).trans h.err)
  have a2 := mul_le_mul h.size h'.err (abs_nonneg _) h.nonneg
  linarith

lemma Apx.mul (h1 : ε ≤ 1) (h : Apx ε B x y) (h' : Apx ε B' x' y') : Apx ε (3 * (B * B')) (x * x') (y * y') := by
  refine ⟨?_, mul_err h1 h h'⟩
  rw [abs_mul]
  have a2 := mul_le_mul h.size h'.size (abs_nonneg _) h.nonneg
  have := mul_nonneg h.nonneg h'.nonneg
  linarith

lemma Apx.dot {dot : ℕ → (ℕ → ℝ) → (ℕ → ℝ) → ℝ} {N n : ℕ} (hd : DotsWithin dot N ε η) (h0 : 0 ≤ ε) (h1 : ε ≤ 1) (hn : n ≤ N) (hn1 : 1 ≤ n)
    {a a' v v' : ℕ → ℝ} (ha : ∀ i < n, Apx ε B (a' i) (a i)) (hv : ∀ i < n, Apx ε B' (v' i) (v i)) (hη : η ≤ B * B') :
    Apx ε (8 * n * (B * B')) (dot n a' v') (∑ i ∈ Finset.range n, a i * v i) := by
  have hB := (ha 0 hn1).nonneg
  have hB' := (hv 0 hn1).nonneg
  have hBB := mul_nonneg hB hB'
  have hnR : (1 : ℝ) ≤ n := by exact_mod_cast hn1
  constructor
  · refine (Finset.abs_sum_le_sum_abs _ _).trans ?_
    refine (Finset.sum_le_card_nsmul _ _ (B * B') fun i hi => ?_).trans ?_
    · rw [abs_mul]
      exact mul_le_mul (ha i (Finset.mem_range.mp hi)).size (hv i (Finset.mem_range.mp hi)).size (abs_nonneg _) hB
    · rw [Finset.card_range, nsmul_eq_mul]
      nlinarith
  · have e1 := hd n hn a' v'
    have e2 : |∑ i ∈ Finset.range n, a' i * v' i - ∑ i ∈ Finset.range n, a i * v i| ≤ n * (ε * (3 * (B * B'))) := by
      rw [← Finset.sum_sub_distrib]
      refine (Finset.abs_sum_le_sum_abs _ _).trans ?_
      refine (Finset.sum_le_card_nsmul _ _ (ε * (3 * (B * B'))) fun i hi =>
        mul_err h1 (ha i (Finset.mem_range.mp hi)) (hv i (Finset.mem_range.mp hi))).trans_eq ?_
      rw [Finset.card_range, nsmul_eq_mul]
    have e3 : ∑ i ∈ Finset.range n, |a' i * v' i| ≤ n * (4 * (B * B')) := by
      refine (Finset.sum_le_card_nsmul _ _ (4 * (B * B')) fun i hi => ?_).trans_eq ?_
      · rw [abs_mul]
        refine (mul_le_mul ((ha i (Finset.mem_range.mp hi)).abs h1) ((hv i (Finset.mem_range.mp hi)).abs h1) (abs_nonneg _) (by linarith)).trans_eq ?_
        ring
      · rw [Finset.card_range, nsmul_eq_mul]
    have e4 := mul_le_mul_of_nonneg_left (add_le_add e3 (hη.trans (le_mul_of_one_le_left hBB hnR))) h0
    rw [show dot n a' v' - ∑ i ∈ Finset.range n, a i * v i =
      (dot n a' v' - ∑ i ∈ Finset.range n, a' i * v' i) + (∑ i ∈ Finset.range n, a' i * v' i - ∑ i ∈ Finset.range n, a i * v i) by ring]
    refine (abs_add_le _ _).trans ?_
    calc _ ≤ ε * (n * (4 * (B * B')) + n * (B * B')) + n * (ε * (3 * (B * B'))) := add_le_add (e1.trans e4) e2
      _ = ε * (8 * n * (B * B')) := by ring

end scalar

/-! ### The residual -/

/-- Column of the left neighbour. -/
def prevCell (s : Sol ℝ) (e : ℕ) : ℕ := if e = 1 then s.NE else e - 1

/-- An interior entry of the rounded residual. -/
lemma residual_entry (A : Arith) {s : Sol ℝ} (hF : 0 < s.NF) (hE : 0 < s.NE) (hc : s.u.cols = (s.NE + 2) * s.NF)
    (hl : s.bcl = .lit "periodic") {f : ℕ} (hf : f < s.NF) {e : ℕ} (h1 : 1 ≤ e) (h2 : e ≤ s.NE) (r : ℕ) :
    (residual A s).val r (e * s.NF + f) =
      A.rnd (A.rnd (A.dot s.basis.dphiW.cols (fun i => s.basis.dphiW.val r i)
          (fun i => A.dot s.basis.phi.cols (fun k => s.basis.phi.val i k) (fun k => s.u.val k (e * s.NF + f))) -
        (if r % 2 = 0 then
          A.rnd (A.dot s.basis.psi.cols (fun k => s.basis.psi.val 1 k) (fun k => s.u.val k (e * s.NF + f)) -
            A.dot s.basis.psi.cols (fun k => s.basis.psi.val 1 k) (fun k => s.u.val k (prevCell s e * s.NF + f)))
        else
          A.rnd (A.dot s.basis.psi.cols (fun k => s.basis.psi.val 1 k) (fun k => s.u.val k (prevCell s e * s.NF + f)) +
            A.dot s.basis.psi.cols (fun k => s.basis.psi.val 1 k) (fun k => s.u.val k (e * s.NF + f))))) * s.scaledMinv.val r) := by
  have hset := applyBc_setup s
  have hcols : s.applyBc.u.cols = (s.NE + 2) * s.NF := by rw [(applyBc_shape s).2, hc]
  have hval := applyBc_val hF hE hc
  have m1 : (s.NE + 2) * s.NF = s.NE * s.NF + 2 * s.NF := by ring
  have m2 : s.NF ≤ s.NE * s.NF := Nat.le_mul_of_pos_left _ hE
  have m3 : s.NF ≤ e * s.NF := Nat.le_mul_of_pos_left _ h1
  have m4 : e * s.NF ≤ s.NE * s.NF := Nat.mul_le_mul_right _ h2
  have lo : pyIdx ((s.NE + 2) * s.NF) (s.NF : ℤ) = s.NF := by unfold pyIdx; rw [if_neg (by omega)]; simp; omega
  have hi : pyIdx ((s.NE + 2) * s.NF) (-(s.NF : ℤ)) = (s.NE + 2) * s.NF - s.NF := by unfold pyIdx; rw [if_pos (by omega)]; omega
  have z0 : ∀ n, pyIdx n 0 = 0 := fun n => by simp [pyIdx]
  have ql : pyIdx ((s.NE + 2) * s.NF - s.NF) (s.NF : ℤ) = s.NF := by unfold pyIdx; rw [if_neg (by omega)]; simp; omega
  have cur : s.bcCol (e * s.NF + f) = e * s.NF + f := bcCol_interior s h1 h2 hf
  have prev : s.bcCol (e * s.NF + f - s.NF) = prevCell s e * s.NF + f := by
    unfold prevCell
    split_ifs with he
    · subst he
      rw [show 1 * s.NF + f - s.NF = f by omega, bcCol_left s hf, hl, if_pos ⟨rfl, rfl⟩, add_comm]
    · rw [show e * s.NF + f - s.NF = (e - 1) * s.NF + f by rw [Nat.sub_mul, one_mul]; omega]
      exact bcCol_interior s (by omega) (by omega) hf
  unfold residual massInv addFaces edgeFlux mdot
  simp only [hset.basis, hset.NF, hset.scaledMinv, hcols, Arr.row, Vec.slice, lo, hi, z0, Nat.sub_zero, zero_add, ql]
  rw [if_pos ⟨by omega, by omega⟩]
  simp only [hval, show s.NF + (e * s.NF + f - s.NF) = e * s.NF + f by omega, cur, prev]

lemma Stored.refl {ε : ℝ} (h : 0 ≤ ε) (p : ℕ) (s : Sol ℝ) : Stored ε p s s := by
  constructor <;> intros <;> first | rfl | (rw [sub_self, abs_zero]; positivity)

lemma Stored.withU {ε : ℝ} {p : ℕ} {s' s : Sol ℝ} (h : Stored ε p s' s) {u : Arr ℝ} (hr : u.rows = s.u.rows) (hc : u.cols = s.u.cols) :
    Stored ε p { s' with u := u } s := ⟨h.NF, h.NE, h.bcl, h.bcr, hr, hc, h.phiCols, h.psiCols, h.dphiCols, h.phi, h.psi, h.dphiW, h.minv⟩

/-- A bound of the entries of the tables. -/
noncomputable def tableSize (lib : GaussLib ℝ) (p : ℕ) : ℝ :=
  1 + ∑ i ∈ Finset.range (p + 1), ∑ n ∈ Finset.range (p + 1), (|(Basis.init lib p).phi.val i n| + |(Basis.init lib p).dphiW.val i n|) +
    ∑ n ∈ Finset.range (p + 1), |(Basis.init lib p).psi.val 1 n|

section tables
variable {lib : GaussLib ℝ} {p : ℕ}

lemma tableSize_split (lib : GaussLib ℝ) (p : ℕ) : 1 ≤ tableSize lib p ∧
    (∀ i < p + 1, ∀ n < p + 1, |(Basis.init lib p).phi.val i n| ≤ tableSize lib p) ∧
    (∀ i < p + 1, ∀ n < p + 1, |(Basis.init lib p).dphiW.val i n| ≤ tableSize lib p) ∧
    ∀ n < p + 1, |(Basis.init lib p).psi.val 1 n| ≤ tableSize lib p := by
  have n1 : 0 ≤ ∑ i ∈ Finset.range (p + 1), ∑ n ∈ Finset.range (p + 1), (|(Basis.init lib p).phi.val i n| + |(Basis.init lib p).dphiW.val i n|) :=
    Finset.sum_nonneg fun i _ => Finset.sum_nonneg fun n _ => by positivity
  have n2 : 0 ≤ ∑ n ∈ Finset.range (p + 1), |(Basis.init lib p).psi.val 1 n| := Finset.sum_nonneg fun n _ => abs_nonneg _
  have b1 : ∀ i < p + 1, ∀ n < p + 1, |(Basis.init lib p).phi.val i n| + |(Basis.init lib p).dphiW.val i n| ≤
      ∑ i ∈ Finset.range (p + 1), ∑ n ∈ Finset.range (p + 1), (|(Basis.init lib p).phi.val i n| + |(Basis.init lib p).dphiW.val i n|) := by
    intro i hi n hn
    refine (Finset.single_le_sum (f := fun n => |(Basis.init lib p).phi.val i n| + |(Basis.init lib p).dphiW.val i n|) (fun n _ => by positivity)
      (Finset.mem_range.mpr hn)).trans ?_
    exact Finset.single_le_sum (f := fun i => ∑ n ∈ Finset.range (p + 1), (|(Basis.init lib p).phi.val i n| + |(Basis.init lib p).dphiW.val i n|))
      (fun i _ => Finset.sum_nonneg fun n _ => by positivity) (Finset.mem_range.mpr hi)
  unfold tableSize
  refine ⟨by linarith, fun i hi n hn => ?_, fun i hi n hn => ?_, fun n hn => ?_⟩
  · have := b1 i hi n hn
    have := abs_nonneg ((Basis.init lib p).dphiW.val i n)
    linarith
  · have := b1 i hi n hn
    have := abs_nonneg ((Basis.init lib p).phi.val i n)
    linarith
  · have := Finset.single_le_sum (f := fun n => |(Basis.init lib p).psi.val 1 n|) (fun n _ => abs_nonneg _) (Finset.mem_range.mpr hn)
    linarith

/-- Factor of the error of an entry of the residual. -/
noncomputable def entryConst (lib : GaussLib ℝ) (p : ℕ) : ℝ :=
  48 * ((8 * (p + 1) * tableSize lib p) ^ 2 + 4 * (8 * (p + 1) * tableSize lib p)) * (2 * p + 1)

lemma entryConst_pos (lib : GaussLib ℝ) (p : ℕ) : 0 ≤ entryConst lib p := by
  have := (tableSize_split lib p).1
  unfold entryConst
  positivity

/-- Absolute values in a cell. -/
noncomputable def cellSize (s : Sol ℝ) (p f : ℕ) (η : ℝ) (v : ℕ → ℕ → ℝ) (e : ℕ) : ℝ := ∑ m ∈ Finset.range (p + 1), |v m (e * s.NF + f)| + (1 + s.dx) * η

/-- The dimension of the tables. -/
lemma built_tables {s : Sol ℝ} (hb : s.Built lib p) : s.basis.phi.cols = p + 1 ∧ s.basis.psi.cols = p + 1 ∧ s.basis.dphiW.cols = p + 1 := by
  rw [hb.basis]
  exact ⟨rfl, rfl, rfl⟩

/-- The exact residual in the form of the rounded one. -/
lemma residual_exact {s : Sol ℝ} (hb : s.Built lib p) (v : ℕ → ℕ → ℝ) : (residual exact { s with u := { s.u with val := v } }).val = advLin s hb.wf v := by
  have hset := applyBc_setup ({ s with u := { s.u with val := v } } : Sol ℝ)
  show _ = advOp s v
  unfold advOp
  rw [← bcArr_eq (a := { s with u := { s.u with val := v } }) (by constructor <;> rfl)]
  unfold residual advArr
  simp only [hset.basis, hset.NF, hset.scaledMinv]
  rfl

lemma residual_err {A : Arith} {ε η : ℝ} (h0 : 0 ≤ ε) (h1 : ε ≤ 1) (hη : 0 ≤ η) (hr : RoundsWithin A.rnd ε η) (hd : DotsWithin A.dot (p + 1) ε η)
    {s s' : Sol ℝ} (hb : s.Built lib p) (hdx : 0 < s.dx) (hl : s.bcl = .lit "periodic") (hs : Stored ε p s' s)
    {f : ℕ} (hf : f < s.NF) {e : ℕ} (e1 : 1 ≤ e) (e2 : e ≤ s.NE) {r : ℕ} (hr' : r < p + 1) :
    |(residual A s').val r (e * s.NF + f) - advLin s hb.wf s'.u.val r (e * s.NF + f)| ≤
      ε * (entryConst lib p / s.dx * (cellSize s p f η s'.u.val e + cellSize s p f η s'.u.val (prevCell s e))) := by
  obtain ⟨d1, d2, d3⟩ := built_tables hb
  obtain ⟨M1, Mphi, Mdphi, Mpsi⟩ := tableSize_split lib p
  rw [← hb.basis] at Mphi Mdphi Mpsi
  have hE' : 0 < s'.NE := by rw [hs.NE]; exact hb.NE
  have hF' : 0 < s'.NF := by rw [hs.NF]; exact hb.NF
  have x1 := residual_entry A (s := s') hF' hE' (by rw [hs.cols, hb.cols, hs.NE, hs.NF]) (by rw [hs.bcl, hl]) (f := f) (by rw [hs.NF]; exact hf)
    (e := e) e1 (by rw [hs.NE]; exact e2) r
  have y1 := residual_entry exact (s := { s with u := { s.u with val := s'.u.val } }) hb.NF hb.NE hb.cols hl (f := f) hf (e := e) e1 e2 r
  rw [residual_exact hb] at y1
  have pe : prevCell s' e = prevCell s e := by unfold prevCell; rw [hs.NE]
  rw [hs.NF, pe, hs.phiCols, hs.psiCols, hs.dphiCols, d1, d2, d3] at x1
  rw [show ({ s with u := { s.u with val := s'.u.val } } : Sol ℝ).basis = s.basis from rfl, d1, d2, d3] at y1
  rw [x1, y1]
  simp only [exact, id]
  clear x1 y1
  set v := s'.u.val with hv
  set M := tableSize lib p
  set P : ℝ := 8 * (p + 1) * M with hP
  have hpR : (0 : ℝ) ≤ p := Nat.cast_nonneg p
  have hP1 : 1 ≤ P := by rw [hP]; nlinarith
  set b := cellSize s p f η v with hbdef
  have bη : ∀ e, η ≤ b e := by
    intro e
    have : 0 ≤ ∑ m ∈ Finset.range (p + 1), |v m (e * s.NF + f)| := Finset.sum_nonneg fun _ _ => abs_nonneg _
    rw [hbdef]
    unfold cellSize
    nlinarith
  have bη' : ∀ e, (1 + s.dx) * η ≤ b e := by
    intro e
    have : 0 ≤ ∑ m ∈ Finset.range (p + 1), |v m (e * s.NF + f)| := Finset.sum_nonneg fun _ _ => abs_nonneg _
    rw [hbdef]
    unfold cellSize
    linarith
  have b0 : ∀ e, 0 ≤ b e := fun e => hη.trans (bη e)
  have bv : ∀ e, ∀ m < p + 1, |v m (e * s.NF + f)| ≤ b e := by
    intro e m hm
    have := Finset.single_le_sum (f := fun m => |v m (e * s.NF + f)|) (fun _ _ => abs_nonneg _) (Finset.mem_range.mpr hm)
    rw [hbdef]
    unfold cellSize
    nlinarith
  have tab : ∀ {x y : ℝ}, |y| ≤ M → |x - y| ≤ ε → Apx ε M x y := fun hy hxy => ⟨hy, hxy.trans (le_mul_of_one_le_right h0 M1)⟩
  have cast : ((p + 1 : ℕ) : ℝ) = p + 1 := by push_cast; ring
  -- interior values and face values
  have hMb : ∀ e, η ≤ M * b e := fun e => (bη e).trans (le_mul_of_one_le_left (b0 e) M1)
  have ug : ∀ i < p + 1, Apx ε (P * b e) (A.dot (p + 1) (fun k => s'.basis.phi.val i k) fun k => v k (e * s.NF + f))
      (∑ k ∈ Finset.range (p + 1), s.basis.phi.val i k * v k (e * s.NF + f)) := by
    intro i hi
    refine ((Apx.dot hd h0 h1 le_rfl (by omega) (fun k hk => tab (Mphi i hi k hk) (hs.phi i hi k hk)) (fun k hk => Apx.self h0 (bv e k hk)) (hMb e))).mono h0 ?_
    rw [cast, hP]
    exact le_of_eq (by ring)
  have uf : ∀ e, Apx ε (P * b e) (A.dot (p + 1) (fun k => s'.basis.psi.val 1 k) fun k => v k (e * s.NF + f))
      (∑ k ∈ Finset.range (p + 1), s.basis.psi.val 1 k * v k (e * s.NF + f)) := by
    intro e
    refine ((Apx.dot hd h0 h1 le_rfl (by omega) (fun k hk => tab (Mpsi k hk) (hs.psi k hk)) (fun k hk => Apx.self h0 (bv e k hk)) (hMb e))).mono h0 ?_
    rw [cast, hP]
    exact le_of_eq (by ring)
  have F := Apx.dot hd h0 h1 le_rfl (by omega) (fun k hk => tab (Mdphi r hr' k hk) (hs.dphiW r hr' k hk)) ug
    ((bη e).trans ((le_mul_of_one_le_left (b0 e) hP1).trans (le_mul_of_one_le_left (mul_nonneg (by linarith) (b0 e)) M1)))
  set g := prevCell s e
  have hS0 : 0 ≤ b e + b g := add_nonneg (b0 e) (b0 g)
  have hηS : η ≤ P * b e + P * b g := by nlinarith [b0 e, b0 g, bη e]
  -- the edge fluxes
  have Q : Apx ε (4 * (P * b e + P * b g))
      (if r % 2 = 0 then A.rnd (A.dot (p + 1) (fun k => s'.basis.psi.val 1 k) (fun k => v k (e * s.NF + f)) -
          A.dot (p + 1) (fun k => s'.basis.psi.val 1 k) fun k => v k (g * s.NF + f))
        else A.rnd (A.dot (p + 1) (fun k => s'.basis.psi.val 1 k) (fun k => v k (g * s.NF + f)) +
          A.dot (p + 1) (fun k => s'.basis.psi.val 1 k) fun k => v k (e * s.NF + f)))
      (if r % 2 = 0 then ∑ k ∈ Finset.range (p + 1), s.basis.psi.val 1 k * v k (e * s.NF + f) - ∑ k ∈ Finset.range (p + 1), s.basis.psi.val 1 k * v k (g * s.NF + f)
        else ∑ k ∈ Finset.range (p + 1), s.basis.psi.val 1 k * v k (g * s.NF + f) + ∑ k ∈ Finset.range (p + 1), s.basis.psi.val 1 k * v k (e * s.NF + f)) := by
    split_ifs
    · exact ((uf e).sub (uf g)).rnd hr h0 h1 hηS
    · rw [add_comm (P * b e)]
      exact ((uf g).add (uf e)).rnd hr h0 h1 (by rw [add_comm]; exact hηS)
  have FQ := (F.sub Q).mono h0 (B' := (P ^ 2 + 4 * P) * (b e + b g)) (by
    rw [cast, show 8 * ((p : ℝ) + 1) * (M * (P * b e)) = P * (P * b e) by rw [hP]; ring]
    have : 0 ≤ P * P * b g := mul_nonneg (by positivity) (b0 g)
    nlinarith)
  have hηFQ : η ≤ (P ^ 2 + 4 * P) * (b e + b g) := by
    have : P * (b e + b g) ≤ (P ^ 2 + 4 * P) * (b e + b g) := mul_le_mul_of_nonneg_right (by nlinarith) hS0
    nlinarith
  have FR := FQ.rnd hr h0 h1 hηFQ
  have hmin : s.scaledMinv.val r = (2 * (r : ℝ) + 1) / s.dx := hb.minv r hr'
  have hrR : (r : ℝ) ≤ p := by exact_mod_cast Nat.lt_succ_iff.mp hr'
  have MI : Apx ε ((2 * (p : ℝ) + 1) / s.dx) (s'.scaledMinv.val r) (s.scaledMinv.val r) := by
    have hle : |s.scaledMinv.val r| ≤ (2 * (p : ℝ) + 1) / s.dx := by
      rw [hmin, abs_of_nonneg (by positivity)]
      gcongr
    exact ⟨hle, (hs.minv r hr').trans (mul_le_mul_of_nonneg_left hle h0)⟩
  have FM := FR.mul h1 MI
  have hfin := FM.rnd hr h0 h1 (by
    have i1 : (1 + s.dx) * η ≤ (P ^ 2 + 4 * P) * (b e + b g) := by
      have : P * (b e + b g) ≤ (P ^ 2 + 4 * P) * (b e + b g) := mul_le_mul_of_nonneg_right (by nlinarith) hS0
      nlinarith [bη' e, b0 g]
    have i2 : (1 : ℝ) / s.dx ≤ (2 * (p : ℝ) + 1) / s.dx := by gcongr; linarith
    have i3 : (1 + s.dx) * η * (1 / s.dx) ≤ (P ^ 2 + 4 * P) * (b e + b g) * ((2 * (p : ℝ) + 1) / s.dx) :=
      mul_le_mul i1 i2 (by positivity) (by positivity)
    have i4 : η ≤ (1 + s.dx) * η * (1 / s.dx) := by
      rw [mul_one_div, le_div_iff₀ hdx]
      nlinarith
    have i5 : 0 ≤ (P ^ 2 + 4 * P) * (b e + b g) * ((2 * (p : ℝ) + 1) / s.dx) := by positivity
    nlinarith)
  refine hfin.err.trans_eq ?_
  unfold entryConst
  rw [← hP]
  ring

end tables

/-! ### Norms -/

section norms
open Approx
variable {s : Sol ℝ} {p f : ℕ}

lemma enorm_mono (hdx : 0 ≤ s.dx) {x y : ℕ → ℕ → ℝ} (h : ∀ n < p + 1, ∀ e, 1 ≤ e → e ≤ s.NE → |x n (e * s.NF + f)| ≤ y n (e * s.NF + f)) :
    enorm s p f hdx x ≤ enorm s p f hdx y := by
  refine enorm_le_of_sq (apply_nonneg _ _) ?_
  rw [enorm_sq]
  refine mul_le_mul_of_nonneg_left ?_ (by linarith)
  rw [cellForm_apply, cellForm_apply]
  refine Finset.sum_le_sum fun e he => Finset.sum_le_sum fun n hn => ?_
  rw [Finset.mem_Icc] at he
  have h1 := h n (Finset.mem_range.mp hn) e he.1 he.2
  refine mul_le_mul_of_nonneg_left ?_ (by positivity)
  rw [← abs_mul_abs_self (x n _)]
  exact mul_self_le_mul_self (abs_nonneg _) h1

/-- Sums of the absolute values of a column in every entry. -/
def colSum (p : ℕ) (v : ℕ → ℕ → ℝ) : ℕ → ℕ → ℝ := fun _ c => ∑ m ∈ Finset.range (p + 1), |v m c|

lemma enorm_colSum (hdx : 0 ≤ s.dx) (v : ℕ → ℕ → ℝ) : enorm s p f hdx (colSum p v) ≤ ((p : ℝ) + 1) * (2 * p + 1) * enorm s p f hdx v := by
  refine enorm_le_of_sq (mul_nonneg (by positivity) (apply_nonneg _ _)) ?_
  rw [mul_pow, enorm_sq, ← mul_assoc, mul_comm (_ ^ 2), mul_assoc]
  refine mul_le_mul_of_nonneg_left ?_ (by linarith)
  rw [cellForm_apply, cellForm_apply, Finset.mul_sum]
  refine Finset.sum_le_sum fun e _ => ?_
  set c := e * s.NF + f
  have hp : (0 : ℝ) ≤ p := Nat.cast_nonneg p
  have h1 : (∑ m ∈ Finset.range (p + 1), |v m c|) ^ 2 ≤ ((p : ℝ) + 1) * ∑ m ∈ Finset.range (p + 1), |v m c| ^ 2 := by
    have := sq_sum_le_card_mul_sum_sq (s := Finset.range (p + 1)) (f := fun m => |v m c|)
    rw [Finset.card_range] at this
    push_cast at this
    exact this
  have h2 : ∑ m ∈ Finset.range (p + 1), |v m c| ^ 2 ≤ (2 * (p : ℝ) + 1) / 2 * ∑ m ∈ Finset.range (p + 1), 2 / (2 * (m : ℝ) + 1) * (v m c * v m c) := by
    rw [Finset.mul_sum]
    refine Finset.sum_le_sum fun m hm => ?_
    have hmR : (m : ℝ) ≤ p := by exact_mod_cast Nat.lt_succ_iff.mp (Finset.mem_range.mp hm)
    have h0 : (0 : ℝ) ≤ m := Nat.cast_nonneg m
    rw [sq_abs, ← mul_assoc, pow_two]
    refine le_mul_of_one_le_left (mul_self_nonneg _) ?_
    rw [show (2 * (p : ℝ) + 1) / 2 * (2 / (2 * m + 1)) = (2 * p + 1) / (2 * m + 1) by field_simp, one_le_div (by positivity)]
    linarith
  have h3 : 0 ≤ ∑ m ∈ Finset.range (p + 1), 2 / (2 * (m : ℝ) + 1) * (v m c * v m c) := cell_nonneg _ _
  calc ∑ n ∈ Finset.range (p + 1), 2 / (2 * (n : ℝ) + 1) * (colSum p v n c * colSum p v n c)
      ≤ ∑ n ∈ Finset.range (p + 1), 2 * (∑ m ∈ Finset.range (p + 1), |v m c|) ^ 2 := by
        refine Finset.sum_le_sum fun n _ => ?_
        rw [show colSum p v n c * colSum p v n c = (∑ m ∈ Finset.range (p + 1), |v m c|) ^ 2 by rw [pow_two]; rfl]
        refine mul_le_mul_of_nonneg_right ?_ (sq_nonneg _)
        rw [div_le_iff₀ (by positivity)]
        have : (0 : ℝ) ≤ n := Nat.cast_nonneg n
        linarith
    _ = ((p : ℝ) + 1) * (2 * (∑ m ∈ Finset.range (p + 1), |v m c|) ^ 2) := by rw [Finset.sum_const, Finset.card_range, nsmul_eq_mul]; push_cast; ring
    _ ≤ ((p : ℝ) + 1) * (2 * (((p : ℝ) + 1) * ((2 * (p : ℝ) + 1) / 2 * ∑ m ∈ Finset.range (p + 1), 2 / (2 * (m : ℝ) + 1) * (v m c * v m c)))) := by
        have := h1.trans (mul_le_mul_of_nonneg_left h2 (by positivity))
        gcongr
    _ = ((p : ℝ) + 1) ^ 2 * (2 * p + 1) * ∑ m ∈ Finset.range (p + 1), 2 / (2 * (m : ℝ) + 1) * (v m c * v m c) := by ring
    _ ≤ _ := by
        refine mul_le_mul_of_nonneg_right ?_ h3
        rw [mul_pow]
        refine mul_le_mul_of_nonneg_left ?_ (by positivity)
        nlinarith

/-- Every cell replaced by its left neighbour. -/
def prevArr (s : Sol ℝ) (f : ℕ) (v : ℕ → ℕ → ℝ) : ℕ → ℕ → ℝ := fun n c => v n (prevCell s (c / s.NF) * s.NF + f)

lemma prevArr_entry (hf : f < s.NF) (v : ℕ → ℕ → ℝ) (n e : ℕ) : prevArr s f v n (e * s.NF + f) = v n (prevCell s e * s.NF + f) := by
  unfold prevArr
  rw [mul_comm e, Nat.mul_add_div (by omega), Nat.div_eq_of_lt hf, add_zero]

lemma enorm_prev (hdx : 0 ≤ s.dx) (hf : f < s.NF) (v : ℕ → ℕ → ℝ) : enorm s p f hdx (prevArr s f v) = enorm s p f hdx v := by
  refine (pow_left_inj₀ (apply_nonneg _ _) (apply_nonneg _ _) two_ne_zero).mp ?_
  rw [enorm_sq, enorm_sq, cellForm_apply, cellForm_apply]
  congr 1
  simp only [prevArr_entry hf]
  set g : ℕ → ℝ := fun e => ∑ n ∈ Finset.range (p + 1), 2 / (2 * (n : ℝ) + 1) * (v n (e * s.NF + f) * v n (e * s.NF + f)) with hg
  show ∑ e ∈ Finset.Icc 1 s.NE, g (prevCell s e) = ∑ e ∈ Finset.Icc 1 s.NE, g e
  have icc : ∀ (h : ℕ → ℝ), ∑ e ∈ Finset.Icc 1 s.NE, h e = ∑ i ∈ Finset.range s.NE, h (i + 1) := by
    intro h
    rw [Finset.range_eq_Ico, Finset.sum_Ico_add' (fun e => h e) 0 s.NE 1]
    rfl
  rw [icc, icc]
  cases hN : s.NE with
  | zero => rfl
  | succ N =>
    rw [Finset.sum_range_succ' (fun i => g (prevCell s (i + 1))), Finset.sum_range_succ (fun i => g (i + 1))]
    have h1 : ∀ i, prevCell s (i + 1 + 1) = i + 1 := fun i => by unfold prevCell; rw [if_neg (by omega)]; rfl
    have h2 : prevCell s (0 + 1) = N + 1 := by unfold prevCell; rw [if_pos (by omega), hN]
    simp only [h1, h2]

/-- The norm of an array of ones, at most. -/
noncomputable def oneNorm (s : Sol ℝ) (p : ℕ) : ℝ := √(s.NE * s.dx * (p + 1))

lemma enorm_const (hdx : 0 ≤ s.dx) {κ : ℝ} (hκ : 0 ≤ κ) : enorm s p f hdx (fun _ _ => κ) ≤ oneNorm s p * κ :=
  enorm_entries hdx hκ fun _ _ _ _ _ => (abs_of_nonneg hκ).le

/-- Rounding every entry. -/
lemma enorm_rnd {rnd : ℝ → ℝ} {ε η : ℝ} (hr : RoundsWithin rnd ε η) (h0 : 0 ≤ ε) (hη : 0 ≤ η) (hdx : 0 ≤ s.dx) (x : ℕ → ℕ → ℝ) :
    enorm s p f hdx ((fun n c => rnd (x n c)) - x) ≤ ε * (enorm s p f hdx x + oneNorm s p * η) := by
  have e1 : enorm s p f hdx (fun n c => |x n c|) ≤ enorm s p f hdx x := by
    refine le_of_eq ((pow_left_inj₀ (apply_nonneg _ _) (apply_nonneg _ _) two_ne_zero).mp ?_)
    rw [enorm_sq, enorm_sq, cellForm_apply, cellForm_apply]
    simp only [abs_mul_abs_self]
  have e2 := enorm_mono (p := p) (f := f) hdx (x := (fun n c => rnd (x n c)) - x) (y := ε • ((fun n c => |x n c|) + fun _ _ => η)) fun n _ e _ _ => hr _
  refine e2.trans ?_
  rw [map_smul_eq_mul, Real.norm_of_nonneg h0]
  refine mul_le_mul_of_nonneg_left ((map_add_le_add _ _ _).trans (add_le_add e1 (enorm_const hdx hη))) h0

/-- Factor of the error of the residual. -/
noncomputable def resConst (lib : GaussLib ℝ) (p : ℕ) : ℝ := entryConst lib p * (2 * (((p : ℝ) + 1) * (2 * p + 1)))

lemma resConst_pos (lib : GaussLib ℝ) (p : ℕ) : 0 ≤ resConst lib p := mul_nonneg (entryConst_pos lib p) (by positivity)

lemma residual_enorm {lib : GaussLib ℝ} {A : Arith} {ε η : ℝ} (h0 : 0 ≤ ε) (h1 : ε ≤ 1) (hη : 0 ≤ η) (hr : RoundsWithin A.rnd ε η)
    (hd : DotsWithin A.dot (p + 1) ε η) {s' : Sol ℝ} (hb : s.Built lib p) (hdx : 0 < s.dx) (hl : s.bcl = .lit "periodic") (hs : Stored ε p s' s)
    (hf : f < s.NF) : enorm s p f hdx.le ((residual A s').val - advLin s hb.wf s'.u.val) ≤
      ε * (resConst lib p / s.dx * (enorm s p f hdx.le s'.u.val + oneNorm s p * ((1 + s.dx) * η))) := by
  set v := s'.u.val with hv
  set E := entryConst lib p with hE
  have hE0 : 0 ≤ E := entryConst_pos lib p
  have hθ : 0 ≤ (1 + s.dx) * η := mul_nonneg (by linarith) hη
  have e1 := enorm_mono (p := p) (f := f) hdx.le (x := (residual A s').val - advLin s hb.wf v)
    (y := (ε * (E / s.dx)) • (colSum p v + colSum p (prevArr s f v) + fun _ _ => 2 * ((1 + s.dx) * η))) (by
      intro n hn e he1 he2
      refine (residual_err h0 h1 hη hr hd hb hdx hl hs hf he1 he2 hn).trans_eq ?_
      show _ = ε * (E / s.dx) * (∑ m ∈ Finset.range (p + 1), |v m (e * s.NF + f)| + ∑ m ∈ Finset.range (p + 1), |prevArr s f v m (e * s.NF + f)| +
        2 * ((1 + s.dx) * η))
      simp only [prevArr_entry hf]
      unfold cellSize
      ring)
  refine e1.trans ?_
  rw [map_smul_eq_mul, Real.norm_of_nonneg (by positivity), mul_assoc]
  refine mul_le_mul_of_nonneg_left ?_ h0
  set K : ℝ := ((p : ℝ) + 1) * (2 * p + 1) with hK
  have hK1 : 1 ≤ K := by
    have : (0 : ℝ) ≤ p := Nat.cast_nonneg p
    rw [hK]; nlinarith
  have t1 := enorm_colSum (s := s) (p := p) (f := f) hdx.le v
  have t2 := enorm_colSum (s := s) (p := p) (f := f) hdx.le (prevArr s f v)
  rw [enorm_prev hdx.le hf] at t2
  have t3 := enorm_const (s := s) (p := p) (f := f) hdx.le (κ := 2 * ((1 + s.dx) * η)) (by positivity)
  have t4 := map_add_le_add (enorm s p f hdx.le) (colSum p v + colSum p (prevArr s f v)) (fun _ _ => 2 * ((1 + s.dx) * η))
  have t5 := map_add_le_add (enorm s p f hdx.le) (colSum p v) (colSum p (prevArr s f v))
  have hD : 0 ≤ oneNorm s p * ((1 + s.dx) * η) := mul_nonneg (Real.sqrt_nonneg _) hθ
  have t6 : enorm s p f hdx.le (colSum p v + colSum p (prevArr s f v) + fun _ _ => 2 * ((1 + s.dx) * η)) ≤
      2 * K * (enorm s p f hdx.le v + oneNorm s p * ((1 + s.dx) * η)) := by
    nlinarith
  refine (mul_le_mul_of_nonneg_left t6 (by positivity)).trans_eq ?_
  unfold resConst
  ring

end norms

end Dg1d.Rounded
