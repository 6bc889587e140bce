import Verif.Proofs.Rounded

/-! Helper lemmas: error of one rounded Runge–Kutta step. -/

set_option linter.unusedSectionVars false

open Dg1d.Spec Dg1d.Approx

namespace Dg1d.Rounded

/-- `x` approximates `y`, of norm at most `B`, up to `ε B`. -/
structure VApx (N : Seminorm ℝ (ℕ → ℕ → ℝ)) (ε B : ℝ) (x y : ℕ → ℕ → ℝ) : Prop where
  size : N y ≤ B
  err : N (x - y) ≤ ε * B

section rules
variable {N : Seminorm ℝ (ℕ → ℕ → ℝ)} {ε B B' : ℝ} {x y x' y' : ℕ → ℕ → ℝ}

lemma VApx.nonneg (h : VApx N ε B x y) : 0 ≤ B := (apply_nonneg N y).trans h.size

lemma VApx.norm (h1 : ε ≤ 1) (h : VApx N ε B x y) : N x ≤ 2 * B := by
  have h2 := map_add_le_add N (x - y) y
  rw [sub_add_cancel] at h2
  have := mul_le_mul_of_nonneg_right h1 h.nonneg
  linarith [h.size, h.err]

lemma VApx.self (h0 : 0 ≤ ε) (h : N x ≤ B) : VApx N ε B x x :=
  ⟨h, by rw [sub_self, map_zero]; exact mul_nonneg h0 ((apply_nonneg N x).trans h)⟩

lemma VApx.mono (h0 : 0 ≤ ε) (h : VApx N ε B x y) (hB : B ≤ B') : VApx N ε B' x y :=
  ⟨h.size.trans hB, h.err.trans (mul_le_mul_of_nonneg_left hB h0)⟩

lemma VApx.add (h : VApx N ε B x y) (h' : VApx N ε B' x' y') : VApx N ε (B + B') (x + x') (y + y') := by
  refine ⟨(map_add_le_add _ _ _).trans (add_le_add h.size h'.size), ?_⟩
  rw [show x + x' - (y + y') = (x - y) + (x' - y') by abel, mul_add]
  exact (map_add_le_add _ _ _).trans (add_le_add h.err h'.err)

lemma VApx.smul (h0 : 0 ≤ ε) (h1 : ε ≤ 1) (h : VApx N ε B x y) {a a' G : ℝ} (ha : |a' - a| ≤ ε * |a|) (hG : |a| ≤ G) :
    VApx N ε (3 * (G * B)) (a' • x) (a • y) := by
  have hB := h.nonneg
  have hG0 := (abs_nonneg a).trans hG
  constructor
  · rw [map_smul_eq_mul, Real.norm_eq_abs]
    have := mul_le_mul hG h.size (apply_nonneg _ _) hG0
    nlinarith [mul_nonneg hG0 hB]
  · rw [show a' • x - a • y = (a' - a) • x + a • (x - y) by module]
    refine (map_add_le_add _ _ _).trans ?_
    rw [map_smul_eq_mul, map_smul_eq_mul, Real.norm_eq_abs, Real.norm_eq_abs]
    have e1 := mul_le_mul (ha.trans (mul_le_mul_of_nonneg_left hG h0)) (h.norm h1) (apply_nonneg _ _) (mul_nonneg h0 hG0)
    have e2 := mul_le_mul hG h.err (apply_nonneg _ _) hG0
    linarith

end rules

section step
variable {A : Arith} {ε η Z b b' G dt : ℝ} {s s' : Sol ℝ} {lib : GaussLib ℝ} {p f : ℕ}

/-- Norm of the absolute errors near zero. -/
noncomputable def tiny (s : Sol ℝ) (p : ℕ) (η : ℝ) : ℝ := oneNorm s p * ((1 + s.dx) * η)

lemma tiny_nonneg (hdx : 0 < s.dx) (hη : 0 ≤ η) : 0 ≤ tiny s p η := mul_nonneg (Real.sqrt_nonneg _) (mul_nonneg (by linarith) hη)

lemma one_le_tiny (hdx : 0 < s.dx) (hη : 0 ≤ η) : oneNorm s p * η ≤ tiny s p η :=
  mul_le_mul_of_nonneg_left (by nlinarith) (Real.sqrt_nonneg _)

lemma Setting.le_one (c : Setting A ε η s lib p f) : ε ≤ 1 := c.eps1.trans (by norm_num)

lemma VApx.rnd (c : Setting A ε η s lib p f) {B : ℝ} {x y : ℕ → ℕ → ℝ} (h : VApx (enorm s p f c.dx.le) ε B x y) (hB : tiny s p η ≤ B) :
    VApx (enorm s p f c.dx.le) ε (4 * B) (fun n k => A.rnd (x n k)) y := by
  have h0 := h.nonneg
  refine ⟨h.size.trans (by linarith), ?_⟩
  have e1 := enorm_rnd (s := s) (p := p) (f := f) c.rnd c.eps0 c.eta0 c.dx.le x
  have e2 := mul_le_mul_of_nonneg_left (add_le_add (h.norm c.le_one) ((one_le_tiny (p := p) c.dx c.eta0).trans hB)) c.eps0
  rw [show (fun n k => A.rnd (x n k)) - y = ((fun n k => A.rnd (x n k)) - x) + (x - y) by abel]
  refine (map_add_le_add _ _ _).trans ?_
  linarith [h.err]

lemma axpy_apx (c : Setting A ε η s lib p f) (hZ : tiny s p η ≤ Z) {u x : Arr ℝ} {y z : ℕ → ℕ → ℝ} {a a' : ℝ}
    (hu : VApx (enorm s p f c.dx.le) ε (b * Z) u.val y) (hx : VApx (enorm s p f c.dx.le) ε (b' * Z) x.val z) (hb : 1 ≤ b) (hb' : 1 ≤ b') (hG : 1 ≤ G)
    (ha : StoredCoef ε a' a) (haG : |a| ≤ G) :
    VApx (enorm s p f c.dx.le) ε (4 * (b + 12 * G * b') * Z) (axpy A u a' x).val (y + a • z) := by
  have hZ0 : 0 ≤ Z := (tiny_nonneg c.dx c.eta0).trans hZ
  have h15 : (0 : ℝ) < 1 / 10 ^ 15 := by positivity
  have hlit := c.rnd (1 / 10 ^ 15)
  rw [abs_of_pos h15] at hlit
  have hle : ε * (1 / 10 ^ 15 + η) ≤ 1 / 2 * (1 / 10 ^ 15 + 1 / 10 ^ 15) :=
    mul_le_mul c.eps1 (by linarith [c.eta1]) (by linarith [c.eta0]) (by norm_num)
  have hlit' := abs_le.mp (hlit.trans hle)
  unfold axpy
  rcases ha with ⟨rfl, rfl⟩ | ⟨ha1, ha2⟩
  · rw [if_neg (by rw [abs_zero]; linarith [hlit'.1]), zero_smul, add_zero]
    refine hu.mono c.eps0 ?_
    have : b * Z ≤ (4 * (b + 12 * G * b')) * Z := mul_le_mul_of_nonneg_right (by nlinarith) hZ0
    exact this
  · have hbig : |a'| > A.rnd (1 / 10 ^ 15) := by
      have h1 : |a| - |a'| ≤ ε * |a| := by
        rw [abs_sub_comm] at ha2
        exact (abs_sub_abs_le_abs_sub _ _).trans ha2
      have h2 : ε * |a| ≤ 1 / 2 * |a| := mul_le_mul_of_nonneg_right c.eps1 (abs_nonneg _)
      have h3 : (1 : ℝ) / 10 ^ 14 = 10 * (1 / 10 ^ 15) := by norm_num
      rw [h3] at ha1
      linarith [hlit'.2]
    rw [if_pos hbig]
    have hbZ : tiny s p η ≤ b' * Z := hZ.trans (le_mul_of_one_le_left hZ0 hb')
    have h1 := hx.smul c.eps0 c.le_one ha2 haG
    have h2 := h1.rnd c (by
      have : b' * Z ≤ G * (b' * Z) := le_mul_of_one_le_left (by positivity) hG
      nlinarith [tiny_nonneg (p := p) c.dx c.eta0])
    have h3 := hu.add h2
    have h4 := h3.rnd c (by
      have : Z ≤ b * Z := le_mul_of_one_le_left hZ0 hb
      have : 0 ≤ G * (b' * Z) := by positivity
      nlinarith)
    refine VApx.mono c.eps0 h4 (le_of_eq ?_)
    ring

/-- Growth of the error in the sums of rk.py:95-96. -/
noncomputable def accB (G b' : ℝ) : ℕ → ℝ
  | 0 => 1
  | i + 1 => 4 * (accB G b' i + 12 * G * b')

lemma accB_one (hG : 1 ≤ G) (hb' : 1 ≤ b') (i : ℕ) : 1 ≤ accB G b' i := by
  induction i with
  | zero => exact le_rfl
  | succ i ih => unfold accB; nlinarith

lemma axpy_shape (A : Arith) (u x : Arr ℝ) (a : ℝ) : (axpy A u a x).rows = u.rows ∧ (axpy A u a x).cols = u.cols := by
  unfold axpy
  split_ifs <;> exact ⟨rfl, rfl⟩

lemma fold_shape (A : Arith) (g : ℕ → ℝ) (incr : ℕ → Arr ℝ) (u : Arr ℝ) (i : ℕ) :
    ((List.range i).foldl (fun u j => axpy A u (g j) (incr j)) u).rows = u.rows ∧ ((List.range i).foldl (fun u j => axpy A u (g j) (incr j)) u).cols = u.cols := by
  induction i with
  | zero => exact ⟨rfl, rfl⟩
  | succ i ih =>
    rw [List.range_succ, List.foldl_append]
    simp only [List.foldl_cons, List.foldl_nil]
    exact ⟨(axpy_shape A _ _ _).1.trans ih.1, (axpy_shape A _ _ _).2.trans ih.2⟩

lemma fold_apx (c : Setting A ε η s lib p f) (hZ : tiny s p η ≤ Z) {u : Arr ℝ} (hu : enorm s p f c.dx.le u.val ≤ Z) (g g' : ℕ → ℝ) (incr : ℕ → Arr ℝ)
    (κ : ℕ → ℕ → ℕ → ℝ) (hb' : 1 ≤ b') (hG : 1 ≤ G) (i : ℕ) (hk : ∀ j < i, VApx (enorm s p f c.dx.le) ε (b' * Z) (incr j).val (κ j))
    (hg : ∀ j < i, StoredCoef ε (g' j) (g j)) (hgG : ∀ j < i, |g j| ≤ G) :
    VApx (enorm s p f c.dx.le) ε (accB G b' i * Z) ((List.range i).foldl (fun u j => axpy A u (g' j) (incr j)) u).val
      (u.val + ∑ j ∈ Finset.range i, g j • κ j) := by
  induction i with
  | zero =>
    simp only [List.range_zero, List.foldl_nil, Finset.range_zero, Finset.sum_empty, add_zero, accB, one_mul]
    exact VApx.self c.eps0 hu
  | succ i ih =>
    rw [List.range_succ, List.foldl_append, Finset.sum_range_succ, ← add_assoc]
    simp only [List.foldl_cons, List.foldl_nil]
    exact axpy_apx c hZ (ih (fun j hj => hk j (by omega)) (fun j hj => hg j (by omega)) fun j hj => hgG j (by omega)) (hk i (by omega))
      (accB_one hG hb' i) hb' hG (hg i (by omega)) (hgG i (by omega))

/-- Factor of the error of an increment. -/
noncomputable def incConst (lib : GaussLib ℝ) (p : ℕ) : ℝ := 4 * (3 * resConst lib p + 3 * ((p : ℝ) + 1) ^ 2)

lemma incConst_one (lib : GaussLib ℝ) (p : ℕ) : 1 ≤ incConst lib p := by
  have := resConst_pos lib p
  have : (0 : ℝ) ≤ p := Nat.cast_nonneg p
  unfold incConst
  nlinarith

lemma inc_apx (c : Setting A ε η s lib p f) (hZ : tiny s p η ≤ Z) (hdt : 0 ≤ dt) (hcfl : 3 * ((p : ℝ) + 1) ^ 2 * dt ≤ s.dx) (hs : Stored ε p s' s)
    {y : ℕ → ℕ → ℝ} (hu : VApx (enorm s p f c.dx.le) ε (b * Z) s'.u.val y) (hb : 1 ≤ b) :
    VApx (enorm s p f c.dx.le) ε (incConst lib p * b * Z) (fun n k => A.rnd (dt * (residual A s').val n k)) (dt • advLin s c.built.wf y) := by
  have hp : (0 : ℝ) ≤ p := Nat.cast_nonneg p
  have hdx := c.dx
  have hZ0 : 0 ≤ Z := (tiny_nonneg c.dx c.eta0).trans hZ
  have hR := resConst_pos lib p
  have hx := hu.norm c.le_one
  have h1 := residual_enorm c.eps0 c.le_one c.eta0 c.rnd c.dot c.built c.dx c.bcl hs c.field
  have hL := enorm_advLin c.built c.kw c.enhance c.bcl c.bcr c.dx c.field
  have hL1 := hL y
  have hL2 := hL (s'.u.val - y)
  rw [map_sub] at hL2
  have hdd : dt ≤ s.dx := (le_mul_of_one_le_left hdt (by nlinarith)).trans hcfl
  have hd1 : dt / s.dx ≤ 1 := by rw [div_le_one hdx]; exact hdd
  have hd0 : 0 ≤ dt / s.dx := by positivity
  have hbZ : 0 ≤ b * Z := hu.nonneg
  have htb : tiny s p η ≤ b * Z := hZ.trans (le_mul_of_one_le_left hZ0 hb)
  set X := (3 * resConst lib p + 3 * ((p : ℝ) + 1) ^ 2) * (b * Z) with hX
  have key : VApx (enorm s p f c.dx.le) ε X (dt • (residual A s').val) (dt • advLin s c.built.wf y) := by
    constructor
    · rw [map_smul_eq_mul, Real.norm_of_nonneg hdt]
      calc dt * enorm s p f c.dx.le (advLin s c.built.wf y) ≤ dt * (3 * ((p : ℝ) + 1) ^ 2 / s.dx * (b * Z)) :=
            mul_le_mul_of_nonneg_left (hL1.trans (mul_le_mul_of_nonneg_left hu.size (by positivity))) hdt
        _ = dt / s.dx * (3 * ((p : ℝ) + 1) ^ 2 * (b * Z)) := by ring
        _ ≤ 1 * (3 * ((p : ℝ) + 1) ^ 2 * (b * Z)) := mul_le_mul_of_nonneg_right hd1 (by positivity)
        _ ≤ X := by rw [hX]; nlinarith [mul_nonneg hR hbZ]
    · rw [show dt • (residual A s').val - dt • advLin s c.built.wf y =
        dt • (((residual A s').val - advLin s c.built.wf s'.u.val) + (advLin s c.built.wf s'.u.val - advLin s c.built.wf y)) by module,
        map_smul_eq_mul, Real.norm_of_nonneg hdt]
      have h2 : enorm s p f c.dx.le ((residual A s').val - advLin s c.built.wf s'.u.val) ≤ ε * (resConst lib p / s.dx * (3 * (b * Z))) := by
        refine h1.trans (mul_le_mul_of_nonneg_left (mul_le_mul_of_nonneg_left ?_ (by positivity)) c.eps0)
        have : oneNorm s p * ((1 + s.dx) * η) ≤ b * Z := htb
        linarith
      have h3 : enorm s p f c.dx.le (advLin s c.built.wf s'.u.val - advLin s c.built.wf y) ≤ 3 * ((p : ℝ) + 1) ^ 2 / s.dx * (ε * (b * Z)) :=
        hL2.trans (mul_le_mul_of_nonneg_left hu.err (by positivity))
      calc dt * enorm s p f c.dx.le (((residual A s').val - advLin s c.built.wf s'.u.val) + (advLin s c.built.wf s'.u.val - advLin s c.built.wf y))
          ≤ dt * (ε * (resConst lib p / s.dx * (3 * (b * Z))) + 3 * ((p : ℝ) + 1) ^ 2 / s.dx * (ε * (b * Z))) :=
            mul_le_mul_of_nonneg_left ((map_add_le_add _ _ _).trans (add_le_add h2 h3)) hdt
        _ = dt / s.dx * (ε * X) := by rw [hX]; ring
        _ ≤ 1 * (ε * X) := mul_le_mul_of_nonneg_right hd1 (mul_nonneg c.eps0 (by rw [hX]; positivity))
        _ = ε * X := one_mul _
  have h4 := key.rnd c (by
    refine htb.trans ?_
    rw [hX]
    refine le_mul_of_one_le_left hbZ ?_
    nlinarith)
  refine VApx.mono c.eps0 h4 (le_of_eq ?_)
  rw [hX]
  unfold incConst
  ring

/-- Growth of the error of the increments. -/
noncomputable def kB (C G : ℝ) : ℕ → ℝ
  | 0 => 1
  | k + 1 => kB C G k + C * accB G (kB C G k) k

/-- Growth of the error of the solution. -/
noncomputable def sB (C G : ℝ) : ℕ → ℝ
  | 0 => 1
  | k + 1 => 4 * (sB C G k + 12 * G * kB C G (k + 1))

variable {C : ℝ}

lemma kB_one (hC : 0 ≤ C) (hG : 1 ≤ G) (k : ℕ) : 1 ≤ kB C G k := by
  induction k with
  | zero => exact le_rfl
  | succ k ih =>
    unfold kB
    have := mul_nonneg hC (zero_le_one.trans (accB_one hG ih k))
    linarith

lemma sB_one (hC : 0 ≤ C) (hG : 1 ≤ G) (k : ℕ) : 1 ≤ sB C G k := by
  induction k with
  | zero => exact le_rfl
  | succ k ih =>
    unfold sB
    have := kB_one hC hG (k + 1)
    nlinarith

/-- Exact increments. -/
noncomputable def exactInc (L : (ℕ → ℕ → ℝ) →ₗ[ℝ] (ℕ → ℕ → ℝ)) (beta : ℕ → ℕ → ℝ) (dt : ℝ) (u : ℕ → ℕ → ℝ) (k : ℕ) : ℕ → ℕ → ℝ :=
  dt • L (stageValue beta L dt u k)

lemma exactInc_eq (L : (ℕ → ℕ → ℝ) →ₗ[ℝ] (ℕ → ℕ → ℝ)) (beta : ℕ → ℕ → ℝ) (dt : ℝ) (u : ℕ → ℕ → ℝ) (k : ℕ) :
    exactInc L beta dt u k = dt • L (u + ∑ j ∈ Finset.range k, beta k j • exactInc L beta dt u j) := by
  rw [exactInc, stageValue, ← Fin.sum_univ_eq_sum_range (fun j => beta k j • exactInc L beta dt u j), Finset.smul_sum]
  refine congrArg (fun w => dt • L (u + w)) (Finset.sum_congr rfl fun j _ => ?_)
  rw [smul_comm]
  rfl

lemma rkStep_eq (L : (ℕ → ℕ → ℝ) →ₗ[ℝ] (ℕ → ℕ → ℝ)) (tab : Tableau ℝ) (dt : ℝ) (u : ℕ → ℕ → ℝ) :
    rkStep tab.coeffs tab.beta L dt u = u + ∑ k ∈ Finset.range tab.coeffs.length, tab.coeffs.getD k 0 • exactInc L tab.beta dt u k := by
  unfold rkStep
  rw [Finset.smul_sum]
  refine congrArg (fun w => u + w) (Finset.sum_congr rfl fun k _ => ?_)
  rw [smul_comm]
  rfl

lemma stages_shape (A : Arith) (tab : Tableau ℝ) (s : Sol ℝ) (dt : ℝ) (l : List (ℝ × ℝ)) (k : ℕ) (u : Arr ℝ) (incr : ℕ → Arr ℝ) :
    (stages A tab s dt k l u incr).rows = u.rows ∧ (stages A tab s dt k l u incr).cols = u.cols := by
  induction l generalizing k u incr with
  | nil => exact ⟨rfl, rfl⟩
  | cons a l ih =>
    obtain ⟨c, al⟩ := a
    unfold stages
    exact ⟨(ih _ _ _).1.trans (axpy_shape A _ _ _).1, (ih _ _ _).2.trans (axpy_shape A _ _ _).2⟩

lemma stages_apx (c : Setting A ε η s lib p f) (hZ : tiny s p η ≤ Z) (hdt : 0 ≤ dt) (hcfl : 3 * ((p : ℝ) + 1) ^ 2 * dt ≤ s.dx) (hs : Stored ε p s' s)
    (hu0 : enorm s p f c.dx.le s'.u.val ≤ Z) (hG : 1 ≤ G) (tab tab' : Tableau ℝ) (w : ℕ → ℝ) (m : ℕ)
    (hbeta : ∀ k < m, ∀ j < k, StoredCoef ε (tab'.beta k j) (tab.beta k j) ∧ |tab.beta k j| ≤ G) (hwG : ∀ k < m, |w k| ≤ G)
    (l : List (ℝ × ℝ)) (k : ℕ) (hm : k + l.length = m) (hl : ∀ i (h : i < l.length), StoredCoef ε (l[i]).1 (w (k + i)))
    (u : Arr ℝ) (incr : ℕ → Arr ℝ)
    (hincr : ∀ j < k, VApx (enorm s p f c.dx.le) ε (kB (incConst lib p) G k * Z) (incr j).val (exactInc (advLin s c.built.wf) tab.beta dt s'.u.val j))
    (hu : VApx (enorm s p f c.dx.le) ε (sB (incConst lib p) G k * Z) u.val
      (s'.u.val + ∑ j ∈ Finset.range k, w j • exactInc (advLin s c.built.wf) tab.beta dt s'.u.val j)) :
    VApx (enorm s p f c.dx.le) ε (sB (incConst lib p) G m * Z) (stages A tab' s' dt k l u incr).val
      (s'.u.val + ∑ j ∈ Finset.range m, w j • exactInc (advLin s c.built.wf) tab.beta dt s'.u.val j) := by
  have hZ0 : 0 ≤ Z := (tiny_nonneg c.dx c.eta0).trans hZ
  have hC : 0 ≤ incConst lib p := zero_le_one.trans (incConst_one lib p)
  induction l generalizing k u incr with
  | nil =>
    simp only [List.length_nil, add_zero] at hm
    subst hm
    exact hu
  | cons a l ih =>
    obtain ⟨c0, al⟩ := a
    simp only [List.length_cons] at hm
    have hk1 := kB_one hC hG k
    have hacc := fold_apx c hZ hu0 (fun j => tab.beta k j) (fun j => tab'.beta k j) incr _ hk1 hG k hincr
      (fun j hj => (hbeta k (by omega) j hj).1) (fun j hj => (hbeta k (by omega) j hj).2)
    have hsh := fold_shape A (fun j => tab'.beta k j) incr s'.u k
    have hinc := inc_apx c hZ hdt hcfl (hs.withU (u := accumulate A tab' k incr s'.u) (hsh.1.trans hs.rows) (hsh.2.trans hs.cols)) hacc (accB_one hG hk1 k)
    rw [← exactInc_eq] at hinc
    have hKk : incConst lib p * accB G (kB (incConst lib p) G k) k * Z ≤ kB (incConst lib p) G (k + 1) * Z := by
      refine mul_le_mul_of_nonneg_right ?_ hZ0
      show _ ≤ kB (incConst lib p) G k + incConst lib p * accB G (kB (incConst lib p) G k) k
      linarith
    have hKm : kB (incConst lib p) G k * Z ≤ kB (incConst lib p) G (k + 1) * Z := by
      refine mul_le_mul_of_nonneg_right ?_ hZ0
      have := mul_nonneg hC (zero_le_one.trans (accB_one hG hk1 k))
      show _ ≤ kB (incConst lib p) G k + incConst lib p * accB G (kB (incConst lib p) G k) k
      linarith
    have hnew : VApx (enorm s p f c.dx.le) ε (kB (incConst lib p) G (k + 1) * Z) (increment A tab' s' dt k incr).val
      (exactInc (advLin s c.built.wf) tab.beta dt s'.u.val k) := hinc.mono c.eps0 hKk
    unfold stages
    refine ih (k + 1) (by omega) (fun i hi => ?_) _ _ (fun j hj => ?_) ?_
    · have := hl (i + 1) (by simp only [List.length_cons]; omega)
      rw [List.getElem_cons_succ] at this
      rw [show k + 1 + i = k + (i + 1) by omega]
      exact this
    · rcases Nat.lt_succ_iff_lt_or_eq.mp hj with hlt | rfl
      · rw [Function.update_of_ne (by omega)]
        exact (hincr j hlt).mono c.eps0 hKm
      · rw [Function.update_self]
        exact hnew
    · rw [Function.update_self, Finset.sum_range_succ, ← add_assoc]
      have h0 := hl 0 (by simp)
      exact axpy_apx c hZ hu hnew (sB_one hC hG k) (kB_one hC hG _) hG h0 (hwG k (by omega))

/-- A bound of the coefficients of a table. -/
noncomputable def tabSize (tab : Tableau ℝ) : ℝ :=
  1 + ∑ k ∈ Finset.range tab.coeffs.length, (|tab.coeffs.getD k 0| + ∑ j ∈ Finset.range tab.coeffs.length, |tab.beta k j|)

lemma tabSize_split (tab : Tableau ℝ) : 1 ≤ tabSize tab ∧ (∀ k < tab.coeffs.length, |tab.coeffs.getD k 0| ≤ tabSize tab) ∧
    ∀ k < tab.coeffs.length, ∀ j < k, |tab.beta k j| ≤ tabSize tab := by
  have n0 : ∀ k, 0 ≤ ∑ j ∈ Finset.range tab.coeffs.length, |tab.beta k j| := fun k => Finset.sum_nonneg fun _ _ => abs_nonneg _
  have n1 : ∀ k, 0 ≤ |tab.coeffs.getD k 0| + ∑ j ∈ Finset.range tab.coeffs.length, |tab.beta k j| := fun k => add_nonneg (abs_nonneg _) (n0 k)
  have b1 : ∀ k < tab.coeffs.length, |tab.coeffs.getD k 0| + ∑ j ∈ Finset.range tab.coeffs.length, |tab.beta k j| ≤ tabSize tab := by
    intro k hk
    have := Finset.single_le_sum (f := fun k => |tab.coeffs.getD k 0| + ∑ j ∈ Finset.range tab.coeffs.length, |tab.beta k j|) (fun k _ => n1 k)
      (Finset.mem_range.mpr hk)
    unfold tabSize
    linarith
  refine ⟨?_, fun k hk => ?_, fun k hk j hj => ?_⟩
  · have := Finset.sum_nonneg fun k (_ : k ∈ Finset.range tab.coeffs.length) => n1 k
    unfold tabSize
    linarith
  · linarith [b1 k hk, n0 k]
  · have := Finset.single_le_sum (f := fun j => |tab.beta k j|) (fun j _ => abs_nonneg _) (Finset.mem_range.mpr (hj.trans hk))
    linarith [b1 k hk, abs_nonneg (tab.coeffs.getD k 0)]

/-- Factor of the error of a step. -/
noncomputable def stepConst (lib : GaussLib ℝ) (p : ℕ) (tab : Tableau ℝ) : ℝ := sB (incConst lib p) (tabSize tab) tab.coeffs.length

lemma stepConst_one (lib : GaussLib ℝ) (p : ℕ) (tab : Tableau ℝ) : 1 ≤ stepConst lib p tab :=
  sB_one (zero_le_one.trans (incConst_one lib p)) (tabSize_split tab).1 _

lemma step_err (c : Setting A ε η s lib p f) (hdt : 0 ≤ dt) (hcfl : 3 * ((p : ℝ) + 1) ^ 2 * dt ≤ s.dx) (hs : Stored ε p s' s) {tab tab' : Tableau ℝ}
    (ht : StoredTable ε tab' tab) :
    Stored ε p (step A tab' dt s') s ∧
    enorm s p f c.dx.le ((step A tab' dt s').u.val - rkStep tab.coeffs tab.beta (advLin s c.built.wf) dt s'.u.val) ≤
      ε * (stepConst lib p tab * (enorm s p f c.dx.le s'.u.val + tiny s p η)) := by
  obtain ⟨hG, hc, hbt⟩ := tabSize_split tab
  have hn := apply_nonneg (enorm s p f c.dx.le) s'.u.val
  have hC : 0 ≤ incConst lib p := zero_le_one.trans (incConst_one lib p)
  have ht0 := tiny_nonneg (p := p) c.dx c.eta0
  have hlen : (tab'.coeffs.zip tab'.alphas).length = tab.coeffs.length := by rw [List.length_zip, ht.alphas, min_self, ht.stages]
  have h := stages_apx c (Z := enorm s p f c.dx.le s'.u.val + tiny s p η) (by linarith) hdt hcfl hs (by linarith) hG tab tab'
    (fun k => tab.coeffs.getD k 0) tab.coeffs.length (fun k hk j hj => ⟨ht.beta k hk j hj, hbt k hk j hj⟩) hc (tab'.coeffs.zip tab'.alphas) 0
    (by rw [zero_add, hlen]) (fun i hi => by
      rw [List.getElem_zip, zero_add]
      have hi' : i < tab'.coeffs.length := by rw [ht.stages, ← hlen]; exact hi
      have := ht.coeffs i (by rw [← hlen]; exact hi)
      have e : tab'.coeffs.getD i 0 = tab'.coeffs[i] := by simp [hi']
      rw [e] at this
      exact this)
    s'.u (fun _ => Arr.zeros s'.u.rows s'.u.cols) (fun j hj => absurd hj (by omega)) (by
      rw [Finset.range_zero, Finset.sum_empty, add_zero]
      exact VApx.self c.eps0 (by simp only [sB]; linarith))
  rw [← rkStep_eq] at h
  set u := stages A tab' s' dt 0 (tab'.coeffs.zip tab'.alphas) s'.u fun _ => Arr.zeros s'.u.rows s'.u.cols with hudef
  have hsh := stages_shape A tab' s' dt (tab'.coeffs.zip tab'.alphas) 0 s'.u fun _ => Arr.zeros s'.u.rows s'.u.cols
  have hset := applyBc_setup ({ s' with u := u } : Sol ℝ)
  have hshape := applyBc_shape ({ s' with u := u } : Sol ℝ)
  have hst : Stored ε p (step A tab' dt s') s := by
    unfold step
    rw [← hudef]
    refine ⟨hset.NF.trans hs.NF, hset.NE.trans hs.NE, hset.bcl.trans hs.bcl, hset.bcr.trans hs.bcr, hshape.1.trans (hsh.1.trans hs.rows),
      hshape.2.trans (hsh.2.trans hs.cols), ?_, ?_, ?_, ?_, ?_, ?_, ?_⟩
    · rw [hset.basis]; exact hs.phiCols
    · rw [hset.basis]; exact hs.psiCols
    · rw [hset.basis]; exact hs.dphiCols
    · rw [hset.basis]; exact hs.phi
    · rw [hset.basis]; exact hs.psi
    · rw [hset.basis]; exact hs.dphiW
    · rw [hset.scaledMinv]; exact hs.minv
  refine ⟨hst, le_trans (le_of_eq ?_) h.err⟩
  refine enorm_congr c.dx.le fun n _ e he1 he2 => ?_
  have hF' : 0 < s'.NF := by rw [hs.NF]; exact c.built.NF
  have hE' : 0 < s'.NE := by rw [hs.NE]; exact c.built.NE
  have hcol : u.cols = (s'.NE + 2) * s'.NF := by rw [hsh.2, hs.cols, c.built.cols, hs.NE, hs.NF]
  have hv := applyBc_val (s := ({ s' with u := u } : Sol ℝ)) hF' hE' hcol n (e * s'.NF + f)
  have hi := bcCol_interior ({ s' with u := u } : Sol ℝ) he1 (by show e ≤ s'.NE; rw [hs.NE]; exact he2) (f := f) (by show f < s'.NF; rw [hs.NF]; exact c.field)
  rw [hi] at hv
  have hv' : (step A tab' dt s').u.val n (e * s'.NF + f) = u.val n (e * s'.NF + f) := hv
  rw [hs.NF] at hv'
  show (step A tab' dt s').u.val n (e * s.NF + f) - _ = u.val n (e * s.NF + f) - _
  rw [hv']

end step

end Dg1d.Rounded
