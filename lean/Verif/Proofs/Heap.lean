import Verif.Model.Heap
import Verif.Spec.Heap

/-! # Lemmas for the model with references: what each operation does to the separated objects -/

set_option linter.unusedSectionVars false

namespace Dg1d
namespace HeapRep
open Heap Spec
variable {K : Type*}

/-- The three objects of the integrators. -/
def obj (r : Refs) : Fin 3 → ℕ := ![r.sol, r.us, r.work]

variable {ι : Type*} [DecidableEq ι]

/-- `uf_tmp` has its shape, and zeros where `face_value` does not write. -/
def TmpOk [Zero K] (tmp : Arr K) (cols NF : ℕ) : Prop :=
  tmp.cols = cols ∧ (∀ c, c < pyIdx cols NF → tmp.val 0 c = 0) ∧ (∀ c, pyIdx cols (-(NF : ℤ)) ≤ c → tmp.val 1 c = 0)

/-- An array of the store that belongs to none of the objects and is not older than the store `b`. -/
structure Temp (b h : Heap K) (ob : ι → ℕ) (Q : ℕ) (inc : ℕ → ℕ) (m a : ℕ) : Prop where
  lt : a < h.next
  le : b.next ≤ a
  nu : ∀ i, (h.obj (ob i)).u ≠ a
  ntmp : ∀ i, (h.obj (ob i)).ufTmp ≠ a
  nq : Q ≠ a
  ninc : ∀ j < m, inc j ≠ a

/-- The store `h` holds separate solutions `v` and the increments `vi`; it differs from `b` only where the objects
may write. -/
structure Rep [Zero K] (b h : Heap K) (ob : ι → ℕ) (o Q : ℕ) (inc : ℕ → ℕ) (m NC : ℕ) (v : ι → Sol K) (vi : ℕ → Arr K) : Prop where
  inj : Function.Injective ob
  objlt : ∀ i, ob i < h.next
  bound : ∀ i, (h.obj (ob i)).bound = ob i
  ult : ∀ i, (h.obj (ob i)).u < h.next
  tlt : ∀ i, (h.obj (ob i)).ufTmp < h.next
  flt : ∀ i, (h.obj (ob i)).flags < h.next
  qlt : Q < h.next
  inclt : ∀ j < m, inc j < h.next
  uu : ∀ i j, i ≠ j → (h.obj (ob i)).u ≠ (h.obj (ob j)).u
  ut : ∀ i j, (h.obj (ob i)).u ≠ (h.obj (ob j)).ufTmp
  uq : ∀ i, (h.obj (ob i)).u ≠ Q
  tq : ∀ i, (h.obj (ob i)).ufTmp ≠ Q
  tt : ∀ i j, i ≠ j → (h.obj (ob i)).ufTmp ≠ (h.obj (ob j)).ufTmp
  ff : ∀ i j, i ≠ j → (h.obj (ob i)).flags ≠ (h.obj (ob j)).flags
  incu : ∀ j < m, ∀ i, (h.obj (ob i)).u ≠ inc j
  inct : ∀ j < m, ∀ i, (h.obj (ob i)).ufTmp ≠ inc j
  incq : ∀ j < m, Q ≠ inc j
  incle : ∀ j < m, b.next ≤ inc j
  view : ∀ i, h.view (ob i) = v i
  incv : ∀ j < m, h.arr (inc j) = vi j
  tmp : ∀ i, TmpOk (h.arr (h.obj (ob i)).ufTmp) NC (v i).NF
  cols : ∀ i, (v i).u.cols = NC
  frame : Spec.Frame b h o Q
  ownu : ∀ i, b.next ≤ (h.obj (ob i)).u ∨ (h.obj (ob i)).u = (b.obj o).u
  ownt : ∀ i, b.next ≤ (h.obj (ob i)).ufTmp ∨ (h.obj (ob i)).ufTmp = (b.obj o).ufTmp
  ownf : ∀ i, b.next ≤ (h.obj (ob i)).flags ∨ (h.obj (ob i)).flags = (b.obj o).flags
  owno : ∀ i, b.next ≤ ob i ∨ ob i = o

section prim
variable [Zero K] {b h : Heap K} {ob : ι → ℕ} {o Q : ℕ} {inc : ℕ → ℕ} {m NC : ℕ} {v : ι → Sol K} {vi : ℕ → Arr K}

theorem view_def (h : Heap K) (o : ℕ) : h.view o = { (h.obj o).attrs with
    u := h.arr (h.obj o).u, sensors := (h.obj o).attrs.sensors.map fun sn => { sn with sensors := h.ints (h.obj o).flags } } := rfl

theorem view_congr {h h' : Heap K} {o : ℕ} (ho : h'.obj o = h.obj o) (ha : h'.arr (h.obj o).u = h.arr (h.obj o).u)
    (hi : h'.ints (h.obj o).flags = h.ints (h.obj o).flags) : h'.view o = h.view o := by
  simp only [view_def, ho, ha, hi]

theorem Rep.u (R : Rep b h ob o Q inc m NC v vi) (i : ι) : h.arr (h.obj (ob i)).u = (v i).u := by
  rw [← R.view i]; rfl

theorem Rep.NF (R : Rep b h ob o Q inc m NC v vi) (i : ι) : (h.obj (ob i)).attrs.NF = (v i).NF := by
  rw [← R.view i]; rfl

/-- Changing the contents of arrays only. -/
theorem Rep.arrs (R : Rep b h ob o Q inc m NC v vi) {h' : Heap K} (hn : h.next ≤ h'.next) (ho : h'.obj = h.obj)
    (hi : h'.ints = h.ints) (hc : ∀ i, (h'.arr (h.obj (ob i)).u).cols = NC)
    (ht : ∀ i, TmpOk (h'.arr (h.obj (ob i)).ufTmp) NC (v i).NF)
    (hinc : ∀ j < m, h'.arr (inc j) = h.arr (inc j))
    (hf : ∀ a < b.next, a ≠ (b.obj o).u → a ≠ (b.obj o).ufTmp → a ≠ Q → h'.arr a = h.arr a) :
    Rep b h' ob o Q inc m NC (fun i => { v i with u := h'.arr (h.obj (ob i)).u }) vi where
  inj := R.inj
  objlt i := (R.objlt i).trans_le hn
  bound i := by rw [ho]; exact R.bound i
  ult i := by rw [ho]; exact (R.ult i).trans_le hn
  tlt i := by rw [ho]; exact (R.tlt i).trans_le hn
  flt i := by rw [ho]; exact (R.flt i).trans_le hn
  qlt := R.qlt.trans_le hn
  inclt j hj := (R.inclt j hj).trans_le hn
  uu := by rw [ho]; exact R.uu
  ut := by rw [ho]; exact R.ut
  uq := by rw [ho]; exact R.uq
  tq := by rw [ho]; exact R.tq
  tt := by rw [ho]; exact R.tt
  ff := by rw [ho]; exact R.ff
  incu := by rw [ho]; exact R.incu
  inct := by rw [ho]; exact R.inct
  incq := R.incq
  incle := R.incle
  view i := by
    rw [view_def, ho, hi, ← R.view i]; rfl
  incv j hj := by rw [hinc j hj]; exact R.incv j hj
  tmp := by rw [ho]; exact ht
  cols := hc
  frame := ⟨R.frame.le.trans hn, fun a h1 h2 h3 h4 => (hf a h1 h2 h3 h4).trans (R.frame.arr a h1 h2 h3 h4),
    by rw [hi]; exact R.frame.ints, by rw [ho]; exact R.frame.obj⟩
  ownu := by rw [ho]; exact R.ownu
  ownt := by rw [ho]; exact R.ownt
  ownf := by rw [ho]; exact R.ownf
  owno := R.owno

/-- Changing arrays of no object. -/
theorem Rep.other (R : Rep b h ob o Q inc m NC v vi) {h' : Heap K} (hn : h.next ≤ h'.next) (ho : h'.obj = h.obj)
    (hi : h'.ints = h.ints) (hu : ∀ i, h'.arr (h.obj (ob i)).u = h.arr (h.obj (ob i)).u)
    (ht : ∀ i, TmpOk (h'.arr (h.obj (ob i)).ufTmp) NC (v i).NF)
    (hinc : ∀ j < m, h'.arr (inc j) = h.arr (inc j))
    (hf : ∀ a < b.next, a ≠ (b.obj o).u → a ≠ (b.obj o).ufTmp → a ≠ Q → h'.arr a = h.arr a) :
    Rep b h' ob o Q inc m NC v vi := by
  have := R.arrs hn ho hi (fun i => by rw [hu, R.u]; exact R.cols i) ht hinc hf
  simpa only [hu, R.u] using this

theorem Rep.newArr (R : Rep b h ob o Q inc m NC v vi) (A : Arr K) : Rep b (h.newArr A).2 ob o Q inc m NC v vi := by
  have hne : ∀ a, a < h.next → (h.newArr A).2.arr a = h.arr a := fun a ha => Function.update_of_ne ha.ne _ _
  exact R.other (Nat.le_succ _) rfl rfl (fun i => hne _ (R.ult i)) (fun i => by rw [hne _ (R.tlt i)]; exact R.tmp i)
    (fun j hj => hne _ (R.inclt j hj)) fun a h1 _ _ _ => hne a (h1.trans_le R.frame.le)

theorem newArr_arr (h : Heap K) (A : Arr K) : (h.newArr A).2.arr (h.newArr A).1 = A := Function.update_self _ _ _

theorem newArr_old (h : Heap K) (A : Arr K) {a : ℕ} (ha : a < h.next) : (h.newArr A).2.arr a = h.arr a :=
  Function.update_of_ne ha.ne _ _

theorem newArr_obj (h : Heap K) (A : Arr K) : (h.newArr A).2.obj = h.obj := rfl

theorem Rep.newTemp (R : Rep b h ob o Q inc m NC v vi) (A : Arr K) : Temp b (h.newArr A).2 ob Q inc m (h.newArr A).1 where
  lt := Nat.lt_succ_self _
  le := R.frame.le
  nu i := (R.ult i).ne
  ntmp i := (R.tlt i).ne
  nq := R.qlt.ne
  ninc j hj := (R.inclt j hj).ne

theorem Temp.newArr {a : ℕ} (T : Temp b h ob Q inc m a) (A : Arr K) : Temp b (h.newArr A).2 ob Q inc m a :=
  ⟨T.lt.trans (Nat.lt_succ_self _), T.le, T.nu, T.ntmp, T.nq, T.ninc⟩

theorem Temp.setArr {a : ℕ} (T : Temp b h ob Q inc m a) (c : ℕ) (A : Arr K) : Temp b (h.setArr c A) ob Q inc m a :=
  ⟨T.lt, T.le, T.nu, T.ntmp, T.nq, T.ninc⟩

theorem setArr_self (h : Heap K) (a : ℕ) (A : Arr K) : (h.setArr a A).arr a = A := Function.update_self _ _ _

theorem setArr_ne (h : Heap K) {a c : ℕ} (A : Arr K) (hc : c ≠ a) : (h.setArr a A).arr c = h.arr c :=
  Function.update_of_ne hc _ _

theorem Rep.setQ (R : Rep b h ob o Q inc m NC v vi) (A : Arr K) : Rep b (h.setArr Q A) ob o Q inc m NC v vi :=
  R.other le_rfl rfl rfl (fun i => setArr_ne h A (R.uq i)) (fun i => by rw [setArr_ne h A (R.tq i)]; exact R.tmp i)
    (fun j hj => setArr_ne h A (R.incq j hj).symm) fun _ _ _ _ h4 => setArr_ne h A h4

theorem Rep.setTemp (R : Rep b h ob o Q inc m NC v vi) {a : ℕ} (T : Temp b h ob Q inc m a) (A : Arr K) :
    Rep b (h.setArr a A) ob o Q inc m NC v vi :=
  R.other le_rfl rfl rfl (fun i => setArr_ne h A (T.nu i)) (fun i => by rw [setArr_ne h A (T.ntmp i)]; exact R.tmp i)
    (fun j hj => setArr_ne h A (T.ninc j hj)) fun _ h1 _ _ _ => setArr_ne h A (h1.trans_le T.le).ne

theorem Rep.setTmp (R : Rep b h ob o Q inc m NC v vi) (i : ι) {A : Arr K} (hA : TmpOk A NC (v i).NF) :
    Rep b (h.setArr (h.obj (ob i)).ufTmp A) ob o Q inc m NC v vi := by
  refine R.other le_rfl rfl rfl (fun j => setArr_ne h A (R.ut j i)) (fun j => ?_)
    (fun j hj => setArr_ne h A (R.inct j hj i).symm) fun a h1 h2 h3 h4 => setArr_ne h A ?_
  · by_cases hij : j = i
    · subst hij; rw [setArr_self]; exact hA
    · rw [setArr_ne h A (R.tt j i hij)]; exact R.tmp j
  · rcases R.ownt i with h5 | h5
    · exact (h1.trans_le h5).ne
    · rw [h5]; exact h3

theorem Rep.setU (R : Rep b h ob o Q inc m NC v vi) (i : ι) {A : Arr K} (hA : A.cols = NC) :
    Rep b (h.setArr (h.obj (ob i)).u A) ob o Q inc m NC (Function.update v i { v i with u := A }) vi := by
  have := R.arrs (h' := h.setArr (h.obj (ob i)).u A) le_rfl rfl rfl (fun j => ?_)
    (fun j => by rw [setArr_ne h A (R.ut i j).symm]; exact R.tmp j)
    (fun j hj => setArr_ne h A (R.incu j hj i).symm) fun a h1 h2 h3 h4 => setArr_ne h A ?_
  · convert this using 2
    rename_i j
    by_cases hij : j = i
    · subst hij; rw [Function.update_self, setArr_self]
    · rw [Function.update_of_ne hij, setArr_ne h A (R.uu j i hij), R.u]
  · by_cases hij : j = i
    · subst hij; rw [setArr_self]; exact hA
    · rw [setArr_ne h A (R.uu j i hij), R.u]; exact R.cols j
  · rcases R.ownu i with h5 | h5
    · exact (h1.trans_le h5).ne
    · rw [h5]; exact h2

theorem Rep.setObj_ne (R : Rep b h ob o Q inc m NC v vi) {i j : ι} (hji : j ≠ i) (f : Obj K → Obj K) :
    (h.setObj (ob i) f).obj (ob j) = h.obj (ob j) := Function.update_of_ne (fun e => hji (R.inj e)) _ _

theorem setObj_self (h : Heap K) (o : ℕ) (f : Obj K → Obj K) : (h.setObj o f).obj o = f (h.obj o) := Function.update_self _ _ _

theorem Rep.frame_setObj (R : Rep b h ob o Q inc m NC v vi) (i : ι) (f : Obj K → Obj K) :
    Spec.Frame b (h.setObj (ob i) f) o Q where
  le := R.frame.le
  arr := R.frame.arr
  ints := R.frame.ints
  obj a h1 h2 := by
    rw [← R.frame.obj a h1 h2]
    refine Function.update_of_ne ?_ _ _
    rcases R.owno i with h3 | h3
    · exact (h1.trans_le h3).ne
    · rw [h3]; exact h2

/-- `self.u = a` for an array that belongs to no object. -/
theorem Rep.rebind (R : Rep b h ob o Q inc m NC v vi) (i : ι) {a : ℕ} (T : Temp b h ob Q inc m a) (hA : (h.arr a).cols = NC) :
    Rep b (h.setObj (ob i) fun ob => { ob with u := a }) ob o Q inc m NC (Function.update v i { v i with u := h.arr a }) vi := by
  have hi := setObj_self h (ob i) fun ob => { ob with u := a }
  have hj : ∀ j, j ≠ i → (h.setObj (ob i) fun ob => { ob with u := a }).obj (ob j) = h.obj (ob j) :=
    fun j hji => R.setObj_ne hji _
  exact {
    inj := R.inj
    objlt := R.objlt
    bound := fun j => by
      rcases eq_or_ne j i with rfl | h1
      · rw [hi]; exact R.bound j
      · rw [hj j h1]; exact R.bound j
    ult := fun j => by
      rcases eq_or_ne j i with rfl | h1
      · rw [hi]; exact T.lt
      · rw [hj j h1]; exact R.ult j
    tlt := fun j => by
      rcases eq_or_ne j i with rfl | h1
      · rw [hi]; exact R.tlt j
      · rw [hj j h1]; exact R.tlt j
    flt := fun j => by
      rcases eq_or_ne j i with rfl | h1
      · rw [hi]; exact R.flt j
      · rw [hj j h1]; exact R.flt j
    qlt := R.qlt
    inclt := R.inclt
    uu := fun j k hjk => by
      rcases eq_or_ne j i with rfl | h1
      · rw [hi, hj k hjk.symm]; exact (T.nu k).symm
      · rw [hj j h1]
        rcases eq_or_ne k i with rfl | h2
        · rw [hi]; exact T.nu j
        · rw [hj k h2]; exact R.uu j k hjk
    ut := fun j k => by
      have hk : ((h.setObj (ob i) fun ob => { ob with u := a }).obj (ob k)).ufTmp = (h.obj (ob k)).ufTmp := by
        rcases eq_or_ne k i with rfl | h2
        · rw [hi]
        · rw [hj k h2]
      rw [hk]
      rcases eq_or_ne j i with rfl | h1
      · rw [hi]; exact (T.ntmp k).symm
      · rw [hj j h1]; exact R.ut j k
    uq := fun j => by
      rcases eq_or_ne j i with rfl | h1
      · rw [hi]; exact T.nq.symm
      · rw [hj j h1]; exact R.uq j
    tq := fun j => by
      rcases eq_or_ne j i with rfl | h1
      · rw [hi]; exact R.tq j
      · rw [hj j h1]; exact R.tq j
    tt := fun j k hjk => by
      rcases eq_or_ne j i with rfl | h1
      · rw [hi, hj k hjk.symm]; exact R.tt j k hjk
      · rw [hj j h1]
        rcases eq_or_ne k i with rfl | h2
        · rw [hi]; exact R.tt j k hjk
        · rw [hj k h2]; exact R.tt j k hjk
    ff := fun j k hjk => by
      rcases eq_or_ne j i with rfl | h1
      · rw [hi, hj k hjk.symm]; exact R.ff j k hjk
      · rw [hj j h1]
        rcases eq_or_ne k i with rfl | h2
        · rw [hi]; exact R.ff j k hjk
        · rw [hj k h2]; exact R.ff j k hjk
    incu := fun l hl j => by
      rcases eq_or_ne j i with rfl | h1
      · rw [hi]; exact (T.ninc l hl).symm
      · rw [hj j h1]; exact R.incu l hl j
    inct := fun l hl j => by
      rcases eq_or_ne j i with rfl | h1
      · rw [hi]; exact R.inct l hl j
      · rw [hj j h1]; exact R.inct l hl j
    incq := R.incq
    incle := R.incle
    view := fun j => by
      rcases eq_or_ne j i with rfl | h1
      · rw [Function.update_self, view_def, hi, ← R.view j]; rfl
      · rw [Function.update_of_ne h1, view_def, hj j h1, ← R.view j]; rfl
    incv := R.incv
    tmp := fun j => by
      rcases eq_or_ne j i with rfl | h1
      · rw [Function.update_self, hi]; exact R.tmp j
      · rw [Function.update_of_ne h1, hj j h1]; exact R.tmp j
    cols := fun j => by
      rcases eq_or_ne j i with rfl | h1
      · rw [Function.update_self]; exact hA
      · rw [Function.update_of_ne h1]; exact R.cols j
    frame := R.frame_setObj i _
    ownu := fun j => by
      rcases eq_or_ne j i with rfl | h1
      · rw [hi]; exact .inl T.le
      · rw [hj j h1]; exact R.ownu j
    ownt := fun j => by
      rcases eq_or_ne j i with rfl | h1
      · rw [hi]; exact R.ownt j
      · rw [hj j h1]; exact R.ownt j
    ownf := fun j => by
      rcases eq_or_ne j i with rfl | h1
      · rw [hi]; exact R.ownf j
      · rw [hj j h1]; exact R.ownf j
    owno := R.owno }

/-- Changing the time and the step counter of an object. -/
theorem Rep.setTime (R : Rep b h ob o Q inc m NC v vi) (i : ι) (f : Sol K → K) (g : Sol K → ℕ) (hf : f (h.obj (ob i)).attrs = f (v i))
    (hg : g (h.obj (ob i)).attrs = g (v i)) :
    Rep b (h.setObj (ob i) fun ob => { ob with attrs := { ob.attrs with t := f ob.attrs, n := g ob.attrs } }) ob o Q inc m NC
      (Function.update v i { v i with t := f (v i), n := g (v i) }) vi := by
  have hi := setObj_self h (ob i) fun ob => { ob with attrs := { ob.attrs with t := f ob.attrs, n := g ob.attrs } }
  have hj : ∀ j, j ≠ i → (h.setObj (ob i) fun ob =>
      { ob with attrs := { ob.attrs with t := f ob.attrs, n := g ob.attrs } }).obj (ob j) = h.obj (ob j) :=
    fun j hji => R.setObj_ne hji _
  set h' := h.setObj (ob i) fun ob => { ob with attrs := { ob.attrs with t := f ob.attrs, n := g ob.attrs } } with hh
  have e1 : ∀ j, (h'.obj (ob j)).u = (h.obj (ob j)).u := fun j => by
    rcases eq_or_ne j i with rfl | h1
    · rw [hi]
    · rw [hj j h1]
  have e2 : ∀ j, (h'.obj (ob j)).ufTmp = (h.obj (ob j)).ufTmp := fun j => by
    rcases eq_or_ne j i with rfl | h1
    · rw [hi]
    · rw [hj j h1]
  have e3 : ∀ j, (h'.obj (ob j)).flags = (h.obj (ob j)).flags := fun j => by
    rcases eq_or_ne j i with rfl | h1
    · rw [hi]
    · rw [hj j h1]
  have e4 : ∀ j, (h'.obj (ob j)).bound = (h.obj (ob j)).bound := fun j => by
    rcases eq_or_ne j i with rfl | h1
    · rw [hi]
    · rw [hj j h1]
  exact {
    inj := R.inj
    objlt := R.objlt
    bound := fun j => by rw [e4]; exact R.bound j
    ult := fun j => by rw [e1]; exact R.ult j
    tlt := fun j => by rw [e2]; exact R.tlt j
    flt := fun j => by rw [e3]; exact R.flt j
    qlt := R.qlt
    inclt := R.inclt
    uu := by simp only [e1]; exact R.uu
    ut := by simp only [e1, e2]; exact R.ut
    uq := by simp only [e1]; exact R.uq
    tq := by simp only [e2]; exact R.tq
    tt := by simp only [e2]; exact R.tt
    ff := by simp only [e3]; exact R.ff
    incu := by simp only [e1]; exact R.incu
    inct := by simp only [e2]; exact R.inct
    incq := R.incq
    incle := R.incle
    view := fun j => by
      rcases eq_or_ne j i with rfl | h1
      · rw [Function.update_self, view_def, hi, ← hf, ← hg, ← R.view j]; rfl
      · rw [Function.update_of_ne h1, view_def, hj j h1, ← R.view j]; rfl
    incv := R.incv
    tmp := fun j => by
      rw [e2]
      rcases eq_or_ne j i with rfl | h1
      · rw [Function.update_self]; exact R.tmp j
      · rw [Function.update_of_ne h1]; exact R.tmp j
    cols := fun j => by
      rcases eq_or_ne j i with rfl | h1
      · rw [Function.update_self]; exact R.cols j
      · rw [Function.update_of_ne h1]; exact R.cols j
    frame := R.frame_setObj i _
    ownu := by simp only [e1]; exact R.ownu
    ownt := by simp only [e2]; exact R.ownt
    ownf := by simp only [e3]; exact R.ownf
    owno := R.owno }

/-- Writing the flags of an object. -/
theorem Rep.setFlags (R : Rep b h ob o Q inc m NC v vi) (i : ι) (w : Vec ℕ) :
    Rep b { h with ints := Function.update h.ints (h.obj (ob i)).flags w } ob o Q inc m NC
      (Function.update v i { v i with sensors := (v i).sensors.map fun sn => { sn with sensors := w } }) vi where
  inj := R.inj
  objlt := R.objlt
  bound := R.bound
  ult := R.ult
  tlt := R.tlt
  flt := R.flt
  qlt := R.qlt
  inclt := R.inclt
  uu := R.uu
  ut := R.ut
  uq := R.uq
  tq := R.tq
  tt := R.tt
  ff := R.ff
  incu := R.incu
  inct := R.inct
  incq := R.incq
  incle := R.incle
  view j := by
    rcases eq_or_ne j i with rfl | h1
    · rw [Function.update_self, ← R.view j, view_def, view_def]
      simp only [Function.update_self, Option.map_map]
      rfl
    · rw [Function.update_of_ne h1, ← R.view j]
      exact view_congr rfl rfl (Function.update_of_ne (R.ff j i h1) _ _)
  incv := R.incv
  tmp j := by
    rcases eq_or_ne j i with rfl | h1
    · rw [Function.update_self]; exact R.tmp j
    · rw [Function.update_of_ne h1]; exact R.tmp j
  cols j := by
    rcases eq_or_ne j i with rfl | h1
    · rw [Function.update_self]; exact R.cols j
    · rw [Function.update_of_ne h1]; exact R.cols j
  frame := ⟨R.frame.le, R.frame.arr, fun a h1 h2 => by
    rw [← R.frame.ints a h1 h2]
    refine Function.update_of_ne ?_ _ _
    rcases R.ownf i with h3 | h3
    · exact (h1.trans_le h3).ne
    · rw [h3]; exact h2, R.frame.obj⟩
  ownu := R.ownu
  ownt := R.ownt
  ownf := R.ownf
  owno := R.owno

/-- `K[k] = a`. -/
theorem Rep.setInc (R : Rep b h ob o Q inc m NC v vi) (k : ℕ) {a : ℕ} (T : Temp b h ob Q inc m a) :
    Rep b h ob o Q (Function.update inc k a) m NC v (Function.update vi k (h.arr a)) := by
  have e : ∀ (P : ℕ → Prop), (∀ j < m, P (inc j)) → P a → ∀ j < m, P (Function.update inc k a j) := fun P h1 h2 j hj => by
    rcases eq_or_ne j k with rfl | hjk
    · rwa [Function.update_self]
    · rw [Function.update_of_ne hjk]; exact h1 j hj
  exact { R with
    inclt := e (· < h.next) R.inclt T.lt
    incu := e (fun x => ∀ i, (h.obj (ob i)).u ≠ x) R.incu T.nu
    inct := e (fun x => ∀ i, (h.obj (ob i)).ufTmp ≠ x) R.inct T.ntmp
    incq := e (fun x => Q ≠ x) R.incq T.nq
    incle := e (b.next ≤ ·) R.incle T.le
    incv := fun j hj => by
      rcases eq_or_ne j k with rfl | hjk
      · rw [Function.update_self, Function.update_self]
      · rw [Function.update_of_ne hjk, Function.update_of_ne hjk]; exact R.incv j hj }

end prim

section ops
variable [Field K] [LinearOrder K] {b h : Heap K} {ob : ι → ℕ} {o Q : ℕ} {inc : ℕ → ℕ} {m NC : ℕ} {v : ι → Sol K} {vi : ℕ → Arr K}

theorem Rep.copyDataOnly (R : Rep b h ob o Q inc m NC v vi) (i j : ι) :
    Rep b (h.copyDataOnly (ob i) (ob j)) ob o Q inc m NC (Function.update v i ((v i).copyDataOnly (v j))) vi := by
  have := (R.newArr (h.arr (h.obj (ob j)).u)).rebind i (R.newTemp _) (by rw [newArr_arr, R.u]; exact R.cols j)
  rw [newArr_arr] at this
  simp only [R.u j] at this
  rw [Heap.copyDataOnly, R.u j]
  exact this

theorem Rep.smartAxpy (R : Rep b h ob o Q inc m NC v vi) (i : ι) (a : K) {x : ℕ} {X : Arr K} (hx : h.arr x = X) :
    Rep b (h.smartAxpy (ob i) a x) ob o Q inc m NC (Function.update v i ((v i).smartAxpy a X)) vi := by
  rw [Heap.smartAxpy, Sol.smartAxpy]
  split
  · rw [R.u, hx]
    exact R.setU i (R.cols i)
  · rw [Function.update_eq_self]; exact R

theorem applyBcLeft_eq (s : Sol K) : s.applyBcLeft = { s with u := s.applyBcLeft.u } := by
  rw [Sol.applyBcLeft]; split_ifs <;> rfl

theorem applyBcRight_eq (s : Sol K) : s.applyBcRight = { s with u := s.applyBcRight.u } := by
  rw [Sol.applyBcRight]; split_ifs <;> rfl

theorem applyBcLeft_cols (s : Sol K) : s.applyBcLeft.u.cols = s.u.cols := by
  rw [Sol.applyBcLeft]; split_ifs <;> rfl

theorem applyBcRight_cols (s : Sol K) : s.applyBcRight.u.cols = s.u.cols := by
  rw [Sol.applyBcRight]; split_ifs <;> rfl

theorem Rep.applyBc (R : Rep b h ob o Q inc m NC v vi) (i : ι) :
    Rep b (h.applyBc (ob i)) ob o Q inc m NC (Function.update v i (v i).applyBc) vi := by
  have R1 := R.setU i (A := (v i).applyBcLeft.u) (by rw [applyBcLeft_cols]; exact R.cols i)
  rw [← applyBcLeft_eq] at R1
  have R2 := R1.setU i (A := (v i).applyBc.u) (by
    rw [Sol.applyBc, applyBcRight_cols, applyBcLeft_cols]; exact R.cols i)
  rw [Function.update_self, Function.update_idem] at R2
  rw [Heap.applyBc]
  simp only [R.view i]
  rw [R1.view i, Function.update_self]
  have e : (v i).applyBc = { (v i).applyBcLeft with u := (v i).applyBc.u } := applyBcRight_eq _
  rw [e]
  exact R2

theorem applyBc_obj (h : Heap K) (o : ℕ) : (h.applyBc o).obj = h.obj := rfl

theorem applyBc_next (h : Heap K) (o : ℕ) : (h.applyBc o).next = h.next := rfl

/-- Arrays of face values that `interface` cannot tell apart. -/
structure SameFaces (A B : Arr K) : Prop where
  cols : A.cols = B.cols
  row0 : ∀ c, A.val 0 c = B.val 0 c
  row1 : ∀ c, A.val 1 c = B.val 1 c

theorem SameFaces.fluxes {A B : Arr K} (hAB : SameFaces A B) (kw : Physics K) (NF : ℕ) :
    interfaceFluxes kw A NF = interfaceFluxes kw B NF := by
  have h0 : A.row 0 = B.row 0 := by
    rw [Arr.row, Arr.row, hAB.cols]; congr 1; funext c; exact hAB.row0 c
  have h1 : A.row 1 = B.row 1 := by
    rw [Arr.row, Arr.row, hAB.cols]; congr 1; funext c; exact hAB.row1 c
  rw [interfaceFluxes, interfaceFluxes, h0, h1, hAB.cols]

theorem fill_same (en : Enhance K) {tmp u : Arr K} {NF : ℕ} (ht : TmpOk tmp u.cols NF) :
    SameFaces (en.fill tmp u NF) (en.faceArr u NF) ∧ TmpOk (en.fill tmp u NF) u.cols NF := by
  obtain ⟨h1, h2, h3⟩ := ht
  refine ⟨⟨h1, fun c => ?_, fun c => ?_⟩, h1, fun c hc => ?_, fun c hc => ?_⟩
  · simp only [Enhance.fill, Enhance.faceArr, h1]
    by_cases hc : pyIdx u.cols NF ≤ c
    · simp [hc]
    · simp [hc, h2 c (not_le.1 hc)]
  · simp only [Enhance.fill, Enhance.faceArr, h1]
    by_cases hc : c < pyIdx u.cols (-(NF : ℤ))
    · simp [hc]
    · simp [hc, h3 c (not_lt.1 hc)]
  · simp only [Enhance.fill, h1]
    simp [not_le.2 hc, h2 c hc]
  · simp only [Enhance.fill, h1]
    simp [not_lt.2 hc, h3 c hc]

theorem Rep.attrs_enhance (R : Rep b h ob o Q inc m NC v vi) (i : ι) : (h.obj (ob i)).attrs.enhance = (v i).enhance := by
  rw [← R.view i]; rfl

theorem Rep.attrs_basis (R : Rep b h ob o Q inc m NC v vi) (i : ι) : (h.obj (ob i)).attrs.basis = (v i).basis := by
  rw [← R.view i]; rfl

theorem Rep.attrs_kw (R : Rep b h ob o Q inc m NC v vi) (i : ι) : (h.obj (ob i)).attrs.kw = (v i).kw := by
  rw [← R.view i]; rfl

theorem Rep.attrs_minv (R : Rep b h ob o Q inc m NC v vi) (i : ι) : (h.obj (ob i)).attrs.scaledMinv = (v i).scaledMinv := by
  rw [← R.view i]; rfl

theorem Rep.evaluateFaces (R : Rep b h ob o Q inc m NC v vi) (i : ι) :
    match (v i).evaluateFaces with
    | .error e => h.evaluateFaces (ob i) = .error e
    | .ok A => ∃ uf h', h.evaluateFaces (ob i) = .ok (uf, h') ∧ Rep b h' ob o Q inc m NC v vi ∧ SameFaces (h'.arr uf) A ∧
        h'.obj = h.obj ∧ uf < h'.next ∧ uf ≠ Q ∧ ∀ a, Temp b h ob Q inc m a → Temp b h' ob Q inc m a ∧ h'.arr a = h.arr a := by
  rw [Sol.evaluateFaces, Heap.evaluateFaces]
  simp only [R.bound i, R.attrs_enhance i]
  cases hen : (v i).enhance with
  | none =>
    refine ⟨_, _, rfl, R.newArr _, ?_, rfl, Nat.lt_succ_self _, R.qlt.ne', fun a T => ⟨T.newArr _, newArr_old h _ T.lt⟩⟩
    change SameFaces (Function.update h.arr h.next _ h.next) _
    rw [Function.update_self, R.u, R.attrs_basis]
    exact ⟨rfl, fun _ => rfl, fun _ => rfl⟩
  | some en =>
    simp only [Enhance.faceValue, R.u i]
    split_ifs with hl
    · have ht : TmpOk (h.arr (h.obj (ob i)).ufTmp) (v i).u.cols (v i).NF := by rw [R.cols i]; exact R.tmp i
      have hs := fill_same en ht
      refine ⟨_, _, rfl, R.setTmp i ?_, ?_, rfl, R.tlt i, R.tq i, fun a T => ⟨T.setArr _ _, setArr_ne h _ (T.ntmp i).symm⟩⟩
      · rw [R.NF i, ← R.cols i]; exact hs.2
      · rw [setArr_self, R.NF i]; exact hs.1
    · rfl

theorem fill_subtract (F Q : Arr K) (q : Vec K) (NF : ℕ) : subtractQ F (fillQ Q q NF) NF = addInteriorFaceFluxes F q NF := by
  simp only [subtractQ, fillQ, addInteriorFaceFluxes, edgeFluxMatrix]
  congr 1
  funext x c
  rcases Nat.mod_two_eq_zero_or_one x with hx | hx <;> simp [hx]

theorem Rep.residual (R : Rep b h ob o Q inc m NC v vi) (i : ι) :
    match residual (v i) with
    | .error e => h.residual Q (ob i) = .error e
    | .ok (s, F) => ∃ a h', h.residual Q (ob i) = .ok (a, h') ∧ Rep b h' ob o Q inc m NC (Function.update v i s) vi ∧
        Temp b h' ob Q inc m a ∧ h'.arr a = F := by
  have R1 := R.applyBc i
  have R2 := R1.newArr (((h.applyBc (ob i)).obj (ob i)).attrs.basis.phi.dot
    ((h.applyBc (ob i)).arr ((h.applyBc (ob i)).obj (ob i)).u))
  have T2 := R1.newTemp (((h.applyBc (ob i)).obj (ob i)).attrs.basis.phi.dot
    ((h.applyBc (ob i)).arr ((h.applyBc (ob i)).obj (ob i)).u))
  have V2 := newArr_arr (h.applyBc (ob i)) (((h.applyBc (ob i)).obj (ob i)).attrs.basis.phi.dot
    ((h.applyBc (ob i)).arr ((h.applyBc (ob i)).obj (ob i)).u))
  have E := R2.evaluateFaces i
  rw [Dg1d.residual, Heap.residual]
  simp only
  rw [Function.update_self] at E
  generalize hg : (h.applyBc (ob i)).newArr (((h.applyBc (ob i)).obj (ob i)).attrs.basis.phi.dot
    ((h.applyBc (ob i)).arr ((h.applyBc (ob i)).obj (ob i)).u)) = g at *
  cases hA : (v i).applyBc.evaluateFaces with
  | error e =>
    rw [hA] at E
    simp only at E
    simp only [E]
  | ok A =>
    rw [hA] at E
    simp only at E
    obtain ⟨uf, h', e1, R3, S, ho, hlt, hQ, hT⟩ := E
    simp only [e1]
    have hw : Function.update v i (v i).applyBc i = (v i).applyBc := Function.update_self _ _ _
    have kwE := R3.attrs_kw i
    have bE := R3.attrs_basis i
    have nfE := R3.NF i
    have mE := R3.attrs_minv i
    rw [hw] at kwE bE nfE mE
    have R4 := R3.newArr ((h'.obj (ob i)).attrs.kw.interiorFlux (h'.arr g.1))
    set g4 := h'.newArr ((h'.obj (ob i)).attrs.kw.interiorFlux (h'.arr g.1)) with hg4
    have V4 : g4.2.arr g4.1 = (h'.obj (ob i)).attrs.kw.interiorFlux (h'.arr g.1) := newArr_arr _ _
    have R5 := R4.newArr (integrateInteriorFlux (h'.obj (ob i)).attrs.basis.dphiW (g4.2.arr g4.1))
    have T5 := R4.newTemp (integrateInteriorFlux (h'.obj (ob i)).attrs.basis.dphiW (g4.2.arr g4.1))
    set g5 := g4.2.newArr (integrateInteriorFlux (h'.obj (ob i)).attrs.basis.dphiW (g4.2.arr g4.1)) with hg5
    have V5 : g5.2.arr g5.1 = integrateInteriorFlux (h'.obj (ob i)).attrs.basis.dphiW (g4.2.arr g4.1) := newArr_arr _ _
    have U5 : g5.2.arr uf = h'.arr uf := (newArr_old g4.2 _ (hlt.trans (Nat.lt_succ_self _))).trans (newArr_old h' _ hlt)
    have O5 : g5.2.obj = h'.obj := rfl
    have Vug : h'.arr g.1 = (v i).applyBc.collocate := by
      rw [(hT _ T2).2, V2, R1.u i, R1.attrs_basis i, hw]; rfl
    rw [O5, U5, kwE, nfE, S.fluxes]
    rw [V4, kwE, Vug, bE] at V5
    cases hq : interfaceFluxes (v i).applyBc.kw A (v i).applyBc.NF with
    | error e => rfl
    | ok q =>
      simp only
      have R6 := R5.setQ (fillQ (g5.2.arr Q) q (v i).applyBc.NF)
      have T6 := T5.setArr Q (fillQ (g5.2.arr Q) q (v i).applyBc.NF)
      have V6Q := setArr_self g5.2 Q (fillQ (g5.2.arr Q) q (v i).applyBc.NF)
      have V6F := setArr_ne g5.2 (fillQ (g5.2.arr Q) q (v i).applyBc.NF) T5.nq.symm
      have O6 : (g5.2.setArr Q (fillQ (g5.2.arr Q) q (v i).applyBc.NF)).obj = h'.obj := rfl
      set h6 := g5.2.setArr Q (fillQ (g5.2.arr Q) q (v i).applyBc.NF) with hh6
      rw [O6, nfE, V6F, V6Q, fill_subtract, V5]
      have R7 := R6.setTemp T6 (addInteriorFaceFluxes
        (integrateInteriorFlux (v i).applyBc.basis.dphiW ((v i).applyBc.kw.interiorFlux (v i).applyBc.collocate)) q (v i).applyBc.NF)
      have V7 := setArr_self h6 g5.1 (addInteriorFaceFluxes
        (integrateInteriorFlux (v i).applyBc.basis.dphiW ((v i).applyBc.kw.interiorFlux (v i).applyBc.collocate)) q (v i).applyBc.NF)
      set h7 := h6.setArr g5.1 (addInteriorFaceFluxes
        (integrateInteriorFlux (v i).applyBc.basis.dphiW ((v i).applyBc.kw.interiorFlux (v i).applyBc.collocate)) q (v i).applyBc.NF)
        with hh7
      have O7 : h7.obj = h'.obj := rfl
      rw [V7]
      refine ⟨_, _, rfl, R7.newArr _, R7.newTemp _, ?_⟩
      change Function.update h7.arr h7.next _ h7.next = _
      rw [Function.update_self, O7, mE]

/-- The two computations raise the same exception, or return related results. -/
inductive Agree {α β : Type*} (P : α → β → Prop) : Except PyErr α → Except PyErr β → Prop
  | error (e : PyErr) : Agree P (.error e) (.error e)
  | ok (x : α) (y : β) : P x y → Agree P (.ok x) (.ok y)

theorem foldlM_rel {α β γ : Type*} (f : α → γ → Except PyErr α) (g : β → γ → Except PyErr β) (P : α → β → Prop)
    (step : ∀ x y c, P x y → Agree P (f x c) (g y c)) :
    ∀ (l : List γ) (x : α) (y : β), P x y → Agree P (l.foldlM f x) (l.foldlM g y) := by
  intro l
  induction l with
  | nil => intro x y hP; exact .ok _ _ hP
  | cons c l ih =>
    intro x y hP
    have := step x y c hP
    rw [List.foldlM_cons, List.foldlM_cons]
    generalize f x c = p, g y c = q at this
    cases this with
    | error e => exact .error e
    | ok x' y' h2 => exact ih x' y' h2

theorem Rep.residual_agree (R : Rep b h ob o Q inc m NC v vi) (i : ι) :
    Agree (fun p q => Rep b q.2 ob o Q inc m NC (Function.update v i p.1) vi ∧ Temp b q.2 ob Q inc m q.1 ∧ q.2.arr q.1 = p.2)
      (Dg1d.residual (v i)) (h.residual Q (ob i)) := by
  have := R.residual i
  cases hF : Dg1d.residual (v i) with
  | error e =>
    rw [hF] at this
    simp only at this
    rw [this]; exact .error e
  | ok p =>
    obtain ⟨s, F⟩ := p
    rw [hF] at this
    simp only at this
    obtain ⟨a, h', e1, h1⟩ := this
    rw [e1]; exact .ok _ _ h1

/-- What the loops of the limiter keep: `ulim` at `a` holds `U`; nothing else has changed. -/
structure Limiting (b h0 : Heap K) (ob : ι → ℕ) (o Q : ℕ) (inc : ℕ → ℕ) (m NC : ℕ) (v : ι → Sol K) (vi : ℕ → Arr K) (a : ℕ) (U : Arr K)
    (h : Heap K) : Prop where
  rep : Rep b h ob o Q inc m NC v vi
  temp : Temp b h ob Q inc m a
  val : h.arr a = U
  cols : U.cols = NC
  obj : h.obj = h0.obj
  ints : h.ints = h0.ints

theorem Limiting.fields {h0 : Heap K} {a : ℕ} {U : Arr K} (L : Limiting b h0 ob o Q inc m NC v vi a U h) (lm : HrLimiter K) (i : ι) (e : ℕ) :
    Agree (Limiting b h0 ob o Q inc m NC v vi a) (lm.limitFields (v i) e U) (Heap.limitFields lm (ob i) a e h) := by
  rw [HrLimiter.limitFields, Heap.limitFields]
  simp only
  rw [L.rep.NF i]
  refine foldlM_rel _ _ (Limiting b h0 ob o Q inc m NC v vi a) ?_ _ U h L
  intro U h f L
  rw [L.rep.u i]
  cases lm.hr ((v i).u.col (e * (v i).NF + f)) ((v i).u.col ((e - 1) * (v i).NF + f)) ((v i).u.col ((e + 1) * (v i).NF + f)) with
  | error er => exact .error er
  | ok w =>
    refine .ok _ _ ⟨L.rep.setTemp L.temp _, L.temp.setArr _ _, ?_, L.cols, L.obj, L.ints⟩
    rw [setArr_self, L.val]

theorem Rep.flags (R : Rep b h ob o Q inc m NC v vi) (i : ι) {sn : Sensor K} (hs : (v i).sensors = some sn) :
    h.ints (h.obj (ob i)).flags = sn.sensors ∧ ∃ s0, (h.obj (ob i)).attrs.sensors = some s0 ∧ s0.thresholds = sn.thresholds := by
  rw [← R.view i, view_def] at hs
  simp only [Option.map_eq_some_iff] at hs
  obtain ⟨s0, h1, h2⟩ := hs
  exact ⟨by rw [← h2], s0, h1, by rw [← h2]⟩

theorem Rep.limit (R : Rep b h ob o Q inc m NC v vi) (lm : Limiter K) (i : ι) :
    Agree (fun s h' => Rep b h' ob o Q inc m NC (Function.update v i s) vi) (lm.limit (v i)) (h.limit lm (ob i)) := by
  cases lm with
  | none =>
    refine .ok _ _ ?_
    rw [Function.update_eq_self]; exact R
  | some lm =>
    simp only [Limiter.limit, Heap.limit, HrLimiter.adaptiveHr, Heap.adaptiveHr]
    cases hs : (v i).sensors with
    | none =>
      have : (h.obj (ob i)).attrs.sensors = none := by
        rw [← R.view i, view_def] at hs
        simpa using hs
      simp only [this]
      exact .error _
    | some sn =>
      obtain ⟨hfl, s0, h1, h2⟩ := R.flags i hs
      simp only [h1, Heap.sensing, Sensor.sensing, h2]
      have R1 := R.setFlags i ⟨(h.ints (h.obj (ob i)).flags).len, fun _ => 0⟩
      rw [Function.update_self, R.attrs_kw i, R.u i, R.NF i, hfl]
      cases hw : (v i).kw.sensing sn.thresholds (v i).u (v i).NF ⟨sn.sensors.len, fun _ => 0⟩ with
      | error e => exact .error e
      | ok w =>
        simp only [Function.update_idem]
        have R2 := R.setFlags i w
        rw [hs] at R2
        simp only [Option.map_some] at R2
        set h2 : Heap K := { h with ints := Function.update h.ints (h.obj (ob i)).flags w } with hh2
        set v2 := Function.update v i { v i with sensors := some { sn with sensors := w } } with hv2
        have v2i : v2 i = { v i with sensors := some { sn with sensors := w } } := Function.update_self _ _ _
        have L0 : Limiting b (h2.newArr (h.arr (h.obj (ob i)).u)).2 ob o Q inc m NC v2 vi (h2.newArr (h.arr (h.obj (ob i)).u)).1 (v i).u
            (h2.newArr (h.arr (h.obj (ob i)).u)).2 :=
          ⟨R2.newArr _, R2.newTemp _, by rw [newArr_arr, R.u], R.cols i, rfl, rfl⟩
        set g := h2.newArr (h.arr (h.obj (ob i)).u) with hg
        have F := foldlM_rel (fun ulim e => if w.val e ≠ 0 then lm.limitFields (v i) e ulim else .ok ulim)
          (fun h e => if (h.ints (h.obj (ob i)).flags).val e ≠ 0 then Heap.limitFields lm (ob i) g.1 e h else .ok h)
          (Limiting b g.2 ob o Q inc m NC v2 vi g.1) (fun U k e L => ?_) (List.range' 1 (v i).NE) _ _ L0
        · have hNE : (h.obj (ob i)).attrs.NE = (v i).NE := by rw [← R.view i]; rfl
          rw [hNE]
          generalize (List.range' 1 (v i).NE).foldlM
              (fun ulim e => if w.val e ≠ 0 then lm.limitFields (v i) e ulim else .ok ulim) (v i).u = p,
            (List.range' 1 (v i).NE).foldlM
              (fun h e => if (h.ints (h.obj (ob i)).flags).val e ≠ 0 then Heap.limitFields lm (ob i) g.1 e h else .ok h) g.2 = q at F
          cases F with
          | error e => exact .error e
          | ok U k L =>
            refine .ok _ _ ?_
            have R3 := ((L.rep.newArr (k.arr g.1)).rebind i (L.rep.newTemp _) (by rw [newArr_arr, L.val]; exact L.cols)).applyBc i
            rw [newArr_arr, Function.update_self, v2i, Function.update_idem, hv2, Function.update_idem, L.val] at R3
            rw [L.val]
            exact R3
        · have hi : (k.ints (k.obj (ob i)).flags) = w := by
            rw [L.obj, L.ints]; exact Function.update_self _ _ _
          rw [hi]
          have := L.fields lm i e
          have e2 : lm.limitFields (v2 i) e U = lm.limitFields (v i) e U := by rw [v2i]; rfl
          rw [e2] at this
          split_ifs with hne
          · exact this
          · exact .ok _ _ L

end ops

section loops
variable [Field K] [LinearOrder K] {b : Heap K} {r : Refs} {m NC : ℕ}

theorem upd0 {α : Type*} (a b c x : α) : Function.update ![a, b, c] 0 x = ![x, b, c] := by
  funext i; fin_cases i <;> rfl

theorem upd1 {α : Type*} (a b c x : α) : Function.update ![a, b, c] 1 x = ![a, x, c] := by
  funext i; fin_cases i <;> rfl

theorem upd2 {α : Type*} (a b c x : α) : Function.update ![a, b, c] 2 x = ![a, b, x] := by
  funext i; fin_cases i <;> rfl

/-- The store and the list of addresses stand for the stage state, with `us` beside it. -/
def StageRep (b : Heap K) (r : Refs) (m NC : ℕ) (us : Sol K) (st : StageState K) (q : Heap K × (ℕ → ℕ)) : Prop :=
  Rep b q.1 (obj r) r.sol r.Q q.2 m NC ![st.sol, us, st.work] st.incr

theorem Rep.addTime {h : Heap K} {inc : ℕ → ℕ} {v : Fin 3 → Sol K} {vi : ℕ → Arr K} (R : Rep b h (obj r) r.sol r.Q inc m NC v vi) (i : Fin 3) (dt : K) :
    Rep b (h.addTime (obj r i) dt) (obj r) r.sol r.Q inc m NC (Function.update v i { v i with t := (v i).t + dt }) vi :=
  R.setTime i (fun s => s.t + dt) (fun s => s.n) (by rw [← R.view i]; rfl) (by rw [← R.view i]; rfl)

theorem Rep.addStep {h : Heap K} {inc : ℕ → ℕ} {v : Fin 3 → Sol K} {vi : ℕ → Arr K} (R : Rep b h (obj r) r.sol r.Q inc m NC v vi) (i : Fin 3) :
    Rep b (h.addStep (obj r i)) (obj r) r.sol r.Q inc m NC (Function.update v i { v i with n := (v i).n + 1 }) vi :=
  R.setTime i (fun s => s.t) (fun s => s.n + 1) (by rw [← R.view i]; rfl) (by rw [← R.view i]; rfl)

theorem Rep.accumulate (tab : Tableau K) (k : ℕ) {inc : ℕ → ℕ} {s us : Sol K} {vi : ℕ → Arr K} :
    ∀ (l : List ℕ), (∀ j ∈ l, j < m) → ∀ (w : Sol K) (h : Heap K), Rep b h (obj r) r.sol r.Q inc m NC ![s, us, w] vi →
      Rep b (l.foldl (fun h j => h.smartAxpy r.work (tab.beta k j) (inc j)) h) (obj r) r.sol r.Q inc m NC
        ![s, us, l.foldl (fun uk j => uk.smartAxpy (tab.beta k j) (vi j)) w] vi := by
  intro l
  induction l with
  | nil => intro _ w h R; exact R
  | cons j l ih =>
    intro hl w h R
    have := R.smartAxpy 2 (tab.beta k j) (R.incv j (hl j (List.mem_cons_self ..)))
    rw [upd2] at this
    exact ih (fun i hi => hl i (List.mem_cons_of_mem _ hi)) _ _ this

/-- The second half of a stage, common to both loops: limit, evaluate the residual, add to the solution. -/
theorem Rep.finish (lm : Limiter K) {inc : ℕ → ℕ} {s us w : Sol K} {vi : ℕ → Arr K} {h : Heap K}
    (R : Rep b h (obj r) r.sol r.Q inc m NC ![s, us, w] vi) (dt c : K) (k l : ℕ) :
    Agree (StageRep b r m NC us)
      (match (if k > 0 then lm.limit w else .ok w) with
        | .error e => .error e
        | .ok uk =>
          match Dg1d.residual uk with
          | .error e => .error e
          | .ok (uk, F) => .ok { work := uk, sol := s.smartAxpy c (F.smul dt), incr := Function.update vi l (F.smul dt) })
      (match (if k > 0 then h.limit lm r.work else .ok h) with
        | .error e => .error e
        | .ok h =>
          match h.residual r.Q r.work with
          | .error e => .error e
          | .ok (F, h) =>
            .ok ((h.newArr ((h.arr F).smul dt)).2.smartAxpy r.sol c (h.newArr ((h.arr F).smul dt)).1,
              Function.update inc l (h.newArr ((h.arr F).smul dt)).1)) := by
  have hlim : Agree (fun w h => Rep b h (obj r) r.sol r.Q inc m NC ![s, us, w] vi) (if k > 0 then lm.limit w else .ok w)
      (if k > 0 then h.limit lm r.work else .ok h) := by
    split_ifs
    · have := R.limit lm 2
      simp only [upd2] at this
      exact this
    · exact .ok _ _ R
  generalize (if k > 0 then lm.limit w else .ok w) = p, (if k > 0 then h.limit lm r.work else .ok h) = q at hlim
  cases hlim with
  | error e => exact .error e
  | ok w h R =>
    have hres := R.residual_agree 2
    simp only [upd2] at hres
    change Agree _ (Dg1d.residual w) (h.residual r.Q r.work) at hres
    simp only
    generalize Dg1d.residual w = p, h.residual r.Q r.work = q at hres
    cases hres with
    | error e => exact .error e
    | ok p q hp =>
      obtain ⟨uk, F⟩ := p
      obtain ⟨a, h'⟩ := q
      obtain ⟨R1, T1, V1⟩ := hp
      simp only at R1 T1 V1
      simp only [V1]
      refine .ok _ _ ?_
      have R2 := R1.newArr (F.smul dt)
      have T2 := R1.newTemp (F.smul dt)
      have V2 := newArr_arr h' (F.smul dt)
      have R3 := (R2.setInc l T2).smartAxpy 0 c V2
      rw [V2, upd0] at R3
      exact R3

theorem classicStage_agree (lm : Limiter K) (tab : Tableau K) {us : Sol K} (dt : K) (k : ℕ) (hk : k < m) (c alpha : K)
    {st : StageState K} {q : Heap K × (ℕ → ℕ)} (hq : StageRep b r m NC us st q) :
    Agree (StageRep b r m NC us) (classicStage ⟨Dg1d.residual, lm.limit⟩ tab us dt k c alpha st)
      (heapClassicStage lm tab r dt k c alpha q) := by
  have R1 := Rep.copyDataOnly hq 2 1
  rw [upd2] at R1
  have R2 := Rep.accumulate tab k (List.range k) (fun j hj => (List.mem_range.1 hj).trans hk) _ _ R1
  have R3 := R2.addTime 2 (alpha * dt)
  rw [upd2] at R3
  have := R3.finish lm dt c k k
  rw [classicStage, heapClassicStage]
  simp only [Function.update_self]
  exact this

theorem classicStages_agree (lm : Limiter K) (tab : Tableau K) {us : Sol K} (dt : K) :
    ∀ (l : List (K × K)) (k : ℕ), k + l.length ≤ m → ∀ (st : StageState K) (q : Heap K × (ℕ → ℕ)), StageRep b r m NC us st q →
      Agree (StageRep b r m NC us) (classicStages ⟨Dg1d.residual, lm.limit⟩ tab us dt k l st) (heapClassicStages lm tab r dt k l q) := by
  intro l
  induction l with
  | nil => intro k _ st q hq; exact .ok _ _ hq
  | cons ca l ih =>
    intro k hk st q hq
    rw [List.length_cons] at hk
    have := classicStage_agree lm tab dt k (by omega) ca.1 ca.2 hq
    rw [classicStages, heapClassicStages]
    generalize classicStage ⟨Dg1d.residual, lm.limit⟩ tab us dt k ca.1 ca.2 st = x, heapClassicStage lm tab r dt k ca.1 ca.2 q = y at this
    cases this with
    | error e => exact .error e
    | ok x y h1 => exact ih (k + 1) (by omega) x y h1

theorem lowStage_agree (lm : Limiter K) {us : Sol K} (hm : 0 < m) (dt : K) (k : ℕ) (beta gamma : K)
    {st : StageState K} {q : Heap K × (ℕ → ℕ)} (hq : StageRep b r m NC us st q) :
    Agree (StageRep b r m NC us) (lowStage ⟨Dg1d.residual, lm.limit⟩ us dt k beta gamma st) (heapLowStage lm r dt k beta gamma q) := by
  have R1 := Rep.copyDataOnly hq 2 1
  rw [upd2] at R1
  have R2 := R1.smartAxpy 2 beta (R1.incv 0 hm)
  rw [upd2] at R2
  have R3 := R2.addTime 2 (beta * dt)
  rw [upd2] at R3
  have := R3.finish lm dt gamma k 0
  rw [lowStage, heapLowStage]
  exact this

theorem lowStages_agree (lm : Limiter K) {us : Sol K} (hm : 0 < m) (dt : K) :
    ∀ (l : List (K × K)) (k : ℕ) (st : StageState K) (q : Heap K × (ℕ → ℕ)), StageRep b r m NC us st q →
      Agree (StageRep b r m NC us) (lowStages ⟨Dg1d.residual, lm.limit⟩ us dt k l st) (heapLowStages lm r dt k l q) := by
  intro l
  induction l with
  | nil => intro k st q hq; exact .ok _ _ hq
  | cons ca l ih =>
    intro k st q hq
    have := lowStage_agree lm hm dt k ca.1 ca.2 hq
    rw [lowStages, heapLowStages]
    generalize lowStage ⟨Dg1d.residual, lm.limit⟩ us dt k ca.1 ca.2 st = x, heapLowStage lm r dt k ca.1 ca.2 q = y at this
    cases this with
    | error e => exact .error e
    | ok x y h1 => exact ih (k + 1) x y h1

theorem inner_agree (sch : Scheme K) (lm : Limiter K) (us : Sol K) (dt : K) (st : StageState K) (q : Heap K × (ℕ → ℕ))
    (hq : StageRep b r sch.increments NC us st q) :
    Agree (StageRep b r sch.increments NC us) (sch.inner ⟨Dg1d.residual, lm.limit⟩ us dt st) (sch.heapInner lm r dt q) := by
  cases sch with
  | low => exact lowStages_agree lm Nat.one_pos dt _ 0 st q hq
  | classic tab =>
    refine classicStages_agree lm tab dt _ 0 ?_ st q hq
    rw [Nat.zero_add, List.length_zip]
    exact min_le_left _ _

/-- The loop states agree; as long as no exception was raised the store stands for the solutions and increments. -/
structure LoopRep (b : Heap K) (o Q : ℕ) (m NC : ℕ) (st : LoopState K) (hs : HeapLoop K) : Prop where
  status : hs.status = st.status
  nout : hs.nout = st.nout
  tout : hs.tout = st.tout
  touts : hs.touts = st.touts
  log : hs.log = st.log
  sol : hs.refs.sol = o
  Q : hs.refs.Q = Q
  rep : (∀ e, st.status ≠ .failed e) → Rep b hs.heap (obj hs.refs) hs.refs.sol hs.refs.Q hs.incr m NC ![st.sol, st.us, st.work] st.incr

theorem outputPhase_agree {o Q : ℕ} {st : LoopState K} {hs : HeapLoop K} (L : LoopRep b o Q m NC st hs) (hst : st.status = .running)
    (dt : K) (output done : Bool) :
    LoopRep b o Q m NC (outputPhase st st.sol dt output done) (heapOutputPhase hs dt output done) := by
  have R := L.rep (by rw [hst]; simp)
  have hv : hs.heap.view hs.refs.sol = st.sol := R.view 0
  have h1 := L.status
  have h2 := L.nout
  have h3 := L.tout
  have h4 := L.touts
  have h5 := L.log
  rw [outputPhase, heapOutputPhase, hv]
  cases output with
  | false => exact L
  | true =>
    cases done with
    | true => exact ⟨rfl, h2, h3, h4, by simp [h5, h2], L.sol, L.Q, fun _ => R⟩
    | false =>
      simp only [h4]
      cases st.touts with
      | nil => exact ⟨rfl, by simp [h2], h3, rfl, by simp [h5, h2], L.sol, L.Q, fun h => absurd rfl (h _)⟩
      | cons t l => exact ⟨h1, by simp [h2], rfl, rfl, by simp [h5, h2], L.sol, L.Q, fun _ => R⟩

theorem loopBody_agree (sch : Scheme K) (lm : Limiter K) (deck : RkDeck K) {o Q : ℕ} {st : LoopState K} {hs : HeapLoop K}
    (L : LoopRep b o Q sch.increments NC st hs) :
    LoopRep b o Q sch.increments NC (loopBody ⟨Dg1d.residual, lm.limit⟩ deck (sch.inner ⟨Dg1d.residual, lm.limit⟩) st)
      (heapLoopBody lm deck sch hs) := by
  obtain ⟨heap, refs, inc, nout, tout, touts, status, log⟩ := hs
  obtain ⟨sol, us, work, incv, nout', tout', touts', status', log'⟩ := st
  obtain rfl : status = status' := L.status
  obtain rfl : nout = nout' := L.nout
  obtain rfl : tout = tout' := L.tout
  obtain rfl : touts = touts' := L.touts
  obtain rfl : log = log' := L.log
  rw [loopBody, heapLoopBody]
  cases status with
  | done => exact L
  | failed e => exact L
  | running =>
    have R := L.rep (by simp)
    have hv : heap.view refs.sol = sol := R.view 0
    simp only [hv]
    cases getNextTimeStep sol tout deck.cfl deck.finaltime with
    | error e => exact ⟨rfl, rfl, rfl, rfl, rfl, L.sol, L.Q, fun h => absurd rfl (h e)⟩
    | ok p =>
      obtain ⟨dt, output, done⟩ := p
      simp only
      have R1 := R.copyDataOnly 1 0
      rw [upd1] at R1
      have I := inner_agree (r := refs) (b := b) (NC := NC) sch lm (us.copyDataOnly sol) dt
        { work := work, sol := sol, incr := incv } (heap.copyDataOnly refs.us refs.sol, inc) R1
      generalize sch.inner ⟨Dg1d.residual, lm.limit⟩ (us.copyDataOnly sol) dt
          { work := work, sol := sol, incr := incv } = x,
        sch.heapInner lm refs dt (heap.copyDataOnly refs.us refs.sol, inc) = y at I
      cases I with
      | error e => exact ⟨rfl, rfl, rfl, rfl, rfl, L.sol, L.Q, fun h => absurd rfl (h e)⟩
      | ok ss y R2 =>
        obtain ⟨h2, incr⟩ := y
        simp only
        have R3 := ((Rep.addTime R2 0 dt).addStep 0).applyBc 0
        simp only [upd0] at R3
        have M := R3.limit lm 0
        simp only [upd0] at M
        change Agree _ (lm.limit (Sol.applyBc { ss.sol with t := ss.sol.t + dt, n := ss.sol.n + 1 }))
          (Heap.limit lm (((h2.addTime refs.sol dt).addStep refs.sol).applyBc refs.sol) refs.sol) at M
        generalize lm.limit (Sol.applyBc { ss.sol with t := ss.sol.t + dt, n := ss.sol.n + 1 }) = x,
          Heap.limit lm (((h2.addTime refs.sol dt).addStep refs.sol).applyBc refs.sol) refs.sol = y at M
        cases M with
        | error e => exact ⟨rfl, rfl, rfl, rfl, rfl, L.sol, L.Q, fun h => absurd rfl (h e)⟩
        | ok sol' h4 R4 =>
          have L' : LoopRep b o Q sch.increments NC
              { sol := sol', us := us.copyDataOnly sol, work := ss.work, incr := ss.incr, nout := nout, tout := tout, touts := touts, status := .running, log := log }
              { heap := h4, refs := refs, incr := incr, nout := nout, tout := tout, touts := touts, status := .running, log := log } :=
            ⟨rfl, rfl, rfl, rfl, rfl, L.sol, L.Q, fun _ => R4⟩
          have := outputPhase_agree L' rfl dt output done
          exact this

/-- The store after the set-up: zeros and two deep copies. -/
theorem setup_rep {h : Heap K} {o Q : ℕ} (A : Spec.StandsAlone h o Q) (n : ℕ) :
    let g := h.newZeros n (h.arr (h.obj o).u).rows (h.arr (h.obj o).u).cols
    let us := g.copy o
    let uk := us.2.copy o
    Rep h uk.2 (HeapRep.obj ⟨o, us.1, uk.1, Q⟩) o Q (fun i => h.next + i) n (h.view o).u.cols ![h.view o, h.view o, h.view o]
      (fun _ => Arr.zeros (h.view o).u.rows (h.view o).u.cols) := by
  have a1 := A.lt
  have a2 := A.ult
  have a3 := A.tlt
  have a4 := A.flt
  have a5 := A.qlt
  intro g us uk
  have ho : uk.2.obj o = h.obj o := by
    simp only [uk, us, g, Heap.copy, Heap.newZeros]
    rw [Function.update_of_ne (by omega), Function.update_of_ne (by omega)]
  have hob : ∀ a < h.next, uk.2.obj a = h.obj a := fun a ha => by
    simp only [uk, us, g, Heap.copy, Heap.newZeros]
    rw [Function.update_of_ne (by omega), Function.update_of_ne (by omega)]
  have hus : uk.2.obj us.1 = { h.obj o with u := h.next + n, ufTmp := h.next + n + 1, flags := h.next + n + 2, bound := us.1 } := by
    simp only [uk, us, g, Heap.copy, Heap.newZeros]
    rw [Function.update_of_ne (by omega), Function.update_self, A.bound, if_pos rfl]
  have huk : uk.2.obj uk.1 = { h.obj o with u := h.next + n + 4, ufTmp := h.next + n + 5, flags := h.next + n + 6, bound := uk.1 } := by
    simp only [uk, us, g, Heap.copy, Heap.newZeros]
    rw [Function.update_self, Function.update_of_ne (by omega), A.bound, if_pos rfl]
  have e1 : us.1 = h.next + n + 3 := rfl
  have e2 : uk.1 = h.next + n + 7 := rfl
  have hold : ∀ a < h.next, uk.2.arr a = h.arr a := fun a ha => by
    simp only [uk, us, g, Heap.copy, Heap.newZeros]
    rw [Function.update_of_ne (by omega), Function.update_of_ne (by omega), Function.update_of_ne (by omega),
      Function.update_of_ne (by omega), if_neg (by omega)]
  have hg : ∀ a < h.next, g.arr a = h.arr a := fun a ha => if_neg (by omega)
  have hz : ∀ j < n, uk.2.arr (h.next + j) = Arr.zeros (h.arr (h.obj o).u).rows (h.arr (h.obj o).u).cols := fun j hj => by
    simp only [uk, us, g, Heap.copy, Heap.newZeros]
    rw [Function.update_of_ne (by omega), Function.update_of_ne (by omega), Function.update_of_ne (by omega),
      Function.update_of_ne (by omega), if_pos (by omega)]
  have hu1 : uk.2.arr (h.next + n) = h.arr (h.obj o).u := by
    simp only [uk, us, g, Heap.copy, Heap.newZeros]
    rw [Function.update_of_ne (by omega), Function.update_of_ne (by omega), Function.update_of_ne (by omega),
      Function.update_self, if_neg (by omega)]
  have ht1 : uk.2.arr (h.next + n + 1) = h.arr (h.obj o).ufTmp := by
    simp only [uk, us, g, Heap.copy, Heap.newZeros]
    rw [Function.update_of_ne (by omega), Function.update_of_ne (by omega), Function.update_self, if_neg (by omega)]
  have hso : us.2.obj o = h.obj o := by
    simp only [us, g, Heap.copy, Heap.newZeros]
    rw [Function.update_of_ne (by omega)]
  have hsa : ∀ a < h.next, us.2.arr a = h.arr a := fun a ha => by
    simp only [us, g, Heap.copy, Heap.newZeros]
    rw [Function.update_of_ne (by omega), Function.update_of_ne (by omega), if_neg (by omega)]
  have hsi : ∀ a < h.next, us.2.ints a = h.ints a := fun a ha => by
    simp only [us, g, Heap.copy, Heap.newZeros]
    rw [Function.update_of_ne (by omega)]
  have hu2 : uk.2.arr (h.next + n + 4) = h.arr (h.obj o).u := by
    rw [← hsa _ a2, ← hso]
    exact (Function.update_of_ne (show us.2.next ≠ us.2.next + 1 by omega) _ _).trans (Function.update_self _ _ _)
  have ht2 : uk.2.arr (h.next + n + 5) = h.arr (h.obj o).ufTmp := by
    rw [← hsa _ a3, ← hso]
    exact Function.update_self _ _ _
  have hi0 : ∀ a < h.next, uk.2.ints a = h.ints a := fun a ha => by
    rw [← hsi a ha]
    exact Function.update_of_ne (show a ≠ h.next + n + 6 by omega) _ _
  have hi1 : uk.2.ints (h.next + n + 2) = h.ints (h.obj o).flags :=
    (Function.update_of_ne (show h.next + n + 2 ≠ h.next + n + 6 by omega) _ _).trans (Function.update_self _ _ _)
  have hi2 : uk.2.ints (h.next + n + 6) = h.ints (h.obj o).flags := by
    rw [← hsi _ a4, ← hso]
    exact Function.update_self _ _ _
  have hn : uk.2.next = h.next + n + 8 := rfl
  clear_value uk us g
  have key : ∀ (P : Fin 3 → Prop), P 0 → P 1 → P 2 → ∀ i, P i := fun P h0 h1 h2 i => by fin_cases i <;> assumption
  exact {
    inj := by
      intro i j hij
      fin_cases i <;> fin_cases j <;> simp [HeapRep.obj] at hij ⊢ <;> omega
    objlt := by refine key _ ?_ ?_ ?_ <;> simp [HeapRep.obj] <;> omega
    bound := by refine key _ ?_ ?_ ?_ <;> simp [HeapRep.obj, ho, hus, huk, A.bound]
    ult := by refine key _ ?_ ?_ ?_ <;> simp [HeapRep.obj, ho, hus, huk] <;> omega
    tlt := by refine key _ ?_ ?_ ?_ <;> simp [HeapRep.obj, ho, hus, huk] <;> omega
    flt := by refine key _ ?_ ?_ ?_ <;> simp [HeapRep.obj, ho, hus, huk] <;> omega
    qlt := by omega
    inclt := by intro j hj; omega
    uu := by refine key _ ?_ ?_ ?_ <;> refine key _ ?_ ?_ ?_ <;> simp [HeapRep.obj, ho, hus, huk] <;> omega
    ut := by refine key _ ?_ ?_ ?_ <;> refine key _ ?_ ?_ ?_ <;> simp [HeapRep.obj, ho, hus, huk, A.ut] <;> omega
    uq := by refine key _ ?_ ?_ ?_ <;> simp [HeapRep.obj, ho, hus, huk, A.uq] <;> omega
    tq := by refine key _ ?_ ?_ ?_ <;> simp [HeapRep.obj, ho, hus, huk, A.tq] <;> omega
    tt := by refine key _ ?_ ?_ ?_ <;> refine key _ ?_ ?_ ?_ <;> simp [HeapRep.obj, ho, hus, huk] <;> omega
    ff := by refine key _ ?_ ?_ ?_ <;> refine key _ ?_ ?_ ?_ <;> simp [HeapRep.obj, ho, hus, huk] <;> omega
    incu := by intro j hj; refine key _ ?_ ?_ ?_ <;> simp [HeapRep.obj, ho, hus, huk] <;> omega
    inct := by intro j hj; refine key _ ?_ ?_ ?_ <;> simp [HeapRep.obj, ho, hus, huk] <;> omega
    incq := by intro j hj; omega
    incle := by intro j hj; simp
    view := by
      refine key _ ?_ ?_ ?_
      · exact view_congr ho (hold _ a2) (hi0 _ a4)
      · change uk.2.view us.1 = h.view o
        rw [view_def, hus]; simp only [hu1, hi1]; rfl
      · change uk.2.view uk.1 = h.view o
        rw [view_def, huk]; simp only [hu2, hi2]; rfl
    incv := by intro j hj; exact hz j hj
    tmp := by
      have ht : TmpOk (h.arr (h.obj o).ufTmp) (h.view o).u.cols (h.view o).NF := ⟨A.tcols, A.tzero0, A.tzero1⟩
      refine key _ ?_ ?_ ?_
      · change TmpOk (uk.2.arr (uk.2.obj o).ufTmp) _ _
        rw [ho, hold _ a3]; exact ht
      · change TmpOk (uk.2.arr (uk.2.obj us.1).ufTmp) _ _
        rw [hus, ht1]; exact ht
      · change TmpOk (uk.2.arr (uk.2.obj uk.1).ufTmp) _ _
        rw [huk, ht2]; exact ht
    cols := by refine key _ ?_ ?_ ?_ <;> rfl
    frame := ⟨by omega, fun a ha _ _ _ => hold a ha, fun a ha _ => hi0 a ha, fun a ha _ => hob a ha⟩
    ownu := by refine key _ ?_ ?_ ?_ <;> simp [HeapRep.obj, ho, hus, huk] <;> omega
    ownt := by refine key _ ?_ ?_ ?_ <;> simp [HeapRep.obj, ho, hus, huk] <;> omega
    ownf := by refine key _ ?_ ?_ ?_ <;> simp [HeapRep.obj, ho, hus, huk] <;> omega
    owno := by refine key _ ?_ ?_ ?_ <;> (simp [HeapRep.obj]; try omega) }

theorem init_agree (sch : Scheme K) (deck : RkDeck K) {h : Heap K} {o Q : ℕ} (A : Spec.StandsAlone h o Q) :
    LoopRep h o Q sch.increments (h.view o).u.cols (initLoop deck (h.view o)) (heapInit deck sch h o Q) := by
  have R := setup_rep A sch.increments
  simp only at R
  rw [initLoop, heapInit]
  simp only
  set g := h.newZeros sch.increments (h.arr (h.obj o).u).rows (h.arr (h.obj o).u).cols with hg
  set us := g.copy o with hus
  set uk := us.2.copy o with huk
  have hv : uk.2.view o = h.view o := R.view 0
  have ht : (uk.2.obj o).attrs.t = (h.view o).t := by rw [← hv]; rfl
  rw [hv, ht]
  generalize ((List.range deck.nout).map (linspace (h.view o).t deck.finaltime deck.nout).val).tail = T
  cases T with
  | nil => exact ⟨rfl, rfl, rfl, rfl, rfl, rfl, rfl, fun h => absurd rfl (h _)⟩
  | cons t l => exact ⟨rfl, rfl, rfl, rfl, rfl, rfl, rfl, fun _ => R⟩

theorem run_agree (sch : Scheme K) (lm : Limiter K) (deck : RkDeck K) {h : Heap K} {o Q : ℕ} (A : Spec.StandsAlone h o Q) (k : ℕ) :
    LoopRep h o Q sch.increments (h.view o).u.cols (sch.run ⟨Dg1d.residual, lm.limit⟩ deck (h.view o) k)
      (sch.heapRun lm deck h o Q k) := by
  rw [Scheme.run, runLoop, Scheme.heapRun]
  induction k with
  | zero => exact init_agree sch deck A
  | succ k ih =>
    rw [Function.iterate_succ_apply', Function.iterate_succ_apply']
    exact loopBody_agree sch lm deck ih

theorem rep_separate {h : Heap K} {o Q : ℕ} {inc : ℕ → ℕ} {v : Fin 3 → Sol K} {vi : ℕ → Arr K} (R : Rep b h (obj r) o Q inc m NC v vi) :
    Spec.Separate h [r.sol, r.us, r.work] ((List.range m).map inc) Q := by
  have d01 : (0 : Fin 3) ≠ 1 := by decide
  have d02 : (0 : Fin 3) ≠ 2 := by decide
  have d12 : (1 : Fin 3) ≠ 2 := by decide
  have u0 : ∀ P : ℕ → Prop, (∀ i, P (obj r i)) → P r.sol ∧ P r.us ∧ P r.work := fun P hP => ⟨hP 0, hP 1, hP 2⟩
  refine ⟨?_, ?_, ?_, ?_⟩
  · have h1 : r.sol ≠ r.us := fun e => d01 (R.inj e)
    have h2 : r.sol ≠ r.work := fun e => d02 (R.inj e)
    have h3 : r.us ≠ r.work := fun e => d12 (R.inj e)
    simp [h1, h2, h3]
  · have a : (h.obj r.sol).u ≠ (h.obj r.us).u := R.uu 0 1 d01
    have b : (h.obj r.sol).u ≠ (h.obj r.work).u := R.uu 0 2 d02
    have c : (h.obj r.us).u ≠ (h.obj r.work).u := R.uu 1 2 d12
    have a' : (h.obj r.sol).ufTmp ≠ (h.obj r.us).ufTmp := R.tt 0 1 d01
    have b' : (h.obj r.sol).ufTmp ≠ (h.obj r.work).ufTmp := R.tt 0 2 d02
    have c' : (h.obj r.us).ufTmp ≠ (h.obj r.work).ufTmp := R.tt 1 2 d12
    have x0 := u0 (fun a => (h.obj r.sol).u ≠ (h.obj a).ufTmp) (R.ut 0)
    have x1 := u0 (fun a => (h.obj r.us).u ≠ (h.obj a).ufTmp) (R.ut 1)
    have x2 := u0 (fun a => (h.obj r.work).u ≠ (h.obj a).ufTmp) (R.ut 2)
    have q := u0 (fun a => (h.obj a).u ≠ Q) R.uq
    have t := u0 (fun a => (h.obj a).ufTmp ≠ Q) R.tq
    simp [a, b, c, a', b', c', x0, x1, x2, q, t]
  · have a : (h.obj r.sol).flags ≠ (h.obj r.us).flags := R.ff 0 1 d01
    have b : (h.obj r.sol).flags ≠ (h.obj r.work).flags := R.ff 0 2 d02
    have c : (h.obj r.us).flags ≠ (h.obj r.work).flags := R.ff 1 2 d12
    simp [a, b, c]
  · intro x hx
    rw [List.mem_map] at hx
    obtain ⟨j, hj, rfl⟩ := hx
    rw [List.mem_range] at hj
    have u := u0 (fun a => inc j ≠ (h.obj a).u) fun i => (R.incu j hj i).symm
    have t := u0 (fun a => inc j ≠ (h.obj a).ufTmp) fun i => (R.inct j hj i).symm
    have q := (R.incq j hj).symm
    simp [u, t, q]

/-- One object alone. -/
theorem single_rep {h : Heap K} {o Q : ℕ} (A : Spec.StandsAlone h o Q) :
    Rep h h (fun _ : Unit => o) o Q (fun _ => 0) 0 (h.view o).u.cols (fun _ => h.view o) (fun _ => Arr.zeros 0 0) where
  inj := fun _ _ _ => rfl
  objlt _ := A.lt
  bound _ := A.bound
  ult _ := A.ult
  tlt _ := A.tlt
  flt _ := A.flt
  qlt := A.qlt
  inclt j hj := absurd hj (Nat.not_lt_zero j)
  uu _ _ hn := absurd rfl hn
  ut _ _ := A.ut
  uq _ := A.uq
  tq _ := A.tq
  tt _ _ hn := absurd rfl hn
  ff _ _ hn := absurd rfl hn
  incu j hj := absurd hj (Nat.not_lt_zero j)
  inct j hj := absurd hj (Nat.not_lt_zero j)
  incq j hj := absurd hj (Nat.not_lt_zero j)
  incle j hj := absurd hj (Nat.not_lt_zero j)
  view _ := rfl
  incv j hj := absurd hj (Nat.not_lt_zero j)
  tmp _ := ⟨A.tcols, A.tzero0, A.tzero1⟩
  cols _ := rfl
  frame := ⟨le_rfl, fun _ _ _ _ _ => rfl, fun _ _ _ => rfl, fun _ _ _ => rfl⟩
  ownu _ := .inr rfl
  ownt _ := .inr rfl
  ownf _ := .inr rfl
  owno _ := .inr rfl

theorem single_alone {b h : Heap K} {o Q NC : ℕ} {inc : ℕ → ℕ} {m : ℕ} {v : Unit → Sol K} {vi : ℕ → Arr K}
    (R : Rep b h (fun _ : Unit => o) o Q inc m NC v vi) : Spec.StandsAlone h o Q where
  lt := R.objlt ()
  ult := R.ult ()
  tlt := R.tlt ()
  flt := R.flt ()
  qlt := R.qlt
  bound := R.bound ()
  ut := R.ut () ()
  uq := R.uq ()
  tq := R.tq ()
  tcols := by rw [R.u (), R.cols ()]; exact (R.tmp ()).1
  tzero0 := by rw [R.u (), R.cols (), R.NF ()]; exact (R.tmp ()).2.1
  tzero1 := by rw [R.u (), R.cols (), R.NF ()]; exact (R.tmp ()).2.2

theorem ofSol_view (s : Sol K) : (Heap.ofSol s).view 3 = s := by
  rw [view_def]
  simp only [Heap.ofSol]
  obtain ⟨basis, kw, t, n, NE, NF, x, xc, dx, u, minv, bcl, bcr, en, sn⟩ := s
  cases sn <;> rfl

theorem ofSol_alone (s : Sol K) : Spec.StandsAlone (Heap.ofSol s) 3 2 where
  lt := show (3 : ℕ) < 4 by decide
  ult := show (0 : ℕ) < 4 by decide
  tlt := show (1 : ℕ) < 4 by decide
  flt := show (2 : ℕ) < 4 by decide
  qlt := show (2 : ℕ) < 4 by decide
  bound := rfl
  ut := show (0 : ℕ) ≠ 1 by decide
  uq := show (0 : ℕ) ≠ 2 by decide
  tq := show (1 : ℕ) ≠ 2 by decide
  tcols := rfl
  tzero0 _ _ := rfl
  tzero1 _ _ := rfl

theorem alone_newArr {h : Heap K} {o Q : ℕ} (A : Spec.StandsAlone h o Q) (B : Arr K) :
    Spec.StandsAlone (h.newArr B).2 o (h.newArr B).1 where
  lt := A.lt.trans (Nat.lt_succ_self _)
  ult := A.ult.trans (Nat.lt_succ_self _)
  tlt := A.tlt.trans (Nat.lt_succ_self _)
  flt := A.flt.trans (Nat.lt_succ_self _)
  qlt := Nat.lt_succ_self _
  bound := A.bound
  ut := A.ut
  uq := A.ult.ne
  tq := A.tlt.ne
  tcols := by rw [newArr_obj, newArr_old h B A.tlt, newArr_old h B A.ult]; exact A.tcols
  tzero0 := by rw [newArr_obj, newArr_old h B A.tlt, newArr_old h B A.ult]; exact A.tzero0
  tzero1 := by rw [newArr_obj, newArr_old h B A.tlt, newArr_old h B A.ult]; exact A.tzero1

theorem newArr_view {h : Heap K} {o : ℕ} (hu : (h.obj o).u < h.next) (B : Arr K) : (h.newArr B).2.view o = h.view o :=
  view_congr rfl (newArr_old h B hu) rfl

end loops

theorem start_agree (lib : GaussLib ℝ) (ft : FloatText ℝ) (junk : ℕ → ℝ) (d : Deck ℝ) :
    Agree (fun p q => q.1.view 3 = p.1 ∧ q.2.2 = p.2 ∧ Spec.StandsAlone q.1 3 q.2.1) (start lib ft junk d) (heapStart lib ft junk d) := by
  rw [start, heapStart]
  cases construct lib ft junk d.ic d.system d.order d.riemann d.enhance d.sensorThresholds with
  | error e => exact .error e
  | ok s =>
    simp only [dgInit]
    split_ifs
    · exact .error _
    · simp only
      have R1 := (single_rep (ofSol_alone s.sol)).applyBc ()
      have V1 := R1.view ()
      rw [Function.update_self, ofSol_view] at V1
      have A1 := single_alone R1
      set h1 := (Heap.ofSol s.sol).applyBc 3 with hh1
      have A2 := alone_newArr A1 (Arr.zeros (h1.arr (h1.obj 3).u).rows ((h1.obj 3).attrs.NE * (h1.obj 3).attrs.NF))
      have V2 := newArr_view A1.ult (Arr.zeros (h1.arr (h1.obj 3).u).rows ((h1.obj 3).attrs.NE * (h1.obj 3).attrs.NF))
      rw [V1] at V2
      set g := h1.newArr (Arr.zeros (h1.arr (h1.obj 3).u).rows ((h1.obj 3).attrs.NE * (h1.obj 3).attrs.NF)) with hg
      rw [V2]
      cases Limiter.init (String.ofList d.limiting) s.sol.applyBc with
      | error e => exact .error e
      | ok lm =>
        simp only
        have M := (single_rep A2).limit lm ()
        simp only [V2] at M
        generalize lm.limit s.sol.applyBc = x, g.2.limit lm 3 = y at M
        cases M with
        | error e => exact .error e
        | ok s' h' R =>
          refine .ok _ _ ⟨?_, rfl, single_alone R⟩
          have := R.view ()
          rw [Function.update_self] at this
          exact this

end HeapRep
end Dg1d
