import Verif.Model.Heap

/-! # Separation of the objects on the store, for property C91 -/

namespace Dg1d.Spec
variable {K : Type*}

/-- The object at `o` stands alone: it and its arrays exist, its methods are its own, its two float arrays are different
from one another and from the array `Q` of the DG solver, and its preallocated `uf_tmp` is as
wide as `u` and zero in the entries `[0, :N_F]` and `[1, -N_F:]`. -/
structure StandsAlone [Zero K] (h : Heap K) (o Q : ℕ) : Prop where
  lt : o < h.next
  ult : (h.obj o).u < h.next
  tlt : (h.obj o).ufTmp < h.next
  flt : (h.obj o).flags < h.next
  qlt : Q < h.next
  bound : (h.obj o).bound = o
  ut : (h.obj o).u ≠ (h.obj o).ufTmp
  uq : (h.obj o).u ≠ Q
  tq : (h.obj o).ufTmp ≠ Q
  tcols : (h.arr (h.obj o).ufTmp).cols = (h.arr (h.obj o).u).cols
  tzero0 : ∀ c < pyIdx (h.arr (h.obj o).u).cols (h.obj o).attrs.NF, (h.arr (h.obj o).ufTmp).val 0 c = 0
  tzero1 : ∀ c, pyIdx (h.arr (h.obj o).u).cols (-((h.obj o).attrs.NF : ℤ)) ≤ c → (h.arr (h.obj o).ufTmp).val 1 c = 0

/-- Everything that was on the store `b`, except the solution at `o`, its arrays and `Q`, is as it was. -/
structure Frame (b h : Heap K) (o Q : ℕ) : Prop where
  le : b.next ≤ h.next
  arr : ∀ a < b.next, a ≠ (b.obj o).u → a ≠ (b.obj o).ufTmp → a ≠ Q → h.arr a = b.arr a
  ints : ∀ a < b.next, a ≠ (b.obj o).flags → h.ints a = b.ints a
  obj : ∀ a < b.next, a ≠ o → h.obj a = b.obj a

/-- No two of the objects share an array, nor does one share an array with the increments. -/
structure Separate (h : Heap K) (objs : List ℕ) (incr : List ℕ) (Q : ℕ) : Prop where
  distinct : objs.Nodup
  arrays : (objs.map (fun o => (h.obj o).u) ++ objs.map (fun o => (h.obj o).ufTmp) ++ [Q]).Nodup
  flags : (objs.map fun o => (h.obj o).flags).Nodup
  increments : ∀ a ∈ incr, a ∉ objs.map (fun o => (h.obj o).u) ++ objs.map (fun o => (h.obj o).ufTmp) ++ [Q]

end Dg1d.Spec
