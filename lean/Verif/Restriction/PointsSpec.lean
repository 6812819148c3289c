import Verif.Restriction.Spec

/-!
# Specification of at-points restrictions

The user's array starts with the `ne + 1` slice boundaries; slice `e` lists the points of element `e`.
-/

namespace Verif.Restriction
open Finset

/-- Number of points of element `e`. -/
def ptsIn (offsets : Buf Int) (e : Nat) : Nat := (offsets.val (e + 1) - offsets.val e).toNat

/-- `i`-th point of element `e`. -/
def ptAt (offsets : Buf Int) (e i : Nat) : Nat := (offsets.val ((offsets.val e).toNat + i)).toNat

/-- Number of points of the elements before `e`. -/
def ptsBefore (offsets : Buf Int) (e : Nat) : Nat := ∑ c ∈ range e, ptsIn offsets c

/-- What the documentation asks of the array: `ne + 1 + np` entries, increasing slice boundaries inside the array,
point numbers designating entries of the L-vector. -/
structure PointsOK (ne np nc : Nat) (lSize : Int) (offsets : Buf Int) : Prop where
  pos : 0 < ne
  len : ne + 1 + np ≤ offsets.len
  first : 0 ≤ offsets.val 0
  mono : ∀ e < ne, offsets.val e ≤ offsets.val (e + 1)
  last : offsets.val ne ≤ ne + 1 + np
  idx : ∀ e < ne, ∀ i < ptsIn offsets e, 0 ≤ offsets.val ((offsets.val e).toNat + i) ∧
    (offsets.val ((offsets.val e).toNat + i) + 1) * nc ≤ lSize

end Verif.Restriction
