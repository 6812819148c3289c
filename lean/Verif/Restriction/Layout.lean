import Verif.Restriction.PointsSpec

/-!
# Layouts reported by element restrictions, and comparison of at-points restrictions

Backends, operators and users that address L- and E-vectors directly ask the restriction for its layout. The layout is
three integers, and the data of node `i`, component `j`, element `k` is documented to be at `i*l[0] + j*l[1] + k*l[2]`.
-/

namespace Verif.Restriction

/-- The three entries of a layout or of an array of strides. -/
abbrev Lay := Int × Int × Int

/-- `backends/ref/ceed-ref-restriction.c` 745 `layout[3] = {1, elem_size, elem_size * num_comp}`. -/
def refLayout (r : Rstr) : Lay := (1, r.elemSize, (r.elemSize : Int) * r.numComp)

/-- `interface/ceed-elemrestriction.c` 221-226 `CeedElemRestrictionHasBackendStrides`; `strides` is `none` for a null
pointer. -/
def hasBackendStrides (r : Rstr) : Res Bool :=
  match r.strides with
  | none => .err .minor
  | some s => .ok (decide (s.1 = 0) && decide (s.2.1 = 0) && decide (s.2.2 = 0))

/-- `interface/ceed-elemrestriction.c` 205-209 `CeedElemRestrictionGetStrides`. -/
def getStrides (r : Rstr) : Res Lay :=
  match r.strides with
  | none => .err .minor
  | some s => .ok s

/-- The field `e_layout`, set by every creation (`ceed-ref-restriction.c` 742-747 through
`CeedElemRestrictionSetELayout`, `ceed-elemrestriction.c` 425-428). -/
def eLayoutField (r : Rstr) : Lay := refLayout r

/-- The field `l_layout`, zero from `calloc` unless `ceed-ref-restriction.c` 748-753 sets it through
`CeedElemRestrictionSetLLayout` (`ceed-elemrestriction.c` 384-393): strided restrictions with backend strides only. -/
def lLayoutField (r : Rstr) : Lay :=
  if r.rtype = .strided then
    match hasBackendStrides r with
    | .ok true => refLayout r
    | _ => (0, 0, 0)
  else (0, 0, 0)

/-- `interface/ceed-elemrestriction.c` 407-411 `CeedElemRestrictionGetELayout`. -/
def getELayout (r : Rstr) : Res Lay := do
  Res.check ((eLayoutField r).1 ≠ 0) .minor
  .ok (eLayoutField r)

/-- `interface/ceed-elemrestriction.c` 356-371 `CeedElemRestrictionGetLLayout`. -/
def getLLayout (r : Rstr) : Res Lay := do
  Res.check (r.rtype = .strided) .minor
  let b ← hasBackendStrides r
  if b then do
    Res.check ((lLayoutField r).1 ≠ 0) .minor
    .ok (lLayoutField r)
  else getStrides r

/-- `interface/ceed-elemrestriction.c` 1513-1522 `CeedElemRestrictionGetNumPoints`. -/
def getNumPoints (r : Rstr) : Res Int := do
  Res.check (r.rtype = .points) .incompatible
  .ok r.numPoints

/-- `interface/ceed-elemrestriction.c` 165-193 `CeedElemRestrictionAtPointsAreCompatible`. The read access to the two
arrays of offsets (`GetOffsets` / `RestoreOffsets`) is taken and given back inside the call and is not modelled here. -/
def atPointsAreCompatible (a b : Rstr) : Res Bool := do
  Res.check (a.rtype = .points) .unsupported
  Res.check (b.rtype = .points) .unsupported
  let na ← getNumPoints a
  let nb ← getNumPoints b
  let c := true
  let c := if a.numElem ≠ b.numElem then false else c
  let c := if na ≠ nb then false else c
  if c then
    loop (a.numElem + 1 + na).toNat (fun i c => do
      let x ← a.offsets.rd i
      let y ← b.offsets.rd i
      Res.ok (c && decide (x = y))) c
  else .ok c

/-- `interface/ceed-elemrestriction.c` 480-492 `CeedElemRestrictionSetAtPointsEVectorSize`. -/
def setAtPointsEVectorSize (r : Rstr) (eSize : Int) : Res Rstr := do
  Res.check (r.rtype = .points) .incompatible
  Res.check ((r.eSize : Int) ≤ eSize) .incompatible
  .ok { r with eSize := eSize.toNat }

/-- `interface/ceed-elemrestriction.c` 1269-1280 `CeedElemRestrictionCreateVector`: lengths of the L-vector and of the
E-vector created (vectors are zeroed when their arrays are first allocated). -/
def createVector (r : Rstr) : Int × Int := (r.lSize, r.eSize)

/-! ## Specification -/

/-- The documented position of node `i`, component `j`, element `k`. -/
def layoutPos (l : Lay) (i j k : Nat) : Nat := (i * l.1 + j * l.2.1 + k * l.2.2 : Int).toNat

/-- The array of an at-points restriction arranged as documented (`ceed-elemrestriction.c` 836-845): the slices follow
the boundaries, without gaps and up to the end. -/
def Arranged (ne np : Nat) (offsets : Buf Int) : Prop := offsets.val 0 = ne + 1 ∧ offsets.val ne = ne + 1 + np

/-- The two arrays list the same points for every element. -/
def SamePoints (ne : Nat) (a b : Buf Int) : Prop :=
  ∀ e < ne, ptsIn a e = ptsIn b e ∧ ∀ i < ptsIn a e, ptAt a e i = ptAt b e i

end Verif.Restriction
