import Verif.Gpu.Rstr

/-!
# Specification of element restrictions on a device

The user data `RData` of a restriction are those of the host backends; the E-vector has another layout, and
`CEED_STRIDES_BACKEND` means this layout.
-/

namespace Verif.Gpu
open Finset Verif.Restriction

variable {α : Type} [CommRing α]

/-- Position of (element, component, node) in the E-vector: layout `{1, num_elem * elem_size, elem_size}`. -/
def gPos (ne es e k n : Nat) : Nat := n + k * (ne * es) + e * es

/-- `w = E u` on all elements. -/
def IsGatherG (D : RData α) (u w : Nat → α) : Prop :=
  ∀ e < D.ne, ∀ k < D.nc, ∀ n < D.es, w (gPos D.ne D.es e k n) = D.row u e k n

/-- Entry `t` of `E^T u`. -/
def scatterG (D : RData α) (u : Nat → α) (t : Nat) : α :=
  ∑ e ∈ range D.ne, ∑ k ∈ range D.nc, ∑ n ∈ range D.es, ∑ m ∈ range D.es,
    if D.lidx e m k = t then D.coef e n m * u (gPos D.ne D.es e k n) else 0

/-- The user data of a strided restriction. -/
def stridedDataG (ne es nc : Nat) (s : Int × Int × Int) : RData α where
  ne := ne
  es := es
  nc := nc
  lidx e m k := if s = (0, 0, 0) then gPos ne es e k m else (m * s.1 + k * s.2.1 + e * s.2.2).toNat
  coef _ := idCoef

/-- The components of different L-vector nodes do not overlap. -/
def NoOverlap (ne es nc : Nat) (cs : Int) (offsets : Buf Int) : Prop :=
  ∀ p < ne * es, ∀ q < ne * es, ∀ k < nc, ∀ k' < nc,
    offsets.val p + (k : Nat) * cs = offsets.val q + (k' : Nat) * cs → offsets.val p = offsets.val q

/-- Different nodes of the elements have different entries of the L-vector. -/
def StridesApart (ne es nc : Nat) (s : Int × Int × Int) : Prop :=
  ∀ e < ne, ∀ m < es, ∀ k < nc, ∀ e' < ne, ∀ m' < es, ∀ k' < nc,
    (m * s.1 + k * s.2.1 + e * s.2.2 : Int) = m' * s.1 + k' * s.2.1 + e' * s.2.2 → e = e' ∧ m = m'

/-- The device kernels with orientations do not need two nodes per element. `MadeG det var x lSize D`: `x` was returned
by one of the four creation functions on a device (deterministic or not), with L-vectors of `lSize` entries, and applied
in variant `var` it has to act as `D`. The side conditions are what the documentation asks of the caller. -/
inductive MadeG (var : Variant) : CRstr → Int → RData α → Prop
  | offset {det : Bool} {mt : MemType} {junk : Nat → Int} {ne es nc : Nat} {cs lSize : Int} {offsets : Buf Int}
      {o : Orient} {r : Rstr} {x : CRstr} (h : create false ne es nc cs lSize offsets o = .ok r)
      (hc : createCuda det mt junk r = .ok x) (hin : OffsetsInRange ne es nc cs lSize offsets) :
      MadeG var x lSize (offsetData ne es nc cs offsets o var)
  | strided {det : Bool} {mt : MemType} {junk : Nat → Int} {ne es nc : Nat} {lSize : Int} {s : Int × Int × Int}
      {r : Rstr} {x : CRstr} (h : createStrided ne es nc lSize s = .ok r) (hc : createCuda det mt junk r = .ok x)
      (hin : s = (0, 0, 0) ∨ StridesInRange ne es nc lSize s) :
      MadeG var x lSize (stridedDataG ne es nc s)

end Verif.Gpu
