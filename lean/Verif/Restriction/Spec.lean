import Verif.Restriction.Kernels

/-!
# Specification of element restrictions

What a restriction means to its user, independently of the kernels: every element `e` has `es` nodes, node `m` of
component `k` lives at entry `lidx e m k` of the L-vector, and row `n` of the element is the combination
`Σ_m coef e n m * (value at node m)`. `coef` is the identity, a sign, or the tridiagonal orientation matrix.
-/

namespace Verif.Restriction
open Finset

/-- The restriction as seen by the user. -/
structure RData (α : Type) where
  ne : Nat
  es : Nat
  nc : Nat
  lidx : Nat → Nat → Nat → Nat
  coef : Nat → Nat → Nat → α

variable {α : Type} [CommRing α]

/-- Position of (element, component, node) in the E-vector of a restriction with `bs` elements interleaved per block;
for `bs = 1` this is `e*es*nc + k*es + n`, the layout reported by `CeedElemRestrictionGetELayout`. -/
def ePos (es nc bs : Nat) (e k n : Nat) : Nat := (((e / bs) * nc + k) * es + n) * bs + e % bs

/-- Value of row `n` of component `k` of element `e`. -/
def RData.row (D : RData α) (u : Nat → α) (e k n : Nat) : α := ∑ m ∈ range D.es, D.coef e n m * u (D.lidx e m k)

/-- `v = E u` on all real elements. -/
def RData.IsGather (D : RData α) (bs : Nat) (u : Nat → α) (v : Nat → α) : Prop :=
  ∀ e < D.ne, ∀ k < D.nc, ∀ n < D.es, v (ePos D.es D.nc bs e k n) = D.row u e k n

/-- Entry `t` of `E^T u`. -/
def RData.scatter (D : RData α) (bs : Nat) (u : Nat → α) (t : Nat) : α :=
  ∑ e ∈ range D.ne, ∑ k ∈ range D.nc, ∑ n ∈ range D.es, ∑ m ∈ range D.es,
    if D.lidx e m k = t then D.coef e n m * u (ePos D.es D.nc bs e k n) else 0

/-- Identity matrix. -/
def idCoef (n m : Nat) : α := if m = n then 1 else 0

/-- Tridiagonal matrix of one element stored as rows of three entries (`CeedElemRestrictionCreateCurlOriented`). -/
def triCoef (c : Nat → α) (n m : Nat) : α :=
  if m + 1 = n then c (3 * n) else if m = n then c (3 * n + 1) else if m = n + 1 then c (3 * n + 2) else 0

/-- Coefficients of the three ways of applying a restriction with orientation data `o` (user arrays, `es` nodes). -/
def orientCoef (o : Orient) (var : Variant) (es : Nat) (e n m : Nat) : α :=
  match o, var with
  | .signs s, .plain => if s.val (e * es + n) then -idCoef n m else idCoef n m
  | .curl c, .plain => triCoef (fun i => (c.val (e * (3 * es) + i) : α)) n m
  | .curl c, .unsigned => triCoef (fun i => ((|c.val (e * (3 * es) + i)| : Int) : α)) n m
  | _, _ => idCoef n m

/-- The user data of an offset based restriction. -/
def offsetData (ne es nc : Nat) (cs : Int) (offsets : Buf Int) (o : Orient) (var : Variant) : RData α where
  ne := ne
  es := es
  nc := nc
  lidx e m k := (offsets.val (e * es + m) + k * cs).toNat
  coef := orientCoef o var es

/-- The user data of a strided restriction (`(0,0,0)` is `CEED_STRIDES_BACKEND`). -/
def stridedData (ne es nc : Nat) (s : Int × Int × Int) : RData α where
  ne := ne
  es := es
  nc := nc
  lidx e m k := if s = (0, 0, 0) then m + k * es + e * es * nc else (m * s.1 + k * s.2.1 + e * s.2.2).toNat
  coef _ := idCoef

/-- All offsets designate entries of an L-vector of size `lSize`, for every component. -/
def OffsetsInRange (ne es nc : Nat) (cs lSize : Int) (offsets : Buf Int) : Prop :=
  ∀ e < ne, ∀ m < es, ∀ k < nc, 0 ≤ offsets.val (e * es + m) + k * cs ∧ offsets.val (e * es + m) + k * cs < lSize

/-- All strided positions designate entries of an L-vector of size `lSize`. -/
def StridesInRange (ne es nc : Nat) (lSize : Int) (s : Int × Int × Int) : Prop :=
  ∀ e < ne, ∀ m < es, ∀ k < nc,
    0 ≤ (m * s.1 + k * s.2.1 + e * s.2.2 : Int) ∧ (m * s.1 + k * s.2.1 + e * s.2.2 : Int) < lSize

/-- Lengths of the user's orientation array. -/
def Orient.Has (o : Orient) (n : Nat) : Prop :=
  match o with
  | .none => True
  | .signs s => n ≤ s.len
  | .curl c => 3 * n ≤ c.len

/-- Curl oriented kernels need at least two nodes (`ceed-ref-restriction.c` 166-178 read the neighbour of node 0). -/
def Orient.Fits (o : Orient) (es : Nat) (var : Variant) : Prop :=
  match o with
  | .curl _ => var = .unoriented ∨ 2 ≤ es
  | _ => True

/-- `Made var r bs lSize D`: `r` was returned by one of the eight creation functions (blocks of `bs` elements, L-vectors
of `lSize` entries) and, applied in variant `var`, it has to act as `D`. The side conditions are what the documentation
asks of the caller: arrays of the stated lengths, offsets (or strides) designating entries of the L-vector. The
range condition can be dropped where the library checks it (`checked`, the reference backends). -/
inductive Made (var : Variant) : Rstr → Nat → Int → RData α → Prop
  | offset {checked : Bool} {ne es nc : Nat} {cs lSize : Int} {offsets : Buf Int} {o : Orient} {r : Rstr}
      (h : create checked ne es nc cs lSize offsets o = .ok r) (hf : o.Fits es var)
      (hin : checked = true ∨ OffsetsInRange ne es nc cs lSize offsets) :
      Made var r 1 lSize (offsetData ne es nc cs offsets o var)
  | strided {ne es nc : Nat} {lSize : Int} {s : Int × Int × Int} {r : Rstr}
      (h : createStrided ne es nc lSize s = .ok r) (hin : s = (0, 0, 0) ∨ StridesInRange ne es nc lSize s) :
      Made var r 1 lSize (stridedData ne es nc s)
  | blocked {checked : Bool} {ne es bs nc : Nat} {cs lSize : Int} {offsets : Buf Int} {o : Orient} {r : Rstr}
      (h : createBlocked checked ne es bs nc cs lSize offsets o = .ok r) (hl : ne * es ≤ offsets.len)
      (ho : o.Has (ne * es)) (hf : o.Fits es var)
      (hin : (checked = true ∧ bs ∣ ne) ∨ OffsetsInRange ne es nc cs lSize offsets) :
      Made var r bs lSize (offsetData ne es nc cs offsets o var)
  | blockedStrided {ne es bs nc : Nat} {lSize : Int} {s : Int × Int × Int} {r : Rstr}
      (h : createBlockedStrided ne es bs nc lSize s = .ok r)
      (hin : s = (0, 0, 0) ∨ StridesInRange ne es nc lSize s) :
      Made var r bs lSize (stridedData ne es nc s)

end Verif.Restriction
