import Verif.Gpu.Basis
import Verif.Gpu.Spec
import Verif.Basis.Spec

/-!
# Specification of basis application on a device

E-vectors of node values have the layout of element restrictions on the device (`gPos`: node, then element, then
component); Q-vectors of quadrature values have quadrature points fastest, then elements, components, quadrature
components. Matrices of a basis have shape `q_comp, num_qpts, num_nodes`, row-major, as on the host.
-/

namespace Verif.Gpu
open Finset
open Verif.Restriction (TMode)
open Verif.Basis (Bas EMode Space)

variable {α : Type} [CommRing α]

/-- Position of quadrature component `c`, component `k`, quadrature point `q`, element `e`. -/
def quadPosG (nc Q ne c k q e : Nat) : Nat := q + e * Q + k * (ne * Q) + c * (nc * (ne * Q))

/-- Row `(c, q)` of the matrix `m` times the node values of component `k` of element `e`. -/
def rowTimesG (b : Bas α) (ne : Nat) (m : Buf α) (u : Nat → α) (c k q e : Nat) : α :=
  ∑ n ∈ range b.P, m.val ((c * b.Q + q) * b.P + n) * u (gPos ne b.P e k n)

/-- Column `n` of the matrix `m` (`qc` quadrature components) times the quadrature values of component `k` of `e`. -/
def colTimesG (b : Bas α) (qc ne : Nat) (m : Buf α) (w : Nat → α) (k n e : Nat) : α :=
  ∑ c ∈ range qc, ∑ q ∈ range b.Q, m.val ((c * b.Q + q) * b.P + n) * w (quadPosG b.nc b.Q ne c k q e)

/-- The call succeeds and launches a kernel (or none); whatever the interleaving of its threads, no access is out of
bounds, no two threads race, every execution ends, and the memory then satisfies `Q`. -/
def Launches (r : Res (Launch α)) (Q : Vals α → Prop) : Prop := ∃ L, r = .ok L ∧ Runs L.G L.B L.cfg Q

/-- `CeedBasisApply` in mode `em` is multiplication by the matrix `m`, for all positive numbers of elements and all
vectors that are long enough, whatever is in shared memory; nothing else changes. -/
def MulByG (dv : Device) (x : DBas α) (em : EMode) (m : Buf α) : Prop :=
  ∀ (junk : Vals α) (ne : Nat) (u v : Buf α), 0 < ne → ne * x.bas.nc * x.bas.P ≤ u.len →
    ne * x.bas.Q * x.bas.nc * x.bas.qComp em ≤ v.len →
    Launches (applyDev dv junk x ne .noTranspose em (some u) v) fun s =>
      (∀ c < x.bas.qComp em, ∀ k < x.bas.nc, ∀ q < x.bas.Q, ∀ e < ne,
        s .v (quadPosG x.bas.nc x.bas.Q ne c k q e) = rowTimesG x.bas ne m u.val c k q e) ∧
      (∀ i, x.bas.qComp em * x.bas.nc * x.bas.Q * ne ≤ i → s .v i = v.val i) ∧ s .u = u.val

/-- `CeedBasisApply` with `CEED_TRANSPOSE` is multiplication by the transpose of `m`; the rest of `v` becomes zero. -/
def MulByTG (dv : Device) (x : DBas α) (em : EMode) (m : Buf α) : Prop :=
  ∀ (junk : Vals α) (ne : Nat) (w v : Buf α), 0 < ne → ne * x.bas.nc * x.bas.Q * x.bas.qComp em ≤ w.len →
    ne * x.bas.nc * x.bas.P ≤ v.len →
    Launches (applyDev dv junk x ne .transpose em (some w) v) fun s =>
      (∀ k < x.bas.nc, ∀ n < x.bas.P, ∀ e < ne,
        s .v (gPos ne x.bas.P e k n) = colTimesG x.bas (x.bas.qComp em) ne m w.val k n e) ∧
      (∀ i, x.bas.nc * x.bas.P * ne ≤ i → s .v i = 0) ∧ s .u = w.val

/-- `CeedBasisApplyAdd` adds the product with the transpose of `m` to the contents of `v`. -/
def AddByTG (dv : Device) (x : DBas α) (em : EMode) (m : Buf α) : Prop :=
  ∀ (junk : Vals α) (ne : Nat) (w v : Buf α), 0 < ne → ne * x.bas.nc * x.bas.Q * x.bas.qComp em ≤ w.len →
    ne * x.bas.nc * x.bas.P ≤ v.len →
    Launches (applyAddDev dv junk x ne .transpose em (some w) v) fun s =>
      (∀ k < x.bas.nc, ∀ n < x.bas.P, ∀ e < ne,
        s .v (gPos ne x.bas.P e k n) =
          v.val (gPos ne x.bas.P e k n) + colTimesG x.bas (x.bas.qComp em) ne m w.val k n e) ∧
      (∀ i, x.bas.nc * x.bas.P * ne ≤ i → s .v i = v.val i) ∧ s .u = w.val

/-- `x` was made by `CeedBasisCreateTensorH1` on the device from the 1D matrices `i1`, `g1` and the weights `w` (or
`NULL`). -/
def DevTensorBasis (x : DBas α) (i1 g1 : Buf α) (w : Option (Buf α)) : Prop :=
  ∃ dim nc P1 Q1 : Int, createTensorDev dim nc P1 Q1 i1 g1 w = .ok x

/-- `x` was made by `CeedBasisCreateH1`, `CeedBasisCreateHdiv` or `CeedBasisCreateHcurl` on the device from the full
matrices `i` (interpolation) and `d` (gradient, divergence or curl). -/
def DevNonTensorBasis (x : DBas α) (sp : Space) (i d : Buf α) (w : Option (Buf α)) : Prop :=
  ∃ (dim : Nat) (nc P Q : Int), createNonTensorDev sp dim nc P Q i d w = .ok x

end Verif.Gpu
