import Verif.Basis.Model

/-!
# Specification of basis application

Layouts documented in `interface/ceed-basis.c` (`CeedBasisApply`) and used by all CPU backends: an E-vector of node values
has shape `num_comp, num_nodes, num_elem`, a Q-vector has shape `q_comp, num_comp, num_qpts, num_elem`, row-major;
a matrix of a basis has shape `q_comp, num_qpts, num_nodes`.
-/

namespace Verif
namespace Basis

open Finset
open Restriction (TMode)
variable {α : Type} [CommRing α]

/-- Position of component `k`, node `n`, element `e`. -/
def nodePos (P ne k n e : Nat) : Nat := (k * P + n) * ne + e

/-- Position of quadrature component `c`, component `k`, quadrature point `q`, element `e`. -/
def quadPos (nc Q ne c k q e : Nat) : Nat := ((c * nc + k) * Q + q) * ne + e

/-- Row `(c, q)` of the matrix `m` times the node values of component `k` of element `e`. -/
def rowTimes (b : Bas α) (ne : Nat) (m u : Buf α) (c k q e : Nat) : α :=
  ∑ n ∈ range b.P, m.val ((c * b.Q + q) * b.P + n) * u.val (nodePos b.P ne k n e)

/-- Column `n` of the matrix `m` (`qc` quadrature components) times the quadrature values of component `k` of `e`. -/
def colTimes (b : Bas α) (qc ne : Nat) (m w : Buf α) (k n e : Nat) : α :=
  ∑ c ∈ range qc, ∑ q ∈ range b.Q, m.val ((c * b.Q + q) * b.P + n) * w.val (quadPos b.nc b.Q ne c k q e)

/-- `CeedBasisApply` in mode `em` is multiplication by the matrix `m`, for all numbers of elements and all vectors that
are long enough, whatever the contents of temporary arrays; the part of `v` behind the result is unchanged. -/
def MulBy (b : Bas α) (em : EMode) (m : Buf α) : Prop :=
  ∀ (junk : Nat → Nat → α) (ne : Nat) (u v : Buf α), ne * b.nc * b.P ≤ u.len → ne * b.Q * b.nc * b.qComp em ≤ v.len →
    ∃ v', apply b junk ne .noTranspose em (some u) v = .ok v' ∧ v'.len = v.len ∧
      (∀ c < b.qComp em, ∀ k < b.nc, ∀ q < b.Q, ∀ e < ne,
        v'.val (quadPos b.nc b.Q ne c k q e) = rowTimes b ne m u c k q e) ∧
      ∀ x, b.qComp em * b.nc * b.Q * ne ≤ x → v'.val x = v.val x

/-- `CeedBasisApply` with `CEED_TRANSPOSE` is multiplication by the transpose of `m`; the part of `v` behind the result
is set to zero. -/
def MulByT (b : Bas α) (em : EMode) (m : Buf α) : Prop :=
  ∀ (junk : Nat → Nat → α) (ne : Nat) (w v : Buf α), ne * b.nc * b.Q * b.qComp em ≤ w.len → ne * b.nc * b.P ≤ v.len →
    ∃ v', apply b junk ne .transpose em (some w) v = .ok v' ∧ v'.len = v.len ∧
      (∀ k < b.nc, ∀ n < b.P, ∀ e < ne, v'.val (nodePos b.P ne k n e) = colTimes b (b.qComp em) ne m w k n e) ∧
      ∀ x, b.nc * b.P * ne ≤ x → x < v.len → v'.val x = 0

/-- `CeedBasisApplyAdd` adds the product with the transpose of `m` to the contents of `v`. -/
def AddByT (b : Bas α) (em : EMode) (m : Buf α) : Prop :=
  ∀ (junk : Nat → Nat → α) (ne : Nat) (w v : Buf α), ne * b.nc * b.Q * b.qComp em ≤ w.len → ne * b.nc * b.P ≤ v.len →
    ∃ v', applyAdd b junk ne .transpose em (some w) v = .ok v' ∧ v'.len = v.len ∧
      (∀ k < b.nc, ∀ n < b.P, ∀ e < ne,
        v'.val (nodePos b.P ne k n e) = v.val (nodePos b.P ne k n e) + colTimes b (b.qComp em) ne m w k n e) ∧
      ∀ x, b.nc * b.P * ne ≤ x → v'.val x = v.val x

/-- `b` was made by `CeedBasisCreateTensorH1` from the 1D matrices `i1` (interpolation), `g1` (gradient) and the weights
`w`. The last two conditions say that the arithmetic of the setup is exact: if the test for collocated points succeeded,
the interpolation matrix is exactly the identity (the test of the code allows entries within 1e-14 of it), and if a
collocated gradient was computed, it maps interpolated values to gradients (it is `g1` times the pseudoinverse of
`i1`, see C27). -/
def TensorBasis (b : Bas α) (i1 g1 w : Buf α) : Prop :=
  ∃ (near : α → Bool) (collo : Nat → Nat → Buf α → Buf α → Res (Buf α)) (dim nc P1 Q1 : Int),
    createTensorH1 near collo dim nc P1 Q1 i1 g1 w = .ok b ∧
    (b.colloInterp = true → ∀ i < b.P1, ∀ j < b.P1, i1.val (i * b.P1 + j) = if i = j then 1 else 0) ∧
    (∀ cg, b.colloGrad = some cg → cg.len = b.Q1 * b.Q1 ∧ ∀ q < b.Q1, ∀ p < b.P1,
      ∑ m ∈ range b.Q1, cg.val (q * b.Q1 + m) * i1.val (m * b.P1 + p) = g1.val (q * b.P1 + p))

/-- `b` was made by `CeedBasisCreateH1`, `CeedBasisCreateHdiv` or `CeedBasisCreateHcurl` from the full matrices `i`
(interpolation) and `d` (gradient, divergence or curl). -/
def NonTensorBasis (b : Bas α) (sp : Space) (i d w : Buf α) : Prop :=
  ∃ (dim : Nat) (nc P Q : Int), createNonTensor sp dim nc P Q i d w = .ok b

/-- The derivative mode of a function space. -/
def Space.mode : Space → EMode
  | .h1 => .grad
  | .hdiv => .div
  | .hcurl => .curl

/-- Coordinate `d` of point `q` of a tensor grid with `Q1` points per direction. -/
def coord (Q1 d q : Nat) : Nat := q / Q1 ^ d % Q1

/-- Entry of the matrix of a contraction. -/
def entry (t : Buf α) (tof : Nat) (tm : TMode) (B J j b : Nat) : α :=
  match tm with
  | .noTranspose => t.val (tof + (j * B + b))
  | .transpose => t.val (tof + (b * J + j))

/-- Euclidean inner product of the first `n` entries. -/
def dotN (n : Nat) (f g : Nat → α) : α := ∑ i ∈ range n, f i * g i

end Basis
end Verif
