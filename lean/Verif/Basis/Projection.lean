import Verif.Basis.QR

/-!
# Projection bases: `interface/ceed-basis.c` 196-298, 1780-1823
-/

namespace Verif
namespace Basis

variable {K : Type} [Field K] [LinearOrder K]

/-- What the model of the creation of a projection basis is given from outside: the square root, the comparisons of absolute
values with `1E-14` (`near`, `backends/ref/ceed-ref-basis.c` 290-299) and with `10 * CEED_EPSILON` (`tiny`,
`interface/ceed-basis.c` 284), and the initial contents of the arrays on the stack of the QR factorisation. -/
structure PEnv (K : Type) where
  sqrt : K → K
  near : K → Bool
  tiny : K → Bool
  v0 : Nat → K
  v1 : Nat → K

/-- `CeedBasisGetFESpace`, `interface/ceed-basis.c` 998-1001. The space is read off from the matrices present. -/
def Bas.space (b : Bas K) : Space :=
  if b.isH1 then .h1 else if b.div.isSome then .hdiv else .hcurl

/-- Dimension of the topology of a basis (`CeedBasisGetTopology`, `CeedBasisGetTopologyDimension`): a tensor basis of dimension
over 3 has the topology of a hexahedron (`interface/ceed-basis.c` 1473). -/
def Bas.topoDim (b : Bas K) : Nat := if b.isTensor then min b.dim 3 else b.dim

/-- Part of an array handed over by pointer, `n` entries from `off` on; reading outside the array is undefined. -/
def window (b : Buf K) (off n : Nat) : Res (Buf K) :=
  if off + n ≤ b.len then .ok ⟨n, fun i => b.val (off + i)⟩ else .ub

/-- `CeedBasisCreateProjectionMatrices`, lines 281-285: `interp_to^+` times one matrix of the basis projected from, small
entries replaced by zero. `src` is `input_from[m]`, of which the `memcpy` of line 280 reads `kk * Pf` entries. -/
def projectOne (env : PEnv K) (inv src : Buf K) (Pt Pf kk : Nat) : Res (Buf K) := do
  let out ← matmul inv src ⟨Pt * Pf, fun _ => 0⟩ Pt Pf kk
  loop (Pt * Pf) (fun i (out : Buf K) => do
    let x ← out.rd i
    if env.tiny x then out.wr i 0 else .ok out) out

/-- `CeedBasisCreateProjectionMatrices`, lines 242-249: the 1D interpolation matrix if both bases are tensor bases, otherwise the
full one (`CeedBasisGetInterp1D`, `CeedBasisGetInterp`). -/
def interpSource (both : Bool) (b : Bas K) : Res (Option (Buf K)) :=
  if both then .ok (some b.interp1) else getInterp b

/-- `CeedBasisCreateProjectionMatrices`, lines 256-262: the gradient, for `H^1` only. -/
def gradSource (both : Bool) (sp : Space) (b : Bas K) : Res (Option (Buf K)) :=
  if sp = .h1 then (if both then .ok (some b.grad1) else getGrad b) else .ok none

/-- `interface/ceed-basis.c` 196-298 `CeedBasisCreateProjectionMatrices`. The matrices of the gradient of the projection are
stored one after the other (line 276); for spaces other than `H^1` they stay zero. -/
def projectMatrices (env : PEnv K) (from_ to_ : Bas K) : Res (Buf K × Buf K) := do
  Res.check (to_.Q = from_.Q) .dimension
  let both := to_.isTensor && from_.isTensor
  let Pt := if both then to_.P1 else to_.P
  let Pf := if both then from_.P1 else from_.P
  let Q := if both then from_.Q1 else to_.Q
  Res.check (to_.space = from_.space) .minor
  let qc := if both then 1 else from_.qComp .interp
  let toSrc ← interpSource both to_
  let fromSrc ← interpSource both from_
  let gradSrc ← gradSource both to_.space from_
  let toSrc ← deref toSrc
  let inv ← pseudoinverse env.sqrt env.v0 env.v1 toSrc (Q * qc) Pt ⟨Pt * (Q * qc), fun _ => 0⟩
  let fromSrc ← deref fromSrc
  let src ← window fromSrc 0 (Q * Pf * qc)
  let interp ← projectOne env inv src Pt Pf (Q * qc)
  let nm := if both then 1 else from_.dim
  let grad ← loop (if to_.space = .h1 then nm else 0) (fun m (g : Buf K) => do
    let gs ← deref gradSrc
    let src ← window gs (m * Q * Pf) (Q * Pf * qc)
    let out ← projectOne env inv src Pt Pf (Q * qc)
    loop (Pt * Pf) (fun i (g : Buf K) => do
      let x ← out.rd i
      g.wr (m * Pt * Pf + i) x) g) ⟨Pt * Pf * nm, fun _ => 0⟩
  .ok (interp, grad)

/-- `interface/ceed-basis.c` 1780-1823 `CeedBasisCreateProjection`. The weights are not given, so the new basis has those of
`CeedCalloc` (1488, 1624). -/
def createProjection (env : PEnv K) (from_ to_ : Bas K) : Res (Bas K) := do
  let (ip, gp) ← projectMatrices env from_ to_
  if to_.isTensor && from_.isTensor then
    createTensorH1 env.near (collocatedGrad env.sqrt env.v0 env.v1) to_.dim from_.nc from_.P1 to_.P1 ip gp ⟨to_.P1, fun _ => 0⟩
  else
    createNonTensor .h1 from_.topoDim from_.nc from_.P to_.P ip gp ⟨to_.P, fun _ => 0⟩

end Basis
end Verif
