import Verif.Basis.QR
import Verif.State

/-!
# Evaluation at arbitrary points

Models `interface/ceed-basis.c` 48-80, 368-423, 446-647, 736-766, 2000-2010 and 2035-2046. Scalars are an ordered field, arithmetic is exact.
The vectors are arrays, `none` is `CEED_VECTOR_NONE`; the vectors of a call are distinct, their locks are the subject of
`Verif/Vector`. Numbers of points are natural numbers. The basis belongs to a CPU backend, so it has a tensor contraction (496-509 do
nothing) and no `ApplyAtPoints` of its own.
-/

namespace Verif
namespace Basis

open Restriction (TMode)

variable {K : Type} [Field K]

/-- `CeedChebyshevPolynomialsAtPoint`, lines 48-53, on the pointer `out + off`. -/
def chebVals (x : K) (n : Nat) (out : Buf K) (off : Nat) : Res (Buf K) := do
  let out ← out.wr off 1
  let out ← out.wr (off + 1) (2 * x)
  loop (n - 2) (fun i' out => do
    let a ← out.rd (off + (i' + 1))
    let b ← out.rd (off + i')
    out.wr (off + (i' + 2)) (2 * x * a - b)) out

/-- `CeedChebyshevDerivativeAtPoint`, lines 66-80; the pair in the loop state is `chebyshev_x[1]`, `chebyshev_x[2]`. -/
def chebDers (x : K) (n : Nat) (out : Buf K) : Res (Buf K) := do
  let out ← out.wr 0 0
  let out ← out.wr 1 2
  let s ← loop (n - 2) (fun i' (s : K × K × Buf K) => do
    let x0 := s.1
    let x1 := s.2.1
    let x2 := 2 * x * x1 - x0
    let a ← s.2.2.rd (i' + 1)
    let b ← s.2.2.rd i'
    let out ← s.2.2.wr (i' + 2) (2 * x * a + 2 * x1 - b)
    .ok (x1, x2, out)) (1, 2 * x, out)
  .ok s.2.2

/-- Lines 535, 556-557, 599, 620-621: the array `chebyshev_x` of one direction. -/
def pointRow (der : Bool) (x : K) (n : Nat) (out : Buf K) : Res (Buf K) := if der then chebDers x n out else chebVals x n out 0

/-- The arrays `chebyshev_x` of point `p`, for all directions: derivatives in the directions `deriv`.
Simplified: the C code computes the array of a direction just before the contraction that uses it. -/
def pointMats (dim np Q1 p : Nat) (x : Buf K) (deriv : Nat → Bool) (junk : Nat → K) : Res (Nat → Buf K) :=
  loop dim (fun d (f : Nat → Buf K) => do
    let xd ← x.rd (d * np + p)
    let m ← pointRow (deriv d) xd Q1 ⟨Q1, junk⟩
    .ok (fun d' => if d' = d then m else f d')) (fun _ => ⟨0, fun _ => 0⟩)

/-- `num_comp * CeedIntPow(Q_1d, dim)`: number of Chebyshev coefficients, length of the temporary arrays. -/
def Bas.coefs (b : Bas K) : Nat := b.nc * b.Q1 ^ b.dim

/-- Lines 531-542 and 552-564: from the Chebyshev coefficients `co` to the values of one point, stored at `pos c`. Simplified: the last
contraction writes to an array of its own instead of `tmp[dim % 2]`; only what it writes is read afterwards. -/
def evalPoint (b : Bas K) (np p : Nat) (x co : Buf K) (deriv : Nat → Bool) (pos : Nat → Nat) (junk : Nat → Nat → K) (v : Buf K) :
    Res (Buf K) := do
  let m ← pointMats b.dim np b.Q1 p x deriv (junk 3)
  let t ← chain b.dim b.nc 1 b.Q1 1 b.coefs m .noTranspose false junk co 0 ⟨b.coefs, junk 2⟩ 0
  loop b.nc (fun c v => do
    let y ← t.rd c
    v.wr (pos c) y) v

/-- Lines 525-571. -/
def toPoints (b : Bas K) (em : EMode) (np : Nat) (x co : Buf K) (junk : Nat → Nat → Nat → Nat → K) (v : Buf K) : Res (Buf K) :=
  match em with
  | .interp => loop np (fun p v =>
      evalPoint b np p x co (fun _ => false) (fun c => c * np + p) (junk p 0) v) v
  | .grad => loop np (fun p v => loop b.dim (fun pass v =>
      evalPoint b np p x co (fun d => decide (pass = d)) (fun c => (pass * b.nc + c) * np + p) (junk p pass) v) v) v
  | _ => .ok v

/-- Lines 594-605 and 615-629: add the contribution of one point, whose values are at `pos c`, to the coefficients (`add`) or set them.
The values are put in `tmp[0]`, which is also the source of the first contraction. -/
def gatherPoint (b : Bas K) (np p : Nat) (x u : Buf K) (deriv : Nat → Bool) (pos : Nat → Nat) (add : Bool) (junk : Nat → Nat → K)
    (co : Buf K) : Res (Buf K) := do
  let m ← pointMats b.dim np b.Q1 p x deriv (junk 3)
  let t ← loop b.nc (fun c t => do
    let y ← u.rd (pos c)
    t.wr c y) ⟨b.coefs, junk 0⟩
  chain b.dim b.nc 1 1 b.Q1 b.coefs m .transpose add (fun k => if k = 0 then t.val else junk k) t 0 co 0

/-- Lines 588-635. -/
def fromPoints (b : Bas K) (em : EMode) (np : Nat) (x u : Buf K) (junk : Nat → Nat → Nat → Nat → K) (co : Buf K) : Res (Buf K) :=
  match em with
  | .interp => loop np (fun p co =>
      gatherPoint b np p x u (fun _ => false) (fun c => c * np + p) (decide (0 < p)) (junk p 0) co) co
  | .grad => loop np (fun p co => loop b.dim (fun pass co =>
      gatherPoint b np p x u (fun d => decide (pass = d)) (fun c => (pass * b.nc + c) * np + p)
        (decide (0 < p) || (decide (p = 0) && decide (0 < pass))) (junk p pass) co) co) co
  | _ => .ok co

/-- A basis with `q_ref_1d` and what the evaluation at points keeps in it: `basis_chebyshev` and the contents of `vec_chebyshev`. -/
structure PBas (K : Type) where
  bas : Bas K
  qRef : Buf K
  cheb : Option (Bas K × Buf K)

/-- `CeedBasisApplyAtPointsCheckDims`, lines 368-423. -/
def checkDimsP (b : Bas K) (ne : Nat) (np : Buf Nat) (tm : TMode) (em : EMode) (x u : Option (Buf K)) (v : Buf K) : Res Unit := do
  let xl := match x with | some x => x.len | none => 0
  let ul := match u with | some u => u.len | none => 0
  let total ← loop ne (fun i t => do
    let n ← np.rd i
    .ok (t + n)) 0
  Res.check (total * b.dim ≤ xl ∨ em = .weight) .dimension
  Res.check (em ≠ .weight ∨ tm = .noTranspose) .unsupported
  match em with
  | .interp => Res.check ((tm = .transpose ∧ (total * b.qComp em ≤ ul ∨ ne * b.P * b.nc ≤ v.len)) ∨
      (tm = .noTranspose ∧ (total * b.qComp em ≤ v.len ∨ ne * b.P * b.nc ≤ ul))) .dimension
  | .grad => Res.check ((tm = .transpose ∧ (total * b.qComp em * b.dim ≤ ul ∨ ne * b.P * b.nc ≤ v.len)) ∨
      (tm = .noTranspose ∧ (total * b.qComp em * b.dim ≤ v.len ∨ ne * b.P * b.nc ≤ ul))) .dimension
  | .weight => Res.check (tm = .noTranspose ∧ total ≤ v.len) .dimension
  | _ => .err .unsupported

/-- `CeedVectorGetArrayRead`: `CEED_VECTOR_NONE` has no backend. -/
def readArray (x : Option (Buf K)) : Res (Buf K) :=
  match x with
  | some b => .ok b
  | none => .err .unsupported

variable [LinearOrder K]

/-- `CeedBasisGetChebyshevInterp1D`, lines 736-766. -/
def chebInterp (sqrt : K → K) (v0 v1 : Nat → K) (P1 Q1 : Nat) (interp1 qRef : Buf K) : Res (Buf K) := do
  Res.check (0 < P1 ∧ 0 < Q1) .incompatible
  let C ← loop Q1 (fun i (C : Buf K) => do
    let x ← qRef.rd i
    chebVals x Q1 C (i * Q1)) ⟨Q1 * Q1, fun _ => 0⟩
  let inv ← pseudoinverse sqrt v0 v1 C Q1 Q1 ⟨Q1 * Q1, fun _ => 0⟩
  matmul inv interp1 ⟨P1 * Q1, fun _ => 0⟩ Q1 P1 Q1

/-- Lines 471-493: the basis from nodes to Chebyshev coefficients; `near` is the collocation test of the backend. -/
def makeCheb (sqrt : K → K) (v0 v1 : Nat → K) (near : K → Bool) (b : Bas K) (qRef : Buf K) : Res (Bas K × Buf K) := do
  let ci ← chebInterp sqrt v0 v1 b.P1 b.Q1 b.interp1 qRef
  let cb ← createTensorH1 near (collocatedGrad sqrt v0 v1) b.dim b.nc b.P1 b.Q1 ci ⟨b.P1 * b.Q1, fun _ => 0⟩ ⟨b.Q1, fun _ => 0⟩
  .ok (cb, ⟨b.coefs, fun _ => 0⟩)

/-- Parameters of the model: the square root, the collocation test, contents of uninitialised arrays. -/
structure Env (K : Type) where
  sqrt : K → K
  near : K → Bool
  v0 : Nat → K
  v1 : Nat → K
  junk : Nat → Nat → K
  junkP : Nat → Nat → Nat → Nat → K

/-- Lines 471-493, once per basis. -/
def ensureCheb (en : Env K) : M (PBas K) (Bas K × Buf K) := fun s =>
  match s.cheb with
  | some c => .ok s c
  | none => (M.lift (makeCheb en.sqrt en.v0 en.v1 en.near s.bas s.qRef) s).bind (fun s c => .ok { s with cheb := some c } c)

/-- The contents of `vec_chebyshev` change. -/
def setCoefs (co : Buf K) : M (PBas K) Unit := fun s =>
  match s.cheb with
  | some c => .ok { s with cheb := some (c.1, co) } ()
  | none => .ub

/-- `CeedBasisApplyAtPoints_Core`, lines 446-647. Errors after the start of the evaluation leave `v` undetermined. -/
def corePoints (en : Env K) (add : Bool) (ne : Nat) (np : Buf Nat) (tm : TMode) (em : EMode) (x u : Option (Buf K)) (v : Buf K) :
    M (PBas K) (Buf K) := fun s => (do
  let total ← M.lift (np.rd 0)
  M.check (0 < s.bas.dim) .unsupported
  M.check (s.bas.isTensor = true) .unsupported
  M.check (ne = 1) .unsupported
  if em = .weight then M.lift (Buf.fill v.len 1 v) else do
  let c ← ensureCheb en
  match tm with
  | .noTranspose => do
    let co ← M.lift (apply c.1 en.junk 1 .noTranspose .interp u c.2)
    setCoefs co
    let xa ← M.lift (readArray x)
    M.lift (toPoints s.bas em total xa co en.junkP v)
  | .transpose => do
    let xa ← M.lift (readArray x)
    let ua ← M.lift (readArray u)
    let co ← M.lift (fromPoints s.bas em total xa ua en.junkP c.2)
    setCoefs co
    if add then M.lift (applyAdd c.1 en.junk 1 .transpose .interp (some co) v)
    else M.lift (apply c.1 en.junk 1 .transpose .interp (some co) v) : M (PBas K) (Buf K)) s

/-- `CeedBasisApplyAtPoints`, lines 2000-2010. -/
def applyAtPoints (en : Env K) (ne : Nat) (np : Buf Nat) (tm : TMode) (em : EMode) (x u : Option (Buf K)) (v : Buf K) :
    M (PBas K) (Buf K) := fun s => (do
  M.lift (checkDimsP s.bas ne np tm em x u v)
  corePoints en false ne np tm em x u v : M (PBas K) (Buf K)) s

/-- `CeedBasisApplyAddAtPoints`, lines 2035-2046. -/
def applyAddAtPoints (en : Env K) (ne : Nat) (np : Buf Nat) (tm : TMode) (em : EMode) (x u : Option (Buf K)) (v : Buf K) :
    M (PBas K) (Buf K) := fun s => (do
  M.check (tm = .transpose) .unsupported
  M.lift (checkDimsP s.bas ne np tm em x u v)
  corePoints en true ne np tm em x u v : M (PBas K) (Buf K)) s

end Basis
end Verif
