import Verif.Operator.Multigrid
import Verif.Operator.Assemble
import Verif.Basis.Schur

/-!
# Operators: element inverses by fast diagonalisation

Models `CeedOperatorCreateFDMElementInverse` (`interface/ceed-preconditioning.c` 2737-2959) with `CeedBuildMassLaplace`
(1074-1095) for a ready operator of the reference backend, which has no version of its own and no fallback. Reference counts
and names are left out; the new restriction gets the number `ρ`, the vector of scales the number `μ`. Division by zero is
undefined behaviour (the code computes infinities or NaNs).
-/

namespace Verif
namespace Operator

open Restriction (Rstr)
open Basis (Bas EMode fdiv)

variable {K : Type _} [Field K] [LinearOrder K]

/-- Square root, tolerance of the eigenvalue solver (`10 * CEED_EPSILON`), the test for a collocated basis, `CEED_EPSILON`
and the contents of uninitialised local arrays. -/
structure FEnv (K : Type _) where
  sqrt : K → K
  tol : K
  near : K → Bool
  eps : K
  v0 : Nat → K
  t0 : Nat → K
  v1 : Nat → K
  t1 : Nat → K
  junk : Nat → Nat → K

/-- `interface/ceed-preconditioning.c` 1076-1082 and 1084-1091: `m[i + j P] = Σ_k A[k P + i] w[k] A[k P + j]`. -/
def gram (A w : Buf K) (P Q : Nat) (m : Buf K) : Res (Buf K) :=
  loop P (fun i m => loop P (fun j (m : Buf K) => do
    let s ← loop Q (fun k (s : K) => do
      let a ← A.rd (k * P + i)
      let c ← w.rd k
      let b ← A.rd (k * P + j)
      .ok (s + a * c * b)) 0
    m.wr (i + j * P) s) m) m

/-- Line 1092: the perturbation. -/
def perturbation (dim : Nat) : K := if 2 < dim then 1 / 1000000 else 1 / 10000

/-- Lines 1074-1095 `CeedBuildMassLaplace`; the arrays are new (2806-2807). -/
def buildMassLaplace (interp1 grad1 w : Buf K) (P Q dim : Nat) : Res (Buf K × Buf K) := do
  let mass ← gram interp1 w P Q ⟨P * P, fun _ => 0⟩
  let lap ← gram grad1 w P Q ⟨P * P, fun _ => 0⟩
  let lap ← loop P (fun i (l : Buf K) => l.addAt (i + P * i) (perturbation dim)) lap
  .ok (mass, lap)

/-- Lines 2821-2823: `fdm_interp` is the transpose of `x`. -/
def fdmInterp (X : Buf K) (P : Nat) : Res (Buf K) :=
  loop P (fun i t => loop P (fun j (t : Buf K) => do
    let x ← X.rd (j + i * P)
    t.wr (i + j * P) x) t) ⟨P * P, fun _ => 0⟩

/-- `interface/ceed-vector.c` 676-681 `CeedVectorNorm` with `CEED_NORM_MAX`. -/
def maxNorm (b : Buf K) : Res K :=
  loop b.len (fun i (m : K) => do
    let x ← b.rd i
    .ok (if |x| < m then m else |x|)) 0

/-- Lines 2849-2854: one entry of the assembled QFunction; the sum and the number of entries so far. -/
def avgStep (b w : Buf K) (bound : K) (Q cc q i e : Nat) (s : K × Nat) : Res (K × Nat) := do
  let x ← b.rd (q + i * Q + e * (Q * cc))
  if bound < |x| then do
    let c ← w.rd q
    let z ← fdiv x c
    .ok (s.1 + z, s.2 + 1)
  else .ok s

/-- Lines 2846-2862: the average of one element. `cc` is the number of components of the restriction of the assembled
QFunction, whose layout is `{1, Q, Q * cc}`; `ni` is the number of entries the code expects at each point. -/
def elemAvg (b w : Buf K) (bound : K) (Q cc ni e : Nat) : Res K := do
  let s ← loop Q (fun q s => loop ni (fun i s => avgStep b w bound Q cc q i e s) s) ((0 : K), 0)
  if s.2 = 0 then .ok 1 else fdiv s.1 (s.2 : K)

/-- Lines 2842-2862: all elements. -/
def elemAvgs (b w : Buf K) (bound : K) (Q cc ni ne : Nat) : Res (Buf K) :=
  loop ne (fun e (a : Buf K) => do
    let z ← elemAvg b w bound Q cc ni e
    a.wr e z) ⟨ne, fun _ => 0⟩

/-- Lines 2877-2883: one entry of `fdm_diagonal`. -/
def fdmDiag (interp grad : Bool) (dim P n : Nat) (lam : Buf K) : Res K :=
  if grad then loop dim (fun d (s : K) => do
    let l ← lam.rd (n / P ^ d % P)
    .ok (s + l)) (if interp then 1 else 0)
  else .ok (if interp then 1 else 0)

/-- Lines 2873-2886: `fdm_diagonal`, small entries replaced by the bound. -/
def fdmDiagonal (interp grad : Bool) (dim P nc N : Nat) (eps : K) (lam : Buf K) : Res (Buf K) :=
  loop nc (fun c f => loop N (fun n (f : Buf K) => do
    let x ← fdmDiag interp grad dim P n lam
    f.wr (c * N + n) (if |x| < (N : K) * eps then (N : K) * eps else x)) f) ⟨nc * N, fun _ => 0⟩

/-- Lines 2887-2897: the entries of `q_data`. -/
def fdmScale (avg diag : Buf K) (ne nc N : Nat) : Res (Buf K) :=
  loop ne (fun e v => loop nc (fun c v => loop N (fun n (v : Buf K) => do
    let a ← avg.rd e
    let x ← diag.rd (c * N + n)
    let z ← fdiv 1 (a * x)
    v.wr ((e * nc + c) * N + n) z) v) v) ⟨ne * nc * N, fun _ => 0⟩

/-- Lines 2928-2955: the QFunction `Scale` and the operator. -/
def fdmOper (rs : Nat → Rstr) (nc : Nat) (rid : Option Nat) (ρ μ : Nat) (b : Bas K) : Res (OpI K) := do
  let q ← runOn (do
    QFunction.addInput "input".toList nc .interp
    QFunction.addInput "scale".toList nc .none
    QFunction.addOutput "output".toList nc .interp) (QFunction.QFunc.create 1)
  runOn (do
    setField rs "input".toList (argOf rid) (.obj b) (some .active)
    setField rs "scale".toList (.obj ρ) .none (some (.vec μ))
    setField rs "output".toList (argOf rid) (.obj b) (some .active)) (OpI.create q)

/-- What the call leaves behind: the operator, its basis, the new restriction and the contents of `q_data`. -/
structure Fdm (K : Type _) where
  op : OpI K
  basis : Bas K
  rstr : Rstr
  qdata : Buf K

/-- Local variables after the scan of the fields, lines 2775-2790: `act` is basis and restriction of the first active
input. -/
structure Scan (K : Type _) where
  interp : Bool
  grad : Bool
  act : Option (Option (Bas K) × Option Nat)

/-- Lines 2775-2790 on one field. -/
def scanField (a : OField K) (s : Scan K) : Scan K :=
  if a.vec = .active then
    ⟨s.interp || a.mode == .interp, s.grad || a.mode == .grad,
      match s.act with
      | some x => some x
      | Option.none => some (a.basis, a.rid)⟩
  else s

/-- Lines 2775-2790. -/
def scanFields (f : Nat → OField K) : Nat → Scan K
  | 0 => ⟨false, false, Option.none⟩
  | n + 1 => scanField (f n) (scanFields f n)

/-- `CeedElemRestrictionGetNumElements` (line 2798); `CEED_ELEMRESTRICTION_NONE` is a static object of zeros. -/
def numElemOf (rs : Nat → Rstr) : Option Nat → Nat
  | some r => (rs r).numElem.toNat
  | Option.none => 0

/-- Lines 2804-2823: the eigenvalue problem of the 1D matrices; `fdm_interp` and `lambda`. -/
def fdmEig (env : FEnv K) (b : Bas K) : Res (Buf K × Buf K) := do
  let (mass, lap) ← buildMassLaplace b.interp1 b.grad1 b.qWeight b.P1 b.Q1 b.dim
  let (X, lam) ← Basis.simDiag env.sqrt env.tol env.v0 env.t0 env.v1 env.t1 lap mass ⟨b.P1 * b.P1, fun _ => 0⟩
    ⟨b.P1, fun _ => 0⟩ b.P1
  let t ← fdmInterp X b.P1
  .ok (t, lam)

/-- Number of entries at a point that the code expects, lines 2827 and 2850. -/
def fdmEntries (interp grad : Bool) (dim nc : Nat) : Nat :=
  nc * nc * ((if interp then 1 else 0) + (if grad then dim else 0)) *
    ((if interp then 1 else 0) + (if grad then dim else 0))

/-- Lines 2833-2926 after the QFunction has been assembled into `v`: averages, scales, basis and restriction. -/
def fdmParts (env : FEnv K) (b : Bas K) (interp grad : Bool) (t lam v : Buf K) (cc ne : Nat) :
    Res (Bas K × Rstr × Buf K) := do
  let mx ← maxNorm v
  let w ← Basis.apply b env.junk 1 .noTranspose .weight Option.none ⟨b.Q, fun _ => 0⟩
  let avg ← elemAvgs v w (mx * 100 * env.eps) b.Q cc (fdmEntries interp grad b.dim b.nc) ne
  let diag ← fdmDiagonal interp grad b.dim b.P1 b.nc b.P env.eps lam
  let qd ← fdmScale avg diag ne b.nc b.P
  let fb ← Basis.createTensorH1 env.near (Basis.collocatedGrad env.sqrt env.v0 env.v1) b.dim b.nc b.P1 b.P1 t
    ⟨b.P1 * b.P1, fun _ => 0⟩ ⟨b.P1, fun _ => 0⟩
  let r ← Restriction.createStrided ne b.P b.nc ((ne : Int) * b.nc * b.P) (1, (b.P : Int), (b.P * b.nc : Nat))
  .ok (fb, r, qd)

/-- Lines 2791-2959 with the basis `b` and the restriction `rid`. `CeedBasisGetNumNodes1D` fails for a basis that is not a
tensor basis (`interface/ceed-basis.c` 2140-2144), so that the check of line 2804 is never reached with one. -/
def fdmWith (env : FEnv K) (op : Oper K) (interp grad : Bool) (b : Bas K) (rid : Option Nat) (ρ μ : Nat) :
    M (ASt K) (Fdm K) := do
  M.check (b.isTensor = true) .minor
  let p ← M.lift (fdmEig env b)
  let v ← buildOrUpdate op env.junk
  let s ← getA
  let x ← M.lift (fdmParts env b interp grad p.1 p.2 v (s.szIn * s.szOut) (numElemOf op.rstrs rid))
  let o ← M.lift (fdmOper (Function.update op.rstrs ρ x.2.1) b.nc rid ρ μ x.1)
  pure ⟨o, x.1, x.2.1, x.2.2⟩

/-- Lines 2737-2959 `CeedOperatorCreateFDMElementInverse`. An error about `CEED_BASIS_NONE`, which belongs to no `Ceed`,
aborts the program. -/
def createFdm (env : FEnv K) (op : Oper K) (ρ μ : Nat) : M (ASt K) (Fdm K) :=
  match (scanFields op.inp op.nin).act with
  | Option.none => M.fail .backend
  | some (Option.none, _) => M.undef
  | some (some b, rid) => fdmWith env op (scanFields op.inp op.nin).interp (scanFields op.inp op.nin).grad b rid ρ μ

end Operator
end Verif
