import Verif.Gpu.Basis
import Verif.Operator.Full

/-!
# Assembly of matrices on a device

Models the kernel `include/ceed/jit-source/cuda/cuda-ref-operator-assemble.h` (`LinearAssemble`) and what
`backends/cuda-ref/ceed-cuda-ref-operator.c` 1480-1675, 1686-1783 prepares for it.
(`backends/hip-ref/ceed-hip-ref-operator.hip.cpp` and its kernel are the same.)

The assembled QFunction is an argument: the vector which `CeedOperatorLinearAssembleQFunctionBuildOrUpdate` returns, in the
layout of the restriction the device creates with it (`{1, num_elem * Q, Q}`, line 1027). Locks of vectors are not
modelled; the offset into `values` is a natural number; the device has enough shared memory (otherwise the launch fails
before anything is computed).
-/

namespace Verif.Gpu

open Verif.Basis (EMode)
open Verif.Operator (Oper Prec ABasis OField asmData dirs basisPtr ident fullQ activePair)

variable {α : Type} [CommRing α]

/-! ## The kernel of the matrix -/

/-- Constants compiled into `LinearAssemble`: `NUM_EVAL_MODES_IN`, `NUM_EVAL_MODES_OUT`, `NUM_COMP_IN`, `NUM_COMP_OUT`,
`NUM_NODES_IN`, `NUM_NODES_OUT`, `NUM_QPTS`, `BLOCK_SIZE_Y`, and the argument `num_elem`. -/
structure AsmK where
  (eI eO ncI ncO nI nO Q bY ne : Nat)

/-- Its pointer arguments to orientations, null if absent: `orients_in`, `curl_orients_in`, `orients_out`,
`curl_orients_out`. -/
structure AsmO where
  oIn : Option (Buf Bool)
  cIn : Option (Buf Int)
  oOut : Option (Buf Bool)
  cOut : Option (Buf Int)

/-- Lines 41-45, 52, 59: position in `qf_array` of `e_in`, `comp_in`, `e_out`, `comp_out`, element and quadrature point. -/
def AsmK.qfPos (k : AsmK) (x ci y co e j : Nat) : Nat :=
  let sCo := k.ne * k.Q
  let sEo := sCo * k.ncO
  let sCi := sEo * k.eO
  let sEi := sCi * k.ncI
  sCi * ci + sCo * co + k.Q * e + sEo * y + sEi * x + j

/-- Lines 36-38, 74, 93: position in `values_array`. -/
def AsmK.valPos (k : AsmK) (e ci co i l : Nat) : Nat :=
  let sCo := k.nO * k.nI
  let sCi := sCo * k.ncO
  let sE := sCi * k.ncI
  sE * e + sCi * ci + sCo * co + k.nI * i + l

/-- Lines 51-66: `result`. `B_in` is table 0, `B_out` table 1. -/
def asmSum (k : AsmK) (e ci co i l : Nat) : K α α :=
  forN k.eI (fun x r => forN k.eO (fun y r => forN k.Q (fun j r => do
    let b ← rd (.table 1) ((y * k.Q * k.nO + j * k.nO + i : Nat) : Int)
    let d ← rd .u ((k.qfPos x ci y co e j : Nat) : Int)
    let c ← rd (.table 0) ((x * k.Q * k.nI + j * k.nI + l : Nat) : Int)
    pure (r + b * d * c)) r) r) 0

/-- Lines 67-72: `if (orients) result *= orients[i] ? -1.0 : 1.0`. -/
def signIf (o : Option (Buf Bool)) (i : Nat) (r : α) : K α α :=
  match o with
  | none => pure r
  | some b => do
    let x ← ird b ((i : Nat) : Int)
    pure (r * if x then -1 else 1)

/-- Lines 80-83 and 96-99: entry `l` of a row or column of `N` shared entries at the positions `pos`, times the
tridiagonal matrix of the element. -/
def curlDot (c : Buf Int) (a : Arr) (pos : Nat → Nat) (N e l : Nat) : K α α := do
  let x ← (if 0 < l then (do
    let s ← rd a ((pos (l - 1) : Nat) : Int)
    let o ← ird c ((3 * N * e + 3 * l - 1 : Nat) : Int)
    pure (s * (o : α))) else pure 0 : K α α)
  let s ← rd a ((pos l : Nat) : Int)
  let o ← ird c ((3 * N * e + 3 * l + 1 : Nat) : Int)
  let z ← (if l + 1 < N then (do
    let s ← rd a ((pos (l + 1) : Nat) : Int)
    let o ← ird c ((3 * N * e + 3 * l + 3 : Nat) : Int)
    pure (s * (o : α))) else pure 0 : K α α)
  pure (x + s * (o : α) + z)

/-- Lines 51-87: the body of the first loop over `i`, in thread `(threadIdx.x, threadIdx.y) = (l, y)`. The shared array of
the block is `s_CT` followed by `s_C` (lines 26-27). -/
def asmFirst (k : AsmK) (o : AsmO) (off b e ci co l y i : Nat) : K α Unit := do
  let r ← asmSum k e ci co i l
  let r ← signIf o.oIn (k.nI * e + l) r
  let r ← signIf o.oOut (k.nO * e + i) r
  match o.cIn, o.cOut with
  | none, none => wr .v ((off + k.valPos e ci co i l : Nat) : Int) r
  | some c, _ => do
    wr (.shared b 0) ((k.nO * k.nI + (k.nI * y + l) : Nat) : Int) r
    syncthreads
    let x ← curlDot c (.shared b 0) (fun n => k.nO * k.nI + (k.nI * y + n)) k.nI e l
    wr (.shared b 0) ((k.nI * i + l : Nat) : Int) x
  | none, some _ => wr (.shared b 0) ((k.nI * i + l : Nat) : Int) r

/-- Lines 93-103: the body of the second loop over `i`. -/
def asmSecond (k : AsmK) (o : AsmO) (off b e ci co l i : Nat) : K α Unit :=
  match o.cOut with
  | some c => do
    let x ← curlDot c (.shared b 0) (fun n => k.nI * n + l) k.nO e i
    wr .v ((off + k.valPos e ci co i l : Nat) : Int) x
  | none => do
    let x ← rd (.shared b 0) ((k.nI * i + l : Nat) : Int)
    wr .v ((off + k.valPos e ci co i l : Nat) : Int) x

/-- Lines 88-105: after the first loop. -/
def asmTail (k : AsmK) (o : AsmO) (off b e ci co l y : Nat) : K α Unit :=
  match o.cIn, o.cOut with
  | none, none => pure ()
  | _, some _ => do
    syncthreads
    strideFor k.nO y k.bY (asmSecond k o off b e ci co l)
  | some _, none => strideFor k.nO y k.bY (asmSecond k o off b e ci co l)

/-- `cuda-ref-operator-assemble.h` 21-109 `LinearAssemble` in thread `t` of block `b` of `G` blocks of `nI * bY` threads. -/
def asmKernel (k : AsmK) (o : AsmO) (off G b t : Nat) : K α Unit :=
  strideFor k.ne b G (fun e => forN k.ncI (fun ci _ => forN k.ncO (fun co _ => do
    strideFor k.nO (t / k.nI) k.bY (asmFirst k o off b e ci co (t % k.nI) (t / k.nI))
    asmTail k o off b e ci co (t % k.nI) (t / k.nI)) ()) ())

/-! ## Host functions -/

/-- Lines 1500-1527 and 1532-1565: the active fields must have one basis; its evaluation modes, and the restriction of the
first of the fields. (`asmData` collects the same for the host.) -/
def oneBasis (p : Prec α) (f : Nat → OField α) (ids : Nat → Option Nat) (n : Nat) : Res ABasis :=
  match (asmData p f ids n).1 with
  | [a] => .ok a
  | _ => .err .backend

/-- Lines 1592-1629 and 1633-1670: `d_B_in`, `d_B_out`, the matrices of all evaluation modes one after the other. -/
def packModes (p : Prec α) (a : ABasis) (P Q : Nat) : Res (Buf α) :=
  let l := dirs (p.qComp a.bid) none 0 a.modes
  loop l.length (fun e v =>
    match l[e]? with
    | none => .ub
    | some m => do
      let B ← basisPtr p a.bid m.1 (ident P Q)
      loop (P * Q) (fun x v => do
        let y ← B.rd (m.2.2 * P * Q + x)
        v.wr (e * P * Q + x) y) v) ⟨P * Q * l.length, fun _ => 0⟩

/-- Lines 1568-1580: `block_size_y`. -/
def blockY (dv : Device) (nI nO : Nat) : Nat := if dv.maxThreads < nI * nO then 1 else nO

/-- Memory of `LinearAssemble`: the assembled QFunction, the values, the two packed bases, and the dynamic shared memory of
lines 1745-1747. -/
def memAsm (sh : Nat) (junk : Vals α) (bIn bOut D v : Buf α) : Mem α where
  len a := match a with
    | .u => D.len
    | .v => v.len
    | .table 0 => bIn.len
    | .table 1 => bOut.len
    | .table _ => 0
    | .shared _ 0 => sh
    | .shared _ _ => 0
  val a := match a with
    | .u => D.val
    | .v => v.val
    | .table 0 => bIn.val
    | .table 1 => bOut.val
    | .table _ => fun _ => 0
    | .shared b j => junk (.shared b j)

/-- Orientations of a restriction, lines 1722-1727, 1736-1741. -/
def orientsOf (r : Restriction.Rstr) : Option (Buf Bool) × Option (Buf Int) :=
  match r.rtype with
  | .oriented => (some r.orients, none)
  | .curlOriented => (none, some r.curlOrients)
  | _ => (none, none)

/-- `ceed-cuda-ref-operator.c` 1686-1783 `CeedSingleOperatorAssemble_Cuda` with 1480-1675
`CeedSingleOperatorAssembleSetup_Cuda`: the launch. `D` is the assembled QFunction, `v` the array of `values`. (What the
setup prepares is kept for later calls; nothing it depends on changes.) -/
def assembleDev (dv : Device) (junk : Vals α) (op : Oper α) (p : Prec α) (D : Buf α) (off : Nat) (v : Buf α) :
    Res (Launch α) := do
  let a ← oneBasis p op.inp p.inB op.nin
  let b ← oneBasis p op.out p.outB op.nout
  match a.rid, b.rid with
  | some sI, some sO => do
    let nI := (op.rstrs sI).elemSize
    let nO := (op.rstrs sO).elemSize
    let Q := fullQ p a.bid nI
    Res.check (Q = fullQ p b.bid nO) .unsupported
    Res.check (0 < a.modes.length ∧ 0 < b.modes.length) .unsupported
    let bIn ← packModes p a nI Q
    let bOut ← packModes p b nO Q
    let r ← activePair op
    let oI := orientsOf (op.rstrs r.1)
    let oO := orientsOf (op.rstrs r.2)
    let bY := blockY dv nI nO
    let k : AsmK := ⟨a.modes.length, b.modes.length, (op.rstrs sI).numComp, (op.rstrs sO).numComp, nI, nO, Q, bY,
      (op.rstrs r.1).numElem.toNat⟩
    let sh := (if oI.2.isSome ∨ oO.2.isSome then nI * nO else 0) + (if oI.2.isSome then nI * bY else 0)
    runDev dv k.ne (nI * bY) (asmKernel k ⟨oI.1, oI.2, oO.1, oO.2⟩ off k.ne) (memAsm sh junk bIn bOut D v)
  | _, _ => .ub

end Verif.Gpu
