import Verif.Operator.AsmData

/-!
# Operators: assembly of the matrix in coordinate format

Models the default implementations in `interface/ceed-preconditioning.c` (the reference backend has none of its own). The
operator is ready, not at points, and has no fallback. Locks on the vectors are the subject of `Verif/Vector`.
-/

namespace Verif
namespace Operator

open Restriction (Rstr Variant)
open Basis (EMode)

variable {α : Type _} [CommRing α]

/-- The loops of `interface/ceed-operator.c` 290-320, 325-345 `CeedOperatorGetActiveElemRestrictions` over the first `n`
fields; `some none` is `CEED_ELEMRESTRICTION_NONE`. -/
def findRstr (f : Nat → OField α) : Nat → Res (Option (Option Nat))
  | 0 => .ok none
  | n + 1 => do
    let a ← findRstr f n
    if (f n).vec = .active then
      match a with
      | some r => if r = (f n).rid then .ok (some r) else .err .minor
      | none => .ok (some (f n).rid)
    else .ok a

/-- Lines 305-320: the restriction of the active fields. An active field without restriction can only be set in the mode
`CEED_EVAL_WEIGHT`; its use here is not modelled. -/
def activeRstr (f : Nat → OField α) (n : Nat) : Res Nat := do
  match ← findRstr f n with
  | none => .err .incomplete
  | some none => .ub
  | some (some r) => .ok r

/-- The restrictions of the active inputs and outputs, and the comparison of their numbers of elements
(`interface/ceed-preconditioning.c` 475-500, 645-672, 828-843). -/
def activePair (op : Oper α) : Res (Nat × Nat) := do
  let ri ← activeRstr op.inp op.nin
  let ro ← activeRstr op.out op.nout
  Res.check (ri = ro ∨ (op.rstrs ri).numElem = (op.rstrs ro).numElem) .unsupported
  .ok (ri, ro)

/-- `interface/ceed-preconditioning.c` 821-850 `CeedSingleOperatorAssemblyCountEntries`. -/
def countEntries (op : Oper α) : Res Nat := do
  let r ← activePair op
  .ok ((op.rstrs r.1).elemSize * (op.rstrs r.1).numComp * (op.rstrs r.2).elemSize * (op.rstrs r.2).numComp *
    (op.rstrs r.1).numElem.toNat)

/-- Lines 480-492 and 502-514: the numbers of the entries of the L-vector as an E-vector. The code computes them as
`CeedScalar`, which represents them exactly in double precision (up to 2^53; up to 2^24 in single precision). -/
def dofs (r : Rstr) (n : Int) : Res (Buf Int) :=
  Restriction.apply r .unoriented .noTranspose ⟨n.toNat, fun i => i⟩
    ⟨r.numElem.toNat * r.elemSize * r.numComp, fun _ => 0⟩

/-- `interface/ceed-preconditioning.c` 456-552 `CeedSingleOperatorAssembleSymbolic`. `rows` and `cols` are modelled as one
array of pairs; the state of the loops is the array and `count`. -/
def symbolicSingle (op : Oper α) (p : Prec α) (off : Nat) (rc : Buf (Int × Int)) : Res (Buf (Int × Int)) := do
  let r ← activePair op
  let ri := op.rstrs r.1
  let ro := op.rstrs r.2
  let din ← dofs ri p.inSize
  let dout ← dofs ro (if r.1 = r.2 then p.inSize else p.outSize)
  let s ← loop ri.numElem.toNat (fun e s => loop ri.numComp (fun ci s => loop ro.numComp (fun co s =>
    loop ro.elemSize (fun i s => loop ri.elemSize (fun j (s : Buf (Int × Int) × Nat) => do
      let row ← dout.rd (i + co * ro.elemSize + e * (ro.elemSize * ro.numComp))
      let col ← din.rd (j + ci * ri.elemSize + e * (ri.elemSize * ri.numComp))
      let rc ← s.1.wr (off + s.2) (row, col)
      .ok (rc, s.2 + 1)) s) s) s) s) (rc, 0)
  Res.check (s.2 = ro.elemSize * ro.numComp * ri.elemSize * ri.numComp * ri.numElem.toNat) .major
  .ok s.1

/-- `interface/ceed-preconditioning.c` 2354-2410 `CeedOperatorLinearAssembleSymbolic` on a single operator: `num_entries`
and the coordinates. -/
def symbolic (op : Oper α) (p : Prec α) : Res (Nat × Buf (Int × Int)) := do
  let n ← countEntries op
  let rc ← symbolicSingle op p 0 ⟨n, fun _ => (0, 0)⟩
  .ok (n, rc)

/-- Quadrature points of an active basis: lines 649-650, 1625-1626. -/
def fullQ (p : Prec α) (bid : Option Nat) (es : Nat) : Nat :=
  match bid with
  | some b => (p.bas b).Q
  | none => es

/-- `interface/ceed-preconditioning.c` 1620-1668 and 1670-1714 `CeedOperatorAssemblyDataGetBases`, for one basis with
restriction `rid`. (The matrices are kept in the assembly data for later calls; bases do not change.) -/
def assembledBasis (op : Oper α) (p : Prec α) (a : ABasis) : Res (Buf α) :=
  match a.rid with
  | none => .ub
  | some r =>
    let P := (op.rstrs r).elemSize
    let Q := fullQ p a.bid P
    let l := dirs (p.qComp a.bid) none 0 a.modes
    loop Q (fun q v => loop P (fun n v => loop l.length (fun e v =>
      match l[e]? with
      | none => .ub
      | some m => do
        let B ← basisPtr p a.bid m.1 (ident P Q)
        let x ← B.rd (m.2.2 * Q * P + (q * P + n))
        v.wr ((l.length * q + e) * P + n) x) v) v) ⟨Q * P * l.length, fun _ => 0⟩

/-- Lines 698-715: `B^T D` for one element and one pair of components. -/
def btd (Bout D : Buf α) (esO ncI ncO nI nO Q Qf sz e ci co : Nat) : Res (Buf α) :=
  loop esO (fun n v => loop Q (fun q v => loop nI (fun ei v => do
    let x ← loop nO (fun eo x => do
      let b ← Bout.rd ((q * nO + eo) * esO + n)
      let d ← qfAt D Qf sz q (((ei * ncI + ci) * nO + eo) * ncO + co) e
      .ok (x + b * d)) 0
    v.wr (n * (Q * nI) + q * nI + ei) x) v) v) ⟨esO * Q * nI, fun _ => 0⟩

/-- `interface/ceed-basis.c` 1066-1076 `CeedMatrixMatrixMultiply`. -/
def matMul (A B C : Buf α) (m n kk : Nat) : Res (Buf α) :=
  loop m (fun i C => loop n (fun j C => do
    let s ← loop kk (fun k s => do
      let x ← A.rd (k + i * kk)
      let y ← B.rd (j + k * n)
      .ok (s + x * y)) 0
    C.wr (j + i * n) s) C) C

/-- Lines 717-727: the element matrix, with the tensor contraction of the basis if it has one. (The array is the same for
all elements; every entry is overwritten.) -/
def elemMat (tensor : Bool) (A B : Buf α) (esO esI k : Nat) : Res (Buf α) :=
  if tensor then Basis.contract 1 k esI esO A 0 .noTranspose false B 0 ⟨esO * esI, fun _ => 0⟩ 0
  else matMul A B ⟨esO * esI, fun _ => 0⟩ esO esI k

/-- The conditional products of lines 748-749 and 769-770. -/
def timesIf (c : Prop) [Decidable c] (m : Buf α) (i : Nat) (t : Buf Int) (k : Nat) : Res α :=
  if c then do
    let y ← m.rd i
    let x ← t.rd k
    .ok (y * (x : α))
  else .ok 0

/-- Lines 729-752: the transpose of the orientation matrix of the output restriction. `m` is also the copy `elem_mat_b`. -/
def orientRows (r : Rstr) (e esO esI : Nat) (m : Buf α) : Res (Buf α) :=
  match r.rtype with
  | .oriented => loop esO (fun i m => do
      let b ← r.orients.rd (e * esO + i)
      loop esI (fun j m => do
        let x ← m.rd (i * esI + j)
        m.wr (i * esI + j) (x * if b then -1 else 1)) m) m
  | .curlOriented => loop esO (fun i w => loop esI (fun j w => do
      let x ← m.rd (i * esI + j)
      let c ← r.curlOrients.rd (e * 3 * esO + (3 * i + 1))
      let y ← timesIf (0 < i) m ((i - 1) * esI + j) r.curlOrients (e * 3 * esO + (3 * i - 1))
      let z ← timesIf (i + 1 < esO) m ((i + 1) * esI + j) r.curlOrients (e * 3 * esO + (3 * i + 3))
      w.wr (i * esI + j) (x * (c : α) + y + z)) w) m
  | _ => .ok m

/-- Lines 753-773: the orientation matrix of the input restriction. -/
def orientCols (r : Rstr) (e esO esI : Nat) (m : Buf α) : Res (Buf α) :=
  match r.rtype with
  | .oriented => loop esO (fun i m => loop esI (fun j m => do
      let x ← m.rd (i * esI + j)
      let b ← r.orients.rd (e * esI + j)
      m.wr (i * esI + j) (x * if b then -1 else 1)) m) m
  | .curlOriented => loop esO (fun i w => loop esI (fun j w => do
      let x ← m.rd (i * esI + j)
      let c ← r.curlOrients.rd (e * 3 * esI + (3 * j + 1))
      let y ← timesIf (0 < j) m (i * esI + j - 1) r.curlOrients (e * 3 * esI + (3 * j - 1))
      let z ← timesIf (j + 1 < esI) m (i * esI + j + 1) r.curlOrients (e * 3 * esI + (3 * j + 3))
      w.wr (i * esI + j) (x * (c : α) + y + z)) w) m
  | _ => .ok m

/-- Lines 693-790: the values. The state of the loops is the array of `values` and `count`. -/
def fillVals (tensor : Bool) (ri ro : Rstr) (Bin Bout D : Buf α) (nI nO Q Qf sz off : Nat) (v : Buf α) : Res (Buf α) := do
  let s ← loop ri.numElem.toNat (fun e s => loop ri.numComp (fun ci s => loop ro.numComp (fun co s => do
    let A ← btd Bout D ro.elemSize ri.numComp ro.numComp nI nO Q Qf sz e ci co
    let m ← elemMat tensor A Bin ro.elemSize ri.elemSize (Q * nI)
    let m ← orientRows ro e ro.elemSize ri.elemSize m
    let m ← orientCols ri e ro.elemSize ri.elemSize m
    loop ro.elemSize (fun i s => loop ri.elemSize (fun j (s : Buf α × Nat) => do
      let x ← m.rd (i * ri.elemSize + j)
      let v ← s.1.wr (off + s.2) x
      .ok (v, s.2 + 1)) s) s) s) s) (v, 0)
  Res.check (s.2 = ro.elemSize * ro.numComp * ri.elemSize * ri.numComp * ri.numElem.toNat) .major
  .ok s.1

/-- `CeedVectorGetArray`, a change of the array, `CeedVectorRestoreArray`. -/
def editVec (out : Nat) (f : Buf α → Res (Buf α)) : M (St α) Unit := fun s =>
  if (s.vecs out).valid then
    match f (s.vecs out).buf with
    | .ok v => .ok { s with vecs := Function.update s.vecs out ⟨(s.vecs out).state + 2, true, v⟩ } ()
    | .err e => .err s e
    | .ub => .ub
  else .err s .backend

/-- Lines 637-792 with one active basis on either side. -/
def assembleWith (op : Oper α) (p : Prec α) (tensor : Bool) (D : Buf α) (sz off out : Nat) (a b : ABasis) :
    M (ASt α) Unit := do
  M.check (0 < a.modes.length ∧ 0 < b.modes.length) .unsupported
  let Bin ← M.lift (assembledBasis op p a)
  let Bout ← M.lift (assembledBasis op p b)
  let r ← M.lift (activePair op)
  let Q := fullQ p a.bid (op.rstrs r.1).elemSize
  M.check (r.1 = r.2 ∨ Q = fullQ p b.bid (op.rstrs r.2).elemSize) .unsupported
  liftS (editVec out (fillVals tensor (op.rstrs r.1) (op.rstrs r.2) Bin Bout D a.modes.length b.modes.length Q op.Q sz off))

/-- `interface/ceed-preconditioning.c` 569-807 `CeedSingleOperatorAssemble`. `tensor`: the input basis has a tensor
contraction. -/
def assembleSingle (op : Oper α) (p : Prec α) (tensor : Bool) (junk : Nat → Nat → α) (off out : Nat) : M (ASt α) Unit :=
  if op.ne = 0 then pure () else do
    let D ← buildOrUpdate op junk
    let s ← getA
    match (asmData p op.inp p.inB op.nin).1, (asmData p op.out p.outB op.nout).1 with
    | [a], [b] => assembleWith op p tensor D (s.szIn * s.szOut) off out a b
    | _, _ => M.fail .unsupported

/-- `interface/ceed-preconditioning.c` 2429-2475 `CeedOperatorLinearAssemble` on a single operator. -/
def assemble (op : Oper α) (p : Prec α) (tensor : Bool) (junk : Nat → Nat → α) (out : Nat) : M (ASt α) Unit :=
  if op.ne = 0 then pure () else do
    liftS (zeroVec (.vec out))
    assembleSingle op p tensor junk 0 out

end Operator
end Verif
