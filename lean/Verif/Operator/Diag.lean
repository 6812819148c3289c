import Verif.Operator.AsmData

/-!
# Operators: assembly of the diagonal and the point block diagonal

Models the default implementations in `interface/ceed-preconditioning.c` (the reference backend has none of its own for
operators on meshes).
-/

namespace Verif
namespace Operator

open Restriction (Rstr Variant)
open Basis (EMode)

variable {α : Type _} [CommRing α]

/-- Lines 347-379 in the diagonal case, one pair of evaluation modes of one element. `Bt`, `B` are the matrices, `bt`, `b`
the positions of the parts used, `ci`, `co` the offsets of the two modes. -/
def diagTerms (nc P Q nOut : Nat) (D : Buf α) (Qf sz : Nat) (Bt B : Buf α) (bt b co ci e : Nat) (v : Buf α) : Res (Buf α) :=
  loop nc (fun c v => loop Q (fun q v => do
    let d ← qfAt D Qf sz q ((ci + c) * nOut + co + c) e
    loop P (fun n v => do
      let x ← Bt.rd (bt * Q * P + (q * P + n))
      let y ← B.rd (b * Q * P + (q * P + n))
      v.addAt ((e * nc + c) * P + n) (x * d * y)) v) v) v

/-- Lines 347-379 in the point block case. -/
def blockTerms (nc P Q nOut : Nat) (D : Buf α) (Qf sz : Nat) (Bt B : Buf α) (bt b co ci e : Nat) (v : Buf α) :
    Res (Buf α) :=
  loop nc (fun c v => loop Q (fun q v => loop nc (fun c' v => do
    let d ← qfAt D Qf sz q ((ci + c') * nOut + co + c) e
    loop P (fun n v => do
      let x ← Bt.rd (bt * Q * P + (q * P + n))
      let y ← B.rd (b * Q * P + (q * P + n))
      v.addAt (((e * nc + c) * nc + c') * P + n) (x * d * y)) v) v) v) v

/-- `interface/ceed-preconditioning.c` 315-381: element diagonals (or point blocks, if `pb`) of one pair of an input and
an output basis, which are the same basis. -/
def pairTerms (p : Prec α) (pb : Bool) (a b : ABasis) (nOut : Nat) (D : Buf α) (Qf sz ne : Nat) (v : Buf α) : Res (Buf α) :=
  let nc := p.nc a.bid
  let P := p.P a.bid
  let Q := p.Q a.bid
  loop ne (fun e v => loopL (dirs (p.qComp b.bid) none 0 b.modes) (fun mo v => do
    let Bt ← basisPtr p b.bid mo.1 (ident P Q)
    loopL (dirs (p.qComp a.bid) none 0 a.modes) (fun mi v => do
      let B ← basisPtr p a.bid mi.1 (ident P Q)
      if pb then blockTerms nc P Q nOut D Qf sz Bt B mo.2.2 mi.2.2 mo.2.1 mi.2.1 e v
      else diagTerms nc P Q nOut D Qf sz Bt B mo.2.2 mi.2.2 mo.2.1 mi.2.1 e v) v) v) v

/-- Lines 252-276: pairs of active bases that are the same object, running over the shorter table. -/
def basisPairs (ins outs : List ABasis) : List (ABasis × ABasis) :=
  if ins.length ≤ outs.length then ins.filterMap (fun a => (outs.find? (fun b => a.bid = b.bid)).map (fun b => (a, b)))
  else outs.filterMap (fun b => (ins.find? (fun a => a.bid = b.bid)).map (fun a => (a, b)))

/-- `interface/ceed-preconditioning.c` 1150-1184 `CeedOperatorCreateActivePointBlockRestriction`. The offsets of a strided
restriction are a null pointer. -/
def pointBlock (checked : Bool) (r : Rstr) : Res Rstr := do
  let shift : Int := if r.compStride ≠ 1 then r.numComp * r.numComp else r.numComp
  let n := (r.numElem * r.elemSize).toNat
  let offs ← loop n (fun i v => do
    let o ← r.offsets.rd i
    v.wr i (o * shift)) ⟨n, fun _ => 0⟩
  Restriction.create checked r.numElem r.elemSize ((r.numComp : Int) * r.numComp) 1 (r.lSize * r.numComp) offs .none

/-- `CeedElemRestrictionApply(rstr, CEED_TRANSPOSE, elem_diag, assembled)` with a restriction in variant `var`: line 384.
`CeedVectorGetArray` needs valid data, and restoring the array advances the state counter by two. -/
def scatterAs (var : Variant) (r : Rstr) (w : Buf α) (out : Nat) : M (St α) Unit := fun s =>
  if (s.vecs out).valid then
    match Restriction.apply r var .transpose w (s.vecs out).buf with
    | .ok v => .ok { s with vecs := Function.update s.vecs out ⟨(s.vecs out).state + 2, true, v⟩ } ()
    | .err e => .err s e
    | .ub => .ub
  else .err s .backend

/-- Lines 282-292, 384: the restriction of the element diagonals, in which `f` accumulates. -/
def diagWith (pb checked : Bool) (r : Rstr) (f : Buf α → Res (Buf α)) (out : Nat) : M (ASt α) Unit :=
  if pb then do
    let rp ← M.lift (pointBlock checked r)
    let w ← M.lift (f ⟨rp.eSize, fun _ => 0⟩)
    liftS (scatterAs .plain rp w out)
  else do
    let w ← M.lift (f ⟨r.eSize, fun _ => 0⟩)
    liftS (scatterAs .unsigned r w out)

/-- Lines 277-390, one pair of bases. -/
def diagPair (op : Oper α) (p : Prec α) (pb checked : Bool) (nOut : Nat) (D : Buf α) (sz out : Nat) (ab : ABasis × ABasis) :
    M (ASt α) Unit := do
  M.check (ab.1.rid = ab.2.rid) .unsupported
  match ab.1.rid with
  | some r =>
    diagWith pb checked (op.rstrs r) (pairTerms p pb ab.1 ab.2 nOut D op.Q sz (op.rstrs r).numElem.toNat) out
  | none => M.undef

/-- `interface/ceed-preconditioning.c` 218-389 `CeedSingleOperatorLinearAssembleAddDiagonal_Mesh`. -/
def addDiagonalMesh (op : Oper α) (p : Prec α) (pb checked : Bool) (junk : Nat → Nat → α) (out : Nat) : M (ASt α) Unit := do
  let D ← buildOrUpdate op junk
  let s ← getA
  let ins := asmData p op.inp p.inB op.nin
  let outs := asmData p op.out p.outB op.nout
  forEach (basisPairs ins.1 outs.1) (diagPair op p pb checked outs.2 D (s.szIn * s.szOut) out)

/-- `interface/ceed-preconditioning.c` 2067-2102 `CeedOperatorLinearAssembleAddDiagonal` and (`pb`) 2293-2328
`CeedOperatorLinearAssembleAddPointBlockDiagonal` on a ready operator that is not composite, not at points, and has no
fallback. `checked`: the backend checks offsets when a restriction is created. -/
def addDiagonal (op : Oper α) (p : Prec α) (pb checked : Bool) (junk : Nat → Nat → α) (out : Nat) : M (ASt α) Unit := do
  M.check (p.inSize = p.outSize) .dimension
  if op.ne = 0 then pure () else addDiagonalMesh op p pb checked junk out

/-- `interface/ceed-preconditioning.c` 2008-2047 `CeedOperatorLinearAssembleDiagonal` and (`pb`) 2231-2271
`CeedOperatorLinearAssemblePointBlockDiagonal` under the same conditions. -/
def assembleDiagonal (op : Oper α) (p : Prec α) (pb checked : Bool) (junk : Nat → Nat → α) (out : Nat) :
    M (ASt α) Unit := do
  M.check (p.inSize = p.outSize) .dimension
  if op.ne = 0 then pure () else do
    liftS (zeroVec (.vec out))
    addDiagonal op p pb checked junk out

end Operator
end Verif
