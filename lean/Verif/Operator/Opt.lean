import Verif.Operator.Model

/-!
# Operators: application by the CPU backends that work on blocks of elements

Models `backends/opt/ceed-opt-operator.c` 19-513, the operator used by the `opt`, `avx` and `xsmm` backends, for any block
size (1 and 8 are registered, `backends/opt/ceed-opt-serial.c` and `ceed-opt-blocked.c`). Active inputs and all outputs
pass through E-vectors of one block; passive inputs are restricted completely and cached.

The state of `Verif/Operator/Model.lean` is reused: `impl.eIn` are the E-vectors `e_vecs_full` of the inputs (those of
outputs are never used), `impl.eOut` the E-vectors `e_vecs_out` of one block, `impl.qIn` is `q_vecs_in`. The user function
is a family `F`: `F n` computes the output arrays from the input arrays when called with `n` points.
-/

namespace Verif
namespace Operator

open Restriction (Rstr TMode)
open Basis (Bas EMode)

variable {α : Type _} [CommRing α]

/-- `CeedOperator_Opt` (`backends/opt/ceed-opt.h`): `br r` is the copy with blocks of restriction `r` (`block_rstr`; the
code makes a copy for every field, copies of the same restriction are equal), `eBlk` are the E-vectors `e_vecs_in` of one
block, named by the field that created them. -/
structure OSt (α : Type _) where
  base : St α
  br : Nat → Rstr
  eBlk : Nat → Buf α

/-- Read the state. -/
def getOB : M (OSt α) (OSt α) := fun s => .ok s s
/-- An action on the common part of the state. -/
def onB {β : Type _} (m : M (St α) β) : M (OSt α) β := fun s =>
  match m s.base with
  | .ok b a => .ok { s with base := b } a
  | .err b e => .err { s with base := b } e
  | .ub => .ub
/-- A pointer that must not be null. -/
def optr {β : Type _} (p : Option β) : M (OSt α) β :=
  match p with
  | some b => pure b
  | none => M.undef
/-- Store the block E-vector `k` of the inputs. -/
def setBlk (k : Nat) (v : Buf α) : M (OSt α) Unit := fun s => .ok { s with eBlk := Function.update s.eBlk k v } ()

/-- The operator with the restrictions `br`. -/
def Oper.blk (op : Oper α) (br : Nat → Rstr) : Oper α := { op with rstrs := br }

/-- `ceed-opt-operator.c` 56-107: the copy of a restriction with blocks of `bs` elements. Restrictions at points do not
occur. -/
def blockRstr (chk : Bool) (bs : Nat) (r : Rstr) : Res Rstr :=
  match r.rtype with
  | .standard => Restriction.createBlocked chk r.numElem r.elemSize bs r.numComp r.compStride r.lSize r.offsets .none
  | .oriented =>
    Restriction.createBlocked chk r.numElem r.elemSize bs r.numComp r.compStride r.lSize r.offsets (.signs r.orients)
  | .curlOriented =>
    Restriction.createBlocked chk r.numElem r.elemSize bs r.numComp r.compStride r.lSize r.offsets (.curl r.curlOrients)
  | .strided =>
    match r.strides with
    | some s => Restriction.createBlockedStrided r.numElem r.elemSize bs r.numComp r.lSize s
    | none => .ub
  | .points => .ub

/-- `ceed-opt-operator.c` 48-111, one field. -/
def blockField (chk : Bool) (bs : Nat) (op : Oper α) (a : OField α) (br : Nat → Rstr) : Res (Nat → Rstr) :=
  if a.mode = .weight then .ok br
  else match a.rid with
    | some r => do
      let b ← blockRstr chk bs (op.rstrs r)
      .ok (Function.update br r b)
    | none => .ub

/-- `ceed-opt-operator.c` 45-112 for inputs and outputs: copies of the restrictions of all fields. Restrictions that are
not used are left alone. -/
def setupBlocks (chk : Bool) (bs : Nat) (op : Oper α) : Res (Nat → Rstr) := do
  let br ← loop op.nin (fun i br => blockField chk bs op (op.inp i) br) op.rstrs
  loop op.nout (fun o br => blockField chk bs op (op.out o) br) br

/-- `ceed-opt-operator.c` 114-135: length, per element of the block, of the E-vector of one block of a field. -/
def OField.evOpt (Q : Nat) (a : OField α) : Option Nat :=
  if a.mode = .none then some (Q * a.size)
  else if isBasisMode a.mode then a.basis.map (fun b => b.P * b.nc)
  else none

/-- `ceed-opt-operator.c` 114-142 on inputs: the vectors of quadrature data, with the weights of `bs` elements. -/
def setupQOpt (op : Oper α) (bs : Nat) (junk : Nat → Nat → α) : Res (Nat → Buf α) :=
  loop op.nin (fun i q =>
      if (op.inp i).mode = .weight then
        match (op.inp i).basis with
        | some b => do
          let v ← Basis.apply b junk bs .noTranspose .weight none ⟨op.Q * bs, fun _ => 0⟩
          .ok (Function.update q i v)
        | none => .err .incompatible
      else .ok q)
    (fun i => ⟨op.Q * (op.inp i).size * bs, fun _ => 0⟩)

/-- `ceed-opt-operator.c` 205-272 `CeedOperatorSetup_Opt`. The sharing of E-vectors (lines 146-198) is that of the
reference backend; `e_vecs` and `e_vecs_full` are shared in the same way, `it.full` and `ot.full` name both. -/
def setupOpt (op : Oper α) (chk : Bool) (bs : Nat) (junk : Nat → Nat → α) : M (OSt α) Unit := do
  let s ← getOB
  if s.base.impl.done then pure () else do
    let br ← M.lift (setupBlocks chk bs op)
    let q ← M.lift (setupQOpt op bs junk)
    let it ← M.lift (setupInWith (OField.evOpt op.Q) op)
    let ot ← M.lift (setupOutWith (OField.evOpt op.Q) op)
    onB (modI (fun c => { c with
      done := true
      idRstr := op.isId && decide ((op.inp 0).mode = .none) && decide ((op.out 0).mode = .none)
      it := it
      ot := ot
      states := fun _ => 0
      eIn := fun i => ⟨eSizeOf (op.blk br) (op.inp i), (c.eIn i).val⟩
      eInOk := fun _ => false
      rd := fun _ => 0
      eOut := fun i => ⟨((op.out i).evOpt op.Q).getD 0 * bs, fun _ => 0⟩
      wr := fun _ => false
      qIn := q }))
    fun s => .ok { s with br := br, eBlk := fun i => ⟨((op.inp i).evOpt op.Q).getD 0 * bs, fun _ => 0⟩ } ()

/-! In the rest `op` is the operator with the copies of the restrictions that have blocks. -/

/-- `CeedElemRestrictionApplyBlock(block_rstr[i], b, CEED_NOTRANSPOSE, in_vec, e_vecs_in[i])`: lines 341-343 and 467. -/
def blockIn (op : Oper α) (inv : VPtr) (b i : Nat) : M (OSt α) Unit := do
  let s ← getOB
  let r ← optr (op.inp i).rid
  let k ← optr (s.base.impl.it.full i)
  let u ← onB (readVec inv)
  let v ← M.lift (Restriction.applyBlock (op.rstrs r) b .noTranspose u (s.eBlk k))
  setBlk k v

/-- Line 360: basis action on the E-vector `u` of one block of input `i`. -/
def blockBasis (op : Oper α) (junk : Nat → Nat → α) (bs i : Nat) (u : Buf α) : M (OSt α) Unit := do
  let s ← getOB
  let b ← optr (op.inp i).basis
  let v ← M.lift (Basis.apply b junk bs .noTranspose (op.inp i).mode (some u) (s.base.impl.qIn i))
  onB (setQ i v)

/-- Lines 344-362 for an active input whose block has been restricted. `q_vecs_in[i]` of an input without basis points to
the array of `e_vecs_in[i]` (lines 302-306); the array is not changed before it is read. -/
def activeData (op : Oper α) (junk : Nat → Nat → α) (bs i : Nat) : M (OSt α) Unit := do
  let s ← getOB
  let k ← optr (s.base.impl.it.full i)
  if (op.inp i).mode = .none then do
    let u ← M.lift (slice (s.eBlk k) 0 (op.Q * (op.inp i).size * bs))
    onB (setQ i u)
  else blockBasis op junk bs i (s.eBlk k)

/-- Lines 346-350: values of a passive input without basis. -/
def passiveDirect (op : Oper α) (bs b i : Nat) : M (OSt α) Unit := do
  let s ← getOB
  let k ← optr (s.base.impl.it.full i)
  let u ← M.lift (slice (s.base.impl.eIn k) (b * bs * op.Q * (op.inp i).size) (op.Q * (op.inp i).size * bs))
  onB (setQ i u)

/-- Lines 351-362: basis action on a passive input. -/
def passiveBasis (op : Oper α) (junk : Nat → Nat → α) (bs b i : Nat) : M (OSt α) Unit := do
  let s ← getOB
  let k ← optr (s.base.impl.it.full i)
  let bb ← optr (op.inp i).basis
  let n ← optr (s.base.impl.it.ev i)
  let u ← M.lift (slice (s.base.impl.eIn k) (b * bs * elemSizeOf op (op.inp i) * bb.nc) (n * bs))
  blockBasis op junk bs i u

/-- One iteration of `CeedOperatorInputBasis_Opt`, lines 320-366, on block `b` (`e = b * block_size`) with
`skip_active = false`. -/
def inputBlock1 (op : Oper α) (junk : Nat → Nat → α) (bs : Nat) (inv : VPtr) (b i : Nat) : M (OSt α) Unit :=
  if (op.inp i).mode = .weight then pure ()
  else if (op.inp i).vec = .active then do
    blockIn op inv b i
    activeData op junk bs i
  else if (op.inp i).mode = .none then passiveDirect op bs b i
  else passiveBasis op junk bs b i

/-- The arrays given to the user function with `Q * bs` points. -/
def clipB (op : Oper α) (bs : Nat) (q : Nat → Buf α) : Nat → Nat → α :=
  fun i x => if i < op.nin ∧ x < op.Q * (op.inp i).size * bs then (q i).val x else 0

/-- `CeedQFunctionApply(qf, Q * block_size, ..)`, lines 499-502. For the identity QFunction the vector `q_vecs_out[0]` is
`q_vecs_in[0]` (lines 254-257). -/
def evalBlk (op : Oper α) (F : Nat → (Nat → Nat → α) → Nat → Nat → α) (bs : Nat) (q : Nat → Buf α) : Nat → Nat → α :=
  if op.isId then fun o x => (q o).val x else F (op.Q * bs) (clipB op bs q)

/-- Lines 482-491: the array of an output without basis is that of the E-vector of the block; as in `directOut` the weights
of an identity QFunction are not stored. -/
def directBlk (op : Oper α) (bs : Nat) (y : Nat → Nat → α) (o : Nat) : M (OSt α) Unit := do
  let s ← getOB
  if (op.out o).mode = .none then do
    let k ← optr (s.base.impl.ot.full o)
    let t ← M.lift (slice (s.base.impl.eOut k) 0 (op.Q * (op.out o).size * bs))
    if op.isId = true ∧ (op.inp 0).mode = .weight then pure () else
    onB (setEOut k (paste (s.base.impl.eOut k) 0 ⟨t.len, y o⟩))
  else pure ()

/-- Lines 388-399: transposed basis action on one block of output `o`. -/
def blockBasisOut (op : Oper α) (junk : Nat → Nat → α) (bs : Nat) (y : Nat → Nat → α) (o : Nat) : M (OSt α) Unit := do
  let s ← getOB
  let k ← optr (s.base.impl.ot.full o)
  let b ← optr (op.out o).basis
  let w : Buf α := ⟨op.Q * (op.out o).size * bs, y o⟩
  let v ← M.lift (if s.base.impl.ot.add o then
      Basis.applyAdd b junk bs .transpose (op.out o).mode (some w) (s.base.impl.eOut k)
    else Basis.apply b junk bs .transpose (op.out o).mode (some w) (s.base.impl.eOut k))
  onB (setEOut k v)

/-- Lines 385-405, the basis action. -/
def outBlkBasis (op : Oper α) (junk : Nat → Nat → α) (bs : Nat) (y : Nat → Nat → α) (o : Nat) : M (OSt α) Unit :=
  if (op.out o).mode = .none then pure ()
  else if isBasisMode (op.out o).mode then blockBasisOut op junk bs y o
  else M.fail .backend

/-- A vector changed by the transposed restriction of one block (compare `scatterInto`). -/
def scatterBlock (r : Rstr) (b : Nat) (w : Buf α) (p : VPtr) : M (St α) Unit := fun s =>
  match p with
  | .vec i =>
    if (s.vecs i).valid then
      match Restriction.applyBlock r b .transpose w (s.vecs i).buf with
      | .ok v => .ok { s with vecs := Function.update s.vecs i ⟨(s.vecs i).state + 2, true, v⟩ } ()
      | .err e => .err s e
      | .ub => .ub
    else .err s .backend
  | .none => .err s .dimension
  | .null => .ub

/-- Lines 406-415: restriction of one block of output `o`. -/
def outBlkScatter (op : Oper α) (b : Nat) (outv : VPtr) (o : Nat) : M (OSt α) Unit := do
  let s ← getOB
  if s.base.impl.ot.skip o then pure () else do
    let k ← optr (s.base.impl.ot.full o)
    let r ← optr (op.out o).rid
    onB (scatterBlock (op.rstrs r) b (s.base.impl.eOut k) ((op.out o).vec.ptr outv))

/-- One iteration of `CeedOperatorOutputBasis_Opt`, lines 376-416. -/
def outputBlock1 (op : Oper α) (junk : Nat → Nat → α) (bs b : Nat) (outv : VPtr) (y : Nat → Nat → α) (o : Nat) :
    M (OSt α) Unit := do
  outBlkBasis op junk bs y o
  outBlkScatter op b outv o

/-- One block of elements: lines 494-507. -/
def block (op : Oper α) (F : Nat → (Nat → Nat → α) → Nat → Nat → α) (junk : Nat → Nat → α) (bs : Nat) (inv outv : VPtr)
    (b : Nat) : M (OSt α) Unit := do
  M.loop op.nin (inputBlock1 op junk bs inv b)
  let s ← getOB
  let y := evalBlk op F bs s.base.impl.qIn
  M.loop op.nout (directBlk op bs y)
  M.loop op.nout (outputBlock1 op junk bs b outv y)

/-- Lines 466-469: one block of an operator that only restricts and scatters. -/
def identityBlock (op : Oper α) (inv outv : VPtr) (b : Nat) : M (OSt α) Unit := do
  blockIn op inv b 0
  let s ← getOB
  let k ← optr (s.base.impl.it.full 0)
  let r ← optr (op.out 0).rid
  onB (scatterBlock (op.rstrs r) b (s.eBlk k) outv)

/-- Number of blocks (line 462). -/
def nblk (ne bs : Nat) : Nat := ne / bs + if ne % bs = 0 then 0 else 1

/-- Lines 473-511: the general case. `CeedOperatorSetupInputs_Opt` (lines 277-312) does to passive inputs what
`CeedOperatorSetupInputs_Ref` does, and nothing to active ones. -/
def blocksApply (op : Oper α) (F : Nat → (Nat → Nat → α) → Nat → Nat → α) (junk : Nat → Nat → α) (bs : Nat)
    (inv outv : VPtr) : M (OSt α) Unit := do
  onB (setupInputs op .null true)
  M.loop (nblk op.ne bs) (block op F junk bs inv outv)
  onB (M.loop op.nin (restoreIn op true))

/-- `ceed-opt-operator.c` 442-513 `CeedOperatorApplyAdd_Opt`. -/
def applyAddOptCore (op : Oper α) (F : Nat → (Nat → Nat → α) → Nat → Nat → α) (chk : Bool) (bs : Nat)
    (junk : Nat → Nat → α) (inv outv : VPtr) : M (OSt α) Unit := do
  setupOpt op chk bs junk
  let s ← getOB
  if s.base.impl.idRstr then M.loop (nblk op.ne bs) (identityBlock (op.blk s.br) inv outv)
  else blocksApply (op.blk s.br) F junk bs inv outv

/-- `interface/ceed-operator.c` 2209-2234 `CeedOperatorApplyAdd` on a single operator that is ready. -/
def applyAddOpt (op : Oper α) (F : Nat → (Nat → Nat → α) → Nat → Nat → α) (chk : Bool) (bs : Nat) (junk : Nat → Nat → α)
    (inv outv : VPtr) : M (OSt α) Unit :=
  if 0 < op.ne then applyAddOptCore op F chk bs junk inv outv else pure ()

/-- `interface/ceed-operator.c` 2130-2192 `CeedOperatorApply` on a single operator that is ready; these backends register
no `Apply`. -/
def applyOpt (op : Oper α) (F : Nat → (Nat → Nat → α) → Nat → Nat → α) (chk : Bool) (bs : Nat) (junk : Nat → Nat → α)
    (inv outv : VPtr) : M (OSt α) Unit := do
  onB (M.loop op.nout (fun o => zeroVec ((op.out o).vec.ptr outv)))
  applyAddOpt op F chk bs junk inv outv

end Operator
end Verif
