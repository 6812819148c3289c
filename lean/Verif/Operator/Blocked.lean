import Verif.Operator.Opt

/-!
# Operators: application by the `blocked` backend

Models `backends/blocked/ceed-blocked-operator.c` 19-520, for any block size (the code uses 8). All inputs are restricted
completely, the blocks are visited, and then all outputs are added into their vectors. Of the state `OSt` of
`Verif/Operator/Opt.lean` the E-vectors of one block are not used: `impl.eIn` and `impl.eOut` are the E-vectors
`e_vecs_full`, `impl.qIn` is `q_vecs_in`, `br` are the copies of the restrictions with blocks, which are created as in
`backends/opt` (lines 48-111 here).
-/

namespace Verif
namespace Operator

open Restriction (Rstr TMode)
open Basis (Bas EMode)

variable {α : Type _} [CommRing α]

/-- `ceed-blocked-operator.c` 202-266 `CeedOperatorSetup_Blocked`. Lines 48-111: copies of the restrictions. Lines 113-142:
`e_vecs` exist for fields with a basis only, and have `block_size` times the length `OField.ev`. Lines 144-193: sharing as in
the reference backend. -/
def setupBlocked (op : Oper α) (chk : Bool) (bs : Nat) (junk : Nat → Nat → α) : M (OSt α) Unit := do
  let s ← getOB
  if s.base.impl.done then pure () else do
    let br ← M.lift (setupBlocks chk bs op)
    let q ← M.lift (setupQOpt op bs junk)
    let it ← M.lift (setupIn op)
    let ot ← M.lift (setupOut op)
    onB (modI (fun c => { c with
      done := true
      idRstr := op.isId && decide ((op.inp 0).mode = .none) && decide ((op.out 0).mode = .none)
      it := it
      ot := ot
      states := fun _ => 0
      eIn := fun i => ⟨eSizeOf (op.blk br) (op.inp i), (c.eIn i).val⟩
      eInOk := fun _ => false
      rd := fun _ => 0
      eOut := fun i => ⟨eSizeOf (op.blk br) (op.out i), (c.eOut i).val⟩
      wr := fun _ => false
      qIn := q }))
    fun s => .ok { s with br := br } ()

/-! In the rest `op` is the operator with the copies of the restrictions that have blocks. -/

/-- One iteration of `CeedOperatorInputBasis_Blocked`, lines 312-352, on block `b` (`e = b * block_size`). -/
def inputBlocked1 (op : Oper α) (junk : Nat → Nat → α) (bs b i : Nat) : M (OSt α) Unit :=
  if (op.inp i).mode = .weight then pure ()
  else if (op.inp i).mode = .none then passiveDirect op bs b i
  else passiveBasis op junk bs b i

/-- Lines 473-480: the array of an output without basis is the part of the E-vector that belongs to the block; as in `directOut`
the weights of an identity QFunction are not stored. -/
def directBlocked (op : Oper α) (bs b : Nat) (y : Nat → Nat → α) (o : Nat) : M (OSt α) Unit := do
  let s ← getOB
  if (op.out o).mode = .none then do
    let k ← optr (s.base.eptr o)
    let t ← M.lift (slice (s.base.impl.eOut k) (b * bs * op.Q * (op.out o).size) (op.Q * (op.out o).size * bs))
    if op.isId = true ∧ (op.inp 0).mode = .weight then pure () else
    onB (setEOut k (paste (s.base.impl.eOut k) (b * bs * op.Q * (op.out o).size) ⟨t.len, y o⟩))
  else pure ()

/-- Lines 379-389: transposed basis action on one block of output `o`. -/
def basisBlockedOut (op : Oper α) (junk : Nat → Nat → α) (bs b : Nat) (y : Nat → Nat → α) (o : Nat) : M (OSt α) Unit := do
  let s ← getOB
  let k ← optr (s.base.eptr o)
  let bb ← optr (op.out o).basis
  let n ← optr (s.base.impl.ot.ev o)
  let t ← M.lift (slice (s.base.impl.eOut k) (b * bs * elemSizeOf op (op.out o) * bb.nc) (n * bs))
  let w : Buf α := ⟨op.Q * (op.out o).size * bs, y o⟩
  let v ← M.lift (if s.base.impl.ot.add o then
      Basis.applyAdd bb junk bs .transpose (op.out o).mode (some w) t
    else Basis.apply bb junk bs .transpose (op.out o).mode (some w) t)
  onB (setEOut k (paste (s.base.impl.eOut k) (b * bs * elemSizeOf op (op.out o) * bb.nc) v))

/-- One iteration of `CeedOperatorOutputBasis_Blocked`, lines 362-398. -/
def outputBlocked1 (op : Oper α) (junk : Nat → Nat → α) (bs b : Nat) (y : Nat → Nat → α) (o : Nat) : M (OSt α) Unit :=
  if (op.out o).mode = .none then pure ()
  else if isBasisMode (op.out o).mode then basisBlockedOut op junk bs b y o
  else M.fail .backend

/-- One block of elements: lines 471-494. -/
def blockBlocked (op : Oper α) (F : Nat → (Nat → Nat → α) → Nat → Nat → α) (junk : Nat → Nat → α) (bs b : Nat) :
    M (OSt α) Unit := do
  M.loop op.nin (inputBlocked1 op junk bs b)
  let s ← getOB
  let y := evalBlk op F bs s.base.impl.qIn
  M.loop op.nout (directBlocked op bs b y)
  M.loop op.nout (outputBlocked1 op junk bs b y)

/-- Lines 452-519: the general case. `CeedOperatorSetupInputs_Blocked` (271-303), the locking of the output E-vectors (461-468),
the output restriction (497-514) and `CeedOperatorRestoreInputs_Blocked` (405-427) are those of the reference backend, with
the copies of the restrictions. -/
def generalBlocked (op : Oper α) (F : Nat → (Nat → Nat → α) → Nat → Nat → α) (junk : Nat → Nat → α) (bs : Nat)
    (inv outv : VPtr) : M (OSt α) Unit := do
  onB (setupInputs op inv false)
  onB (lockWrites op)
  M.loop (nblk op.ne bs) (blockBlocked op F junk bs)
  onB (M.loop op.nout (finishOut op outv))
  onB (M.loop op.nin (restoreIn op false))

/-- `ceed-blocked-operator.c` 432-520 `CeedOperatorApplyAdd_Blocked`. Lines 448-452: an operator that only restricts and
scatters. -/
def applyAddBlockedCore (op : Oper α) (F : Nat → (Nat → Nat → α) → Nat → Nat → α) (chk : Bool) (bs : Nat)
    (junk : Nat → Nat → α) (inv outv : VPtr) : M (OSt α) Unit := do
  setupBlocked op chk bs junk
  let s ← getOB
  if s.base.impl.idRstr then onB (identityApply (op.blk s.br) inv outv)
  else generalBlocked (op.blk s.br) F junk bs inv outv

/-- `interface/ceed-operator.c` 2209-2234 `CeedOperatorApplyAdd` on a single operator that is ready. -/
def applyAddBlocked (op : Oper α) (F : Nat → (Nat → Nat → α) → Nat → Nat → α) (chk : Bool) (bs : Nat)
    (junk : Nat → Nat → α) (inv outv : VPtr) : M (OSt α) Unit :=
  if 0 < op.ne then applyAddBlockedCore op F chk bs junk inv outv else pure ()

/-- `interface/ceed-operator.c` 2130-2192 `CeedOperatorApply` on a single operator that is ready; this backend registers no
`Apply`. -/
def applyBlocked (op : Oper α) (F : Nat → (Nat → Nat → α) → Nat → Nat → α) (chk : Bool) (bs : Nat)
    (junk : Nat → Nat → α) (inv outv : VPtr) : M (OSt α) Unit := do
  onB (M.loop op.nout (fun o => zeroVec ((op.out o).vec.ptr outv)))
  applyAddBlocked op F chk bs junk inv outv

end Operator
end Verif
