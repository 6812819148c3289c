import Verif.Operator.Blocked
import Verif.Operator.OptAsm

/-!
# Operators: assembly of the QFunction by the `blocked` backend

Models `backends/blocked/ceed-blocked-operator.c` 525-733, for any block size (the code uses 8). The QFunction is evaluated
on unit vectors for one block of elements at a time; the values of all blocks are collected in a work vector, and at the end
one strided restriction with blocks adds them into the assembled vector. The state is `BSt` of `Verif/Operator/OptAsm.lean`;
the E-vectors of one block are not used.
-/

namespace Verif
namespace Operator

open Restriction (Rstr TMode)

variable {α : Type _} [CommRing α]

/-- Lines 641-690: one component of one active input, on one block; `op` is the operator on blocks (`Oper.wide`), so that
`setRow`, `evalQF` and `emit` treat `Q * bs` points (lines 642-648, 650-680, 681-688). As on the reference backend the
array of an active input without basis is part of the E-vector after an application. -/
def columnK (op : Oper α) (i c : Nat) : M (ASt α) Unit := do
  liftS (setRow op i c 1)
  liftS (syncLent op i)
  let s ← getA
  emit op (evalQF op s.st.impl.qIn)
  liftS (setRow op i c 0)
  liftS (syncLent op i)

/-- Lines 630-691: one input. -/
def columnsK (op : Oper α) (i : Nat) : M (ASt α) Unit :=
  if (op.inp i).vec = .active then M.loop (op.inp i).size (columnK op i) else pure ()

/-- One iteration of `CeedOperatorInputBasis_Blocked` (lines 312-352) with `skip_active = true` (lines 624-626). -/
def inputSkipK (op : Oper α) (junk : Nat → Nat → α) (bs b i : Nat) : M (OSt α) Unit :=
  if (op.inp i).vec = .active then pure () else inputBlocked1 op junk bs b i

/-- Lines 623-692: one block of elements; `op` has the restrictions with blocks. The pointer `l_vec_array` goes on where the
last block has ended. -/
def assembleBlkK (op : Oper α) (F : Nat → (Nat → Nat → α) → Nat → Nat → α) (junk : Nat → Nat → α) (bs b : Nat) :
    M (BSt α) Unit := do
  liftO (M.loop op.nin (inputSkipK op junk bs b))
  liftAB (M.loop op.nin (columnsK (op.wide F bs)))

/-- Lines 592-599: the work vector of all blocks, created the first time; its contents are whatever is found in memory. The
vector stays locked if the call fails before line 715; for an operator without elements that is what happens in the first
call (`takeOuts`, or `makeRs` without quadrature points), so that `CeedVectorGetArrayWrite` fails afterwards. (The calls that
fail for other reasons than missing elements or quadrature points fail before.) -/
def makeLK (op : Oper α) (bs : Nat) : M (BSt α) Unit := do
  let s ← getBS
  if s.hasL then do
    M.check ((0 < op.ne ∨ op.isId = true) ∧ 0 < op.Q) .access
    liftAB (modA (fun s => { s with off := 0 }))
  else modBS (fun s => { s with
    hasL := true
    a := { s.a with arr := ⟨nblk op.ne bs * bs * op.Q * s.a.szIn * s.a.szOut, s.a.arr.val⟩, off := 0 } })

/-- Lines 694-706: `CeedVectorTakeArray` on the active outputs, of which there are some (line 588). Without elements no
array has been set, and the call fails. -/
def takeOuts (op : Oper α) : M (BSt α) Unit :=
  if op.isId then pure () else M.check (0 < op.ne) .backend

/-- Lines 714-715: the assembled vector is set to zero and all blocks are added at once. -/
def scatterAll : M (BSt α) Unit := do
  let s ← getBS
  match s.rs with
  | some r => do
    let v ← M.lift (Restriction.apply r .plain .transpose s.a.arr ⟨s.out.len, fun _ => 0⟩)
    modBS (fun s => { s with out := v })
  | none => M.undef

/-- `ceed-blocked-operator.c` 525-719 `CeedOperatorLinearAssembleQFunctionCore_Blocked`. `len = none` is `build_objects`,
`len = some n` is an update of a vector of length `n`. The counting of the active fields (lines 560-590) is that of the
reference backend; the restriction with blocks (lines 601-608) and the objects returned (lines 611-621) are created as in
`backends/opt`, except that the vector is set to zero at the end, see `scatterAll`. -/
def assembleCoreBlocked (op : Oper α) (F : Nat → (Nat → Nat → α) → Nat → Nat → α) (chk : Bool) (bs : Nat)
    (junk : Nat → Nat → α) (len : Option Nat) : M (BSt α) (Buf α) := do
  liftO (setupBlocked op chk bs junk)
  let s ← getBS
  let bop := op.blk s.br
  M.check (s.a.st.impl.idRstr = false) .backend
  liftO (onB (setupInputs bop .null true))
  liftAB (countIn bop)
  liftAB (countOut bop)
  makeLK bop bs
  makeRs bop bs
  makeOut bop len
  M.loop (nblk bop.ne bs) (assembleBlkK bop F junk bs)
  takeOuts bop
  liftO (onB (M.loop bop.nin (restoreIn bop true)))
  scatterAll
  let s ← getBS
  pure s.out

/-- `interface/ceed-preconditioning.c` 1895-1911 `CeedOperatorLinearAssembleQFunction` on a ready operator of this
backend (`ceed-blocked-operator.c` 724-726). -/
def assembleQFBlocked (op : Oper α) (F : Nat → (Nat → Nat → α) → Nat → Nat → α) (chk : Bool) (bs : Nat)
    (junk : Nat → Nat → α) : M (BSt α) (Buf α) := assembleCoreBlocked op F chk bs junk none

/-- The vector held by the operator, built or updated (`interface/ceed-preconditioning.c` 1950-1970 and
`ceed-blocked-operator.c` 731-733). -/
def currentQFBlocked (op : Oper α) (F : Nat → (Nat → Nat → α) → Nat → Nat → α) (chk : Bool) (bs : Nat)
    (junk : Nat → Nat → α) : M (BSt α) (Buf α) := do
  let s ← getBS
  match s.a.built with
  | some v => if s.a.reuse = false ∨ s.a.needs = true then assembleCoreBlocked op F chk bs junk (some v.len) else pure v
  | none => assembleQFBlocked op F chk bs junk

/-- `interface/ceed-preconditioning.c` 1933-1990 `CeedOperatorLinearAssembleQFunctionBuildOrUpdate` on a ready operator of
this backend. -/
def buildOrUpdateBlocked (op : Oper α) (F : Nat → (Nat → Nat → α) → Nat → Nat → α) (chk : Bool) (bs : Nat)
    (junk : Nat → Nat → α) : M (BSt α) (Buf α) := do
  let v ← currentQFBlocked op F chk bs junk
  liftAB (modA (fun s => { s with built := some v, needs := false }))
  pure v

end Operator
end Verif
