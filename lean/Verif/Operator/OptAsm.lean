import Verif.Operator.Opt
import Verif.Operator.Assemble

/-!
# Operators: assembly of the QFunction by the CPU backends that work on blocks of elements

Models `backends/opt/ceed-opt-operator.c` 518-740, for any block size. The QFunction is evaluated on unit vectors for one
block of elements at a time; the values are collected in a work vector that has the layout of one block, and a strided
restriction with blocks adds them into the assembled vector.
-/

namespace Verif
namespace Operator

open Restriction (Rstr TMode)

variable {α : Type _} [CommRing α]

/-- `CeedOperator_Opt` with the data used in assembly. `a` holds the common data: `a.szIn`, `a.szOut` are `qf_size_in`,
`qf_size_out`; `a.built`, `a.reuse`, `a.needs` are the `CeedQFunctionAssemblyData`; `a.arr`, `a.off` are the array of the
work vector `qf_l_vec` and the local pointer `l_vec_array`. `br` and `eBlk` are those of `OSt`; `hasL` tells that `qf_l_vec`
exists; `rs` is `qf_block_rstr`; `out` is the array of the assembled vector. -/
structure BSt (α : Type _) where
  a : ASt α
  br : Nat → Rstr
  eBlk : Nat → Buf α
  hasL : Bool
  rs : Option Rstr
  out : Buf α

/-- The part of the state used by applications. -/
def BSt.o (s : BSt α) : OSt α := ⟨s.a.st, s.br, s.eBlk⟩

/-- Read the state. -/
def getBS : M (BSt α) (BSt α) := fun s => .ok s s
/-- Change the state. -/
def modBS (g : BSt α → BSt α) : M (BSt α) Unit := fun s => .ok (g s) ()
/-- Run code that does not use the data of the assembly. -/
def liftO {β : Type _} (m : M (OSt α) β) : M (BSt α) β := fun s =>
  match m s.o with
  | .ok t b => .ok { s with a := { s.a with st := t.base }, br := t.br, eBlk := t.eBlk } b
  | .err t e => .err { s with a := { s.a with st := t.base }, br := t.br, eBlk := t.eBlk } e
  | .ub => .ub
/-- Run code that only uses the common data of the assembly. -/
def liftAB {β : Type _} (m : M (ASt α) β) : M (BSt α) β := fun s =>
  match m s.a with
  | .ok t b => .ok { s with a := t } b
  | .err t e => .err { s with a := t } e
  | .ub => .ub

/-- The operator whose elements are the blocks: the QFunction is called with `Q * bs` points, and every vector of
quadrature data holds `Q * bs` entries per component. -/
def Oper.wide (op : Oper α) (F : Nat → (Nat → Nat → α) → Nat → Nat → α) (bs : Nat) : Oper α :=
  { op with Q := op.Q * bs, f := F (op.Q * bs) }

/-- Lines 642-689: one component of one active input, on one block; `op` is the operator on blocks, so that `setRow`,
`evalQF` and `emit` treat `Q * bs` points (lines 643-650, 652-680, 681-688). The data of active inputs without basis are in
`qIn`; they are also in `e_vecs_in`, which is overwritten by the next application before it is read. -/
def columnB (op : Oper α) (i c : Nat) : M (ASt α) Unit := do
  liftS (setRow op i c 1)
  liftS (syncQ op i)
  let s ← getA
  emit op (evalQF op s.st.impl.qIn)
  liftS (setRow op i c 0)
  liftS (syncQ op i)

/-- Lines 630-690: one input. -/
def columnsB (op : Oper α) (i : Nat) : M (ASt α) Unit :=
  if (op.inp i).vec = .active then M.loop (op.inp i).size (columnB op i) else pure ()

/-- One iteration of `CeedOperatorInputBasis_Opt` (lines 320-366) with `skip_active = true` (lines 626-628). -/
def inputSkip (op : Oper α) (junk : Nat → Nat → α) (bs b i : Nat) : M (OSt α) Unit :=
  if (op.inp i).vec = .active then pure () else inputBlock1 op junk bs .null b i

/-- Line 708: `CeedElemRestrictionApplyBlock(block_rstr, e / block_size, CEED_TRANSPOSE, l_vec, *assembled)`. -/
def scatterL (b : Nat) : M (BSt α) Unit := do
  let s ← getBS
  match s.rs with
  | some r => do
    let v ← M.lift (Restriction.applyBlock r b .transpose s.a.arr s.out)
    modBS (fun s => { s with out := v })
  | none => M.undef

/-- Lines 623-709: one block of elements; `op` has the restrictions with blocks. -/
def assembleBlk (op : Oper α) (F : Nat → (Nat → Nat → α) → Nat → Nat → α) (junk : Nat → Nat → α) (bs b : Nat) :
    M (BSt α) Unit := do
  liftO (M.loop op.nin (inputSkip op junk bs b))
  liftAB (modA (fun s => { s with off := 0 }))
  liftAB (M.loop op.nin (columnsB (op.wide F bs)))
  scatterL b

/-- Lines 591-598: the work vector of one block, created and set to zero the first time. -/
def makeL (op : Oper α) (bs : Nat) : M (BSt α) Unit := do
  let s ← getBS
  if s.hasL then pure ()
  else modBS (fun s => { s with
    hasL := true
    a := { s.a with arr := ⟨bs * op.Q * s.a.szIn * s.a.szOut, fun _ => 0⟩ } })

/-- Lines 600-607: the strided restriction with blocks, created the first time. -/
def makeRs (op : Oper α) (bs : Nat) : M (BSt α) Unit := do
  let s ← getBS
  match s.rs with
  | some _ => pure ()
  | none => do
    let k := s.a.szIn * s.a.szOut
    let r ← M.lift (Restriction.createBlockedStrided op.ne op.Q bs k (k * op.ne * op.Q) (1, op.Q, k * op.Q))
    modBS (fun s => { s with rs := some r })

/-- Lines 609-622: the restriction and the vector that are returned, if `build_objects`; the vector is set to zero. -/
def makeOut (op : Oper α) (len : Option Nat) : M (BSt α) Unit := do
  let s ← getBS
  match len with
  | some n => modBS (fun s => { s with out := ⟨n, fun _ => 0⟩ })
  | none => do
    let k := s.a.szIn * s.a.szOut
    let _ ← M.lift (Restriction.createStrided op.ne op.Q k (k * op.ne * op.Q) (1, op.Q, k * op.Q))
    modBS (fun s => { s with out := ⟨op.ne * op.Q * s.a.szIn * s.a.szOut, fun _ => 0⟩ })

/-- `ceed-opt-operator.c` 518-726 `CeedOperatorLinearAssembleQFunctionCore_Opt`. `len = none` is `build_objects`,
`len = some n` is an update of a vector of length `n`. The counting of the active fields (lines 554-589) is that of the
reference backend. The arrays of outputs (lines 692-704, 711-719) are scratch memory. -/
def assembleCoreOpt (op : Oper α) (F : Nat → (Nat → Nat → α) → Nat → Nat → α) (chk : Bool) (bs : Nat)
    (junk : Nat → Nat → α) (len : Option Nat) : M (BSt α) (Buf α) := do
  liftO (setupOpt op chk bs junk)
  let s ← getBS
  let bop := op.blk s.br
  M.check (s.a.st.impl.idRstr = false) .backend
  liftO (onB (setupInputs bop .null true))
  liftAB (countIn bop)
  liftAB (countOut bop)
  makeL bop bs
  makeRs bop bs
  makeOut bop len
  M.loop (nblk bop.ne bs) (assembleBlk bop F junk bs)
  liftO (onB (M.loop bop.nin (restoreIn bop true)))
  let s ← getBS
  pure s.out

/-- `interface/ceed-preconditioning.c` 1895-1911 `CeedOperatorLinearAssembleQFunction` on a ready operator of these
backends (`ceed-opt-operator.c` 731-733). -/
def assembleQFOpt (op : Oper α) (F : Nat → (Nat → Nat → α) → Nat → Nat → α) (chk : Bool) (bs : Nat)
    (junk : Nat → Nat → α) : M (BSt α) (Buf α) := assembleCoreOpt op F chk bs junk none

/-- The vector held by the operator, built or updated (`interface/ceed-preconditioning.c` 1950-1970 and
`ceed-opt-operator.c` 738-740). -/
def currentQFOpt (op : Oper α) (F : Nat → (Nat → Nat → α) → Nat → Nat → α) (chk : Bool) (bs : Nat)
    (junk : Nat → Nat → α) : M (BSt α) (Buf α) := do
  let s ← getBS
  match s.a.built with
  | some v => if s.a.reuse = false ∨ s.a.needs = true then assembleCoreOpt op F chk bs junk (some v.len) else pure v
  | none => assembleQFOpt op F chk bs junk

/-- `interface/ceed-preconditioning.c` 1933-1990 `CeedOperatorLinearAssembleQFunctionBuildOrUpdate` on a ready operator of
these backends. (An update that fails after the vector has been set to zero has already overwritten it; the only errors
come before.) -/
def buildOrUpdateOpt (op : Oper α) (F : Nat → (Nat → Nat → α) → Nat → Nat → α) (chk : Bool) (bs : Nat)
    (junk : Nat → Nat → α) : M (BSt α) (Buf α) := do
  let v ← currentQFOpt op F chk bs junk
  liftAB (modA (fun s => { s with built := some v, needs := false }))
  pure v

end Operator
end Verif
