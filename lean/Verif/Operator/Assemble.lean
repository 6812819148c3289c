import Verif.Operator.Model

/-!
# Operators: assembly of the QFunction by the reference backend

Models `backends/ref/ceed-ref-operator.c` 475-670 and `CeedOperatorLinearAssembleQFunction(BuildOrUpdate)` of
`interface/ceed-preconditioning.c`.
-/

namespace Verif
namespace Operator

variable {α : Type _} [CommRing α]

/-- The state of an operator with the data used in assembly: `szIn`, `szOut` are `qf_size_in`, `qf_size_out` of
`CeedOperator_Ref`; `built`, `reuse`, `needs` are `vec` (if `is_setup`), `reuse_data`, `needs_data_update` of
`CeedQFunctionAssemblyData` (`include/ceed-impl.h`); `arr` and `off` are the array of the assembled vector and the local
pointer `assembled_array` into it. -/
structure ASt (α : Type _) where
  st : St α
  szIn : Nat
  szOut : Nat
  built : Option (Buf α)
  reuse : Bool
  needs : Bool
  arr : Buf α
  off : Nat

/-- Read the state. -/
def getA : M (ASt α) (ASt α) := fun s => .ok s s
/-- Change the state. -/
def modA (g : ASt α → ASt α) : M (ASt α) Unit := fun s => .ok (g s) ()
/-- Run code that does not use the data of the assembly. -/
def liftS {β : Type _} (m : M (St α) β) : M (ASt α) β := fun s =>
  match m s.st with
  | .ok t b => .ok { s with st := t } b
  | .err t e => .err { s with st := t } e
  | .ub => .ub

/-- Sum of the sizes of the active fields among the first `n` (lines 507-521, 527-541). -/
def countSizes (f : Nat → OField α) : Nat → Nat
  | 0 => 0
  | n + 1 => if (f n).vec = .active then countSizes f n + (f n).size else countSizes f n

/-- Line 515: `CeedVectorSetValue(q_vecs_in[i], 0.0)` for an active input. After an application the array of an input
without basis is part of its E-vector; writing there has no effect on later applications, as the E-vector of an active
input is overwritten by the next one, and is not modelled. Inputs whose arrays are then the same memory (`aliased`) are all
set to zero here. -/
def zeroActive (op : Oper α) (i : Nat) : M (St α) Unit := do
  let s ← getS
  if (op.inp i).vec = .active then setQ i ⟨(s.impl.qIn i).len, fun _ => 0⟩ else pure ()

/-- `ceed-ref-operator.c` 504-521: count the active inputs, the first time only. -/
def countIn (op : Oper α) : M (ASt α) Unit := do
  let s ← getA
  if s.szIn = 0 then do
    M.loop op.nin (fun i => liftS (zeroActive op i))
    M.check (0 < countSizes op.inp op.nin) .backend
    modA (fun s => { s with szIn := countSizes op.inp op.nin })
  else pure ()

/-- `ceed-ref-operator.c` 524-541: count the active outputs, the first time only. -/
def countOut (op : Oper α) : M (ASt α) Unit := do
  let s ← getA
  if s.szOut = 0 then do
    M.check (0 < countSizes op.out op.nout) .backend
    modA (fun s => { s with szOut := countSizes op.out op.nout })
  else pure ()

/-- Lines 579-585 and 618-624: entries `field * Q + j` of the data of input `i`. -/
def setRow (op : Oper α) (i c : Nat) (x : α) : M (St α) Unit := do
  let s ← getS
  let q ← M.lift (loop op.Q (fun j b => b.wr (c * op.Q + j) x) (s.impl.qIn i))
  setQ i q

/-- Active inputs without basis on the same restriction have the same E-vector (`ceed-ref-operator.c` 67-121; for the
optimized backend `ceed-opt-operator.c` 146-198). Where their arrays `q_vecs_in` point into the E-vector they are the same
memory. -/
def aliased (op : Oper α) (i j : Nat) : Bool :=
  decide (i ≠ j) && (op.inp i).same (op.inp j) && decide ((op.inp i).vec = .active) &&
    decide ((op.inp i).mode = .none) && decide ((op.inp j).mode = .none)

/-- What has been written into `q_vecs_in[i]` is also seen in the vectors that share its memory. -/
def syncQ (op : Oper α) (i : Nat) : M (St α) Unit :=
  M.loop op.nin (fun j => do
    let s ← getS
    if aliased op i j then setQ j (s.impl.qIn i) else pure ())

/-- On the reference backend `q_vecs_in[i]` of an active input without basis has its own array until the first application
and points into the E-vector afterwards (lines 275-277, `CeedVectorSetArray` with `CEED_USE_POINTER`). Simplification: an
application that failed after the E-vector was computed counts as well; and so does an application without elements, after
which no element is assembled. -/
def lent (s : St α) (i : Nat) : Bool :=
  match s.impl.it.full i with
  | some k => s.impl.eInOk k
  | none => false

/-- After a write to `q_vecs_in[i]`. -/
def syncLent (op : Oper α) (i : Nat) : M (St α) Unit := do
  let s ← getS
  if lent s i then syncQ op i else pure ()

/-- `n` entries are stored at the pointer `assembled_array`, which advances. -/
def putArr (n : Nat) (y : Nat → α) : M (ASt α) Unit := do
  let s ← getA
  let t ← M.lift (slice s.arr s.off n)
  modA (fun s => { s with arr := paste s.arr s.off ⟨t.len, y⟩, off := s.off + n })

/-- Lines 589-605, one output: the QFunction writes active outputs into the assembled array. -/
def emit1 (op : Oper α) (y : Nat → Nat → α) (o : Nat) : M (ASt α) Unit :=
  if (op.out o).vec = .active then putArr ((op.out o).size * op.Q) (y o) else pure ()

/-- Lines 587-616. The arrays of passive outputs are scratch memory and are not modelled. -/
def emit (op : Oper α) (y : Nat → Nat → α) : M (ASt α) Unit :=
  if op.isId then putArr ((op.out 0).size * op.Q) (y 0) else M.loop op.nout (emit1 op y)

/-- Lines 576-625: one component of one active input. -/
def column (op : Oper α) (i c : Nat) : M (ASt α) Unit := do
  liftS (setRow op i c 1)
  liftS (syncLent op i)
  let s ← getA
  emit op (evalQF op s.st.impl.qIn)
  liftS (setRow op i c 0)
  liftS (syncLent op i)

/-- Lines 565-626: one input. -/
def columns (op : Oper α) (i : Nat) : M (ASt α) Unit :=
  if (op.inp i).vec = .active then M.loop (op.inp i).size (column op i) else pure ()

/-- Lines 557-627: one element. -/
def assembleElem (op : Oper α) (junk : Nat → Nat → α) (e : Nat) : M (ASt α) Unit := do
  liftS (inputBasis op junk true e)
  M.loop op.nin (columns op)

/-- `ceed-ref-operator.c` 478-655 `CeedOperatorLinearAssembleQFunctionCore_Ref`. `len = none` is `build_objects`,
`len = some n` is an update of a vector of length `n`. The returned array is that of the assembled vector; the strided
restriction created with it has strides `{1, Q, szIn * szOut * Q}`. -/
def assembleCore (op : Oper α) (junk : Nat → Nat → α) (len : Option Nat) : M (ASt α) (Buf α) := do
  liftS (setup op junk)
  let s ← getA
  M.check (s.st.impl.idRstr = false) .backend
  liftS (setupInputs op .null true)
  countIn op
  countOut op
  modA (fun s => { s with
    arr := ⟨match len with
      | some n => n
      | none => op.ne * op.Q * s.szIn * s.szOut, fun _ => 0⟩
    off := 0 })
  M.loop op.ne (assembleElem op junk)
  liftS (M.loop op.nin (restoreIn op true))
  let s ← getA
  pure s.arr

/-- `interface/ceed-preconditioning.c` 1895-1911 `CeedOperatorLinearAssembleQFunction` on a ready operator of the
reference backend. -/
def assembleQF (op : Oper α) (junk : Nat → Nat → α) : M (ASt α) (Buf α) := assembleCore op junk none

/-- Lines 1962-1965: `IsUpdateNeeded` and the update of the vector held by the operator. -/
def updateQF (op : Oper α) (junk : Nat → Nat → α) (v : Buf α) : M (ASt α) (Buf α) := do
  let s ← getA
  if s.reuse = false ∨ s.needs = true then assembleCore op junk (some v.len) else pure v

/-- The vector held by the operator, built or updated. -/
def currentQF (op : Oper α) (junk : Nat → Nat → α) : M (ASt α) (Buf α) := do
  let s ← getA
  match s.built with
  | some v => updateQF op junk v
  | none => assembleQF op junk

/-- `interface/ceed-preconditioning.c` 1933-1990 `CeedOperatorLinearAssembleQFunctionBuildOrUpdate` on a ready operator of
the reference backend. The vector is held by the operator, and the caller gets a reference to it. (An update that fails
after line 553 has already overwritten the vector; the only errors come before.) -/
def buildOrUpdate (op : Oper α) (junk : Nat → Nat → α) : M (ASt α) (Buf α) := do
  let v ← currentQF op junk
  modA (fun s => { s with built := some v, needs := false })
  pure v

/-- `interface/ceed-operator.c` 1484-1500 `CeedOperatorSetQFunctionAssemblyReuse`. -/
def setReuse (b : Bool) : M (ASt α) Unit := modA (fun s => { s with reuse := b, needs := true })

/-- `interface/ceed-operator.c` 1511-1532 `CeedOperatorSetQFunctionAssemblyDataUpdateNeeded`. -/
def setNeeds (b : Bool) : M (ASt α) Unit := modA (fun s => { s with needs := b })

end Operator
end Verif
