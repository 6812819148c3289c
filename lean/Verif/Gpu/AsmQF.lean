import Verif.Gpu.Oper
import Verif.Operator.Assemble
import Verif.Gpu.OperSpec

/-!
# QFunction assembly on a device

Models `backends/cuda-ref/ceed-cuda-ref-operator.c` 938-1096 (`backends/hip-ref/ceed-hip-ref-operator.hip.cpp` has the same
functions) with the parts of `interface/ceed-preconditioning.c` that call it. The inputs of the QFunction are one array for
each field on a device, and the vectors `qf_active_in`, one for each component of the active inputs, point into these arrays.
-/

namespace Verif.Gpu

open Verif.Basis (EMode)
open Verif.Operator (VPtr FVec countSizes)

variable {α : Type} [CommRing α]

/-- The operator (`st`), the data of `CeedOperator_Cuda` for the assembly: the vectors `qf_active_in` as pairs of input and
component (their number is `num_active_in`), `num_active_out`, whether the array of input `i` that `qf_active_in` points
into has been freed; the vector held by the operator with its flags (`interface/ceed-preconditioning.c` 1933-1990), and the
local variables of a running assembly: the array of the assembled vector, the position of `assembled_array` in it, and the
positions the vectors `q_vecs_out` borrow. -/
structure QSt (α : Type) where
  st : GSt α
  act : List (Nat × Nat)
  nOut : Nat
  freed : Nat → Bool
  built : Option (Buf α)
  reuse : Bool
  needs : Bool
  arr : Buf α
  pos : Nat
  dst : Nat → Option Nat

/-- Read the state. -/
def getQ : M (QSt α) (QSt α) := fun s => .ok s s
/-- Change the state. -/
def modQ (f : QSt α → QSt α) : M (QSt α) Unit := fun s => .ok (f s) ()
/-- Run code that does not use the data of the assembly. -/
def liftQ {β : Type} (m : M (GSt α) β) : M (QSt α) β := fun s =>
  match m s.st with
  | .ok t b => .ok { s with st := t } b
  | .err t e => .err { s with st := t } e
  | .ub => .ub

/-! ## Applications -/

/-- An application of an operator with elements borrows arrays for active inputs without basis (`ceed-cuda-ref-operator.c`
433): `CeedVectorSetArray` with `CEED_USE_POINTER` frees the array the vector had (`backends/cuda/ceed-cuda-common.c`
72-76). -/
def afterApply (op : GOper α) : M (QSt α) Unit := modQ fun s => { s with
  freed := fun i => s.freed i || decide (0 < op.ne ∧ i < op.nin ∧ (op.inp i).vec = .active ∧ (op.inp i).mode = .none) }

/-- `CeedOperatorApplyAdd`, see `applyAddG`. -/
def applyAddQ (op : GOper α) (D : Dev α) (wk : Work α) (inv outv : VPtr) : M (QSt α) Unit := do
  liftQ (applyAddG op D wk inv outv)
  afterApply op

/-- `CeedOperatorApply`, see `applyG`. -/
def applyQ (op : GOper α) (D : Dev α) (wk : Work α) (inv outv : VPtr) : M (QSt α) Unit := do
  liftQ (applyG op D wk inv outv)
  afterApply op

/-! ## Assembly -/

/-- `ceed-cuda-ref-operator.c` 962-966, one input: `CeedOperatorInputRestrict_Cuda` (364-398) and
`CeedOperatorInputBasis_Cuda` (403-453) with `skip_active = true`. -/
def inputP (op : GOper α) (D : Dev α) (f : Nat) : M (GSt α) Unit :=
  if (op.inp f).vec = .active then pure () else inputG op D .null f

/-- Lines 1065-1067, one input: `CeedOperatorInputRestore_Cuda` (458-485) with `skip_active = true`. -/
def restoreP (op : GOper α) (f : Nat) : M (GSt α) Unit :=
  if (op.inp f).vec = .active then pure () else inputRestore op f

/-- Lines 970-991, one input: the array of an active input is set to zero (allocated if there is none), and a vector that
points into it is made for each component. -/
def makeAct (op : GOper α) (i : Nat) : M (QSt α) Unit :=
  if (op.inp i).vec = .active then
    modQ fun s => { s with
      st := { s.st with
        qIn := Function.update s.st.qIn i { s.st.qIn i with valid := true, buf := ⟨(s.st.qIn i).buf.len, fun _ => 0⟩ } }
      freed := Function.update s.freed i false
      act := s.act ++ (List.range (op.inp i).size).map fun c => (i, c) }
  else pure ()

/-- Lines 969-994: only if there are none yet. -/
def makeActs (op : GOper α) : M (QSt α) Unit := do
  let s ← getQ
  if s.act = [] then M.loop op.nin (makeAct op) else pure ()

/-- Lines 997-1011. -/
def countOuts (op : GOper α) : M (QSt α) Unit := do
  let s ← getQ
  if s.nOut = 0 then modQ fun s => { s with nOut := countSizes op.host.out op.nout } else pure ()

/-- `CeedVectorSetValue(active_inputs[k], x)`, lines 1038 and 1040: writes component `c` of the array of input `i`, unless
that has been freed. -/
def setAct (op : GOper α) (k : Nat) (x : α) : M (QSt α) Unit := do
  let s ← getQ
  match s.act[k]? with
  | none => M.undef
  | some (i, c) =>
    if s.freed i = true ∨ (s.st.qIn i).buf.len < (c + 1) * (op.ne * op.Q) then M.undef else
      liftQ (setQIn i { s.st.qIn i with buf := ⟨(s.st.qIn i).buf.len, fun y =>
        if c * (op.ne * op.Q) ≤ y ∧ y < (c + 1) * (op.ne * op.Q) then x else (s.st.qIn i).buf.val y⟩ })

/-- Lines 1039-1041. -/
def clearAct (op : GOper α) (n k : Nat) : M (QSt α) Unit :=
  if 1 < n then setAct op ((k + n - 1) % n) 0 else pure ()

/-- Lines 1043-1054, one output: the array of an active output is the next part of the assembled array. -/
def pointOut (op : GOper α) (o : Nat) : M (QSt α) Unit :=
  if (op.out o).vec = .active then
    modQ fun s => { s with dst := Function.update s.dst o (some s.pos), pos := s.pos + (op.out o).size * op.Q * op.ne }
  else pure ()

/-- The array after the kernel has written `size` components at `np` points from position `p0`
(`include/ceed/jit-source/cuda/cuda-ref-qfunction.h` 27-32). -/
def writeAtG (p0 np size : Nat) (y : Nat → Nat → α) (b : Buf α) : Buf α :=
  ⟨b.len, fun x => if p0 ≤ x ∧ x < p0 + np * size then y ((x - p0) / np) ((x - p0) % np) else b.val x⟩

/-- Line 1056, one output. -/
def writeTo (op : GOper α) (y : Nat → Nat → Nat → α) (o : Nat) : M (QSt α) Unit := do
  let s ← getQ
  match s.dst o with
  | some p => if s.arr.len < p + op.ne * op.Q * (op.out o).size then M.undef else
      modQ fun s => { s with arr := writeAtG p (op.ne * op.Q) (op.out o).size (y o) s.arr }
  | none => liftQ (writeOutG op y o)

/-- Line 1056: `CeedQFunctionApply` on all points, see `qfApply`; active outputs go to the assembled array. -/
def qfApplyTo (op : GOper α) : M (QSt α) Unit := do
  liftQ (M.loop op.nin (readInG op))
  let s ← getQ
  M.check (0 < op.ne * op.Q) .backend
  M.loop op.nout (writeTo op (fun o c p => op.g (readQuads op s.st p) o c))

/-- Lines 1036-1057, one column. -/
def columnG (op : GOper α) (n k : Nat) : M (QSt α) Unit := do
  setAct op k 1
  clearAct op n k
  M.loop op.nout (pointOut op)
  qfApplyTo op

/-- Lines 1060-1068, one output: `CeedVectorTakeArray` needs a borrowed array. -/
def takeOutG (op : GOper α) (o : Nat) : M (QSt α) Unit :=
  if (op.out o).vec = .active then do
    let s ← getQ
    M.check ((s.dst o).isSome = true) .backend
    modQ fun s => { s with
      dst := Function.update s.dst o none
      st := { s.st with qOut := Function.update s.st.qOut o { s.st.qOut o with valid := false } } }
  else pure ()

/-- `ceed-cuda-ref-operator.c` 938-1078 `CeedOperatorLinearAssembleQFunctionCore_Cuda`: `given` is the length of the vector
of an update, none if a vector is made. The result is the array of that vector. Its restriction has the strides
`{1, num_elem * Q, Q}` (line 1023). -/
def assembleCoreG (op : GOper α) (D : Dev α) (given : Option Nat) : M (QSt α) (Buf α) := do
  liftQ (setupG op D)
  liftQ (M.loop op.nin (inputP op D))
  makeActs op
  countOuts op
  let s ← getQ
  M.check (0 < s.act.length ∧ 0 < s.nOut) .backend
  modQ fun s => { s with arr := ⟨given.getD (op.ne * op.Q * s.act.length * s.nOut), fun _ => 0⟩, pos := 0 }
  M.loop s.act.length (columnG op s.act.length)
  M.loop op.nout (takeOutG op)
  liftQ (M.loop op.nin (restoreP op))
  let s ← getQ
  pure s.arr

/-- `interface/ceed-preconditioning.c` 1889-1916 `CeedOperatorLinearAssembleQFunction` on a ready operator and
`ceed-cuda-ref-operator.c` 1083-1085. -/
def assembleQFG (op : GOper α) (D : Dev α) : M (QSt α) (Buf α) := assembleCoreG op D none

/-- The vector held by the operator, built or updated (`interface/ceed-preconditioning.c` 1950-1970 and
`ceed-cuda-ref-operator.c` 1090-1092). -/
def currentQFG (op : GOper α) (D : Dev α) : M (QSt α) (Buf α) := do
  let s ← getQ
  match s.built with
  | some v => if s.reuse = false ∨ s.needs = true then assembleCoreG op D (some v.len) else pure v
  | none => assembleQFG op D

/-- `interface/ceed-preconditioning.c` 1933-1990 `CeedOperatorLinearAssembleQFunctionBuildOrUpdate` on a ready operator of
this backend. -/
def buildOrUpdateG (op : GOper α) (D : Dev α) : M (QSt α) (Buf α) := do
  let v ← currentQFG op D
  modQ fun s => { s with built := some v, needs := false }
  pure v

/-- `interface/ceed-operator.c` 1484-1500 `CeedOperatorSetQFunctionAssemblyReuse`. -/
def setReuseG (b : Bool) : M (QSt α) Unit := modQ fun s => { s with reuse := b, needs := true }

/-- `interface/ceed-operator.c` 1511-1532 `CeedOperatorSetQFunctionAssemblyDataUpdateNeeded`. -/
def setNeedsG (b : Bool) : M (QSt α) Unit := modQ fun s => { s with needs := b }

end Verif.Gpu
