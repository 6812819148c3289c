import Verif.State

/-!
# QFunction contexts: interface and CPU reference backend

`interface/ceed-qfunctioncontext.c` with `backends/ref/ceed-ref-qfunctioncontext.c`. The state is a heap of byte arrays and
one context (contexts do not refer to each other). The type of bytes is left open. Pointers are to whole arrays together
with an offset where the code uses one. The state counter is unbounded (`uint64_t` in C).
-/

namespace Verif
namespace Context

/-- `CeedMemType` (`include/ceed/types.h`). -/
inductive Mem
  | host | device
deriving DecidableEq, Repr

/-- `CeedCopyMode` (`include/ceed/types.h`). -/
inductive Mode
  | copyValues | usePointer | ownPointer
deriving DecidableEq, Repr

/-- `CeedContextFieldType` (`include/ceed/types.h`). -/
inductive FieldType
  | double | int32 | bool
deriving DecidableEq, Repr

/-- `sizeof` of the field types, `interface/ceed-qfunctioncontext.c` 79-89. -/
def FieldType.bytes : FieldType → Nat
  | .double => 8
  | .int32 => 4
  | .bool => 1

/-- `struct CeedContextFieldLabel_private` (`include/ceed-impl.h` 307-317) without sub-labels. -/
structure Label where
  name : String
  descr : String
  type : FieldType
  size : Nat
  numValues : Nat
  offset : Nat
deriving DecidableEq, Repr

/-- `struct CeedQFunctionContext_private` (`include/ceed-impl.h` 271-293) with `CeedQFunctionContext_Ref`
(`backends/ref/ceed-ref.h`). `destroyFn` is the memory type given with a data destroy function; the function itself belongs
to the program and does nothing to the memory modelled here. -/
structure Ctx where
  refs : Int
  state : Nat
  readers : Nat
  size : Nat
  data : Option Nat
  borrowed : Option Nat
  owned : Option Nat
  labels : List Label
  maxLabels : Nat
  destroyFn : Option Mem
deriving DecidableEq, Repr

/-- Heap of byte arrays and the context. -/
structure World (β : Type) where
  heap : Nat → Option (Buf β)
  next : Nat
  ctx : Option Ctx

/-- After `CeedQFunctionContextCreate` (`interface/ceed-qfunctioncontext.c` 567-584). -/
def World.init {β : Type} : World β := ⟨fun _ => none, 0, some ⟨1, 0, 0, 0, none, none, none, [], 0, none⟩⟩

/-- Replace the context. -/
def World.setCtx {β : Type} (w : World β) (x : Option Ctx) : World β := { w with ctx := x }

/-- Replace an array. -/
def World.setBlk {β : Type} (w : World β) (a : Nat) (b : Option (Buf β)) : World β :=
  { w with heap := fun c => if c = a then b else w.heap c }

/-- Allocate a new array. -/
def World.push {β : Type} (w : World β) (b : Buf β) : World β := { w.setBlk w.next (some b) with next := w.next + 1 }

section
variable {β : Type}

/-- Access to the context; undefined when it was destroyed. -/
def getC : M (World β) Ctx := fun w =>
  match w.ctx with
  | some x => .ok w x
  | none => .ub

/-- Write to the context. -/
def putC (x : Ctx) : M (World β) Unit := fun w => .ok (w.setCtx (some x)) ()

/-- Free the context. -/
def delC : M (World β) Unit := fun w => .ok (w.setCtx none) ()

/-- An array; a null pointer or an array that is not allocated is undefined behaviour. -/
def getB (p : Option Nat) : M (World β) (Buf β) := fun w =>
  match p with
  | none => .ub
  | some a =>
    match w.heap a with
    | some b => .ok w b
    | none => .ub

/-- Replace the contents of an array. -/
def putB (p : Option Nat) (b : Buf β) : M (World β) Unit := fun w =>
  match p with
  | none => .ub
  | some a => .ok (w.setBlk a (some b)) ()

/-- `free`: null is allowed, an array that is not allocated is undefined. -/
def free (p : Option Nat) : M (World β) Unit := fun w =>
  match p with
  | none => .ok w ()
  | some a =>
    match w.heap a with
    | some _ => .ok (w.setBlk a none) ()
    | none => .ub

/-- Allocation of an array with given contents. -/
def alloc (b : Buf β) : M (World β) Nat := fun w => .ok (w.push b) w.next

/-- `memcmp(&data[offset], values, size) != 0`; both ranges must lie inside their arrays. -/
def differs [DecidableEq β] (p : Option Nat) (offset : Nat) (values : Buf β) (size : Nat) : M (World β) Bool := do
  let b ← getB p
  if offset + size ≤ b.len ∧ size ≤ values.len then
    pure (!decide (∀ i : Fin size, b.val (offset + i) = values.val i))
  else M.undef

/-- `memcpy(&data[offset], values, size)` from an array outside. -/
def copyIn (p : Option Nat) (offset : Nat) (values : Buf β) (size : Nat) : M (World β) Unit := do
  let b ← getB p
  if offset + size ≤ b.len ∧ size ≤ values.len then
    putB p ⟨b.len, fun i => if offset ≤ i ∧ i < offset + size then values.val (i - offset) else b.val i⟩
  else M.undef

/-- `interface/ceed-qfunctioncontext.c` 210-213 `CeedQFunctionContextGetState`. -/
def getState : M (World β) Nat := do
  let x ← getC
  pure x.state

/-- `interface/ceed-qfunctioncontext.c` 879-882 `CeedQFunctionContextGetContextSize`. -/
def getSize : M (World β) Nat := do
  let x ← getC
  pure x.size

/-- `interface/ceed-qfunctioncontext.c` 36-42 `CeedQFunctionContextGetFieldIndex`: the last field with the name. -/
def fieldIndex (ls : List Label) (name : String) : Nat → Int
  | 0 => -1
  | n + 1 => if (ls[n]?).map Label.name = some name then n else fieldIndex ls name n

/-- `interface/ceed-qfunctioncontext.c` 256-267 `CeedQFunctionContextGetFieldLabel`; `none` is `NULL`. -/
def getFieldLabel (name : String) : M (World β) (Option Label) := do
  let x ← getC
  let i := fieldIndex x.labels name x.labels.length
  if i ≠ -1 then
    match x.labels[i.toNat]? with
    | some l => pure (some l)
    | none => M.undef
  else pure none

/-- `interface/ceed-qfunctioncontext.c` 839-845 `CeedQFunctionContextGetAllFieldLabels`. -/
def getAllFieldLabels : M (World β) (List Label) := do
  let x ← getC
  pure x.labels

/-- `interface/ceed-qfunctioncontext.c` 58-100 `CeedQFunctionContextRegisterGeneric`. `descr = none` is a `NULL` description,
whose length `CeedStringAllocCopy` (`interface/ceed.c` 312-317) takes: undefined. The table of labels has `maxLabels`
entries. -/
def register (name : String) (offset : Nat) (descr : Option String) (type : FieldType) (num : Nat) : M (World β) Unit := do
  let x ← getC
  M.check (fieldIndex x.labels name x.labels.length = -1) .unsupported
  let m := if x.labels.length = 0 then 1 else if x.labels.length = x.maxLabels then 2 * x.maxLabels else x.maxLabels
  if x.labels.length < m then
    match descr with
    | none => M.undef
    | some d => putC { x with labels := x.labels ++ [⟨name, d, type, type.bytes * num, num, offset⟩], maxLabels := m }
  else M.undef

/-- `interface/ceed-qfunctioncontext.c` 686-701 `CeedQFunctionContextGetData`, with
`backends/ref/ceed-ref-qfunctioncontext.c` 89-98. -/
def getData (mem : Mem) : M (World β) (Option Nat) := do
  let x ← getC
  M.check (x.state % 2 = 0) .minor
  M.check (x.readers = 0) .minor
  M.check (x.data.isSome) .backend
  M.check (mem = .host) .backend
  putC { x with state := x.state + 1 }
  pure x.data

/-- `interface/ceed-qfunctioncontext.c` 720-734 `CeedQFunctionContextGetDataRead`. -/
def getDataRead (mem : Mem) : M (World β) (Option Nat) := do
  let x ← getC
  M.check (x.state % 2 = 0) .minor
  M.check (x.data.isSome) .backend
  M.check (mem = .host) .backend
  putC { x with readers := x.readers + 1 }
  pure x.data

/-- `interface/ceed-qfunctioncontext.c` 746-753 `CeedQFunctionContextRestoreData`. -/
def restoreData : M (World β) Unit := do
  let x ← getC
  M.check (x.state % 2 = 1) .minor
  putC { x with state := x.state + 1 }

/-- `interface/ceed-qfunctioncontext.c` 765-772 `CeedQFunctionContextRestoreDataRead`. -/
def restoreDataRead : M (World β) Unit := do
  let x ← getC
  M.check (0 < x.readers) .minor
  putC { x with readers := x.readers - 1 }

/-- `interface/ceed-qfunctioncontext.c` 111-128 `CeedQFunctionContextDestroyData` (the reference backend has no
`DataDestroy`). -/
def destroyData : M (World β) Unit := do
  let x ← getC
  match x.destroyFn with
  | none => pure ()
  | some m => do
    let _ ← getData m
    restoreData

/-- `backends/ref/ceed-ref-qfunctioncontext.c` 41-69 `CeedQFunctionContextSetData_Ref`. An allocation of zero bytes gives a
pointer that is not `NULL`. -/
def setDataRef (mem : Mem) (mode : Mode) (src : Option Nat) : M (World β) Unit := do
  let x ← getC
  M.check (mem = .host) .backend
  free x.owned
  match mode with
  | .copyValues => do
    let b ← getB src
    if x.size ≤ b.len then do
      let o ← alloc ⟨x.size, b.val⟩
      putC { x with owned := some o, borrowed := none, data := some o }
    else M.undef
  | .ownPointer => putC { x with owned := src, borrowed := none, data := src }
  | .usePointer => putC { x with owned := none, borrowed := src, data := src }

/-- `interface/ceed-qfunctioncontext.c` 623-633 `CeedQFunctionContextSetData`. -/
def setData (mem : Mem) (mode : Mode) (size : Nat) (src : Option Nat) : M (World β) Unit := do
  let x ← getC
  M.check (x.state % 2 = 0) .minor
  destroyData
  let x ← getC
  putC { x with size := size }
  setDataRef mem mode src
  let x ← getC
  putC { x with state := x.state + 2 }

/-- `interface/ceed-qfunctioncontext.c` 649-667 `CeedQFunctionContextTakeData`, with
`backends/ref/ceed-ref-qfunctioncontext.c` 29-36 and 73-84. -/
def takeData (mem : Mem) : M (World β) (Option Nat) := do
  let x ← getC
  M.check (x.data.isSome) .backend
  M.check (x.state % 2 = 0) .minor
  M.check (mem = .host) .backend
  M.check (x.borrowed.isSome) .backend
  putC { x with borrowed := none, data := none }
  pure x.data

/-- `interface/ceed-qfunctioncontext.c` 281-299 `CeedQFunctionContextSetGeneric` (called by `SetDouble`, `SetInt32`,
`SetBoolean`). `values` is an array of the program that does not overlap the data of the context. -/
def setField [DecidableEq β] (l : Label) (type : FieldType) (values : Buf β) : M (World β) Unit := do
  let _ ← getC
  M.check (l.type = type) .unsupported
  let p ← getDataRead .host
  let d ← differs p l.offset values l.size
  restoreDataRead
  if d then do
    let p ← getData .host
    copyIn p l.offset values l.size
    restoreData
  else pure ()

/-- `interface/ceed-qfunctioncontext.c` 314-337 `CeedQFunctionContextGetGenericRead`: number of values, and pointer with
offset. -/
def getField (l : Label) (type : FieldType) : M (World β) (Nat × Option Nat × Nat) := do
  let _ ← getC
  M.check (l.type = type) .unsupported
  let p ← getDataRead .host
  pure (l.size / type.bytes, p, l.offset)

/-- `interface/ceed-qfunctioncontext.c` 351-360 `CeedQFunctionContextRestoreGenericRead`. -/
def restoreField (l : Label) (type : FieldType) : M (World β) Unit := do
  let _ ← getC
  M.check (l.type = type) .unsupported
  restoreDataRead

/-- `interface/ceed-qfunctioncontext.c` 914-919 `CeedQFunctionContextSetDataDestroy` (with a function). -/
def setDataDestroy (mem : Mem) : M (World β) Unit := do
  let x ← getC
  putC { x with destroyFn := some mem }

/-- `interface/ceed-qfunctioncontext.c` 544-547 `CeedQFunctionContextReference`. -/
def reference : M (World β) Unit := do
  let x ← getC
  putC { x with refs := x.refs + 1 }

/-- `interface/ceed-qfunctioncontext.c` 930-948 `CeedQFunctionContextDestroy`, with
`backends/ref/ceed-ref-qfunctioncontext.c` 108-115. -/
def destroy : M (World β) Unit := do
  let x ← getC
  putC { x with refs := x.refs - 1 }
  if 0 < x.refs - 1 then pure ()
  else do
    M.check (x.state % 2 = 0) .minor
    destroyData
    free x.owned
    delC

end

end Context
end Verif
