import Verif.State
import Verif.Vector.Model

/-!
# QFunction contexts of the backend that checks memory accesses

Models `backends/memcheck/ceed-memcheck-qfunctioncontext.c` with `interface/ceed-qfunctioncontext.c`. A program never sees the
array with the values: access is granted to copies. The requests to Valgrind are left out: they have no effect on values. The
type of bytes is left open. One context, one reference. Labels are reduced to offset and size.
-/

namespace Verif
namespace CheckCtx

open Vector (Mem Mode)

/-- An array: its contents, and whether the library has to free it (it has allocated it, or was given it with
`CEED_OWN_POINTER`). -/
structure Blk (β : Type) where
  buf : Buf β
  lib : Bool

/-- The pointers of `CeedQFunctionContext_Memcheck` (`backends/memcheck/ceed-memcheck.h` 48-65): `data_allocated`,
`data_owned`, `data_borrowed`, `data_read_only_copy`, `data_writable_copy`. -/
inductive Slot
  | alloc | own | bor | ro | wr
deriving DecidableEq

/-- `struct CeedQFunctionContext_private` (`include/ceed-impl.h` 271-293) with `CeedQFunctionContext_Memcheck`. `destroyFn` is
the memory type given with a data destroy function. -/
structure KCtx where
  size : Nat
  state : Nat
  readers : Nat
  ptr : Slot → Option Nat
  destroyFn : Option Mem

/-- Arrays, the next free address, the context, and the pointers that the data destroy function was called with. -/
structure W (β : Type) where
  heap : Nat → Option (Blk β)
  next : Nat
  ctx : Option KCtx
  log : List (Option Nat)

/-- After `CeedQFunctionContextCreate` (`interface/ceed-qfunctioncontext.c` 567-584). -/
def W.init {β : Type} : W β := ⟨fun _ => none, 0, some ⟨0, 0, 0, fun _ => none, none⟩, []⟩

/-- Change a pointer. -/
def KCtx.setPtr (x : KCtx) (s : Slot) (p : Option Nat) : KCtx := { x with ptr := fun t => if t = s then p else x.ptr t }

/-- Replace an array. -/
def W.setBlk {β : Type} (w : W β) (a : Nat) (b : Option (Blk β)) : W β :=
  { w with heap := fun c => if c = a then b else w.heap c }

section
variable {β : Type}

/-- Access to the context; undefined when it was destroyed. -/
def getC : M (W β) KCtx := fun w =>
  match w.ctx with
  | some x => .ok w x
  | none => .ub

/-- Write to the context. -/
def putC (x : KCtx) : M (W β) Unit := fun w => .ok { w with ctx := some x } ()

/-- Free the context. -/
def delC : M (W β) Unit := fun w => .ok { w with ctx := none } ()

/-- Set a pointer. -/
def setP (s : Slot) (p : Option Nat) : M (W β) Unit := do
  let x ← getC
  putC (x.setPtr s p)

/-- `CeedMallocArray`, with the contents that are copied to the array next. -/
def newA (b : Buf β) : M (W β) Nat := fun w =>
  .ok { w.setBlk w.next (some ⟨b, true⟩) with next := w.next + 1 } w.next

/-- `CeedFree`. -/
def freeA (p : Option Nat) : M (W β) Unit := fun w =>
  match p with
  | none => .ok w ()
  | some a =>
    match w.heap a with
    | some _ => .ok (w.setBlk a none) ()
    | none => .ub

/-- The contents of an array of at least `n` bytes. -/
def look (p : Option Nat) (n : Nat) : M (W β) (Buf β) := fun w =>
  match p with
  | none => .ub
  | some a =>
    match w.heap a with
    | some b => if n ≤ b.buf.len then .ok w b.buf else .ub
    | none => .ub

/-- `memcpy` of `n` bytes `f` to offset `o` of an array. -/
def fillA (p : Option Nat) (o n : Nat) (f : Nat → β) : M (W β) Unit := fun w =>
  match p with
  | none => .ub
  | some a =>
    match w.heap a with
    | some b =>
      if o + n ≤ b.buf.len then
        .ok (w.setBlk a (some { b with buf := ⟨b.buf.len, fun i => if o ≤ i ∧ i < o + n then f (i - o) else b.buf.val i⟩ })) ()
      else .ub
    | none => .ub

/-- `CeedFree(&impl->...)`, which also clears the pointer. -/
def freeSlot (s : Slot) : M (W β) Unit := do
  let x ← getC
  freeA (x.ptr s)
  setP s none

/-- `if (impl->...) memset(impl->..., -42, ctx_size)`. Every such array is freed next, so only the bounds matter. -/
def touchSlot (s : Slot) : M (W β) Unit := do
  let x ← getC
  match x.ptr s with
  | none => pure ()
  | some a => do
    let _ ← look (some a) x.size
    pure ()

/-- The library becomes responsible for an array (bookkeeping of the model only). -/
def adopt (src : Option Nat) : M (W β) Unit := fun w =>
  match src with
  | none => .ok w ()
  | some a =>
    match w.heap a with
    | some b => .ok (w.setBlk a (some { b with lib := true })) ()
    | none => .ok w ()

/-- `ceed-memcheck-qfunctioncontext.c` 66-80: the pointers to arrays of the program. -/
def external (mode : Mode) (src : Option Nat) : M (W β) Unit :=
  match mode with
  | .copyValues => do
    setP .own none
    setP .bor none
  | .ownPointer => do
    adopt src
    setP .own src
    setP .bor none
  | .usePointer => do
    setP .own none
    setP .bor src

/-- 43-89 `CeedQFunctionContextSetData_Memcheck`. -/
def setDataB (m : Mem) (mode : Mode) (src : Option Nat) : M (W β) Unit := do
  M.check (m = .host) .backend
  touchSlot .alloc
  freeSlot .alloc
  touchSlot .own
  freeSlot .own
  external mode src
  let x ← getC
  let b ← look src x.size
  let o ← newA ⟨x.size, b.val⟩
  setP .alloc (some o)

/-- `if (impl->...) memcpy(impl->..., impl->data_allocated, ctx_size)`. -/
def copyTo (s : Slot) : M (W β) Unit := do
  let x ← getC
  match x.ptr s with
  | none => pure ()
  | some a => do
    let b ← look (x.ptr .alloc) x.size
    fillA (some a) 0 x.size b.val

/-- 94-111 `CeedQFunctionContextSyncData_Memcheck`. -/
def syncB : M (W β) Unit := do
  copyTo .own
  copyTo .bor

/-- 116-140 `CeedQFunctionContextTakeData_Memcheck`. -/
def takeDataB : M (W β) (Option Nat) := do
  syncB
  let x ← getC
  setP .bor none
  touchSlot .alloc
  freeSlot .alloc
  pure (x.ptr .bor)

/-- 145-160 `CeedQFunctionContextGetData_Memcheck`. -/
def getDataB : M (W β) (Option Nat) := do
  let x ← getC
  let b ← look (x.ptr .alloc) x.size
  let o ← newA ⟨x.size, b.val⟩
  setP .wr (some o)
  pure (some o)

/-- 174-179: the copy for readers is made for the first of them. -/
def makeRead : M (W β) Unit := do
  let x ← getC
  let b ← look (x.ptr .alloc) x.size
  let o ← newA ⟨x.size, b.val⟩
  setP .ro (some o)

/-- 165-182 `CeedQFunctionContextGetDataRead_Memcheck`. -/
def getDataReadB : M (W β) (Option Nat) := do
  let x ← getC
  if x.ptr .ro = none then makeRead else pure ()
  let x ← getC
  pure (x.ptr .ro)

/-- 187-203 `CeedQFunctionContextRestoreData_Memcheck`. -/
def restoreDataB : M (W β) Unit := do
  let x ← getC
  let b ← look (x.ptr .wr) x.size
  fillA (x.ptr .alloc) 0 x.size b.val
  syncB
  touchSlot .wr
  freeSlot .wr

/-- 208-225 `CeedQFunctionContextRestoreDataRead_Memcheck`. -/
def restoreReadB [DecidableEq β] : M (W β) Unit := do
  let x ← getC
  let b ← look (x.ptr .alloc) x.size
  let c ← look (x.ptr .ro) x.size
  M.check (∀ i : Fin x.size, b.val i = c.val i) .backend
  touchSlot .ro
  freeSlot .ro

/-- The data destroy function is called (lines 242-248). -/
def callDestroy (p : Option Nat) : M (W β) Unit := fun w => .ok { w with log := w.log ++ [p] } ()

/-- 230-262 `CeedQFunctionContextDataDestroy_Memcheck`, which `interface/ceed-qfunctioncontext.c` 111-128
`CeedQFunctionContextDestroyData` calls. -/
def destroyData : M (W β) Unit := do
  let x ← getC
  M.check (x.destroyFn ≠ some .device) .backend
  if x.destroyFn = some .host then callDestroy (if (x.ptr .bor).isSome then x.ptr .bor else x.ptr .own) else pure ()
  freeSlot .alloc
  freeSlot .own

/-- `interface/ceed-qfunctioncontext.c` 686-701 `CeedQFunctionContextGetData`. -/
def getData (m : Mem) : M (W β) (Option Nat) := do
  let x ← getC
  M.check (x.state % 2 = 0) .minor
  M.check (x.readers = 0) .minor
  M.check ((x.ptr .alloc).isSome = true) .backend
  M.check (m = .host) .backend
  let p ← getDataB
  let x ← getC
  putC { x with state := x.state + 1 }
  pure p

/-- `interface/ceed-qfunctioncontext.c` 720-734 `CeedQFunctionContextGetDataRead`. -/
def getDataRead (m : Mem) : M (W β) (Option Nat) := do
  let x ← getC
  M.check (x.state % 2 = 0) .minor
  M.check ((x.ptr .alloc).isSome = true) .backend
  M.check (m = .host) .backend
  let p ← getDataReadB
  let x ← getC
  putC { x with readers := x.readers + 1 }
  pure p

/-- `interface/ceed-qfunctioncontext.c` 746-753 `CeedQFunctionContextRestoreData`. -/
def restoreData : M (W β) Unit := do
  let x ← getC
  M.check (x.state % 2 = 1) .minor
  restoreDataB
  let x ← getC
  putC { x with state := x.state + 1 }

/-- `interface/ceed-qfunctioncontext.c` 765-772 `CeedQFunctionContextRestoreDataRead`. -/
def restoreDataRead [DecidableEq β] : M (W β) Unit := do
  let x ← getC
  M.check (0 < x.readers) .minor
  putC { x with readers := x.readers - 1 }
  if x.readers - 1 = 0 then restoreReadB else pure ()

/-- The new size (line 629). -/
def setSize (n : Nat) : M (W β) Unit := do
  let x ← getC
  putC { x with size := n }

/-- The new state (line 631). -/
def bumpState : M (W β) Unit := do
  let x ← getC
  putC { x with state := x.state + 2 }

/-- `interface/ceed-qfunctioncontext.c` 623-633 `CeedQFunctionContextSetData`. -/
def setData (m : Mem) (mode : Mode) (size : Nat) (src : Option Nat) : M (W β) Unit := do
  let x ← getC
  M.check (x.state % 2 = 0) .minor
  destroyData
  setSize size
  setDataB m mode src
  bumpState

/-- `interface/ceed-qfunctioncontext.c` 649-667 `CeedQFunctionContextTakeData` with `ceed-memcheck-qfunctioncontext.c`
19-38. -/
def takeData (m : Mem) : M (W β) (Option Nat) := do
  let x ← getC
  M.check ((x.ptr .alloc).isSome = true) .backend
  M.check (x.state % 2 = 0) .minor
  M.check (m = .host) .backend
  M.check ((x.ptr .bor).isSome = true) .backend
  takeDataB

/-- `memcmp(&data[offset], values, size) != 0`. -/
def differs [DecidableEq β] (p : Option Nat) (o : Nat) (v : Buf β) : M (W β) Bool := do
  let b ← look p (o + v.len)
  pure (!decide (∀ i : Fin v.len, b.val (o + i) = v.val i))

/-- `interface/ceed-qfunctioncontext.c` 295-297. -/
def writeField (o : Nat) (v : Buf β) : M (W β) Unit := do
  let p ← getData .host
  fillA p o v.len v.val
  restoreData

/-- `interface/ceed-qfunctioncontext.c` 281-299 `CeedQFunctionContextSetGeneric` for a field at offset `o` with as many bytes
as `v`; the type check is left out. -/
def setField [DecidableEq β] (o : Nat) (v : Buf β) : M (W β) Unit := do
  let p ← getDataRead .host
  let d ← differs p o v
  restoreDataRead
  if d then writeField o v else pure ()

/-- `interface/ceed-qfunctioncontext.c` 914-919 `CeedQFunctionContextSetDataDestroy`. -/
def setDestroy (m : Mem) : M (W β) Unit := do
  let x ← getC
  putC { x with destroyFn := some m }

/-- `ceed-memcheck-qfunctioncontext.c` 267-285 `CeedQFunctionContextDestroy_Memcheck`. -/
def destroyB : M (W β) Unit := do
  freeSlot .alloc
  freeSlot .own
  delC

/-- `interface/ceed-qfunctioncontext.c` 930-948 `CeedQFunctionContextDestroy` of the last reference. -/
def destroy : M (W β) Unit := do
  let x ← getC
  M.check (x.state % 2 = 0) .minor
  destroyData
  destroyB

/-- What a program does: calls on the context, and its own arrays. -/
inductive Call (β : Type)
  | setData (m : Mem) (mode : Mode) (size : Nat) (a : Nat)
  | takeData (m : Mem)
  | getData (m : Mem)
  | getDataRead (m : Mem)
  | restoreData
  | restoreDataRead
  | setField (o : Nat) (v : Buf β)
  | setDestroy (m : Mem)
  | destroy
  | malloc (b : Buf β)
  | mfree (a : Nat)
  | store (a i : Nat) (z : β)

/-- A new array of the program. -/
def malloc (b : Buf β) : M (W β) (Option Nat) := fun w =>
  .ok { w.setBlk w.next (some ⟨b, false⟩) with next := w.next + 1 } (some w.next)

/-- The program frees an array. -/
def mfree (a : Nat) : M (W β) Unit := fun w =>
  match w.heap a with
  | some _ => .ok (w.setBlk a none) ()
  | none => .ub

/-- The program writes to an array. -/
def store (a i : Nat) (z : β) : M (W β) Unit := fun w =>
  match w.heap a with
  | some b => if i < b.buf.len then
      .ok (w.setBlk a (some { b with buf := ⟨b.buf.len, fun j => if j = i then z else b.buf.val j⟩ })) () else .ub
  | none => .ub

/-- A call without result. -/
def noRet (m : M (W β) Unit) : M (W β) (Option Nat) := do
  m
  pure none

/-- Execute a call; the result is a pointer, if there is one. -/
def exec [DecidableEq β] : Call β → M (W β) (Option Nat)
  | .setData m mode size a => noRet (setData m mode size (some a))
  | .takeData m => takeData m
  | .getData m => getData m
  | .getDataRead m => getDataRead m
  | .restoreData => noRet restoreData
  | .restoreDataRead => noRet restoreDataRead
  | .setField o v => noRet (setField o v)
  | .setDestroy m => noRet (setDestroy m)
  | .destroy => noRet destroy
  | .malloc b => malloc b
  | .mfree a => noRet (mfree a)
  | .store a i z => noRet (store a i z)

end

end CheckCtx
end Verif
