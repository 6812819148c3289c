import Verif.State
import Verif.Vector.Model

/-!
# QFunction contexts with a copy on the host and a copy on the device

Models `backends/cuda-ref/ceed-cuda-ref-qfunctioncontext.c` with `interface/ceed-qfunctioncontext.c`
(`backends/hip-ref/ceed-hip-ref-qfunctioncontext.c` has the same text). Host and device memory are separate: an array lives in
one of them, and touching it from the other side is undefined. Functions that exist twice with the same text, for the host
and for the device, are modelled once, with the memory type as an argument. The type of bytes is left open. One context,
one reference; calls of the CUDA runtime succeed. Labels are reduced to offset and size (`Verif/Context` has them in full).
-/

namespace Verif
namespace DevCtx

open Vector (Mem Mode)

/-- An array: where it lives, its contents, and whether the library has to free it (it has allocated it, or was given it
with `CEED_OWN_POINTER`). -/
structure Blk (β : Type) where
  mem : Mem
  buf : Buf β
  lib : Bool

/-- The three pointers of one memory type in `CeedQFunctionContext_Cuda` (`backends/cuda-ref/ceed-cuda-ref.h`): `h_data`,
`h_data_borrowed`, `h_data_owned`, or those with `d_`. -/
structure Side where
  arr : Option Nat
  bor : Option Nat
  own : Option Nat

/-- `struct CeedQFunctionContext_private` (`include/ceed-impl.h` 271-293) with `CeedQFunctionContext_Cuda`. `destroyFn` is
the memory type given with a data destroy function, which does nothing to the memory modelled here. -/
structure DCtx where
  size : Nat
  state : Nat
  readers : Nat
  side : Mem → Side
  destroyFn : Option Mem

/-- Arrays, the next free address, and the context. -/
structure W (β : Type) where
  heap : Nat → Option (Blk β)
  next : Nat
  ctx : Option DCtx

/-- After `CeedQFunctionContextCreate` (`interface/ceed-qfunctioncontext.c` 567-584). -/
def W.init {β : Type} : W β := ⟨fun _ => none, 0, some ⟨0, 0, 0, fun _ => ⟨none, none, none⟩, none⟩⟩

/-- The other memory type. -/
def other : Mem → Mem
  | .host => .device
  | .device => .host

/-- Change the pointers of one memory type. -/
def DCtx.setSide (x : DCtx) (m : Mem) (s : Side) : DCtx := { x with side := fun m' => if m' = m then s else x.side m' }

/-- Replace an array. -/
def W.setBlk {β : Type} (w : W β) (a : Nat) (b : Option (Blk β)) : W β :=
  { w with heap := fun c => if c = a then b else w.heap c }

section
variable {β : Type}

/-- Access to the context; undefined when it was destroyed. -/
def getC : M (W β) DCtx := fun w =>
  match w.ctx with
  | some x => .ok w x
  | none => .ub

/-- Write to the context. -/
def putC (x : DCtx) : M (W β) Unit := fun w => .ok { w with ctx := some x } ()

/-- Free the context. -/
def delC : M (W β) Unit := fun w => .ok { w with ctx := none } ()

/-- `CeedMallocArray` or `cudaMalloc`. The contents are undefined; the model takes those that are copied to the array next. -/
def alloc (m : Mem) (b : Buf β) : M (W β) Nat := fun w =>
  .ok { w.setBlk w.next (some ⟨m, b, true⟩) with next := w.next + 1 } w.next

/-- `CeedFree` or `cudaFree`. -/
def freeA (m : Mem) (p : Option Nat) : M (W β) Unit := fun w =>
  match p with
  | none => .ok w ()
  | some a =>
    match w.heap a with
    | some b => if b.mem = m then .ok (w.setBlk a none) () else .ub
    | none => .ub

/-- The contents of an array of at least `n` bytes, seen from the host or the device. -/
def look (m : Mem) (p : Option Nat) (n : Nat) : M (W β) (Buf β) := fun w =>
  match p with
  | none => .ub
  | some a =>
    match w.heap a with
    | some b => if b.mem = m ∧ n ≤ b.buf.len then .ok w b.buf else .ub
    | none => .ub

/-- `memcpy`, `cudaMemcpy` of `n` bytes `f` to offset `o` of an array. -/
def fillA (m : Mem) (p : Option Nat) (o n : Nat) (f : Nat → β) : M (W β) Unit := fun w =>
  match p with
  | none => .ub
  | some a =>
    match w.heap a with
    | some b =>
      if b.mem = m ∧ o + n ≤ b.buf.len then
        .ok (w.setBlk a (some { b with buf := ⟨b.buf.len, fun i => if o ≤ i ∧ i < o + n then f (i - o) else b.buf.val i⟩ })) ()
      else .ub
    | none => .ub

/-- The array for a copy: the borrowed one, else the owned one, else a new one
(`ceed-cuda-ref-qfunctioncontext.c` 30-37 and 58-65). -/
def pick (m : Mem) (b : Buf β) (s : Side) : M (W β) Side :=
  match s.bor, s.own with
  | some a, _ => pure { s with arr := some a }
  | none, some a => pure { s with arr := some a }
  | none, none => do
    let a ← alloc m b
    pure ⟨some a, none, some a⟩

/-- `ceed-cuda-ref-qfunctioncontext.c` 100-106 `CeedQFunctionContextHasValidData_Cuda`. -/
def validB (x : DCtx) : Bool := (x.side .host).arr.isSome || (x.side .device).arr.isSome

/-- 130-145 `CeedQFunctionContextNeedSync_Cuda` and 75-83 `CeedQFunctionContextSync_Cuda` with 20-42
`CeedQFunctionContextSyncH2D_Cuda` and 47-70 `CeedQFunctionContextSyncD2H_Cuda`, which have the same structure. -/
def syncB (m : Mem) : M (W β) Unit := do
  let x ← getC
  if validB x = true ∧ (x.side m).arr = none then do
    M.check ((x.side (other m)).arr.isSome = true) .backend
    let b ← look (other m) (x.side (other m)).arr x.size
    let s ← pick m ⟨x.size, b.val⟩ (x.side m)
    putC (x.setSide m s)
    fillA m s.arr 0 x.size b.val
  else pure ()

/-- 262-282 `CeedQFunctionContextGetDataCore_Cuda` (287-289 `CeedQFunctionContextGetDataRead_Cuda` is a call of it). -/
def coreB (m : Mem) : M (W β) (Option Nat) := do
  syncB m
  let x ← getC
  pure (x.side m).arr

/-- 88-95 `CeedQFunctionContextSetAllInvalid_Cuda`. -/
def DCtx.invalid (x : DCtx) : DCtx := { x with side := fun m => { x.side m with arr := none } }

/-- 294-311 `CeedQFunctionContextGetData_Cuda`. -/
def getDataB (m : Mem) : M (W β) (Option Nat) := do
  let p ← coreB m
  let x ← getC
  putC (x.invalid.setSide m { x.side m with arr := p })
  pure p

/-- The library becomes responsible for an array it is given with `CEED_OWN_POINTER` (bookkeeping of the model only). -/
def adopt (src : Option Nat) : M (W β) Unit := fun w =>
  match src with
  | none => .ok w ()
  | some a =>
    match w.heap a with
    | some b => .ok (w.setBlk a (some { b with lib := true })) ()
    | none => .ok w ()

/-- 218-227 `CeedQFunctionContextSetData_Cuda` with 150-176 `CeedQFunctionContextSetDataHost_Cuda` and 181-212
`CeedQFunctionContextSetDataDevice_Cuda`: only the arrays of the memory type `m` are replaced. -/
def setDataB (m : Mem) (mode : Mode) (src : Option Nat) : M (W β) Unit := do
  let x ← getC
  freeA m (x.side m).own
  match mode with
  | .copyValues => do
    let b ← look m src x.size
    let o ← alloc m ⟨x.size, b.val⟩
    putC (x.invalid.setSide m ⟨some o, none, some o⟩)
  | .ownPointer => do
    adopt src
    putC (x.invalid.setSide m ⟨src, none, src⟩)
  | .usePointer => putC (x.invalid.setSide m ⟨src, src, none⟩)

/-- 232-256 `CeedQFunctionContextTakeData_Cuda`. -/
def takeDataB (m : Mem) : M (W β) (Option Nat) := do
  syncB m
  let x ← getC
  putC (x.setSide m { x.side m with arr := none, bor := none })
  pure (x.side m).bor

/-- `interface/ceed-qfunctioncontext.c` 686-701 `CeedQFunctionContextGetData`. -/
def getData (m : Mem) : M (W β) (Option Nat) := do
  let x ← getC
  M.check (x.state % 2 = 0) .minor
  M.check (x.readers = 0) .minor
  M.check (validB x = true) .backend
  let p ← getDataB m
  let x ← getC
  putC { x with state := x.state + 1 }
  pure p

/-- `interface/ceed-qfunctioncontext.c` 720-734 `CeedQFunctionContextGetDataRead`. -/
def getDataRead (m : Mem) : M (W β) (Option Nat) := do
  let x ← getC
  M.check (x.state % 2 = 0) .minor
  M.check (validB x = true) .backend
  let p ← coreB m
  let x ← getC
  putC { x with readers := x.readers + 1 }
  pure p

/-- `interface/ceed-qfunctioncontext.c` 746-753 `CeedQFunctionContextRestoreData` (no backend function). -/
def restoreData : M (W β) Unit := do
  let x ← getC
  M.check (x.state % 2 = 1) .minor
  putC { x with state := x.state + 1 }

/-- `interface/ceed-qfunctioncontext.c` 765-772 `CeedQFunctionContextRestoreDataRead` (no backend function). -/
def restoreDataRead : M (W β) Unit := do
  let x ← getC
  M.check (0 < x.readers) .minor
  putC { x with readers := x.readers - 1 }

/-- `interface/ceed-qfunctioncontext.c` 111-128 `CeedQFunctionContextDestroyData` (the backend has no `DataDestroy`). -/
def destroyData : M (W β) Unit := do
  let x ← getC
  match x.destroyFn with
  | none => pure ()
  | some m => do
    let _ ← getData m
    restoreData

/-- The new size (line 629). -/
def setSize (n : Nat) : M (W β) Unit := do
  let x ← getC
  putC { x with size := n }

/-- The new state (line 631). -/
def bumpState : M (W β) Unit := do
  let x ← getC
  putC { x with state := x.state + 2 }

/-- `interface/ceed-qfunctioncontext.c` 623-633 `CeedQFunctionContextSetData`. -/
def setData (m : Mem) (mode : Mode) (size : Nat) (src : Option Nat) : M (W β) Unit := do
  let x ← getC
  M.check (x.state % 2 = 0) .minor
  destroyData
  setSize size
  setDataB m mode src
  bumpState

/-- `interface/ceed-qfunctioncontext.c` 649-667 `CeedQFunctionContextTakeData` with `ceed-cuda-ref-qfunctioncontext.c`
111-125. -/
def takeData (m : Mem) : M (W β) (Option Nat) := do
  let x ← getC
  M.check (validB x = true) .backend
  M.check (x.state % 2 = 0) .minor
  M.check ((x.side m).bor.isSome = true) .backend
  takeDataB m

/-- `memcmp(&data[offset], values, size) != 0` on the host. -/
def differs [DecidableEq β] (p : Option Nat) (o : Nat) (v : Buf β) : M (W β) Bool := do
  let b ← look .host p (o + v.len)
  pure (!decide (∀ i : Fin v.len, b.val (o + i) = v.val i))

/-- Lines 295-297: the new values. -/
def writeField (o : Nat) (v : Buf β) : M (W β) Unit := do
  let p ← getData .host
  fillA .host p o v.len v.val
  restoreData

/-- `interface/ceed-qfunctioncontext.c` 281-299 `CeedQFunctionContextSetGeneric` for a field at offset `o` with as many bytes
as `v`; the type check is left out. -/
def setField [DecidableEq β] (o : Nat) (v : Buf β) : M (W β) Unit := do
  let p ← getDataRead .host
  let d ← differs p o v
  restoreDataRead
  if d then writeField o v else pure ()

/-- `interface/ceed-qfunctioncontext.c` 914-919 `CeedQFunctionContextSetDataDestroy`. -/
def setDestroy (m : Mem) : M (W β) Unit := do
  let x ← getC
  putC { x with destroyFn := some m }

/-- `ceed-cuda-ref-qfunctioncontext.c` 316-324 `CeedQFunctionContextDestroy_Cuda`. -/
def destroyB : M (W β) Unit := do
  let x ← getC
  freeA .device (x.side .device).own
  freeA .host (x.side .host).own
  delC

/-- `interface/ceed-qfunctioncontext.c` 930-948 `CeedQFunctionContextDestroy` of the last reference. -/
def destroy : M (W β) Unit := do
  let x ← getC
  M.check (x.state % 2 = 0) .minor
  destroyData
  destroyB

/-- What a program does: calls on the context, and its own arrays. -/
inductive Call (β : Type)
  | setData (m : Mem) (mode : Mode) (size : Nat) (a : Nat)
  | takeData (m : Mem)
  | getData (m : Mem)
  | getDataRead (m : Mem)
  | restoreData
  | restoreDataRead
  | setField (o : Nat) (v : Buf β)
  | setDestroy (m : Mem)
  | destroy
  | malloc (m : Mem) (b : Buf β)
  | mfree (a : Nat)
  | store (a i : Nat) (z : β)

/-- A new array of the program. -/
def malloc (m : Mem) (b : Buf β) : M (W β) (Option Nat) := fun w =>
  .ok { w.setBlk w.next (some ⟨m, b, false⟩) with next := w.next + 1 } (some w.next)

/-- The program frees an array. -/
def mfree (a : Nat) : M (W β) Unit := fun w =>
  match w.heap a with
  | some _ => .ok (w.setBlk a none) ()
  | none => .ub

/-- The program, or a kernel of it, writes to an array. -/
def store (a i : Nat) (z : β) : M (W β) Unit := fun w =>
  match w.heap a with
  | some b => if i < b.buf.len then
      .ok (w.setBlk a (some { b with buf := ⟨b.buf.len, fun j => if j = i then z else b.buf.val j⟩ })) () else .ub
  | none => .ub

/-- A call without result. -/
def noRet (m : M (W β) Unit) : M (W β) (Option Nat) := do
  m
  pure none

/-- Execute a call; the result is a pointer, if there is one. -/
def exec [DecidableEq β] : Call β → M (W β) (Option Nat)
  | .setData m mode size a => noRet (setData m mode size (some a))
  | .takeData m => takeData m
  | .getData m => getData m
  | .getDataRead m => getDataRead m
  | .restoreData => noRet restoreData
  | .restoreDataRead => noRet restoreDataRead
  | .setField o v => noRet (setField o v)
  | .setDestroy m => noRet (setDestroy m)
  | .destroy => noRet destroy
  | .malloc m b => malloc m b
  | .mfree a => noRet (mfree a)
  | .store a i z => noRet (store a i z)

end

end DevCtx
end Verif
