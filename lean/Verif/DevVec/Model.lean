import Mathlib.Algebra.Ring.Basic
import Mathlib.Algebra.Order.Ring.Int
import Verif.State
import Verif.Vector.Model

/-!
# Vectors with an array on the host and an array on the device

Models `backends/cuda-ref/ceed-cuda-ref-vector.c` with `interface/ceed-vector.c` (`backends/hip-ref/ceed-hip-ref-vector.c` is the
same on devices without unified addressing). Host and device memory are separate: an array lives in one of them, and touching it
from the other side is undefined. Functions that exist twice with the same text, for the host and for the device, are modelled once,
with the memory type as an argument.

Simplifications: scalars are a commutative ring (so that `alpha * x + beta * y`, and `beta * y` followed by `+= alpha * x`, are the
same), with any function for `1. / x` and for norms; entries that `cudaMalloc` leaves undefined have some value; lengths are not
negative; one `Ceed`; one reference per vector; calls of the CUDA runtime and of cuBLAS succeed and do what their documentation says;
kernels act entry by entry as in `kernels/cuda-ref-vector.cu` (see `Verif.Gpu.VectorKernels` for their execution by threads).
-/

namespace Verif
namespace DevVec

open Vector (Mem Mode NormType)

/-- The parameters: `1. / x`; `fabs(x) > CEED_EPSILON` on the host; `fabs(x) > 1E-16` on the device (`kernels/cuda-ref-vector.cu` 88); what
cuBLAS computes for a norm of `n` entries; uninitialised device memory; whether cuBLAS has the 64-bit interface
(`CUDA_VERSION >= 12000`). -/
structure Env (α : Type) where
  inv : α → α
  big : Mem → α → Bool
  norm : NormType → Nat → (Nat → α) → α
  junk : Nat → Nat → α
  blas64 : Bool

/-- An array: where it lives, its length and contents. `lib` records that the library has to free it: it has allocated it, or was
given it with `CEED_OWN_POINTER`. -/
structure Blk (α : Type) where
  mem : Mem
  buf : Buf α
  lib : Bool

/-- The three pointers of one memory type in `CeedVector_Cuda` (`backends/cuda-ref/ceed-cuda-ref.h` 15-22): `h_array`,
`h_array_borrowed`, `h_array_owned`, or `d_array`, `d_array_borrowed`, `d_array_owned`. -/
structure Side where
  arr : Option Nat
  bor : Option Nat
  own : Option Nat

/-- `struct CeedVector_private` (`include/ceed-impl.h`) with `CeedVector_Cuda`. -/
structure DVec where
  len : Nat
  state : Nat
  readers : Nat
  side : Mem → Side

/-- Arrays, the next address that is free, and the vectors. -/
structure W (α : Type) where
  heap : Nat → Option (Blk α)
  next : Nat
  vecs : Nat → Option DVec

/-- Nothing allocated. -/
def W.init {α : Type} : W α := ⟨fun _ => none, 0, fun _ => none⟩

def W.setVec {α : Type} (w : W α) (v : Nat) (x : Option DVec) : W α :=
  { w with vecs := fun u => if u = v then x else w.vecs u }

def W.setArr {α : Type} (w : W α) (a : Nat) (b : Option (Blk α)) : W α :=
  { w with heap := fun c => if c = a then b else w.heap c }

/-- Change the pointers of one memory type. -/
def DVec.setSide (x : DVec) (m : Mem) (s : Side) : DVec := { x with side := fun m' => if m' = m then s else x.side m' }

/-- The other memory type. -/
def other : Mem → Mem
  | .host => .device
  | .device => .host

section Memory
variable {α : Type} [CommRing α] (E : Env α)

/-- Access to a vector that exists. -/
def getV (v : Nat) : M (W α) DVec := fun w =>
  match w.vecs v with
  | some x => .ok w x
  | none => .ub

def putV (v : Nat) (x : DVec) : M (W α) Unit := fun w => .ok (w.setVec v (some x)) ()

/-- `CeedCalloc` (zeros) or `cudaMalloc` (undefined contents) of `n` scalars. -/
def alloc (m : Mem) (n : Nat) : M (W α) Nat := fun w =>
  .ok ⟨fun c => if c = w.next then some ⟨m, ⟨n, if m = .host then fun _ => 0 else E.junk w.next⟩, true⟩ else w.heap c, w.next + 1, w.vecs⟩
    w.next

/-- `CeedFree` or `cudaFree`. -/
def freeA (m : Mem) (p : Option Nat) : M (W α) Unit := fun w =>
  match p with
  | none => .ok w ()
  | some a =>
    match w.heap a with
    | some b => if b.mem = m then .ok (w.setArr a none) () else .ub
    | none => .ub

/-- The contents of an array of at least `n` entries, seen from the host or the device. -/
def look (m : Mem) (p : Option Nat) (n : Nat) : M (W α) (Buf α) := fun w =>
  match p with
  | none => .ub
  | some a =>
    match w.heap a with
    | some b => if b.mem = m ∧ n ≤ b.buf.len then .ok w b.buf else .ub
    | none => .ub

/-- Store new contents of an array, from the host or the device. -/
def save (m : Mem) (p : Option Nat) (f : Buf α) : M (W α) Unit := fun w =>
  match p with
  | none => .ub
  | some a =>
    match w.heap a with
    | some b => if b.mem = m then .ok (w.setArr a (some { b with buf := f })) () else .ub
    | none => .ub

/-- The first `n` entries replaced. -/
def over (b : Buf α) (n : Nat) (f : Nat → α) : Buf α := ⟨b.len, fun i => if i < n then f i else b.val i⟩

/-- `memcpy`, `cudaMemcpy` of `n` entries; the arrays do not overlap. -/
def copyN (md : Mem) (dst : Option Nat) (ms : Mem) (src : Option Nat) (n : Nat) : M (W α) Unit := do
  let s ← look ms src n
  let d ← look md dst n
  if dst = src then M.undef else save md dst (over d n s.val)

end Memory

section Backend
variable {α : Type} [CommRing α] [DecidableEq α] (E : Env α)

/-- Choose the array to be used: the borrowed one, else the owned one, else a new one (`interface/ceed.c` 352-358,
`backends/cuda/ceed-cuda-common.c` 56-62, `ceed-cuda-ref-vector.c` 51-58 and 76-85). -/
def pick (m : Mem) (n : Nat) (s : Side) : M (W α) Side :=
  match s.bor, s.own with
  | some b, _ => pure { s with arr := some b }
  | none, some o => pure { s with arr := some o }
  | none, none => do
    let a ← alloc E m n
    pure ⟨some a, none, some a⟩

/-- `interface/ceed.c` 348-375 `CeedSetHostGenericArray` and `backends/cuda/ceed-cuda-common.c` 52-79
`CeedSetDeviceGenericArray_Cuda`, which have the same text, for arrays that `CeedVectorSetAllInvalid_Cuda` has invalidated. -/
def setGeneric (m : Mem) (mode : Mode) (src : Option Nat) (n : Nat) (s : Side) : M (W α) Side :=
  match mode with
  | .copyValues => do
    let s ← pick E m n s
    if src.isSome then do
      copyN m s.arr m src n
      pure s
    else pure s
  | .ownPointer => do
    freeA m s.own
    pure ⟨src, none, src⟩
  | .usePointer => do
    freeA m s.own
    pure ⟨src, src, none⟩

/-- The library becomes responsible for an array it is given with `CEED_OWN_POINTER` (bookkeeping of the model only). -/
def adopt (mode : Mode) (src : Option Nat) : M (W α) Unit := fun w =>
  match mode, src with
  | .ownPointer, some a =>
    match w.heap a with
    | some b => .ok (w.setArr a (some { b with lib := true })) ()
    | none => .ok w ()
  | _, _ => .ok w ()

/-- `ceed-cuda-ref-vector.c` 208-221 `CeedVectorSetArray_Cuda` with 114-121 `CeedVectorSetAllInvalid_Cuda`, 172-182
`CeedVectorSetArrayHost_Cuda` and 187-202 `CeedVectorSetArrayDevice_Cuda`. -/
def setArrayB (v : Nat) (m : Mem) (mode : Mode) (src : Option Nat) : M (W α) Unit := do
  let x ← getV v
  let s ← setGeneric E m mode src x.len { x.side m with arr := none }
  adopt mode src
  putV v { x with side := fun m' => if m' = m then s else { x.side m' with arr := none } }

/-- `interface/ceed-vector.c` 52-66 `CeedVectorHasValidArray` with `ceed-cuda-ref-vector.c` 128-134
`CeedVectorHasValidArray_Cuda`. -/
def validB (x : DVec) : Bool := decide (x.len = 0) || (x.side .host).arr.isSome || (x.side .device).arr.isSome

/-- 96-112 `CeedVectorSyncArray_Cuda` with 21-36 `CeedVectorNeedSync_Cuda`, 41-61 `CeedVectorSyncH2D_Cuda` and 66-91
`CeedVectorSyncD2H_Cuda`, which have the same structure. -/
def syncB (v : Nat) (m : Mem) : M (W α) Unit := do
  let x ← getV v
  if validB x = true ∧ (x.side m).arr = none then do
    M.check ((x.side (other m)).arr.isSome = true) .backend
    let s ← pick E m x.len (x.side m)
    putV v (x.setSide m s)
    copyN m s.arr (other m) (x.side (other m)).arr x.len
  else pure ()

/-- `interface/ceed-vector.c` 413-431 `CeedVectorSyncArray`. -/
def syncArray (v : Nat) (m : Mem) : M (W α) Unit := do
  let x ← getV v
  M.check (x.state % 2 = 0) .access
  if x.len = 0 then pure () else syncB E v m

/-- `vec->state += k`. -/
def bump (v : Nat) (k : Nat) : M (W α) Unit := do
  let x ← getV v
  putV v { x with state := x.state + k }

/-- `vec->num_readers = k`. -/
def setReaders (v : Nat) (k : Nat) : M (W α) Unit := do
  let x ← getV v
  putV v { x with readers := k }

/-- The two lock checks of `interface/ceed-vector.c`, for example 320-322. -/
def lockChecks (x : DVec) : M (W α) Unit := do
  M.check (x.state % 2 = 0) .access
  M.check (x.readers = 0) .access

/-- `interface/ceed-vector.c` 316-328 `CeedVectorSetArray`. -/
def setArray (v : Nat) (m : Mem) (mode : Mode) (src : Option Nat) : M (W α) Unit := do
  let x ← getV v
  lockChecks x
  if 0 < x.len then do
    setArrayB E v m mode src
    bump v 2
  else bump v 2

/-- Invalidate the array of one memory type. -/
def dropArr (v : Nat) (m : Mem) : M (W α) Unit := do
  let x ← getV v
  putV v (x.setSide m { x.side m with arr := none })

/-- Use the given array of one memory type. -/
def useArr (v : Nat) (m : Mem) (p : Option Nat) : M (W α) Unit := do
  let x ← getV v
  putV v (x.setSide m { x.side m with arr := p })

/-- `b[i] = f(i, b[i])` for `i < n`: a loop on the host, one thread per entry on the device. -/
def mapA (m : Mem) (p : Option Nat) (n : Nat) (f : Nat → α → α) : M (W α) Unit := do
  let b ← look m p n
  save m p (over b n fun i => f i (b.val i))

/-- 309-321: choose an array for a vector without valid values. -/
def chooseArr (v : Nat) : M (W α) Unit := do
  let x ← getV v
  if (x.side .device).arr = none ∧ (x.side .host).arr = none then
    if (x.side .device).bor.isSome then useArr v .device (x.side .device).bor
    else if (x.side .host).bor.isSome then useArr v .host (x.side .host).bor
    else if (x.side .device).own.isSome then useArr v .device (x.side .device).own
    else if (x.side .host).own.isSome then useArr v .host (x.side .host).own
    else setArray E v .device .copyValues none
  else pure ()

/-- 303-338 `CeedVectorSetValue_Cuda`; the device array is set with `cudaMemset` if the value is zero. -/
def setValueB (v : Nat) (z : α) : M (W α) Unit := do
  chooseArr E v
  let x ← getV v
  if (x.side .device).arr.isSome then do
    mapA .device (x.side .device).arr x.len (fun _ _ => if z = 0 then 0 else z)
    dropArr v .host
  else if (x.side .host).arr.isSome then do
    mapA .host (x.side .host).arr x.len (fun _ _ => z)
    dropArr v .device
  else pure ()

/-- `interface/ceed-vector.c` 340-358 `CeedVectorSetValue`. -/
def setValue (v : Nat) (z : α) : M (W α) Unit := do
  let x ← getV v
  lockChecks x
  setValueB E v z
  bump v 2

/-- `for (i = start; i < stop; i += step) b[i] = g[i]` where `g` has `lim` entries. On the host (`ceed-cuda-ref-vector.c` 226-229,
343-346) a step that is not positive never ends or leaves the array. On the device (`kernels/cuda-ref-vector.cu` 14-20, 60-66) one thread
per index of the window tests `index % step == 0`, which is undefined if the step is zero. -/
def strided (m : Mem) (start stop step : Int) (lim : Nat) (g : Nat → α) (b : Buf α) : Res (Buf α) :=
  if start < stop then
    if start < 0 ∨ (b.len : Int) < stop ∨ (lim : Int) < stop ∨ step = 0 ∨ (m = .host ∧ step < 0) then .ub
    else .ok ⟨b.len, fun i => if start ≤ i ∧ (i : Int) < stop ∧ step ∣ (i : Int) - start then g i else b.val i⟩
  else .ok b

/-- `cublasDcopy_64(handle, stop - start, g + start, step, b + start, step)` (257-267): that many entries, `step` apart. -/
def blasCopy (start stop step : Int) (lim : Nat) (g : Nat → α) (b : Buf α) : Res (Buf α) :=
  if start < stop then
    if start < 0 ∨ (b.len : Int) ≤ start + (stop - start - 1) * |step| ∨ (lim : Int) ≤ start + (stop - start - 1) * |step| then .ub
    else .ok ⟨b.len, fun i =>
      if start ≤ i ∧ (i : Int) ≤ start + (stop - start - 1) * |step| ∧ step ∣ (i : Int) - start then g i else b.val i⟩
  else .ok b

/-- One branch of 353-375 `CeedVectorSetValueStrided_Cuda`. -/
def setStridedOn (v : Nat) (m : Mem) (start stop step : Int) (z : α) : M (W α) Unit := do
  let x ← getV v
  let b ← look m (x.side m).arr x.len
  let b' ← M.lift (strided m start stop step b.len (fun _ => z) b)
  save m (x.side m).arr b'
  dropArr v (other m)

/-- 353-375 `CeedVectorSetValueStrided_Cuda`. -/
def setValueStridedB (v : Nat) (start stop step : Int) (z : α) : M (W α) Unit := do
  let x ← getV v
  let stop := if stop = -1 then (x.len : Int) else stop
  if (x.side .device).arr.isSome then setStridedOn v .device start stop step z
  else if (x.side .host).arr.isSome then setStridedOn v .host start stop step z
  else M.fail .backend

/-- `interface/ceed-vector.c` 375-398 `CeedVectorSetValueStrided`. -/
def setValueStrided (v : Nat) (start stop step : Int) (z : α) : M (W α) Unit := do
  let x ← getV v
  lockChecks x
  M.check (-1 ≤ stop ∧ stop ≤ x.len) .access
  setValueStridedB v start stop step z
  bump v 2

/-- 380-398 `CeedVectorTakeArray_Cuda`. -/
def takeArrayB (v : Nat) (m : Mem) : M (W α) (Option Nat) := do
  syncArray E v m
  let x ← getV v
  putV v (x.setSide m { x.side m with bor := none, arr := none })
  pure (x.side m).bor

/-- `interface/ceed-vector.c` 448-471 `CeedVectorTakeArray`. -/
def takeArray (v : Nat) (m : Mem) : M (W α) (Option Nat) := do
  let x ← getV v
  lockChecks x
  if 0 < x.len then do
    M.check ((x.side m).bor.isSome = true) .backend
    M.check (validB x = true) .backend
    takeArrayB E v m
  else pure none

/-- 404-421 `CeedVectorGetArrayCore_Cuda`. -/
def getCore (v : Nat) (m : Mem) : M (W α) (Option Nat) := do
  syncArray E v m
  let x ← getV v
  pure (x.side m).arr

/-- 433-449 `CeedVectorGetArray_Cuda`. -/
def getArrayB (v : Nat) (m : Mem) : M (W α) (Option Nat) := do
  let p ← getCore E v m
  let x ← getV v
  putV v { x with side := fun m' => { x.side m' with arr := if m' = m then p else none } }
  pure p

/-- `interface/ceed-vector.c` 490-512 `CeedVectorGetArray`. -/
def getArray (v : Nat) (m : Mem) : M (W α) (Option Nat) := do
  let x ← getV v
  lockChecks x
  if 0 < x.len then do
    M.check (validB x = true) .backend
    let p ← getArrayB E v m
    bump v 1
    pure p
  else do
    bump v 1
    pure none

/-- `interface/ceed-vector.c` 528-549 `CeedVectorGetArrayRead` with `ceed-cuda-ref-vector.c` 426-428
`CeedVectorGetArrayRead_Cuda`. -/
def getArrayRead (v : Nat) (m : Mem) : M (W α) (Option Nat) := do
  let x ← getV v
  M.check (x.state % 2 = 0) .access
  if 0 < x.len then do
    M.check (validB x = true) .backend
    let p ← getCore E v m
    setReaders v (x.readers + 1)
    pure p
  else do
    setReaders v (x.readers + 1)
    pure none

/-- 454-478 `CeedVectorGetArrayWrite_Cuda` with 139-153 `CeedVectorHasArrayOfType_Cuda`. -/
def getArrayWriteB (v : Nat) (m : Mem) : M (W α) (Option Nat) := do
  let x ← getV v
  if (x.side m).bor.isSome = true ∨ (x.side m).own.isSome = true then
    useArr v m (if (x.side m).bor.isSome then (x.side m).bor else (x.side m).own)
  else setArray E v m .copyValues none
  getArrayB E v m

/-- `interface/ceed-vector.c` 565-581 `CeedVectorGetArrayWrite`. -/
def getArrayWrite (v : Nat) (m : Mem) : M (W α) (Option Nat) := do
  let x ← getV v
  lockChecks x
  if 0 < x.len then do
    let p ← getArrayWriteB E v m
    bump v 1
    pure p
  else do
    bump v 1
    pure none

/-- `interface/ceed-vector.c` 593-602 `CeedVectorRestoreArray`; the backend does nothing. -/
def restoreArray (v : Nat) : M (W α) Unit := do
  let x ← getV v
  M.check (x.state % 2 = 1) .access
  bump v 1

/-- `interface/ceed-vector.c` 613-624 `CeedVectorRestoreArrayRead`; the backend does nothing. -/
def restoreArrayRead (v : Nat) : M (W α) Unit := do
  let x ← getV v
  M.check (0 < x.readers) .access
  setReaders v (x.readers - 1)

/-- `interface/ceed-vector.c` 640-686 `CeedVectorNorm` with `ceed-cuda-ref-vector.c` 483-633 `CeedVectorNorm_Cuda`. -/
def norm (v : Nat) (ty : NormType) : M (W α) α := do
  let x ← getV v
  M.check (validB x = true) .backend
  if x.len = 0 then pure 0
  else do
    let p ← getArrayRead E v .device
    let b ← look .device p x.len
    restoreArrayRead v
    pure (E.norm ty x.len b.val)

/-- One half of 654-664 `CeedVectorReciprocal_Cuda`, with 639-644 `CeedHostReciprocal_Cuda` or `kernels/cuda-ref-vector.cu` 84-103 `CeedDeviceReciprocal_Cuda`. -/
def reciprocalOn (m : Mem) (v : Nat) : M (W α) Unit := do
  let x ← getV v
  if (x.side m).arr.isSome then mapA m (x.side m).arr x.len (fun _ z => if E.big m z = true then E.inv z else z)
  else pure ()

/-- `interface/ceed-vector.c` 965-994 `CeedVectorReciprocal` with `ceed-cuda-ref-vector.c` 654-664 `CeedVectorReciprocal_Cuda`. -/
def reciprocal (v : Nat) : M (W α) Unit := do
  let x ← getV v
  M.check (validB x = true) .backend
  M.check (0 < x.state) .incomplete
  if x.len = 0 then pure ()
  else do
    reciprocalOn E .device v
    reciprocalOn E .host v

/-- 672-712 `CeedVectorScale_Cuda`. -/
def scaleB (v : Nat) (k : α) : M (W α) Unit := do
  let x ← getV v
  if (x.side .device).arr.isSome then do
    mapA .device (x.side .device).arr x.len (fun _ z => z * k)
    dropArr v .host
  else if (x.side .host).arr.isSome then do
    mapA .host (x.side .host).arr x.len (fun _ z => z * k)
    dropArr v .device
  else pure ()

/-- `interface/ceed-vector.c` 698-720 `CeedVectorScale`. -/
def scale (v : Nat) (k : α) : M (W α) Unit := do
  let x ← getV v
  M.check (validB x = true) .backend
  if x.len = 0 then pure () else scaleB v k

/-- Bring `x` to the memory type and read its array. -/
def fetch (u : Nat) (m : Mem) (n : Nat) : M (W α) (Buf α) := do
  let x ← getV u
  look m (x.side m).arr n

/-- 717-762 `CeedVectorAXPY_Cuda`. -/
def axpyB (v : Nat) (k : α) (u : Nat) : M (W α) Unit := do
  let y ← getV v
  if (y.side .device).arr.isSome then do
    syncArray E u .device
    let g ← fetch u .device y.len
    mapA .device (y.side .device).arr y.len (fun i z => z + k * g.val i)
    dropArr v .host
  else if (y.side .host).arr.isSome then do
    syncArray E u .host
    let g ← fetch u .host y.len
    mapA .host (y.side .host).arr y.len (fun i z => z + k * g.val i)
    dropArr v .device
  else pure ()

/-- The checks of `interface/ceed-vector.c` 739-752 and 810-823 (all vectors belong to one `Ceed`). -/
def pairChecks (v u : Nat) (y x : DVec) : M (W α) Unit := do
  M.check (x.len = y.len) .unsupported
  M.check (u ≠ v) .unsupported
  M.check (validB x = true) .backend
  M.check (validB y = true) .backend

/-- `interface/ceed-vector.c` 733-789 `CeedVectorAXPY`. -/
def axpy (v : Nat) (k : α) (u : Nat) : M (W α) Unit := do
  let y ← getV v
  let x ← getV u
  pairChecks v u y x
  if y.len = 0 then pure () else axpyB E v k u

/-- One half of 767-799 `CeedVectorAXPBY_Cuda`. -/
def axpbyOn (m : Mem) (v : Nat) (k l : α) (u : Nat) : M (W α) Unit := do
  let y ← getV v
  if (y.side m).arr.isSome then do
    syncArray E u m
    let g ← fetch u m y.len
    mapA m (y.side m).arr y.len (fun i z => k * g.val i + l * z)
  else pure ()

/-- `interface/ceed-vector.c` 804-860 `CeedVectorAXPBY` with `ceed-cuda-ref-vector.c` 767-799 `CeedVectorAXPBY_Cuda`. -/
def axpby (v : Nat) (k l : α) (u : Nat) : M (W α) Unit := do
  let y ← getV v
  let x ← getV u
  pairChecks v u y x
  if y.len = 0 then pure ()
  else do
    axpbyOn E .device v k l u
    axpbyOn E .host v k l u

/-- One half of 804-830 `CeedVectorPointwiseMult_Cuda`. Thread or iteration `i` only reads entries `i` of the factors and then writes
entry `i` of the result, which may be one of them. -/
def multOn (m : Mem) (v u t : Nat) : M (W α) Unit := do
  let w ← getV v
  if (w.side m).arr.isSome then do
    syncArray E u m
    syncArray E t m
    let f ← fetch u m w.len
    let g ← fetch t m w.len
    mapA m (w.side m).arr w.len (fun i _ => f.val i * g.val i)
  else pure ()

/-- `interface/ceed-vector.c` 876-953 `CeedVectorPointwiseMult` with `ceed-cuda-ref-vector.c` 804-830
`CeedVectorPointwiseMult_Cuda`. -/
def pointwiseMult (v u t : Nat) : M (W α) Unit := do
  let w ← getV v
  let x ← getV u
  let y ← getV t
  M.check (w.len ≤ x.len ∧ w.len ≤ y.len) .unsupported
  M.check (validB x = true) .backend
  M.check (validB y = true) .backend
  if w.len = 0 then pure ()
  else do
    if (w.side .device).arr = none ∧ (w.side .host).arr = none then setValue E v 0 else pure ()
    multOn E .device v u t
    multOn E .host v u t

/-- `interface/ceed-vector.c` 213-248 `CeedVectorCopy`: both vectors prefer the device. -/
def copy (v u : Nat) : M (W α) Unit := do
  let x ← getV v
  let y ← getV u
  M.check (x.len = y.len) .incompatible
  let p ← getArray E v .device
  setArray E u .device .copyValues p
  restoreArray v

/-- One branch of 240-290 `CeedVectorCopyStrided_Cuda`. -/
def copyStridedOn (m : Mem) (v u : Nat) (start stop step : Int) : M (W α) Unit := do
  let p ← getArray E u m
  let x ← getV v
  let s ← look m (x.side m).arr x.len
  let d ← look m p 0
  let d' ← M.lift (if m = .device ∧ E.blas64 = true then blasCopy start stop step s.len s.val d else strided m start stop step s.len s.val d)
  save m p d'
  restoreArray u
  dropArr v (other m)

/-- `interface/ceed-vector.c` 263-300 `CeedVectorCopyStrided` with `ceed-cuda-ref-vector.c` 240-290
`CeedVectorCopyStrided_Cuda`. -/
def copyStrided (v : Nat) (start stop step : Int) (u : Nat) : M (W α) Unit := do
  let x ← getV v
  let y ← getV u
  if x.len = 0 ∨ y.len = 0 then pure ()
  else do
    M.check (-1 ≤ stop ∧ stop ≤ (min x.len y.len : Nat)) .access
    M.check (0 ≤ start ∧ start ≤ (min x.len y.len : Nat) ∧ (start ≤ stop ∨ stop = -1)) .access
    let stop := if stop = -1 then ((min x.len y.len : Nat) : Int) else stop
    if (x.side .device).arr.isSome then copyStridedOn E .device v u start stop step
    else if (x.side .host).arr.isSome then copyStridedOn E .host v u start stop step
    else M.fail .backend
    bump u 2

/-- `interface/ceed-vector.c` 1106-1119 `CeedVectorDestroy` with `ceed-cuda-ref-vector.c` 835-843 `CeedVectorDestroy_Cuda`. -/
def destroy (v : Nat) : M (W α) Unit := do
  let x ← getV v
  lockChecks x
  freeA .device (x.side .device).own
  freeA .host (x.side .host).own
  fun w => .ok (w.setVec v none) ()

/-- `interface/ceed-vector.c` 161-183 `CeedVectorCreate` with `ceed-cuda-ref-vector.c` 848-877 `CeedVectorCreate_Cuda`. -/
def create (v : Nat) (n : Nat) : M (W α) Unit := fun w =>
  .ok (w.setVec v (some ⟨n, 0, 0, fun _ => ⟨none, none, none⟩⟩)) ()

/-- The program allocates an array. -/
def malloc (m : Mem) (n : Nat) : M (W α) Nat := fun w =>
  .ok ⟨fun c => if c = w.next then some ⟨m, ⟨n, fun _ => 0⟩, false⟩ else w.heap c, w.next + 1, w.vecs⟩ w.next

/-- The program frees an array. -/
def mfree (a : Nat) : M (W α) Unit := fun w =>
  match w.heap a with
  | some _ => .ok (w.setArr a none) ()
  | none => .ub

/-- The program writes to an array. -/
def store (a i : Nat) (z : α) : M (W α) Unit := fun w =>
  match w.heap a with
  | some b => if i < b.buf.len then .ok (w.setArr a (some { b with buf := ⟨b.buf.len, fun j => if j = i then z else b.buf.val j⟩ })) () else .ub
  | none => .ub

/-- The calls of a program. -/
inductive Call (α : Type)
  | create (v n : Nat)
  | destroy (v : Nat)
  | setArray (v : Nat) (m : Mem) (mode : Mode) (src : Option Nat)
  | takeArray (v : Nat) (m : Mem)
  | getArray (v : Nat) (m : Mem)
  | getArrayRead (v : Nat) (m : Mem)
  | getArrayWrite (v : Nat) (m : Mem)
  | restoreArray (v : Nat)
  | restoreArrayRead (v : Nat)
  | syncArray (v : Nat) (m : Mem)
  | setValue (v : Nat) (z : α)
  | setValueStrided (v : Nat) (start stop step : Int) (z : α)
  | norm (v : Nat) (ty : NormType)
  | scale (v : Nat) (k : α)
  | axpy (v : Nat) (k : α) (u : Nat)
  | axpby (v : Nat) (k l : α) (u : Nat)
  | pointwiseMult (v u t : Nat)
  | reciprocal (v : Nat)
  | copy (v u : Nat)
  | copyStrided (v : Nat) (start stop step : Int) (u : Nat)
  | malloc (m : Mem) (n : Nat)
  | mfree (a : Nat)
  | store (a i : Nat) (z : α)

/-- What a call returns besides the error code. -/
inductive Ret (α : Type)
  | none
  | ptr (p : Option Nat)
  | num (z : α)

/-- Run a call. -/
def exec : Call α → M (W α) (Ret α)
  | .create v n => do create v n; pure .none
  | .destroy v => do destroy v; pure .none
  | .setArray v m mode src => do setArray E v m mode src; pure .none
  | .takeArray v m => do let p ← takeArray E v m; pure (.ptr p)
  | .getArray v m => do let p ← getArray E v m; pure (.ptr p)
  | .getArrayRead v m => do let p ← getArrayRead E v m; pure (.ptr p)
  | .getArrayWrite v m => do let p ← getArrayWrite E v m; pure (.ptr p)
  | .restoreArray v => do restoreArray v; pure .none
  | .restoreArrayRead v => do restoreArrayRead v; pure .none
  | .syncArray v m => do syncArray E v m; pure .none
  | .setValue v z => do setValue E v z; pure .none
  | .setValueStrided v start stop step z => do setValueStrided v start stop step z; pure .none
  | .norm v ty => do let z ← norm E v ty; pure (.num z)
  | .scale v k => do scale v k; pure .none
  | .axpy v k u => do axpy E v k u; pure .none
  | .axpby v k l u => do axpby E v k l u; pure .none
  | .pointwiseMult v u t => do pointwiseMult E v u t; pure .none
  | .reciprocal v => do reciprocal E v; pure .none
  | .copy v u => do copy E v u; pure .none
  | .copyStrided v start stop step u => do copyStrided E v start stop step u; pure .none
  | .malloc m n => do let a ← malloc m n; pure (.ptr (some a))
  | .mfree a => do mfree a; pure .none
  | .store a i z => do store a i z; pure .none

end Backend
end DevVec
end Verif
