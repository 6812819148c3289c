import Verif.State
import Mathlib.Algebra.Order.Field.Basic
import Mathlib.Algebra.Order.Group.Abs

/-!
# Vectors: interface and CPU reference backend

`interface/ceed-vector.c` with `backends/ref/ceed-ref-vector.c`. The state is a heap of arrays together with the
vector objects. Arrays are addressed by whole blocks (a pointer into the middle of an array is not expressible).
Addresses and vector handles are never reused. The `Ceed` of a vector is represented by the identity of its root parent
(`CeedGetParent`); reference counts of the `Ceed` are not part of this model.
-/

namespace Verif
namespace Vector

/-- Address of an array. -/
scoped notation "Addr" => Nat
/-- Address of a vector object. -/
scoped notation "Vid" => Nat

/-- `CeedMemType` (`include/ceed/types.h`). -/
inductive Mem
  | host | device
deriving DecidableEq, Repr

/-- `CeedCopyMode` (`include/ceed/types.h`). -/
inductive Mode
  | copyValues | usePointer | ownPointer
deriving DecidableEq, Repr

/-- `CeedNormType` (`include/ceed/types.h`). -/
inductive NormType
  | one | two | max
deriving DecidableEq, Repr

/-- `struct CeedVector_private` (`include/ceed-impl.h`) with `CeedVector_Ref` (`backends/ref/ceed-ref.h` 14-18). -/
structure Vec where
  parent : Nat
  refs : Int
  len : Int
  state : Nat
  readers : Nat
  array : Option Addr
  borrowed : Option Addr
  owned : Option Addr
deriving DecidableEq, Repr

/-- Heap and vector objects; `none` is memory that is not allocated (never or no longer). -/
structure World (α : Type _) where
  heap : Addr → Option (Buf α)
  next : Addr
  vecs : Vid → Option Vec
  nextVec : Vid

/-- Nothing allocated. -/
def World.init {α : Type _} : World α := ⟨fun _ => none, 0, fun _ => none, 0⟩

/-- Replace a vector object. -/
def World.setVec {α : Type _} (w : World α) (v : Vid) (x : Option Vec) : World α :=
  { w with vecs := fun u => if u = v then x else w.vecs u }

/-- Replace an array. -/
def World.setBlk {α : Type _} (w : World α) (a : Addr) (b : Option (Buf α)) : World α :=
  { w with heap := fun c => if c = a then b else w.heap c }

/-- Allocate a new array. -/
def World.push {α : Type _} (w : World α) (b : Buf α) : World α :=
  { w.setBlk w.next (some b) with next := w.next + 1 }

section Memory
variable {α : Type _}

/-- Read a vector object; undefined when it does not exist. -/
def getV (v : Vid) : M (World α) Vec := fun w =>
  match w.vecs v with
  | some x => .ok w x
  | none => .ub

/-- Write a vector object. -/
def putV (v : Vid) (x : Vec) : M (World α) Unit := fun w => .ok (w.setVec v (some x)) ()

/-- Free a vector object. -/
def delV (v : Vid) : M (World α) Unit := fun w => .ok (w.setVec v none) ()

/-- Read an array; a null pointer or an array that is not allocated is undefined behaviour. -/
def getB (p : Option Addr) : M (World α) (Buf α) := fun w =>
  match p with
  | none => .ub
  | some a =>
    match w.heap a with
    | some b => .ok w b
    | none => .ub

/-- `p[i]`. -/
def ld (p : Option Addr) (i : Int) : M (World α) α := do
  let b ← getB p
  M.lift (b.rdI i)

/-- `p[i] = x`. -/
def st (p : Option Addr) (i : Int) (x : α) : M (World α) Unit := fun w =>
  match p with
  | none => .ub
  | some a =>
    match w.heap a with
    | some b =>
      match b.wrI i x with
      | .ok b' => .ok (w.setBlk a (some b')) ()
      | _ => .ub
    | none => .ub

/-- `calloc` of `n` scalars (`CeedCallocArray`, `interface/ceed.c` 271-277). -/
def alloc [Zero α] (n : Nat) : M (World α) Addr := fun w =>
  .ok (w.push ⟨n, fun _ => 0⟩) w.next

/-- `free`: null is allowed, an array that is not allocated (freed before) is undefined (`CeedFree`,
`interface/ceed.c` 328-332). -/
def free (p : Option Addr) : M (World α) Unit := fun w =>
  match p with
  | none => .ok w ()
  | some a =>
    match w.heap a with
    | some _ => .ok (w.setBlk a none) ()
    | none => .ub

/-- `memcpy(dst, src, n)`: both arrays must be allocated, long enough and distinct. -/
def memcpy (dst src : Option Addr) (n : Nat) : M (World α) Unit := fun w =>
  match dst, src with
  | some d, some s =>
    match w.heap d, w.heap s with
    | some bd, some bs =>
      if n ≤ bd.len ∧ n ≤ bs.len ∧ d ≠ s then
        .ok (w.setBlk d (some ⟨bd.len, fun i => if i < n then bs.val i else bd.val i⟩)) ()
      else .ub
    | _, _ => .ub
  | _, _ => .ub

end Memory

section Backend
variable {α : Type _} [Zero α]

/-- `interface/ceed.c` 348-375 `CeedSetHostGenericArray`, `CEED_COPY_VALUES`, lines 351-360: choose the target. -/
def copyTarget (v : Vid) : M (World α) (Option Addr) := do
  let x ← getV v
  match x.array with
  | some a => pure (some a)
  | none =>
    match x.borrowed with
    | some b => do
      putV v { x with array := some b }
      pure (some b)
    | none =>
      match x.owned with
      | some o => do
        putV v { x with array := some o }
        pure (some o)
      | none => do
        let o ← alloc x.len.toNat
        putV v { x with owned := some o, array := some o }
        pure (some o)

/-- `interface/ceed.c` 348-375 `CeedSetHostGenericArray` on the three slots of a vector. -/
def setHostArray (v : Vid) (mode : Mode) (src : Option Addr) : M (World α) Unit :=
  match mode with
  | .copyValues => do
    let x ← getV v
    let t ← copyTarget v
    match src with
    | some s => memcpy t (some s) x.len.toNat
    | none => pure ()
  | .ownPointer => do
    let x ← getV v
    free x.owned
    putV v { x with owned := src, borrowed := none, array := src }
  | .usePointer => do
    let x ← getV v
    free x.owned
    putV v { x with owned := none, borrowed := src, array := src }

/-- `backends/ref/ceed-ref-vector.c` 42-55 `CeedVectorSetArray_Ref`. -/
def setArrayRef (v : Vid) (mem : Mem) (mode : Mode) (src : Option Addr) : M (World α) Unit := do
  M.check (mem = .host) .backend
  setHostArray v mode src

/-- `backends/ref/ceed-ref-vector.c` 60-71 `CeedVectorTakeArray_Ref`. -/
def takeArrayRef (v : Vid) (mem : Mem) : M (World α) (Option Addr) := do
  let x ← getV v
  M.check (mem = .host) .backend
  putV v { x with borrowed := none, array := none }
  pure x.borrowed

/-- `backends/ref/ceed-ref-vector.c` 76-85 `CeedVectorGetArrayCore_Ref`. -/
def getArrayCore (v : Vid) (mem : Mem) : M (World α) (Option Addr) := do
  let x ← getV v
  M.check (mem = .host) .backend
  pure x.array

end Backend

section Interface
variable {α : Type _} [Zero α]

/-- Add to the state counter. -/
def bump (v : Vid) (k : Nat) : M (World α) Unit := do
  let x ← getV v
  putV v { x with state := x.state + k }

/-- `interface/ceed-vector.c` 52-63 `CeedVectorHasValidArray`, with `backends/ref/ceed-ref-vector.c` 18-25. -/
def hasValidArray (v : Vid) : M (World α) Bool := do
  let x ← getV v
  pure (decide (x.len = 0) || x.array.isSome)

/-- `interface/ceed-vector.c` 93-96 `CeedVectorGetState` (`uint64_t` overflow is not modelled). -/
def getState (v : Vid) : M (World α) Nat := do
  let x ← getV v
  pure x.state

/-- `interface/ceed-vector.c` 161-179 `CeedVectorCreate` (the creation function of the backend exists). -/
def create (parent : Nat) (len : Int) : M (World α) Vid := fun w =>
  .ok { w.setVec w.nextVec (some ⟨parent, 1, len, 0, 0, none, none, none⟩) with nextVec := w.nextVec + 1 } w.nextVec

/-- The two lock checks of `CeedVectorSetArray`, `GetArray`, `GetArrayWrite`, `TakeArray`, `SetValue`,
`SetValueStrided`: no writer, no reader (`interface/ceed-vector.c` 320-322, 341-343, 378-380, 452-453, 494-496,
569-571). -/
def lockChecks (x : Vec) : M (World α) Unit := do
  M.check (x.state % 2 = 0) .access
  M.check (x.readers = 0) .access

/-- `interface/ceed-vector.c` 316-328 `CeedVectorSetArray`. -/
def setArray (v : Vid) (mem : Mem) (mode : Mode) (src : Option Addr) : M (World α) Unit := do
  let x ← getV v
  lockChecks x
  if 0 < x.len then do
    setArrayRef v mem mode src
    bump v 2
  else bump v 2

/-- `interface/ceed-vector.c` 448-471 `CeedVectorTakeArray`. -/
def takeArray (v : Vid) (mem : Mem) : M (World α) (Option Addr) := do
  let x ← getV v
  lockChecks x
  if 0 < x.len then do
    M.check (mem = .host) .backend
    M.check (x.borrowed.isSome) .backend
    let valid ← hasValidArray v
    M.check (valid = true) .backend
    takeArrayRef v mem
  else pure none

/-- `interface/ceed-vector.c` 490-512 `CeedVectorGetArray`. -/
def getArray (v : Vid) (mem : Mem) : M (World α) (Option Addr) := do
  let x ← getV v
  lockChecks x
  if 0 < x.len then do
    let valid ← hasValidArray v
    M.check (valid = true) .backend
    let p ← getArrayCore v mem
    bump v 1
    pure p
  else do
    bump v 1
    pure none

/-- `interface/ceed-vector.c` 528-549 `CeedVectorGetArrayRead`. -/
def getArrayRead (v : Vid) (mem : Mem) : M (World α) (Option Addr) := do
  let x ← getV v
  M.check (x.state % 2 = 0) .access
  if 0 < x.len then do
    let valid ← hasValidArray v
    M.check (valid = true) .backend
    let p ← getArrayCore v mem
    putV v { x with readers := x.readers + 1 }
    pure p
  else do
    putV v { x with readers := x.readers + 1 }
    pure none

/-- `backends/ref/ceed-ref-vector.c` 104-111 `CeedVectorGetArrayWrite_Ref`. -/
def getArrayWriteRef (v : Vid) (mem : Mem) : M (World α) (Option Addr) := do
  let x ← getV v
  if x.array.isSome then getArrayCore v mem
  else do
    setArray v .host .copyValues none
    getArrayCore v mem

/-- `interface/ceed-vector.c` 565-581 `CeedVectorGetArrayWrite`. -/
def getArrayWrite (v : Vid) (mem : Mem) : M (World α) (Option Addr) := do
  let x ← getV v
  lockChecks x
  if 0 < x.len then do
    let p ← getArrayWriteRef v mem
    bump v 1
    pure p
  else do
    bump v 1
    pure none

/-- `interface/ceed-vector.c` 593-602 `CeedVectorRestoreArray` (`CeedVectorRestoreArray_Ref` does nothing). -/
def restoreArray (v : Vid) : M (World α) Unit := do
  let x ← getV v
  M.check (x.state % 2 = 1) .access
  bump v 1

/-- `interface/ceed-vector.c` 614-624 `CeedVectorRestoreArrayRead` (`CeedVectorRestoreArrayRead_Ref` does nothing). -/
def restoreArrayRead (v : Vid) : M (World α) Unit := do
  let x ← getV v
  M.check (0 < x.readers) .access
  putV v { x with readers := x.readers - 1 }

/-- `interface/ceed-vector.c` 413-431 `CeedVectorSyncArray` (no backend function in the reference backend). -/
def syncArray (v : Vid) (mem : Mem) : M (World α) Unit := do
  let x ← getV v
  M.check (x.state % 2 = 0) .access
  if x.len = 0 then pure ()
  else do
    let _ ← getArrayRead v mem
    restoreArrayRead v

/-- `interface/ceed-vector.c` 340-358 `CeedVectorSetValue` (no backend function in the reference backend). -/
def setValue (v : Vid) (value : α) : M (World α) Unit := do
  let x ← getV v
  lockChecks x
  let p ← getArrayWrite v .host
  M.loop x.len.toNat (fun i => st p i value)
  restoreArray v

/-- Number of iterations of `for (i = start; i < stop; i += step)` for a positive `step`. -/
def strideCount (start stop step : Int) : Nat := ((stop - start + step - 1) / step).toNat

/-- `for (i = start; i < stop; i += step) body(i)`. With `step <= 0` and `start < stop` the loop does not end
(`step = 0`) or runs below every array (`step < 0`, as the body accesses an array at `i`): undefined behaviour. -/
def strideLoop (start stop step : Int) (body : Int → M (World α) Unit) : M (World α) Unit :=
  if start < stop then
    if 0 < step then M.loop (strideCount start stop step) (fun k => body (start + step * k))
    else M.undef
  else pure ()

/-- `interface/ceed-vector.c` 375-398 `CeedVectorSetValueStrided` (no backend function in the reference backend). -/
def setValueStrided (v : Vid) (start stop step : Int) (value : α) : M (World α) Unit := do
  let x ← getV v
  lockChecks x
  M.check (-1 ≤ stop ∧ stop ≤ x.len) .access
  if x.len ≤ 0 then pure ()
  else do
    let stop := if stop = -1 then x.len else stop
    let p ← getArray v .host
    strideLoop start stop step (fun i => st p i value)
    restoreArray v

/-- `interface/ceed-vector.c` 213-248 `CeedVectorCopy` (preferred memory type: host). -/
def copy (v c : Vid) : M (World α) Unit := do
  let x ← getV v
  let y ← getV c
  M.check (x.len = y.len) .incompatible
  let p ← getArray v .host
  setArray c .host .copyValues p
  restoreArray v

/-- `interface/ceed-vector.c` 263-299 `CeedVectorCopyStrided` (no backend function in the reference backend). -/
def copyStrided (v : Vid) (start stop step : Int) (c : Vid) : M (World α) Unit := do
  let x ← getV v
  let y ← getV c
  if x.len ≤ 0 ∨ y.len ≤ 0 then pure ()
  else do
    let length := if x.len < y.len then x.len else y.len
    M.check (-1 ≤ stop ∧ stop ≤ length) .access
    M.check (0 ≤ start ∧ start ≤ length ∧ (start ≤ stop ∨ stop = -1)) .access
    let p ← getArrayRead v .host
    let q ← getArray c .host
    let stop := if stop = -1 then length else stop
    strideLoop start stop step (fun i => do
      let z ← ld p i
      st q i z)
    restoreArrayRead v
    restoreArray c

/-- `interface/ceed-vector.c` 137-140 `CeedVectorReference`. -/
def reference (v : Vid) : M (World α) Unit := do
  let x ← getV v
  putV v { x with refs := x.refs + 1 }

/-- `interface/ceed-vector.c` 1106-1119 `CeedVectorDestroy` on a vector object, with
`backends/ref/ceed-ref-vector.c` 126-133 `CeedVectorDestroy_Ref`. -/
def destroy (v : Vid) : M (World α) Unit := do
  let x ← getV v
  putV v { x with refs := x.refs - 1 }
  if 0 < x.refs - 1 then pure ()
  else do
    M.check (x.state % 2 = 0) .access
    M.check (x.readers = 0) .access
    free x.owned
    delV v

end Interface

section Arithmetic
variable {α : Type _} [Field α] [LinearOrder α]

/-- The body of the loops of `CeedVectorNorm` on the running value. -/
def normStep (t : NormType) (acc x : α) : α :=
  match t with
  | .one => acc + |x|
  | .two => acc + |x| * |x|
  | .max => if acc > |x| then acc else |x|

/-- Running value of the loops of `CeedVectorNorm`. -/
def normLoop (t : NormType) (p : Option Addr) : Nat → M (World α) α
  | 0 => pure 0
  | n + 1 => do
    let acc ← normLoop t p n
    let x ← ld p n
    pure (normStep t acc x)

/-- `interface/ceed-vector.c` 640-686 `CeedVectorNorm` (no backend function). `sqrt` is the C function. -/
def norm (sqrt : α → α) (v : Vid) (t : NormType) : M (World α) α := do
  let valid ← hasValidArray v
  M.check (valid = true) .backend
  let x ← getV v
  if x.len = 0 then pure 0
  else do
    let p ← getArrayRead v .host
    let s ← normLoop t p x.len.toNat
    restoreArrayRead v
    pure (if t = .two then sqrt s else s)

/-- `interface/ceed-vector.c` 698-720 `CeedVectorScale` (no backend function). -/
def scale (v : Vid) (alpha : α) : M (World α) Unit := do
  let valid ← hasValidArray v
  M.check (valid = true) .backend
  let x ← getV v
  if x.len = 0 then pure ()
  else do
    let p ← getArray v .host
    M.loop x.len.toNat (fun i => do
      let z ← ld p i
      st p i (z * alpha))
    restoreArray v

/-- The common part of `CeedVectorAXPY` (733-790) and `CeedVectorAXPBY` (804-861) of `interface/ceed-vector.c`: `f` is
the right-hand side as a function of `x[i]` and `y[i]`. -/
def axp (y : Vid) (f : α → α → α) (x : Vid) : M (World α) Unit := do
  let vy ← getV y
  let vx ← getV x
  M.check (vx.len = vy.len) .unsupported
  M.check (x ≠ y) .unsupported
  let validX ← hasValidArray x
  M.check (validX = true) .backend
  let validY ← hasValidArray y
  M.check (validY = true) .backend
  M.check (vx.parent = vy.parent) .incompatible
  if vy.len = 0 then pure ()
  else do
    let q ← getArray y .host
    let p ← getArrayRead x .host
    M.loop vy.len.toNat (fun i => do
      let a ← ld p i
      let b ← ld q i
      st q i (f a b))
    restoreArray y
    restoreArrayRead x

/-- `interface/ceed-vector.c` 733-790 `CeedVectorAXPY` (no backend function). -/
def axpy (y : Vid) (alpha : α) (x : Vid) : M (World α) Unit := axp y (fun a b => b + alpha * a) x

/-- `interface/ceed-vector.c` 804-861 `CeedVectorAXPBY` (no backend function). -/
def axpby (y : Vid) (alpha beta : α) (x : Vid) : M (World α) Unit := axp y (fun a b => alpha * a + beta * b) x

/-- Array used for the result of `CeedVectorPointwiseMult` (`interface/ceed-vector.c` 921-925). -/
def pmW (w x y : Vid) : M (World α) (Option Addr) :=
  if x = w ∨ y = w then getArray w .host else getArrayWrite w .host

/-- Array used for the first factor (`interface/ceed-vector.c` 926-930). -/
def pmX (w x : Vid) (q : Option Addr) : M (World α) (Option Addr) :=
  if x ≠ w then getArrayRead x .host else pure q

/-- Array used for the second factor (`interface/ceed-vector.c` 931-937). -/
def pmY (w x y : Vid) (q px : Option Addr) : M (World α) (Option Addr) :=
  if y ≠ w ∧ y ≠ x then getArrayRead y .host else if y = x then pure px else pure q

/-- `interface/ceed-vector.c` 876-954 `CeedVectorPointwiseMult` (no backend function). -/
def pointwiseMult (w x y : Vid) : M (World α) Unit := do
  let vw ← getV w
  let vx ← getV x
  let vy ← getV y
  M.check (vw.len ≤ vx.len ∧ vw.len ≤ vy.len) .unsupported
  M.check (vw.parent = vx.parent ∧ vw.parent = vy.parent) .incompatible
  let validX ← hasValidArray x
  M.check (validX = true) .backend
  let validY ← hasValidArray y
  M.check (validY = true) .backend
  if vw.len = 0 then pure ()
  else do
    let q ← pmW w x y
    let px ← pmX w x q
    let py ← pmY w x y q px
    M.loop vw.len.toNat (fun i => do
      let a ← ld px i
      let b ← ld py i
      st q i (a * b))
    if y ≠ w ∧ y ≠ x then restoreArrayRead y else pure ()
    if x ≠ w then restoreArrayRead x else pure ()
    restoreArray w

/-- `interface/ceed-vector.c` 965-994 `CeedVectorReciprocal` (no backend function). `eps` is `CEED_EPSILON`. -/
def reciprocal (eps : α) (v : Vid) : M (World α) Unit := do
  let valid ← hasValidArray v
  M.check (valid = true) .backend
  let x ← getV v
  M.check (0 < x.state) .incomplete
  if x.len = 0 then pure ()
  else do
    let p ← getArray v .host
    M.loop x.len.toNat (fun i => do
      let z ← ld p i
      if eps < |z| then st p i (1 / z) else pure ())
    restoreArray v

end Arithmetic

end Vector
end Verif
