import Verif.State
import Verif.Vector.Model

/-!
# Vectors of the memcheck backend

Models `backends/memcheck/ceed-memcheck-vector.c` with `interface/ceed-vector.c`. This backend keeps the values of a vector in
an array of its own and gives out copies, so that wrong accesses show. The scalars are any type with any operations, in
particular floating point numbers; two scalars are equal if their bits are (`memcmp`). Lengths are not negative. The block
identifiers for Valgrind are not modelled. Vectors have one reference; `CeedVectorCopy`, `CeedVectorCopyStrided` and
`CeedVectorNorm` have no function in this backend and are sequences of the calls below.
-/

namespace Verif
namespace Memcheck

open Vector (Mem Mode)

/-- The operations of C on scalars: `NAN`, `*`, `+`, `1. / x`, `fabs(x) > CEED_EPSILON`. -/
structure Arith (α : Type) where
  nan : α
  mul : α → α → α
  add : α → α → α
  inv : α → α
  big : α → Bool

/-- `struct CeedVector_private` (`include/ceed-impl.h`) with `CeedVector_Memcheck` (`backends/memcheck/ceed-memcheck.h`): `alloc`
is `array_allocated`, `owned` and `borrowed` are addresses of arrays of the program, `wcopy` is `array_writable_copy`, `rcopy`
is `array_read_only_copy`. -/
structure MVec (α : Type) where
  len : Nat
  state : Nat
  readers : Nat
  alloc : Option (Buf α)
  owned : Option Nat
  borrowed : Option Nat
  wcopy : Option (Buf α)
  rcopy : Option (Buf α)
  writeOnly : Bool

/-- Arrays of the program, and the vectors. -/
structure W (α : Type) where
  heap : Nat → Option (Buf α)
  vecs : Nat → Option (MVec α)

/-- Nothing allocated. -/
def W.init {α : Type} : W α := ⟨fun _ => none, fun _ => none⟩

def W.setVec {α : Type} (w : W α) (v : Nat) (x : Option (MVec α)) : W α :=
  { w with vecs := fun u => if u = v then x else w.vecs u }

def W.setArr {α : Type} (w : W α) (a : Nat) (b : Option (Buf α)) : W α :=
  { w with heap := fun c => if c = a then b else w.heap c }

section Memory
variable {α : Type}

/-- Access to a vector that exists. -/
def getV (v : Nat) : M (W α) (MVec α) := fun w =>
  match w.vecs v with
  | some x => .ok w x
  | none => .ub

def putV (v : Nat) (x : MVec α) : M (W α) Unit := fun w => .ok (w.setVec v (some x)) ()

/-- `CeedFree` of an array of the program. -/
def freeA (p : Option Nat) : M (W α) Unit := fun w =>
  match p with
  | none => .ok w ()
  | some a =>
    match w.heap a with
    | some _ => .ok (w.setArr a none) ()
    | none => .ub

/-- A new array of length `n` with `memcpy` of an array of the backend. -/
def dup (p : Option (Buf α)) (n : Nat) : Res (Buf α) :=
  match p with
  | none => .ub
  | some b => if n ≤ b.len then .ok ⟨n, b.val⟩ else .ub

/-- `memcpy(array_allocated, array, n)` from an array of the program, or `NAN` for a null pointer (lines 86-90). -/
def takeIn (nan : α) (src : Option Nat) (n : Nat) : M (W α) (Buf α) := fun w =>
  match src with
  | none => .ok w ⟨n, fun _ => nan⟩
  | some a =>
    match dup (w.heap a) n with
    | .ok b => .ok w b
    | _ => .ub

/-- `memcpy(p, array_allocated, length)` if the pointer is not null (lines 145-150). -/
def copyBack (p : Option Nat) (x : MVec α) : M (W α) Unit := fun w =>
  match p with
  | none => .ok w ()
  | some a =>
    match w.heap a, x.alloc with
    | some d, some b =>
      if x.len ≤ d.len ∧ x.len ≤ b.len then
        .ok (w.setArr a (some ⟨d.len, fun i => if i < x.len then b.val i else d.val i⟩)) ()
      else .ub
    | _, _ => .ub

/-- Lines 54-64: free the owned array. -/
def freeOwned (mode : Mode) (x : MVec α) : M (W α) Unit :=
  match mode with
  | .copyValues => pure ()
  | _ => freeA x.owned

end Memory

section Backend
variable {α : Type} (A : Arith α)

/-- Lines 43-92 `CeedVectorSetArray_Memcheck`. Arrays are filled with `NAN` before they are freed; nobody can see that. -/
def setArrayMc (v : Nat) (mem : Mem) (mode : Mode) (src : Option Nat) : M (W α) Unit := do
  M.check (mem = .host) .backend
  let x ← getV v
  freeOwned mode x
  let b ← takeIn A.nan src x.len
  match mode with
  | .copyValues => putV v { x with alloc := some b }
  | .ownPointer => putV v { x with alloc := some b, owned := src, borrowed := none }
  | .usePointer => putV v { x with alloc := some b, owned := none, borrowed := src }

/-- `if (!impl->array_allocated) CeedVectorSetArray_Memcheck(vec, mem_type, CEED_COPY_VALUES, NULL)`. -/
def ensure (v : Nat) (mem : Mem) : M (W α) Unit := do
  let x ← getV v
  if x.alloc.isSome then pure () else setArrayMc A v mem .copyValues none

/-- `for (i = 0; i < n; i++) b[i] = f(b[i])`. -/
def mapLoop (n : Nat) (f : α → α) (b : Buf α) : Res (Buf α) :=
  loop n (fun i b => do let z ← b.rd i; b.wr i (f z)) b

/-- `for (i = 0; i < n; i++) c[i] = f(a[i], c[i])` with `a` and `c` distinct. -/
def zipLoop (n : Nat) (f : α → α → α) (a c : Buf α) : Res (Buf α) :=
  loop n (fun i c => do let z ← a.rd i; let y ← c.rd i; c.wr i (f z y)) c

/-- `for (i = 0; i < n; i++) c[i] = f(a[i], b[i])`; `a` or `b` may be the old `c`, as iteration `i` only writes `c[i]`. -/
def zip3Loop (n : Nat) (f : α → α → α) (a b c : Buf α) : Res (Buf α) :=
  loop n (fun i c => do let z ← a.rd i; let y ← b.rd i; c.wr i (f z y)) c

/-- `for (i = start; i < stop; i += step) b[i] = z`. -/
def strideFill (start stop step : Int) (z : α) (b : Buf α) : Res (Buf α) :=
  if start < stop then
    if 0 < step then loop (Vector.strideCount start stop step) (fun k b => b.wrI (start + step * k) z) b
    else .ub
  else .ok b

/-- The array of a vector; a null pointer is not accessed. -/
def theAlloc (x : MVec α) : Res (Buf α) :=
  match x.alloc with
  | some b => .ok b
  | none => .ub

/-- Lines 97-108 `CeedVectorSetValue_Memcheck`. -/
def setValueMc (v : Nat) (z : α) : M (W α) Unit := do
  ensure A v .host
  let x ← getV v
  let b ← M.lift (theAlloc x)
  let b ← M.lift (mapLoop x.len (fun _ => z) b)
  putV v { x with alloc := some b }

/-- Lines 113-126 `CeedVectorSetValueStrided_Memcheck`. -/
def setValueStridedMc (v : Nat) (start stop step : Int) (z : α) : M (W α) Unit := do
  ensure A v .host
  let x ← getV v
  let b ← M.lift (theAlloc x)
  let b ← M.lift (strideFill start (if stop = -1 then x.len else stop) step z b)
  putV v { x with alloc := some b }

/-- Lines 131-152 `CeedVectorSyncArray_Memcheck`. -/
def syncMc (v : Nat) (mem : Mem) : M (W α) Unit := do
  M.check (mem = .host) .backend
  let x ← getV v
  copyBack x.owned x
  copyBack x.borrowed x

/-- Lines 157-181 `CeedVectorTakeArray_Memcheck`. -/
def takeMc (v : Nat) (mem : Mem) : M (W α) (Option Nat) := do
  M.check (mem = .host) .backend
  let x ← getV v
  syncMc v .host
  putV v { x with borrowed := none, alloc := none }
  pure x.borrowed

/-- Lines 186-202 `CeedVectorGetArray_Memcheck`. -/
def getMc (v : Nat) (mem : Mem) : M (W α) Unit := do
  M.check (mem = .host) .backend
  let x ← getV v
  let b ← M.lift (dup x.alloc x.len)
  putV v { x with wcopy := some b }

/-- Lines 207-225 `CeedVectorGetArrayRead_Memcheck`. -/
def getReadMc (v : Nat) (mem : Mem) : M (W α) Unit := do
  M.check (mem = .host) .backend
  let x ← getV v
  if x.rcopy.isSome then pure () else do
    let b ← M.lift (dup x.alloc x.len)
    putV v { x with rcopy := some b }

/-- Lines 230-250 `CeedVectorGetArrayWrite_Memcheck`. -/
def getWriteMc (v : Nat) (mem : Mem) : M (W α) Unit := do
  M.check (mem = .host) .backend
  ensure A v mem
  getMc v mem
  let x ← getV v
  let b ← M.lift (dup x.wcopy x.len)
  let b ← M.lift (mapLoop x.len (fun _ => A.nan) b)
  putV v { x with wcopy := some b, writeOnly := true }

/-- Lines 255-283 `CeedVectorRestoreArray_Memcheck` (the warnings for `NAN` entries are not modelled). -/
def restoreMc (v : Nat) : M (W α) Unit := do
  let x ← getV v
  let b ← M.lift (dup x.wcopy x.len)
  let _ ← M.lift (dup x.alloc x.len)
  putV v { x with alloc := some b, writeOnly := false }
  syncMc v .host
  let y ← getV v
  putV v { y with wcopy := none }

/-- Lines 288-305 `CeedVectorRestoreArrayRead_Memcheck`. -/
def restoreReadMc [DecidableEq α] (v : Nat) : M (W α) Unit := do
  let x ← getV v
  let a ← M.lift (dup x.alloc x.len)
  let r ← M.lift (dup x.rcopy x.len)
  M.check (∀ i < x.len, a.val i = r.val i) .backend
  putV v { x with rcopy := none }

/-- A function that changes the values of one vector. -/
def mapMc (v : Nat) (f : α → α) : M (W α) Unit := do
  let x ← getV v
  let b ← M.lift (theAlloc x)
  let b ← M.lift (mapLoop x.len f b)
  putV v { x with alloc := some b }

/-- Lines 310-321 `CeedVectorReciprocal_Memcheck`. -/
def reciprocalMc (v : Nat) : M (W α) Unit := mapMc v (fun z => if A.big z then A.inv z else z)

/-- Lines 326-335 `CeedVectorScale_Memcheck`. -/
def scaleMc (v : Nat) (alpha : α) : M (W α) Unit := mapMc v (fun z => A.mul z alpha)

/-- Lines 340-350 `CeedVectorAXPY_Memcheck` and 355-365 `CeedVectorAXPBY_Memcheck`; `f` is the right-hand side as a function of
`x[i]` and `y[i]`. -/
def axpMc (y : Nat) (f : α → α → α) (x : Nat) : M (W α) Unit := do
  let vx ← getV x
  let vy ← getV y
  let a ← M.lift (theAlloc vx)
  let b ← M.lift (theAlloc vy)
  let b ← M.lift (zipLoop vy.len f a b)
  putV y { vy with alloc := some b }

/-- Lines 370-384 `CeedVectorPointwiseMult_Memcheck`. -/
def pointwiseMultMc (u x y : Nat) : M (W α) Unit := do
  ensure A u .host
  let vx ← getV x
  let vy ← getV y
  let vu ← getV u
  let a ← M.lift (theAlloc vx)
  let b ← M.lift (theAlloc vy)
  let c ← M.lift (theAlloc vu)
  let c ← M.lift (zip3Loop vu.len A.mul a b c)
  putV u { vu with alloc := some c }

/-- Lines 389-409 `CeedVectorDestroy_Memcheck`; `array_allocated` goes with the vector. -/
def destroyMc (v : Nat) : M (W α) Unit := do
  let x ← getV v
  freeA x.owned
  fun w => .ok (w.setVec v none) ()

end Backend

section Interface
variable {α : Type} (A : Arith α)

/-- `vec->state += k`. -/
def bump (v : Nat) (k : Nat) : M (W α) Unit := do
  let x ← getV v
  putV v { x with state := x.state + k }

/-- The two lock checks of `interface/ceed-vector.c`, for example 320-322. -/
def lockChecks (x : MVec α) : M (W α) Unit := do
  M.check (x.state % 2 = 0) .access
  M.check (x.readers = 0) .access

/-- `interface/ceed-vector.c` 52-63 `CeedVectorHasValidArray` with lines 21-27 of the backend. -/
def validB (x : MVec α) : Bool := decide (x.len = 0) || x.alloc.isSome

/-- `interface/ceed-vector.c` 161-179 `CeedVectorCreate`. -/
def create (v n : Nat) : M (W α) Unit := fun w => .ok (w.setVec v (some ⟨n, 0, 0, none, none, none, none, none, false⟩)) ()

/-- `interface/ceed-vector.c` 316-328 `CeedVectorSetArray`. -/
def setArray (v : Nat) (mem : Mem) (mode : Mode) (src : Option Nat) : M (W α) Unit := do
  let x ← getV v
  lockChecks x
  if 0 < x.len then do
    setArrayMc A v mem mode src
    bump v 2
  else bump v 2

/-- `interface/ceed-vector.c` 340-358 `CeedVectorSetValue`. -/
def setValue (v : Nat) (z : α) : M (W α) Unit := do
  let x ← getV v
  lockChecks x
  setValueMc A v z
  bump v 2

/-- `interface/ceed-vector.c` 375-398 `CeedVectorSetValueStrided`. -/
def setValueStrided (v : Nat) (start stop step : Int) (z : α) : M (W α) Unit := do
  let x ← getV v
  lockChecks x
  M.check (-1 ≤ stop ∧ stop ≤ x.len) .access
  setValueStridedMc A v start stop step z
  bump v 2

/-- `interface/ceed-vector.c` 413-431 `CeedVectorSyncArray`. -/
def syncArray (v : Nat) (mem : Mem) : M (W α) Unit := do
  let x ← getV v
  M.check (x.state % 2 = 0) .access
  if x.len = 0 then pure () else syncMc v mem

/-- `interface/ceed-vector.c` 448-471 `CeedVectorTakeArray`, with lines 32-40 of the backend. -/
def takeArray (v : Nat) (mem : Mem) : M (W α) (Option Nat) := do
  let x ← getV v
  lockChecks x
  if 0 < x.len then do
    M.check (mem = .host) .backend
    M.check (x.borrowed.isSome) .backend
    M.check (validB x = true) .backend
    takeMc v mem
  else pure none

/-- `interface/ceed-vector.c` 490-512 `CeedVectorGetArray`. -/
def getArray (v : Nat) (mem : Mem) : M (W α) Unit := do
  let x ← getV v
  lockChecks x
  if 0 < x.len then do
    M.check (validB x = true) .backend
    getMc v mem
    bump v 1
  else bump v 1

/-- `vec->num_readers++` (line 547). -/
def addReader (v : Nat) : M (W α) Unit := do
  let x ← getV v
  putV v { x with readers := x.readers + 1 }

/-- `interface/ceed-vector.c` 528-549 `CeedVectorGetArrayRead`. -/
def getArrayRead (v : Nat) (mem : Mem) : M (W α) Unit := do
  let x ← getV v
  M.check (x.state % 2 = 0) .access
  if 0 < x.len then do
    M.check (validB x = true) .backend
    getReadMc v mem
    addReader v
  else addReader v

/-- `interface/ceed-vector.c` 565-581 `CeedVectorGetArrayWrite`. -/
def getArrayWrite (v : Nat) (mem : Mem) : M (W α) Unit := do
  let x ← getV v
  lockChecks x
  if 0 < x.len then do
    getWriteMc A v mem
    bump v 1
  else bump v 1

/-- `interface/ceed-vector.c` 593-602 `CeedVectorRestoreArray`. -/
def restoreArray (v : Nat) : M (W α) Unit := do
  let x ← getV v
  M.check (x.state % 2 = 1) .access
  if 0 < x.len then do
    restoreMc v
    bump v 1
  else bump v 1

/-- `interface/ceed-vector.c` 614-624 `CeedVectorRestoreArrayRead`. -/
def restoreArrayRead [DecidableEq α] (v : Nat) : M (W α) Unit := do
  let x ← getV v
  M.check (0 < x.readers) .access
  putV v { x with readers := x.readers - 1 }
  if 0 < x.len ∧ x.readers - 1 = 0 then restoreReadMc v else pure ()

/-- `interface/ceed-vector.c` 698-720 `CeedVectorScale`: line 713 returns what the function of the backend returns; neither the
locks nor the state are touched. -/
def scale (v : Nat) (alpha : α) : M (W α) Unit := do
  let x ← getV v
  M.check (validB x = true) .backend
  if x.len = 0 then pure () else scaleMc A v alpha

/-- `interface/ceed-vector.c` 733-790 `CeedVectorAXPY` and 804-861 `CeedVectorAXPBY` (vectors of one `Ceed`). -/
def axp (y : Nat) (f : α → α → α) (x : Nat) : M (W α) Unit := do
  let vy ← getV y
  let vx ← getV x
  M.check (vx.len = vy.len) .unsupported
  M.check (x ≠ y) .unsupported
  M.check (validB vx = true) .backend
  M.check (validB vy = true) .backend
  if vy.len = 0 then pure () else axpMc y f x

def axpy (y : Nat) (alpha : α) (x : Nat) : M (W α) Unit := axp y (fun a b => A.add b (A.mul alpha a)) x

def axpby (y : Nat) (alpha beta : α) (x : Nat) : M (W α) Unit := axp y (fun a b => A.add (A.mul alpha a) (A.mul beta b)) x

/-- `interface/ceed-vector.c` 876-954 `CeedVectorPointwiseMult` (vectors of one `Ceed`). -/
def pointwiseMult (u x y : Nat) : M (W α) Unit := do
  let vu ← getV u
  let vx ← getV x
  let vy ← getV y
  M.check (vu.len ≤ vx.len ∧ vu.len ≤ vy.len) .unsupported
  M.check (validB vx = true) .backend
  M.check (validB vy = true) .backend
  if vu.len = 0 then pure () else pointwiseMultMc A u x y

/-- `interface/ceed-vector.c` 965-994 `CeedVectorReciprocal`. -/
def reciprocal (v : Nat) : M (W α) Unit := do
  let x ← getV v
  M.check (validB x = true) .backend
  M.check (0 < x.state) .incomplete
  if x.len = 0 then pure () else reciprocalMc A v

/-- `interface/ceed-vector.c` 1106-1119 `CeedVectorDestroy` of the only reference. An error leaves a vector without references;
the model keeps it as it is. -/
def destroy (v : Nat) : M (W α) Unit := do
  let x ← getV v
  M.check (x.state % 2 = 0) .access
  M.check (x.readers = 0) .access
  destroyMc v

/-! ## Programs -/

/-- Calls, and what a program does with arrays: its own ones (`malloc`, `mfree`, `store`), the one it got for reading
(`storeRead`: not allowed by the contract of the library, but possible), and the one it got for writing. -/
inductive Call (α : Type)
  | create (v n : Nat)
  | destroy (v : Nat)
  | setArray (v : Nat) (mem : Mem) (mode : Mode) (src : Option Nat)
  | takeArray (v : Nat) (mem : Mem)
  | getArray (v : Nat) (mem : Mem)
  | getArrayRead (v : Nat) (mem : Mem)
  | getArrayWrite (v : Nat) (mem : Mem)
  | restoreArray (v : Nat)
  | restoreArrayRead (v : Nat)
  | syncArray (v : Nat) (mem : Mem)
  | setValue (v : Nat) (z : α)
  | setValueStrided (v : Nat) (start stop step : Int) (z : α)
  | scale (v : Nat) (z : α)
  | axpy (y : Nat) (z : α) (x : Nat)
  | axpby (y : Nat) (z z' : α) (x : Nat)
  | pointwiseMult (u x y : Nat)
  | reciprocal (v : Nat)
  | malloc (a : Nat) (b : Buf α)
  | mfree (a : Nat)
  | store (a i : Nat) (z : α)
  | storeWrite (v i : Nat) (z : α)
  | storeRead (v i : Nat) (z : α)

/-- `p[i] = z` for a pointer to an array of the backend. -/
def stB (p : Option (Buf α)) (i : Nat) (z : α) : Res (Buf α) :=
  match p with
  | none => .ub
  | some b => b.wr i z

def storeA (a i : Nat) (z : α) : M (W α) Unit := fun w =>
  match stB (w.heap a) i z with
  | .ok b => .ok (w.setArr a (some b)) ()
  | _ => .ub

def storeW (v i : Nat) (z : α) : M (W α) Unit := do
  let x ← getV v
  let b ← M.lift (stB x.wcopy i z)
  putV v { x with wcopy := some b }

def storeR (v i : Nat) (z : α) : M (W α) Unit := do
  let x ← getV v
  let b ← M.lift (stB x.rcopy i z)
  putV v { x with rcopy := some b }

/-- Perform a call; the result is the array returned, if any. -/
def exec [DecidableEq α] : Call α → M (W α) (Option Nat)
  | .create v n => do create v n; pure none
  | .destroy v => do destroy v; pure none
  | .setArray v m mode src => do setArray A v m mode src; pure none
  | .takeArray v m => takeArray v m
  | .getArray v m => do getArray v m; pure none
  | .getArrayRead v m => do getArrayRead v m; pure none
  | .getArrayWrite v m => do getArrayWrite A v m; pure none
  | .restoreArray v => do restoreArray v; pure none
  | .restoreArrayRead v => do restoreArrayRead v; pure none
  | .syncArray v m => do syncArray v m; pure none
  | .setValue v z => do setValue A v z; pure none
  | .setValueStrided v a b c z => do setValueStrided A v a b c z; pure none
  | .scale v z => do scale A v z; pure none
  | .axpy y z x => do axpy A y z x; pure none
  | .axpby y z z' x => do axpby A y z z' x; pure none
  | .pointwiseMult u x y => do pointwiseMult A u x y; pure none
  | .reciprocal v => do reciprocal A v; pure none
  | .malloc a b => fun w => .ok (w.setArr a (some b)) none
  | .mfree a => do freeA (some a); pure none
  | .store a i z => do storeA a i z; pure none
  | .storeWrite v i z => do storeW v i z; pure none
  | .storeRead v i z => do storeR v i z; pure none

end Interface
end Memcheck
end Verif
