import Verif.State

/-!
# QFunction application of the backend that checks memory accesses

Models `CeedQFunctionApply_Memcheck` (`backends/memcheck/ceed-memcheck-qfunction.c` 19-91) with `CeedQFunctionApply`
(`interface/ceed-qfunction.c` 1048-1058). Vectors and the context are those of the same backend; the calls on them are
summarised here by their effect on the values and on the copies that are granted (C60 and C77 treat them in full, with the heap
and the arrays of the program). The requests to Valgrind are left out: they have no effect on values. The types of scalars and
of the contents of the context are left open. The tables for at most 16 input and 16 output arrays are lists.
-/

namespace Verif
namespace CheckQF

/-- A vector: length, state counter, number of readers, the values (`array_allocated`) and the copies for readers and for the
writer (`backends/memcheck/ceed-memcheck.h` 15-34). -/
structure Vec (S : Type) where
  len : Nat
  state : Nat
  readers : Nat
  arr : Option (Nat → S)
  ro : Option (Nat → S)
  wr : Option (Nat → S)

/-- A context: the data and its copies (`backends/memcheck/ceed-memcheck.h` 48-65). -/
structure Cx (T : Type) where
  state : Nat
  readers : Nat
  data : Option T
  ro : Option T
  wr : Option T

/-- All vectors, and the context of the QFunction, if there is one. -/
structure W (S T : Type) where
  vec : Nat → Vec S
  ctx : Option (Cx T)

/-- What a user function leaves in the context, the input arrays and the output arrays. -/
structure UserOut (S T : Type) where
  ctx : Option T
  ins : List (Nat → S)
  outs : List (Nat → S)

/-- A QFunction: whether it writes to its context, its vector length, the sizes of its output fields, and the user function.
The user function gets the context, the number of points, and the contents of the arrays; it returns an error code (`none`), or
leaves contents in the arrays, also in those that it should only read. It does not write outside of the arrays. -/
structure QF (S T : Type) where
  writable : Bool
  vecLen : Nat
  sizes : List Nat
  user : Option T → Nat → List (Nat → S) → List (Nat → S) → Option (UserOut S T)

section
variable {S T : Type}

/-- Change a vector. -/
def setV (v : Nat) (x : Vec S) : M (W S T) Unit := fun w => .ok { w with vec := fun u => if u = v then x else w.vec u } ()

/-- Read a vector. -/
def getV (v : Nat) : M (W S T) (Vec S) := fun w => .ok w (w.vec v)

/-- Read the context. -/
def getX : M (W S T) (Option (Cx T)) := fun w => .ok w w.ctx

/-- Change the context. -/
def setX (c : Cx T) : M (W S T) Unit := fun w => .ok { w with ctx := some c } ()

/-- `interface/ceed-vector.c` 528-549 `CeedVectorGetArrayRead` with `ceed-memcheck-vector.c` 205-223. Without entries a null
pointer is returned, which stands for no contents. `bad` is the value `NAN`. -/
def getRead (bad : S) (v : Nat) : M (W S T) (Nat → S) := do
  let x ← getV v
  M.check (x.state % 2 = 0) .access
  if x.len = 0 then do
    setV v { x with readers := x.readers + 1 }
    pure fun _ => bad
  else do
    M.check (x.arr.isSome = true) .backend
    setV v { x with readers := x.readers + 1, ro := if x.ro.isSome then x.ro else x.arr }
    pure ((if x.ro.isSome then x.ro else x.arr).getD fun _ => bad)

/-- `interface/ceed-vector.c` 565-582 `CeedVectorGetArrayWrite` with `ceed-memcheck-vector.c` 228-248. -/
def getWrite (bad : S) (v : Nat) : M (W S T) (Nat → S) := do
  let x ← getV v
  M.check (x.state % 2 = 0) .access
  M.check (x.readers = 0) .access
  if x.len = 0 then do
    setV v { x with state := x.state + 1 }
    pure fun _ => bad
  else do
    setV v { x with state := x.state + 1, arr := if x.arr.isSome then x.arr else some fun _ => bad, wr := some fun _ => bad }
    pure fun _ => bad

/-- `interface/ceed-vector.c` 593-602 `CeedVectorRestoreArray` with `ceed-memcheck-vector.c` 253-282. -/
def restore (v : Nat) : M (W S T) Unit := do
  let x ← getV v
  M.check (x.state % 2 = 1) .access
  if x.len = 0 then setV v { x with state := x.state + 1 }
  else
    match x.wr with
    | none => M.lift .ub
    | some g => setV v { x with state := x.state + 1, arr := some g, wr := none }

/-- `interface/ceed-vector.c` 614-624 `CeedVectorRestoreArrayRead` with `ceed-memcheck-vector.c` 287-304. -/
def restoreRead [DecidableEq S] (v : Nat) : M (W S T) Unit := do
  let x ← getV v
  M.check (0 < x.readers) .access
  setV v { x with readers := x.readers - 1 }
  if x.len = 0 then pure ()
  else if x.readers - 1 = 0 then
    match x.arr, x.ro with
    | some a, some r => do
      M.check (∀ i : Fin x.len, a i = r i) .backend
      setV v { x with readers := x.readers - 1, ro := none }
    | _, _ => M.lift .ub
  else pure ()

/-- `interface/ceed-qfunction.c` 350-366 `CeedQFunctionGetContextData` with the context functions of C77. -/
def getCtx (writable : Bool) : M (W S T) (Option T) := do
  let c ← getX
  match c with
  | none => pure none
  | some c =>
    if writable then do
      M.check (c.state % 2 = 0) .minor
      M.check (c.readers = 0) .minor
      M.check (c.data.isSome = true) .backend
      setX { c with state := c.state + 1, wr := c.data }
      pure c.data
    else do
      M.check (c.state % 2 = 0) .minor
      M.check (c.data.isSome = true) .backend
      setX { c with readers := c.readers + 1, ro := if c.ro.isSome then c.ro else c.data }
      pure (if c.ro.isSome then c.ro else c.data)

/-- `interface/ceed-qfunction.c` 379-394 `CeedQFunctionRestoreContextData` with the context functions of C77. -/
def restoreCtx [DecidableEq T] (writable : Bool) : M (W S T) Unit := do
  let c ← getX
  match c with
  | none => pure ()
  | some c =>
    if writable then do
      M.check (c.state % 2 = 1) .minor
      setX { c with state := c.state + 1, data := c.wr, wr := none }
    else do
      M.check (0 < c.readers) .minor
      setX { c with readers := c.readers - 1 }
      if c.readers - 1 = 0 then do
        M.check (c.data = c.ro) .backend
        setX { c with readers := c.readers - 1, ro := none }
      else pure ()

/-- Lines 32-42: access for reading to all inputs. -/
def getReads (bad : S) : List Nat → M (W S T) (List (Nat → S))
  | [] => pure []
  | v :: vs => do
    let a ← getRead bad v
    let as ← getReads bad vs
    pure (a :: as)

/-- Lines 45-56: access for writing to all outputs. -/
def getWrites (bad : S) : List Nat → M (W S T) (List (Nat → S))
  | [] => pure []
  | v :: vs => do
    let a ← getWrite bad v
    let as ← getWrites bad vs
    pure (a :: as)

/-- New contents of an array of `n` entries. -/
def mask (n : Nat) (g h : Nat → S) : Nat → S := fun i => if i < n then g i else h i

/-- The user function leaves contents in the copy for readers of a vector. -/
def storeIn (v : Nat) (g : Nat → S) : M (W S T) Unit := do
  let x ← getV v
  setV v { x with ro := x.ro.map (mask x.len g) }

/-- The user function leaves contents in the copy for writing of a vector. -/
def storeOut (v : Nat) (g : Nat → S) : M (W S T) Unit := do
  let x ← getV v
  setV v { x with wr := x.wr.map (mask x.len g) }

/-- All input arrays. -/
def storeIns : List Nat → List (Nat → S) → M (W S T) Unit
  | v :: vs, g :: gs => do
    storeIn v g
    storeIns vs gs
  | _, _ => pure ()

/-- All output arrays. -/
def storeOuts : List Nat → List (Nat → S) → M (W S T) Unit
  | v :: vs, g :: gs => do
    storeOut v g
    storeOuts vs gs
  | _, _ => pure ()

/-- The user function leaves contents in the copy of the context. -/
def storeCtx (writable : Bool) (t : Option T) : M (W S T) Unit := do
  let c ← getX
  match c with
  | none => pure ()
  | some c => if writable then setX { c with wr := t } else setX { c with ro := t }

/-- Lines 62-65: access for reading is given back. -/
def restoreReads [DecidableEq S] : List Nat → M (W S T) Unit
  | [] => pure ()
  | v :: vs => do
    restoreRead v
    restoreReads vs

/-- Lines 80-85: no entry of an output is `NAN`. -/
def checkOut (nan : S → Bool) (n v : Nat) : M (W S T) Unit := do
  let x ← getV v
  if n ≤ x.len then
    match x.wr with
    | some g => M.check (∀ j : Fin n, nan (g j) = false) .backend
    | none => if n = 0 then pure () else M.lift .ub
  else M.lift .ub

/-- Lines 74-88: every output is checked and access to it given back. -/
def checkOuts (nan : S → Bool) (Q : Nat) : List Nat → List Nat → M (W S T) Unit
  | n :: ns, v :: vs => do
    checkOut nan (n * Q) v
    restore v
    checkOuts nan Q ns vs
  | _, _ => pure ()

/-- Lines 58-90, after the user function has returned. -/
def finish [DecidableEq S] [DecidableEq T] (nan : S → Bool) (q : QF S T) (Q : Nat) (us vs : List Nat) (r : UserOut S T) :
    M (W S T) Unit := do
  storeCtx q.writable r.ctx
  storeIns us r.ins
  storeOuts vs r.outs
  restoreReads us
  checkOuts nan Q q.sizes vs
  restoreCtx q.writable

/-- `CeedQFunctionApply`: `interface/ceed-qfunction.c` 1048-1058 and `ceed-memcheck-qfunction.c` 19-91. The vector length is
positive; otherwise the remainder is undefined. -/
def apply [DecidableEq S] [DecidableEq T] (bad : S) (nan : S → Bool) (q : QF S T) (Q : Nat) (us vs : List Nat) :
    M (W S T) Unit := do
  if q.vecLen = 0 then M.lift .ub else pure ()
  M.check (Q % q.vecLen = 0) .dimension
  let c ← getCtx q.writable
  let ins ← getReads bad us
  let outs ← getWrites bad vs
  match q.user c Q ins outs with
  | none => M.lift (.err .minor)
  | some r => finish nan q Q us vs r

end

end CheckQF
end Verif
