import Verif.State

/-!
# Life of element restrictions: references, copies and lent arrays

`CeedElemRestriction*` objects, their unsigned and unoriented copies, the arrays lent to the user, and destruction, for the
reference backend. Simplifications: the references to the `Ceed` and the array of strides of each object are left out (every
object has its own); the number of readers is an integer without wrap around (in C a 64 bit counter, which differs from zero
exactly when this one does unless 2^64 arrays are lent at a time); the data of the backend is one block, holding the three
arrays, which is created together with the object and has the same number as it (`offsets`, `orients`, `curl_orients`, and
the structure that points to them, are allocated and released together for copied and owned arrays).
-/

namespace Verif
namespace RstrLife

/-- The arrays that can be borrowed. -/
inductive Kind
  | offsets | orients | curlOrients
deriving DecidableEq, Repr

/-- The arrays of a restriction (`none`: the pointer is `NULL`): `backends/ref/ceed-ref.h`, `CeedElemRestriction_Ref`. -/
abbrev Block := Kind → Option (List Int)

/-- `include/ceed-impl.h` 165-195: the fields of `CeedElemRestriction_private` that matter here; `base` is `rstr_base`,
`data` the block of the backend. -/
structure Obj where
  refs : Int
  readers : Int
  base : Option Nat
  data : Nat
deriving DecidableEq, Repr

/-- Objects and blocks (`none`: not allocated, or released). -/
structure Heap where
  objs : Nat → Option Obj
  blocks : Nat → Option Block
  next : Nat

/-- Nothing is allocated. -/
def Heap.init : Heap := ⟨fun _ => none, fun _ => none, 0⟩

/-- Access to an object; undefined when it is not allocated. -/
def getO (o : Nat) : M Heap Obj := fun h =>
  match h.objs o with
  | some x => .ok h x
  | none => .ub

/-- Write to an object. -/
def putO (o : Nat) (x : Obj) : M Heap Unit := fun h => .ok { h with objs := Function.update h.objs o (some x) } ()

/-- `CeedFree` of an object. -/
def delO (o : Nat) : M Heap Unit := fun h => .ok { h with objs := Function.update h.objs o none } ()

/-- Access to a block; undefined when it is not allocated. -/
def getB (d : Nat) : M Heap Block := fun h =>
  match h.blocks d with
  | some x => .ok h x
  | none => .ub

/-- `CeedElemRestrictionDestroy_Ref` (`backends/ref/ceed-ref-restriction.c` 707-716): release a block; undefined when this was
done before. -/
def freeB (d : Nat) : M Heap Unit := fun h =>
  match h.blocks d with
  | some _ => .ok { h with blocks := Function.update h.blocks d none } ()
  | none => .ub

/-- The end of `CeedElemRestrictionCreate` and its variants (`interface/ceed-elemrestriction.c` 628-673, 684-732, 743-787):
one reference, no readers, no base (`CeedCalloc`), and the data of the backend (`CeedElemRestrictionCreate_Ref`). -/
def create (c : Block) : M Heap Nat := fun h =>
  .ok ⟨Function.update h.objs h.next (some ⟨1, 0, none, h.next⟩), Function.update h.blocks h.next (some c), h.next + 1⟩ h.next

/-- `CeedElemRestrictionReference` (`interface/ceed-elemrestriction.c` 533-536). -/
def reference (o : Nat) : M Heap Unit := do
  let x ← getO o
  putO o { x with refs := x.refs + 1 }

/-- `CeedElemRestrictionDestroy` (`interface/ceed-elemrestriction.c` 1772-1789) of an object. The first argument bounds the
length of the chain of bases that is followed; callers pass a number that no chain reaches. -/
def destroyObj : Nat → Nat → M Heap Unit
  | 0, _ => M.undef
  | f + 1, o => do
    let x ← getO o
    putO o { x with refs := x.refs - 1 }
    if x.refs - 1 > 0 then pure () else do
      M.check (x.readers = 0) .access
      match x.base with
      | some b => destroyObj f b
      | none => freeB x.data
      delO o

/-- `CeedElemRestrictionDestroy` of a pointer; `NULL` is accepted. -/
def destroy : Option Nat → M Heap Unit
  | none => pure ()
  | some o => fun h => destroyObj (h.next + 1) o h

/-- `CeedElemRestrictionReferenceCopy` (`interface/ceed-elemrestriction.c` 1251-1256), with the old value of the destination. -/
def referenceCopy (o : Nat) (old : Option Nat) : M Heap Nat := do
  reference o
  destroy old
  pure o

/-- A new object with the contents of another one and one reference: the `memcpy` of the functions below. -/
def clone (x : Obj) : M Heap Nat := fun h =>
  .ok { h with objs := Function.update h.objs h.next (some { x with refs := 1 }), next := h.next + 1 } h.next

/-- `CeedElemRestrictionCreateUnsignedCopy` and `CeedElemRestrictionCreateUnorientedCopy`
(`interface/ceed-elemrestriction.c` 1184-1204, 1216-1236): the object is copied byte by byte, with its number of readers and its
base; the count is set to one; then `CeedElemRestrictionReferenceCopy` sets the base of the copy, which holds the base of the
copied object until then. -/
def copy (o : Nat) : M Heap Nat := do
  let x ← getO o
  let n ← clone x
  let _ ← referenceCopy o x.base
  let y ← getO n
  putO n { y with base := some o }
  pure n

/-- `CeedElemRestrictionGetOffsets` (`interface/ceed-elemrestriction.c` 240-250) and `CeedElemRestrictionGetOffsets_Ref`
(`backends/ref/ceed-ref-restriction.c` 665-674); the returned pointer is the number of the block. -/
def getOffsets : Nat → Nat → Bool → M Heap Nat
  | 0, _, _ => M.undef
  | f + 1, o, host => do
    let x ← getO o
    match x.base with
    | some b => getOffsets f b host
    | none => do
      M.check (host = true) .backend
      let _ ← getB x.data
      putO o { x with readers := x.readers + 1 }
      pure x.data

/-- `CeedElemRestrictionGetOrientations`, `CeedElemRestrictionGetCurlOrientations` (`interface/ceed-elemrestriction.c` 284-290,
320-326) and the functions of the backend (`backends/ref/ceed-ref-restriction.c` 679-702). -/
def getOrients (o : Nat) (host : Bool) : M Heap Nat := do
  let x ← getO o
  M.check (host = true) .backend
  let _ ← getB x.data
  putO o { x with readers := x.readers + 1 }
  pure x.data

/-- `CeedElemRestrictionRestoreOffsets` (`interface/ceed-elemrestriction.c` 262-270). -/
def restoreOffsets : Nat → Nat → M Heap Unit
  | 0, _ => M.undef
  | f + 1, o => do
    let x ← getO o
    match x.base with
    | some b => restoreOffsets f b
    | none => putO o { x with readers := x.readers - 1 }

/-- `CeedElemRestrictionRestoreOrientations`, `CeedElemRestrictionRestoreCurlOrientations`
(`interface/ceed-elemrestriction.c` 302-306, 338-342). -/
def restoreOrients (o : Nat) : M Heap Unit := do
  let x ← getO o
  putO o { x with readers := x.readers - 1 }

/-- Any call that works with the arrays, such as `CeedElemRestrictionApply` (`backends/ref/ceed-ref-restriction.c` 586-660, through
`CeedElemRestrictionGetData`): it reads the block; the result is what it finds there. -/
def useObj (o : Nat) : M Heap Block := do
  let x ← getO o
  getB x.data

/-- The user reads an array through a pointer. -/
def readPtr (d : Nat) (k : Kind) : M Heap (Option (List Int)) := do
  let b ← getB d
  pure (b k)

/-- The calls of the user. -/
inductive Call
  | create (c : Block)
  | copy (o : Nat)
  | refCopy (o : Nat) (old : Option Nat)
  | get (k : Kind) (host : Bool) (o : Nat)
  | restore (k : Kind) (o : Nat)
  | destroy (o : Nat)
  | use (o : Nat)

/-- Run a call; the result is the pointer returned, if any. -/
def exec : Call → M Heap Nat
  | .create c => create c
  | .copy o => copy o
  | .refCopy o old => referenceCopy o old
  | .get .offsets host o => fun h => getOffsets (h.next + 1) o host h
  | .get .orients host o => getOrients o host
  | .get .curlOrients host o => getOrients o host
  | .restore .offsets o => do
    (fun h => restoreOffsets (h.next + 1) o h : M Heap Unit)
    pure 0
  | .restore .orients o => do
    restoreOrients o
    pure 0
  | .restore .curlOrients o => do
    restoreOrients o
    pure 0
  | .destroy o => do
    destroy (some o)
    pure 0
  | .use o => do
    let _ ← useObj o
    pure 0

/-- Run calls one after the other; error returns do not stop the user. -/
def execs : List Call → Heap → Out Heap Unit
  | [], h => .ok h ()
  | c :: cs, h =>
    match exec c h with
    | .ok h' _ => execs cs h'
    | .err h' _ => execs cs h'
    | .ub => .ub

end RstrLife
end Verif
