import Verif.State

/-!
# Reference counts

All object kinds (`Ceed`, `CeedVector`, `CeedElemRestriction`, `CeedTensorContract`, `CeedBasis`, `CeedQFunctionContext`,
`CeedQFunction`, `CeedOperator`) are counted in the same way; an object here is its counter together with the pointers to
other objects which it holds ("slots"), in the order in which its destructor releases them. The program has variables that
hold object pointers. Simplifications: the constants `CEED_VECTOR_ACTIVE`, `CEED_*_NONE` are not counted and are left out;
objects with an outstanding access (whose destruction is refused, see the vector model) are left out; a slot is set to
`NULL` before instead of after the object in it is released (`CeedFree` sets it to `NULL` at the end), which nothing in
between observes; the temporary self reference of work vectors (`interface/ceed.c` 164-173) is left out.
-/

namespace Verif
namespace RefCount

/-- `ref_count` and the pointers held by an object (`include/ceed-impl.h`). -/
structure Obj where
  refs : Int
  slots : List (Option Nat)
deriving DecidableEq, Repr

/-- Objects (`none`: not allocated) and the variables of the program. -/
structure World where
  objs : Nat → Option Obj
  next : Nat
  vars : Nat → Option Nat
  nvars : Nat

/-- No objects, all variables `NULL`. -/
def World.init (n : Nat) : World := ⟨fun _ => none, 0, fun _ => none, n⟩

/-- Replace an object. -/
def World.setObj (w : World) (o : Nat) (x : Option Obj) : World :=
  { w with objs := fun k => if k = o then x else w.objs k }

/-- Replace a variable. -/
def World.setVar (w : World) (i : Nat) (x : Option Nat) : World :=
  { w with vars := fun k => if k = i then x else w.vars k }

/-- Access to an object; undefined when it is not allocated. -/
def getO (o : Nat) : M World Obj := fun w =>
  match w.objs o with
  | some x => .ok w x
  | none => .ub

/-- Write to an object. -/
def putO (o : Nat) (x : Obj) : M World Unit := fun w => .ok (w.setObj o (some x)) ()

/-- `CeedFree` of the object. -/
def delO (o : Nat) : M World Unit := fun w => .ok (w.setObj o none) ()

/-- Read a variable of the program. -/
def getVar (i : Nat) : M World (Option Nat) := fun w => if i < w.nvars then .ok w (w.vars i) else .ub

/-- Write a variable of the program. -/
def putVar (i : Nat) (x : Option Nat) : M World Unit := fun w => if i < w.nvars then .ok (w.setVar i x) () else .ub

/-- Read a variable and use the pointer; undefined when it is `NULL`. -/
def deref (i : Nat) : M World Nat := do
  let p ← getVar i
  match p with
  | some o => pure o
  | none => M.undef

/-- `CeedVectorReference` (`interface/ceed-vector.c` 137-140), `CeedReference` (`interface/ceed.c` 815-818),
`CeedElemRestrictionReference` (`interface/ceed-elemrestriction.c` 533-536), `CeedBasisReference`
(`interface/ceed-basis.c` 822-825), `CeedQFunctionContextReference` (`interface/ceed-qfunctioncontext.c` 544-547),
`CeedQFunctionReference` (`interface/ceed-qfunction.c` 579-582), `CeedOperatorReference`
(`interface/ceed-operator.c` 711-714), `CeedTensorContractReference` (`interface/ceed-tensor.c` 182-185). -/
def reference (o : Nat) : M World Unit := do
  let x ← getO o
  putO o { x with refs := x.refs + 1 }

/-- Release the object in slot `i` of object `o`: one `Ceed*Destroy(&(*obj)->slot)` of a destructor. -/
def dropSlot (rel : Nat → M World Unit) (o i : Nat) : M World Unit := do
  let x ← getO o
  match (x.slots[i]?).join with
  | some c => do
    putO o { x with slots := x.slots.set i none }
    rel c
  | none => pure ()

/-- `Ceed*Destroy` on a pointer that is not `NULL`: `interface/ceed.c` 1445-1484, `interface/ceed-vector.c` 1106-1119,
`interface/ceed-elemrestriction.c` 1772-1788, `interface/ceed-tensor.c` 218-228, `interface/ceed-basis.c` 2355-2378,
`interface/ceed-qfunctioncontext.c` 930-948, `interface/ceed-qfunction.c` 1069-1105, `interface/ceed-operator.c`
2274-2346. The first argument bounds the depth of the recursion of the C code; beyond it the outcome is undefined. -/
def release : Nat → Nat → M World Unit
  | 0, _ => M.undef
  | f + 1, o => do
    let x ← getO o
    putO o { x with refs := x.refs - 1 }
    if 0 < x.refs - 1 then pure ()
    else do
      M.loop x.slots.length (fun i => dropSlot (release f) o i)
      delO o

/-- `Ceed*Destroy` of a pointer: nothing to do for `NULL`. The depth of the recursion is bounded by the number of objects
created. -/
def destroyPtr (p : Option Nat) : M World Unit := fun w =>
  match p with
  | some o => release w.next o w
  | none => .ok w ()

/-- `Ceed*Destroy(&var)`. -/
def destroy (i : Nat) : M World Unit := do
  let p ← getVar i
  putVar i none
  destroyPtr p

/-- `Ceed*ReferenceCopy(var_src, &var_dst)`: `interface/ceed.c` 1287-1292, `interface/ceed-vector.c` 196-201,
`interface/ceed-elemrestriction.c` 1251-1256, `interface/ceed-basis.c` 1838-1843, `interface/ceed-qfunctioncontext.c`
600-605, `interface/ceed-qfunction.c` 755-760, `interface/ceed-operator.c` 873-878, `interface/ceed-tensor.c` 202-207. -/
def refCopy (src dst : Nat) : M World Unit := do
  let o ← deref src
  reference o
  destroy dst
  putVar dst (some o)

/-- Take references for the objects in the given variables. -/
def takeAll : List Nat → M World (List (Option Nat))
  | [] => pure []
  | i :: l => do
    let o ← deref i
    reference o
    let r ← takeAll l
    pure (some o :: r)

/-- Allocate an object with count one. -/
def newObj (slots : List (Option Nat)) : M World Nat := fun w =>
  .ok { w.setObj w.next (some ⟨1, slots⟩) with next := w.next + 1 } w.next

/-- `Ceed*Create`: the new object holds references to the objects it is made from (`Ceed`, `CeedQFunction`, ...) and has
`extra` empty slots; e.g. `interface/ceed-operator.c` 753-778, `interface/ceed-vector.c` 161-179. -/
def create (dst : Nat) (children : List Nat) (extra : Nat) : M World Unit := do
  let cs ← takeAll children
  let o ← newObj (cs ++ List.replicate extra none)
  putVar dst (some o)

/-- An object takes a reference and stores it after those it has: `CeedCompositeOperatorAddSub`
(`interface/ceed-operator.c` 1266-1295). -/
def attach (i child : Nat) : M World Unit := do
  let a ← deref i
  let c ← deref child
  reference c
  let x ← getO a
  putO a { x with slots := x.slots ++ [some c] }

/-- An object takes a reference and stores it in slot `k`, whatever that held: `CeedOperatorSetField`
(`interface/ceed-operator.c` 903-1007: the field structure is newly allocated, the old pointer is lost). -/
def setField (i k child : Nat) : M World Unit := do
  let a ← deref i
  let c ← deref child
  reference c
  let x ← getO a
  if k < x.slots.length then putO a { x with slots := x.slots.set k (some c) } else M.undef

/-- The old object in slot `k` is released before the new one is referenced: `CeedQFunctionSetContext`
(`interface/ceed-qfunction.c` 934-939; for a context that is not `NULL`). -/
def setContext (i k child : Nat) : M World Unit := do
  let a ← deref i
  let c ← deref child
  let x ← getO a
  if k < x.slots.length then do
    dropSlot (fun o => destroyPtr (some o)) a k
    let x ← getO a
    putO a { x with slots := x.slots.set k (some c) }
    reference c
  else M.undef

/-- The program obtains a reference to the object in slot `k`: `CeedOperatorGetQFunction`
(`interface/ceed-operator.c` 647-655), `CeedVectorGetCeed` (`interface/ceed-vector.c` 1065-1069), ...: the variable is set to `NULL`, then `ReferenceCopy`. -/
def getSlot (i k dst : Nat) : M World Unit := do
  let a ← deref i
  let x ← getO a
  putVar dst none
  match (x.slots[k]?).join with
  | some c => do
    reference c
    putVar dst (some c)
  | none => M.undef

end RefCount
end Verif
