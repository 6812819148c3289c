import Verif.Operator.Advance

/-!
# Application of composite operators

Models the composite branches of `CeedOperatorApply` and `CeedOperatorApplyAdd` (`interface/ceed-operator.c` 2130-2234).
The reference backend registers neither `ApplyComposite` nor `ApplyAddComposite`. Single operators are numbered objects, each
with its own backend data; all share the vectors. The same operator may occur several times in a composite.
-/

namespace Verif
namespace Composite

open Operator (Oper Impl LVec St VPtr)

variable {α : Type} [CommRing α]

/-- An operator argument: a single operator, or a composite with its list of sub-operators (`sub_operators`,
`include/ceed-impl.h`). Composites that contain themselves are not represented. -/
inductive Tree
  | op (k : Nat)
  | comp (subs : List Tree)

/-- Backend data of all single operators and all vectors. -/
structure CSt (α : Type) where
  own : Nat → Impl α
  eptr : Nat → Nat → Option Nat
  vecs : Nat → LVec α

/-- What calls of operator `k` see. -/
def CSt.view (c : CSt α) (k : Nat) : St α := ⟨c.own k, c.vecs, c.eptr k⟩

/-- The state after a call of operator `k`. -/
def CSt.put (c : CSt α) (k : Nat) (s : St α) : CSt α :=
  ⟨Function.update c.own k s.impl, Function.update c.eptr k s.eptr, s.vecs⟩

/-- A call of single operator `k`. -/
def onOp (k : Nat) (m : M (St α) Unit) : M (CSt α) Unit := fun c =>
  match m (c.view k) with
  | .ok s a => .ok (c.put k s) a
  | .err s e => .err (c.put k s) e
  | .ub => .ub

/-- `CeedVectorSetValue(vec, 0.0)` (`interface/ceed-vector.c` 340-361). -/
def zeroC (p : VPtr) : M (CSt α) Unit := fun c =>
  match p with
  | .vec i =>
    let v : LVec α := ⟨(c.vecs i).state + 2, true, ⟨(c.vecs i).buf.len, fun _ => 0⟩⟩
    .ok { c with vecs := Function.update c.vecs i v } ()
  | .none => .ok c ()
  | .null => .ub

mutual
/-- `interface/ceed-operator.c` 2209-2234 `CeedOperatorApplyAdd`, on operators that are ready. -/
def addT (ops : Nat → Oper α) (junk : Nat → Nat → Nat → α) (inv outv : VPtr) : Tree → M (CSt α) Unit
  | .op k => onOp k (Operator.applyAdd (ops k) (junk k) inv outv)
  | .comp l => addL ops junk inv outv l
/-- The loop of lines 2224-2226. -/
def addL (ops : Nat → Oper α) (junk : Nat → Nat → Nat → α) (inv outv : VPtr) : List Tree → M (CSt α) Unit
  | [] => pure ()
  | t :: l => do
    addT ops junk inv outv t
    addL ops junk inv outv l
end

/-- Lines 2153-2160, one output field of a sub-operator. -/
def zeroPassive (op : Oper α) (o : Nat) : M (CSt α) Unit :=
  match (op.out o).vec with
  | .vec i => zeroC (.vec i)
  | .active => pure ()
  | .none => pure ()

/-- Lines 2148-2161: the passive outputs of one sub-operator; `CeedOperatorGetFields` refuses composites (lines 1024-1029). -/
def zeroSub (ops : Nat → Oper α) : Tree → M (CSt α) Unit
  | .op k => M.loop (ops k).nout (zeroPassive (ops k))
  | .comp _ => M.fail .minor

/-- Lines 2147-2162: the passive outputs of all sub-operators. -/
def zeroSubs (ops : Nat → Oper α) : List Tree → M (CSt α) Unit
  | [] => pure ()
  | t :: l => do
    zeroSub ops t
    zeroSubs ops l

/-- `interface/ceed-operator.c` 2130-2192 `CeedOperatorApply`, on operators that are ready. -/
def applyT (ops : Nat → Oper α) (junk : Nat → Nat → Nat → α) (inv outv : VPtr) : Tree → M (CSt α) Unit
  | .op k => onOp k (Operator.apply (ops k) (junk k) inv outv)
  | .comp l => do
    zeroC outv
    zeroSubs ops l
    addL ops junk inv outv l

end Composite
end Verif
