import Verif.Operator.Model
import Verif.QFunction.Fields

/-!
# Operators: setting fields and the readiness check

Models `CeedOperatorCreate`, `CeedOperatorSetField`, `CeedOperatorCheckField` and `CeedOperatorCheckReady`
(`interface/ceed-operator.c`) for operators that are neither composite nor at points. Restrictions are numbered objects
`rs`; reference counts are in `Verif/RefCount`.
-/

namespace Verif
namespace Operator

open Restriction (Rstr)
open Basis (Bas EMode)

variable {α : Type _}

/-- Evaluation modes of QFunction fields and of bases are the same `CeedEvalMode`. -/
def emode : QFunction.EvalMode → EMode
  | .none => .none
  | .interp => .interp
  | .grad => .grad
  | .div => .div
  | .curl => .curl
  | .weight => .weight

/-- A pointer argument: `NULL`, the object `..._NONE`, or an object. -/
inductive Arg (β : Type _)
  | null | none | obj (b : β)

/-- The object, if it is one. -/
def Arg.opt {β : Type _} : Arg β → Option β
  | .obj b => some b
  | _ => Option.none

/-- Contents of a `CeedOperatorField` (`include/ceed-impl.h` 319-324). -/
structure FVal (α : Type _) where
  name : List Char
  vec : FVec
  rid : Option Nat
  basis : Option (Bas α)

/-- An entry of a field table: null, allocated but not filled in, or filled in. -/
inductive Slot (α : Type _)
  | empty | half | set (v : FVal α)

/-- The parts of `struct CeedOperator_private` (`include/ceed-impl.h` 347-393) that describe fields: the QFunction (a
shared object), the field tables, `input_size`, `output_size`, `num_elem`, `num_qpts`, `num_fields`, `has_restriction`,
`is_interface_setup`, `is_immutable`. -/
structure OpI (α : Type _) where
  qf : QFunction.QFunc
  inF : Nat → Slot α
  outF : Nat → Slot α
  inSize : Int
  outSize : Int
  ne : Int
  Q : Nat
  nf : Nat
  hasR : Bool
  ready : Bool
  immutable : Bool

/-- `interface/ceed-operator.c` 753-778 `CeedOperatorCreate`: all fields zero, sizes `-1`. -/
def OpI.create (qf : QFunction.QFunc) : OpI α :=
  ⟨qf, fun _ => .empty, fun _ => .empty, -1, -1, 0, 0, 0, false, false, false⟩

/-- Read the operator. -/
def getO : M (OpI α) (OpI α) := fun s => .ok s s
/-- Change the operator. -/
def modO (g : OpI α → OpI α) : M (OpI α) Unit := fun s => .ok (g s) ()

/-- `CeedElemRestrictionGetNumElements`; zero for `CEED_ELEMRESTRICTION_NONE`. -/
def argNe (rs : Nat → Rstr) : Arg Nat → Int
  | .obj r => (rs r).numElem
  | _ => 0

/-- `CeedElemRestrictionGetNumComponents` with the initial value of lines 38 and 46-50. -/
def argNc (rs : Nat → Rstr) : Arg Nat → Nat
  | .obj r => (rs r).numComp
  | _ => 1

/-- `CeedElemRestrictionGetLVectorSize`. -/
def argLen (rs : Nat → Rstr) : Arg Nat → Int
  | .obj r => (rs r).lSize
  | _ => 0

/-- Type `CEED_RESTRICTION_POINTS`. -/
def argPts (rs : Nat → Rstr) : Arg Nat → Bool
  | .obj r => decide ((rs r).rtype = .points)
  | _ => false

/-- Number of quadrature points of a field: `interface/ceed-operator.c` 943-944. -/
def argQ (rs : Nat → Rstr) : Arg Nat → Arg (Bas α) → Nat
  | _, .obj b => b.Q
  | .obj r, _ => (rs r).elemSize
  | _, _ => 0

/-- The restriction or basis given is `..._NONE`. -/
def Arg.isNone {β : Type _} : Arg β → Bool
  | .none => true
  | _ => false

/-- The argument is not `NULL`. -/
def Arg.ok {β : Type _} : Arg β → Bool
  | .null => false
  | _ => true

/-- Lines 54-62: components of basis and restriction. -/
def checkComps (rs : Nat → Rstr) (r : Arg Nat) (b : Arg (Bas α)) : M (OpI α) Unit :=
  match b with
  | .obj b => M.check (r.isNone = true ∨ argNc rs r = b.nc) .dimension
  | _ => pure ()

/-- Number of components of the values of a basis (line 75). -/
def argSize (m : QFunction.EvalMode) : Arg (Bas α) → Nat
  | .obj b => b.nc * b.qComp (emode m)
  | _ => 1

/-- `interface/ceed-operator.c` 36-82 `CeedOperatorCheckField`. -/
def checkField (rs : Nat → Rstr) (f : QFunction.Field) (r : Arg Nat) (b : Arg (Bas α)) : M (OpI α) Unit := do
  M.check (r.isNone = decide (f.mode = .weight)) .incompatible
  M.check (b.isNone = decide (f.mode = .none)) .incompatible
  checkComps rs r b
  if f.mode = .none then M.check (f.size = argNc rs r) .dimension
  else if f.mode = .weight then pure ()
  else M.check (f.size = argSize f.mode b) .dimension

/-- Search of a field by name in one table (lines 954-962 and 964-972). -/
def findName (name : List Char) : List QFunction.Field → Nat → Option (Nat × QFunction.Field)
  | [], _ => Option.none
  | f :: t, i => if name = f.name then some (i, f) else findName name t (i + 1)

/-- Store an entry of the input or output table. -/
def putSlot (isIn : Bool) (i : Nat) (v : Slot α) : M (OpI α) Unit :=
  modO (fun s => if isIn then { s with inF := Function.update s.inF i v } else { s with outF := Function.update s.outF i v })

/-- Lines 981-994: length of the active vector. -/
def activeLen (isIn : Bool) (n : Int) : M (OpI α) Unit := do
  let s ← getO
  if isIn then do
    modO (fun s => if s.inSize = -1 then { s with inSize := n } else s)
    M.check (s.inSize = -1 ∨ n = s.inSize) .incompatible
  else do
    modO (fun s => if s.outSize = -1 then { s with outSize := n } else s)
    M.check (s.outSize = -1 ∨ n = s.outSize) .incompatible

/-- Lines 977-1006: the field has been found. -/
def fillField (rs : Nat → Rstr) (name : List Char) (isIn : Bool) (i : Nat) (f : QFunction.Field) (r : Arg Nat)
    (b : Arg (Bas α)) (v : FVec) : M (OpI α) Unit := do
  checkField rs f r b
  putSlot isIn i .half
  (if v = .active then activeLen isIn (argLen rs r) else pure ())
  putSlot isIn i (.set ⟨name, v, r.opt, b.opt⟩)
  modO (fun s => if r.isNone = false ∧ s.hasR = false then { s with ne := argNe rs r, hasR := true } else s)
  modO (fun s => if s.Q = 0 then { s with Q := argQ rs r b } else s)
  modO (fun s => { s with nf := s.nf + 1 })

/-- Lines 951-976: search in the inputs, then in the outputs. `CeedQFunctionGetFields` makes the QFunction immutable. -/
def locate (name : List Char) (q : QFunction.QFunc) : Option (Bool × Nat × QFunction.Field) :=
  match findName name q.inputs 0 with
  | some (i, f) => some (true, i, f)
  | .none =>
    match findName name q.outputs 0 with
    | some (i, f) => some (false, i, f)
    | .none => .none

/-- `interface/ceed-operator.c` 903-1007 `CeedOperatorSetField` on an operator that is neither composite nor at points. A
`NULL` vector is `none`. -/
def setField (rs : Nat → Rstr) (name : List Char) (r : Arg Nat) (b : Arg (Bas α)) (v : Option FVec) :
    M (OpI α) Unit := do
  let s ← getO
  M.check (s.immutable = false) .major
  M.check (r.ok = true) .incompatible
  M.check (b.ok = true) .incompatible
  M.check (v ≠ Option.none) .incompatible
  M.check (r.isNone = true ∨ s.hasR = false ∨ argNe rs r = s.ne) .dimension
  M.check (argPts rs r = false) .unsupported
  M.check (s.Q = 0 ∨ argQ rs r b = s.Q) .dimension
  modO (fun s => { s with qf := { s.qf with immutable := true } })
  match locate name s.qf with
  | some (isIn, i, f) => fillField rs name isIn i f r b (v.getD .none)
  | .none => M.fail .incomplete

/-- `interface/ceed-operator.c` 1377-1425 `CeedOperatorCheckReady` on an operator that is neither composite nor at points.
The flag `is_immutable` is not set. -/
def checkReady : M (OpI α) Unit := do
  let s ← getO
  if s.ready = true then pure () else do
    M.check (0 < s.nf) .incomplete
    modO (fun s => { s with qf := { s.qf with immutable := true } })
    M.check (s.nf = s.qf.inputs.length + s.qf.outputs.length) .incomplete
    M.check (s.hasR = true) .incomplete
    M.check (0 < s.Q) .incomplete
    modO (fun s => { s with ready := true })

/-- The operator that the backend sees: fields with their QFunction data. `isId` and `f` are flag and user function of the
QFunction. -/
def OpI.oper [CommRing α] (s : OpI α) (rs : Nat → Rstr) (isId : Bool) (f : (Nat → Nat → α) → Nat → Nat → α) : Oper α where
  ne := s.ne.toNat
  Q := s.Q
  nin := s.qf.inputs.length
  nout := s.qf.outputs.length
  inp := fun i => match s.inF i, s.qf.inputs[i]? with
    | .set v, some g => ⟨v.vec, v.rid, v.basis, emode g.mode, g.size.toNat⟩
    | _, _ => ⟨.none, Option.none, Option.none, .none, 0⟩
  out := fun o => match s.outF o, s.qf.outputs[o]? with
    | .set v, some g => ⟨v.vec, v.rid, v.basis, emode g.mode, g.size.toNat⟩
    | _, _ => ⟨.none, Option.none, Option.none, .none, 0⟩
  rstrs := rs
  isId := isId
  f := f

end Operator
end Verif
