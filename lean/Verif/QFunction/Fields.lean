import Verif.State

/-!
# QFunctions: fields

The field tables of a QFunction and the calls that change or read them. The user function, the context and the name of
the source are not part of this model: reference counts are in `Verif/RefCount`, contexts in `Verif/Context`.
-/

namespace Verif.QFunction

/-- `CeedEvalMode`: `include/ceed/types.h`. -/
inductive EvalMode
  | none | interp | grad | div | curl | weight
deriving DecidableEq, Repr

/-- `CeedQFunctionField_private`: `include/ceed-impl.h` 239-243. -/
structure Field where
  name : List Char
  size : Int
  mode : EvalMode
deriving DecidableEq, Repr

/-- `CEED_FIELD_MAX`: `include/ceed/ceed.h`. -/
def fieldMax : Nat := 16

/-- The field tables, each with room for `fieldMax` entries; the lists hold the entries in use
(`num_input_fields`, `num_output_fields`). `include/ceed-impl.h` 245-269. -/
structure QFunc where
  vecLength : Int
  inputs : List Field
  outputs : List Field
  immutable : Bool
deriving DecidableEq, Repr

/-- `CeedQFunctionCreateInterior`: `interface/ceed-qfunction.c` 641-661. -/
def QFunc.create (vecLength : Int) : QFunc := ⟨vecLength, [], [], false⟩

/-- Reading the QFunction. -/
def getQ : M QFunc QFunc := fun q => .ok q q

/-- Writing the QFunction. -/
def putQ (q : QFunc) : M QFunc Unit := fun _ => .ok q ()

/-- The uniqueness loop over one table: `interface/ceed-qfunction.c` 784-787, 788-791. -/
def checkNames (name : List Char) : List Field → M QFunc Unit
  | [] => pure ()
  | f :: t => do
    M.check (name ≠ f.name) .minor
    checkNames name t

/-- `CeedQFunctionAddInput`: `interface/ceed-qfunction.c` 778-795; `CeedQFunctionFieldSet` writes to row
`num_input_fields` of the table. -/
def addInput (name : List Char) (size : Int) (mode : EvalMode) : M QFunc Unit := do
  let q ← getQ
  M.check (¬ q.immutable = true) .major
  M.check (mode ≠ .weight ∨ size = 1) .dimension
  checkNames name q.inputs
  checkNames name q.outputs
  if q.inputs.length < fieldMax then putQ { q with inputs := q.inputs ++ [⟨name, size, mode⟩] } else M.undef

/-- `CeedQFunctionAddOutput`: `interface/ceed-qfunction.c` 813-831. -/
def addOutput (name : List Char) (size : Int) (mode : EvalMode) : M QFunc Unit := do
  let q ← getQ
  M.check (¬ q.immutable = true) .major
  M.check (mode ≠ .weight) .dimension
  checkNames name q.inputs
  checkNames name q.outputs
  if q.outputs.length < fieldMax then putQ { q with outputs := q.outputs ++ [⟨name, size, mode⟩] } else M.undef

/-- `CeedQFunctionGetFields`: `interface/ceed-qfunction.c` 848-856. -/
def getFields : M QFunc (List Field × List Field) := do
  let q ← getQ
  putQ { q with immutable := true }
  pure (q.inputs, q.outputs)

/-- `CeedQFunctionApply`: `interface/ceed-qfunction.c` 1048-1058; `run` is the result of the backend's `Apply`, which
reads the tables only. The remainder by zero is undefined. -/
def apply (run : QFunc → Res Unit) (Q : Int) : M QFunc Unit := do
  let q ← getQ
  if q.vecLength = 0 then M.undef
  else do
    M.check (Int.tmod Q q.vecLength = 0) .dimension
    putQ { q with immutable := true }
    M.lift (run q)

end Verif.QFunction
