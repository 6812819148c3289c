import Verif.Context.Props

/-!
# Operators: fields of QFunction contexts

Models `CeedOperatorGetContextFieldLabel`, `CeedOperatorSetContext*`, `CeedOperatorGetContext*Read` and
`CeedOperatorRestoreContext*Read` (`interface/ceed-operator.c` 347-560, 1834-2112) on any number of operators, QFunctions
and contexts. Contexts are the ones of `Verif/Context/Model.lean`; arrays of different contexts do not overlap. Objects
are addressed by numbers; reference counts (`Verif/RefCount`) and Fortran contexts are left out.
-/

namespace Verif
namespace Labels

open Context (World Ctx Label FieldType)

/-- A `CeedContextFieldLabel`: entry `j` of the table of context `c`, or the `k`-th label made for a composite operator. -/
inductive LPtr
  | field (c j : Nat)
  | group (k : Nat)
deriving DecidableEq, Repr

/-- `struct CeedContextFieldLabel_private` (`include/ceed-impl.h` 307-317) as made for composite operators: `size` and
`offset` stay zero, `num_sub_labels` is the length of `subs`. A sub-label is an entry of the table of a context. -/
structure Group where
  name : String
  type : FieldType
  numValues : Nat
  subs : List (Option (Nat × Nat))
deriving DecidableEq, Repr

/-- The parts of `CeedOperator_private` (`include/ceed-impl.h` 347-391) that matter here: `is_composite`, `qf` (null for
composites), `sub_operators`, `context_labels` with the length of the allocation, and the flag kept with
`qf_assembled`. -/
structure LOp where
  comp : Bool
  qf : Option Nat
  subs : List Nat
  labels : List LPtr
  maxLabels : Nat
  update : Bool
deriving DecidableEq, Repr

/-- All objects. `fromOp` is the flag `from_op` of labels. -/
structure St (β : Type) where
  ctxs : Nat → World β
  qctx : Nat → Option Nat
  ops : Nat → LOp
  groups : List Group
  fromOp : LPtr → Bool

section
variable {β : Type}

/-- Read the objects. -/
def getS : M (St β) (St β) := fun s => .ok s s

/-- A call on one context. -/
def onCtx {γ : Type} (c : Nat) (m : M (World β) γ) : M (St β) γ := fun s =>
  match m (s.ctxs c) with
  | .ok w a => .ok { s with ctxs := Function.update s.ctxs c w } a
  | .err w e => .err { s with ctxs := Function.update s.ctxs c w } e
  | .ub => .ub

/-- Change an operator. -/
def modOp (o : Nat) (f : LOp → LOp) : M (St β) Unit := fun s =>
  .ok { s with ops := Function.update s.ops o (f (s.ops o)) } ()

/-- `interface/ceed-qfunctioncontext.c` 256-267 `CeedQFunctionContextGetFieldLabel`, with 36-42: the entry of the table
and the label stored there. A destroyed context is undefined. -/
def findField (c : Nat) (name : String) : M (St β) (Option (Nat × Label)) := fun s =>
  match (s.ctxs c).ctx with
  | none => .ub
  | some x =>
    if Context.fieldIndex x.labels name x.labels.length = -1 then .ok s none
    else
      match x.labels[(Context.fieldIndex x.labels name x.labels.length).toNat]? with
      | some l => .ok s (some ((Context.fieldIndex x.labels name x.labels.length).toNat, l))
      | none => .ub

/-- Read entry `j` of the table of context `c`; undefined when the context was destroyed. -/
def deref (c j : Nat) : M (St β) Label := fun s =>
  match (s.ctxs c).ctx with
  | none => .ub
  | some x =>
    match x.labels[j]? with
    | some l => .ok s l
    | none => .ub

/-- The contents of a label. -/
def readLabel : LPtr → M (St β) Label
  | .field c j => deref c j
  | .group k => fun s =>
    match s.groups[k]? with
    | some g => .ok s ⟨g.name, "", g.type, 0, g.numValues, 0⟩
    | none => .ub

/-- `num_sub_labels` of a label. -/
def numSub : LPtr → M (St β) Nat
  | .field _ _ => pure 0
  | .group k => fun s =>
    match s.groups[k]? with
    | some g => .ok s g.subs.length
    | none => .ub

/-- `sub_labels` of a label. -/
def subLabels : LPtr → M (St β) (List (Option (Nat × Nat)))
  | .field _ _ => pure []
  | .group k => fun s =>
    match s.groups[k]? with
    | some g => .ok s g.subs
    | none => .ub

/-- `interface/ceed-operator.c` 1834-1847 `CeedOperatorGetContext`. -/
def getContext (o : Nat) : M (St β) (Option Nat) := do
  let s ← getS
  M.check ((s.ops o).comp = false) .incompatible
  match (s.ops o).qf with
  | none => M.undef
  | some q => pure (s.qctx q)

/-- `interface/ceed-operator.c` 1869-1874: the first label of the operator with the name. -/
def scan (name : String) : List LPtr → M (St β) (Option LPtr)
  | [] => pure none
  | p :: t => do
    let l ← readLabel p
    if l.name = name then pure (some p) else scan name t

/-- Lines 1896-1916 for a field found in a context: compare with the label under construction (`none` before the first
field was found). After a mismatch the label is freed, its pointer set to null (`interface/ceed.c` 328-332), and the error
message reads through it: undefined. -/
def joinGroup (g : Option Group) (l : Label) : M (St β) Group :=
  match g with
  | none => pure ⟨l.name, l.type, l.numValues, []⟩
  | some g =>
    if g.type ≠ l.type then M.undef
    else if g.numValues ≠ 0 ∧ g.numValues ≠ l.numValues then M.undef
    else pure ⟨l.name, l.type, l.numValues, g.subs⟩

/-- Lines 1887-1919: the loop over the sub-operators. `acc` are the sub-labels so far, `g` the label if a field was
found. `sub_operators[i]->qf->ctx` with the null QFunction of a composite is undefined. -/
def build (name : String) : List Nat → List (Option (Nat × Nat)) → Option Group →
    M (St β) (List (Option (Nat × Nat)) × Option Group)
  | [], acc, g => pure (acc, g)
  | o :: t, acc, g => do
    let s ← getS
    match (s.ops o).qf with
    | none => M.undef
    | some q =>
      match s.qctx q with
      | none => build name t (acc ++ [none]) g
      | some c => do
        let f ← findField c name
        match f with
        | none => build name t (acc ++ [none]) g
        | some (j, l) => do
          let g' ← joinGroup g l
          build name t (acc ++ [some (c, j)]) (some g')

/-- A new label. -/
def pushGroup (g : Group) : M (St β) LPtr := fun s =>
  .ok { s with groups := s.groups ++ [g] } (.group s.groups.length)

/-- Line 1944: set `from_op`. -/
def flag (p : LPtr) : M (St β) Unit := fun s => .ok { s with fromOp := Function.update s.fromOp p true } ()

/-- Lines 1943-1959: record the label in the operator. -/
def record (o : Nat) (p : LPtr) : M (St β) Unit := do
  flag p
  let s ← getS
  let n := (s.ops o).labels.length
  let m := if n = 0 then 1 else if n = (s.ops o).maxLabels then 2 * n else (s.ops o).maxLabels
  if n < m then modOp o fun x => { x with labels := x.labels ++ [p], maxLabels := m }
  else M.undef

/-- Lines 1876-1929: make a label for a composite operator; `none` when no sub-operator has the field. -/
def makeGroup (o : Nat) (name : String) : M (St β) (Option LPtr) := do
  let s ← getS
  let r ← build name (s.ops o).subs [] none
  match r.2 with
  | none => pure none
  | some g => do
    let p ← pushGroup { g with subs := r.1 }
    record o p
    pure (some p)

/-- Lines 1931-1960 for an operator without sub-operators. -/
def ownLabel (o : Nat) (name : String) : M (St β) (Option LPtr) := do
  let x ← getContext o
  match x with
  | none => pure none
  | some c => do
    let f ← findField c name
    match f with
    | none => pure none
    | some (j, _) => do
      record o (.field c j)
      pure (some (.field c j))

/-- `interface/ceed-operator.c` 1862-1961 `CeedOperatorGetContextFieldLabel`; `none` is the null label. -/
def getLabel (o : Nat) (name : String) : M (St β) (Option LPtr) := do
  let s ← getS
  if (s.ops o).comp = true then do
    let f ← scan name (s.ops o).labels
    match f with
    | some p => pure (some p)
    | none => makeGroup o name
  else ownLabel o name

/-- Lines 362-373, 427-442, 489-500: null labels and labels of other operators are refused. -/
def corresponds (o : Nat) (p : Option LPtr) : M (St β) LPtr := do
  let s ← getS
  match p with
  | none => M.fail .unsupported
  | some p => do
    M.check (s.fromOp p = true → p ∈ (s.ops o).labels) .unsupported
    pure p

/-- Lines 384-393: the loop over the sub-operators. -/
def setSubs [DecidableEq β] (type : FieldType) (values : Buf β) : List Nat → List (Option (Nat × Nat)) → M (St β) Unit
  | [], _ => pure ()
  | _ :: _, [] => M.undef
  | o :: t, f :: u => do
    let x ← getContext o
    match x, f with
    | some c, some (c', j) => do
      let l ← deref c' j
      onCtx c (Context.setField l type values)
      setSubs type values t u
    | _, _ => setSubs type values t u

/-- Lines 1511-1532 `CeedOperatorSetQFunctionAssemblyDataUpdateNeeded(op, true)` for the operators in the list, which have
no sub-operators where this is called (the loop before has refused composites). -/
def markSubs : List Nat → M (St β) Unit
  | [] => pure ()
  | o :: t => do
    modOp o fun x => { x with update := true }
    markSubs t

/-- `interface/ceed-operator.c` 359-404 `CeedOperatorContextSetGeneric`. -/
def setLabel [DecidableEq β] (o : Nat) (p : Option LPtr) (type : FieldType) (values : Buf β) : M (St β) Unit := do
  let p ← corresponds o p
  let s ← getS
  if (s.ops o).comp = true then do
    let n ← numSub p
    M.check ((s.ops o).subs.length = n) .unsupported
    let u ← subLabels p
    setSubs type values (s.ops o).subs u
    markSubs (s.ops o).subs
  else do
    let x ← getContext o
    match x with
    | none => M.fail .unsupported
    | some c => do
      let l ← readLabel p
      onCtx c (Context.setField l type values)
      markSubs [o]

/-- Lines 451-462 and 510-521: the first sub-operator with the field. -/
def firstSub {γ : Type} (act : Label → M (World β) γ) : List Nat → List (Option (Nat × Nat)) → M (St β) (Option γ)
  | [], _ => pure none
  | _ :: _, [] => M.undef
  | o :: t, f :: u => do
    let x ← getContext o
    match x, f with
    | some c, some (c', j) => do
      let l ← deref c' j
      let a ← onCtx c (act l)
      pure (some a)
    | _, _ => firstSub act t u

/-- The common form of `CeedOperatorContextGetGenericRead` and `CeedOperatorContextRestoreGenericRead`:
`interface/ceed-operator.c` 422-472, 487-531. -/
def withLabel {γ : Type} (o : Nat) (p : Option LPtr) (act : Label → M (World β) γ) : M (St β) (Option γ) := do
  let p ← corresponds o p
  let s ← getS
  if (s.ops o).comp = true then do
    let n ← numSub p
    M.check ((s.ops o).subs.length = n) .unsupported
    let u ← subLabels p
    firstSub act (s.ops o).subs u
  else do
    let x ← getContext o
    match x with
    | none => M.fail .unsupported
    | some c => do
      let l ← readLabel p
      let a ← onCtx c (act l)
      pure (some a)

/-- `interface/ceed-operator.c` 422-472 `CeedOperatorContextGetGenericRead`; `none` is a null pointer with zero values. -/
def getRead (o : Nat) (p : Option LPtr) (type : FieldType) : M (St β) (Option (Nat × Option Nat × Nat)) :=
  withLabel o p fun l => Context.getField l type

/-- `interface/ceed-operator.c` 487-531 `CeedOperatorContextRestoreGenericRead`. -/
def restoreRead (o : Nat) (p : Option LPtr) (type : FieldType) : M (St β) (Option Unit) :=
  withLabel o p fun l => Context.restoreField l type

/-- `CeedCompositeOperatorAddSub`: `interface/ceed-operator.c` 1266-1295. `fits` is the outcome of the comparison of the
lengths of the active vectors (`Verif/Composite/Lengths.lean`). `CEED_COMPOSITE_MAX` is 16. -/
def addSub (c o : Nat) (fits : Bool) : M (St β) Unit := do
  let s ← getS
  M.check ((s.ops c).comp = true) .minor
  M.check ((s.ops c).subs.length < 16) .unsupported
  M.check (fits = true) .major
  modOp c fun x => { x with subs := x.subs ++ [o] }

/-- `interface/ceed-qfunction.c` 934-939 `CeedQFunctionSetContext`. -/
def setContext (q : Nat) (c : Option Nat) : M (St β) Unit := fun s =>
  .ok { s with qctx := Function.update s.qctx q c } ()

end

end Labels
end Verif
