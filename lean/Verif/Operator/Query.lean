import Verif.State

/-!
# Questions about the fields of an operator

`CeedOperatorGetActiveBases`, `CeedOperatorGetActiveElemRestrictions`, `CeedOperatorHasTensorBases`,
`CeedOperatorGetFieldByName`, `CeedCompositeOperatorGetSubByName`. Bases, restrictions and QFunctions are counted
references; objects are numbered, `0` stands for `CEED_BASIS_NONE` and `CEED_ELEMRESTRICTION_NONE`, which are not
counted. The state is the reference count of every object and the flag `is_interface_setup` of the operator. An object
of a field is kept alive by the field, so counts never reach zero in these calls and freeing is not modelled (C10 covers
it).
-/

namespace Verif
namespace Query

/-- `struct CeedOperatorField_private` (`include/ceed-impl.h`): name, whether the vector is `CEED_VECTOR_ACTIVE`, basis,
restriction. -/
structure Fld where
  name : String
  active : Bool
  basis : Nat
  rstr : Nat

/-- The parts of `struct CeedOperator_private` these functions read. `nin`, `nout` are the numbers of fields of the
QFunction, `numSet` the number of fields set on the operator (`num_fields`). -/
structure Op where
  composite : Bool
  atPoints : Bool
  nin : Nat
  nout : Nat
  inp : Nat → Fld
  out : Nat → Fld
  numSet : Nat
  hasRstr : Bool
  numQpts : Nat
  qf : Nat
  nsub : Nat
  subName : Nat → Option String

/-- Reference counts and `is_interface_setup`. -/
structure St where
  cnt : Nat → Int
  setup : Bool

/-- `CeedBasisReferenceCopy` (`interface/ceed-basis.c` 1838-1843), `CeedElemRestrictionReferenceCopy`
(`interface/ceed-elemrestriction.c` 1251-1256) to a null pointer; `CeedQFunctionReferenceCopy` likewise. -/
def take (o : Nat) : M St Unit := fun s => .ok { s with cnt := fun x => s.cnt x + if x = o ∧ o ≠ 0 then 1 else 0 } ()

/-- `CeedBasisDestroy` (`interface/ceed-basis.c` 2355-2359), `CeedElemRestrictionDestroy`
(`interface/ceed-elemrestriction.c` 1772-1776) of a reference that is not the last. -/
def drop (o : Nat) : M St Unit := fun s => .ok { s with cnt := fun x => s.cnt x - if x = o ∧ o ≠ 0 then 1 else 0 } ()

/-- `interface/ceed-operator.c` 1377-1425 `CeedOperatorCheckReady` on an operator that is not composite. Making the
QFunctions immutable (1420-1423) is not modelled here. -/
def checkReady (P : Op) : M St Unit := fun s =>
  if s.setup then .ok s () else
    (do
      take P.qf
      M.check (0 < P.numSet) .incomplete
      M.check (P.numSet = P.nin + P.nout) .incomplete
      M.check (P.hasRstr = true) .incomplete
      M.check (0 < P.numQpts ∨ P.atPoints = true) .incomplete
      (fun s => .ok { s with setup := true } ())
      drop P.qf : M St Unit) s

/-- `interface/ceed-operator.c` 1024-1039 `CeedOperatorGetFields`; the fields are those of `P`. -/
def getFields (P : Op) : M St Unit := do
  M.check (P.composite = false) .minor
  checkReady P
  take P.qf
  drop P.qf

/-- Lines 219-232 and 239-252 of `interface/ceed-operator.c` (bases), 301-314 and 321-334 (restrictions): the loop over
the first `n` fields; `none` is the null pointer the variable is set to before. Reference and return of the vector of the
field (active vectors are not counted, for others the calls cancel) are left out. -/
def scan (sel : Fld → Nat) (f : Nat → Fld) : Nat → M St (Option Nat)
  | 0 => pure none
  | n + 1 => do
    let acc ← scan sel f n
    if (f n).active then do
      take (sel (f n))
      M.check (acc = none ∨ acc = some (sel (f n))) .minor
      if acc = none then take (sel (f n)) else pure ()
      drop (sel (f n))
      pure (some (sel (f n)))
    else pure acc

/-- One side of the functions below: scan, then complain if nothing was found (lines 233, 253, 315, 335). -/
def findActive (sel : Fld → Nat) (f : Nat → Fld) (n : Nat) : M St (Option Nat) := do
  let acc ← scan sel f n
  M.check (acc ≠ none) .incomplete
  pure acc

/-- `interface/ceed-operator.c` 208-257 `CeedOperatorGetActiveBases` (`sel = Fld.basis`) and 290-339
`CeedOperatorGetActiveElemRestrictions` (`sel = Fld.rstr`); `wi`, `wo` say which of the two pointers are not null. For a
composite operator `getFields` fails, so that the test for it in the C code is never reached. -/
def getActive (sel : Fld → Nat) (P : Op) (wi wo : Bool) : M St (Option Nat × Option Nat) := do
  getFields P
  let a ← if wi then findActive sel P.inp P.nin else pure none
  let b ← if wo then findActive sel P.out P.nout else pure none
  pure (a, b)

/-- The loops of lines 582-603: `tensor b` is `is_tensor_basis` of basis `b`. -/
def allTensor (tensor : Nat → Bool) (f : Nat → Fld) : Nat → Bool → M St Bool
  | 0, c => pure c
  | n + 1, c => do
    let c ← allTensor tensor f n c
    take (f n).basis
    let c := if (f n).basis ≠ 0 then c && tensor (f n).basis else c
    drop (f n).basis
    pure c

/-- `interface/ceed-operator.c` 576-605 `CeedOperatorHasTensorBases`. -/
def hasTensorBases (tensor : Nat → Bool) (P : Op) : M St Bool := do
  getFields P
  let c ← allTensor tensor P.inp P.nin true
  allTensor tensor P.out P.nout c

/-- First index below `n`, from `i` on, with `p`. -/
def findFrom (p : Nat → Bool) (i : Nat) : Nat → Option Nat
  | 0 => none
  | n + 1 => if p i then some i else findFrom p (i + 1) n

/-- `interface/ceed-operator.c` 1138-1160 `CeedOperatorGetFieldByName`: `inl i` is input `i`, `inr i` output `i`, `none`
the null pointer. -/
def getFieldByName (P : Op) (nm : String) : M St (Option (Nat ⊕ Nat)) := do
  getFields P
  match findFrom (fun i => (P.inp i).name == nm) 0 P.nin with
  | some i => pure (some (.inl i))
  | none =>
    match findFrom (fun i => (P.out i).name == nm) 0 P.nout with
    | some i => pure (some (.inr i))
    | none => pure none

/-- `interface/ceed-operator.c` 1349-1366 `CeedCompositeOperatorGetSubByName`. -/
def getSubByName (P : Op) (nm : String) : M St (Option Nat) := do
  M.check (P.composite = true) .minor
  pure (findFrom (fun i => P.subName i == some nm) 0 P.nsub)

/-! ## Specification -/

/-- The operator passes the checks of its setup. -/
def Complete (P : Op) : Prop :=
  0 < P.numSet ∧ P.numSet = P.nin + P.nout ∧ P.hasRstr = true ∧ (0 < P.numQpts ∨ P.atPoints = true)

/-- `o` is the object of all active fields among the first `n`, and there is one. -/
def Common (sel : Fld → Nat) (f : Nat → Fld) (n o : Nat) : Prop :=
  (∃ i < n, (f i).active = true) ∧ ∀ i < n, (f i).active = true → sel (f i) = o

/-- One reference to `o`. -/
def oneRef (o : Option Nat) (x : Nat) : Int := if o = some x ∧ x ≠ 0 then 1 else 0

end Query
end Verif
