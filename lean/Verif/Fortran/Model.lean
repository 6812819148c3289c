import Verif.Basic

/-!
# The Fortran interface: handles

Models `interface/ceed-fortran.c`. Fortran programs hold integers that index a table of pointers. There is one table for each
kind of object (`Ceed`, `CeedVector`, `CeedElemRestriction`, `CeedBasis`, `CeedQFunctionContext`, `CeedQFunction`,
`CeedOperator`), all handled by the same code. The functions of the C interface that are called in between are parameters:
what matters of them here is whether they succeed and what they store through the pointer they are given.
-/

namespace Verif
namespace Fortran

variable {O : Type}

/-- A pointer in a table: not initialized, null, or an object. -/
inductive Slot (O : Type) where
  | junk
  | null
  | obj (o : O)
  deriving DecidableEq

/-- `CeedVector_dict`, `CeedVector_count`, `CeedVector_n`, `CeedVector_count_max` (lines 110-113), and the same for the other
kinds. -/
structure Tbl (O : Type) where
  slots : Buf (Slot O)
  count : Nat
  n : Int
  max : Nat

/-- The initial values, and those after `CeedFree` of the table (lines 206-208). -/
def Tbl.empty : Tbl O := ⟨⟨0, fun _ => .junk⟩, 0, 0, 0⟩

/-- `CeedRealloc(count_max, &dict)`: the new entries are not initialized. -/
def Tbl.realloc (T : Tbl O) (m : Nat) : Tbl O :=
  { T with slots := ⟨m, fun i => if i < T.slots.len then T.slots.val i else .junk⟩, max := m }

/-- Lines 117-120: make room for one entry. -/
def Tbl.grow (T : Tbl O) : Tbl O := if T.count = T.max then T.realloc (T.max + (T.max / 2 + 1)) else T

/-- Outcome of a creation function of the C interface: success with an object, or failure with whatever it left in the pointer
(`none`: nothing). -/
inductive Call (O : Type) where
  | ok (o : O)
  | fail (left : Option (Slot O))

/-- Lines 116-129 `fCeedVectorCreate`, and the other creation functions: the new table and the handle, if there is one. -/
def Tbl.create (T : Tbl O) (c : Call O) : Res (Tbl O × Option Int) :=
  let T := T.grow
  match c with
  | .ok o => do
    let s ← T.slots.wr T.count (.obj o)
    .ok ({ T with slots := s, count := T.count + 1, n := T.n + 1 }, some T.count)
  | .fail none => .ok (T, none)
  | .fail (some x) => do
    let s ← T.slots.wr T.count x
    .ok ({ T with slots := s }, none)

/-- Lines 1106-1108: `while (count + 2 >= count_max) count_max += count_max / 2 + 1`. -/
def growMax (c m : Nat) : Nat := if c + 2 < m then m else growMax c (m + (m / 2 + 1))
termination_by c + 3 - m

/-- Lines 1096-1117 `fCeedOperatorMultigridLevelCreate` (and 1120-1141, 1144-1165) after success of the C function: three
entries. -/
def Tbl.create3 (T : Tbl O) (a b c : O) : Res (Tbl O × Int × Int × Int) := do
  let T := T.realloc (growMax T.count T.max)
  let s ← T.slots.wr T.count (.obj a)
  let s ← s.wr (T.count + 1) (.obj b)
  let s ← s.wr (T.count + 2) (.obj c)
  .ok ({ T with slots := s, count := T.count + 3, n := T.n + 3 }, T.count, T.count + 1, T.count + 2)

/-- `FORTRAN_NULL`, `FORTRAN_VECTOR_ACTIVE`, `FORTRAN_VECTOR_NONE`, `FORTRAN_ELEMRESTRICTION_NONE`, `FORTRAN_BASIS_NONE` (lines
20-25). -/
def fnull : Int := -3
def factive : Int := -5
def fnone : Int := -6
def frstrNone : Int := -7
def fbasisNone : Int := -8

/-- `CeedVector_dict[*vec]`. -/
def Tbl.lookup (T : Tbl O) (h : Int) : Res (Slot O) := T.slots.rdI h

/-- Lines 199-212 `fCeedVectorDestroy`, and the other destruction functions: the new table, the new value of the variable, and
whether there was no error (for `FORTRAN_NULL` the error code is not written at all). `good` says whether the destruction of an object by the C interface succeeds; destroying a null
pointer does. A destroyed pointer is null. -/
def Tbl.destroy (T : Tbl O) (h : Int) (good : Bool) : Res (Tbl O × Int × Bool) :=
  if h = fnull then .ok (T, h, true)
  else do
    let x ← T.slots.rdI h
    match x with
    | .junk => .ub
    | .null =>
      let T := { T with n := T.n - 1 }
      .ok (if T.n = 0 then Tbl.empty else T, fnull, true)
    | .obj _ =>
      if good then do
        let s ← T.slots.wrI h .null
        let T := { T with slots := s, n := T.n - 1 }
        .ok (if T.n = 0 then Tbl.empty else T, fnull, true)
      else .ok (T, h, false)

/-! ## Arguments -/

/-- What a function of the C interface is given. -/
inductive Arg (O : Type) where
  | null
  | active
  | none
  | slot (s : Slot O)
  deriving DecidableEq

/-- The vector in `fCeedOperatorSetField` (lines 993-1001). -/
def Tbl.vecSetField (T : Tbl O) (h : Int) : Res (Arg O) :=
  if h = fnull then .ok .null
  else if h = factive then .ok .active
  else if h = fnone then .ok .none
  else do .ok (.slot (← T.lookup h))

/-- The restriction and the basis in `fCeedOperatorSetField` (lines 978-992), with the constant `c` for none. -/
def Tbl.objSetField (T : Tbl O) (c h : Int) : Res (Arg O) :=
  if h = fnull then .ok .null
  else if h = c then .ok .none
  else do .ok (.slot (← T.lookup h))

/-- The vectors in `fCeedOperatorApply` (lines 1214-1215). -/
def Tbl.vecApply (T : Tbl O) (h : Int) : Res (Arg O) :=
  if h = fnull then .ok .null
  else if h = fnone then .ok .none
  else do .ok (.slot (← T.lookup h))

/-- The vectors in `fCeedOperatorApplyAdd` (lines 1243-1244) and in `fCeedQFunctionApply` (lines 868-902). -/
def Tbl.vecApplyAdd (T : Tbl O) (h : Int) : Res (Arg O) :=
  if h = fnull then .ok .null
  else do .ok (.slot (← T.lookup h))

/-- The vector `u` in `fCeedBasisApply` (line 589). -/
def Tbl.vecBasis (T : Tbl O) (h : Int) : Res (Arg O) :=
  if h = fnone then .ok .none
  else do .ok (.slot (← T.lookup h))

/-! ## Strings -/

/-- `FIX_STRING` (lines 54-58): the characters of a Fortran string of length `len` copied into an array of 1024. `strncpy` stops
at a null character and fills up with null characters. A string that is too long gives an error code, but is copied anyway.
The result is the string that C functions see. -/
def fixString (s : Buf UInt8) : Res (List UInt8) := do
  if s.len ≤ 1023 then .ok (s.toList.takeWhile (· ≠ 0)) else .ub

/-! ## QFunctions -/

/-- Lines 744-785 `fCeedQFunctionCreateInterior`: if the creation fails, it continues with what is stored in the table, and the
error code is overwritten. `rest` is the outcome of the calls that set the context of an existing QFunction. Returns the table,
the handle and the error code (zero or not). -/
def createInterior (T : Tbl O) (c : Call O) (rest : Bool) : Res (Tbl O × Option Int × Bool) := do
  let x ← T.create c
  let q ← x.1.slots.rd (match c with | .ok _ => x.1.count - 1 | .fail _ => x.1.count)
  match q with
  | .junk => .ub
  | .null => .ub
  | .obj _ => .ok (x.1, x.2, rest)

/-- Lines 718-741 `CeedQFunctionFortranStub`: the error code that the library sees, for the error code of the Fortran function
and, with a context, those of the calls that get and restore its data. -/
def stub (ctx : Option (Int × Int)) (f : Int) : Int :=
  match ctx with
  | none => f
  | some (get, restore) => if get ≠ 0 then get else restore

/-- The context of a Fortran QFunction: reference counts of contexts, and the pointer `inner_ctx`. -/
structure Ctx where
  refs : Nat → Nat
  inner : Option Nat

/-- Lines 836-851 `fCeedQFunctionSetContext`: the pointer is stored without a reference. -/
def Ctx.set (w : Ctx) (c : Nat) : Res Ctx := if w.refs c = 0 then .ub else .ok { w with inner := some c }

/-- `CeedQFunctionContextDestroy` (`interface/ceed-qfunctioncontext.c`): one reference less; the context is freed with the last
one. -/
def Ctx.destroy (w : Ctx) (c : Nat) : Res Ctx :=
  if w.refs c = 0 then .ub else .ok { w with refs := fun i => if i = c then w.refs c - 1 else w.refs i }

/-- Lines 718-741, 727-730: an evaluation of the QFunction uses the context. -/
def Ctx.eval (w : Ctx) : Res (Option Nat) :=
  match w.inner with
  | none => .ok none
  | some c => if w.refs c = 0 then .ub else .ok (some c)

end Fortran
end Verif
