import Verif.State
import Verif.Basis.Model
import Mathlib.Logic.Function.Basic

/-!
# Operators: application by the reference backend

Models `backends/ref/ceed-ref-operator.c` 18-473 and the application functions of `interface/ceed-operator.c`.

Vectors are numbered; the state counter, the validity flag and the contents of each are kept (locks of the L-vectors and
memory types are the subject of `Verif/Vector`). Element restrictions are numbered objects, so that two fields using the
same object can be recognised as the code does (pointer comparison). The user's QFunction is a function of the input
arrays of one element (all its quadrature points) that determines all entries of all output arrays.
-/

namespace Verif
namespace Operator

open Restriction (Rstr TMode)
open Basis (Bas EMode)

variable {α : Type _} [CommRing α]

/-- A `CeedVector` argument: `NULL`, `CEED_VECTOR_NONE` or a vector. -/
inductive VPtr
  | null | none | vec (i : Nat)
deriving DecidableEq, Repr

/-- The vector of a field: `CEED_VECTOR_ACTIVE`, `CEED_VECTOR_NONE` or a vector. -/
inductive FVec
  | active | none | vec (i : Nat)
deriving DecidableEq, Repr

/-- The vector a field designates in an application to (or into) `p`. -/
def FVec.ptr : FVec → VPtr → VPtr
  | .active, p => p
  | .none, _ => .none
  | .vec i, _ => .vec i

/-- `struct CeedOperatorField_private` with the data of the QFunction field of the same index
(`include/ceed-impl.h`). `rid = none` is `CEED_ELEMRESTRICTION_NONE`, `basis = none` is `CEED_BASIS_NONE`. -/
structure OField (α : Type _) where
  vec : FVec
  rid : Option Nat
  basis : Option (Bas α)
  mode : EMode
  size : Nat

/-- A complete operator (`struct CeedOperator_private`, `include/ceed-impl.h`): `rstrs` are the restriction objects,
`isId` is the flag `is_identity` of the QFunction, `f` the user function. -/
structure Oper (α : Type _) where
  ne : Nat
  Q : Nat
  nin : Nat
  nout : Nat
  inp : Nat → OField α
  out : Nat → OField α
  rstrs : Nat → Rstr
  isId : Bool
  f : (Nat → Nat → α) → Nat → Nat → α

/-- An L-vector: state counter, whether it holds valid data, contents (`buf.len` is the length of the vector). -/
structure LVec (α : Type _) where
  state : Nat
  valid : Bool
  buf : Buf α

/-- Tables of the input fields in `CeedOperator_Ref` (`backends/ref/ceed-ref.h`): `ev i` is the length of `e_vecs_in[i]`
(`none`: null pointer), `full i` the vector `e_vecs_full[i]` (named by the field that created it), `skip` is
`skip_rstr_in`. -/
structure InTabs where
  ev : Nat → Option Nat
  full : Nat → Option Nat
  skip : Nat → Bool

/-- Tables of the output fields: as `InTabs`, with `apply_add_basis_out` and `e_data_out_indices`. -/
structure OutTabs where
  ev : Nat → Option Nat
  full : Nat → Option Nat
  skip : Nat → Bool
  add : Nat → Bool
  idx : Nat → Nat

/-- `CeedOperator_Ref`: `done` is `is_backend_setup`, `idRstr` is `is_identity_rstr_op`, `states` is `input_states`;
`eIn`, `eOut` are the contents of the E-vectors created for inputs and outputs, `eInOk` their validity, `rd` the number
of readers, `wr` whether the array is locked for writing; `qIn` is `q_vecs_in`. -/
structure Impl (α : Type _) where
  done : Bool
  idRstr : Bool
  it : InTabs
  ot : OutTabs
  states : Nat → Nat
  eIn : Nat → Buf α
  eInOk : Nat → Bool
  rd : Nat → Nat
  eOut : Nat → Buf α
  wr : Nat → Bool
  qIn : Nat → Buf α

/-- The state: one operator, all vectors, and the output half of the local array `e_data_full` of
`CeedOperatorApplyAdd_Ref` (line 381). -/
structure St (α : Type _) where
  impl : Impl α
  vecs : Nat → LVec α
  eptr : Nat → Option Nat

/-- Read the state. -/
def getS : M (St α) (St α) := fun s => .ok s s
/-- Change the backend data. -/
def modI (g : Impl α → Impl α) : M (St α) Unit := fun s => .ok { s with impl := g s.impl } ()
/-- Change the local pointers. -/
def modP (g : (Nat → Option Nat) → Nat → Option Nat) : M (St α) Unit := fun s => .ok { s with eptr := g s.eptr } ()
/-- A pointer that must not be null. -/
def ptr {β : Type _} (p : Option β) : M (St α) β :=
  match p with
  | some b => pure b
  | none => M.undef

/-- The array of a vector created by `CeedVectorSetArray(.., CEED_USE_POINTER, &b[off])` with `n` entries; the entries
are accessed later, so they have to exist. -/
def slice (b : Buf α) (off n : Nat) : Res (Buf α) := if off + n ≤ b.len then .ok ⟨n, fun x => b.val (off + x)⟩ else .ub

/-- The memory behind `b` after the entries of `s`, which points to `&b[off]`, have been changed. -/
def paste (b : Buf α) (off : Nat) (s : Buf α) : Buf α :=
  ⟨b.len, fun x => if off ≤ x ∧ x < off + s.len then s.val (x - off) else b.val x⟩

/-- Comparison of fields in `CeedOperatorSetupFields_Ref`, lines 98 and 122: same vector and same restriction object. -/
def OField.same (a b : OField α) : Bool := decide (a.vec = b.vec ∧ a.rid = b.rid)

/-- Evaluation modes with a basis action (lines 63-66, 278-281, 324-327). -/
def isBasisMode : EMode → Bool
  | .interp => true
  | .grad => true
  | .div => true
  | .curl => true
  | .none => false
  | .weight => false

/-- `ceed-ref-operator.c` 48-82: the E-vector of one element that is created for a field. -/
def OField.ev (a : OField α) : Option Nat := if isBasisMode a.mode then a.basis.map (fun b => b.P * b.nc) else none

/-- Lines 98-102. `CeedVectorReferenceCopy` dereferences its first argument (`interface/ceed-vector.c` 137-140,
196-201). -/
def shareIn (i j : Nat) (t : InTabs) : Res InTabs :=
  match t.ev i, t.full i with
  | some n, some p => .ok ⟨Function.update t.ev j (some n), Function.update t.full j (some p),
      Function.update t.skip j true⟩
  | _, _ => .ub

/-- `ceed-ref-operator.c` 48-109 `CeedOperatorSetupFields_Ref` for inputs, without the vectors of quadrature data; `ev0`
gives the E-vector created for a field. -/
def setupInWith (ev0 : OField α → Option Nat) (op : Oper α) : Res InTabs :=
  loop op.nin (fun i t => loop (op.nin - (i + 1)) (fun d t =>
      if (op.inp i).same (op.inp (i + 1 + d)) then shareIn i (i + 1 + d) t else .ok t) t)
    ⟨fun i => ev0 (op.inp i), fun i => if (op.inp i).mode = .weight then none else some i, fun _ => false⟩

/-- `ceed-ref-operator.c` 48-109: `setupInWith` with the E-vectors of lines 48-82. -/
def setupIn (op : Oper α) : Res InTabs := setupInWith OField.ev op

/-- Lines 122-128. -/
def shareOut (i j : Nat) (t : OutTabs) : Res OutTabs :=
  match t.ev i, t.full i with
  | some n, some p => .ok ⟨Function.update t.ev j (some n), Function.update t.full j (some p),
      Function.update t.skip j true, Function.update t.add i true, Function.update t.idx j i⟩
  | _, _ => .ub

/-- `ceed-ref-operator.c` 48-82, 110-135 `CeedOperatorSetupFields_Ref` for outputs: both loops run downwards. -/
def setupOutWith (ev0 : OField α → Option Nat) (op : Oper α) : Res OutTabs :=
  loop op.nout (fun a t =>
      let i := op.nout - 1 - a
      loop i (fun b t =>
        let j := i - 1 - b
        if (op.out i).same (op.out j) then shareOut i j t else .ok t) t)
    ⟨fun i => ev0 (op.out i), fun i => if (op.out i).mode = .weight then none else some i, fun _ => false,
      fun _ => false, fun _ => 0⟩

/-- `ceed-ref-operator.c` 48-82, 110-135: `setupOutWith` with the E-vectors of lines 48-82. -/
def setupOut (op : Oper α) : Res OutTabs := setupOutWith OField.ev op

/-- `ceed-ref-operator.c` 58-82 on inputs: the vectors of quadrature data; weights are evaluated once (line 79). New
vectors are taken to be zero; every entry is overwritten before it is read. -/
def setupQ (op : Oper α) (junk : Nat → Nat → α) : Res (Nat → Buf α) :=
  loop op.nin (fun i q =>
      if (op.inp i).mode = .weight then
        match (op.inp i).basis with
        | some b => do
          let v ← Basis.apply b junk 1 .noTranspose .weight none ⟨op.Q, fun _ => 0⟩
          .ok (Function.update q i v)
        | none => .err .incompatible
      else .ok q)
    (fun i => ⟨op.Q * (op.inp i).size, fun _ => 0⟩)

/-- Size of the E-vector of a field. -/
def eSizeOf (op : Oper α) (a : OField α) : Nat :=
  match a.rid with
  | some r => (op.rstrs r).eSize
  | none => 0

/-- `ceed-ref-operator.c` 143-205 `CeedOperatorSetup_Ref`. New vectors hold no valid data (their arrays, allocated later,
are represented by whatever was there before). `q_vecs_out[0] = q_vecs_in[0]` for the identity QFunction (line 200) is
taken into account in `evalQF`. -/
def setup (op : Oper α) (junk : Nat → Nat → α) : M (St α) Unit := do
  let s ← getS
  if s.impl.done then pure () else do
    let q ← M.lift (setupQ op junk)
    let it ← M.lift (setupIn op)
    let ot ← M.lift (setupOut op)
    modI (fun c => { c with
      done := true
      idRstr := op.isId && decide ((op.inp 0).mode = .none) && decide ((op.out 0).mode = .none)
      it := it
      ot := ot
      states := fun _ => 0
      eIn := fun i => ⟨eSizeOf op (op.inp i), (c.eIn i).val⟩
      eInOk := fun _ => false
      rd := fun _ => 0
      eOut := fun i => ⟨eSizeOf op (op.out i), (c.eOut i).val⟩
      wr := fun _ => false
      qIn := q })

/-- State counter of a vector argument (`CeedVectorGetState`); `CEED_VECTOR_NONE` is a static object with counter 0. -/
def St.stateOf (s : St α) : VPtr → Nat
  | .vec i => (s.vecs i).state
  | _ => 0

/-- A vector read by a restriction: `CeedVectorGetArrayRead` fails without valid data (`interface/ceed-vector.c`
528-546). The length check of `CeedElemRestrictionApply` comes first in the code; this only affects the error code. -/
def readVec (p : VPtr) : M (St α) (Buf α) := fun s =>
  match p with
  | .vec i => if (s.vecs i).valid then .ok s (s.vecs i).buf else .err s .backend
  | .none => .err s .dimension
  | .null => .ub

/-- `CeedElemRestrictionApply(rstr, CEED_NOTRANSPOSE, vec, e_vecs_full[i])`: lines 239 and 400. The E-vector must not be
locked by a reader (`CeedVectorGetArrayWrite`). -/
def restrictIn (op : Oper α) (i : Nat) (p : VPtr) : M (St α) Unit := do
  let s ← getS
  let r ← ptr (op.inp i).rid
  let k ← ptr (s.impl.it.full i)
  let u ← readVec p
  M.check (s.impl.rd k = 0) .access
  let v ← M.lift (Restriction.apply (op.rstrs r) .plain .noTranspose u (s.impl.eIn k))
  modI (fun c => { c with eIn := Function.update c.eIn k v, eInOk := Function.update c.eInOk k true })

/-- `CeedVectorGetArrayRead(e_vecs_full[i])`, line 245. -/
def lockRead (i : Nat) : M (St α) Unit := do
  let s ← getS
  let k ← ptr (s.impl.it.full i)
  M.check (s.impl.eInOk k = true) .backend
  modI (fun c => { c with rd := Function.update c.rd k (c.rd k + 1) })

/-- Lines 238-240: the restriction is skipped if the vector is passive and unchanged since the last application, or if the
E-vector is shared with an earlier input. -/
def restrictIf (op : Oper α) (inv p : VPtr) (i : Nat) : M (St α) Unit := do
  let s ← getS
  if (s.stateOf p ≠ s.impl.states i ∨ p = inv) ∧ s.impl.it.skip i = false then restrictIn op i p else pure ()

/-- One iteration of `CeedOperatorSetupInputs_Ref`, lines 214-248. -/
def setupInput (op : Oper α) (inv : VPtr) (skipActive : Bool) (i : Nat) : M (St α) Unit :=
  if (op.inp i).vec = .active ∧ skipActive = true then pure ()
  else if (op.inp i).mode = .weight then pure ()
  else do
    let s ← getS
    restrictIf op inv ((op.inp i).vec.ptr inv) i
    modI (fun c => { c with states := Function.update c.states i (s.stateOf ((op.inp i).vec.ptr inv)) })
    lockRead i

/-- `ceed-ref-operator.c` 210-251 `CeedOperatorSetupInputs_Ref`. -/
def setupInputs (op : Oper α) (inv : VPtr) (skipActive : Bool) : M (St α) Unit :=
  M.loop op.nin (setupInput op inv skipActive)

/-- Element size of the restriction of a field (`CeedElemRestrictionGetElementSize`). -/
def elemSizeOf (op : Oper α) (a : OField α) : Nat :=
  match a.rid with
  | some r => (op.rstrs r).elemSize
  | none => 0

/-- Store quadrature data of input `i`. -/
def setQ (i : Nat) (v : Buf α) : M (St α) Unit := modI (fun c => { c with qIn := Function.update c.qIn i v })

/-- Lines 278-290: basis action on input `i` of element `e`. -/
def basisIn (op : Oper α) (junk : Nat → Nat → α) (e i : Nat) : M (St α) Unit := do
  let s ← getS
  let k ← ptr (s.impl.it.full i)
  let b ← ptr (op.inp i).basis
  let n ← ptr (s.impl.it.ev i)
  let u ← M.lift (slice (s.impl.eIn k) (e * elemSizeOf op (op.inp i) * b.nc) n)
  let v ← M.lift (Basis.apply b junk 1 .noTranspose (op.inp i).mode (some u) (s.impl.qIn i))
  setQ i v

/-- Lines 275-277: the values of a field without basis are read directly from the E-vector. -/
def directIn (op : Oper α) (e i : Nat) : M (St α) Unit := do
  let s ← getS
  let k ← ptr (s.impl.it.full i)
  let u ← M.lift (slice (s.impl.eIn k) (e * op.Q * (op.inp i).size) (op.Q * (op.inp i).size))
  setQ i u

/-- One iteration of `CeedOperatorInputBasis_Ref`, lines 260-299. -/
def inputBasis1 (op : Oper α) (junk : Nat → Nat → α) (skipActive : Bool) (e i : Nat) : M (St α) Unit :=
  if (op.inp i).vec = .active ∧ skipActive = true then pure ()
  else if (op.inp i).mode = .none then directIn op e i
  else if isBasisMode (op.inp i).mode then basisIn op junk e i
  else pure ()

/-- `ceed-ref-operator.c` 256-302 `CeedOperatorInputBasis_Ref`. -/
def inputBasis (op : Oper α) (junk : Nat → Nat → α) (skipActive : Bool) (e : Nat) : M (St α) Unit :=
  M.loop op.nin (inputBasis1 op junk skipActive e)

/-- The arrays given to the user function: `nin` arrays of `Q * size` entries. -/
def clip (op : Oper α) (q : Nat → Buf α) : Nat → Nat → α :=
  fun i x => if i < op.nin ∧ x < op.Q * (op.inp i).size then (q i).val x else 0

/-- `CeedQFunctionApply` (lines 442-444). For the identity QFunction the vector `q_vecs_out[0]` is `q_vecs_in[0]`. -/
def evalQF (op : Oper α) (q : Nat → Buf α) : Nat → Nat → α :=
  if op.isId then fun o x => (q o).val x else op.f (clip op q)

/-- Store the output E-vector `k`. -/
def setEOut (k : Nat) (v : Buf α) : M (St α) Unit := modI (fun c => { c with eOut := Function.update c.eOut k v })

/-- Lines 426-434: an output without basis is written directly into the E-vector. When two outputs of the QFunction are
the same memory the later one is taken to be written last. The identity QFunction stores nothing, its input is computed
in the array of its output; weights are only computed in the setup, into the array that line 431 replaces, so that the
E-vector keeps what it held. -/
def directOut (op : Oper α) (e : Nat) (y : Nat → Nat → α) (o : Nat) : M (St α) Unit := do
  let s ← getS
  if (op.out o).mode = .none then do
    let k ← ptr (s.eptr o)
    let t ← M.lift (slice (s.impl.eOut k) (e * op.Q * (op.out o).size) (op.Q * (op.out o).size))
    if op.isId = true ∧ (op.inp 0).mode = .weight then pure () else
    setEOut k (paste (s.impl.eOut k) (e * op.Q * (op.out o).size) ⟨t.len, y o⟩)
  else pure ()

/-- Lines 324-338: transposed basis action on output `o` of element `e`. -/
def basisOut (op : Oper α) (junk : Nat → Nat → α) (e : Nat) (y : Nat → Nat → α) (o : Nat) : M (St α) Unit := do
  let s ← getS
  let k ← ptr (s.eptr o)
  let b ← ptr (op.out o).basis
  let n ← ptr (s.impl.ot.ev o)
  let off := e * elemSizeOf op (op.out o) * b.nc
  let w : Buf α := ⟨op.Q * (op.out o).size, y o⟩
  let t ← M.lift (slice (s.impl.eOut k) off n)
  let v ← M.lift (if s.impl.ot.add o then Basis.applyAdd b junk 1 .transpose (op.out o).mode (some w) t
    else Basis.apply b junk 1 .transpose (op.out o).mode (some w) t)
  setEOut k (paste (s.impl.eOut k) off v)

/-- One iteration of `CeedOperatorOutputBasis_Ref`, lines 311-343. -/
def outputBasis1 (op : Oper α) (junk : Nat → Nat → α) (e : Nat) (y : Nat → Nat → α) (o : Nat) : M (St α) Unit :=
  if (op.out o).mode = .none then pure ()
  else if isBasisMode (op.out o).mode then basisOut op junk e y o
  else M.fail .backend

/-- One element: lines 424-450. -/
def element (op : Oper α) (junk : Nat → Nat → α) (e : Nat) : M (St α) Unit := do
  inputBasis op junk false e
  let s ← getS
  let y := evalQF op s.impl.qIn
  M.loop op.nout (directOut op e y)
  M.loop op.nout (outputBasis1 op junk e y)

/-- Lines 415-421, one output: arrays of the output E-vectors. -/
def lockWrite (o : Nat) : M (St α) Unit := do
  let s ← getS
  if s.impl.ot.skip o then modP (fun p => Function.update p o (p (s.impl.ot.idx o))) else do
    let k ← ptr (s.impl.ot.full o)
    M.check (s.impl.wr k = false) .access
    modI (fun c => { c with wr := Function.update c.wr k true })
    modP (fun p => Function.update p o (some k))

/-- Lines 414-421, all outputs, downwards. -/
def lockWrites (op : Oper α) : M (St α) Unit := M.loop op.nout (fun a => lockWrite (op.nout - 1 - a))

/-- A vector changed by a transposed restriction: `CeedVectorGetArray` needs valid data; restoring it advances the state
counter by two (`interface/ceed-vector.c` 490-510, 593-603). -/
def scatterInto (r : Rstr) (w : Buf α) (p : VPtr) : M (St α) Unit := fun s =>
  match p with
  | .vec i =>
    if (s.vecs i).valid then
      match Restriction.apply r .plain .transpose w (s.vecs i).buf with
      | .ok v => .ok { s with vecs := Function.update s.vecs i ⟨(s.vecs i).state + 2, true, v⟩ } ()
      | .err e => .err s e
      | .ub => .ub
    else .err s .backend
  | .none => .err s .dimension
  | .null => .ub

/-- Lines 453-469, one output: release the E-vector and add it into the output vector. -/
def finishOut (op : Oper α) (outv : VPtr) (o : Nat) : M (St α) Unit := do
  let s ← getS
  if s.impl.ot.skip o then pure () else do
    let k ← ptr (s.impl.ot.full o)
    modI (fun c => { c with wr := Function.update c.wr k false })
    let r ← ptr (op.out o).rid
    scatterInto (op.rstrs r) (s.impl.eOut k) ((op.out o).vec.ptr outv)

/-- `ceed-ref-operator.c` 350-373 `CeedOperatorRestoreInputs_Ref`, one field. -/
def restoreIn (op : Oper α) (skipActive : Bool) (i : Nat) : M (St α) Unit :=
  if (op.inp i).vec = .active ∧ skipActive = true then pure ()
  else if (op.inp i).mode = .weight then pure ()
  else do
    let s ← getS
    let k ← ptr (s.impl.it.full i)
    modI (fun c => { c with rd := Function.update c.rd k (c.rd k - 1) })

/-- Lines 396-405: an operator that only restricts and scatters. -/
def identityApply (op : Oper α) (inv outv : VPtr) : M (St α) Unit := do
  restrictIn op 0 inv
  let s ← getS
  let k ← ptr (s.impl.it.full 0)
  let r ← ptr (op.out 0).rid
  scatterInto (op.rstrs r) (s.impl.eIn k) outv

/-- Lines 412-473: the general case. -/
def generalApply (op : Oper α) (junk : Nat → Nat → α) (inv outv : VPtr) : M (St α) Unit := do
  setupInputs op inv false
  lockWrites op
  M.loop op.ne (element op junk)
  M.loop op.nout (finishOut op outv)
  M.loop op.nin (restoreIn op false)

/-- `ceed-ref-operator.c` 378-473 `CeedOperatorApplyAdd_Ref`. -/
def applyAddRef (op : Oper α) (junk : Nat → Nat → α) (inv outv : VPtr) : M (St α) Unit := do
  setup op junk
  let s ← getS
  if s.impl.idRstr then identityApply op inv outv else generalApply op junk inv outv

/-- `interface/ceed-operator.c` 2209-2234 `CeedOperatorApplyAdd` on a single operator that is ready (see
`Verif/Operator/Fields.lean` for the readiness check). -/
def applyAdd (op : Oper α) (junk : Nat → Nat → α) (inv outv : VPtr) : M (St α) Unit :=
  if 0 < op.ne then applyAddRef op junk inv outv else pure ()

/-- `CeedVectorSetValue(vec, 0.0)`: all entries, the vector becomes valid and its state advances by two
(`interface/ceed-vector.c` 340-361). -/
def zeroVec (p : VPtr) : M (St α) Unit := fun s =>
  match p with
  | .vec i =>
    let v : LVec α := ⟨(s.vecs i).state + 2, true, ⟨(s.vecs i).buf.len, fun _ => 0⟩⟩
    .ok { s with vecs := Function.update s.vecs i v } ()
  | .none => .ok s ()
  | .null => .ub

/-- `interface/ceed-operator.c` 2130-2192 `CeedOperatorApply` on a single operator that is ready; the reference backend
registers no `Apply`. -/
def apply (op : Oper α) (junk : Nat → Nat → α) (inv outv : VPtr) : M (St α) Unit := do
  M.loop op.nout (fun o => zeroVec ((op.out o).vec.ptr outv))
  applyAdd op junk inv outv

end Operator
end Verif
