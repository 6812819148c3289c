import Verif.Gpu.Basis
import Verif.Gpu.BasisSpec
import Verif.Operator.Model

/-!
# Operators on a device

Models `backends/cuda-ref/ceed-cuda-ref-operator.c` 107-606 (`backends/hip-ref/ceed-hip-ref-operator.hip.cpp` has the
same functions) and `backends/cuda-ref/ceed-cuda-ref-qfunction.c` 21-62 with the kernel generated in
`ceed-cuda-ref-qfunction-load.cpp` 47-101.

The vectors of the operator are device arrays; transfers between host and device are the subject of C63. Element
restrictions and bases are the launches of `Rstr.lean` and `Basis.lean`. What a launch leaves in its output depends on
the schedule, so the outcomes of all launches of an execution are a parameter (`Dev`) which has to agree with *some*
schedule of each of them; the number of a launch in the execution is an argument, as two launches with the same arguments
can be scheduled differently.
-/

namespace Verif.Gpu

open Verif.Restriction (TMode)
open Verif.Basis (EMode)
open Verif.Operator (VPtr FVec LVec isBasisMode)

variable {α : Type} [CommRing α]

/-! ## Outcomes of launches -/

/-- `y` is what a call which launches `r` on the output array `v` can return: an error of the call, or the array left by
some schedule of the launch; undefined if some schedule is. -/
def Outcome (r : Res (Launch α)) (v : Buf α) : Res (Buf α) → Prop
  | .ok v' => ∃ L c, r = .ok L ∧ Reach L.G L.B L.cfg c ∧ Final L.G L.B c ∧ v' = ⟨v.len, c.mem.val .v⟩
  | .err e => r = .err e
  | .ub => ¬ (∃ e, r = .err e) ∧ ¬ Launches r (fun _ => True)

/-- Outcomes of all launches: of restrictions, and of bases (the flag is that of `CeedBasisApplyAdd`). The first argument
is the number of the launch. -/
structure Dev (α : Type) where
  rstr : Nat → CRstr → TMode → Buf α → Buf α → Res (Buf α)
  basis : Nat → DBas α → Bool → Nat → TMode → EMode → Option (Buf α) → Buf α → Res (Buf α)

/-- The outcomes are those of the launches of `CeedElemRestrictionApply`, `CeedBasisApply` and `CeedBasisApplyAdd` on the
device `dv`, with anything in shared memory. -/
structure Dev.Real (D : Dev α) (dv : Device) : Prop where
  rstr : ∀ n x tm u v, Outcome (applyCuda x .plain tm u v) v (D.rstr n x tm u v)
  basis : ∀ n x ne tm em u v, ∃ junk, Outcome (applyDev dv junk x ne tm em u v) v (D.basis n x false ne tm em u v)
  basisAdd : ∀ n x ne tm em u v, ∃ junk, Outcome (applyAddDev dv junk x ne tm em u v) v (D.basis n x true ne tm em u v)

/-! ## Operators -/

/-- A field of an operator and of its QFunction (`include/ceed-impl.h`), with objects of the device. -/
structure GField (α : Type) where
  vec : FVec
  rid : Option Nat
  basis : Option (DBas α)
  mode : EMode
  size : Nat

/-- An operator. The user function is called by each thread with one quadrature point
(`ceed-cuda-ref-qfunction-load.cpp` 91): `g` maps the components of all inputs to those of all outputs. -/
structure GOper (α : Type) where
  ne : Nat
  Q : Nat
  nin : Nat
  nout : Nat
  inp : Nat → GField α
  out : Nat → GField α
  rstrs : Nat → CRstr
  g : (Nat → Nat → α) → Nat → Nat → α

/-- Comparison of fields, `ceed-cuda-ref-operator.c` 196 and 219: same vector and same restriction object. -/
def GField.same (a b : GField α) : Bool := decide (a.vec = b.vec ∧ a.rid = b.rid)

/-- Size of the E-vector of a field. -/
def GOper.eSize (op : GOper α) (a : GField α) : Nat :=
  match a.rid with
  | some r => (op.rstrs r).base.eSize
  | none => 0

/-- `CeedElemRestrictionIsStrided` and `CeedElemRestrictionHasBackendStrides` (`interface/ceed-elemrestriction.c`
221-226). -/
def CRstr.backendStrided (x : CRstr) : Bool := decide (x.base.rtype = .strided ∧ x.base.strides = some (0, 0, 0))

/-- The restriction of a field has backend strides. -/
def GOper.backend (op : GOper α) (a : GField α) : Bool :=
  match a.rid with
  | some r => (op.rstrs r).backendStrided
  | none => false

/-- `ceed-cuda-ref-operator.c` 145-154: an E-vector is created for an input. -/
def GOper.makesIn (op : GOper α) (a : GField α) : Bool :=
  !(decide (a.vec = .active) || decide (a.mode = .weight) || (decide (a.mode = .none) && op.backend a))

/-- The same lines for an output. -/
def GOper.makesOut (a : GField α) : Bool :=
  !((decide (a.vec = .active) && decide (a.mode ≠ .none)) || decide (a.mode = .weight))

/-- A vector used only inside the operator: whether it holds valid data, the number of readers, whether it is locked for
writing, its array. -/
structure EVec (α : Type) where
  valid : Bool
  rd : Nat
  wr : Bool
  buf : Buf α

/-- E-vectors: those created for input or output `k`, and the work vector of an application (`active_e_vec`). -/
inductive EKey
  | inp (k : Nat) | out (k : Nat) | work
deriving DecidableEq, Repr

/-- The array a vector of quadrature data borrows (`CeedVectorSetArray` with `CEED_USE_POINTER`). -/
inductive QSrc
  | ev (k : EKey) | vec (v : Nat)
deriving DecidableEq, Repr

/-- A vector of quadrature data: validity of its own array, borrowed array, own array. Its locks are released by every
function that takes them, also those of `CeedQFunctionApply`, and are not modelled. -/
structure QVec (α : Type) where
  valid : Bool
  bor : Option QSrc
  buf : Buf α

/-- Tables of `CeedOperator_Cuda` (`backends/cuda-ref/ceed-cuda-ref.h`): which created E-vector is `e_vecs_in[i]`,
`skip_rstr_in`, the same for outputs, `apply_add_basis_out`, `input_field_order`, `output_field_order`,
`max_active_e_vec_len`. -/
structure GTabs where
  inOwn : Nat → Option Nat
  inSkip : Nat → Bool
  outOwn : Nat → Option Nat
  outSkip : Nat → Bool
  outAdd : Nat → Bool
  inOrd : List Nat
  outOrd : List Nat
  maxLen : Nat

/-- The state: one operator (its tables, states of the inputs, E-vectors, vectors of quadrature data), all L-vectors, and
the number of launches so far. -/
structure GSt (α : Type) where
  done : Bool
  tabs : GTabs
  states : Nat → Nat
  ev : EKey → EVec α
  qIn : Nat → QVec α
  qOut : Nat → QVec α
  vecs : Nat → LVec α
  tick : Nat

/-! ## Setup -/

/-- A loop without failure. -/
def iter {σ : Type} : Nat → (Nat → σ → σ) → σ → σ
  | 0, _, s => s
  | n + 1, body, s => body n (iter n body s)

/-- `ceed-cuda-ref-operator.c` 196-199 on `(e_vecs, skip_rstr)`. -/
def shareInG (i j : Nat) (t : (Nat → Option Nat) × (Nat → Bool)) : (Nat → Option Nat) × (Nat → Bool) :=
  (if (t.1 i).isSome then Function.update t.1 j (t.1 i) else t.1, Function.update t.2 j true)

/-- `ceed-cuda-ref-operator.c` 183-206: duplicate restrictions of inputs. -/
def shareInsG (op : GOper α) : (Nat → Option Nat) × (Nat → Bool) :=
  iter op.nin (fun i t => iter (op.nin - (i + 1)) (fun d t =>
      if (op.inp i).same (op.inp (i + 1 + d)) then shareInG i (i + 1 + d) t else t) t)
    (fun i => if op.makesIn (op.inp i) then some i else none, fun _ => false)

/-- Tables of the outputs while duplicates are found. -/
structure OutT where
  own : Nat → Option Nat
  skip : Nat → Bool
  add : Nat → Bool

/-- `ceed-cuda-ref-operator.c` 219-223. -/
def shareOutG (i j : Nat) (t : OutT) : OutT where
  own := if (t.own i).isSome then Function.update t.own j (t.own i) else t.own
  skip := Function.update t.skip j true
  add := Function.update t.add i true

/-- `ceed-cuda-ref-operator.c` 207-230: duplicate restrictions of outputs, both loops downwards. -/
def shareOutsG (op : GOper α) : OutT :=
  iter op.nout (fun a t => iter (op.nout - 1 - a) (fun b t =>
      if (op.out (op.nout - 1 - a)).same (op.out (op.nout - 1 - a - 1 - b)) then
        shareOutG (op.nout - 1 - a) (op.nout - 1 - a - 1 - b) t else t) t)
    ⟨fun i => if GOper.makesOut (op.out i) then some i else none, fun _ => false, fun _ => false⟩

/-- `ceed-cuda-ref-operator.c` 280-313 (inputs) and 321-349 (outputs), one iteration, on the field order and
`max_active_e_vec_len`: field `i` and all later fields with the same vector and restriction, unless already ordered. An
input with `CEED_VECTOR_NONE` stands alone. `is_ordered` is membership in the order. -/
def orderStep (n : Nat) (alone : Nat → Bool) (same : Nat → Nat → Bool) (len : Nat → Nat) (i : Nat) (t : List Nat × Nat) :
    List Nat × Nat :=
  if i ∈ t.1 then t
  else if alone i then (t.1 ++ [i], t.2)
  else (t.1 ++ i :: (List.range' (i + 1) (n - (i + 1))).filter (same i), max t.2 (len i))

/-- The order of `n` fields. -/
def orderG (n : Nat) (alone : Nat → Bool) (same : Nat → Nat → Bool) (len : Nat → Nat) (m : Nat) : List Nat × Nat :=
  iter n (orderStep n alone same len) ([], m)

/-- Order of the inputs. -/
def orderIn (op : GOper α) : List Nat × Nat :=
  orderG op.nin (fun i => decide ((op.inp i).vec = .none)) (fun i j => (op.inp i).same (op.inp j))
    (fun i => op.eSize (op.inp i)) 0

/-- Order of the outputs. -/
def orderOut (op : GOper α) : List Nat × Nat :=
  orderG op.nout (fun _ => false) (fun i j => (op.out i).same (op.out j)) (fun i => op.eSize (op.out i)) (orderIn op).2

/-- All tables. -/
def tabsG (op : GOper α) : GTabs where
  inOwn := (shareInsG op).1
  inSkip := (shareInsG op).2
  outOwn := (shareOutsG op).own
  outSkip := (shareOutsG op).skip
  outAdd := (shareOutsG op).add
  inOrd := (orderIn op).1
  outOrd := (orderOut op).1
  maxLen := (orderOut op).2

/-- Read the state. -/
def getG : M (GSt α) (GSt α) := fun s => .ok s s
/-- Change the state. -/
def modG (f : GSt α → GSt α) : M (GSt α) Unit := fun s => .ok (f s) ()
/-- A pointer that must not be null. -/
def ptrG {β : Type} (p : Option β) : M (GSt α) β :=
  match p with
  | some b => pure b
  | none => M.undef
/-- Change an input vector of quadrature data. -/
def setQIn (f : Nat) (q : QVec α) : M (GSt α) Unit := modG (fun s => { s with qIn := Function.update s.qIn f q })
/-- Change an output vector of quadrature data. -/
def setQOut (f : Nat) (q : QVec α) : M (GSt α) Unit := modG (fun s => { s with qOut := Function.update s.qOut f q })
/-- Change an E-vector. -/
def setEv (k : EKey) (e : EVec α) : M (GSt α) Unit := modG (fun s => { s with ev := Function.update s.ev k e })
/-- The outcome of the next launch. -/
def launchG (f : Nat → Res (Buf α)) : M (GSt α) (Buf α) := do
  let s ← getG
  modG (fun s => { s with tick := s.tick + 1 })
  M.lift (f s.tick)

/-- `ceed-cuda-ref-operator.c` 157-178, one input: its vector of quadrature data; weights are evaluated here. -/
def setupQG (op : GOper α) (D : Dev α) (i : Nat) : M (GSt α) Unit :=
  if (op.inp i).mode = .weight then do
    let b ← ptrG (op.inp i).basis
    let v ← launchG (fun n => D.basis n b false op.ne .noTranspose .weight none ⟨op.ne * op.Q, fun _ => 0⟩)
    setQIn i ⟨true, none, v⟩
  else setQIn i ⟨false, none, ⟨op.ne * op.Q * (op.inp i).size, fun _ => 0⟩⟩

/-- `ceed-cuda-ref-operator.c` 239-355 `CeedOperatorSetup_Cuda`. New vectors hold no valid data. Of a setup that fails,
only the vectors of quadrature data and the number of launches are kept; everything is allocated again by the next
setup. -/
def setupG (op : GOper α) (D : Dev α) : M (GSt α) Unit := do
  let s ← getG
  if s.done then pure () else do
    M.loop op.nin (setupQG op D)
    modG (fun s => { s with
      done := true
      tabs := tabsG op
      states := fun _ => 0
      ev := fun k => match k with
        | .inp i => ⟨false, 0, false, ⟨op.eSize (op.inp i), fun _ => 0⟩⟩
        | .out o => ⟨false, 0, false, ⟨op.eSize (op.out o), fun _ => 0⟩⟩
        | .work => s.ev .work
      qOut := fun o => ⟨false, none, ⟨op.ne * op.Q * (op.out o).size, fun _ => 0⟩⟩ })

/-! ## Application -/

/-- State counter of a vector argument. -/
def GSt.stateOf (s : GSt α) : VPtr → Nat
  | .vec i => (s.vecs i).state
  | _ => 0

/-- `CeedVectorGetArrayRead` of an L-vector. Its lock is held at most until the inputs are restored, during which no
L-vector is written; it is not modelled. -/
def readVecG (p : VPtr) : M (GSt α) (Buf α) := fun s =>
  match p with
  | .vec i => if (s.vecs i).valid then .ok s (s.vecs i).buf else .err s .backend
  | .none => .err s .backend
  | .null => .ub

/-- `CeedVectorGetArrayRead` of an E-vector that is restored at once: not locked for writing, valid data
(`interface/ceed-vector.c` 528-546). -/
def readEv (k : EKey) : M (GSt α) (Buf α) := do
  let s ← getG
  M.check ((s.ev k).wr = false) .access
  M.check ((s.ev k).valid = true) .backend
  pure (s.ev k).buf

/-- `CeedVectorGetArrayWrite` (or, if `old`, `CeedVectorGetArray`) of an E-vector that is restored at once: not locked
(`interface/ceed-vector.c` 490-510, 558-575), for `old` with valid data. -/
def openEv (k : EKey) (old : Bool) : M (GSt α) (Buf α) := do
  let s ← getG
  M.check ((s.ev k).wr = false ∧ (s.ev k).rd = 0) .access
  M.check (old = true → (s.ev k).valid = true) .backend
  pure (s.ev k).buf

/-- The array of an E-vector has been written. -/
def storeEv (k : EKey) (v : Buf α) : M (GSt α) Unit := do
  let s ← getG
  setEv k { s.ev k with valid := true, buf := v }

/-- The E-vector of an input in an application: `e_vecs_in[i]`, or the work vector for an active input without one (lines
373-377, 416-420, 467-471). -/
def GSt.keyIn (s : GSt α) (op : GOper α) (f : Nat) : Option EKey :=
  match s.tabs.inOwn f with
  | some k => some (.inp k)
  | none => if (op.inp f).vec = .active then some .work else none

/-- The E-vector of an output (lines 542-548). -/
def GSt.keyOut (s : GSt α) (op : GOper α) (f : Nat) : Option EKey :=
  match s.tabs.outOwn f with
  | some k => some (.out k)
  | none => if (op.out f).vec = .active then some .work else none

/-- `CeedElemRestrictionApply(elem_rstr, CEED_NOTRANSPOSE, l_vec, e_vec)`, line 391. The length checks come first in the
code; this only affects which error is returned. -/
def gatherG (op : GOper α) (D : Dev α) (f : Nat) (p : VPtr) (k : EKey) : M (GSt α) Unit := do
  let r ← ptrG (op.inp f).rid
  let u ← readVecG p
  let v ← openEv k false
  let w ← launchG (fun n => D.rstr n (op.rstrs r) .noTranspose u v)
  storeEv k w

/-- Lines 387-394: a passive input that has not changed since it was restricted last is not restricted again. -/
def gatherIf (op : GOper α) (D : Dev α) (inv : VPtr) (f : Nat) (k : EKey) : M (GSt α) Unit := do
  let s ← getG
  if (op.inp f).vec = .active ∨ s.stateOf ((op.inp f).vec.ptr inv) ≠ s.states f then
    gatherG op D f ((op.inp f).vec.ptr inv) k
  else pure ()

/-- `ceed-cuda-ref-operator.c` 364-398 `CeedOperatorInputRestrict_Cuda` with `skip_active = false`. -/
def inputRestrict (op : GOper α) (D : Dev α) (inv : VPtr) (f : Nat) : M (GSt α) Unit := do
  let s ← getG
  match s.keyIn op f with
  | none => pure ()
  | some k =>
    if s.tabs.inSkip f = true then pure () else do
      gatherIf op D inv f k
      modG (fun t => { t with states := Function.update t.states f (s.stateOf ((op.inp f).vec.ptr inv)) })

/-- Number of an L-vector whose array is read directly. -/
def vecOf (p : VPtr) : Option Nat :=
  match p with
  | .vec v => some v
  | _ => none

/-- Lines 425-435: an input without basis is read where it is. -/
def borrowIn (op : GOper α) (inv : VPtr) (f : Nat) : M (GSt α) Unit := do
  let s ← getG
  match s.keyIn op f with
  | some k => do
    let _ ← readEv k
    setEv k { s.ev k with rd := (s.ev k).rd + 1 }
    setQIn f { s.qIn f with bor := some (.ev k) }
  | none => do
    let _ ← readVecG ((op.inp f).vec.ptr inv)
    let v ← ptrG (vecOf ((op.inp f).vec.ptr inv))
    setQIn f { s.qIn f with bor := some (.vec v) }

/-- Lines 436-446: basis action on all elements. -/
def basisInG (op : GOper α) (D : Dev α) (f : Nat) : M (GSt α) Unit := do
  let s ← getG
  let b ← ptrG (op.inp f).basis
  let k ← ptrG (s.keyIn op f)
  let u ← readEv k
  let v ← launchG (fun n => D.basis n b false op.ne .noTranspose (op.inp f).mode (some u) (s.qIn f).buf)
  setQIn f { s.qIn f with valid := true, buf := v }

/-- `ceed-cuda-ref-operator.c` 403-453 `CeedOperatorInputBasis_Cuda` with `skip_active = false`. -/
def inputBasisG (op : GOper α) (D : Dev α) (inv : VPtr) (f : Nat) : M (GSt α) Unit :=
  if (op.inp f).mode = .none then borrowIn op inv f
  else if isBasisMode (op.inp f).mode then basisInG op D f
  else pure ()

/-- `ceed-cuda-ref-operator.c` 458-485 `CeedOperatorInputRestore_Cuda` with `skip_active = false`. `CeedVectorTakeArray`
needs a borrowed array (`interface/ceed-vector.c` 448-471). -/
def inputRestore (op : GOper α) (f : Nat) : M (GSt α) Unit :=
  if (op.inp f).mode = .none then do
    let s ← getG
    M.check ((s.qIn f).bor.isSome = true) .backend
    setQIn f { s.qIn f with valid := false, bor := none }
    match s.keyIn op f with
    | some k => do
      M.check (0 < (s.ev k).rd) .access
      setEv k { s.ev k with rd := (s.ev k).rd - 1 }
    | none => pure ()
  else pure ()

/-- `ceed-cuda-ref-operator.c` 525-535: an output without basis is written where it is restricted from. -/
def borrowOut (op : GOper α) (o : Nat) : M (GSt α) Unit :=
  if (op.out o).mode = .none then do
    let s ← getG
    let k ← ptrG (s.tabs.outOwn o)
    let _ ← openEv (.out k) false
    setEv (.out k) { s.ev (.out k) with wr := true }
    setQOut o { s.qOut o with bor := some (.ev (.out k)) }
  else pure ()

/-- The array of a vector of quadrature data. -/
def GSt.arr (s : GSt α) (q : QVec α) : Buf α :=
  match q.bor with
  | none => q.buf
  | some (.ev k) => (s.ev k).buf
  | some (.vec v) => (s.vecs v).buf

/-- The array of an output after the kernel: thread of point `p` writes `d_v[p + num_qpts * comp]`
(`include/ceed/jit-source/cuda/cuda-ref-qfunction.h` 27-32). -/
def writeQuads (np size : Nat) (y : Nat → Nat → α) (b : Buf α) : Buf α :=
  ⟨b.len, fun x => if x < np * size then y (x / np) (x % np) else b.val x⟩

/-- What the threads read: `d_u[p + num_qpts * comp]`, `size` components of each of `nin` inputs (lines 17-22). -/
def readQuads (op : GOper α) (s : GSt α) (p : Nat) : Nat → Nat → α :=
  fun i c => if i < op.nin ∧ c < (op.inp i).size then (s.arr (s.qIn i)).val (c * (op.ne * op.Q) + p) else 0

/-- Line 538: one output of the QFunction, `y c p` the values of component `c` at point `p`. -/
def writeOutG (op : GOper α) (y : Nat → Nat → Nat → α) (o : Nat) : M (GSt α) Unit := do
  let s ← getG
  if (s.arr (s.qOut o)).len < op.ne * op.Q * (op.out o).size then M.undef else do
    match (s.qOut o).bor with
    | none => setQOut o ⟨true, none, writeQuads (op.ne * op.Q) (op.out o).size (y o) (s.qOut o).buf⟩
    | some (.ev k) => setEv k { s.ev k with buf := writeQuads (op.ne * op.Q) (op.out o).size (y o) (s.ev k).buf }
    | some (.vec _) => M.undef

/-- Line 538, one input of the QFunction: `CeedVectorGetArrayRead`, and all entries the kernel reads exist. -/
def readInG (op : GOper α) (i : Nat) : M (GSt α) Unit := do
  let s ← getG
  M.check ((s.qIn i).bor.isSome = true ∨ (s.qIn i).valid = true) .backend
  if (s.arr (s.qIn i)).len < op.ne * op.Q * (op.inp i).size then M.undef else pure ()

/-- `backends/cuda-ref/ceed-cuda-ref-qfunction.c` 21-62 `CeedQFunctionApply_Cuda` and its kernel. Each thread reads and
writes the entries of its own points only, inputs and outputs are different arrays, and no thread waits for another: all
schedules give the same arrays, and the launch is modelled by its result. A grid of no blocks is refused. Not modelled:
the context data, the compilation, the check of `CeedQFunctionApply` that the number of points is a multiple of the vector
length (`interface/ceed-qfunction.c` 1053). -/
def qfApply (op : GOper α) : M (GSt α) Unit := do
  M.loop op.nin (readInG op)
  let s ← getG
  M.check (0 < op.ne * op.Q) .backend
  M.loop op.nout (writeOutG op (fun o c p => op.g (readQuads op s p) o c))

/-- Lines 556-568: transposed basis action. -/
def basisOutG (op : GOper α) (D : Dev α) (f : Nat) : M (GSt α) Unit := do
  let s ← getG
  let b ← ptrG (op.out f).basis
  let k ← ptrG (s.keyOut op f)
  M.check ((s.qOut f).bor.isSome = true ∨ (s.qOut f).valid = true) .backend
  let v ← openEv k (s.tabs.outAdd f)
  let w ← launchG (fun n => D.basis n b (s.tabs.outAdd f) op.ne .transpose (op.out f).mode (some (s.arr (s.qOut f))) v)
  storeEv k w

/-- Lines 584-589: the array of an output without basis is given back. The vector whose array is taken is that of output
`i`, the position in the order, not that of the output at this position (line 587). -/
def giveBack (op : GOper α) (i f : Nat) : M (GSt α) Unit :=
  if (op.out f).mode = .none then do
    let s ← getG
    M.check ((s.qOut i).bor.isSome = true) .backend
    setQOut i { s.qOut i with valid := false, bor := none }
    let k ← ptrG (s.keyOut op f)
    M.check ((s.ev k).wr = true) .access
    setEv k { s.ev k with wr := false, valid := true }
  else pure ()

/-- A vector changed by a transposed restriction: it needs valid data, its state counter advances by two. -/
def scatterG' (D : Dev α) (x : CRstr) (w : Buf α) (p : VPtr) : M (GSt α) Unit := do
  let u ← readVecG p
  let v ← ptrG (vecOf p)
  let u' ← launchG (fun n => D.rstr n x .transpose w u)
  modG (fun s => { s with vecs := Function.update s.vecs v ⟨(s.vecs v).state + 2, true, u'⟩ })

/-- Lines 592-598. -/
def restrictOutG (op : GOper α) (D : Dev α) (outv : VPtr) (f : Nat) : M (GSt α) Unit := do
  let s ← getG
  if s.tabs.outSkip f = true then pure () else do
    let r ← ptrG (op.out f).rid
    let k ← ptrG (s.keyOut op f)
    let w ← readEv k
    scatterG' D (op.rstrs r) w ((op.out f).vec.ptr outv)

/-- Lines 554-580: the basis action of an output. -/
def basisOrNot (op : GOper α) (D : Dev α) (f : Nat) : M (GSt α) Unit :=
  if (op.out f).mode = .none then pure ()
  else if isBasisMode (op.out f).mode then basisOutG op D f
  else M.fail .backend

/-- `ceed-cuda-ref-operator.c` 546-600: the output at position `i` of the order. -/
def outputG (op : GOper α) (D : Dev α) (outv : VPtr) (i f : Nat) : M (GSt α) Unit := do
  basisOrNot op D f
  giveBack op i f
  restrictOutG op D outv f

/-- Lines 516-522: the input at a position of the order. -/
def inputG (op : GOper α) (D : Dev α) (inv : VPtr) (f : Nat) : M (GSt α) Unit := do
  inputRestrict op D inv f
  inputBasisG op D inv f

/-- The work vector handed out by `CeedGetWorkVector` (`interface/ceed.c` 833-868): `extra` entries longer than asked,
with anything in it. -/
structure Work (α : Type) where
  valid : Bool
  extra : Nat
  val : Nat → α

/-- `ceed-cuda-ref-operator.c` 488-606 `CeedOperatorApplyAdd_Cuda`. -/
def applyAddCuda (op : GOper α) (D : Dev α) (wk : Work α) (inv outv : VPtr) : M (GSt α) Unit := do
  setupG op D
  let s ← getG
  setEv .work ⟨wk.valid, 0, false, ⟨s.tabs.maxLen + wk.extra, wk.val⟩⟩
  M.loop op.nin (fun i => do
    let s ← getG
    inputG op D inv (s.tabs.inOrd.getD i 0))
  M.loop op.nout (borrowOut op)
  qfApply op
  M.loop op.nin (inputRestore op)
  M.loop op.nout (fun i => do
    let s ← getG
    outputG op D outv i (s.tabs.outOrd.getD i 0))

/-- `interface/ceed-operator.c` 2209-2234 `CeedOperatorApplyAdd` on a single operator that is ready. -/
def applyAddG (op : GOper α) (D : Dev α) (wk : Work α) (inv outv : VPtr) : M (GSt α) Unit :=
  if 0 < op.ne then applyAddCuda op D wk inv outv else pure ()

/-- `CeedVectorSetValue(vec, 0.0)`. -/
def zeroVecG (p : VPtr) : M (GSt α) Unit := fun s =>
  match p with
  | .vec i =>
    .ok { s with vecs := Function.update s.vecs i ⟨(s.vecs i).state + 2, true, ⟨(s.vecs i).buf.len, fun _ => 0⟩⟩ } ()
  | .none => .ok s ()
  | .null => .ub

/-- `interface/ceed-operator.c` 2130-2192 `CeedOperatorApply` on a single operator that is ready; the backend registers no
`Apply`. -/
def applyG (op : GOper α) (D : Dev α) (wk : Work α) (inv outv : VPtr) : M (GSt α) Unit := do
  M.loop op.nout (fun o => zeroVecG ((op.out o).vec.ptr outv))
  applyAddG op D wk inv outv

end Verif.Gpu
