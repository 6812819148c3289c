import Verif.Operator.Model
import Verif.Basis.Points

/-!
# Operators at points: application by the reference backend

Models `backends/ref/ceed-ref-operator.c` 673-1075 and the application functions of `interface/ceed-operator.c`. The
QFunction is evaluated element by element at the points of the element, whose number varies; fields with a basis live on
the mesh, fields without basis live on points.

The state of `Verif/Operator/Model.lean` is reused for the vectors, the tables of shared E-vectors, and the E-vectors
`e_vecs_full` of the passive inputs (`impl.eIn`; those of outputs are never used). What is computed for one element is kept
in `Dyn`. Basis objects are numbered, the evaluation at points keeps data in them (`Verif/Basis/Points.lean`). The user
function is a family `F`: `F n` computes the output arrays from the input arrays when called with `n` points.
-/

namespace Verif
namespace Operator

open Restriction (Rstr TMode)
open Basis (Bas EMode PBas Env)

variable {K : Type} [Field K]

/-- An operator at points: `inB`, `outB` number the basis objects of the fields, `points` are the restriction and the vector
given to `CeedOperatorAtPointsSetPoints` (`none`: not called). -/
structure POper (K : Type) where
  op : Oper K
  inB : Nat → Nat
  outB : Nat → Nat
  points : Option (Rstr × Nat)
  F : Nat → (Nat → Nat → K) → Nat → Nat → K

/-- What is computed for one element: `q` are the vectors created as `q_vecs_in`, `w` and `eb` those created as `e_vecs_out`
and `e_vecs_in` (named by the field that created them), `xe` is `point_coords_elem`, `mx` is `max_num_points`, `bas` the
basis objects. -/
structure Dyn (K : Type) where
  q : Nat → Buf K
  w : Nat → Buf K
  eb : Nat → Buf K
  xe : Buf K
  mx : Nat
  bas : Nat → PBas K

/-- The state: `off` is the local variable `num_points_offset`. -/
structure PSt (K : Type) where
  base : St K
  d : Dyn K
  off : Nat

/-- Read the state. -/
def getP : M (PSt K) (PSt K) := fun s => .ok s s
/-- Change the data of one element. -/
def modD (g : Dyn K → Dyn K) : M (PSt K) Unit := fun s => .ok { s with d := g s.d } ()
/-- Set `num_points_offset`. -/
def setOff (n : Nat) : M (PSt K) Unit := fun s => .ok { s with off := n } ()
/-- A pointer that must not be null. -/
def pptr {β : Type _} (p : Option β) : M (PSt K) β :=
  match p with
  | some b => pure b
  | none => M.undef
/-- An action on the common part of the state. -/
def onP {β : Type _} (m : M (St K) β) : M (PSt K) β := fun s =>
  match m s.base with
  | .ok b a => .ok { s with base := b } a
  | .err b e => .err { s with base := b } e
  | .ub => .ub
/-- An action on basis object `id`. -/
def onBas {β : Type _} (id : Nat) (m : M (PBas K) β) : M (PSt K) β := fun s =>
  match m (s.d.bas id) with
  | .ok b a => .ok { s with d := { s.d with bas := Function.update s.d.bas id b } } a
  | .err b e => .err { s with d := { s.d with bas := Function.update s.d.bas id b } } e
  | .ub => .ub
/-- Store `q_vecs_in[i]`. -/
def putQ (i : Nat) (v : Buf K) : M (PSt K) Unit := modD (fun d => { d with q := Function.update d.q i v })
/-- Store an E-vector of one element of the inputs. -/
def putE (k : Nat) (v : Buf K) : M (PSt K) Unit := modD (fun d => { d with eb := Function.update d.eb k v })
/-- Store an E-vector of one element of the outputs. -/
def putW (k : Nat) (v : Buf K) : M (PSt K) Unit := modD (fun d => { d with w := Function.update d.w k v })

/-- Lines 730-769: length of the E-vector of one element of a field. -/
def OField.evAt (mx : Nat) (a : OField K) : Option Nat :=
  if a.mode = .none then some (mx * a.size)
  else if isBasisMode a.mode then a.basis.map (fun b => b.P * b.nc)
  else none

variable [LinearOrder K]

/-- Lines 761-768: the weights of `max_num_points` points, evaluated once. -/
def weightsAt (P : POper K) (en : Env K) (mx i : Nat) : M (PSt K) Unit :=
  if (P.op.inp i).mode = .weight then
    match (P.op.inp i).basis with
    | some _ => do
      let v ← onBas (P.inB i) (Basis.applyAtPoints en 1 ⟨1, fun _ => mx⟩ .noTranspose .weight none none ⟨mx, fun _ => 0⟩)
      putQ i v
    | none => M.fail .unsupported
  else pure ()

/-- `ceed-ref-operator.c` 832-882 `CeedOperatorSetupAtPoints_Ref` with 673-827 `CeedOperatorSetupFieldsAtPoints_Ref`; lines
710, 725, 736-742, 755-758 and 763 give the lengths of the vectors, lines 711 and 770-772 their contents. The sharing of E-vectors (774-824) is that
of `CeedOperatorSetupFields_Ref`; `e_vecs` and `e_vecs_full` are shared in the same way, `it.full` and `ot.full` name both.
Without points the restriction is a null pointer that line 705 dereferences. -/
def setupAt (P : POper K) (en : Env K) : M (PSt K) Unit := do
  let s ← getP
  if s.base.impl.done then pure () else do
    let p ← pptr P.points
    let mm ← M.lift (Restriction.minMaxPointsInElement p.1)
    let mx := mm.2.toNat
    modD (fun d => { d with
      q := fun i => ⟨mx * (P.op.inp i).size, fun _ => 0⟩
      eb := fun i => ⟨((P.op.inp i).evAt mx).getD 0, fun _ => 0⟩
      w := fun o => ⟨((P.op.out o).evAt mx).getD 0, fun _ => 0⟩
      xe := ⟨p.1.numComp * mx, fun _ => 0⟩
      mx := mx })
    M.loop P.op.nin (weightsAt P en mx)
    let it ← M.lift (setupInWith (OField.evAt mx) P.op)
    let ot ← M.lift (setupOutWith (OField.evAt mx) P.op)
    onP (modI (fun c => { c with
      done := true
      idRstr := false
      it := it
      ot := ot
      states := fun _ => 0
      eIn := fun i => ⟨eSizeOf P.op (P.op.inp i), fun _ => 0⟩
      eInOk := fun i => decide ((P.op.inp i).mode ≠ .weight)
      rd := fun _ => 0
      wr := fun _ => false }))

/-- Lines 1046-1048: coordinates and number of the points of element `e`. -/
def coordsEl (P : POper K) (e : Nat) : M (PSt K) Nat := do
  let p ← pptr P.points
  let x ← onP (readVec (.vec p.2))
  let s ← getP
  let v ← M.lift (Restriction.applyAtPointsInElement p.1 e .noTranspose x s.d.xe)
  modD (fun d => { d with xe := v })
  let n ← M.lift (Restriction.numPointsInElement p.1 e)
  pure n.toNat

/-- Lines 913-917: gather one element. -/
def gatherEl (r : Rstr) (e : Nat) (u v : Buf K) : Res (Buf K) :=
  if r.rtype = .points then Restriction.applyAtPointsInElement r e .noTranspose u v
  else Restriction.applyBlock r e .noTranspose u v

/-- Lines 1003-1007: add one element. -/
def addEl (r : Rstr) (e : Nat) (u v : Buf K) : Res (Buf K) :=
  if r.rtype = .points then Restriction.applyAtPointsInElement r e .transpose u v
  else Restriction.applyBlock r e .transpose u v

/-- Lines 912-918: restriction of one element of an active input. `CEED_ELEMRESTRICTION_NONE` cannot be applied. -/
def restrictEl (P : POper K) (inv : VPtr) (e i : Nat) : M (PSt K) Unit := do
  let s ← getP
  match (P.op.inp i).rid with
  | none => M.fail .unsupported
  | some r => do
    let k ← pptr (s.base.impl.it.full i)
    let u ← onP (readVec inv)
    let v ← M.lift (gatherEl (P.op.rstrs r) e u (s.d.eb k))
    putE k v

/-- Lines 937-938: basis action on the E-vector `u` of one element of input `i`. -/
def basisEl (P : POper K) (en : Env K) (np i : Nat) (u : Buf K) : M (PSt K) Unit := do
  let s ← getP
  let v ← onBas (P.inB i) (Basis.applyAtPoints en 1 ⟨1, fun _ => np⟩ .noTranspose (P.op.inp i).mode (some s.d.xe) (some u) (s.d.q i))
  putQ i v

/-- Lines 927-940 for a passive input: `e_vecs_in[i]` points into the E-vector of all elements. -/
def passiveBasisEl (P : POper K) (en : Env K) (e np i : Nat) : M (PSt K) Unit := do
  let s ← getP
  let k ← pptr (s.base.impl.it.full i)
  let b ← pptr (P.op.inp i).basis
  let n ← pptr (s.base.impl.it.ev i)
  let u ← M.lift (slice (s.base.impl.eIn k) (e * elemSizeOf P.op (P.op.inp i) * b.nc) n)
  basisEl P en np i u

/-- Lines 927-940 for an active input. -/
def activeBasisEl (P : POper K) (en : Env K) (np i : Nat) : M (PSt K) Unit := do
  let s ← getP
  let k ← pptr (s.base.impl.it.full i)
  basisEl P en np i (s.d.eb k)

/-- Lines 921-925 for a passive input: `q_vecs_in[i]` points into the E-vector of all elements. -/
def passiveEl (P : POper K) (i : Nat) : M (PSt K) Unit := do
  let s ← getP
  let k ← pptr (s.base.impl.it.full i)
  let u ← M.lift (slice (s.base.impl.eIn k) (s.off * (P.op.inp i).size) (s.d.q i).len)
  putQ i u

/-- Lines 919-943. -/
def evalEl (P : POper K) (en : Env K) (e np i : Nat) : M (PSt K) Unit :=
  if (P.op.inp i).mode = .none then
    if (P.op.inp i).vec = .active then pure () else passiveEl P i
  else if isBasisMode (P.op.inp i).mode then
    if (P.op.inp i).vec = .active then activeBasisEl P en np i else passiveBasisEl P en e np i
  else pure ()

/-- Lines 911-918. -/
def restrictElIf (P : POper K) (inv : VPtr) (e i : Nat) : M (PSt K) Unit := do
  let s ← getP
  if (P.op.inp i).vec = .active ∧ s.base.impl.it.skip i = false then restrictEl P inv e i else pure ()

/-- One iteration of `CeedOperatorInputBasisAtPoints_Ref`, lines 887-947, with `skip_active = false`. -/
def inputEl (P : POper K) (en : Env K) (inv : VPtr) (e np i : Nat) : M (PSt K) Unit := do
  restrictElIf P inv e i
  evalEl P en e np i

/-- The vector `q_vecs_in[i]`: for an active input without basis it is the vector created as `e_vecs_in[i]` (lines 738-739).
-/
def qBuf (P : POper K) (d : Dyn K) (i : Nat) : Buf K :=
  if (P.op.inp i).mode = .none ∧ (P.op.inp i).vec = .active then d.eb i else d.q i

/-- Store `q_vecs_in[i]` (lines 738-739). -/
def putQBuf (P : POper K) (i : Nat) (v : Buf K) : M (PSt K) Unit :=
  if (P.op.inp i).mode = .none ∧ (P.op.inp i).vec = .active then putE i v else putQ i v

/-- Line 1056: the arrays given to the user function with `np` points. -/
def clipAt (P : POper K) (np : Nat) (d : Dyn K) : Nat → Nat → K :=
  fun i x => if i < P.op.nin ∧ x < np * (P.op.inp i).size then (qBuf P d i).val x else 0

/-- Lines 1054-1057, an output without basis: `q_vecs_out[o]` is the vector created as `e_vecs_out[o]` (lines 738-739). The
identity QFunction is not called. -/
def directEl (P : POper K) (np : Nat) (y : Nat → Nat → K) (o : Nat) : M (PSt K) Unit := do
  let s ← getP
  if (P.op.out o).mode = .none ∧ P.op.isId = false then do
    let t ← M.lift (slice (s.d.w o) 0 (np * (P.op.out o).size))
    putW o (paste (s.d.w o) 0 ⟨t.len, y o⟩)
  else pure ()

/-- Lines 967-990: transposed basis action on one element of output `o`. For the identity QFunction `q_vecs_out[0]` and
`e_vecs_out[0]` are `q_vecs_in[0]` (lines 873-877). -/
def outBasisEl (P : POper K) (en : Env K) (np : Nat) (y : Nat → Nat → K) (o : Nat) : M (PSt K) Unit :=
  if (P.op.out o).mode = .none then pure ()
  else if isBasisMode (P.op.out o).mode then do
    let s ← getP
    let k ← pptr (s.base.impl.ot.full o)
    if P.op.isId = true ∧ o = 0 then do
      let v ← onBas (P.outB o) (Basis.applyAtPoints en 1 ⟨1, fun _ => np⟩ .transpose (P.op.out o).mode (some s.d.xe)
        (some (qBuf P s.d 0)) (qBuf P s.d 0))
      putQBuf P 0 v
    else do
      let u : Buf K := ⟨s.d.mx * (P.op.out o).size, y o⟩
      let v ← onBas (P.outB o) (if s.base.impl.ot.add o then
          Basis.applyAddAtPoints en 1 ⟨1, fun _ => np⟩ .transpose (P.op.out o).mode (some s.d.xe) (some u) (s.d.w k)
        else Basis.applyAtPoints en 1 ⟨1, fun _ => np⟩ .transpose (P.op.out o).mode (some s.d.xe) (some u) (s.d.w k))
      putW k v
  else M.fail .backend

/-- A vector changed by the transposed restriction of one element (compare `scatterInto`). -/
def scatterEl (r : Rstr) (e : Nat) (w : Buf K) (p : VPtr) : M (St K) Unit := fun s =>
  match p with
  | .vec i =>
    if (s.vecs i).valid then
      match addEl r e w (s.vecs i).buf with
      | .ok v => .ok { s with vecs := Function.update s.vecs i ⟨(s.vecs i).state + 2, true, v⟩ } ()
      | .err e => .err s e
      | .ub => .ub
    else .err s .backend
  | .none => .err s .dimension
  | .null => .ub

/-- Lines 991-1007: restriction of one element of output `o`. -/
def outScatterEl (P : POper K) (outv : VPtr) (e o : Nat) : M (PSt K) Unit := do
  let s ← getP
  if s.base.impl.ot.skip o then pure () else do
    let k ← pptr (s.base.impl.ot.full o)
    let r ← pptr (P.op.out o).rid
    onP (scatterEl (P.op.rstrs r) e (if P.op.isId = true ∧ o = 0 then qBuf P s.d 0 else s.d.w k) ((P.op.out o).vec.ptr outv))

/-- One iteration of `CeedOperatorOutputBasisAtPoints_Ref`, lines 952-1012. -/
def outputEl (P : POper K) (en : Env K) (outv : VPtr) (e np : Nat) (y : Nat → Nat → K) (o : Nat) : M (PSt K) Unit := do
  outBasisEl P en np y o
  outScatterEl P outv e o

/-- One element: lines 1043-1065. -/
def elementAt (P : POper K) (en : Env K) (inv outv : VPtr) (e : Nat) : M (PSt K) Unit := do
  let np ← coordsEl P e
  M.loop P.op.nin (inputEl P en inv e np)
  let s ← getP
  let y := P.F np (clipAt P np s.d)
  M.loop P.op.nout (directEl P np y)
  M.loop P.op.nout (outputEl P en outv e np y)
  setOff (s.off + np)

/-- `ceed-ref-operator.c` 1017-1075 `CeedOperatorApplyAddAtPoints_Ref`. -/
def applyAddAtCore (P : POper K) (en : Env K) (inv outv : VPtr) : M (PSt K) Unit := do
  setupAt P en
  onP (setupInputs P.op .null true)
  setOff 0
  M.loop P.op.ne (elementAt P en inv outv)
  onP (M.loop P.op.nin (restoreIn P.op true))

/-- `interface/ceed-operator.c` 2209-2234 `CeedOperatorApplyAdd` on a single operator at points that is ready. -/
def applyAddAt (P : POper K) (en : Env K) (inv outv : VPtr) : M (PSt K) Unit :=
  if 0 < P.op.ne then applyAddAtCore P en inv outv else pure ()

/-- `interface/ceed-operator.c` 2130-2192 `CeedOperatorApply` on a single operator at points that is ready; no `Apply` is
registered. -/
def applyAt (P : POper K) (en : Env K) (inv outv : VPtr) : M (PSt K) Unit := do
  onP (M.loop P.op.nout (fun o => zeroVec ((P.op.out o).vec.ptr outv)))
  applyAddAt P en inv outv

end Operator
end Verif
