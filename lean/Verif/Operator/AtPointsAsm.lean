import Verif.Operator.AtPointsDiag

/-!
# Assembly of the QFunction of operators at points, reference backend

Models `backends/ref/ceed-ref-operator.c` 1080-1315 `CeedOperatorLinearAssembleQFunctionAtPointsCore_Ref` and its two callers. The
state of `Verif/Operator/AtPoints.lean` is extended by the assembled array, the pointer into it, and the numbers of components
kept by the operator. Not modelled: the array of the operator that a passive `q_vecs_in[i]` points to after an application (line
1166 may write zeros to it; the model is meant for operators that were assembled but not applied before), the values of passive
outputs, which nobody reads, and the return of the outputs' own arrays (lines 1273-1286). The restriction that is returned with the
array is that of lines 1180-1186, see `asmRstr`.
-/

namespace Verif
namespace Operator

open Restriction (Rstr TMode)
open Basis (Bas EMode PBas Env)

variable {K : Type} [Field K]

/-- The state: `asm` is the array of the vector `assembled`, `ptr` the position of the pointer `assembled_array` in it, `qin` and
`qout` are `impl->qf_size_in` and `impl->qf_size_out`. -/
structure QSt (K : Type) where
  p : PSt K
  asm : Buf K
  ptr : Nat
  qin : Nat
  qout : Nat

/-- Read the state. -/
def getQA : M (QSt K) (QSt K) := fun s => .ok s s
/-- Change the state. -/
def modQA (g : QSt K → QSt K) : M (QSt K) Unit := fun s => .ok (g s) ()
/-- An action on the operator and the vectors. -/
def onQA {β : Type _} (m : M (PSt K) β) : M (QSt K) β := fun s =>
  match m s.p with
  | .ok b a => .ok { s with p := b } a
  | .err b e => .err { s with p := b } e
  | .ub => .ub

/-- Lines 1126-1132, 1156-1162: whether a field has a restriction at points. -/
def atPts (P : POper K) (a : OField K) : Bool :=
  match a.rid with
  | some r => decide ((P.op.rstrs r).rtype = .points)
  | none => false

/-- Lines 1116-1139, the loop: the number of components of the active inputs. -/
def countInAt (P : POper K) : Nat → Res Nat
  | 0 => .ok 0
  | i + 1 => do
    let n ← countInAt P i
    if (P.op.inp i).vec = .active then
      if atPts P (P.op.inp i) then .err .backend else .ok (n + (P.op.inp i).size)
    else .ok n

/-- Line 1166: `CeedVectorSetValue(impl->q_vecs_in[i], 0.0)`, where `i` is the number of an output. There may be no such
input; then the pointer is null. -/
def clearOut (P : POper K) (o : Nat) : M (PSt K) Unit := if o < P.op.nin then clearQ P o else M.undef

/-- Lines 1146-1170, the loop: the number of components of the active outputs. -/
def countOutAt (P : POper K) : Nat → M (PSt K) Nat
  | 0 => pure 0
  | o + 1 => do
    let n ← countOutAt P o
    if (P.op.out o).vec = .active then
      if atPts P (P.op.out o) then M.fail .backend else do
        clearOut P o
        pure (n + (P.op.out o).size)
    else pure n

/-- Lines 1115-1142. -/
def sizeIn (P : POper K) : M (QSt K) Unit := do
  let s ← getQA
  if s.qin = 0 then do
    let n ← M.lift (countInAt P P.op.nin)
    M.check (n ≠ 0) .backend
    modQA (fun s => { s with qin := n })
  else pure ()

/-- Lines 1145-1173. -/
def sizeOut (P : POper K) : M (QSt K) Unit := do
  let s ← getQA
  if s.qout = 0 then do
    let n ← onQA (countOutAt P P.op.nout)
    M.check (0 < n) .backend
    modQA (fun s => { s with qout := n })
  else pure ()

/-- Lines 1176-1193: the vector is made if `build`, and set to zero. -/
def clearAsm (P : POper K) (build : Bool) : M (QSt K) Unit := do
  let s ← getQA
  match P.points with
  | none => M.undef
  | some p =>
    modQA (fun t => { t with
      asm := ⟨if build then s.qin * s.qout * p.1.numPoints else s.asm.len, fun _ => 0⟩
      ptr := 0 })

/-- Lines 1180-1186: the restriction returned with the vector. -/
def asmRstr (P : POper K) (qin qout : Nat) : Option (Res Rstr) :=
  P.points.map fun p => Restriction.createAtPoints P.op.ne p.1.numPoints (qin * qout : Nat) (qin * qout * p.1.numPoints : Nat) p.1.offsets

/-- Lines 1223-1229 and 1261-1267: component `c` of input `i` becomes `x` at all `np` points. -/
def unitQ (P : POper K) (i c np : Nat) (x : K) : M (PSt K) Unit := do
  let s ← getP
  if c * np + np ≤ (qBuf P s.d i).len then
    putQBuf P i ⟨(qBuf P s.d i).len, fun t => if c * np ≤ t ∧ t < c * np + np then x else (qBuf P s.d i).val t⟩
  else M.undef

/-- Lines 1233-1248: the array of output `o` is put at the pointer if it is active, and receives what the QFunction computes. -/
def storeAct (P : POper K) (np : Nat) (y : Nat → Nat → K) (o : Nat) : M (QSt K) Unit :=
  if (P.op.out o).vec = .active then do
    let s ← getQA
    let t ← M.lift (slice s.asm s.ptr (np * (P.op.out o).size))
    modQA (fun s => { s with asm := paste s.asm s.ptr ⟨t.len, y o⟩, ptr := s.ptr + np * (P.op.out o).size })
  else pure ()

/-- Lines 1249-1259: the identity QFunction; `q_vecs_out[0]` is `q_vecs_in[0]`. -/
def storeId (P : POper K) (np : Nat) : M (QSt K) Unit := do
  let s ← getQA
  let u ← M.lift (slice (qBuf P s.p.d 0) 0 ((P.op.out 0).size * np))
  let t ← M.lift (slice s.asm s.ptr ((P.op.out 0).size * np))
  modQA (fun s => { s with asm := paste s.asm s.ptr ⟨t.len, u.val⟩, ptr := s.ptr + (P.op.out 0).size * np })

/-- Lines 1221-1268: component `c` of input `i`. -/
def columnQ (P : POper K) (np i c : Nat) : M (QSt K) Unit := do
  onQA (unitQ P i c np 1)
  if P.op.isId then storeId P np
  else do
    let s ← getQA
    M.loop P.op.nout (storeAct P np (P.F np (clipAt P np s.p.d)))
  onQA (unitQ P i c np 0)

/-- Lines 1208-1269: input `i`. -/
def columnsQ (P : POper K) (np i : Nat) : M (QSt K) Unit :=
  if (P.op.inp i).vec = .active then M.loop (P.op.inp i).size (columnQ P np i) else pure ()

variable [LinearOrder K]

/-- Lines 1196-1271: one element. -/
def asmElement (P : POper K) (en : Env K) (e : Nat) : M (QSt K) Unit := do
  let np ← onQA (coordsEl P e)
  onQA (M.loop P.op.nin (passEl P en e np))
  M.loop P.op.nin (columnsQ P np)
  onQA (do
    let s ← getP
    setOff (s.off + np))

/-- `ceed-ref-operator.c` 1080-1300 `CeedOperatorLinearAssembleQFunctionAtPointsCore_Ref`: with `build` for
`CeedOperatorLinearAssembleQFunction` (1305-1307), without for the update (1312-1315). `is_identity_rstr_op` is never set by the
setup at points. -/
def asmAtCore (P : POper K) (en : Env K) (build : Bool) : M (QSt K) Unit := do
  onQA (setupAt P en)
  onQA (onP (setupInputs P.op .null true))
  sizeIn P
  sizeOut P
  clearAsm P build
  onQA (setOff 0)
  M.loop P.op.ne (asmElement P en)
  onQA (onP (M.loop P.op.nin (restoreIn P.op true)))

end Operator
end Verif
