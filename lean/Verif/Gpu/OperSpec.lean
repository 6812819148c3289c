import Verif.Gpu.Oper
import Verif.Operator.Spec

/-!
# Specification of operator application on a device

The action of an operator on a device is that of the same operator on the host, `Meaning.action` of `Operator/Spec.lean`:
the sum over elements of `E_out^T B_out^T f(B_in E_in u)`.
-/

namespace Verif.Gpu

open Finset
open Verif.Restriction (TMode RData)
open Verif.Basis (EMode)
open Verif.Operator (VPtr FVec LVec isBasisMode OField Oper Meaning Advances)

variable {α : Type} [CommRing α]

/-- The field without the device data. -/
def GField.host (a : GField α) : OField α := ⟨a.vec, a.rid, a.basis.map DBas.bas, a.mode, a.size⟩

/-- The operator without the device data: its QFunction calls `g` at each of the `Q` points of an element, whose input and
output arrays have the points as their fastest index. -/
def GOper.host (op : GOper α) : Oper α where
  ne := op.ne
  Q := op.Q
  nin := op.nin
  nout := op.nout
  inp i := (op.inp i).host
  out o := (op.out o).host
  rstrs r := (op.rstrs r).base
  isId := false
  f X o x := op.g (fun i c => X i (c * op.Q + x % op.Q)) o (x / op.Q)

/-- `CeedElemRestrictionApply` with `CEED_NOTRANSPOSE` gathers as `D` says (C61). -/
def GatherBy (x : CRstr) (D : RData α) : Prop :=
  x.base.eSize = D.ne * D.es * D.nc ∧ ∀ u v : Buf α, x.base.lSize ≤ u.len → D.ne * D.es * D.nc ≤ v.len →
    Launches (applyCuda x .plain .noTranspose u v) fun s => IsGatherG D u.val (s .v)

/-- `CeedElemRestrictionApply` with `CEED_TRANSPOSE` adds what `D` says (C61). -/
def ScatterBy (x : CRstr) (D : RData α) : Prop :=
  ∀ u v : Buf α, D.ne * D.es * D.nc ≤ u.len → x.base.lSize ≤ v.len →
    Launches (applyCuda x .plain .transpose u v) fun s => ∀ t, s .v t = v.val t + scatterG D u.val t

/-- A restriction with backend strides: the L-vector has the layout of the E-vector. -/
def DirectBy (x : CRstr) (D : RData α) : Prop :=
  (D.ne * D.es * D.nc : Nat) ≤ x.base.lSize ∧ ∀ (u : Nat → α), IsGatherG D u u

/-- `CEED_EVAL_WEIGHT` stores the weights `w` for every element (C62). -/
def WeightByG (dv : Device) (x : DBas α) (w : Nat → α) : Prop :=
  ∀ (junk : Vals α) (ne : Nat) (v : Buf α), 0 < ne → ne * x.bas.Q ≤ v.len →
    Launches (applyDev dv junk x ne .noTranspose .weight none v) fun s => ∀ e < ne, ∀ q < x.bas.Q, s .v (e * x.bas.Q + q) = w q

/-- The restriction of a field exists, acts as `S.D` says, and has the elements of the operator. -/
def HasRstrG (op : GOper α) (S : Meaning α) (a : GField α) : Prop :=
  ∃ r, a.rid = some r ∧ GatherBy (op.rstrs r) (S.D r) ∧ (S.D r).ne = op.ne ∧
    ((op.rstrs r).backendStrided = true → DirectBy (op.rstrs r) (S.D r))

/-- Basis and restriction of a field fit together. -/
def FitsG (op : GOper α) (S : Meaning α) (a : GField α) (x : DBas α) : Prop :=
  a.basis = some x ∧ x.bas.P = (S.dat a.host).es ∧ x.bas.nc = (S.dat a.host).nc ∧ x.bas.Q = op.Q ∧
    a.size = (S.dat a.host).nc * x.bas.qComp a.mode

/-- An input field is set correctly. -/
def GInOK (dv : Device) (op : GOper α) (S : Meaning α) (i : Nat) : Prop :=
  match (op.inp i).mode with
  | .weight => (op.inp i).vec = .none ∧ (op.inp i).rid = none ∧ (op.inp i).size = 1 ∧
      ∃ b, (op.inp i).basis = some b ∧ b.bas.Q = op.Q ∧ WeightByG dv b (S.w i)
  | .none => (op.inp i).vec ≠ .none ∧ HasRstrG op S (op.inp i) ∧ (S.dat (op.inp i).host).es = op.Q ∧
      (op.inp i).size = (S.dat (op.inp i).host).nc
  | em => (op.inp i).vec ≠ .none ∧ HasRstrG op S (op.inp i) ∧ ∃ b, FitsG op S (op.inp i) b ∧ MulByG dv b em (S.mIn i)

/-- The restriction of an output also scatters. -/
def Scatters (op : GOper α) (S : Meaning α) (a : GField α) : Prop := ∀ r, a.rid = some r → ScatterBy (op.rstrs r) (S.D r)

/-- An output field is set correctly. -/
def GOutOK (dv : Device) (op : GOper α) (S : Meaning α) (o : Nat) : Prop :=
  match (op.out o).mode with
  | .weight => False
  | .none => HasRstrG op S (op.out o) ∧ Scatters op S (op.out o) ∧ (S.dat (op.out o).host).es = op.Q ∧
      (op.out o).size = (S.dat (op.out o).host).nc
  | em => HasRstrG op S (op.out o) ∧ Scatters op S (op.out o) ∧ ∃ b, FitsG op S (op.out o) b ∧
      MulByTG dv b em (S.mOut o) ∧ AddByTG dv b em (S.mOut o)

/-- Fields of a ready operator, and how they share vectors and restrictions. Each of the last four conditions is necessary:
see the witnesses in `OperExamples.lean`. -/
structure GOK (dv : Device) (op : GOper α) (S : Meaning α) : Prop where
  pts : 0 < op.Q
  inp : ∀ i < op.nin, GInOK dv op S i
  out : ∀ o < op.nout, GOutOK dv op S o
  /-- A passive input without basis and with backend strides is followed by no input with basis that has the same vector
  and restriction. -/
  inDirect : ∀ i j, i < j → j < op.nin → (op.inp i).same (op.inp j) = true → (op.inp i).vec ≠ .active →
    (op.inp i).mode = .none → op.backend (op.inp i) = true → (op.inp j).mode = .none
  /-- If an active input has no basis, all active inputs have the same restriction. -/
  inWork : ∀ i < op.nin, ∀ j < op.nin, (op.inp i).vec = .active → (op.inp i).mode = .none → (op.inp j).vec = .active →
    (op.inp j).rid = (op.inp i).rid
  /-- Different outputs with the same vector and restriction have bases. -/
  outShare : ∀ i < op.nout, ∀ j < op.nout, i ≠ j → (op.out i).same (op.out j) = true → isBasisMode (op.out i).mode = true
  /-- An output without basis does not stand between two outputs with the same vector and restriction. -/
  outBetween : ∀ i j k, i < j → j < k → k < op.nout → (op.out j).mode = .none → (op.out i).same (op.out k) = false

/-- Vectors read by an application hold valid data and are long enough. -/
def InReadyG (op : GOper α) (inv : VPtr) (s : GSt α) : Prop :=
  ∀ i < op.nin, (op.inp i).mode ≠ .weight → ∃ r v, (op.inp i).rid = some r ∧ (op.inp i).vec.ptr inv = .vec v ∧
    (s.vecs v).valid = true ∧ (op.rstrs r).base.lSize ≤ (s.vecs v).buf.len

/-- Vectors added into by an application hold valid data and are long enough. -/
def OutReadyG (op : GOper α) (outv : VPtr) (s : GSt α) : Prop :=
  ∀ o < op.nout, ∃ r v, (op.out o).rid = some r ∧ (op.out o).vec.ptr outv = .vec v ∧
    (s.vecs v).valid = true ∧ (op.rstrs r).base.lSize ≤ (s.vecs v).buf.len

/-- Vectors written by an application are long enough. -/
def OutLongG (op : GOper α) (outv : VPtr) (s : GSt α) : Prop :=
  ∀ o < op.nout, ∃ r v, (op.out o).rid = some r ∧ (op.out o).vec.ptr outv = .vec v ∧
    (op.rstrs r).base.lSize ≤ (s.vecs v).buf.len

/-- Contents of all vectors. -/
def GSt.L (s : GSt α) : Nat → Nat → α := fun v => (s.vecs v).buf.val

/-- Histories of one operator: it starts without backend data, with vectors in any state (a vector whose counter is zero has
never held data); then any number of changes of vectors and of applications follow, the vectors of an application holding
data and being long enough. -/
inductive GReach (op : GOper α) (D : Dev α) : GSt α → Prop
  | start (s : GSt α) (hd : s.done = false) (hv : ∀ i, (s.vecs i).state = 0 → (s.vecs i).valid = false) : GReach op D s
  | user {s : GSt α} {vecs' : Nat → LVec α} (h : GReach op D s) (ha : Advances s.vecs vecs') :
      GReach op D { s with vecs := vecs' }
  | applyAdd {s s' : GSt α} {wk : Work α} {inv outv : VPtr} (h : GReach op D s) (hi : InReadyG op inv s)
      (ho : OutReadyG op outv s) (e : applyAddG op D wk inv outv s = .ok s' ()) : GReach op D s'
  | apply {s s' : GSt α} {wk : Work α} {inv outv : VPtr} (h : GReach op D s) (hi : InReadyG op inv s)
      (ho : OutLongG op outv s) (e : applyG op D wk inv outv s = .ok s' ()) : GReach op D s'

end Verif.Gpu
