import Verif.Operator.Model
import Verif.Restriction.Spec
import Verif.Basis.Spec

/-!
# Specification of operator application

What the fields of an operator mean (restrictions as described by the user, basis matrices, quadrature weights), and the
action `sum over elements of E_out^T B_out^T f(B_in E_in u)` written out in indices.
-/

namespace Verif
namespace Operator

open Finset
open Restriction (RData Made)
open Basis (Bas EMode MulBy MulByT AddByT)

variable {α : Type} [CommRing α]

/-- Meaning of the parts of an operator: `D r` is the data from which restriction `r` was created, `mIn i`, `mOut o` are
the matrices (shape `q_comp, num_qpts, num_nodes`) of the bases of the fields in their evaluation modes, `w i` the
quadrature weights of the basis of input `i`. -/
structure Meaning (α : Type) where
  D : Nat → RData α
  mIn : Nat → Buf α
  mOut : Nat → Buf α
  w : Nat → Nat → α

/-- Contents of a vector argument. -/
def cont (L : Nat → Nat → α) : VPtr → Nat → α
  | .vec i => L i
  | _ => fun _ => 0

/-- Data of the restriction of a field. -/
def Meaning.dat (S : Meaning α) (a : OField α) : RData α := S.D (a.rid.getD 0)

/-- Entry `x` of the array of input `i` that the QFunction sees on element `e`, when the vectors hold `L` and the active
input is `inv`. Arrays have shape `q_comp, num_comp, num_qpts`. -/
def Meaning.inVal (S : Meaning α) (op : Oper α) (L : Nat → Nat → α) (inv : VPtr) (e i x : Nat) : α :=
  let a := op.inp i
  let D := S.dat a
  let u := cont L (a.vec.ptr inv)
  match a.mode with
  | .weight => S.w i x
  | .none => D.row u e (x / op.Q) (x % op.Q)
  | _ => ∑ n ∈ range D.es,
      (S.mIn i).val ((x / op.Q / D.nc * op.Q + x % op.Q) * D.es + n) * D.row u e (x / op.Q % D.nc) n

/-- The arrays of all inputs, as given to the QFunction on element `e`. -/
def Meaning.inArr (S : Meaning α) (op : Oper α) (L : Nat → Nat → α) (inv : VPtr) (e : Nat) : Nat → Nat → α :=
  fun i x => if i < op.nin ∧ x < op.Q * (op.inp i).size then S.inVal op L inv e i x else 0

/-- The arrays of all outputs, as computed by the QFunction on element `e`; the identity QFunction copies. -/
def Meaning.outArr (S : Meaning α) (op : Oper α) (L : Nat → Nat → α) (inv : VPtr) (e : Nat) : Nat → Nat → α :=
  if op.isId then S.inArr op L inv e else op.f (S.inArr op L inv e)

/-- Number of quadrature components of a field. -/
def OField.qc (a : OField α) : Nat :=
  match a.basis with
  | some b => b.qComp a.mode
  | none => 1

/-- Contribution of output `o` on element `e` to node `n` of component `k`: `B_out^T` of the output array. -/
def Meaning.elemOut (S : Meaning α) (op : Oper α) (L : Nat → Nat → α) (inv : VPtr) (o e k n : Nat) : α :=
  let a := op.out o
  let D := S.dat a
  match a.mode with
  | .none => S.outArr op L inv e o (k * op.Q + n)
  | _ => ∑ c ∈ range a.qc, ∑ q ∈ range op.Q,
      (S.mOut o).val ((c * op.Q + q) * D.es + n) * S.outArr op L inv e o ((c * D.nc + k) * op.Q + q)

/-- Entry `t` of what output `o` adds to its vector: `E_out^T` of the contributions of all elements. -/
def Meaning.adds (S : Meaning α) (op : Oper α) (L : Nat → Nat → α) (inv : VPtr) (o t : Nat) : α :=
  let D := S.dat (op.out o)
  ∑ e ∈ range D.ne, ∑ k ∈ range D.nc, ∑ n ∈ range D.es, ∑ m ∈ range D.es,
    if D.lidx e m k = t then D.coef e n m * S.elemOut op L inv o e k n else 0

/-- Entry `t` of everything the operator adds to vector `v` when applied to `inv` and into `outv`. -/
def Meaning.action (S : Meaning α) (op : Oper α) (L : Nat → Nat → α) (inv outv : VPtr) (v t : Nat) : α :=
  ∑ o ∈ range op.nout, if (op.out o).vec.ptr outv = .vec v then S.adds op L inv o t else 0

/-- `CEED_EVAL_WEIGHT` on one element stores the weights `w`. -/
def WeightBy (b : Bas α) (w : Nat → α) : Prop :=
  ∀ (junk : Nat → Nat → α) (v : Buf α), b.Q ≤ v.len →
    ∃ v', Basis.apply b junk 1 .noTranspose .weight none v = .ok v' ∧ v'.len = v.len ∧ ∀ q < b.Q, v'.val q = w q

/-- The restriction of a field exists, was created from `S.D`, and has the elements of the operator. -/
def HasRstr (op : Oper α) (S : Meaning α) (a : OField α) : Prop :=
  ∃ r l, a.rid = some r ∧ Made .plain (op.rstrs r) 1 l (S.D r) ∧ (S.D r).ne = op.ne

/-- Basis and restriction of a field fit together. -/
def Fits (op : Oper α) (S : Meaning α) (a : OField α) (b : Bas α) : Prop :=
  a.basis = some b ∧ b.P = (S.dat a).es ∧ b.nc = (S.dat a).nc ∧ b.Q = op.Q ∧ a.size = (S.dat a).nc * b.qComp a.mode

/-- An input field is set correctly. -/
def InOK (op : Oper α) (S : Meaning α) (i : Nat) : Prop :=
  match (op.inp i).mode with
  | .weight => (op.inp i).vec = .none ∧ (op.inp i).rid = none ∧ (op.inp i).size = 1 ∧
      ∃ b, (op.inp i).basis = some b ∧ b.Q = op.Q ∧ WeightBy b (S.w i)
  | .none => HasRstr op S (op.inp i) ∧ (S.dat (op.inp i)).es = op.Q ∧ (op.inp i).size = (S.dat (op.inp i)).nc
  | em => HasRstr op S (op.inp i) ∧ ∃ b, Fits op S (op.inp i) b ∧ MulBy b em (S.mIn i)

/-- An output field is set correctly. `CeedBasisApplyAdd` has to accumulate only if an earlier output has the same vector
and restriction (it does not for collocated tensor bases, see C23). -/
def OutOK (op : Oper α) (S : Meaning α) (o : Nat) : Prop :=
  match (op.out o).mode with
  | .weight => False
  | .none => HasRstr op S (op.out o) ∧ (S.dat (op.out o)).es = op.Q ∧ (op.out o).size = (S.dat (op.out o)).nc
  | em => HasRstr op S (op.out o) ∧ ∃ b, Fits op S (op.out o) b ∧ MulByT b em (S.mOut o) ∧
      ((∃ j < o, (op.out j).same (op.out o) = true) → AddByT b em (S.mOut o))

/-- Fields of a ready operator and the sharing of vector and restriction between them. `shareIn`: among inputs with the
same vector and restriction, the first has a basis (otherwise the setup dereferences a null pointer). `shareOut`: an
output without basis has no earlier output with the same vector and restriction (otherwise its E-vector is
overwritten, or the setup dereferences a null pointer). -/
structure OpOK (op : Oper α) (S : Meaning α) : Prop where
  inp : ∀ i < op.nin, InOK op S i
  out : ∀ o < op.nout, OutOK op S o
  shareIn : ∀ i j, i < j → j < op.nin → (op.inp i).same (op.inp j) = true →
    (∀ k < i, (op.inp k).same (op.inp j) = false) → isBasisMode (op.inp i).mode = true
  shareOut : ∀ j o, j < o → o < op.nout → (op.out j).same (op.out o) = true → isBasisMode (op.out o).mode = true
  ident : op.isId = true → op.nin = 1 ∧ op.nout = 1 ∧ (op.out 0).size = (op.inp 0).size ∧
    ((op.inp 0).mode = .none → (op.out 0).mode = .none → (op.inp 0).vec = .active ∧ (op.out 0).vec = .active) ∧
    ((op.inp 0).mode = .weight → (op.out 0).mode ≠ .none)

/-- Vectors read by an application hold valid data and are long enough. -/
def InReady (op : Oper α) (inv : VPtr) (s : St α) : Prop :=
  ∀ i < op.nin, (op.inp i).mode ≠ .weight → ∃ r v, (op.inp i).rid = some r ∧ (op.inp i).vec.ptr inv = .vec v ∧
    (s.vecs v).valid = true ∧ (op.rstrs r).lSize ≤ (s.vecs v).buf.len

/-- Vectors added into by an application hold valid data and are long enough. -/
def OutReady (op : Oper α) (outv : VPtr) (s : St α) : Prop :=
  ∀ o < op.nout, ∃ r v, (op.out o).rid = some r ∧ (op.out o).vec.ptr outv = .vec v ∧
    (s.vecs v).valid = true ∧ (op.rstrs r).lSize ≤ (s.vecs v).buf.len

/-- Contents of all vectors. -/
def St.L (s : St α) : Nat → Nat → α := fun v => (s.vecs v).buf.val

/-- What happens to the vectors between calls of the operator: every change of a vector advances its state counter
(C02), and the length of a vector never changes. -/
def Advances (v v' : Nat → LVec α) : Prop :=
  ∀ i, (v' i).buf.len = (v i).buf.len ∧ (v' i = v i ∨ (v i).state < (v' i).state)

/-- Histories of one operator: it starts without backend data, with vectors in any state (a vector whose counter is zero
has never held data); then any number of changes of vectors and applications follow, with any temporary arrays. Calls
that return an error are admitted if `fails`. -/
inductive Reach (op : Oper α) (fails : Prop) : St α → Prop
  | start (s : St α) (hd : s.impl.done = false) (hv : ∀ i, (s.vecs i).state = 0 → (s.vecs i).valid = false) :
      Reach op fails s
  | user {s : St α} {vecs' : Nat → LVec α} (h : Reach op fails s) (ha : Advances s.vecs vecs') :
      Reach op fails { s with vecs := vecs' }
  | applyAdd {s s' : St α} {junk : Nat → Nat → α} {inv outv : VPtr} (h : Reach op fails s)
      (e : applyAdd op junk inv outv s = .ok s' ()) : Reach op fails s'
  | apply {s s' : St α} {junk : Nat → Nat → α} {inv outv : VPtr} (h : Reach op fails s)
      (e : apply op junk inv outv s = .ok s' ()) : Reach op fails s'
  | applyAddErr {s s' : St α} {junk : Nat → Nat → α} {inv outv : VPtr} {c : Err} (hf : fails) (h : Reach op fails s)
      (e : applyAdd op junk inv outv s = .err s' c) : Reach op fails s'
  | applyErr {s s' : St α} {junk : Nat → Nat → α} {inv outv : VPtr} {c : Err} (hf : fails) (h : Reach op fails s)
      (e : apply op junk inv outv s = .err s' c) : Reach op fails s'

/-- Contents of the vectors after the outputs have been set to zero. -/
def zeroed (op : Oper α) (outv : VPtr) (L : Nat → Nat → α) : Nat → Nat → α := fun v =>
  if ∃ o < op.nout, (op.out o).vec.ptr outv = .vec v then fun _ => 0 else L v

/-- No vector is both read and written. -/
def NoAlias (op : Oper α) (inv outv : VPtr) : Prop :=
  ∀ i < op.nin, ∀ o < op.nout, (op.inp i).mode ≠ .weight → (op.inp i).vec.ptr inv ≠ (op.out o).vec.ptr outv

/-- The operator whose fields have separate copies of the restrictions: input `i` uses object `2 i`, output `o` uses
object `2 o + 1`. -/
def unshare (op : Oper α) : Oper α where
  ne := op.ne
  Q := op.Q
  nin := op.nin
  nout := op.nout
  inp := fun i => { op.inp i with rid := (op.inp i).rid.map (fun _ => 2 * i) }
  out := fun o => { op.out o with rid := (op.out o).rid.map (fun _ => 2 * o + 1) }
  rstrs := fun j => op.rstrs (if j % 2 = 0 then (op.inp (j / 2)).rid.getD 0 else (op.out (j / 2)).rid.getD 0)
  isId := op.isId
  f := op.f

end Operator
end Verif
