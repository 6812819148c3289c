import Verif.Operator.Opt
import Verif.Operator.Spec

/-!
# Specification of operator application by the backends that work on blocks of elements
-/

namespace Verif
namespace Operator

open Finset
open Restriction (RData Made)
open Basis (Bas EMode)

variable {α : Type} [CommRing α]

/-- `CEED_EVAL_WEIGHT` on `bs` elements stores the weights `w` for each of them. -/
def WeightN (b : Bas α) (w : Nat → α) (bs : Nat) : Prop :=
  ∀ (junk : Nat → Nat → α) (v : Buf α), b.Q * bs ≤ v.len →
    ∃ v', Basis.apply b junk bs .noTranspose .weight none v = .ok v' ∧ v'.len = v.len ∧
      ∀ q < b.Q, ∀ j < bs, v'.val (q * bs + j) = w q

/-- The user function works pointwise (`include/ceed/ceed.h` 85-87 and 340-354: evaluated independently at points, arrays have shape `[size, Q]`): called
with `n` points, the values of the outputs at a point are a function of the values of the inputs at that point, the same
for all points and all `n`. `op.f` is the function called with the points of one element. -/
def Pointwise (op : Oper α) (F : Nat → (Nat → Nat → α) → Nat → Nat → α) : Prop :=
  op.f = F op.Q ∧ ∃ g : (Nat → Nat → α) → Nat → Nat → α,
    ∀ n arr o c p, p < n → F n arr o (c * n + p) = g (fun i c' => arr i (c' * n + p)) o c

/-- What an operator with blocks of `bs` elements needs beyond `OpOK`: the weights of `bs` elements. -/
def OptOK (op : Oper α) (S : Meaning α) (bs : Nat) : Prop :=
  OpOK op S ∧ 0 < bs ∧ ∀ i < op.nin, (op.inp i).mode = .weight → ∀ b, (op.inp i).basis = some b → WeightN b (S.w i) bs

/-- Vectors read by an application hold valid data and are long enough; active inputs have exactly the length of the
restriction. -/
def OptInReady (op : Oper α) (inv : VPtr) (s : St α) : Prop :=
  ∀ i < op.nin, (op.inp i).mode ≠ .weight → ∃ r v, (op.inp i).rid = some r ∧ (op.inp i).vec.ptr inv = .vec v ∧
    (s.vecs v).valid = true ∧ (op.rstrs r).lSize ≤ (s.vecs v).buf.len ∧
    ((op.inp i).vec = .active → (op.rstrs r).lSize = (s.vecs v).buf.len)

/-- Vectors added into hold valid data and have exactly the length of the restriction. -/
def OptOutReady (op : Oper α) (outv : VPtr) (s : St α) : Prop :=
  ∀ o < op.nout, ∃ r v, (op.out o).rid = some r ∧ (op.out o).vec.ptr outv = .vec v ∧
    (s.vecs v).valid = true ∧ (op.rstrs r).lSize = (s.vecs v).buf.len

/-- The active input is not one of the vectors written. -/
def ActiveApart (op : Oper α) (inv outv : VPtr) : Prop :=
  ∀ i < op.nin, (op.inp i).mode ≠ .weight → (op.inp i).vec = .active → ∀ o < op.nout, (op.out o).vec.ptr outv ≠ inv

/-- Histories of one operator on such a backend; compare `Reach`. Calls that return an error are admitted if `fails`. -/
inductive ReachOpt (op : Oper α) (F : Nat → (Nat → Nat → α) → Nat → Nat → α) (chk : Bool) (bs : Nat) (fails : Prop) :
    OSt α → Prop
  | start (s : OSt α) (hd : s.base.impl.done = false)
      (hv : ∀ i, (s.base.vecs i).state = 0 → (s.base.vecs i).valid = false) : ReachOpt op F chk bs fails s
  | user {s : OSt α} {vecs' : Nat → LVec α} (h : ReachOpt op F chk bs fails s) (ha : Advances s.base.vecs vecs') :
      ReachOpt op F chk bs fails { s with base := { s.base with vecs := vecs' } }
  | applyAdd {s s' : OSt α} {junk : Nat → Nat → α} {inv outv : VPtr} (h : ReachOpt op F chk bs fails s)
      (e : applyAddOpt op F chk bs junk inv outv s = .ok s' ()) : ReachOpt op F chk bs fails s'
  | apply {s s' : OSt α} {junk : Nat → Nat → α} {inv outv : VPtr} (h : ReachOpt op F chk bs fails s)
      (e : applyOpt op F chk bs junk inv outv s = .ok s' ()) : ReachOpt op F chk bs fails s'
  | applyAddErr {s s' : OSt α} {junk : Nat → Nat → α} {inv outv : VPtr} {c : Err} (hf : fails)
      (h : ReachOpt op F chk bs fails s) (e : applyAddOpt op F chk bs junk inv outv s = .err s' c) :
      ReachOpt op F chk bs fails s'
  | applyErr {s s' : OSt α} {junk : Nat → Nat → α} {inv outv : VPtr} {c : Err} (hf : fails)
      (h : ReachOpt op F chk bs fails s) (e : applyOpt op F chk bs junk inv outv s = .err s' c) :
      ReachOpt op F chk bs fails s'

end Operator
end Verif
