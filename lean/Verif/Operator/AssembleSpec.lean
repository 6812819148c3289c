import Verif.Operator.Assemble
import Verif.Operator.Spec

/-!
# Specification of the assembled QFunction
-/

namespace Verif
namespace Operator

open Finset

variable {α : Type} [CommRing α]

/-- Number of components of the active fields among the first `n`: components of active fields are numbered in the order
of the fields. -/
def offset (f : Nat → OField α) (n : Nat) : Nat := ∑ j ∈ range n, if (f j).vec = .active then (f j).size else 0

/-- Components of all active inputs. -/
def Oper.cIn (op : Oper α) : Nat := offset op.inp op.nin
/-- Components of all active outputs. -/
def Oper.cOut (op : Oper α) : Nat := offset op.out op.nout

/-- The input arrays of element `e` with values `a` in place of the active inputs; the passive inputs have the values
given by the vectors `L`. -/
def Meaning.mix (S : Meaning α) (op : Oper α) (L : Nat → Nat → α) (e : Nat) (a : Nat → Nat → α) : Nat → Nat → α :=
  fun i x => if i < op.nin ∧ x < op.Q * (op.inp i).size then
    if (op.inp i).vec = .active then a i x else S.inVal op L .null e i x
  else 0

/-- The QFunction; the identity copies. -/
def Oper.eval (op : Oper α) (u : Nat → Nat → α) : Nat → Nat → α := if op.isId then u else op.f u

/-- Component `c` of input `i` is one at all quadrature points, everything else is zero. -/
def unit (op : Oper α) (i c : Nat) : Nat → Nat → α := fun j x => if j = i ∧ x / op.Q = c then 1 else 0

/-- Position of the matrix entry of component `c` of input `i` and component `d` of output `o`, at quadrature point `q`
of element `e`: shape `num_elem, inputs, outputs, num_qpts`. -/
def Oper.apos (op : Oper α) (e i c o d q : Nat) : Nat :=
  ((e * op.cIn + (offset op.inp i + c)) * op.cOut + (offset op.out o + d)) * op.Q + q

/-- `b` has the size of the assembled QFunction, and holds the values of the QFunction on all unit inputs. -/
def Columns (op : Oper α) (S : Meaning α) (L : Nat → Nat → α) (b : Buf α) : Prop :=
  b.len = op.ne * op.Q * op.cIn * op.cOut ∧
  ∀ e < op.ne, ∀ i < op.nin, (op.inp i).vec = .active → ∀ c < (op.inp i).size,
    ∀ o < op.nout, (op.out o).vec = .active → ∀ d < (op.out o).size, ∀ q < op.Q,
      b.val (op.apos e i c o d q) = op.eval (S.mix op L e (unit op i c)) o (d * op.Q + q)

/-- The QFunction is linear in its active inputs: whatever the passive inputs `p`, each component of each active output at
a point is a linear combination of the components of the active inputs at that point. -/
def LinearQF (op : Oper α) : Prop :=
  ∀ p : Nat → Nat → α, ∀ o < op.nout, (op.out o).vec = .active → ∀ d < (op.out o).size, ∀ q < op.Q,
    ∃ J : Nat → Nat → α, ∀ u : Nat → Nat → α, (∀ i x, ¬ ((op.inp i).vec = .active) → u i x = p i x) →
      (∀ i x, ¬ (i < op.nin ∧ x < op.Q * (op.inp i).size) → u i x = 0) →
      op.eval u o (d * op.Q + q) = ∑ i ∈ range op.nin, if (op.inp i).vec = .active then
        ∑ c ∈ range (op.inp i).size, J i c * u i (c * op.Q + q) else 0

/-- The vectors read by the passive inputs hold valid data and are long enough. -/
def PassiveReady (op : Oper α) (s : St α) : Prop :=
  ∀ i < op.nin, (op.inp i).mode ≠ .weight → (op.inp i).vec ≠ .active → ∃ r v, (op.inp i).rid = some r ∧
    (op.inp i).vec = .vec v ∧ (s.vecs v).valid = true ∧ (op.rstrs r).lSize ≤ (s.vecs v).buf.len

/-- Histories of applications and assemblies of one operator. Calls that return an error are admitted if `fails`. -/
inductive AReach (op : Oper α) (fails : Prop) : ASt α → Prop
  | start (s : ASt α) (hd : s.st.impl.done = false) (hv : ∀ i, (s.st.vecs i).state = 0 → (s.st.vecs i).valid = false)
      (h1 : s.szIn = 0) (h2 : s.szOut = 0) (h3 : s.built = none) : AReach op fails s
  | user {s : ASt α} {vecs' : Nat → LVec α} (h : AReach op fails s) (ha : Advances s.st.vecs vecs') :
      AReach op fails { s with st := { s.st with vecs := vecs' } }
  | apply {s s' : ASt α} {junk : Nat → Nat → α} {inv outv : VPtr} (h : AReach op fails s)
      (e : liftS (apply op junk inv outv) s = .ok s' ()) : AReach op fails s'
  | applyAdd {s s' : ASt α} {junk : Nat → Nat → α} {inv outv : VPtr} (h : AReach op fails s)
      (e : liftS (applyAdd op junk inv outv) s = .ok s' ()) : AReach op fails s'
  | assemble {s s' : ASt α} {junk : Nat → Nat → α} {v : Buf α} (h : AReach op fails s)
      (e : assembleQF op junk s = .ok s' v) : AReach op fails s'
  | build {s s' : ASt α} {junk : Nat → Nat → α} {v : Buf α} (h : AReach op fails s)
      (e : buildOrUpdate op junk s = .ok s' v) : AReach op fails s'
  | reuse {s s' : ASt α} {b : Bool} (h : AReach op fails s) (e : setReuse b s = .ok s' ()) : AReach op fails s'
  | needs {s s' : ASt α} {b : Bool} (h : AReach op fails s) (e : setNeeds b s = .ok s' ()) : AReach op fails s'
  | applyErr {s s' : ASt α} {junk : Nat → Nat → α} {inv outv : VPtr} {c : Err} (hf : fails) (h : AReach op fails s)
      (e : liftS (apply op junk inv outv) s = .err s' c) : AReach op fails s'
  | applyAddErr {s s' : ASt α} {junk : Nat → Nat → α} {inv outv : VPtr} {c : Err} (hf : fails) (h : AReach op fails s)
      (e : liftS (applyAdd op junk inv outv) s = .err s' c) : AReach op fails s'
  | assembleErr {s s' : ASt α} {junk : Nat → Nat → α} {c : Err} (hf : fails) (h : AReach op fails s)
      (e : assembleQF op junk s = .err s' c) : AReach op fails s'
  | buildErr {s s' : ASt α} {junk : Nat → Nat → α} {c : Err} (hf : fails) (h : AReach op fails s)
      (e : buildOrUpdate op junk s = .err s' c) : AReach op fails s'

/-- What may happen between two assemblies for the second to be right: anything but an application. -/
inductive NoApply (op : Oper α) : ASt α → ASt α → Prop
  | refl (s : ASt α) : NoApply op s s
  | user {s s' : ASt α} {vecs' : Nat → LVec α} (h : NoApply op s s') (ha : Advances s'.st.vecs vecs') :
      NoApply op s { s' with st := { s'.st with vecs := vecs' } }
  | assemble {s s' s'' : ASt α} {junk : Nat → Nat → α} {v : Buf α} (h : NoApply op s s')
      (e : assembleQF op junk s' = .ok s'' v) : NoApply op s s''
  | build {s s' s'' : ASt α} {junk : Nat → Nat → α} {v : Buf α} (h : NoApply op s s')
      (e : buildOrUpdate op junk s' = .ok s'' v) : NoApply op s s''
  | reuse {s s' s'' : ASt α} {b : Bool} (h : NoApply op s s') (e : setReuse b s' = .ok s'' ()) : NoApply op s s''
  | needs {s s' s'' : ASt α} {b : Bool} (h : NoApply op s s') (e : setNeeds b s' = .ok s'' ()) : NoApply op s s''

/-- No two active inputs without basis have the same restriction. -/
def Separate (op : Oper α) : Prop :=
  ∀ i < op.nin, ∀ j < op.nin, i ≠ j → (op.inp i).vec = .active → (op.inp j).vec = .active → (op.inp i).mode = .none →
    (op.inp j).mode = .none → (op.inp i).rid ≠ (op.inp j).rid

/-- An operator with a history of applications that has not been assembled yet; the remaining data are arbitrary. Operators
with two active inputs without basis on the same restriction are excluded, as their assembly is wrong once they have been
applied (`C43_shared_witness`). -/
def Unassembled (op : Oper α) (s : ASt α) : Prop :=
  Reach op True s.st ∧ s.szIn = 0 ∧ s.szOut = 0 ∧ s.built = none ∧ Separate op

/-- What may happen while an assembled QFunction is reused: anything but a change of the reuse flags. -/
inductive KeepsFlags (op : Oper α) : ASt α → ASt α → Prop
  | refl (s : ASt α) : KeepsFlags op s s
  | user {s s' : ASt α} {vecs' : Nat → LVec α} (h : KeepsFlags op s s') (ha : Advances s'.st.vecs vecs') :
      KeepsFlags op s { s' with st := { s'.st with vecs := vecs' } }
  | apply {s s' s'' : ASt α} {junk : Nat → Nat → α} {inv outv : VPtr} (h : KeepsFlags op s s')
      (e : liftS (apply op junk inv outv) s' = .ok s'' ()) : KeepsFlags op s s''
  | applyAdd {s s' s'' : ASt α} {junk : Nat → Nat → α} {inv outv : VPtr} (h : KeepsFlags op s s')
      (e : liftS (applyAdd op junk inv outv) s' = .ok s'' ()) : KeepsFlags op s s''
  | assemble {s s' s'' : ASt α} {junk : Nat → Nat → α} {v : Buf α} (h : KeepsFlags op s s')
      (e : assembleQF op junk s' = .ok s'' v) : KeepsFlags op s s''
  | build {s s' s'' : ASt α} {junk : Nat → Nat → α} {v : Buf α} (h : KeepsFlags op s s')
      (e : buildOrUpdate op junk s' = .ok s'' v) : KeepsFlags op s s''

end Operator
end Verif
