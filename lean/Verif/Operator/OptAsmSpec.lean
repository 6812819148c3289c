import Verif.Operator.OptAsm
import Verif.Operator.OptSpec
import Verif.Operator.AssembleSpec

/-!
# Specification of the assembled QFunction on backends that work on blocks of elements
-/

namespace Verif
namespace Operator

open Restriction (Rstr)

variable {α : Type} [CommRing α]

/-- Change the vectors. -/
def BSt.withVecs (s : BSt α) (vs : Nat → LVec α) : BSt α := { s with a := { s.a with st := { s.a.st with vecs := vs } } }

/-- Histories of applications and assemblies of one operator on such a backend; compare `AReach`. Calls that return an
error are admitted if `fails`. -/
inductive BReach (op : Oper α) (F : Nat → (Nat → Nat → α) → Nat → Nat → α) (chk : Bool) (bs : Nat) (fails : Prop) :
    BSt α → Prop
  | start (s : BSt α) (hd : s.a.st.impl.done = false) (hv : ∀ i, (s.a.st.vecs i).state = 0 → (s.a.st.vecs i).valid = false)
      (h1 : s.a.szIn = 0) (h2 : s.a.szOut = 0) (h3 : s.a.built = none) (h4 : s.hasL = false) (h5 : s.rs = none) :
      BReach op F chk bs fails s
  | user {s : BSt α} {vecs' : Nat → LVec α} (h : BReach op F chk bs fails s) (ha : Advances s.a.st.vecs vecs') :
      BReach op F chk bs fails (s.withVecs vecs')
  | apply {s s' : BSt α} {junk : Nat → Nat → α} {inv outv : VPtr} (h : BReach op F chk bs fails s)
      (e : liftO (applyOpt op F chk bs junk inv outv) s = .ok s' ()) : BReach op F chk bs fails s'
  | applyAdd {s s' : BSt α} {junk : Nat → Nat → α} {inv outv : VPtr} (h : BReach op F chk bs fails s)
      (e : liftO (applyAddOpt op F chk bs junk inv outv) s = .ok s' ()) : BReach op F chk bs fails s'
  | assemble {s s' : BSt α} {junk : Nat → Nat → α} {v : Buf α} (h : BReach op F chk bs fails s)
      (e : assembleQFOpt op F chk bs junk s = .ok s' v) : BReach op F chk bs fails s'
  | build {s s' : BSt α} {junk : Nat → Nat → α} {v : Buf α} (h : BReach op F chk bs fails s)
      (e : buildOrUpdateOpt op F chk bs junk s = .ok s' v) : BReach op F chk bs fails s'
  | reuse {s s' : BSt α} {b : Bool} (h : BReach op F chk bs fails s) (e : liftAB (setReuse b) s = .ok s' ()) :
      BReach op F chk bs fails s'
  | needs {s s' : BSt α} {b : Bool} (h : BReach op F chk bs fails s) (e : liftAB (setNeeds b) s = .ok s' ()) :
      BReach op F chk bs fails s'
  | applyErr {s s' : BSt α} {junk : Nat → Nat → α} {inv outv : VPtr} {c : Err} (hf : fails) (h : BReach op F chk bs fails s)
      (e : liftO (applyOpt op F chk bs junk inv outv) s = .err s' c) : BReach op F chk bs fails s'
  | applyAddErr {s s' : BSt α} {junk : Nat → Nat → α} {inv outv : VPtr} {c : Err} (hf : fails) (h : BReach op F chk bs fails s)
      (e : liftO (applyAddOpt op F chk bs junk inv outv) s = .err s' c) : BReach op F chk bs fails s'
  | assembleErr {s s' : BSt α} {junk : Nat → Nat → α} {c : Err} (hf : fails) (h : BReach op F chk bs fails s)
      (e : assembleQFOpt op F chk bs junk s = .err s' c) : BReach op F chk bs fails s'
  | buildErr {s s' : BSt α} {junk : Nat → Nat → α} {c : Err} (hf : fails) (h : BReach op F chk bs fails s)
      (e : buildOrUpdateOpt op F chk bs junk s = .err s' c) : BReach op F chk bs fails s'

/-- What may happen between two assemblies for the second to be right: anything but an application. -/
inductive BNoApply (op : Oper α) (F : Nat → (Nat → Nat → α) → Nat → Nat → α) (chk : Bool) (bs : Nat) : BSt α → BSt α → Prop
  | refl (s : BSt α) : BNoApply op F chk bs s s
  | user {s s' : BSt α} {vecs' : Nat → LVec α} (h : BNoApply op F chk bs s s') (ha : Advances s'.a.st.vecs vecs') :
      BNoApply op F chk bs s (s'.withVecs vecs')
  | assemble {s s' s'' : BSt α} {junk : Nat → Nat → α} {v : Buf α} (h : BNoApply op F chk bs s s')
      (e : assembleQFOpt op F chk bs junk s' = .ok s'' v) : BNoApply op F chk bs s s''
  | build {s s' s'' : BSt α} {junk : Nat → Nat → α} {v : Buf α} (h : BNoApply op F chk bs s s')
      (e : buildOrUpdateOpt op F chk bs junk s' = .ok s'' v) : BNoApply op F chk bs s s''
  | reuse {s s' s'' : BSt α} {b : Bool} (h : BNoApply op F chk bs s s') (e : liftAB (setReuse b) s' = .ok s'' ()) :
      BNoApply op F chk bs s s''
  | needs {s s' s'' : BSt α} {b : Bool} (h : BNoApply op F chk bs s s') (e : liftAB (setNeeds b) s' = .ok s'' ()) :
      BNoApply op F chk bs s s''

/-- An operator with a history of applications that has not been assembled yet; the remaining data are arbitrary. -/
def BUnassembled (op : Oper α) (F : Nat → (Nat → Nat → α) → Nat → Nat → α) (chk : Bool) (bs : Nat) (s : BSt α) : Prop :=
  ReachOpt op F chk bs True s.o ∧ s.a.szIn = 0 ∧ s.a.szOut = 0 ∧ s.a.built = none ∧ s.hasL = false ∧ s.rs = none

/-- What may happen while an assembled QFunction is reused: anything but a change of the reuse flags. -/
inductive BKeeps (op : Oper α) (F : Nat → (Nat → Nat → α) → Nat → Nat → α) (chk : Bool) (bs : Nat) : BSt α → BSt α → Prop
  | refl (s : BSt α) : BKeeps op F chk bs s s
  | user {s s' : BSt α} {vecs' : Nat → LVec α} (h : BKeeps op F chk bs s s') (ha : Advances s'.a.st.vecs vecs') :
      BKeeps op F chk bs s (s'.withVecs vecs')
  | apply {s s' s'' : BSt α} {junk : Nat → Nat → α} {inv outv : VPtr} (h : BKeeps op F chk bs s s')
      (e : liftO (applyOpt op F chk bs junk inv outv) s' = .ok s'' ()) : BKeeps op F chk bs s s''
  | applyAdd {s s' s'' : BSt α} {junk : Nat → Nat → α} {inv outv : VPtr} (h : BKeeps op F chk bs s s')
      (e : liftO (applyAddOpt op F chk bs junk inv outv) s' = .ok s'' ()) : BKeeps op F chk bs s s''
  | assemble {s s' s'' : BSt α} {junk : Nat → Nat → α} {v : Buf α} (h : BKeeps op F chk bs s s')
      (e : assembleQFOpt op F chk bs junk s' = .ok s'' v) : BKeeps op F chk bs s s''
  | build {s s' s'' : BSt α} {junk : Nat → Nat → α} {v : Buf α} (h : BKeeps op F chk bs s s')
      (e : buildOrUpdateOpt op F chk bs junk s' = .ok s'' v) : BKeeps op F chk bs s s''

end Operator
end Verif
