import Verif.Operator.BlockedAsm
import Verif.Operator.OptAsmSpec
import Verif.Operator.BlockedProps

/-!
# Specification of the assembled QFunction on the `blocked` backend
-/

namespace Verif
namespace Operator

open Restriction (Rstr)

variable {α : Type} [CommRing α]

/-- Histories of applications and assemblies of one operator on the `blocked` backend; compare `AReach`. Calls that return an
error are admitted if `fails`. -/
inductive KReach (op : Oper α) (F : Nat → (Nat → Nat → α) → Nat → Nat → α) (chk : Bool) (bs : Nat) (fails : Prop) :
    BSt α → Prop
  | start (s : BSt α) (hd : s.a.st.impl.done = false) (hv : ∀ i, (s.a.st.vecs i).state = 0 → (s.a.st.vecs i).valid = false)
      (h1 : s.a.szIn = 0) (h2 : s.a.szOut = 0) (h3 : s.a.built = none) (h4 : s.hasL = false) (h5 : s.rs = none) :
      KReach op F chk bs fails s
  | user {s : BSt α} {vecs' : Nat → LVec α} (h : KReach op F chk bs fails s) (ha : Advances s.a.st.vecs vecs') :
      KReach op F chk bs fails (s.withVecs vecs')
  | apply {s s' : BSt α} {junk : Nat → Nat → α} {inv outv : VPtr} (h : KReach op F chk bs fails s)
      (e : liftO (applyBlocked op F chk bs junk inv outv) s = .ok s' ()) : KReach op F chk bs fails s'
  | applyAdd {s s' : BSt α} {junk : Nat → Nat → α} {inv outv : VPtr} (h : KReach op F chk bs fails s)
      (e : liftO (applyAddBlocked op F chk bs junk inv outv) s = .ok s' ()) : KReach op F chk bs fails s'
  | assemble {s s' : BSt α} {junk : Nat → Nat → α} {v : Buf α} (h : KReach op F chk bs fails s)
      (e : assembleQFBlocked op F chk bs junk s = .ok s' v) : KReach op F chk bs fails s'
  | build {s s' : BSt α} {junk : Nat → Nat → α} {v : Buf α} (h : KReach op F chk bs fails s)
      (e : buildOrUpdateBlocked op F chk bs junk s = .ok s' v) : KReach op F chk bs fails s'
  | reuse {s s' : BSt α} {b : Bool} (h : KReach op F chk bs fails s) (e : liftAB (setReuse b) s = .ok s' ()) :
      KReach op F chk bs fails s'
  | needs {s s' : BSt α} {b : Bool} (h : KReach op F chk bs fails s) (e : liftAB (setNeeds b) s = .ok s' ()) :
      KReach op F chk bs fails s'
  | applyErr {s s' : BSt α} {junk : Nat → Nat → α} {inv outv : VPtr} {c : Err} (hf : fails) (h : KReach op F chk bs fails s)
      (e : liftO (applyBlocked op F chk bs junk inv outv) s = .err s' c) : KReach op F chk bs fails s'
  | applyAddErr {s s' : BSt α} {junk : Nat → Nat → α} {inv outv : VPtr} {c : Err} (hf : fails) (h : KReach op F chk bs fails s)
      (e : liftO (applyAddBlocked op F chk bs junk inv outv) s = .err s' c) : KReach op F chk bs fails s'
  | assembleErr {s s' : BSt α} {junk : Nat → Nat → α} {c : Err} (hf : fails) (h : KReach op F chk bs fails s)
      (e : assembleQFBlocked op F chk bs junk s = .err s' c) : KReach op F chk bs fails s'
  | buildErr {s s' : BSt α} {junk : Nat → Nat → α} {c : Err} (hf : fails) (h : KReach op F chk bs fails s)
      (e : buildOrUpdateBlocked op F chk bs junk s = .err s' c) : KReach op F chk bs fails s'

/-- What may happen between two assemblies for the second to be right: anything but an application. -/
inductive KNoApply (op : Oper α) (F : Nat → (Nat → Nat → α) → Nat → Nat → α) (chk : Bool) (bs : Nat) : BSt α → BSt α → Prop
  | refl (s : BSt α) : KNoApply op F chk bs s s
  | user {s s' : BSt α} {vecs' : Nat → LVec α} (h : KNoApply op F chk bs s s') (ha : Advances s'.a.st.vecs vecs') :
      KNoApply op F chk bs s (s'.withVecs vecs')
  | assemble {s s' s'' : BSt α} {junk : Nat → Nat → α} {v : Buf α} (h : KNoApply op F chk bs s s')
      (e : assembleQFBlocked op F chk bs junk s' = .ok s'' v) : KNoApply op F chk bs s s''
  | build {s s' s'' : BSt α} {junk : Nat → Nat → α} {v : Buf α} (h : KNoApply op F chk bs s s')
      (e : buildOrUpdateBlocked op F chk bs junk s' = .ok s'' v) : KNoApply op F chk bs s s''
  | reuse {s s' s'' : BSt α} {b : Bool} (h : KNoApply op F chk bs s s') (e : liftAB (setReuse b) s' = .ok s'' ()) :
      KNoApply op F chk bs s s''
  | needs {s s' s'' : BSt α} {b : Bool} (h : KNoApply op F chk bs s s') (e : liftAB (setNeeds b) s' = .ok s'' ()) :
      KNoApply op F chk bs s s''

/-- An operator with a history of applications that has not been assembled yet; the remaining data are arbitrary. -/
def KUnassembled (op : Oper α) (F : Nat → (Nat → Nat → α) → Nat → Nat → α) (chk : Bool) (bs : Nat) (s : BSt α) : Prop :=
  ReachBlocked op F chk bs True s.o ∧ s.a.szIn = 0 ∧ s.a.szOut = 0 ∧ s.a.built = none ∧ s.hasL = false ∧ s.rs = none

/-- What may happen while an assembled QFunction is reused: anything but a change of the reuse flags. -/
inductive KKeeps (op : Oper α) (F : Nat → (Nat → Nat → α) → Nat → Nat → α) (chk : Bool) (bs : Nat) : BSt α → BSt α → Prop
  | refl (s : BSt α) : KKeeps op F chk bs s s
  | user {s s' : BSt α} {vecs' : Nat → LVec α} (h : KKeeps op F chk bs s s') (ha : Advances s'.a.st.vecs vecs') :
      KKeeps op F chk bs s (s'.withVecs vecs')
  | apply {s s' s'' : BSt α} {junk : Nat → Nat → α} {inv outv : VPtr} (h : KKeeps op F chk bs s s')
      (e : liftO (applyBlocked op F chk bs junk inv outv) s' = .ok s'' ()) : KKeeps op F chk bs s s''
  | applyAdd {s s' s'' : BSt α} {junk : Nat → Nat → α} {inv outv : VPtr} (h : KKeeps op F chk bs s s')
      (e : liftO (applyAddBlocked op F chk bs junk inv outv) s' = .ok s'' ()) : KKeeps op F chk bs s s''
  | assemble {s s' s'' : BSt α} {junk : Nat → Nat → α} {v : Buf α} (h : KKeeps op F chk bs s s')
      (e : assembleQFBlocked op F chk bs junk s' = .ok s'' v) : KKeeps op F chk bs s s''
  | build {s s' s'' : BSt α} {junk : Nat → Nat → α} {v : Buf α} (h : KKeeps op F chk bs s s')
      (e : buildOrUpdateBlocked op F chk bs junk s' = .ok s'' v) : KKeeps op F chk bs s s''

end Operator
end Verif
