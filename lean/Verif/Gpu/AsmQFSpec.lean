import Verif.Gpu.AsmQF
import Verif.Gpu.AsmSpec

/-!
# Specification of QFunction assembly on a device

What an assembly returns is `ColumnsDev` of `AsmSpec.lean`.
-/

namespace Verif.Gpu

open Verif.Operator (VPtr FVec LVec Meaning Advances)

variable {α : Type} [CommRing α]

/-- The vectors read by the passive inputs hold valid data and are long enough. -/
def PassiveReadyG (op : GOper α) (s : GSt α) : Prop :=
  ∀ i < op.nin, (op.inp i).mode ≠ .weight → (op.inp i).vec ≠ .active → ∃ r v, (op.inp i).rid = some r ∧
    (op.inp i).vec = .vec v ∧ (s.vecs v).valid = true ∧ (op.rstrs r).base.lSize ≤ (s.vecs v).buf.len

/-- There is something to assemble: elements, active inputs and active outputs. -/
structure Assemblable (op : GOper α) : Prop where
  ne : 0 < op.ne
  cin : 0 < op.host.cIn
  cout : 0 < op.host.cOut

/-- Histories of applications and assemblies of one operator. -/
inductive QReach (op : GOper α) (D : Dev α) : QSt α → Prop
  | start (s : QSt α) (hd : s.st.done = false) (hv : ∀ i, (s.st.vecs i).state = 0 → (s.st.vecs i).valid = false)
      (h1 : s.act = []) (h2 : s.nOut = 0) (h3 : s.built = none) (h4 : ∀ o, s.dst o = none) : QReach op D s
  | user {s : QSt α} {vecs' : Nat → LVec α} (h : QReach op D s) (ha : Advances s.st.vecs vecs') :
      QReach op D { s with st := { s.st with vecs := vecs' } }
  | applyAdd {s s' : QSt α} {wk : Work α} {inv outv : VPtr} (h : QReach op D s) (hi : InReadyG op inv s.st)
      (ho : OutReadyG op outv s.st) (e : applyAddQ op D wk inv outv s = .ok s' ()) : QReach op D s'
  | apply {s s' : QSt α} {wk : Work α} {inv outv : VPtr} (h : QReach op D s) (hi : InReadyG op inv s.st)
      (ho : OutLongG op outv s.st) (e : applyQ op D wk inv outv s = .ok s' ()) : QReach op D s'
  | assemble {s s' : QSt α} {b : Buf α} (h : QReach op D s) (hi : PassiveReadyG op s.st)
      (e : assembleQFG op D s = .ok s' b) : QReach op D s'
  | build {s s' : QSt α} {b : Buf α} (h : QReach op D s) (hi : PassiveReadyG op s.st)
      (e : buildOrUpdateG op D s = .ok s' b) : QReach op D s'
  | reuse {s s' : QSt α} {b : Bool} (h : QReach op D s) (e : setReuseG b s = .ok s' ()) : QReach op D s'
  | needs {s s' : QSt α} {b : Bool} (h : QReach op D s) (e : setNeedsG b s = .ok s' ()) : QReach op D s'

/-- What may happen between two assemblies for the second to be right: anything but an application. -/
inductive QNoApply (op : GOper α) (D : Dev α) : QSt α → QSt α → Prop
  | refl (s : QSt α) : QNoApply op D s s
  | user {s s' : QSt α} {vecs' : Nat → LVec α} (h : QNoApply op D s s') (ha : Advances s'.st.vecs vecs') :
      QNoApply op D s { s' with st := { s'.st with vecs := vecs' } }
  | assemble {s s' s'' : QSt α} {b : Buf α} (h : QNoApply op D s s') (hi : PassiveReadyG op s'.st)
      (e : assembleQFG op D s' = .ok s'' b) : QNoApply op D s s''
  | build {s s' s'' : QSt α} {b : Buf α} (h : QNoApply op D s s') (hi : PassiveReadyG op s'.st)
      (e : buildOrUpdateG op D s' = .ok s'' b) : QNoApply op D s s''
  | reuse {s s' s'' : QSt α} {b : Bool} (h : QNoApply op D s s') (e : setReuseG b s' = .ok s'' ()) : QNoApply op D s s''
  | needs {s s' s'' : QSt α} {b : Bool} (h : QNoApply op D s s') (e : setNeedsG b s' = .ok s'' ()) : QNoApply op D s s''

/-- A history of applications only. -/
inductive QUnassembled (op : GOper α) (D : Dev α) : QSt α → Prop
  | start (s : QSt α) (hd : s.st.done = false) (hv : ∀ i, (s.st.vecs i).state = 0 → (s.st.vecs i).valid = false)
      (h1 : s.act = []) (h2 : s.nOut = 0) (h3 : s.built = none) (h4 : ∀ o, s.dst o = none) : QUnassembled op D s
  | user {s : QSt α} {vecs' : Nat → LVec α} (h : QUnassembled op D s) (ha : Advances s.st.vecs vecs') :
      QUnassembled op D { s with st := { s.st with vecs := vecs' } }
  | applyAdd {s s' : QSt α} {wk : Work α} {inv outv : VPtr} (h : QUnassembled op D s) (hi : InReadyG op inv s.st)
      (ho : OutReadyG op outv s.st) (e : applyAddQ op D wk inv outv s = .ok s' ()) : QUnassembled op D s'
  | apply {s s' : QSt α} {wk : Work α} {inv outv : VPtr} (h : QUnassembled op D s) (hi : InReadyG op inv s.st)
      (ho : OutLongG op outv s.st) (e : applyQ op D wk inv outv s = .ok s' ()) : QUnassembled op D s'

/-- What may happen while an assembled QFunction is reused: anything but a change of the flags. -/
inductive QKeeps (op : GOper α) (D : Dev α) : QSt α → QSt α → Prop
  | refl (s : QSt α) : QKeeps op D s s
  | user {s s' : QSt α} {vecs' : Nat → LVec α} (h : QKeeps op D s s') (ha : Advances s'.st.vecs vecs') :
      QKeeps op D s { s' with st := { s'.st with vecs := vecs' } }
  | applyAdd {s s' s'' : QSt α} {wk : Work α} {inv outv : VPtr} (h : QKeeps op D s s')
      (e : applyAddQ op D wk inv outv s' = .ok s'' ()) : QKeeps op D s s''
  | apply {s s' s'' : QSt α} {wk : Work α} {inv outv : VPtr} (h : QKeeps op D s s')
      (e : applyQ op D wk inv outv s' = .ok s'' ()) : QKeeps op D s s''
  | build {s s' s'' : QSt α} {b : Buf α} (h : QKeeps op D s s') (e : buildOrUpdateG op D s' = .ok s'' b) : QKeeps op D s s''

end Verif.Gpu
