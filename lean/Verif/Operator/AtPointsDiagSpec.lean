import Verif.Operator.AtPointsDiag
import Verif.Operator.AtPointsSpec

/-!
# Specification of the diagonals of operators at points (C69)
-/

namespace Verif
namespace Operator

open Finset Polynomial
open Restriction (RData Made Rstr PointsOK ptsIn ptAt)
open Basis (Bas EMode PBas Env Fresh Shape Exact Used pev along coord pointPos)

variable {K : Type} [Field K]

/-- Entry `t` of the diagonal of the operator: entry `t` of its action (C56) on the unit vector `t`, which is put in place of
vector `x`. -/
noncomputable def PMean.diagAt (S : PMean K) (P : POper K) (L : Nat → Nat → K) (x t : Nat) : K :=
  S.action P (Function.update L x (Pi.single t 1)) (.vec x) (.vec x) x t

/-- Vector `x` is not read or written except as active vector. -/
def Unused (P : POper K) (x : Nat) : Prop :=
  (∀ i < P.op.nin, (P.op.inp i).vec ≠ .vec x) ∧ (∀ o < P.op.nout, (P.op.out o).vec ≠ .vec x) ∧ ∀ rX xv, P.points = some (rX, xv) → xv ≠ x

/-- Number of values of element `e` in restriction `r`. -/
def PMean.count (S : PMean K) (op : Oper K) (e r : Nat) : Nat :=
  if (op.rstrs r).rtype = .points then S.np e * (op.rstrs r).numComp else (S.D r).es * (S.D r).nc

/-- Position in the L-vector of value `s` of element `e`. -/
def PMean.place (S : PMean K) (op : Oper K) (e r s : Nat) : Nat :=
  if (op.rstrs r).rtype = .points then ptAt (S.offs r) e (s % S.np e) * (op.rstrs r).numComp + s / S.np e
  else (S.D r).lidx e (s % (S.D r).es) (s / (S.D r).es)

/-- The QFunction is linear in its active inputs, for all values of the passive inputs. -/
def LinearAt (P : POper K) : Prop :=
  ∀ (n : Nat) (u v w : Nat → Nat → K) (c : K),
    (∀ i x, (P.op.inp i).vec = .active → w i x = u i x + c * v i x) →
    (∀ i x, (P.op.inp i).vec ≠ .active → w i x = u i x ∧ v i x = u i x) →
    ∀ o < P.op.nout, ∀ x, P.F n w o x = P.F n u o x + c * P.F n v o x

/-- Operators whose diagonal is assembled as documented: the QFunction is linear in the active inputs and not the identity, all
active fields have the same restriction `r`, which has no orientations (see the witness) and does not have the same value
twice on an element. -/
structure DiagAtOK (P : POper K) (S : PMean K) (r : Nat) : Prop where
  lin : LinearAt P
  notId : P.op.isId = false
  inp : ∀ i < P.op.nin, (P.op.inp i).vec = .active → (P.op.inp i).rid = some r
  out : ∀ o < P.op.nout, (P.op.out o).vec = .active → (P.op.out o).rid = some r
  plain : (P.op.rstrs r).rtype ≠ .points → ∀ e < P.op.ne, ∀ n < (S.D r).es, ∀ m < (S.D r).es, (S.D r).coef e n m = if n = m then 1 else 0
  inj : ∀ e < P.op.ne, ∀ s < S.count P.op e r, ∀ s' < S.count P.op e r, S.place P.op e r s = S.place P.op e r s' → s = s'

/-- Vectors a diagonal is assembled into: `av` is not a field of the operator, nor is the new vector `tmp`, and the coordinates are
not an output. -/
structure DiagArgs (P : POper K) (av tmp : Nat) : Prop where
  ne : av ≠ tmp
  av : Unused P av
  tmp : Unused P tmp
  xv : ∀ rX xv, P.points = some (rX, xv) → ∀ o < P.op.nout, (P.op.out o).vec ≠ .vec xv

/-- Passive inputs, coordinates, passive outputs and the vector `av` hold valid data and have the right length; so has the new
vector `tmp`. -/
structure DiagReady (P : POper K) (r av tmp : Nat) (s : St K) : Prop where
  inp : ∀ i < P.op.nin, (P.op.inp i).mode ≠ .weight → (P.op.inp i).vec ≠ .active → ∃ r v, (P.op.inp i).rid = some r ∧
    (P.op.inp i).vec = .vec v ∧ (s.vecs v).valid = true ∧ (P.op.rstrs r).lSize ≤ (s.vecs v).buf.len
  coords : ∀ rX xv, P.points = some (rX, xv) → (s.vecs xv).valid = true ∧ rX.lSize ≤ (s.vecs xv).buf.len
  out : ∀ o < P.op.nout, (P.op.out o).vec ≠ .active → ∃ r v, (P.op.out o).rid = some r ∧ (P.op.out o).vec = .vec v ∧
    (s.vecs v).valid = true ∧ FitsL (P.op.rstrs r) (s.vecs v).buf.len
  av : (s.vecs av).valid = true ∧ FitsL (P.op.rstrs r) (s.vecs av).buf.len
  tmp : FitsL (P.op.rstrs r) (s.vecs tmp).buf.len

variable [LinearOrder K]

/-- Histories of one operator at points as in `ReachAt`, with assemblies of its diagonal. -/
inductive ReachDiag (P : POper K) (b0 : Nat → PBas K) (fails : Prop) : PSt K → Prop
  | start (s : PSt K) (hd : s.base.impl.done = false) (hv : ∀ i, (s.base.vecs i).state = 0 → (s.base.vecs i).valid = false)
      (hb : s.d.bas = b0) : ReachDiag P b0 fails s
  | user {s : PSt K} {vecs' : Nat → LVec K} (h : ReachDiag P b0 fails s) (ha : Advances s.base.vecs vecs') :
      ReachDiag P b0 fails { s with base := { s.base with vecs := vecs' } }
  | bases {s : PSt K} {bas' : Nat → PBas K} (h : ReachDiag P b0 fails s) (hb : ∀ id, Used (s.d.bas id) (bas' id)) :
      ReachDiag P b0 fails { s with d := { s.d with bas := bas' } }
  | applyAdd {s s' : PSt K} {en : Env K} {inv outv : VPtr} (h : ReachDiag P b0 fails s) (he : Exact en) (hp : PassiveSet P s.base)
      (e : applyAddAt P en inv outv s = .ok s' ()) : ReachDiag P b0 fails s'
  | apply {s s' : PSt K} {en : Env K} {inv outv : VPtr} (h : ReachDiag P b0 fails s) (he : Exact en) (hp : PassiveSet P s.base)
      (e : applyAt P en inv outv s = .ok s' ()) : ReachDiag P b0 fails s'
  | addDiag {s s' : PSt K} {en : Env K} {isz osz av tmp : Nat} (h : ReachDiag P b0 fails s) (he : Exact en) (hp : PassiveSet P s.base)
      (ha : DiagArgs P av tmp) (e : addDiagAt P en isz osz av tmp s = .ok s' ()) : ReachDiag P b0 fails s'
  | diag {s s' : PSt K} {en : Env K} {isz osz av tmp : Nat} (h : ReachDiag P b0 fails s) (he : Exact en) (hp : PassiveSet P s.base)
      (ha : DiagArgs P av tmp) (e : assembleDiagAt P en isz osz av tmp s = .ok s' ()) : ReachDiag P b0 fails s'
  | applyAddErr {s s' : PSt K} {en : Env K} {inv outv : VPtr} {c : Err} (hf : fails) (h : ReachDiag P b0 fails s) (he : Exact en)
      (hp : PassiveSet P s.base) (e : applyAddAt P en inv outv s = .err s' c) : ReachDiag P b0 fails s'
  | applyErr {s s' : PSt K} {en : Env K} {inv outv : VPtr} {c : Err} (hf : fails) (h : ReachDiag P b0 fails s) (he : Exact en)
      (hp : PassiveSet P s.base) (e : applyAt P en inv outv s = .err s' c) : ReachDiag P b0 fails s'
  | addDiagErr {s s' : PSt K} {en : Env K} {isz osz av tmp : Nat} {c : Err} (hf : fails) (h : ReachDiag P b0 fails s) (he : Exact en)
      (hp : PassiveSet P s.base) (ha : DiagArgs P av tmp) (e : addDiagAt P en isz osz av tmp s = .err s' c) : ReachDiag P b0 fails s'
  | diagErr {s s' : PSt K} {en : Env K} {isz osz av tmp : Nat} {c : Err} (hf : fails) (h : ReachDiag P b0 fails s) (he : Exact en)
      (hp : PassiveSet P s.base) (ha : DiagArgs P av tmp) (e : assembleDiagAt P en isz osz av tmp s = .err s' c) : ReachDiag P b0 fails s'

end Operator
end Verif
