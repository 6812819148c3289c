import Verif.Operator.AtPointsAsm
import Verif.Operator.AtPointsSpec

/-!
# Specification of the QFunction assembled at points (C79)
-/

namespace Verif
namespace Operator

open Finset Polynomial
open Restriction (RData Made Rstr PointsOK ptsIn ptAt ptsBefore)
open Basis (Bas EMode PBas Env Fresh Shape Exact Used pev along coord pointPos)

variable {K : Type} [Field K]

/-- Number of components of the active ones among the first `n` fields. -/
def actComps (f : Nat → OField K) : Nat → Nat
  | 0 => 0
  | n + 1 => actComps f n + if (f n).vec = .active then (f n).size else 0

/-- The arrays of the inputs on element `e` when component `c` of the active input `i` is one at all points, all other active
components are zero, and the passive inputs are as in an application. -/
noncomputable def PMean.unitArr (S : PMean K) (P : POper K) (L : Nat → Nat → K) (e i c : Nat) : Nat → Nat → K := fun j x =>
  if j < P.op.nin ∧ x < S.np e * (P.op.inp j).size then
    if (P.op.inp j).vec = .active then if j = i ∧ x / S.np e = c then 1 else 0 else S.inVal P L .null e j x
  else 0

/-- Position of the entry for component `c` of input `i`, component `k` of output `o` and point `p` of element `e`: elements one after
another, then the components of the active inputs, the components of the active outputs, the points. -/
def PMean.asmPos (S : PMean K) (P : POper K) (e i c o k p : Nat) : Nat :=
  ptsBefore S.offX e * (actComps P.op.inp P.op.nin * actComps P.op.out P.op.nout) +
    ((actComps P.op.inp i + c) * actComps P.op.out P.op.nout + actComps P.op.out o + k) * S.np e + p

/-- The array holds the values of the QFunction on all unit inputs. -/
def PMean.Assembled (S : PMean K) (P : POper K) (L : Nat → Nat → K) (a : Buf K) : Prop :=
  ∀ e < P.op.ne, ∀ i < P.op.nin, (P.op.inp i).vec = .active → ∀ c < (P.op.inp i).size,
    ∀ o < P.op.nout, (P.op.out o).vec = .active → ∀ k < (P.op.out o).size, ∀ p < S.np e,
      S.asmPos P e i c o k p < a.len ∧ a.val (S.asmPos P e i c o k p) = P.F (S.np e) (S.unitArr P L e i c) o (k * S.np e + p)

/-- The arrays of the inputs on element `e` with active inputs `u`. -/
noncomputable def PMean.mixArr (S : PMean K) (P : POper K) (L : Nat → Nat → K) (e : Nat) (u : Nat → Nat → K) : Nat → Nat → K := fun j x =>
  if j < P.op.nin ∧ x < S.np e * (P.op.inp j).size then if (P.op.inp j).vec = .active then u j x else S.inVal P L .null e j x else 0

/-- On element `e`, the active outputs of the QFunction at a point are linear in the active inputs at that point. -/
def PtLinear (S : PMean K) (P : POper K) (L : Nat → Nat → K) (e : Nat) : Prop :=
  ∃ D : Nat → Nat → Nat → Nat → Nat → K, ∀ u, ∀ o < P.op.nout, (P.op.out o).vec = .active → ∀ k < (P.op.out o).size, ∀ p < S.np e,
    P.F (S.np e) (S.mixArr P L e u) o (k * S.np e + p) = ∑ i ∈ (range P.op.nin).filter (fun i => (P.op.inp i).vec = .active),
      ∑ c ∈ range (P.op.inp i).size, D i c o k p * u i (c * S.np e + p)

/-- Operators whose QFunction is assembled: the number of every active output is also that of an input, and not that of the weights (see
the witnesses), and the array of the points has as many points as its slices. -/
structure AsmAtOK (P : POper K) (S : PMean K) : Prop where
  index : ∀ o < P.op.nout, (P.op.out o).vec = .active → o < P.op.nin
  weight : ∀ o < P.op.nout, (P.op.out o).vec = .active → (P.op.inp o).mode ≠ .weight
  total : ∀ rX xv, P.points = some (rX, xv) → ptsBefore S.offX P.op.ne ≤ rX.numPoints

/-- The QFunction can be assembled: passive inputs and coordinates hold valid data of the right length, active fields are not at points and
there are active inputs and outputs. -/
structure AsmReady (P : POper K) (s : St K) : Prop where
  inp : ∀ i < P.op.nin, (P.op.inp i).mode ≠ .weight → (P.op.inp i).vec ≠ .active → ∃ r v, (P.op.inp i).rid = some r ∧
    (P.op.inp i).vec = .vec v ∧ (s.vecs v).valid = true ∧ (P.op.rstrs r).lSize ≤ (s.vecs v).buf.len
  coords : ∀ rX xv, P.points = some (rX, xv) → (s.vecs xv).valid = true ∧ rX.lSize ≤ (s.vecs xv).buf.len
  meshIn : ∀ i < P.op.nin, (P.op.inp i).vec = .active → atPts P (P.op.inp i) = false
  meshOut : ∀ o < P.op.nout, (P.op.out o).vec = .active → atPts P (P.op.out o) = false
  actIn : 0 < actComps P.op.inp P.op.nin
  actOut : 0 < actComps P.op.out P.op.nout

variable [LinearOrder K]

/-- Histories of one operator at points that is assembled, also several times, while the program changes its vectors and uses the
bases. -/
inductive ReachAsm (P : POper K) (b0 : Nat → PBas K) : QSt K → Prop
  | start (s : QSt K) (hd : s.p.base.impl.done = false) (hv : ∀ i, (s.p.base.vecs i).state = 0 → (s.p.base.vecs i).valid = false)
      (hb : s.p.d.bas = b0) (hi : s.qin = 0) (ho : s.qout = 0) : ReachAsm P b0 s
  | user {s : QSt K} {vecs' : Nat → LVec K} (h : ReachAsm P b0 s) (ha : Advances s.p.base.vecs vecs') :
      ReachAsm P b0 { s with p := { s.p with base := { s.p.base with vecs := vecs' } } }
  | bases {s : QSt K} {bas' : Nat → PBas K} (h : ReachAsm P b0 s) (hb : ∀ id, Used (s.p.d.bas id) (bas' id)) :
      ReachAsm P b0 { s with p := { s.p with d := { s.p.d with bas := bas' } } }
  | array {s : QSt K} (a : Buf K) (h : ReachAsm P b0 s) : ReachAsm P b0 { s with asm := a }
  | assemble {s s' : QSt K} {en : Env K} {build : Bool} (h : ReachAsm P b0 s) (he : Exact en) (hp : PassiveSet P s.p.base)
      (hl : build = false → actComps P.op.inp P.op.nin * actComps P.op.out P.op.nout * ((P.points.map fun p => p.1.numPoints).getD 0) ≤ s.asm.len)
      (e : asmAtCore P en build s = .ok s' ()) : ReachAsm P b0 s'

end Operator
end Verif
