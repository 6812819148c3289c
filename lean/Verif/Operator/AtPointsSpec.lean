import Verif.Operator.AtPoints
import Verif.Operator.Spec
import Verif.Restriction.PointsSpec
import Verif.Basis.PointsSpec
import Mathlib.RingTheory.Polynomial.Chebyshev

/-!
# Specification of the application of operators at points (C56)

Fields without basis have one value per point and component, given by a restriction created with
`CeedElemRestrictionCreateAtPoints`; fields with a basis are polynomials on every element, given by their values at the
nodes of the mesh and evaluated (or differentiated) at the points of the element. The action is
`sum over elements of E_out^T B_out^T f(B_in E_in u)`, where `B` evaluates the shape functions at the points of the element.
-/

namespace Verif
namespace Operator

open Finset Polynomial
open Restriction (RData Made Rstr PointsOK ptsIn ptAt)
open Basis (Bas EMode PBas Env Fresh Shape Exact Used pev along coord pointPos)

variable {K : Type} [Field K]

/-- Meaning of the parts of an operator at points: `D r` is the data from which the mesh restriction `r` was created, `offs r` the
array from which the restriction at points `r` was created, `offX` the array of the restriction of the coordinates, which
have `dim` components, and `phi id n` the one dimensional shape functions of basis `id`. -/
structure PMean (K : Type) [Field K] where
  D : Nat → RData K
  offs : Nat → Buf Int
  offX : Buf Int
  dim : Nat
  phi : Nat → Nat → K[X]

/-- Number of points of element `e`. -/
def PMean.np (S : PMean K) (e : Nat) : Nat := ptsIn S.offX e

/-- Contents of the vector of coordinates. -/
def POper.coords (P : POper K) (L : Nat → Nat → K) : Nat → K :=
  match P.points with
  | some p => L p.2
  | none => fun _ => 0

/-- Coordinate `d` of point `p` of element `e`. -/
def PMean.point (S : PMean K) (P : POper K) (L : Nat → Nat → K) (e p d : Nat) : K := P.coords L (ptAt S.offX e p * S.dim + d)

/-- Shape function of node `n` of a tensor basis at the point `x`, or its derivative in direction `k` in gradient mode. -/
noncomputable def shapeVal (b : Bas K) (phi : Nat → K[X]) (em : EMode) (x : Nat → K) (k n : Nat) : K :=
  ∏ d ∈ range b.dim, pev (along em k d) (phi (coord b.P1 d n)) (x d)

/-- Entry `x` of the array of input `i` that the QFunction sees on element `e`. Arrays have shape `q_comp, num_comp, num_points`. The
weights are ones. -/
noncomputable def PMean.inVal (S : PMean K) (P : POper K) (L : Nat → Nat → K) (inv : VPtr) (e i x : Nat) : K :=
  let a := P.op.inp i
  let u := cont L (a.vec.ptr inv)
  let r := a.rid.getD 0
  let n := S.np e
  match a.mode with
  | .weight => 1
  | .none => u (ptAt (S.offs r) e (x % n) * a.size + x / n)
  | _ =>
    match a.basis with
    | some b => ∑ m ∈ range b.P, (S.D r).row u e (x / n % b.nc) m *
        shapeVal b (S.phi (P.inB i)) a.mode (S.point P L e (x % n)) (x / n / b.nc) m
    | none => 0

/-- The arrays of all inputs, as given to the QFunction on element `e`. -/
noncomputable def PMean.inArr (S : PMean K) (P : POper K) (L : Nat → Nat → K) (inv : VPtr) (e : Nat) : Nat → Nat → K :=
  fun i x => if i < P.op.nin ∧ x < S.np e * (P.op.inp i).size then S.inVal P L inv e i x else 0

/-- The arrays of all outputs, as computed by the QFunction on element `e`; the identity QFunction copies. -/
noncomputable def PMean.outArr (S : PMean K) (P : POper K) (L : Nat → Nat → K) (inv : VPtr) (e : Nat) : Nat → Nat → K :=
  if P.op.isId then S.inArr P L inv e else P.F (S.np e) (S.inArr P L inv e)

/-- Entry `t` of what element `e` adds to the vector of output `o`. -/
noncomputable def PMean.elemAdds (S : PMean K) (P : POper K) (L : Nat → Nat → K) (inv : VPtr) (o e t : Nat) : K :=
  let a := P.op.out o
  let r := a.rid.getD 0
  let n := S.np e
  let y := S.outArr P L inv e o
  match a.mode with
  | .none => ∑ p ∈ range n, ∑ j ∈ range a.size, if t = ptAt (S.offs r) e p * a.size + j then y (j * n + p) else 0
  | _ =>
    match a.basis with
    | some b => ∑ c ∈ range (S.D r).nc, ∑ m ∈ range (S.D r).es, ∑ m' ∈ range (S.D r).es,
        if (S.D r).lidx e m' c = t then (S.D r).coef e m m' * ∑ p ∈ range n, ∑ k ∈ range (b.qComp a.mode),
          y (pointPos b.nc n k c p) * shapeVal b (S.phi (P.outB o)) a.mode (S.point P L e p) k m else 0
    | none => 0

/-- Entry `t` of everything the operator adds to vector `v` when applied to `inv` and into `outv`. -/
noncomputable def PMean.action (S : PMean K) (P : POper K) (L : Nat → Nat → K) (inv outv : VPtr) (v t : Nat) : K :=
  ∑ e ∈ range P.op.ne, ∑ o ∈ range P.op.nout, if (P.op.out o).vec.ptr outv = .vec v then S.elemAdds P L inv o e t else 0

variable [LinearOrder K]

/-- Basis `id` was created with independent shape functions `S.phi id` and distinct quadrature points. If `acc`, its interpolation
matrix is not that of the Chebyshev polynomials (otherwise `CeedBasisApplyAddAtPoints` does not accumulate, see C25). -/
def BasOK (S : PMean K) (b0 : Nat → PBas K) (id : Nat) (acc : Prop) : Prop :=
  ∃ i1 g1 w q, Fresh (b0 id) i1 g1 w q ∧ Shape q i1 (b0 id).bas.P1 (b0 id).bas.Q1 (S.phi id) ∧
    (acc → ∃ n < (b0 id).bas.P1, ∃ i < (b0 id).bas.Q1,
      i1.val (i * (b0 id).bas.P1 + n) ≠ (Chebyshev.U K (n : Int)).eval (q.val i))

/-- Restriction `r` was created at points, for the elements of the operator and with the points of the operator. -/
def OnPts (op : Oper K) (S : PMean K) (r nc : Nat) : Prop :=
  ∃ (m : Nat) (l : Int), PointsOK op.ne m nc l (S.offs r) ∧ Restriction.createAtPoints op.ne m nc l (S.offs r) = .ok (op.rstrs r) ∧
    ∀ e < op.ne, ptsIn (S.offs r) e = S.np e

/-- Restriction `r` was created on the mesh, for the elements of the operator. -/
def OnMesh (op : Oper K) (S : PMean K) (r : Nat) : Prop :=
  ∃ l, Made .plain (op.rstrs r) 1 l (S.D r) ∧ (S.D r).ne = op.ne

/-- A field that is not a field of weights is set correctly; its basis is object `id`. -/
def AtField (op : Oper K) (S : PMean K) (b0 : Nat → PBas K) (a : OField K) (id : Nat) (acc : Prop) : Prop :=
  ∃ r, a.rid = some r ∧
    ((a.mode = .none ∧ OnPts op S r a.size) ∨
     ((a.mode = .interp ∨ a.mode = .grad) ∧ OnMesh op S r ∧ a.basis = some (b0 id).bas ∧ (b0 id).bas.P = (S.D r).es ∧
        (b0 id).bas.nc = (S.D r).nc ∧ a.size = (b0 id).bas.nc * (b0 id).bas.qComp a.mode ∧ (b0 id).bas.dim = S.dim ∧
        BasOK S b0 id acc))

/-- Fields of a ready operator at points, and the sharing of vector and restriction between them. `shareIn`: at most one field of
weights (otherwise the setup dereferences a null pointer), and no two active inputs without basis on the same restriction
(the second is never filled). `shareOut`: outputs without basis do not share vector and restriction (only the last is
added). `ident`: the output of the identity QFunction has no basis (see the witness). `some`: with an output that has a basis,
every element has a point (otherwise the evaluation at points leaves the previous coefficients, see C25). -/
structure AtOK (P : POper K) (S : PMean K) (b0 : Nat → PBas K) : Prop where
  points : ∃ (rX : Rstr) (xv m : Nat) (l : Int), P.points = some (rX, xv) ∧ PointsOK P.op.ne m S.dim l S.offX ∧
    Restriction.createAtPoints P.op.ne m S.dim l S.offX = .ok rX
  weight : ∀ i < P.op.nin, (P.op.inp i).mode = .weight → (P.op.inp i).vec = .none ∧ (P.op.inp i).rid = none ∧
    (P.op.inp i).size = 1 ∧ (P.op.inp i).basis = some (b0 (P.inB i)).bas ∧ BasOK S b0 (P.inB i) False
  inp : ∀ i < P.op.nin, (P.op.inp i).mode ≠ .weight → AtField P.op S b0 (P.op.inp i) (P.inB i) False
  out : ∀ o < P.op.nout, AtField P.op S b0 (P.op.out o) (P.outB o) (∃ j < o, (P.op.out j).same (P.op.out o) = true)
  shareIn : ∀ i j, i < j → j < P.op.nin → (P.op.inp i).same (P.op.inp j) = true →
    (P.op.inp i).mode ≠ .weight ∧ ((P.op.inp j).mode = .none → (P.op.inp j).vec ≠ .active)
  shareOut : ∀ j o, j < o → o < P.op.nout → (P.op.out j).same (P.op.out o) = true → (P.op.out o).mode ≠ .none
  ident : P.op.isId = true → P.op.nin = 1 ∧ P.op.nout = 1 ∧ (P.op.out 0).size = (P.op.inp 0).size ∧ (P.op.out 0).mode = .none
  some : (∃ o < P.op.nout, (P.op.out o).mode ≠ .none) → ∀ e < P.op.ne, 0 < S.np e

/-- Length of a vector that is gathered from or added into element by element: mesh restrictions ask for the exact length. -/
def FitsL (r : Rstr) (n : Nat) : Prop := r.lSize ≤ n ∧ (r.rtype ≠ .points → r.lSize = n)

/-- Vectors read by an application hold valid data and have the right length, the coordinates included. -/
def AtInReady (P : POper K) (inv : VPtr) (s : St K) : Prop :=
  (∀ i < P.op.nin, (P.op.inp i).mode ≠ .weight → ∃ r v, (P.op.inp i).rid = some r ∧ (P.op.inp i).vec.ptr inv = .vec v ∧
    (s.vecs v).valid = true ∧ (P.op.rstrs r).lSize ≤ (s.vecs v).buf.len ∧
    ((P.op.inp i).vec = .active → FitsL (P.op.rstrs r) (s.vecs v).buf.len)) ∧
  ∀ rX xv, P.points = some (rX, xv) → (s.vecs xv).valid = true ∧ rX.lSize ≤ (s.vecs xv).buf.len

/-- Vectors added into hold valid data and have the right length. -/
def AtOutReady (P : POper K) (outv : VPtr) (s : St K) : Prop :=
  ∀ o < P.op.nout, ∃ r v, (P.op.out o).rid = some r ∧ (P.op.out o).vec.ptr outv = .vec v ∧
    (s.vecs v).valid = true ∧ FitsL (P.op.rstrs r) (s.vecs v).buf.len

/-- Neither the active input nor the vector of coordinates is written. -/
def AtApart (P : POper K) (inv outv : VPtr) : Prop :=
  (∀ i < P.op.nin, (P.op.inp i).mode ≠ .weight → (P.op.inp i).vec = .active → ∀ o < P.op.nout, (P.op.out o).vec.ptr outv ≠ inv) ∧
  ∀ rX xv, P.points = some (rX, xv) → ∀ o < P.op.nout, (P.op.out o).vec.ptr outv ≠ .vec xv

/-- The passive inputs are vectors that have been written at least once (`state` counts the changes). Without this, zeros are
read from vectors that hold no data (`C56_unset_witness`). -/
def PassiveSet (P : POper K) (s : St K) : Prop :=
  ∀ i < P.op.nin, (P.op.inp i).mode ≠ .weight → (P.op.inp i).vec ≠ .active → ∃ v, (P.op.inp i).vec = .vec v ∧ 0 < (s.vecs v).state

/-- Histories of one operator at points, whose passive inputs are written before it is applied; compare `Reach`. The bases start as created (`b0`) and may be used for evaluation at points
elsewhere, by calls with any arguments. Calls that return an error are admitted if `fails`. -/
inductive ReachAt (P : POper K) (b0 : Nat → PBas K) (fails : Prop) : PSt K → Prop
  | start (s : PSt K) (hd : s.base.impl.done = false) (hv : ∀ i, (s.base.vecs i).state = 0 → (s.base.vecs i).valid = false)
      (hb : s.d.bas = b0) : ReachAt P b0 fails s
  | user {s : PSt K} {vecs' : Nat → LVec K} (h : ReachAt P b0 fails s) (ha : Advances s.base.vecs vecs') :
      ReachAt P b0 fails { s with base := { s.base with vecs := vecs' } }
  | bases {s : PSt K} {bas' : Nat → PBas K} (h : ReachAt P b0 fails s) (hb : ∀ id, Used (s.d.bas id) (bas' id)) :
      ReachAt P b0 fails { s with d := { s.d with bas := bas' } }
  | applyAdd {s s' : PSt K} {en : Env K} {inv outv : VPtr} (h : ReachAt P b0 fails s) (he : Exact en) (hp : PassiveSet P s.base)
      (e : applyAddAt P en inv outv s = .ok s' ()) : ReachAt P b0 fails s'
  | apply {s s' : PSt K} {en : Env K} {inv outv : VPtr} (h : ReachAt P b0 fails s) (he : Exact en) (hp : PassiveSet P s.base)
      (e : applyAt P en inv outv s = .ok s' ()) : ReachAt P b0 fails s'
  | applyAddErr {s s' : PSt K} {en : Env K} {inv outv : VPtr} {c : Err} (hf : fails) (h : ReachAt P b0 fails s) (he : Exact en) (hp : PassiveSet P s.base)
      (e : applyAddAt P en inv outv s = .err s' c) : ReachAt P b0 fails s'
  | applyErr {s s' : PSt K} {en : Env K} {inv outv : VPtr} {c : Err} (hf : fails) (h : ReachAt P b0 fails s) (he : Exact en) (hp : PassiveSet P s.base)
      (e : applyAt P en inv outv s = .err s' c) : ReachAt P b0 fails s'

end Operator
end Verif
