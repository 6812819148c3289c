import Verif.Basis.Points
import Verif.Basis.PinvProps

/-!
# Specification of the evaluation at points (C25)

The values of a field at the nodes, multiplied by the 1D interpolation matrix of the basis in every direction, are values at the
quadrature points. They determine one polynomial of degree less than `Q_1d` in every coordinate: this is the polynomial that is
evaluated. For a Lagrange basis with no more nodes than quadrature points it is the polynomial with the given values at the nodes.
-/

namespace Verif
namespace Basis

open Finset Polynomial
open Restriction (TMode)

variable {K : Type} [Field K]

/-- Value of `f` at `x`, or of its derivative. -/
noncomputable def pev (der : Bool) (f : K[X]) (x : K) : K := if der then (derivative f).eval x else f.eval x

/-- `phi n` is the shape function of node `n` in one direction: the polynomial of degree less than `Q1` whose values at the quadrature
points `q` are column `n` of the interpolation matrix `i1`. -/
def Shape (q i1 : Buf K) (P1 Q1 : Nat) (phi : Nat → K[X]) : Prop :=
  ∀ n < P1, (phi n).degree < Q1 ∧ ∀ i < Q1, (phi n).eval (q.val i) = i1.val (i * P1 + n)

/-- In gradient mode, component `k` is the derivative in direction `k`. -/
def along (em : EMode) (k d : Nat) : Bool := decide (em = .grad) && decide (k = d)

/-- Value at point `p` of the shape function of node `n` of the tensor basis, or of its derivative in direction `k` in gradient mode. Coordinate `d` of
point `p` is at `d * np + p`. -/
noncomputable def shapeAt (b : Bas K) (phi : Nat → K[X]) (em : EMode) (np : Nat) (x : Buf K) (k p n : Nat) : K :=
  ∏ d ∈ range b.dim, pev (along em k d) (phi (coord b.P1 d n)) (x.val (d * np + p))

/-- Position of quadrature component `k`, component `c`, point `p`. -/
def pointPos (nc np k c p : Nat) : Nat := (k * nc + c) * np + p

variable [LinearOrder K]

/-- Exact arithmetic: `sqrt` is the square root and the collocation test is exact. -/
def Exact (en : Env K) : Prop := IsSqrt en.sqrt ∧ ∀ x, en.near x = true → x = 0

/-- `s` is a tensor basis with 1D matrices `i1`, `g1` and distinct quadrature points `q`, as created: nothing has been evaluated at points yet. The
columns of the interpolation matrix are independent, unless it has more columns than rows. There are two quadrature points at least. -/
structure Fresh (s : PBas K) (i1 g1 w q : Buf K) : Prop where
  basis : TensorBasis s.bas i1 g1 w
  ref : s.qRef = q
  len : q.len = s.bas.Q1
  two : 2 ≤ s.bas.Q1
  distinct : Distinct q s.bas.Q1
  indep : s.bas.P1 ≤ s.bas.Q1 → Independent (asMat i1 s.bas.Q1 s.bas.P1)
  cheb : s.cheb = none

/-- States of the basis after any sequence of calls of `CeedBasisApplyAtPoints` and `CeedBasisApplyAddAtPoints` with any arguments,
successful or not. -/
inductive Used (s0 : PBas K) : PBas K → Prop
  | new : Used s0 s0
  | apply {s s' : PBas K} {en : Env K} {ne : Nat} {np : Buf Nat} {tm : TMode} {em : EMode} {x u : Option (Buf K)} {v : Buf K} :
      Used s0 s → Exact en →
      ((∃ v', applyAtPoints en ne np tm em x u v s = .ok s' v') ∨ (∃ e, applyAtPoints en ne np tm em x u v s = .err s' e)) → Used s0 s'
  | applyAdd {s s' : PBas K} {en : Env K} {ne : Nat} {np : Buf Nat} {tm : TMode} {em : EMode} {x u : Option (Buf K)} {v : Buf K} :
      Used s0 s → Exact en →
      ((∃ v', applyAddAtPoints en ne np tm em x u v s = .ok s' v') ∨ (∃ e, applyAddAtPoints en ne np tm em x u v s = .err s' e)) →
      Used s0 s'

end Basis
end Verif
