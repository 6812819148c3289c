import Verif.Flops.Model
import Verif.Operator.Model
import Verif.Composite.Lengths

/-!
# `CeedOperatorGetFlopsEstimate`
-/

namespace Verif
namespace Flops

open Restriction (TMode Rstr)
open Basis (Bas EMode)
open Operator (Oper OField)
open Composite (Heap getH checkReady)

variable {α : Type _} [CommRing α]

/-- `CEED_BASIS_NONE`, `interface/ceed-basis.c` 20-27: a static object, all of whose fields are zero. (Its finite element
space is then `CEED_FE_SPACE_H1`.) -/
def basisNone : Bas α where
  isTensor := false
  isH1 := true
  dim := 0
  nc := 0
  P1 := 0
  Q1 := 0
  P := 0
  Q := 0
  interp1 := ⟨0, fun _ => 0⟩
  grad1 := ⟨0, fun _ => 0⟩
  qWeight := ⟨0, fun _ => 0⟩
  interp := none
  grad := none
  div := none
  curl := none
  colloInterp := false
  colloGrad := none

/-- An operator that is not composite, with the estimate of its QFunction (`user_flop_estimate`, -1 when not set) and, for an
operator at points, the numbers of points of the elements. -/
structure Part (α : Type _) where
  op : Oper α
  qfl : Int
  points : Option (Nat → Nat)

/-- `interface/ceed-operator.c` 1727-1741: points per element, rounded up, with host memory preferred. With device memory
(1731-1733) it is the maximum; no such backend is modelled. -/
def avgPoints (ne : Nat) (p : Nat → Nat) : Nat :=
  let rec total : Nat → Nat
    | 0 => 0
    | n + 1 => total n + p n
  total ne / ne + (if 0 < total ne % ne then 1 else 0)

/-- `interface/ceed-operator.c` 1750-1772 and 1791-1813: one field. `CEED_ELEMRESTRICTION_NONE` has an E-vector of length
zero. -/
def fieldFlops (op : Oper α) (tm : TMode) (pts : Option Nat) (f : OField α) : Res Int :=
  if f.vec = .active then do
    let r : Int := match f.rid with
      | some r => rstrFlops (op.rstrs r) tm
      | none => 0
    let b ← basisFlops (f.basis.getD basisNone) tm f.mode pts.isSome (pts.getD 0)
    Res.ok (r + b * op.ne)
  else Res.ok 0

/-- `interface/ceed-operator.c` 1716-1815: an operator that is not composite. -/
def partFlops (p : Part α) : Res Int :=
  if p.op.ne = 0 then Res.ok 0
  else do
    let pts := p.points.map (avgPoints p.op.ne)
    let i ← loop p.op.nin (fun i acc => do
      let x ← fieldFlops p.op .noTranspose pts (p.op.inp i)
      Res.ok (acc + x)) 0
    Res.check (-1 < p.qfl) .incomplete
    loop p.op.nout (fun i acc => do
      let x ← fieldFlops p.op .transpose pts (p.op.out i)
      Res.ok (acc + x)) (i + p.op.ne * ((pts.getD p.op.Q : Nat) : Int) * p.qfl)

/-- The loop over sub-operators, `interface/ceed-operator.c` 1709-1714. -/
def sumSubs (g : Nat → M Heap Int) : List Nat → Int → M Heap Int
  | [], acc => pure acc
  | s :: t, acc => do
    let x ← g s
    sumSubs g t (acc + x)

/-- `interface/ceed-operator.c` 1696-1817 `CeedOperatorGetFlopsEstimate`. `parts k` is the operator number `k`, if it is not
composite. As in `Verif/Composite/Lengths.lean` the recursion takes a bound on the depth. -/
def flops (parts : Nat → Part α) : Nat → Nat → M Heap Int
  | 0, _ => M.undef
  | n + 1, k => do
    checkReady (n + 1) k
    let h ← getH
    if (h k).comp = true then sumSubs (flops parts n) (h k).subs 0
    else M.lift (partFlops (parts k))

end Flops
end Verif
