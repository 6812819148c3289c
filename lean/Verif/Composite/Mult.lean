import Verif.Operator.Full
import Mathlib.Algebra.Order.Ring.Defs

/-!
# Composite operators: multiplicity of nodes

Models `CeedCompositeOperatorGetMultiplicity` (`interface/ceed-preconditioning.c` 2491-2549). Locks of vectors are the
subject of `Verif/Vector`.
-/

namespace Verif
namespace Operator

open Restriction (Rstr)

variable {α : Type _} [CommRing α] [LinearOrder α]

/-- A sub-operator: an operator with fields or again a composite one. -/
inductive Sub (α : Type _)
  | single (op : Oper α)
  | composite

/-- `interface/ceed-operator.c` 273-320 `CeedOperatorGetActiveElemRestriction` on a sub-operator that is ready. Contrary to its
description, which promises a null pointer, it fails for a composite operator, as `CeedOperatorGetFields` (lines 1024-1039)
does. -/
def Sub.rstr : Sub α → Res Rstr
  | .single op => do
    let r ← activeRstr op.inp op.nin
    .ok (op.rstrs r)
  | .composite => .err .minor

/-- Lines 2528-2534: how often each entry of the L-vector occurs in the restriction of a sub-operator. `ones` is
`ones_l_vec`; the other vectors are new (line 2531). -/
def subMult (r : Rstr) (ones : Buf α) : Res (Buf α) := do
  let e ← Restriction.apply r .unoriented .noTranspose ones ⟨r.eSize, fun _ => 0⟩
  Restriction.apply r .unoriented .transpose e ⟨r.lSize.toNat, fun _ => 0⟩

/-- Lines 2535-2539: flag every entry present in the sub-operator. -/
def flag (sub : Buf α) (mult : Buf α) : Res (Buf α) :=
  loop mult.len (fun j m => do
    let x ← sub.rd j
    if x > 0 then m.addAt j 1 else .ok m) mult

/-- Lines 2523-2526: the test for sub-operators to skip. The `continue` belongs to the loop over the indices, so that the
test has no effect. -/
def skipTest (i : Nat) (skip : List Int) : Res Unit := loop skip.length (fun j _ =>
  if skip[j]? = some (i : Int) then .ok () else .ok ()) ()

/-- One iteration of the loop over the sub-operators, lines 2518-2546. -/
def multStep (subs : List (Sub α)) (skip : List Int) (n : Nat) (i : Nat) (mult : Buf α) : Res (Buf α) := do
  skipTest i skip
  match subs[i]? with
  | none => .ub
  | some s => do
    let r ← s.rstr
    let sm ← subMult r ⟨n, fun _ => 1⟩
    flag sm mult

/-- `interface/ceed-preconditioning.c` 2491-2549 `CeedCompositeOperatorGetMultiplicity` on a composite operator that is
ready. -/
def getCompMult (subs : List (Sub α)) (skip : List Int) (mult : Buf α) : Res (Buf α) :=
  loop subs.length (multStep subs skip mult.len) ⟨mult.len, fun _ => 0⟩

end Operator
end Verif
