import Verif.Composite.MultProps
import Verif.Operator.DiagExamples

/-!
# C55: examples, and calls that do not do what is asked
-/

set_option linter.unusedSectionVars false

namespace Verif
namespace Operator

open Restriction (Rstr RData Made)

/-- One element with the nodes 1 and 2 of three. -/
def pairNodes : Rstr :=
  { exNodes with numElem := 1, lSize := 3, eSize := 2, numBlock := 1, offsets := ⟨2, (Buf.ofList [1, 2]).val⟩ }

def exSubs : List (Sub Int) := [.single exOp, .single (withNodes pairNodes)]

def multList (x : Res (Buf Int)) : Option (List Int) :=
  match x with
  | .ok b => some b.toList
  | _ => none

/-- The hypotheses of `C55_multiplicity_partial` are met, with an index to skip that designates no sub-operator; node 1 is
in both elements of the first sub-operator and counted once for it. -/
example : (∀ i < exSubs.length, ∃ s, exSubs[i]? = some s ∧ SubOK s 3 (if i = 0
        then Restriction.offsetData 2 2 1 1 (Buf.ofList [0, 1, 1, 2]) .none .unoriented
        else Restriction.offsetData 1 2 1 1 (Buf.ofList [1, 2]) .none .unoriented)) ∧
    (∀ i < exSubs.length, (i : Int) ∉ [7]) ∧
    multList (getCompMult exSubs [7] ⟨3, fun _ => 9⟩) = some [1, 2, 2] := by
  refine ⟨?_, by decide, by decide +kernel⟩
  intro i hi
  match i, hi with
  | 0, _ =>
    refine ⟨_, rfl, exOp, 0, 1, rfl, by decide, ⟨2, by decide, rfl⟩, ?_⟩
    exact Made.offset (checked := true) (o := .none) rfl trivial (Or.inl rfl)
  | 1, _ =>
    refine ⟨_, rfl, withNodes pairNodes, 0, 1, rfl, by decide, ⟨2, by decide, rfl⟩, ?_⟩
    exact Made.offset (checked := true) (o := .none) rfl trivial (Or.inl rfl)
  | n + 2, h => exact absurd h (by simp [exSubs])

/-- The hypotheses of `C55_rejected` are met by an operator without active input. -/
example : (∃ op : Oper Int, [Sub.single op][0]? = some (.single op) ∧ ∀ i < op.nin, (op.inp i).vec ≠ .active) :=
  ⟨{ exOp with nin := 1 }, rfl, by decide⟩

/-! ## Disagreements -/

/-- C55 fails for the indices to skip: the `continue` belongs to the inner loop, and the sub-operators are counted all the
same (`interface/ceed-preconditioning.c` 2523-2526). -/
theorem C55_skip_witness :
    multList (getCompMult exSubs [0] ⟨3, fun _ => 9⟩) = some [1, 2, 2] ∧
    multList (getCompMult exSubs [0, 1] ⟨3, fun _ => 9⟩) = some [1, 2, 2] := by decide +kernel

/-- A vector longer than the active vector of the sub-operators is accepted, and the multiplicity of the sub-operator is
read beyond its end (`interface/ceed-preconditioning.c` 2537-2539). -/
theorem C55_long_witness : getCompMult [.single exOp] [] ⟨4, fun _ => 9⟩ = .ub := rfl

/-- A composite operator may contain composite operators, but the multiplicity of its nodes is then refused: the active
restriction of a sub-operator is asked for, and its description, a null pointer for composite operators, is wrong
(`interface/ceed-operator.c` 284-296). -/
theorem C55_nested_witness :
    getCompMult ([.single exOp, .composite] : List (Sub Int)) [] ⟨3, fun _ => 9⟩ = .err .minor := rfl

end Operator
end Verif
