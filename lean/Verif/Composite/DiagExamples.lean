import Verif.Composite.Diag
import Verif.Operator.DiagExamples

/-!
# C44: an example with a composite operator
-/

namespace Verif
namespace Composite

open Finset
open Operator

/-- Two copies of the example, one of which is scaled by the quadrature data and one without elements. -/
def dOps (k : Nat) : Oper Int := if k = 0 then exOp else emptyOp
def dTree : Tree := .comp [.op 0, .comp [.op 1]]
def dC : CASt Int := ⟨fun _ => exA, exStart.vecs⟩

def vecC (x : Out (CASt Int) Unit) (v : Nat) : Option (List Int) :=
  match x with
  | .ok s _ => some (s.vecs v).buf.toList
  | _ => none

/-- The vector is set to zero, although one part has no elements. -/
example : vecC (diagT dOps (fun _ => exPrec) false true (fun _ _ _ => 0) 1 dTree dC) 1 = some [4, 44, 40] ∧
    vecC (diagT dOps (fun _ => exPrec) false true (fun _ _ _ => 0) 1 (.comp [.op 1]) dC) 1 = some [0, 0, 0] ∧
    vecC (diagT dOps (fun _ => exPrec) false true (fun _ _ _ => 0) 1 (.comp [.op 0, .op 2, .op 0]) dC) 1 = some [8, 88, 80] := by
  decide +kernel

/-- The hypotheses of the theorems on composites are met. -/
example : ReadyC (fun _ => exOp) (fun _ => exPrec) (fun _ => exMeaning) (leaves (.comp [.op 0, .comp [.op 1]])) 3 (fun _ => exA) dC ∧
    ∃ A, IsMatrixC (fun _ => exOp) (fun _ => exMeaning) (leaves (.comp [.op 0, .comp [.op 1]])) dC.L 3 A :=
  ⟨⟨fun _ _ => ⟨exOp_ok, exPrec_ok, exOp_linear⟩, fun _ _ => rfl, fun _ _ => ⟨exA_unassembled, .refl _⟩,
    fun _ _ => Or.inl rfl, by decide⟩,
    C44_composite_matrix (P := fun _ => exPrec) (fun _ _ => ⟨exOp_ok, exOp_linear, exPrec_ok.inSize, rfl⟩) _⟩

end Composite
end Verif
