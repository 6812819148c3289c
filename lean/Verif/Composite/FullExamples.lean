import Verif.Composite.Full
import Verif.Composite.DiagExamples
import Verif.Operator.FullExamples

/-!
# C45: an example with a composite operator
-/

namespace Verif
namespace Composite

open Finset
open Operator

/-- The example with a vector `1` of twenty entries. -/
def fC : CASt Int := ⟨fun _ => exA, (roomA 20).st.vecs⟩

/-- The operator, one without elements, and the operator again. -/
def fOps (k : Nat) : Oper Int := if k = 1 then emptyOp else exOp

example : coords (symbolicC fOps (fun _ => exPrec) (.comp [.op 0, .op 1, .op 2])) =
      some (16, [(0, 0), (0, 1), (1, 0), (1, 1), (1, 1), (1, 2), (2, 1), (2, 2),
        (0, 0), (0, 1), (1, 0), (1, 1), (1, 1), (1, 2), (2, 1), (2, 2)]) ∧
    vecC (assembleC fOps (fun _ => exPrec) (fun _ => false) (fun _ _ _ => 0) 1 (.comp [.op 0, .op 1, .op 2]) fC) 1 =
      some [4, 2, 2, 4, 40, 20, 20, 40, 4, 2, 2, 4, 40, 20, 20, 40, 0, 0, 0, 0] ∧
    coords (symbolicC fOps (fun _ => exPrec) (.comp [.op 0, .comp [.op 2]])) = none := by decide +kernel

/-- The hypotheses of `C45_composite_partial` are met. -/
example : ReadyF (fun _ => exOp) (fun _ => exPrec) (fun _ => exMeaning) (leaves (.comp [.op 0, .op 1])) 3 3
      (fun _ => roomA 20) fC ∧
    ∃ A, IsMatrixC (fun _ => exOp) (fun _ => exMeaning) (leaves (.comp [.op 0, .op 1])) fC.L 3 A :=
  ⟨⟨fun _ _ => ⟨exOp_ok, exPrec_ok.full, exOp_linear⟩, fun _ _ => ⟨rfl, rfl⟩,
      fun _ _ => ⟨⟨Reach.start _ rfl (fun i => by
        match i with
        | 0 => intro h; cases h
        | 1 => intro h; cases h
        | 2 => intro h; cases h
        | n + 3 => intro _; rfl), rfl, rfl, rfl, exOp_separate⟩, .refl _⟩,
      fun _ _ => Or.inl rfl, by decide⟩,
    C44_composite_matrix (P := fun _ => exPrec) (fun _ _ => ⟨exOp_ok, exOp_linear, exPrec_ok.inSize, rfl⟩) _⟩

end Composite
end Verif
