import Verif.Operator.AssembleSpec

/-!
# Specification of the matrix of an operator
-/

namespace Verif
namespace Operator

open Finset

variable {α : Type} [CommRing α]

/-- `A` is the matrix of the operator when the vectors hold `L`: applied to any active input `u` of `n` entries, the
operator adds `A u` to the active output. The active vectors `iv`, `ov` are any vectors that are not set as passive
fields. (`Meaning.action` is what `CeedOperatorApplyAdd` adds to a vector, see C37.) -/
def IsMatrix (op : Oper α) (S : Meaning α) (L : Nat → Nat → α) (n : Nat) (A : Nat → Nat → α) : Prop :=
  ∀ iv ov, (∀ i < op.nin, (op.inp i).vec ≠ .vec iv) → (∀ o < op.nout, (op.out o).vec ≠ .vec ov) →
    ∀ (u : Nat → α) (t : Nat), S.action op (Function.update L iv u) (.vec iv) (.vec ov) ov t = ∑ s ∈ range n, A t s * u s

end Operator
end Verif
