import Verif.Operator.AssembleSpec

/-!
# Specification for the assembly of matrices on a device
-/

namespace Verif.Gpu
open Verif.Operator (Oper Meaning offset unit)

variable {α : Type} [CommRing α]

/-- The vector that `CeedOperatorLinearAssembleQFunctionBuildOrUpdate` returns on a device holds the values of the
QFunction on all unit inputs, in the layout of its restriction (`ceed-cuda-ref-operator.c` 1027, strides
`{1, num_elem * Q, Q}`): shape `inputs, outputs, num_elem, num_qpts`. -/
def ColumnsDev (op : Oper α) (S : Meaning α) (L : Nat → Nat → α) (D : Buf α) : Prop :=
  D.len = op.ne * op.Q * op.cIn * op.cOut ∧
  ∀ e < op.ne, ∀ i < op.nin, (op.inp i).vec = .active → ∀ c < (op.inp i).size,
    ∀ o < op.nout, (op.out o).vec = .active → ∀ d < (op.out o).size, ∀ q < op.Q,
      D.val ((((offset op.inp i + c) * op.cOut + (offset op.out o + d)) * op.ne + e) * op.Q + q) =
        op.eval (S.mix op L e (unit op i c)) o (d * op.Q + q)

end Verif.Gpu
