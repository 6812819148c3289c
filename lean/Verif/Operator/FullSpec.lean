import Verif.Operator.DiagSpec
import Verif.Operator.Full

/-!
# Specification of the assembly of the matrix
-/

namespace Verif
namespace Operator

open Finset

variable {α : Type} [CommRing α]

/-- Fields as `CeedOperatorSetField` and `CeedOperatorCheckReady` leave them: an active field is used without evaluation
and then has no basis, or it has a basis object, whose matrix in the mode of the field is `m`. -/
def FieldHas (op : Oper α) (p : Prec α) (S : Meaning α) (a : OField α) (id : Option Nat) (m : Buf α) : Prop :=
  (a.mode = .none ∧ id = none) ∨ HasBasis op p S a id m

/-- Operators whose matrix is assembled correctly: gradients of the same basis are not adjacent (see the witnesses for what
goes wrong otherwise). -/
structure FullOK (op : Oper α) (p : Prec α) (S : Meaning α) : Prop where
  inB : ∀ i < op.nin, (op.inp i).vec = .active → FieldHas op p S (op.inp i) (p.inB i) (S.mIn i)
  outB : ∀ o < op.nout, (op.out o).vec = .active → FieldHas op p S (op.out o) (p.outB o) (S.mOut o)
  inSize : SizeOK op op.inp op.nin p.inSize
  outSize : SizeOK op op.out op.nout p.outSize
  sepIn : Separated p op.inp p.inB op.nin
  sepOut : Separated p op.out p.outB op.nout

/-- The entry in row `t` and column `c` of the matrix given by `n` triples: the sum of their values. -/
def coo (n : Nat) (rc : Nat → Int × Int) (x : Nat → α) (t c : Nat) : α :=
  ∑ k ∈ range n, if rc k = ((t : Int), (c : Int)) then x k else 0

end Operator
end Verif
