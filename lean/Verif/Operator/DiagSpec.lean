import Verif.Operator.MatrixSpec
import Verif.Operator.AsmLemmas
import Verif.Operator.Diag

/-!
# Specification of the assembly of diagonals
-/

namespace Verif
namespace Operator

open Finset
open Basis (EMode)

variable {α : Type} [CommRing α]

/-- An active field has a basis object, whose matrix in the mode of the field is `m`. -/
def HasBasis (op : Oper α) (p : Prec α) (S : Meaning α) (a : OField α) (id : Option Nat) (m : Buf α) : Prop :=
  a.mode ≠ .none ∧ ∃ b, id = some b ∧ a.basis = some (p.bas b) ∧ ∃ m', (∀ x, basisPtr p id a.mode x = .ok m') ∧
    m'.val = m.val ∧ (p.bas b).qComp a.mode * op.Q * (S.dat a).es ≤ m'.len

/-- Lengths of the active vectors are those of the restrictions of the active fields (C42). -/
def SizeOK (op : Oper α) (f : Nat → OField α) (n : Nat) (l : Int) : Prop :=
  ∀ i < n, (f i).vec = .active → ∀ r, (f i).rid = some r → (op.rstrs r).lSize = l

/-- Operators whose diagonal is assembled correctly (see the witnesses for what goes wrong otherwise): every active field
has a basis; an input and an output with the same basis have the same restriction, which is not curl oriented and has
different entries for the different nodes and components of an element; an input and an output with different bases have
no entry in common on an element; gradients of the same basis are not adjacent. -/
structure DiagOK (op : Oper α) (p : Prec α) (S : Meaning α) : Prop where
  inB : ∀ i < op.nin, (op.inp i).vec = .active → HasBasis op p S (op.inp i) (p.inB i) (S.mIn i)
  outB : ∀ o < op.nout, (op.out o).vec = .active → HasBasis op p S (op.out o) (p.outB o) (S.mOut o)
  inSize : SizeOK op op.inp op.nin p.inSize
  outSize : SizeOK op op.out op.nout p.outSize
  square : p.inSize = p.outSize
  sepIn : Separated p op.inp p.inB op.nin
  sepOut : Separated p op.out p.outB op.nout
  same : ∀ i < op.nin, ∀ o < op.nout, (op.inp i).vec = .active → (op.out o).vec = .active → p.inB i = p.outB o →
    (op.inp i).rid = (op.out o).rid ∧ (∀ r, (op.inp i).rid = some r → (op.rstrs r).rtype ≠ .curlOriented) ∧
    ∀ e < op.ne, ∀ m < (S.dat (op.inp i)).es, ∀ m' < (S.dat (op.inp i)).es, ∀ k < (S.dat (op.inp i)).nc,
      ∀ k' < (S.dat (op.inp i)).nc, (S.dat (op.inp i)).lidx e m k = (S.dat (op.inp i)).lidx e m' k' → m = m' ∧ k = k'
  apart : ∀ i < op.nin, ∀ o < op.nout, (op.inp i).vec = .active → (op.out o).vec = .active → p.inB i ≠ p.outB o →
    ∀ e < op.ne, ∀ m < (S.dat (op.out o)).es, ∀ m' < (S.dat (op.inp i)).es, ∀ k < (S.dat (op.out o)).nc,
      ∀ k' < (S.dat (op.inp i)).nc, (S.dat (op.out o)).lidx e m k ≠ (S.dat (op.inp i)).lidx e m' k'

/-- All active fields have the basis object `β` and the restriction `ρ`, as the documentation of the point block diagonal
asks, and the components of a node are either adjacent (`comp_stride = 1`) or `comp_stride` apart with fewer than
`comp_stride` nodes: `node e m` is the number of the node. -/
structure BlockOK (op : Oper α) (p : Prec α) (S : Meaning α) (β ρ : Nat) (node : Nat → Nat → Nat) : Prop where
  inB : ∀ i < op.nin, (op.inp i).vec = .active → p.inB i = some β ∧ (op.inp i).rid = some ρ
  outB : ∀ o < op.nout, (op.out o).vec = .active → p.outB o = some β ∧ (op.out o).rid = some ρ
  some : ∃ i < op.nin, (op.inp i).vec = .active
  someO : ∃ o < op.nout, (op.out o).vec = .active
  rtype : (op.rstrs ρ).rtype = .standard ∨ (op.rstrs ρ).rtype = .oriented
  nodes : ∀ e < op.ne, ∀ m < (S.D ρ).es, ∀ k < (S.D ρ).nc,
    ((op.rstrs ρ).compStride = 1 ∧ (S.D ρ).lidx e m k = node e m * (S.D ρ).nc + k) ∨
    ((op.rstrs ρ).compStride ≠ 1 ∧ (S.D ρ).lidx e m k = node e m + k * (op.rstrs ρ).compStride.toNat ∧
      node e m < (op.rstrs ρ).compStride.toNat)

/-- Entry of component `k` of node `a`. -/
def nodePos (cs : Int) (nc a k : Nat) : Nat := if cs = 1 then a * nc + k else a + k * cs.toNat

end Operator
end Verif
