import Verif.Composite.Diag
import Verif.Operator.Full

/-!
# The pattern of the point block diagonal

Models `CeedOperatorLinearAssemblePointBlockDiagonalSymbolic` (`interface/ceed-preconditioning.c` 2128-2210). The pair of the
arrays `rows` and `cols` is one array of pairs. The sub-operators of a composite are single operators (the assembly data of a
composite cannot be created).
-/

namespace Verif
namespace Composite

open Operator
open Restriction (Rstr)

variable {α : Type} [CommRing α]

/-- `active_elem_rstrs` of the assembly data of an operator: lines 2154-2155. -/
def asmRstrs (op : Oper α) (p : Prec α) : List (Option Nat) := (asmData p op.inp p.inB op.nin).1.map ABasis.rid

/-- Lines 2156-2157, 2166, 2169: component stride and number of components. `CEED_ELEMRESTRICTION_NONE` is not modelled. -/
def strideOf (op : Oper α) : Option Nat → Res (Int × Nat)
  | none => .ub
  | some r => .ok ((op.rstrs r).compStride, (op.rstrs r).numComp)

/-- Lines 2153-2157: the initial values, from the first restriction of the first operator. -/
def firstStride (ops : Nat → Oper α) (P : Nat → Prec α) : List Nat → Res (Int × Nat)
  | [] => .ub
  | k :: _ =>
    match asmRstrs (ops k) (P k) with
    | [] => .ub
    | r :: _ => strideOf (ops k) r

/-- Lines 2163-2174: the restrictions of one operator. -/
def checkRstrs (op : Oper α) (x : Int × Nat) : List (Option Nat) → Res Unit
  | [] => .ok ()
  | r :: rs => do
    let y ← strideOf op r
    Res.check (x.1 = y.1) .dimension
    Res.check (x.2 = y.2) .incompatible
    checkRstrs op x rs

/-- Lines 2160-2175. -/
def checkOps (ops : Nat → Oper α) (P : Nat → Prec α) (x : Int × Nat) : List Nat → Res Unit
  | [] => .ok ()
  | k :: ks => do
    checkRstrs (ops k) x (asmRstrs (ops k) (P k))
    checkOps ops P x ks

/-- Lines 2194-2201: the entries of node `i` of the E-vector, at `b`. -/
def writeNode (nc : Nat) (cs o b : Int) (v : Buf (Int × Int)) : Res (Buf (Int × Int)) :=
  loop nc (fun co v => loop nc (fun ci v => v.wrI (b + co * nc + ci) (o + co * cs, o + ci * cs)) v) v

/-- Lines 2183-2201: the entries of the nodes of one operator. The offsets of a strided restriction are a null pointer. -/
def writeOp (op : Oper α) (checked : Bool) (nc : Nat) (v : Buf (Int × Int)) : Res (Buf (Int × Int)) := do
  let r ← activeRstr op.inp op.nin
  let rp ← pointBlock checked (op.rstrs r)
  loop ((op.rstrs r).numElem * (op.rstrs r).elemSize).toNat (fun i v => do
    let o ← (op.rstrs r).offsets.rd i
    let b ← rp.offsets.rd i
    writeNode nc (op.rstrs r).compStride o b v) v

/-- Lines 2182-2208. -/
def writeOps (ops : Nat → Oper α) (checked : Bool) (nc : Nat) : List Nat → Buf (Int × Int) → Res (Buf (Int × Int))
  | [], v => .ok v
  | k :: ks, v => do
    let v ← writeOp (ops k) checked nc v
    writeOps ops checked nc ks v

/-- `interface/ceed-preconditioning.c` 2128-2210 `CeedOperatorLinearAssemblePointBlockDiagonalSymbolic` of an operator with
vectors of `inSize` and `outSize` entries whose parts (itself, if it is no composite) are the operators `ks`. The arrays are
allocated with zeros. -/
def blockPattern (ops : Nat → Oper α) (P : Nat → Prec α) (checked : Bool) (inSize outSize : Int) (ks : List Nat) :
    Res (Buf (Int × Int)) := do
  Res.check (inSize = outSize) .dimension
  let x ← firstStride ops P ks
  checkOps ops P x ks
  writeOps ops checked x.2 ks ⟨(inSize * x.2).toNat, fun _ => (0, 0)⟩

/-! ## Specification -/

/-- The parts satisfy the conditions of C44 for point blocks, with the same number of components, component stride and size. -/
structure BlocksOK (ops : Nat → Oper α) (P : Nat → Prec α) (S : Nat → Meaning α) (ks : List Nat) (n nc : Nat) (cs : Int)
    (β ρ : Nat → Nat) (node : Nat → Nat → Nat → Nat) : Prop where
  ne : ks ≠ []
  ok : ∀ k ∈ ks, OpOK (ops k) (S k) ∧ DiagOK (ops k) (P k) (S k)
  size : ∀ k ∈ ks, (P k).inSize = n
  block : ∀ k ∈ ks, BlockOK (ops k) (P k) (S k) (β k) (ρ k) (node k) ∧ ((S k).D (ρ k)).nc = nc ∧
    ((ops k).rstrs (ρ k)).compStride = cs

/-- Node `a` is a node of an element of one of the parts. -/
def Touched (ops : Nat → Oper α) (S : Nat → Meaning α) (ks : List Nat) (ρ : Nat → Nat) (node : Nat → Nat → Nat → Nat)
    (a : Nat) : Prop :=
  ∃ k ∈ ks, ∃ e < (ops k).ne, ∃ m < ((S k).D (ρ k)).es, node k e m = a

/-- Entry `(i, j)` of the matrix that the pairs `v` and the values `w` describe: values of equal pairs are added. -/
def coo (v : Buf (Int × Int)) (w : Nat → α) (i j : Nat) : α :=
  ∑ t ∈ Finset.range v.len, if v.val t = ((i : Int), (j : Int)) then w t else 0

/-- `i` and `j` are entries of the same node. -/
def SameNode (cs : Int) (nc i j : Nat) : Prop :=
  ∃ a co ci, co < nc ∧ ci < nc ∧ (cs = 1 ∨ a < cs.toNat) ∧ i = nodePos cs nc a co ∧ j = nodePos cs nc a ci

end Composite
end Verif
