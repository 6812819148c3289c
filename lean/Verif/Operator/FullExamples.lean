import Verif.Operator.FullProps
import Verif.Operator.DiagExamples

/-!
# C45: examples, and operators whose matrix is assembled wrongly
-/

set_option linter.unusedSectionVars false

namespace Verif
namespace Operator

open Finset
open Restriction (RData Made Rstr)
open Basis (Bas EMode)

/-- The example with a vector `1` of `n` entries. -/
def roomA (n : Nat) : ASt Int :=
  { exA with st := { exStart with vecs := Function.update exStart.vecs 1 ⟨2, true, ⟨n, fun _ => 7⟩⟩ } }

def coords (x : Res (Nat × Buf (Int × Int))) : Option (Nat × List (Int × Int)) :=
  match x with
  | .ok r => some (r.1, r.2.toList)
  | _ => none

/-- The matrix on vectors of `n` entries: the sum of the triples. -/
def assembledOf (op : Oper Int) (p : Prec Int) (n : Nat) (s : ASt Int) : List (Option Int) :=
  match symbolic op p, assemble op p false (fun _ _ => 0) 1 s with
  | .ok r, .ok s _ => ((List.range n).map (fun t => (List.range n).map (fun c =>
      some (((List.range r.1).map (fun k => if r.2.val k = ((t : Int), (c : Int)) then s.st.L 1 k else 0)).sum)))).flatten
  | _, _ => []
def matrixOf (op : Oper Int) (n : Nat) (s : St Int) : List (Option Int) :=
  ((List.range n).map (fun t => (List.range n).map (fun c => entryOf op n s t c))).flatten

theorem DiagOK.full {α : Type} [CommRing α] {op : Oper α} {p : Prec α} {S : Meaning α} (h : DiagOK op p S) : FullOK op p S :=
  ⟨fun i hi ha => Or.inr (h.inB i hi ha), fun o ho ha => Or.inr (h.outB o ho ha), h.inSize, h.outSize, h.sepIn, h.sepOut⟩

/-- The hypotheses of `C45_assemble_partial`, `C45_symbolic` and `C45_succeeds` are met, and a matrix exists. -/
example : OpOK exOp exMeaning ∧ FullOK exOp exPrec exMeaning ∧ LinearQF exOp ∧ Unassembled exOp (roomA 8) ∧
    NoApply exOp (roomA 8) (roomA 8) ∧ (roomA 8).built = none ∧ (∀ i < exOp.nin, (exOp.inp i).vec ≠ .vec 1) ∧
    AReach exOp False (roomA 8) ∧ (∀ i < exOp.nin, (exOp.inp i).vec = .active → (exOp.inp i).rid = some 0) ∧
    (∀ o < exOp.nout, (exOp.out o).vec = .active → (exOp.out o).rid = some 0) ∧
    (∀ i < exOp.nin, (exOp.inp i).vec = .active → exPrec.inB i = some 0) ∧
    8 ≤ ((roomA 8).st.vecs 1).buf.len ∧
    ∃ A, IsMatrix exOp exMeaning (roomA 8).st.L exPrec.inSize.toNat A := by
  have hr : ∀ fails, Reach exOp fails (roomA 8).st := fun fails => Reach.start _ rfl (fun i => by
      match i with
      | 0 => intro h; cases h
      | 1 => intro h; cases h
      | 2 => intro h; cases h
      | n + 3 => intro _; rfl)
  refine ⟨exOp_ok, exPrec_ok.full, exOp_linear, ⟨hr True, rfl, rfl, rfl, exOp_separate⟩, .refl _, rfl, by decide, .start _ rfl (fun i => by
      match i with
      | 0 => intro h; cases h
      | 1 => intro h; cases h
      | 2 => intro h; cases h
      | n + 3 => intro _; rfl) rfl rfl rfl, by decide, by decide, by decide, by decide,
    C44_matrix exOp_ok exOp_linear _ exPrec_ok.inSize⟩

/-- Element matrices `[[4, 2], [2, 4]]` and ten times that; with a longer vector, and a tensor contraction. -/
example : coords (symbolic exOp exPrec) =
      some (8, [(0, 0), (0, 1), (1, 0), (1, 1), (1, 1), (1, 2), (2, 1), (2, 2)]) ∧
    vecAfter (assemble exOp exPrec false (fun _ _ => 0) 1 (roomA 8)) 1 = some [4, 2, 2, 4, 40, 20, 20, 40] ∧
    vecAfter (assemble exOp exPrec true (fun _ _ => 0) 1 (roomA 10)) 1 = some [4, 2, 2, 4, 40, 20, 20, 40, 0, 0] ∧
    assembledOf exOp exPrec 3 (roomA 8) = matrixOf exOp 3 exStart := by decide +kernel

/-- Curl oriented restrictions, repeated nodes, fields without basis, several components, and strided restrictions, for which
the diagonal is assembled wrongly (C44) or not at all. -/
example : assembledOf (withNodes curlNodes) (sized 2) 2 (roomA 8) = [some 4, some 6, some 6, some 12] ∧
    matrixOf (withNodes curlNodes) 2 exStart = [some 4, some 6, some 6, some 12] ∧
    assembledOf (withNodes loopNodes) (sized 1) 1 (roomA 8) = matrixOf (withNodes loopNodes) 1 exStart ∧
    assembledOf collOp noBasis 3 (roomA 8) = matrixOf collOp 3 exStart ∧
    assembledOf stridedOp fourPrec 4 (roomA 8) = matrixOf stridedOp 4 blStart ∧
    assembledOf blOp blPrec 6 { blA with st := (roomA 32).st } = matrixOf blOp 6 blStart := by decide +kernel

/-! ## Disagreements -/

/-- C45 fails if two active inputs in a row evaluate the gradient with the same basis: the components of the second are taken
for further components of the first (`CeedOperatorAssemblyDataGetBases`, lines 1643-1660), beyond the end of the matrix. -/
theorem C45_adjacent_witness :
    asmUb (assemble gradOp gradPrec false (fun _ _ => 0) 1 (roomA 8)) = true ∧
    matrixOf gradOp 3 exStart = [some 1, some 4, some 0, some 1, some 5, some 4, some 0, some 1, some 4] := by
  decide +kernel

/-- The length of `values` is not checked: a vector shorter than the number of entries reported is written beyond its end
(`interface/ceed-preconditioning.c` 775-781). -/
theorem C45_short_witness :
    coords (symbolic exOp exPrec) ≠ none ∧ asmUb (assemble exOp exPrec false (fun _ _ => 0) 1 (roomA 7)) = true := by
  decide +kernel

/-- Active inputs with different restrictions are rejected. -/
example : coords (symbolic swapOp onePrec) = none := by decide +kernel

end Operator
end Verif
