import Verif.Composite.PointBlockProps
import Verif.Composite.DiagExamples

/-!
# C58: examples
-/

namespace Verif
namespace Composite

open Finset
open Operator

def pbOps : Nat → Oper Int := fun _ => blOp
def pbC : CASt Int := ⟨fun _ => blA, blStart.vecs⟩

theorem pb_ok (ks : List Nat) (h : ks ≠ []) :
    BlocksOK pbOps (fun _ => blPrec) (fun _ => blMeaning) ks 6 2 1 (fun _ => 0) (fun _ => 0) (fun _ e m => e + m) :=
  ⟨h, fun _ _ => ⟨blOp_ok, blPrec_ok⟩, fun _ _ => rfl, fun _ _ => ⟨blBlock_ok, rfl, rfl⟩⟩

def pairs (x : Res (Buf (Int × Int))) : Option (List (Int × Int)) :=
  match x with
  | .ok v => some v.toList
  | _ => none

/-- Three nodes with two components each. -/
example : pairs (blockPattern pbOps (fun _ => blPrec) true 6 6 [0]) =
    some [(0, 0), (0, 1), (1, 0), (1, 1), (2, 2), (2, 3), (3, 2), (3, 3), (4, 4), (4, 5), (5, 4), (5, 5)] := by
  decide +kernel

/-- Every node belongs to an element. -/
example : ∀ a, a * (2 * 2) < 12 → Touched pbOps (fun _ => blMeaning) [0] (fun _ => 0) (fun _ e m => e + m) a := by
  intro a ha
  have : a = 0 ∨ a = 1 ∨ a = 2 := by omega
  rcases this with rfl | rfl | rfl
  · exact ⟨0, by simp, 0, by decide, 0, by decide, rfl⟩
  · exact ⟨0, by simp, 0, by decide, 1, by decide, rfl⟩
  · exact ⟨0, by simp, 1, by decide, 1, by decide, rfl⟩

/-- The hypotheses of the theorems are met by a single operator and by a composite of two. -/
example : BlocksOK pbOps (fun _ => blPrec) (fun _ => blMeaning) [0] 6 2 1 (fun _ => 0) (fun _ => 0) (fun _ e m => e + m) ∧
    ReadyC pbOps (fun _ => blPrec) (fun _ => blMeaning) (leaves (.comp [.op 0, .op 1])) 6 (fun _ => blA) pbC ∧
    (∃ A, IsMatrixC pbOps (fun _ => blMeaning) (leaves (.comp [.op 0, .op 1])) pbC.L 6 A) ∧
    BlocksOK pbOps (fun _ => blPrec) (fun _ => blMeaning) (leaves (.comp [.op 0, .op 1])) 6 2 1 (fun _ => 0) (fun _ => 0)
      (fun _ e m => e + m) :=
  ⟨pb_ok _ (by simp), ⟨fun _ _ => ⟨blOp_ok, blPrec_ok, blOp_linear⟩, fun _ _ => rfl,
      fun _ _ => ⟨⟨blStart_reach True, rfl, rfl, rfl, blOp_separate⟩, .refl _⟩, fun _ _ => Or.inl rfl, by decide⟩,
    C44_composite_matrix (P := fun _ => blPrec) (fun _ _ => ⟨blOp_ok, blOp_linear, blPrec_ok.inSize, rfl⟩) _,
    pb_ok _ (by decide)⟩

/-- Pairs and values of the composite: twice the blocks `[[2, 3], [5, 7]]`, and four times at the node in the middle. -/
example : vecC (diagT pbOps (fun _ => blPrec) true true (fun _ _ _ => 0) 1 (.comp [.op 0, .op 1]) pbC) 1 =
    some [4, 6, 10, 14, 8, 12, 20, 28, 4, 6, 10, 14] := by
  decide +kernel

/-- The same nodes in vectors with a fourth node, which belongs to no element. -/
def gapOps (_ : Nat) : Oper Int := { blOp with rstrs := fun i => { blOp.rstrs i with lSize := 8 } }
def gapPrec : Prec Int := { blPrec with inSize := 8, outSize := 8 }

/-- The documentation promises that the pairs are unique; the pairs of a node that belongs to no element are all `(0, 0)`. -/
theorem C58_unique_witness : pairs (blockPattern gapOps (fun _ => gapPrec) true 8 8 [0]) =
    some [(0, 0), (0, 1), (1, 0), (1, 1), (2, 2), (2, 3), (3, 2), (3, 3), (4, 4), (4, 5), (5, 4), (5, 5),
      (0, 0), (0, 0), (0, 0), (0, 0)] := by
  decide +kernel

/-- A composite without sub-operators: the list of its sub-operators is read. -/
theorem C58_empty_witness (ops : Nat → Oper Int) (P : Nat → Prec Int) (n : Int) : blockPattern ops P true n n [] = .ub := by
  unfold blockPattern
  rw [Res.check_true rfl]; rfl

/-- Sub-operators with one and with two components. -/
def mixOps (k : Nat) : Oper Int := if k = 0 then blOp else exOp
def mixPrec (k : Nat) : Prec Int := if k = 0 then blPrec else exPrec

example : (blockPattern mixOps mixPrec true 6 6 [0, 1] = .err .dimension ∨
    blockPattern mixOps mixPrec true 6 6 [0, 1] = .err .incompatible) :=
  C58_incompatible (k := 0) (k' := 1) (r := 0) (r' := 0) mixOps mixPrec true 6 (fun k _ i hi ha => by
    by_cases hk : k = 0
    · subst hk
      exact ⟨0, rfl⟩
    · have hm : mixOps k = exOp := if_neg hk
      rw [hm] at hi ha ⊢
      have hi2 : i < 4 := Nat.lt_of_lt_of_le hi (by decide)
      rcases (by omega : i = 0 ∨ i = 1 ∨ i = 2 ∨ i = 3) with rfl | rfl | rfl | rfl <;>
        first
        | exact ⟨_, rfl⟩
        | exact absurd ha (by decide)) (fun k hk => by
    have : k = 0 := by simpa using hk.symm
    subst this
    exact ⟨0, by decide, rfl⟩) (by simp) (by simp) (by decide) (by decide) (by decide)

end Composite
end Verif
