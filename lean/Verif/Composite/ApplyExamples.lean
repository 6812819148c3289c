import Verif.Composite.ApplyProps
import Verif.Operator.Examples

/-!
# Examples for composite application (C38)
-/

namespace Verif
namespace Composite

open Operator

/-- A second operator: the active input is interpolated; outputs are the interpolated values, integrated against the basis into
the active output and stored per quadrature point in vector 3. -/
def exOp1 : Oper Int where
  ne := 2
  Q := 1
  nin := 1
  nout := 2
  inp := fun _ => ⟨.active, some 0, some exBasis, .interp, 1⟩
  out := fun o => match o with
    | 0 => ⟨.active, some 0, some exBasis, .interp, 1⟩
    | _ => ⟨.vec 3, some 1, none, .none, 1⟩
  rstrs := fun r => if r = 0 then exNodes else exData
  isId := false
  f := fun x o q => if o = 0 then 2 * x 0 q else x 0 q

/-- Its meaning. -/
def exMeaning1 : Meaning Int := { exMeaning with mIn := fun _ => Buf.ofList [1, 1] }

theorem exOp1_ok : OpOK exOp1 exMeaning1 := by
  obtain ⟨⟨b1, b2, b3⟩, _, _⟩ := basis_ok exBasis_made
  refine ⟨?_, ?_, ?_, ?_, ?_⟩
  · intro i _
    exact ⟨exNodes_has rfl rfl rfl, exBasis, exFits rfl rfl rfl (Or.inl rfl) rfl, b1⟩
  · intro o ho
    have ho' : o < 2 := ho
    rcases (by omega : o = 0 ∨ o = 1) with rfl | rfl
    · exact ⟨exNodes_has rfl rfl rfl, exBasis, exFits rfl rfl rfl (Or.inl rfl) rfl, b2, fun _ => b3⟩
    · exact ⟨exData_has rfl rfl rfl, rfl, rfl⟩
  · intro i j hij hj
    have hj' : j < 1 := hj
    omega
  · intro j o hjo ho hs
    have ho' : o < 2 := ho
    rcases (by omega : o = 1 ∧ j = 0) with ⟨rfl, rfl⟩
    exact absurd hs (by decide)
  · intro h; cases h

/-- Operators 0 and 1. -/
def exOps (k : Nat) : Oper Int := if k = 0 then exOp else exOp1
def exS (k : Nat) : Meaning Int := if k = 0 then exMeaning else exMeaning1

theorem exOps_ok (k : Nat) : OpOK (exOps k) (exS k) := by
  unfold exOps exS
  split
  · exact exOp_ok
  · exact exOp1_ok

/-- Vectors: 0 the input, 1 the output, 2 the quadrature data, 3 the passive output. -/
def exC : CSt Int :=
  ⟨fun _ => exImpl, fun _ _ => none, fun v => match v with
    | 0 => ⟨2, true, Buf.ofList [1, 2, 4]⟩
    | 1 => ⟨2, true, Buf.ofList [100, 200, 300]⟩
    | 2 => ⟨2, true, Buf.ofList [1, 10]⟩
    | 3 => ⟨2, true, Buf.ofList [50, 60]⟩
    | _ => ⟨0, false, ⟨0, fun _ => 0⟩⟩⟩

theorem exC_reach (fails : Prop) : CReach exOps fails exC :=
  CReach.start _ (fun _ => rfl) (fun i => by
    match i with
    | 0 => intro h; cases h
    | 1 => intro h; cases h
    | 2 => intro h; cases h
    | 3 => intro h; cases h
    | n + 4 => intro _; rfl)

/-- Contents of a vector after a call, also a failed one. -/
def resultC (x : Out (CSt Int) Unit) (v : Nat) : Option (List Int) :=
  match x with
  | .ok s _ => some (s.vecs v).buf.toList
  | .err s _ => some (s.vecs v).buf.toList
  | _ => none

def errC (x : Out (CSt Int) Unit) : Option Err :=
  match x with
  | .err _ e => some e
  | _ => none

def okC (x : Out (CSt Int) Unit) : Bool :=
  match x with
  | .ok _ _ => true
  | _ => false

/-- The composite of operators 0 and 1, and a nested one with operator 1 twice. -/
def exT : Tree := .comp [.op 0, .op 1]
def exNested : Tree := .comp [.op 1, .comp [.op 0, .op 1]]

theorem exApart : Apart exOps (.vec 0) (.vec 1) [1, 0, 1] := by
  have key : ∀ k k', Indep exOps (.vec 0) (.vec 1) k k' := by
    intro k k' i hi o ho hw
    unfold exOps at *
    split at hw <;> rename_i h1 <;> simp only [h1, if_true, if_false] at hi ⊢ <;> split at ho <;> rename_i h2 <;>
      simp only [h2, if_true, if_false] at ⊢
    · have hi' : i < 4 := hi
      have ho' : o < 2 := ho
      rcases (by omega : o = 0 ∨ o = 1) with rfl | rfl <;>
        rcases (by omega : i = 0 ∨ i = 1 ∨ i = 2 ∨ i = 3) with rfl | rfl | rfl | rfl <;> decide
    · have hi' : i < 4 := hi
      have ho' : o < 2 := ho
      rcases (by omega : o = 0 ∨ o = 1) with rfl | rfl <;>
        rcases (by omega : i = 0 ∨ i = 1 ∨ i = 2 ∨ i = 3) with rfl | rfl | rfl | rfl <;>
        decide
    · have hi' : i < 1 := hi
      have ho' : o < 2 := ho
      rcases (by omega : i = 0) with rfl
      rcases (by omega : o = 0 ∨ o = 1) with rfl | rfl <;> decide
    · have hi' : i < 1 := hi
      have ho' : o < 2 := ho
      rcases (by omega : i = 0) with rfl
      rcases (by omega : o = 0 ∨ o = 1) with rfl | rfl <;> decide
  intro k _ i hi hw
  refine ⟨?_, fun k' _ => key k' k⟩
  unfold exOps at *
  split at hw <;> rename_i h1 <;> simp only [h1, if_true, if_false] at hi ⊢
  · have hi' : i < 4 := hi
    rcases (by omega : i = 0 ∨ i = 1 ∨ i = 2 ∨ i = 3) with rfl | rfl | rfl | rfl <;> decide
  · have hi' : i < 1 := hi
    rcases (by omega : i = 0) with rfl
    decide

example : leaves exNested = [1, 0, 1] := by simp [exNested, leaves, leavesL]

/-- The vectors are ready for all operators. -/
theorem exReadyC (k : Nat) : InReady (exOps k) (.vec 0) (exC.view k) ∧ OutReady (exOps k) (.vec 1) (exC.view k) := by
  unfold exOps
  split
  · constructor
    · intro i hi hw
      have hi' : i < 4 := hi
      rcases (by omega : i = 0 ∨ i = 1 ∨ i = 2 ∨ i = 3) with rfl | rfl | rfl | rfl
      · exact ⟨1, 2, rfl, rfl, rfl, le_rfl⟩
      · exact absurd rfl hw
      · exact ⟨0, 0, rfl, rfl, rfl, le_rfl⟩
      · exact ⟨0, 0, rfl, rfl, rfl, le_rfl⟩
    · intro o ho
      have ho' : o < 2 := ho
      rcases (by omega : o = 0 ∨ o = 1) with rfl | rfl <;> exact ⟨0, 1, rfl, rfl, rfl, le_rfl⟩
  · constructor
    · intro i _ _
      exact ⟨0, 0, rfl, rfl, rfl, le_rfl⟩
    · intro o ho
      have ho' : o < 2 := ho
      rcases (by omega : o = 0 ∨ o = 1) with rfl | rfl
      · exact ⟨0, 1, rfl, rfl, rfl, le_rfl⟩
      · exact ⟨1, 3, rfl, rfl, rfl, le_rfl⟩

/-- The first operator contributes `8, 170, 200`, the second `6, 18, 12`, and `3, 6` in the passive output. -/
example : resultC (addT exOps (fun _ _ _ => 0) (.vec 0) (.vec 1) exT exC) 1 = some [114, 388, 512] ∧
    resultC (addT exOps (fun _ _ _ => 0) (.vec 0) (.vec 1) exT exC) 3 = some [53, 66] := by decide +kernel
example : resultC (applyT exOps (fun _ _ _ => 0) (.vec 0) (.vec 1) exT exC) 1 = some [14, 188, 212] ∧
    resultC (applyT exOps (fun _ _ _ => 0) (.vec 0) (.vec 1) exT exC) 3 = some [3, 6] := by decide +kernel
example : resultC (addT exOps (fun _ _ _ => 0) (.vec 0) (.vec 1) exNested exC) 1 = some [120, 406, 524] ∧
    resultC (addT exOps (fun _ _ _ => 0) (.vec 0) (.vec 1) exNested exC) 3 = some [56, 72] := by decide +kernel

/-- The hypotheses of the theorems are met by the nested composite. -/
example : ∃ c', addT exOps (fun _ _ _ => 0) (.vec 0) (.vec 1) exNested exC = .ok c' () :=
  C38_apply_add_succeeds exOps_ok (exC_reach False) _ (fun k _ => exReadyC k)

/-- `CeedOperatorApply` of a composite that contains a composite fails, after it has set the output to zero, although all
operators are ready and `CeedOperatorApplyAdd` of the same composite succeeds: the property is false for nested composites. -/
theorem C38_nested_witness :
    okC (addT exOps (fun _ _ _ => 0) (.vec 0) (.vec 1) exNested exC) = true ∧
    errC (applyT exOps (fun _ _ _ => 0) (.vec 0) (.vec 1) exNested exC) = some .minor ∧
    resultC (applyT exOps (fun _ _ _ => 0) (.vec 0) (.vec 1) exNested exC) 1 = some [0, 0, 0] := by decide +kernel

end Composite
end Verif
