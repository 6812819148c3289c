import Verif.Operator.AtPointsDiagProps
import Verif.Operator.AtPointsExamples

/-!
# Concrete diagonals of operators at points
-/

set_option linter.unusedSectionVars false

namespace Verif
namespace Operator

open Finset Polynomial
open Restriction (RData Made Rstr PointsOK ptsIn)
open Basis (Bas EMode PBas Env Fresh Shape Exact Used)

/-- The hypotheses of all theorems are met by the operator of `pts_meets`: vector 1 receives the diagonal, vector 0 is the work
vector, vector 3 a passive output. -/
example : ∃ (b0 : PBas ℝ) (phi : Nat → ℝ[X]) (en : Env ℝ), Exact en ∧ AtOK (ptsOper b0.bas) (ptsMean phi) (fun _ => b0) ∧
    DiagAtOK (ptsOper b0.bas) (ptsMean phi) 0 ∧ ReachDiag (ptsOper b0.bas) (fun _ => b0) False (ptsStart b0) ∧
    PassiveSet (ptsOper b0.bas) (ptsStart b0).base ∧ DiagArgs (ptsOper b0.bas) 1 0 ∧
    DiagReady (ptsOper b0.bas) 0 1 0 (ptsStart b0).base ∧ 0 < (ptsOper b0.bas).op.ne := by
  obtain ⟨b0, phi, en, h1, h2, h3, h4, h5, h6, _⟩ := pts_meets
  have hun : ∀ x, x = 0 ∨ x = 1 → Unused (ptsOper b0.bas) x := by
    intro x hx
    refine ⟨fun i hi => ?_, fun o ho => ?_, fun rX xv hh => ?_⟩
    · have hi' : i < 3 := hi
      rcases (by omega : i = 0 ∨ i = 1 ∨ i = 2) with rfl | rfl | rfl <;> rcases hx with rfl | rfl <;> simp [ptsOper]
    · have ho' : o < 2 := ho
      rcases (by omega : o = 0 ∨ o = 1) with rfl | rfl <;> rcases hx with rfl | rfl <;> simp [ptsOper]
    · cases hh
      omega
  refine ⟨b0, phi, en, h1, h2, ?_, ?_, h4, ?_, ?_, by show 0 < 2; omega⟩
  · refine ⟨?_, rfl, ?_, ?_, ?_, ?_⟩
    · intro n u v w c ha hp o ho x
      obtain ⟨a1, a2⟩ := hp 1 x (by simp [ptsOper])
      obtain ⟨b1, b2⟩ := hp 2 x (by simp [ptsOper])
      have a3 := ha 0 x (by simp [ptsOper])
      show (if o = 0 then w 0 x * w 1 x * w 2 x else w 0 x) =
        (if o = 0 then u 0 x * u 1 x * u 2 x else u 0 x) + c * (if o = 0 then v 0 x * v 1 x * v 2 x else v 0 x)
      split
      · rw [a1, a2, b1, b2, a3]; ring
      · exact a3
    · intro i hi ha
      have hi' : i < 3 := hi
      rcases (by omega : i = 0 ∨ i = 1 ∨ i = 2) with rfl | rfl | rfl
      · rfl
      · cases ha
      · cases ha
    · intro o ho ha
      have ho' : o < 2 := ho
      rcases (by omega : o = 0 ∨ o = 1) with rfl | rfl
      · rfl
      · cases ha
    · intro _ e he n hn m hm
      simp [ptsMean, Restriction.offsetData, Restriction.orientCoef, Restriction.idCoef, eq_comm]
    · intro e he s hs s' hs' hpl
      have he' : e < 2 := he
      have hc : (ptsMean phi).count (ptsOper b0.bas).op e 0 = 2 := rfl
      rw [hc] at hs hs'
      rcases (by omega : e = 0 ∨ e = 1) with rfl | rfl <;> rcases (by omega : s = 0 ∨ s = 1) with rfl | rfl <;>
        rcases (by omega : s' = 0 ∨ s' = 1) with rfl | rfl <;> first | rfl | exact absurd hpl (by
          simp [PMean.place, ptsMean, ptsOper, exNodes, Restriction.offsetData, Buf.ofList])
  · refine ReachDiag.start _ rfl (fun i => ?_) rfl
    unfold ptsStart
    simp only
    split
    · intro h; cases h
    · intro _; rfl
  · refine ⟨by decide, hun 1 (Or.inr rfl), hun 0 (Or.inl rfl), fun rX xv hx o ho => ?_⟩
    cases hx
    have ho' : o < 2 := ho
    rcases (by omega : o = 0 ∨ o = 1) with rfl | rfl <;> simp [ptsOper]
  · refine ⟨?_, h5.2, ?_, ?_, ?_⟩
    · intro i hi hw ha
      obtain ⟨r, v, c1, c2, c3, c4, _⟩ := h5.1 i hi hw
      refine ⟨r, v, c1, ?_, c3, c4⟩
      match hv : ((ptsOper b0.bas).op.inp i).vec with
      | .active => exact absurd hv ha
      | .none => rw [hv] at c2; cases c2
      | .vec u => rw [hv] at c2; cases c2; rfl
    · intro o ho ha
      obtain ⟨r, v, c1, c2, c3, c4⟩ := h6 o ho
      refine ⟨r, v, c1, ?_, c3, c4⟩
      match hv : ((ptsOper b0.bas).op.out o).vec with
      | .active => exact absurd hv ha
      | .none => rw [hv] at c2; cases c2
      | .vec u => rw [hv] at c2; cases c2; rfl
    · refine ⟨rfl, ?_, fun _ => ?_⟩ <;> simp [ptsStart, ptsOper, exNodes]
    · refine ⟨?_, fun _ => ?_⟩ <;> simp [ptsStart, ptsOper, exNodes]

/-! ## Concrete runs -/

/-- Active input and output at the points, passive data (vector 0): the diagonal is ten times the data. -/
example : resultP (assembleDiagAt (bareOper 2 1 (fun i => if i = 0 then (.active, 0) else (.vec 0, 1)) (fun _ => (.active, 0)) (some (ptsRstr, 4))
    (fun x _ q => 10 * x 0 q * x 1 q)) bareEnv 3 3 1 2 bareStart) 1 = some [10, 20, 40] := by decide +kernel

/-- Adding the diagonal. -/
example : resultP (addDiagAt (bareOper 2 1 (fun i => if i = 0 then (.active, 0) else (.vec 0, 1)) (fun _ => (.active, 0)) (some (ptsRstr, 4))
    (fun x _ q => 10 * x 0 q * x 1 q)) bareEnv 3 3 1 2 bareStart) 1 = some [110, 220, 340] := by decide +kernel

/-! ## Disagreements -/

/-- Assembling the diagonal changes a passive output: the vector 0 held 1, 2, 4. -/
theorem C69_passive_output_witness :
    resultP (assembleDiagAt (bareOper 1 2 (fun _ => (.active, 0)) (fun o => if o = 0 then (.active, 0) else (.vec 0, 0)) (some (ptsRstr, 4))
      (fun x _ q => 10 * x 0 q)) bareEnv 3 3 1 2 bareStart) 0 = some [11, 12, 14] := by decide +kernel

/-- An operator without elements. -/
def bareEmpty : POper ℚ :=
  { bareOper 1 1 (fun _ => (.active, 0)) (fun _ => (.active, 0)) (some (ptsRstr, 4)) (fun x _ q => x 0 q) with
    op := { (bareOper 1 1 (fun _ => (.active, 0)) (fun _ => (.active, 0)) (some (ptsRstr, 4)) (fun x _ q => x 0 q)).op with ne := 0 } }

/-- Assembling (not adding) the diagonal of an operator without elements leaves the vector as it was, though the diagonal is zero. -/
theorem C69_empty_witness : resultP (assembleDiagAt bareEmpty bareEnv 3 3 1 2 bareStart) 1 = some [100, 200, 300] := by decide +kernel

/-- A basis with one node and the constant shape function. -/
def oneBas : Bas ℚ where
  isTensor := true
  isH1 := true
  dim := 1
  nc := 1
  P1 := 1
  Q1 := 2
  P := 1
  Q := 2
  interp1 := Buf.ofList [1, 1]
  grad1 := Buf.ofList [0, 0]
  qWeight := Buf.ofList [1, 1]
  interp := none
  grad := none
  div := none
  curl := none
  colloInterp := false
  colloGrad := none

/-- Its Chebyshev basis, from nodes to coefficients. -/
def oneCheb : Bas ℚ := { oneBas with interp1 := Buf.ofList [1, 0] }

/-- One node per element, nodes 0 and 1; the orientation of the second element is given. -/
def oneRstr (flip : Bool) : Rstr :=
  { rtype := .oriented, numElem := 2, elemSize := 1, numComp := 1, compStride := 1, lSize := 2, eSize := 2, numBlock := 2,
    blockSize := 1, numPoints := 0, strides := none, offsets := ⟨2, fun i => i⟩,
    orients := ⟨2, fun i => if i = 1 then flip else false⟩, curlOrients := ⟨0, fun _ => 0⟩ }

/-- Sums over the points of the elements: `v = (u_0, 2 u_1)`, as orientations cancel. -/
def oneOper (flip : Bool) : POper ℚ where
  op :=
    { ne := 2, Q := 2, nin := 1, nout := 1
      inp := fun _ => ⟨.active, some 0, some oneBas, .interp, 1⟩
      out := fun _ => ⟨.active, some 0, some oneBas, .interp, 1⟩
      rstrs := fun _ => oneRstr flip
      isId := false
      f := fun _ _ _ => 0 }
  inB := fun _ => 0
  outB := fun _ => 0
  points := some (ptsRstr, 4)
  F := fun _ x _ q => x 0 q

/-- Vectors 0, 1, 2 have length 2; the basis is `oneBas`. -/
def oneStart : PSt ℚ :=
  { bareStart with
    base := { bareStart.base with vecs := fun v => if v = 4 then bareStart.base.vecs 4 else ⟨2, true, Buf.ofList [5, 7]⟩ }
    d := { bareStart.d with bas := fun _ => ⟨oneBas, Buf.ofList [-1, 1], some (oneCheb, ⟨2, fun _ => 0⟩)⟩ } }

/-- Without flipped orientations the diagonal is right. -/
example : resultP (assembleDiagAt (oneOper false) bareEnv 2 2 1 2 oneStart) 1 = some [1, 2] := by decide +kernel

/-- With an oriented restriction, the entries of flipped nodes have the wrong sign: the operator maps `(5, 7)` to `(5, 14)`, but the assembled
diagonal is `(1, -2)`. -/
theorem C69_oriented_witness :
    resultP (applyAt (oneOper true) bareEnv (.vec 0) (.vec 1) oneStart) 1 = some [5, 14] ∧
    resultP (assembleDiagAt (oneOper true) bareEnv 2 2 1 2 oneStart) 1 = some [1, -2] := by decide +kernel

end Operator
end Verif
