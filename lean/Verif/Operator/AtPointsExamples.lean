import Verif.Operator.AtPointsProps
import Verif.Operator.Examples
import Mathlib.Algebra.Field.Rat
import Mathlib.Algebra.Order.Ring.Rat
import Mathlib.Analysis.SpecialFunctions.Sqrt

/-!
# Concrete operators at points
-/

set_option linter.unusedSectionVars false

namespace Verif
namespace Operator

open Finset Polynomial
open Restriction (RData Made Rstr PointsOK ptsIn)
open Basis (Bas EMode PBas Env Fresh Shape Exact Used)

/-! ## An operator with everything -/

/-- Two elements with one and two points: point 2, points 0 and 1. -/
def ptsOffs : Buf Int := Buf.ofList [3, 4, 6, 2, 0, 1]

theorem ptsOffs_ok : PointsOK 2 3 1 3 ptsOffs := by
  refine ⟨by decide, by decide, by decide, by decide, by decide, ?_⟩
  intro e he i hi
  rcases (by omega : e = 0 ∨ e = 1) with rfl | rfl
  · rw [show ptsIn ptsOffs 0 = 1 by rfl] at hi
    have : i = 0 := by omega
    subst this; decide
  · rw [show ptsIn ptsOffs 1 = 2 by rfl] at hi
    rcases (by omega : i = 0 ∨ i = 1) with rfl | rfl <;> decide

/-- The restriction to the points. -/
def ptsRstr : Rstr :=
  match Restriction.createAtPoints 2 3 1 3 ptsOffs with
  | .ok r => r
  | _ => exNodes

theorem ptsRstr_made : Restriction.createAtPoints 2 3 1 3 ptsOffs = .ok ptsRstr := rfl

/-- Inputs: interpolated active field on the mesh, passive data at the points (vector 2), weight. Outputs: gradients on the
mesh, values at the points (vector 3). Vector 4 holds the coordinates. -/
noncomputable def ptsOper (b : Bas ℝ) : POper ℝ where
  op :=
    { ne := 2, Q := 2, nin := 3, nout := 2
      inp := fun i => match i with
        | 0 => ⟨.active, some 0, some b, .interp, 1⟩
        | 1 => ⟨.vec 2, some 1, none, .none, 1⟩
        | _ => ⟨.none, none, some b, .weight, 1⟩
      out := fun o => match o with
        | 0 => ⟨.active, some 0, some b, .grad, 1⟩
        | _ => ⟨.vec 3, some 1, none, .none, 1⟩
      rstrs := fun r => if r = 0 then exNodes else ptsRstr
      isId := false
      f := fun _ _ _ => 0 }
  inB := fun _ => 0
  outB := fun _ => 0
  points := some (ptsRstr, 4)
  F := fun _ x o q => if o = 0 then x 0 q * x 1 q * x 2 q else x 0 q

/-- Its meaning, given the shape functions of the basis. -/
noncomputable def ptsMean (phi : Nat → ℝ[X]) : PMean ℝ where
  D := fun _ => Restriction.offsetData 2 2 1 1 (Buf.ofList [0, 1, 1, 2]) .none .plain
  offs := fun _ => ptsOffs
  offX := ptsOffs
  dim := 1
  phi := fun _ => phi

/-- The vectors: 0 the input, 1 and 3 the outputs, 2 the data, 4 the coordinates. -/
noncomputable def ptsStart (b0 : PBas ℝ) : PSt ℝ where
  base :=
    { impl := ⟨false, false, ⟨fun _ => none, fun _ => none, fun _ => false⟩,
        ⟨fun _ => none, fun _ => none, fun _ => false, fun _ => false, fun _ => 0⟩,
        fun _ => 0, fun _ => ⟨0, fun _ => 7⟩, fun _ => false, fun _ => 0, fun _ => ⟨0, fun _ => 7⟩, fun _ => false,
        fun _ => ⟨0, fun _ => 7⟩⟩
      vecs := fun v => if v < 5 then ⟨2, true, ⟨3, fun x => x + v⟩⟩ else ⟨0, false, ⟨0, fun _ => 0⟩⟩
      eptr := fun _ => none }
  d := ⟨fun _ => ⟨0, fun _ => 7⟩, fun _ => ⟨0, fun _ => 7⟩, fun _ => ⟨0, fun _ => 7⟩, ⟨0, fun _ => 7⟩, 0, fun _ => b0⟩
  off := 0

/-- The hypotheses of all theorems are met: two elements with one and two points, a basis with two nodes and two points in
one dimension, exact arithmetic with the square root of the real numbers. -/
theorem pts_meets : ∃ (b0 : PBas ℝ) (phi : Nat → ℝ[X]) (en : Env ℝ), Exact en ∧ AtOK (ptsOper b0.bas) (ptsMean phi) (fun _ => b0) ∧
    ReachAt (ptsOper b0.bas) (fun _ => b0) False (ptsStart b0) ∧ PassiveSet (ptsOper b0.bas) (ptsStart b0).base ∧
    AtInReady (ptsOper b0.bas) (.vec 0) (ptsStart b0).base ∧ AtOutReady (ptsOper b0.bas) (.vec 1) (ptsStart b0).base ∧
    AtApart (ptsOper b0.bas) (.vec 0) (.vec 1) := by
  have hs : Basis.IsSqrt Real.sqrt := fun x hx => ⟨Real.sqrt_nonneg x, Real.mul_self_sqrt hx⟩
  have hdn : Basis.Distinct (Buf.ofList [-1, 1] : Buf ℝ) 2 := by
    intro i hi j hj
    have e1 : (-1 : ℝ) ≠ 1 := by norm_num
    interval_cases i <;> interval_cases j <;> simp [Buf.ofList, e1, e1.symm]
  obtain ⟨I, G, b, e, eb, d1, d2, d3, d4, h0⟩ := Basis.C25_fresh hs (fun _ => 0) (fun _ => 0) (near := fun _ => false) (by simp)
    (dim := 1) (nc := 1) (P := 2) (Q := 2) (by omega) (by omega) (by omega) (by omega) (nodes := Buf.ofList [-1, 1])
    (q := Buf.ofList [-1, 1]) (w := Buf.ofList [1, 1]) (by simp [Buf.ofList]) (by simp [Buf.ofList]) (by simp [Buf.ofList]) hdn hdn
  obtain ⟨phi, hphi, _⟩ := Basis.C25_shapes_exist h0
  obtain ⟨hT, _⟩ := Basis.tensorOK_of h0.basis
  have hH : b.isH1 = true := hT.h1
  have hPb : b.P = 2 := by have := hT.hP; simp only at this; rw [this, d1, d3]; rfl
  have hbas : BasOK (ptsMean phi) (fun _ => (⟨b, Buf.ofList [-1, 1], none⟩ : PBas ℝ)) 0 False :=
    ⟨I, G, _, _, h0, hphi, fun hh => hh.elim⟩
  have hmesh : OnMesh (ptsOper b).op (ptsMean phi) 0 := ⟨3, Made.offset (checked := true) rfl trivial (Or.inl rfl), rfl⟩
  have hpts : OnPts (ptsOper b).op (ptsMean phi) 1 1 := ⟨3, 3, ptsOffs_ok, rfl, fun _ _ => rfl⟩
  refine ⟨⟨b, Buf.ofList [-1, 1], none⟩, phi, ⟨Real.sqrt, fun _ => false, fun _ => 0, fun _ => 0, fun _ _ => 0, fun _ _ _ _ => 0⟩,
    ⟨hs, by simp⟩, ?_, ?_, ?_, ?_, ?_, ?_⟩
  · refine ⟨⟨ptsRstr, 4, 3, 3, rfl, ptsOffs_ok, rfl⟩, ?_, ?_, ?_, ?_, ?_, ?_, ?_⟩
    · intro i hi hw
      have hi' : i < 3 := hi
      rcases (by omega : i = 0 ∨ i = 1 ∨ i = 2) with rfl | rfl | rfl
      · cases hw
      · cases hw
      · exact ⟨rfl, rfl, rfl, rfl, hbas⟩
    · intro i hi hw
      have hi' : i < 3 := hi
      rcases (by omega : i = 0 ∨ i = 1 ∨ i = 2) with rfl | rfl | rfl
      · refine ⟨0, rfl, Or.inr ⟨Or.inl rfl, hmesh, rfl, hPb, d2, ?_, d1, hbas⟩⟩
        show 1 = b.nc * b.qComp .interp
        rw [d2]; simp [Bas.qComp, hH]
      · exact ⟨1, rfl, Or.inl ⟨rfl, hpts⟩⟩
      · exact absurd rfl hw
    · intro o ho
      have ho' : o < 2 := ho
      rcases (by omega : o = 0 ∨ o = 1) with rfl | rfl
      · refine ⟨0, rfl, Or.inr ⟨Or.inr rfl, hmesh, rfl, hPb, d2, ?_, d1, ?_⟩⟩
        · show 1 = b.nc * b.qComp .grad
          rw [d2]; simp [Bas.qComp, hH, d1]
        · exact ⟨I, G, _, _, h0, hphi, fun ⟨j, hj, _⟩ => absurd hj (by omega)⟩
      · exact ⟨1, rfl, Or.inl ⟨rfl, hpts⟩⟩
    · intro i j hij hj hsame
      have hj' : j < 3 := hj
      rcases (by omega : (i = 0 ∧ j = 1) ∨ (i = 0 ∧ j = 2) ∨ (i = 1 ∧ j = 2)) with ⟨rfl, rfl⟩ | ⟨rfl, rfl⟩ | ⟨rfl, rfl⟩ <;>
        exact absurd hsame (by simp [OField.same, ptsOper])
    · intro j o hjo ho hsame
      have ho' : o < 2 := ho
      rcases (by omega : j = 0 ∧ o = 1) with ⟨rfl, rfl⟩
      exact absurd hsame (by simp [OField.same, ptsOper])
    · intro h; cases h
    · rintro _ e he
      have he' : e < 2 := he
      rcases (by omega : e = 0 ∨ e = 1) with rfl | rfl
      · show 0 < ptsIn ptsOffs 0; decide
      · show 0 < ptsIn ptsOffs 1; decide
  · refine ReachAt.start _ rfl (fun i => ?_) rfl
    unfold ptsStart
    simp only
    split
    · intro h; cases h
    · intro _; rfl
  · intro i hi hw ha
    have hi' : i < 3 := hi
    rcases (by omega : i = 0 ∨ i = 1 ∨ i = 2) with rfl | rfl | rfl
    · exact absurd rfl ha
    · exact ⟨2, rfl, by simp [ptsStart]⟩
    · exact absurd rfl hw
  · constructor
    · intro i hi hw
      have hi' : i < 3 := hi
      rcases (by omega : i = 0 ∨ i = 1 ∨ i = 2) with rfl | rfl | rfl
      · refine ⟨0, 0, rfl, rfl, rfl, ?_, fun _ => ⟨?_, fun _ => ?_⟩⟩ <;> simp [ptsStart, ptsOper, exNodes]
      · refine ⟨1, 2, rfl, rfl, rfl, ?_, fun h => by cases h⟩
        show ptsRstr.lSize ≤ 3
        decide
      · exact absurd rfl hw
    · intro rX xv hx
      cases hx
      refine ⟨rfl, ?_⟩
      show ptsRstr.lSize ≤ 3
      decide
  · intro o ho
    have ho' : o < 2 := ho
    rcases (by omega : o = 0 ∨ o = 1) with rfl | rfl
    · refine ⟨0, 1, rfl, rfl, rfl, ?_, fun _ => ?_⟩ <;> simp [ptsStart, ptsOper, exNodes]
    · refine ⟨1, 3, rfl, rfl, rfl, ?_, fun h => ?_⟩
      · show ptsRstr.lSize ≤ 3
        decide
      · exact absurd (show ptsRstr.rtype = .points by decide) h
  · constructor
    · intro i hi hw ha o ho
      have ho' : o < 2 := ho
      rcases (by omega : o = 0 ∨ o = 1) with rfl | rfl <;> simp [ptsOper, FVec.ptr]
    · intro rX xv hx o ho
      cases hx
      have ho' : o < 2 := ho
      rcases (by omega : o = 0 ∨ o = 1) with rfl | rfl <;> simp [ptsOper, FVec.ptr]

/-! ## Disagreements -/

/-- Operators without bases: `inp` and `out` are vectors and restrictions (0: the points, 1: the same points again). -/
def bareOper (nin nout : Nat) (inp out : Nat → FVec × Nat) (pts : Option (Rstr × Nat)) (F : (Nat → Nat → ℚ) → Nat → Nat → ℚ) : POper ℚ where
  op :=
    { ne := 2, Q := 2, nin := nin, nout := nout
      inp := fun i => ⟨(inp i).1, some (inp i).2, none, .none, 1⟩
      out := fun o => ⟨(out o).1, some (out o).2, none, .none, 1⟩
      rstrs := fun _ => ptsRstr
      isId := false
      f := fun _ _ _ => 0 }
  inB := fun _ => 0
  outB := fun _ => 0
  points := pts
  F := fun _ => F

/-- Vectors: 0 the input, 1 the output, 2 a vector never written, 4 the coordinates. -/
def bareStart : PSt ℚ where
  base :=
    { impl := ⟨false, false, ⟨fun _ => none, fun _ => none, fun _ => false⟩,
        ⟨fun _ => none, fun _ => none, fun _ => false, fun _ => false, fun _ => 0⟩,
        fun _ => 0, fun _ => ⟨0, fun _ => 7⟩, fun _ => false, fun _ => 0, fun _ => ⟨0, fun _ => 7⟩, fun _ => false,
        fun _ => ⟨0, fun _ => 7⟩⟩
      vecs := fun v => match v with
        | 0 => ⟨2, true, Buf.ofList [1, 2, 4]⟩
        | 1 => ⟨2, true, Buf.ofList [100, 200, 300]⟩
        | 2 => ⟨0, false, ⟨3, fun _ => 77⟩⟩
        | 4 => ⟨2, true, Buf.ofList [0, 0, 0]⟩
        | _ => ⟨0, false, ⟨0, fun _ => 0⟩⟩
      eptr := fun _ => none }
  d := ⟨fun _ => ⟨0, fun _ => 7⟩, fun _ => ⟨0, fun _ => 7⟩, fun _ => ⟨0, fun _ => 7⟩, ⟨0, fun _ => 7⟩, 0,
    fun _ => ⟨⟨false, false, 0, 0, 0, 0, 0, 0, ⟨0, fun _ => 0⟩, ⟨0, fun _ => 0⟩, ⟨0, fun _ => 0⟩, none, none, none, none, false, none⟩,
      ⟨0, fun _ => 0⟩, none⟩⟩
  off := 0

/-- Any arithmetic. -/
def bareEnv : Env ℚ := ⟨id, fun _ => false, fun _ => 0, fun _ => 0, fun _ _ => 0, fun _ _ _ _ => 0⟩

/-- Contents of a vector after a call. -/
def resultP (x : Out (PSt ℚ) Unit) (v : Nat) : Option (List ℚ) :=
  match x with
  | .ok s _ => some (s.base.vecs v).buf.toList
  | _ => none

/-- Whether a call returns an error. -/
def errP (x : Out (PSt ℚ) Unit) : Option Err :=
  match x with
  | .err _ e => some e
  | _ => none

/-- Whether a call is undefined. -/
def ubP (x : Out (PSt ℚ) Unit) : Bool :=
  match x with
  | .ub => true
  | _ => false

/-- One active input, one output at the points. -/
example : resultP (applyAddAt (bareOper 1 1 (fun _ => (.active, 0)) (fun _ => (.active, 0)) (some (ptsRstr, 4)) (fun x _ q => 10 * x 0 q))
    bareEnv (.vec 0) (.vec 1) bareStart) 1 = some [110, 220, 340] := by decide +kernel

/-- A passive input that was never written (vector 2) is read as zeros and no error is reported; the reference backend reports an error for
operators on quadrature points. -/
theorem C56_unset_witness :
    resultP (applyAddAt (bareOper 2 1 (fun i => if i = 0 then (.active, 0) else (.vec 2, 0)) (fun _ => (.active, 0)) (some (ptsRstr, 4))
      (fun x _ q => x 0 q + 10 * x 1 q)) bareEnv (.vec 0) (.vec 1) bareStart) 1 = some [101, 202, 304] := by decide +kernel

/-- The active input used by two fields without basis and with the same restriction: the second field sees zeros. With two
restrictions that are equal but not the same object it sees the input. -/
theorem C56_two_active_inputs_witness :
    resultP (applyAddAt (bareOper 2 1 (fun _ => (.active, 0)) (fun _ => (.active, 0)) (some (ptsRstr, 4))
      (fun x _ q => x 0 q + 10 * x 1 q)) bareEnv (.vec 0) (.vec 1) bareStart) 1 = some [101, 202, 304] ∧
    resultP (applyAddAt (bareOper 2 1 (fun i => (.active, i)) (fun _ => (.active, 0)) (some (ptsRstr, 4))
      (fun x _ q => x 0 q + 10 * x 1 q)) bareEnv (.vec 0) (.vec 1) bareStart) 1 = some [111, 222, 344] := by decide +kernel

/-- Two outputs without basis into the same vector with the same restriction: the first is lost. With two restrictions that
are equal but not the same object both are added. -/
theorem C56_two_outputs_witness :
    resultP (applyAddAt (bareOper 1 2 (fun _ => (.active, 0)) (fun _ => (.active, 0)) (some (ptsRstr, 4))
      (fun x o q => if o = 0 then 10 * x 0 q else x 0 q)) bareEnv (.vec 0) (.vec 1) bareStart) 1 = some [101, 202, 304] ∧
    resultP (applyAddAt (bareOper 1 2 (fun _ => (.active, 0)) (fun o => (.active, o)) (some (ptsRstr, 4))
      (fun x o q => if o = 0 then 10 * x 0 q else x 0 q)) bareEnv (.vec 0) (.vec 1) bareStart) 1 = some [111, 222, 344] := by decide +kernel

/-- `CeedOperatorCheckReady` accepts an operator at points whose points were never set; its application dereferences a null
pointer. -/
theorem C56_no_points_witness :
    ubP (applyAddAt (bareOper 1 1 (fun _ => (.active, 0)) (fun _ => (.active, 0)) none (fun x _ q => x 0 q))
      bareEnv (.vec 0) (.vec 1) bareStart) = true := by decide +kernel

end Operator
end Verif
