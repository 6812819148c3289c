import Verif.Operator.AtPointsAsmProps
import Verif.Operator.AtPointsAsmRstr
import Verif.Operator.AtPointsExamples

/-!
# QFunction assembled at points: the hypotheses are met, and disagreements (C79)
-/

namespace Verif
namespace Operator

open Finset Polynomial
open Restriction (RData Made Rstr PointsOK ptsIn ptsBefore)
open Basis (Bas EMode PBas Env Fresh Shape Exact Used)

/-- The hypotheses of all theorems are met by the operator `ptsOper`: an interpolated active input, passive data at the points,
weights, and gradients as active output. -/
example : ∃ (b0 : PBas ℝ) (phi : Nat → ℝ[X]) (en : Env ℝ), Exact en ∧ AtOK (ptsOper b0.bas) (ptsMean phi) (fun _ => b0) ∧
    AsmAtOK (ptsOper b0.bas) (ptsMean phi) ∧ ReachAsm (ptsOper b0.bas) (fun _ => b0) ⟨ptsStart b0, ⟨0, fun _ => 7⟩, 0, 0, 0⟩ ∧
    PassiveSet (ptsOper b0.bas) (ptsStart b0).base ∧ AsmReady (ptsOper b0.bas) (ptsStart b0).base ∧
    ∀ e, PtLinear (ptsMean phi) (ptsOper b0.bas) (ptsStart b0).base.L e := by
  obtain ⟨b0, phi, en, h1, h2, h3, h4, h5, h6, h7⟩ := pts_meets
  refine ⟨b0, phi, en, h1, h2, ⟨?_, ?_, ?_⟩, ?_, h4, ⟨?_, h5.2, ?_, ?_, ?_, ?_⟩, ?_⟩
  · intro o ho _
    have ho' : o < 2 := ho
    show o < 3
    omega
  · intro o ho ha
    have ho' : o < 2 := ho
    rcases (by omega : o = 0 ∨ o = 1) with rfl | rfl
    · intro hh; cases hh
    · intro hh; cases hh
  · intro rX xv hx
    cases hx
    show ptsBefore ptsOffs 2 ≤ ptsRstr.numPoints
    decide
  · refine ReachAsm.start _ rfl (fun i => ?_) rfl rfl rfl
    unfold ptsStart
    simp only
    split
    · intro h; cases h
    · intro _; rfl
  · intro i hi hw ha
    obtain ⟨r, v, c1, c2, c3, c4, _⟩ := h5.1 i hi hw
    refine ⟨r, v, c1, ?_, c3, c4⟩
    have hi' : i < 3 := hi
    rcases (by omega : i = 0 ∨ i = 1 ∨ i = 2) with rfl | rfl | rfl
    · exact absurd rfl ha
    · cases c2; rfl
    · exact absurd rfl hw
  · intro i hi ha
    have hi' : i < 3 := hi
    rcases (by omega : i = 0 ∨ i = 1 ∨ i = 2) with rfl | rfl | rfl
    · rfl
    · cases ha
    · cases ha
  · intro o ho ha
    have ho' : o < 2 := ho
    rcases (by omega : o = 0 ∨ o = 1) with rfl | rfl
    · rfl
    · cases ha
  · show 0 < (((0 + if _ then 1 else 0) + if _ then _ else _) + if _ then _ else _)
    rw [if_pos (by rfl)]
    omega
  · show 0 < ((0 + if _ then 1 else 0) + if _ then _ else _)
    rw [if_pos (by rfl)]
    omega
  · intro e
    refine ⟨fun _ _ _ _ p => (ptsMean phi).mixArr (ptsOper b0.bas) (ptsStart b0).base.L e (fun _ _ => 0) 1 p *
      (ptsMean phi).mixArr (ptsOper b0.bas) (ptsStart b0).base.L e (fun _ _ => 0) 2 p, ?_⟩
    intro u o ho ha k hk p hp
    have ho' : o < 2 := ho
    have ho0 : o = 0 := by
      rcases (by omega : o = 0 ∨ o = 1) with rfl | rfl
      · rfl
      · cases ha
    subst ho0
    have hk0 : k = 0 := by
      have : k < 1 := hk
      omega
    subst hk0
    rw [Nat.zero_mul, Nat.zero_add]
    have hf : (range (ptsOper b0.bas).op.nin).filter (fun i => ((ptsOper b0.bas).op.inp i).vec = .active) = {0} := by
      ext i
      rw [mem_filter, mem_range, mem_singleton]
      constructor
      · rintro ⟨hi, ha⟩
        have hi' : i < 3 := hi
        rcases (by omega : i = 0 ∨ i = 1 ∨ i = 2) with rfl | rfl | rfl
        · rfl
        · cases ha
        · cases ha
      · rintro rfl
        exact ⟨by show 0 < 3; omega, rfl⟩
    rw [hf, sum_singleton, show ((ptsOper b0.bas).op.inp 0).size = 1 from rfl, sum_range_one, Nat.zero_mul, Nat.zero_add]
    show _ * _ * _ = _
    have e0 : (ptsMean phi).mixArr (ptsOper b0.bas) (ptsStart b0).base.L e u 0 p = u 0 p := by
      unfold PMean.mixArr
      rw [if_pos ⟨by show 0 < 3; omega, by show p < _ * 1; rw [Nat.mul_one]; exact hp⟩, if_pos (by rfl)]
    have e1 : ∀ j, ((ptsOper b0.bas).op.inp j).vec ≠ .active → (ptsMean phi).mixArr (ptsOper b0.bas) (ptsStart b0).base.L e u j p =
        (ptsMean phi).mixArr (ptsOper b0.bas) (ptsStart b0).base.L e (fun _ _ => 0) j p := by
      intro j hj
      unfold PMean.mixArr
      rw [if_neg hj, if_neg hj]
    rw [e0, e1 1 (by intro hh; cases hh), e1 2 (by intro hh; cases hh)]
    ring

/-! ## Disagreements -/

/-- A basis with one node and two quadrature points in one dimension. -/
def unitBas : Bas ℚ :=
  ⟨true, true, 1, 1, 1, 2, 1, 2, ⟨2, fun _ => 1⟩, ⟨2, fun _ => 0⟩, ⟨2, fun _ => 1⟩, none, none, none, none, false, none⟩

/-- One node per element. -/
def unitNode : Rstr :=
  { rtype := .standard, numElem := 2, elemSize := 1, numComp := 1, compStride := 1, lSize := 3, eSize := 2, numBlock := 2,
    blockSize := 1, numPoints := 0, strides := none, offsets := ⟨2, (Buf.ofList [0, 1]).val⟩,
    orients := ⟨0, fun _ => false⟩, curlOrients := ⟨0, fun _ => 0⟩ }

/-- Operators with inputs that are active (`true`, interpolated) or weights (`false`), and active outputs. -/
def unitOper (nin nout : Nat) (act : Nat → Bool) (F : (Nat → Nat → ℚ) → Nat → Nat → ℚ) : POper ℚ where
  op :=
    { ne := 2, Q := 2, nin := nin, nout := nout
      inp := fun i => if act i then ⟨.active, some i, some unitBas, .interp, 1⟩ else ⟨.none, none, some unitBas, .weight, 1⟩
      out := fun o => ⟨.active, some o, some unitBas, .interp, 1⟩
      rstrs := fun _ => unitNode
      isId := false
      f := fun _ _ _ => 0 }
  inB := fun _ => 0
  outB := fun _ => 0
  points := some (ptsRstr, 4)
  F := fun _ => F

/-- A new operator. -/
def unitStart : QSt ℚ :=
  ⟨{ bareStart with d := { bareStart.d with bas := fun _ => ⟨unitBas, Buf.ofList [-1, 1], none⟩ } }, ⟨0, fun _ => 7⟩, 0, 0, 0⟩

/-- The assembled array after a call. -/
def resultAsm (x : Out (QSt ℚ) Unit) : Option (List ℚ) :=
  match x with
  | .ok s _ => some s.asm.toList
  | _ => none

def ubAsm (x : Out (QSt ℚ) Unit) : Bool :=
  match x with
  | .ub => true
  | _ => false

/-- Active input before the weights. -/
example : resultAsm (asmAtCore (unitOper 2 1 (fun i => i = 0) (fun x _ q => 5 * x 0 q * x 1 q)) bareEnv true unitStart) = some [5, 5, 5] := by
  decide +kernel

/-- `backends/ref/ceed-ref-operator.c` 1166: the array of the input that has the number of the active output is set to zero. If these are
the weights, the assembled QFunction is zero, though the operator differs from the one above in the order of the inputs only. -/
theorem C79_weights_cleared_witness :
    resultAsm (asmAtCore (unitOper 2 1 (fun i => i = 1) (fun x _ q => 5 * x 1 q * x 0 q)) bareEnv true unitStart) = some [0, 0, 0] := by
  decide +kernel

/-- Line 1166: there may be no input with the number of the output. Then a null pointer is used. -/
theorem C79_more_outputs_witness :
    ubAsm (asmAtCore (unitOper 1 2 (fun _ => true) (fun x o q => (o + 1) * x 0 q)) bareEnv true unitStart) = true := by
  decide +kernel

/-- Active inputs keep the values of an application: the columns of 5 u + 7 v for a new operator, and for one that was applied before. The
second input is then not zero in the first column. (For the run, the square root used by the evaluation at points is replaced by the
identity; the values left behind by the application do not matter.) -/
theorem C79_stale_inputs_witness :
    resultAsm (asmAtCore (unitOper 2 1 (fun _ => true) (fun x _ q => 5 * x 0 q + 7 * x 1 q)) bareEnv true unitStart) = some [5, 7, 5, 5, 7, 7] ∧
    resultAsm ((onQA (applyAddAt (unitOper 2 1 (fun _ => true) (fun x _ q => 5 * x 0 q + 7 * x 1 q)) bareEnv (.vec 0) (.vec 1)) >>= fun _ =>
      asmAtCore (unitOper 2 1 (fun _ => true) (fun x _ q => 5 * x 0 q + 7 * x 1 q)) bareEnv true) unitStart) = some [15, 7, 5, 15, 7, 7] := by
  decide +kernel

/-- What the restriction returned with the array reads on an element. -/
def readAsm (r : Option (Res Rstr)) (a : List ℚ) (e n : Nat) : Option (List ℚ) :=
  match r with
  | some (.ok r) =>
    match Restriction.applyAtPointsInElement r e .noTranspose (Buf.ofList a) ⟨n, fun _ => 0⟩ with
    | .ok v => some v.toList
    | _ => none
  | _ => none

/-- The array is stored element by element, the returned restriction reads it point by point: on element 0, whose point has number 2, it
reads 7 and 7 where the columns are 5 and 7. -/
theorem C79_restriction_witness :
    resultAsm (asmAtCore (unitOper 2 1 (fun _ => true) (fun x _ q => 5 * x 0 q + 7 * x 1 q)) bareEnv true unitStart) = some [5, 7, 5, 5, 7, 7] ∧
    readAsm (asmRstr (unitOper 2 1 (fun _ => true) (fun x _ q => 5 * x 0 q + 7 * x 1 q)) 2 1) [5, 7, 5, 5, 7, 7] 0 2 = some [7, 7] := by
  decide +kernel

/-- The operator of the witness meets the hypotheses of `C79_restriction_shape_partial`. -/
example : ∃ r, asmRstr (unitOper 2 1 (fun _ => true) (fun x _ q => 5 * x 0 q + 7 * x 1 q)) 2 1 = some (.ok r) ∧
    Restriction.atPointsAreCompatible ptsRstr r = .ok true ∧ (Restriction.createVector r).1 = 6 := by
  obtain ⟨r, h1, h2, h3, -⟩ := C79_restriction_shape_partial (P := unitOper 2 1 (fun _ => true) (fun x _ q => 5 * x 0 q + 7 * x 1 q))
    (p := ptsRstr) (m := 4) (ne := 2) (np := 3) (nc := 1) (L := 3) (offs := ptsOffs) rfl ptsOffs_ok ptsRstr_made rfl
    (by decide +kernel) (qin := 2) (qout := 1) (by decide) (by decide)
  exact ⟨r, h1, h2, by rw [h3]; decide⟩

/-- An active input at points is refused. -/
example : (match asmAtCore (bareOper 1 1 (fun _ => (.active, 0)) (fun _ => (.active, 0)) (some (ptsRstr, 4)) (fun x _ q => 10 * x 0 q))
    bareEnv true ⟨bareStart, ⟨0, fun _ => 7⟩, 0, 0, 0⟩ with | .err _ e => some e | _ => none) = some .backend := by decide +kernel

end Operator
end Verif
