import Verif.Operator.FdmMore
import Verif.Operator.AssembleProps

/-!
# C67: concrete cases
-/

namespace Verif
namespace Operator

open Restriction (Rstr RData Made)
open Basis (Bas EMode TensorBasis)

/-! ## Two linear elements -/

/-- Exact square roots of squares, a small tolerance. -/
def fdEnv : FEnv Rat := ⟨Basis.ratRoot, 1 / 1000, fun x => decide (x = 0), 1 / 1000000, fun _ => 0, fun _ => 0, fun _ => 0, fun _ => 0, fun _ _ => 7⟩

/-- 1D matrices: nodes at the two quadrature points, gradient with rows `3/5, 4/5` and `-8/5, 6/5`, weights `1`. -/
def fdI : Buf Rat := Buf.ofList [1, 0, 0, 1]
def fdG : Buf Rat := Buf.ofList [3 / 5, 4 / 5, -8 / 5, 6 / 5]
def fdW : Buf Rat := Buf.ofList [1, 1]

/-- The basis of these matrices, as created by the library. -/
def fdBasis (dim : Nat) : Bas Rat :=
  match Basis.createTensorH1 fdEnv.near (Basis.collocatedGrad fdEnv.sqrt fdEnv.v0 fdEnv.v1) dim 1 2 2 fdI fdG fdW with
  | .ok b => b
  | _ => ⟨false, false, 0, 0, 0, 0, 0, 0, fdI, fdI, fdI, none, none, none, none, false, none⟩

/-- Two values per element. -/
def fdData : Rstr :=
  { rtype := .strided, numElem := 2, elemSize := 2, numComp := 1, compStride := 0, lSize := 4, eSize := 4, numBlock := 2,
    blockSize := 1, numPoints := 0, strides := some (1, 2, 2), offsets := ⟨0, fun _ => 0⟩,
    orients := ⟨0, fun _ => false⟩, curlOrients := ⟨0, fun _ => 0⟩ }

/-- Stiffness: coefficients (passive, vector 2), active gradients; the output is tested with the mode `mo`. -/
def fdOp (mi mo : EMode) : Oper Rat where
  ne := 2
  Q := 2
  nin := 2
  nout := 1
  inp := fun i => match i with
    | 0 => ⟨.vec 2, some 1, none, .none, 1⟩
    | _ => ⟨.active, some 0, some (fdBasis 1), mi, 1⟩
  out := fun _ => ⟨.active, some 0, some (fdBasis 1), mo, 1⟩
  rstrs := fun r => if r = 0 then exNodes else fdData
  isId := false
  f := fun x _ q => x 0 q * x 1 q

/-- Before any call; the coefficients are `c`. -/
def fdStart (c : List Rat) : ASt Rat :=
  ⟨⟨⟨false, false, ⟨fun _ => none, fun _ => none, fun _ => false⟩,
    ⟨fun _ => none, fun _ => none, fun _ => false, fun _ => false, fun _ => 0⟩,
    fun _ => 0, fun _ => ⟨0, fun _ => 7⟩, fun _ => false, fun _ => 0, fun _ => ⟨0, fun _ => 7⟩, fun _ => false,
    fun _ => ⟨0, fun _ => 7⟩⟩, fun v => match v with
    | 0 => ⟨2, true, Buf.ofList [1, 2, 4]⟩
    | 1 => ⟨2, true, Buf.ofList [100, 200, 300]⟩
    | 2 => ⟨2, true, Buf.ofList c⟩
    | _ => ⟨0, false, ⟨0, fun _ => 0⟩⟩, fun _ => none⟩, 0, 0, none, false, false, ⟨0, fun _ => 0⟩, 0⟩

/-- The scales and the 1D interpolation matrix of the new basis. -/
def fdResult (x : Out (ASt Rat) (Fdm Rat)) : Option (List Rat × List Rat) :=
  match x with
  | .ok _ f => some (f.qdata.toList, f.basis.interp1.toList)
  | _ => none

/-- Undefined behaviour. -/
def fdUb (x : Out (ASt Rat) (Fdm Rat)) : Bool :=
  match x with
  | .ub => true
  | _ => false

/-- Stiffness matrices with coefficients `3` and `5`: eigenvalues `1` and `4` plus the perturbation. -/
example : fdResult (createFdm fdEnv (fdOp .grad .grad) 5 6 (fdStart [3, 3, 5, 5])) =
    some ([10000 / 30003, 10000 / 120003, 2000 / 10001, 2000 / 40001], [3 / 5, 4 / 5, 4 / 5, -3 / 5]) := by decide +kernel

/-- Mass matrices. -/
example : fdResult (createFdm fdEnv (fdOp .interp .interp) 5 6 (fdStart [3, 3, 5, 5])) =
    some ([1 / 3, 1 / 3, 1 / 5, 1 / 5], [3 / 5, 4 / 5, 4 / 5, -3 / 5]) := by decide +kernel

/-! ## The hypotheses are met -/

theorem fdBasis_made : TensorBasis (fdBasis 1) fdI fdG fdW := by
  refine ⟨fdEnv.near, Basis.collocatedGrad fdEnv.sqrt fdEnv.v0 fdEnv.v1, ((1 : Nat) : Int), 1, 2, 2, ?_, ?_, ?_⟩
  · have h : (fdBasis 1).isTensor = true := by decide +kernel
    unfold fdBasis at h ⊢
    generalize Basis.createTensorH1 fdEnv.near (Basis.collocatedGrad fdEnv.sqrt fdEnv.v0 fdEnv.v1) ((1 : Nat) : Int) 1 2 2 fdI fdG fdW = x at h ⊢
    cases x with
    | ok b => rfl
    | err _ => cases h
    | ub => cases h
  · intro _ i hi j hj
    have h2 : (fdBasis 1).P1 = 2 := by decide +kernel
    rw [h2] at hi hj ⊢
    revert i j
    decide +kernel
  · intro cg h
    have : (fdBasis 1).colloGrad.isNone = true := by decide +kernel
    rw [h] at this
    cases this

theorem fdOp_ok : FdmOK fdEnv (fdOp .grad .grad) 0 3 (Restriction.offsetData 2 2 1 1 (Buf.ofList [0, 1, 1, 2]) .none .plain)
    (fdBasis 1) fdI fdG fdW 5 :=
  ⟨⟨1, by decide, rfl, fun j hj => by obtain rfl : j = 0 := by omega
                                      simp [fdOp], rfl, rfl⟩,
    Made.offset (checked := true) rfl trivial (Or.inl rfl), fdBasis_made, by decide +kernel, by decide +kernel, by decide,
    fun x h => by simpa [fdEnv] using h⟩

/-- What is created. -/
def fdFd (mi mo : EMode) : Fdm Rat :=
  match createFdm fdEnv (fdOp mi mo) 5 6 (fdStart [3, 3, 5, 5]) with
  | .ok _ f => f
  | _ => ⟨OpI.create (QFunction.QFunc.create 1), fdBasis 1, fdData, fdI⟩

/-- The eigenvectors are exact. -/
def fdX : Nat → Nat → Rat := fun i j => (fdFd .grad .grad).basis.interp1.val (j * 2 + i)
example : (∀ p < 2, ∀ q < 2, cong fdX (quad1 fdI fdW 2 2) 2 p q = if p = q then 1 else 0) ∧
    (∀ p < 2, ∀ q < 2, cong fdX (quadLap fdG fdW 2 2 1) 2 p q = if p = q then (if p = 0 then 10001 / 10000 else 40001 / 10000) else 0) := by
  decide +kernel

/-- The operator that the backend sees, and vectors. -/
def fdInv : Oper Rat :=
  match runOn checkReady (fdFd .grad .grad).op with
  | .ok o => o.oper (Function.update (fdOp .grad .grad).rstrs 5 (fdFd .grad .grad).rstr) false scaleF
  | _ => fdOp .none .none
def fdVecs : St Rat :=
  ⟨(fdStart []).st.impl, fun v => match v with
    | 0 => ⟨2, true, Buf.ofList [1, 2, 4]⟩
    | 1 => ⟨2, true, Buf.ofList [100, 200, 300]⟩
    | 6 => ⟨2, true, (fdFd .grad .grad).qdata⟩
    | _ => ⟨0, false, ⟨0, fun _ => 0⟩⟩, fun _ => none⟩

/-- Contents of a vector after a call. -/
def fdVec (x : Out (St Rat) Unit) (v : Nat) : Option (List Rat) :=
  match x with
  | .ok s _ => some (s.vecs v).buf.toList
  | _ => none

example : (fdVec (apply fdInv (fun _ _ => 0) (.vec 0) (.vec 1) fdVecs) 1) =
    some [496010000 / 1200150003, 1323232000 / 1200150003, 291208000 / 400050001] := by decide +kernel

/-- There are operators, states and calls as in the theorems. -/
example : ∃ (s' : ASt Rat) (fd : Fdm Rat) (o : OpI Rat) (t : St Rat), createFdm fdEnv (fdOp .grad .grad) 5 6 (fdStart [3, 3, 5, 5]) = .ok s' fd ∧
    runOn checkReady fd.op = .ok o ∧
    Reach (o.oper (Function.update (fdOp .grad .grad).rstrs 5 fd.rstr) false scaleF) True fdVecs ∧
    apply (o.oper (Function.update (fdOp .grad .grad).rstrs 5 fd.rstr) false scaleF) (fun _ _ => 0) (.vec 0) (.vec 1) fdVecs = .ok t () ∧
    ∀ i < fd.qdata.len, fdVecs.L 6 i = fd.qdata.val i := by
  have h1 : (match createFdm fdEnv (fdOp .grad .grad) 5 6 (fdStart [3, 3, 5, 5]) with
    | .ok _ f => (match runOn checkReady f.op with
      | .ok o => (match apply (o.oper (Function.update (fdOp .grad .grad).rstrs 5 f.rstr) false scaleF) (fun _ _ => 0) (.vec 0) (.vec 1) fdVecs with
        | .ok _ _ => true
        | _ => false)
      | _ => false)
    | _ => false) = true := by decide +kernel
  split at h1
  · rename_i s' f e
    split at h1
    · rename_i o eo
      split at h1
      · rename_i t _ et
        refine ⟨s', f, o, t, e, eo, ?_, et, ?_⟩
        · refine Reach.start _ rfl (fun i => ?_)
          match i with
          | 0 => intro h; cases h
          | 1 => intro h; cases h
          | 2 => intro _; rfl
          | 3 => intro _; rfl
          | 4 => intro _; rfl
          | 5 => intro _; rfl
          | 6 => intro h; cases h
          | n + 7 => intro _; rfl
        · intro i _
          show (fdFd .grad .grad).qdata.val i = _
          unfold fdFd
          simp only [e]
      · cases h1
    · cases h1
  · cases h1

/-- The sums of eigenvalues are above the bound. -/
example : ∀ n < 2, (2 : Rat) * fdEnv.eps ≤ |ind (UsesMode (fdOp .grad .grad) .interp) + ind (UsesMode (fdOp .grad .grad) .grad) *
    eigSum (fun p => if p = 0 then 10001 / 10000 else 40001 / 10000) 2 1 n| := by
  have h1 : ind (K := Rat) (UsesMode (fdOp .grad .grad) .interp) = 0 := by
    unfold ind
    rw [if_neg]
    rintro ⟨i, hi, _, hm⟩
    have hi' : i < 2 := hi
    rcases (by omega : i = 0 ∨ i = 1) with rfl | rfl <;> cases hm
  have h2 : ind (K := Rat) (UsesMode (fdOp .grad .grad) .grad) = 1 := by
    unfold ind
    rw [if_pos]
    exact ⟨1, by decide, rfl, rfl⟩
  rw [h1, h2]
  decide +kernel

/-! ## Disagreements -/

/-- C67 fails for coefficients of different signs: they cancel, and the code divides by zero. -/
theorem C67_cancel_witness : fdUb (createFdm fdEnv (fdOp .grad .grad) 5 6 (fdStart [3, -3, 5, 5])) = true := by decide +kernel

/-- C67 fails for an element whose coefficients are small compared with those of another element (the
bound is `100 eps max` with `eps = 1/1000000`): the
scales of the second element are those for the coefficient `1`. -/
theorem C67_small_witness : fdResult (createFdm fdEnv (fdOp .grad .grad) 5 6 (fdStart [3, 3, 1 / 10000, 1 / 10000])) =
    fdResult (createFdm fdEnv (fdOp .grad .grad) 5 6 (fdStart [3, 3, 1, 1])) := by decide +kernel

/-- One square element, four points. -/
def fdSquare : Rstr :=
  { rtype := .standard, numElem := 1, elemSize := 4, numComp := 1, compStride := 1, lSize := 4, eSize := 4, numBlock := 1,
    blockSize := 1, numPoints := 0, strides := none, offsets := ⟨4, (Buf.ofList [0, 1, 2, 3]).val⟩,
    orients := ⟨0, fun _ => false⟩, curlOrients := ⟨0, fun _ => 0⟩ }

/-- An operator on the square: gradients are tested with `mo`, which has `so` components. -/
def fdOp2 (mo : EMode) (so : Nat) : Oper Rat where
  ne := 1
  Q := 4
  nin := 1
  nout := 1
  inp := fun _ => ⟨.active, some 0, some (fdBasis 2), .grad, 2⟩
  out := fun _ => ⟨.active, some 0, some (fdBasis 2), mo, so⟩
  rstrs := fun _ => fdSquare
  isId := false
  f := fun x _ q => x 0 q

/-- The Laplacian on the square. -/
example : fdResult (createFdm fdEnv (fdOp2 .grad 2) 5 6 (fdStart [])) =
    some ([5000 / 10001, 5000 / 25001, 5000 / 25001, 5000 / 40001], [3 / 5, 4 / 5, 4 / 5, -3 / 5]) := by decide +kernel

/-- C67 fails for operators that are tested in another mode than their input is evaluated in: the code expects as many entries at
a point as the square of the number of input entries, and reads after the end of the assembled QFunction. -/
theorem C67_modes_witness : fdUb (createFdm fdEnv (fdOp2 .interp 1) 5 6 (fdStart [])) = true := by decide +kernel

/-- The hypotheses on the entries of a separable problem: two points, four entries, those of `3 w_q` on the diagonal. -/
example : average (fun q i => if i = 0 ∨ i = 3 then 3 * ((q : Rat) + 1) else 0) (fun q => (q : Rat) + 1) (1 / 2) 2 4 = 3 :=
  C67_average (fun _ i => decide (i = 0 ∨ i = 3)) (by norm_num) (fun q _ i _ => by simp) (fun q _ i _ _ => by
    rw [abs_of_nonneg (by positivity)]
    have : (0 : Rat) ≤ q := by positivity
    linarith) ⟨0, by omega, 0, by omega, rfl⟩

/-- A tensor basis as in the theorem on separable matrices; the operators of the error cases. -/
example : (fdBasis 1).P = 2 ∧ (fdBasis 1).Q = 2 ∧ (fdBasis 1).dim = 1 ∧ (fdBasis 1).nc = 1 := by decide +kernel
example : (∀ i < ({ fdOp .grad .grad with nin := 1 } : Oper Rat).nin, (({ fdOp .grad .grad with nin := 1 } : Oper Rat).inp i).vec ≠ .active) := by
  intro i hi
  have hi' : i < 1 := hi
  obtain rfl : i = 0 := by omega
  exact fun h => by cases h

end Operator
end Verif
