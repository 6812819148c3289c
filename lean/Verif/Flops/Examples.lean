import Verif.Flops.Props

/-!
# C47: examples and cases where the estimate is wrong
-/

namespace Verif
namespace Flops

open Restriction (TMode RType Rstr Made RData)
open Basis (Bas EMode)
open Operator (Oper OField)

/-- A basis in two dimensions with `P` nodes and `Q` quadrature points in each direction. The matrices are arbitrary. -/
def tb (P Q : Nat) (cg : Bool) : Bas Int where
  isTensor := true
  isH1 := true
  dim := 2
  nc := 1
  P1 := P
  Q1 := Q
  P := P * P
  Q := Q * Q
  interp1 := ⟨P * Q, fun i => 1 + i⟩
  grad1 := ⟨P * Q, fun i => 2 - i⟩
  qWeight := ⟨Q, fun _ => 1⟩
  interp := none
  grad := none
  div := none
  curl := none
  colloInterp := false
  colloGrad := if cg then some ⟨Q * Q, fun i => 3 * i⟩ else none

def inBuf (n : Nat) : Buf Int := ⟨n, fun i => i⟩

/-- Operations of a run. -/
def opsOf {σ : Type _} (x : Res (σ × Nat)) : Option Nat := match x with
  | .ok p => some p.2
  | _ => none

theorem opsOf_some {σ : Type _} {x : Res (σ × Nat)} {n : Nat} (h : opsOf x = some n) : ∃ s, x = .ok (s, n) := by
  cases x with
  | ok p => obtain ⟨a, b⟩ := p; cases h; exact ⟨a, rfl⟩
  | err e => cases h
  | ub => cases h

/-- Two elements: interpolation from 2 by 2 nodes to 3 by 3 quadrature points takes 120 operations, twice the estimate. -/
theorem ex_interp : opsOf (applyCoreC (tb 2 3 false) (fun _ _ => 7) false 2 .noTranspose .interp (some (inBuf 8)) (inBuf 18)) =
    some 120 := by decide +kernel

example : basisFlops (tb 2 3 false) .noTranspose .interp false 0 = .ok 60 := by decide +kernel

/-- The hypotheses of `C47_interp` are met. -/
example : ∃ v', applyCoreC (tb 2 3 false) (fun _ _ => 7) false 2 .noTranspose .interp (some (inBuf 8)) (inBuf 18) =
    .ok (v', 120) := opsOf_some ex_interp

/-- The estimate for the transpose is too large when there are fewer nodes than quadrature points: 108 for each element, and 60
operations are done. -/
theorem C47_transpose_witness :
    (∃ v', applyCoreC (tb 2 3 false) (fun _ _ => 7) false 1 .transpose .interp (some (inBuf 9)) (inBuf 4) = .ok (v', 60)) ∧
    basisFlops (tb 2 3 false) .transpose .interp false 0 = .ok 108 ∧
    basisFlops (tb 2 3 false) .noTranspose .interp false 0 = .ok 60 :=
  ⟨opsOf_some (by decide +kernel), by decide +kernel, by decide +kernel⟩

/-- It is exact with as many nodes as quadrature points. -/
example : (∃ v', applyCoreC (tb 2 2 false) (fun _ _ => 7) false 3 .transpose .interp (some (inBuf 12)) (inBuf 12) = .ok (v', 96)) ∧
    basisFlops (tb 2 2 false) .transpose .interp false 0 = .ok 32 :=
  ⟨opsOf_some (by decide +kernel), by decide +kernel⟩

/-- The estimate for the gradient, 120, is too small when there are fewer nodes than quadrature points: interpolation takes 60
operations and differentiation at the quadrature points 108. -/
theorem C47_gradient_witness :
    (∃ v', applyCoreC (tb 2 3 true) (fun _ _ => 7) false 1 .noTranspose .grad (some (inBuf 4)) (inBuf 18) = .ok (v', 168)) ∧
    basisFlops (tb 2 3 true) .noTranspose .grad false 0 = .ok 120 :=
  ⟨opsOf_some (by decide +kernel), by decide +kernel⟩

/-- It is exact with as many nodes as quadrature points. -/
example : (∃ v', applyCoreC (tb 2 2 true) (fun _ _ => 7) false 1 .noTranspose .grad (some (inBuf 4)) (inBuf 8) = .ok (v', 64)) ∧
    basisFlops (tb 2 2 true) .noTranspose .grad false 0 = .ok 64 :=
  ⟨opsOf_some (by decide +kernel), by decide +kernel⟩

/-- Weights. -/
example : (∃ v', applyCoreC (tb 2 3 true) (fun _ _ => 7) false 5 .noTranspose .weight none (inBuf 45) = .ok (v', 18)) ∧
    basisFlops (tb 2 3 true) .noTranspose .weight false 0 = .ok 18 :=
  ⟨opsOf_some (by decide +kernel), by decide +kernel⟩

/-- A basis that is not a tensor basis: two nodes, three quadrature points, one dimension. -/
def nb : Bas Int :=
  { tb 2 3 false with isTensor := false, dim := 1, P := 2, Q := 3, interp := some ⟨6, fun i => i⟩, grad := some ⟨6, fun i => i⟩ }

example : (∃ v', applyCoreC nb (fun _ _ => 7) false 2 .noTranspose .interp (some (inBuf 4)) (inBuf 6) = .ok (v', 24)) ∧
    basisFlops nb .noTranspose .interp false 0 = .ok 6 :=
  ⟨opsOf_some (by decide +kernel), by decide +kernel⟩

/-- A collocated basis: a copy. -/
example : (∃ v', applyCoreC { tb 2 2 false with colloInterp := true } (fun _ _ => 7) false 2 .noTranspose .interp
      (some (inBuf 8)) (inBuf 8) = .ok (v', 0)) ∧
    basisFlops { tb 2 2 false with colloInterp := true } .noTranspose .interp false 0 = .ok 32 :=
  ⟨opsOf_some (by decide +kernel), by decide +kernel⟩

/-! ## Restrictions -/

/-- Two elements of three nodes that share a node. -/
def offs : Buf Int := Buf.ofList [0, 1, 2, 2, 3, 4]

def made (o : Restriction.Orient) : Res Rstr := Restriction.create true 2 3 1 1 5 offs o

def plainR : Rstr :=
  { rtype := .standard, numElem := 2, elemSize := 3, numComp := 1, compStride := 1, lSize := 5, eSize := 6, numBlock := 2,
    blockSize := 1, numPoints := 0, strides := none, offsets := ⟨6, offs.val⟩, orients := ⟨0, fun _ => false⟩,
    curlOrients := ⟨0, fun _ => 0⟩ }

theorem plainR_made : Made (α := Int) .plain plainR 1 5 (Restriction.offsetData 2 3 1 1 offs .none .plain) :=
  Made.offset (checked := true) (o := .none) (offsets := offs) rfl trivial (Or.inl rfl)

example : (∃ v', rstrRunC plainR .transpose (inBuf 6) (inBuf 5) = .ok (v', 6)) ∧ rstrFlops plainR .transpose = 6 :=
  ⟨opsOf_some (by decide +kernel), by decide +kernel⟩

/-- The same with signs. -/
def orientR : Rstr := { plainR with rtype := .oriented, orients := ⟨6, fun i => i == 3⟩ }

theorem orientR_made : Made (α := Int) .plain orientR 1 5
    (Restriction.offsetData 2 3 1 1 offs (.signs ⟨6, fun i => i == 3⟩) .plain) :=
  Made.offset (checked := true) (o := .signs ⟨6, fun i => i == 3⟩) (offsets := offs) rfl trivial (Or.inl rfl)

example : (∃ v', rstrRunC orientR .transpose (inBuf 6) (inBuf 5) = .ok (v', 12)) ∧ rstrFlops orientR .transpose = 12 ∧
    (∃ v', rstrRunC orientR .noTranspose (inBuf 5) (inBuf 6) = .ok (v', 6)) ∧ rstrFlops orientR .noTranspose = 6 :=
  ⟨opsOf_some (by decide +kernel), by decide +kernel, opsOf_some (by decide +kernel), by decide +kernel⟩

/-- The same with tridiagonal transformations. -/
def curlR : Rstr := { plainR with rtype := .curlOriented, curlOrients := ⟨18, fun i => i % 2⟩ }

theorem curlR_made : Made (α := Int) .plain curlR 1 5
    (Restriction.offsetData 2 3 1 1 offs (.curl ⟨18, fun i => i % 2⟩) .plain) :=
  Made.offset (checked := true) (o := .curl ⟨18, fun i => i % 2⟩) (offsets := offs) rfl (Or.inr (by decide)) (Or.inl rfl)

/-- C47 fails for curl oriented restrictions: the estimate counts the entries of the tridiagonal matrices outside the element
as well (30 and 36 instead of 22 and 28 operations for three nodes). -/
theorem C47_curl_witness :
    (∃ v', rstrRunC curlR .noTranspose (inBuf 5) (inBuf 6) = .ok (v', 22)) ∧ rstrFlops curlR .noTranspose = 30 ∧
    (∃ v', rstrRunC curlR .transpose (inBuf 6) (inBuf 5) = .ok (v', 28)) ∧ rstrFlops curlR .transpose = 36 :=
  ⟨opsOf_some (by decide +kernel), by decide +kernel, opsOf_some (by decide +kernel), by decide +kernel⟩

/-- Two elements with two points and one point. Scattering adds three values; nothing is estimated. -/
def ptR : Rstr :=
  { plainR with rtype := .points, elemSize := 0, lSize := 3, eSize := 4, numPoints := 3,
                offsets := ⟨6, (Buf.ofList [3, 5, 6, 0, 2, 1]).val⟩ }

/-- C47 fails for restrictions at points: scattering adds three values, and nothing is estimated. -/
theorem C47_points_witness : (∃ v', rstrRunC ptR .transpose (inBuf 4) (inBuf 3) = .ok (v', 3)) ∧ rstrFlops ptR .transpose = 0 :=
  ⟨opsOf_some (by decide +kernel), by decide +kernel⟩

/-! ## Operators -/

/-- A line element with three nodes and three quadrature points, in one dimension. -/
def lb : Bas Int := { tb 3 3 true with dim := 1, P := 3, Q := 3 }

/-- Active values and gradients of a field, a passive coefficient; active values out. -/
def op : Oper Int where
  ne := 2
  Q := 3
  nin := 3
  nout := 1
  inp := fun i => match i with
    | 0 => ⟨.active, some 0, some lb, .interp, 1⟩
    | 1 => ⟨.vec 2, some 0, some lb, .interp, 1⟩
    | _ => ⟨.active, some 0, some lb, .grad, 1⟩
  out := fun _ => ⟨.active, some 0, some lb, .interp, 1⟩
  rstrs := fun _ => plainR
  isId := false
  f := fun x _ q => x 0 q * x 1 q + x 2 q

def part (qfl : Int) : Part Int := ⟨op, qfl, none⟩

theorem ex_in : ∀ i < (part 3).op.nin, Work (part 3).op .noTranspose ((part 3).op.inp i) (match i with | 0 => 36 | 1 => 0 | _ => 72) := by
  intro i hi
  match i, hi with
  | 0, _ =>
    obtain ⟨v, hv⟩ := opsOf_some (x := rstrRunC plainR .noTranspose (inBuf 5) (inBuf 6)) (n := 0) (by decide +kernel)
    obtain ⟨w, hw⟩ := opsOf_some (x := applyCoreC lb (fun _ _ => 7) false 2 .noTranspose .interp (some (inBuf 6)) (inBuf 6))
      (n := 36) (by decide +kernel)
    exact Work.basis (r := 0) (a := 0) (b := lb) (op := op) (f := op.inp 0) rfl rfl plainR_made (by decide) hv rfl (Exact.interp (b := lb) rfl (by decide) (by decide) rfl) hw
  | 1, _ => exact .passive (by decide)
  | 2, _ =>
    obtain ⟨v, hv⟩ := opsOf_some (x := rstrRunC plainR .noTranspose (inBuf 5) (inBuf 6)) (n := 0) (by decide +kernel)
    obtain ⟨w, hw⟩ := opsOf_some (x := applyCoreC lb (fun _ _ => 7) false 2 .noTranspose .grad (some (inBuf 6)) (inBuf 6))
      (n := 72) (by decide +kernel)
    exact Work.basis (r := 0) (a := 0) (b := lb) (op := op) (f := op.inp 2) rfl rfl plainR_made (by decide) hv rfl (Exact.grad (b := lb) rfl (by decide) rfl rfl) hw

theorem ex_out : ∀ o < (part 3).op.nout, Work (part 3).op .transpose ((part 3).op.out o) 42 := by
  intro o ho
  obtain ⟨v, hv⟩ := opsOf_some (x := rstrRunC plainR .transpose (inBuf 6) (inBuf 5)) (n := 6) (by decide +kernel)
  obtain ⟨w, hw⟩ := opsOf_some (x := applyCoreC lb (fun _ _ => 7) false 2 .transpose .interp (some (inBuf 6)) (inBuf 6))
    (n := 36) (by decide +kernel)
  exact Work.basis (r := 0) (a := 6) (b := lb) (op := op) (f := op.out o) rfl rfl plainR_made (by decide) hv rfl (Exact.interpT (b := lb) rfl (by decide) rfl rfl) hw

/-- The hypotheses of `C47_operator_partial` are met; the estimate is 36 + 72 + 2 * 3 * 3 + 42. -/
example : partFlops (part 3) = .ok 168 := C47_operator_partial (by decide) rfl (by decide) ex_in ex_out

/-- Without an estimate for the QFunction. -/
example : partFlops (part (-1)) = .err .incomplete :=
  (C47_unset (by decide) (by decide)).2 rfl _ ex_in

/-- A composite operator (2) of operator 0, operator 1 and another composite operator (3) of operator 0. -/
def heap : Composite.Heap := fun k => match k with
  | 2 => ⟨true, [0, 1, 3], 5, 5, false, false⟩
  | 3 => ⟨true, [0], 5, 5, false, false⟩
  | _ => ⟨false, [], 5, 5, true, false⟩

/-- The value returned, if any. -/
def valueOf {σ β : Type _} (x : Out σ β) : Option β := match x with
  | .ok _ a => some a
  | _ => none

example : valueOf (flops (fun k => part (if k = 0 then 3 else 4)) 3 2 heap) = some 510 := by decide +kernel

/-- An operator at points with an active field taken without a basis has no estimate: `CEED_BASIS_NONE` is not a tensor basis. -/
theorem C47_atpoints_witness :
    partFlops ⟨{ op with nin := 1, inp := fun _ => ⟨.active, some 0, none, .none, 1⟩ }, 3, some (fun _ => 2)⟩ =
      .err .incompatible := by decide +kernel

/-- Evaluation at one point in the plane with a basis of 2 by 2 coefficients contracts twice: 8 and 4 operations. The estimate has
16 for it (the difference of the estimates for one point and for none, without the evaluation of polynomials). -/
theorem C47_point_witness :
    pointTensorFlops 2 2 2 = 16 ∧
    opsOf (contractC 2 2 1 1 (inBuf 2) 0 .noTranspose false (inBuf 4) 0 (inBuf 2) 0) = some 8 ∧
    opsOf (contractC 1 2 1 1 (inBuf 2) 0 .noTranspose false (inBuf 2) 0 (inBuf 1) 0) = some 4 := by decide +kernel

end Flops
end Verif
