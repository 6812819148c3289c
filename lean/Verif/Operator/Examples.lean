import Verif.Operator.Props
import Verif.Basis.Props

/-!
# Concrete operators

An operator that meets the hypotheses of the theorems of `Props.lean`, and operators for which the code does not do what
C37, C39 and C40 ask.
-/

set_option linter.unusedSectionVars false

namespace Verif
namespace Operator

open Finset
open Restriction (RData Made Rstr)
open Basis (Bas EMode)

/-! ## Hypotheses from the creation functions -/

section
variable {α : Type} [CommRing α]

theorem mulBy_congr {b : Bas α} {em : EMode} {m m' : Buf α} (h : Basis.MulBy b em m) (hv : m'.val = m.val) :
    Basis.MulBy b em m' := by
  unfold Basis.MulBy Basis.rowTimes at *
  rw [hv]; exact h

theorem mulByT_congr {b : Bas α} {em : EMode} {m m' : Buf α} (h : Basis.MulByT b em m) (hv : m'.val = m.val) :
    Basis.MulByT b em m' := by
  unfold Basis.MulByT Basis.colTimes at *
  rw [hv]; exact h

theorem addByT_congr {b : Bas α} {em : EMode} {m m' : Buf α} (h : Basis.AddByT b em m) (hv : m'.val = m.val) :
    Basis.AddByT b em m' := by
  unfold Basis.AddByT Basis.colTimes at *
  rw [hv]; exact h

/-- The conditions on bases in `OpOK` hold for every non-tensor basis, with the matrices given to its creation. -/
theorem basis_ok {b : Bas α} {sp : Basis.Space} {i d w : Buf α} (hb : Basis.NonTensorBasis b sp i d w) :
    (Basis.MulBy b .interp i ∧ Basis.MulByT b .interp i ∧ Basis.AddByT b .interp i) ∧
    (Basis.MulBy b sp.mode d ∧ Basis.MulByT b sp.mode d ∧ Basis.AddByT b sp.mode d) ∧ WeightBy b w.val := by
  obtain ⟨⟨m, _, e1, h1, h2⟩, m', e2, h3, h4⟩ := Basis.C21_nontensor hb
  obtain ⟨⟨n, e3, _, h5⟩, n', e4, _, h6⟩ := Basis.C23_applyAdd_nontensor hb
  refine ⟨⟨mulBy_congr h1 e1.symm, mulByT_congr h2 e1.symm, addByT_congr h5 e3.symm⟩,
    ⟨mulBy_congr h3 e2.symm, mulByT_congr h4 e2.symm, addByT_congr h6 e4.symm⟩, ?_⟩
  intro junk v hv
  obtain ⟨v', a1, a2, a3, _⟩ := Basis.C24_weight_nontensor hb junk (ne := 1) (u := none) (v := v) (by omega)
  refine ⟨v', a1, a2, fun q hq => ?_⟩
  have := a3 q hq 0 (by omega)
  simpa using this

/-- The conditions on bases in `OpOK` hold for every tensor basis with exact setup arithmetic; accumulation needs points
that are not collocated. -/
theorem tensor_basis_ok {b : Bas α} {i1 g1 w : Buf α} (hb : Basis.TensorBasis b i1 g1 w) :
    (∃ m, Basis.getInterp b = .ok (some m) ∧ Basis.MulBy b .interp m ∧ Basis.MulByT b .interp m ∧
      (b.colloInterp = false → Basis.AddByT b .interp m)) ∧
    (∃ m, Basis.getGrad b = .ok (some m) ∧ Basis.MulBy b .grad m ∧ Basis.MulByT b .grad m ∧
      (b.colloInterp = false → Basis.AddByT b .grad m)) ∧
    WeightBy b (fun q => ∏ d ∈ range b.dim, w.val (Basis.coord b.Q1 d q)) := by
  obtain ⟨m, e1, _, h1, h2⟩ := Basis.C21_interp_partial hb
  obtain ⟨m', e2, _, h3, h4⟩ := Basis.C22_grad_partial hb
  refine ⟨⟨m, e1, h1, h2, fun hc => ?_⟩, ⟨m', e2, h3, h4, fun hc => ?_⟩, ?_⟩
  · obtain ⟨⟨n, a1, _, a2⟩, _⟩ := Basis.C23_applyAdd_tensor_partial hb hc
    rw [e1] at a1; cases a1; exact a2
  · obtain ⟨_, n, a1, _, a2⟩ := Basis.C23_applyAdd_tensor_partial hb hc
    rw [e2] at a1; cases a1; exact a2
  · intro junk v hv
    obtain ⟨v', a1, a2, a3, _⟩ := Basis.C24_weight_tensor hb junk (ne := 1) (by omega) (u := none) (v := v) (by omega)
    refine ⟨v', a1, a2, fun q hq => ?_⟩
    have := a3 q hq 0 (by omega)
    simpa using this

end

/-! ## An operator with everything -/

/-- One quadrature point, two nodes, interpolation `[1 1]`, gradient `[-1 1]`, weight `3`. -/
def exBasis : Bas Int :=
  { isTensor := false, isH1 := true, dim := 1, nc := 1, P1 := 0, Q1 := 0, P := 2, Q := 1,
    interp1 := ⟨0, fun _ => 0⟩, grad1 := ⟨0, fun _ => 0⟩, qWeight := ⟨1, (Buf.ofList [3]).val⟩,
    interp := some ⟨2, (Buf.ofList [1, 1]).val⟩, grad := some ⟨2, (Buf.ofList [-1, 1]).val⟩, div := none, curl := none,
    colloInterp := false, colloGrad := none }

theorem exBasis_made : Basis.NonTensorBasis exBasis .h1 (Buf.ofList [1, 1]) (Buf.ofList [-1, 1]) (Buf.ofList [3]) :=
  ⟨1, 1, 2, 1, rfl⟩

/-- Two elements with nodes `0 1` and `1 2`. -/
def exNodes : Rstr :=
  { rtype := .standard, numElem := 2, elemSize := 2, numComp := 1, compStride := 1, lSize := 3, eSize := 4, numBlock := 2,
    blockSize := 1, numPoints := 0, strides := none, offsets := ⟨4, (Buf.ofList [0, 1, 1, 2]).val⟩,
    orients := ⟨0, fun _ => false⟩, curlOrients := ⟨0, fun _ => 0⟩ }

/-- One value per element. -/
def exData : Rstr :=
  { rtype := .strided, numElem := 2, elemSize := 1, numComp := 1, compStride := 0, lSize := 2, eSize := 2, numBlock := 2,
    blockSize := 1, numPoints := 0, strides := some (1, 1, 1), offsets := ⟨0, fun _ => 0⟩,
    orients := ⟨0, fun _ => false⟩, curlOrients := ⟨0, fun _ => 0⟩ }

/-- Inputs: quadrature data (passive, vector 2), weight, active interpolated values and gradients with the same
restriction. Outputs: interpolated values and gradients with the same restriction. -/
def exOp : Oper Int where
  ne := 2
  Q := 1
  nin := 4
  nout := 2
  inp := fun i => match i with
    | 0 => ⟨.vec 2, some 1, none, .none, 1⟩
    | 1 => ⟨.none, none, some exBasis, .weight, 1⟩
    | 2 => ⟨.active, some 0, some exBasis, .interp, 1⟩
    | _ => ⟨.active, some 0, some exBasis, .grad, 1⟩
  out := fun o => match o with
    | 0 => ⟨.active, some 0, some exBasis, .interp, 1⟩
    | _ => ⟨.active, some 0, some exBasis, .grad, 1⟩
  rstrs := fun r => if r = 0 then exNodes else exData
  isId := false
  f := fun x o q => if o = 0 then x 0 q * x 1 q * x 2 q else x 0 q * x 3 q

/-- Its meaning. -/
def exMeaning : Meaning Int where
  D := fun r => if r = 0 then Restriction.offsetData 2 2 1 1 (Buf.ofList [0, 1, 1, 2]) .none .plain
    else Restriction.stridedData 2 1 1 (1, 1, 1)
  mIn := fun i => if i = 2 then Buf.ofList [1, 1] else Buf.ofList [-1, 1]
  mOut := fun o => if o = 0 then Buf.ofList [1, 1] else Buf.ofList [-1, 1]
  w := fun _ => (Buf.ofList [3]).val

theorem exNodes_has {op : Oper Int} (h0 : op.rstrs 0 = exNodes) (hne : op.ne = 2) {a : OField Int} (ha : a.rid = some 0) :
    HasRstr op exMeaning a :=
  ⟨0, 3, ha, by rw [h0]; exact Made.offset (checked := true) rfl trivial (Or.inl rfl), hne.symm⟩

theorem exData_has {op : Oper Int} (h0 : op.rstrs 1 = exData) (hne : op.ne = 2) {a : OField Int} (ha : a.rid = some 1) :
    HasRstr op exMeaning a :=
  ⟨1, 2, ha, by rw [h0]; exact Made.strided rfl (Or.inr (by intro e he m hm k hk; simp only; omega)), hne.symm⟩

theorem exFits {op : Oper Int} (hQ : op.Q = 1) {a : OField Int} (ha : a.rid = some 0) (hb : a.basis = some exBasis)
    (hm : a.mode = .interp ∨ a.mode = .grad) (hs : a.size = 1) : Fits op exMeaning a exBasis := by
  have hD : exMeaning.dat a = Restriction.offsetData 2 2 1 1 (Buf.ofList [0, 1, 1, 2]) .none .plain := by
    unfold Meaning.dat; rw [ha]; rfl
  refine ⟨hb, by rw [hD]; rfl, by rw [hD]; rfl, hQ.symm, ?_⟩
  rw [hD, hs]
  rcases hm with h | h <;> rw [h] <;> rfl

/-- The hypotheses of the theorems are met. -/
theorem exOp_ok : OpOK exOp exMeaning := by
  obtain ⟨⟨b1, b2, b3⟩, ⟨b4, b5, b6⟩, b7⟩ := basis_ok exBasis_made
  refine ⟨?_, ?_, ?_, ?_, ?_⟩
  · intro i hi
    have hi' : i < 4 := hi
    rcases (by omega : i = 0 ∨ i = 1 ∨ i = 2 ∨ i = 3) with rfl | rfl | rfl | rfl
    · exact ⟨exData_has rfl rfl rfl, rfl, rfl⟩
    · exact ⟨rfl, rfl, rfl, exBasis, rfl, rfl, b7⟩
    · exact ⟨exNodes_has rfl rfl rfl, exBasis, exFits rfl rfl rfl (Or.inl rfl) rfl, b1⟩
    · exact ⟨exNodes_has rfl rfl rfl, exBasis, exFits rfl rfl rfl (Or.inr rfl) rfl, b4⟩
  · intro o ho
    have ho' : o < 2 := ho
    rcases (by omega : o = 0 ∨ o = 1) with rfl | rfl
    · exact ⟨exNodes_has rfl rfl rfl, exBasis, exFits rfl rfl rfl (Or.inl rfl) rfl, b2, fun _ => b3⟩
    · exact ⟨exNodes_has rfl rfl rfl, exBasis, exFits rfl rfl rfl (Or.inr rfl) rfl, b5, fun _ => b6⟩
  · intro i j hij hj hs _
    have hj' : j < 4 := hj
    rcases (by omega : j = 1 ∨ j = 2 ∨ j = 3) with rfl | rfl | rfl
    · rcases (by omega : i = 0) with rfl
      exact absurd hs (by decide)
    · rcases (by omega : i = 0 ∨ i = 1) with rfl | rfl <;> exact absurd hs (by decide)
    · rcases (by omega : i = 0 ∨ i = 1 ∨ i = 2) with rfl | rfl | rfl
      · exact absurd hs (by decide)
      · exact absurd hs (by decide)
      · rfl
  · intro j o hjo ho _
    have ho' : o < 2 := ho
    rcases (by omega : o = 1) with rfl
    rfl
  · intro h; cases h

/-- Backend data before the setup. -/
def exImpl : Impl Int :=
  ⟨false, false, ⟨fun _ => none, fun _ => none, fun _ => false⟩,
    ⟨fun _ => none, fun _ => none, fun _ => false, fun _ => false, fun _ => 0⟩,
    fun _ => 0, fun _ => ⟨0, fun _ => 7⟩, fun _ => false, fun _ => 0, fun _ => ⟨0, fun _ => 7⟩, fun _ => false,
    fun _ => ⟨0, fun _ => 7⟩⟩

/-- Vectors: 0 the input, 1 the output, 2 the quadrature data. -/
def exStart : St Int :=
  ⟨exImpl, fun v => match v with
    | 0 => ⟨2, true, Buf.ofList [1, 2, 4]⟩
    | 1 => ⟨2, true, Buf.ofList [100, 200, 300]⟩
    | 2 => ⟨2, true, Buf.ofList [1, 10]⟩
    | _ => ⟨0, false, ⟨0, fun _ => 0⟩⟩, fun _ => none⟩

theorem exStart_reach (fails : Prop) : Reach exOp fails exStart :=
  Reach.start _ rfl (fun i => by
    match i with
    | 0 => intro h; cases h
    | 1 => intro h; cases h
    | 2 => intro h; cases h
    | n + 3 => intro _; rfl)

/-- Contents of a vector after a call. -/
def result (x : Out (St Int) Unit) (v : Nat) : Option (List Int) :=
  match x with
  | .ok s _ => some (s.vecs v).buf.toList
  | _ => none

/-- The vectors are ready. -/
example : InReady exOp (.vec 0) exStart ∧ OutReady exOp (.vec 1) exStart := by
  constructor
  · intro i hi hw
    have hi' : i < 4 := hi
    rcases (by omega : i = 0 ∨ i = 1 ∨ i = 2 ∨ i = 3) with rfl | rfl | rfl | rfl
    · exact ⟨1, 2, rfl, rfl, rfl, by decide⟩
    · exact absurd rfl hw
    · exact ⟨0, 0, rfl, rfl, rfl, by decide⟩
    · exact ⟨0, 0, rfl, rfl, rfl, by decide⟩
  · intro o ho
    have ho' : o < 2 := ho
    rcases (by omega : o = 0 ∨ o = 1) with rfl | rfl <;> exact ⟨0, 1, rfl, rfl, rfl, by decide⟩

/-- Mass and stiffness of two elements: `9, 180` and `1, 20` at the quadrature points. -/
example : result (applyAdd exOp (fun _ _ => 0) (.vec 0) (.vec 1) exStart) 1 = some [108, 370, 500] := by decide +kernel
example : result (apply exOp (fun _ _ => 0) (.vec 0) (.vec 1) exStart) 1 = some [8, 170, 200] := by decide +kernel
example : NoAlias exOp (.vec 0) (.vec 1) := by
  intro i hi o ho hw
  have hi' : i < 4 := hi
  have ho' : o < 2 := ho
  rcases (by omega : o = 0 ∨ o = 1) with rfl | rfl <;>
    rcases (by omega : i = 0 ∨ i = 1 ∨ i = 2 ∨ i = 3) with rfl | rfl | rfl | rfl <;> decide

/-! ## Disagreements -/

/-- Undefined behaviour. -/
def isUb (x : Out (St Int) Unit) : Bool :=
  match x with
  | .ub => true
  | _ => false

/-- The error code of a call. -/
def errOf (x : Out (St Int) Unit) : Option Err :=
  match x with
  | .err _ e => some e
  | _ => none

/-- The state after a call. -/
def after (x : Out (St Int) Unit) : St Int :=
  match x with
  | .ok s _ => s
  | .err s _ => s
  | .ub => exStart

/-- Two passive inputs without basis that read the same vector through the same restriction; one output. -/
def twiceOp : Oper Int :=
  { exOp with nin := 2, nout := 1, inp := fun _ => ⟨.vec 2, some 1, none, .none, 1⟩,
              out := fun _ => ⟨.active, some 1, none, .none, 1⟩, f := fun x _ q => x 0 q + x 1 q }

/-- C37 and C40 fail: an operator with two inputs without basis that have the same vector and restriction dereferences a
null pointer in its setup (lines 98-102), in the very first application. With separate copies of the restriction it
works. -/
theorem C40_null_input_witness :
    isUb (applyAdd twiceOp (fun _ _ => 0) (.vec 0) (.vec 1) exStart) = true ∧
    result (applyAdd (unshare twiceOp) (fun _ _ => 0) (.vec 0) (.vec 1) exStart) 1 = some [102, 220, 300] := by
  decide +kernel

/-- Two outputs without basis into the same vector through the same restriction. -/
def twiceOutOp : Oper Int :=
  { exOp with nin := 1, nout := 2, inp := fun _ => ⟨.vec 2, some 1, none, .none, 1⟩,
              out := fun _ => ⟨.active, some 1, none, .none, 1⟩, f := fun x _ q => x 0 q }

/-- C37 and C40 fail in the same way for outputs (lines 122-128). -/
theorem C40_null_output_witness :
    isUb (applyAdd twiceOutOp (fun _ _ => 0) (.vec 0) (.vec 1) exStart) = true ∧
    result (applyAdd (unshare twiceOutOp) (fun _ _ => 0) (.vec 0) (.vec 1) exStart) 1 = some [102, 220, 300] := by
  decide +kernel

/-- One node, one quadrature point. -/
def unitBasis : Bas Int :=
  { exBasis with P := 1, interp := some ⟨1, (Buf.ofList [1]).val⟩, grad := some ⟨1, (Buf.ofList [0]).val⟩ }

/-- Three outputs into the same vector through the same restriction, the middle one without basis. -/
def middleOp : Oper Int :=
  { exOp with nin := 1, nout := 3, inp := fun _ => ⟨.vec 2, some 1, none, .none, 1⟩,
              out := fun o => if o = 1 then ⟨.active, some 1, none, .none, 1⟩
                else ⟨.active, some 1, some unitBasis, .interp, 1⟩,
              f := fun x _ q => x 0 q }

/-- C37 and C40 fail: the contribution of an output without basis is overwritten by an earlier output that shares its
E-vector (result `+2, +20` instead of `+3, +30`). -/
theorem C40_overwritten_witness :
    result (applyAdd middleOp (fun _ _ => 0) (.vec 0) (.vec 1) exStart) 1 = some [102, 220, 300] ∧
    result (applyAdd (unshare middleOp) (fun _ _ => 0) (.vec 0) (.vec 1) exStart) 1 = some [103, 230, 300] := by
  decide +kernel

/-- Collocated tensor basis on one element with two nodes; a value and a gradient output share the E-vector. -/
def colloOp : Oper Int :=
  { exOp with
      ne := 1, Q := 2, nin := 1, nout := 2, rstrs := fun _ => { exNodes with numElem := 1, numBlock := 1, eSize := 2 },
      inp := fun _ => ⟨.active, some 0, some Basis.collocated, .interp, 1⟩,
      out := fun o => if o = 0 then ⟨.active, some 0, some Basis.collocated, .grad, 1⟩
        else ⟨.active, some 0, some Basis.collocated, .interp, 1⟩,
      f := fun x _ q => x 0 q }

/-- C37 and C40 fail for collocated tensor bases: the second output overwrites the first one, because
`CeedBasisApplyAdd` does (C23). -/
theorem C40_collocated_witness :
    result (applyAdd colloOp (fun _ _ => 0) (.vec 0) (.vec 1) exStart) 1 = some [101, 202, 300] ∧
    result (applyAdd (unshare colloOp) (fun _ _ => 0) (.vec 0) (.vec 1) exStart) 1 = some [98, 205, 300] := by
  decide +kernel

/-- The user overwrites the quadrature data (vector 2). -/
def rewrite (s : St Int) : St Int :=
  ⟨s.impl, Function.update s.vecs 2 ⟨(s.vecs 2).state + 2, true, Buf.ofList [5, 6]⟩, s.eptr⟩

/-- C39 fails after an error: an application to a vector without data (vector 3) returns an error but leaves the E-vector
of the passive input locked for reading. When the passive vector has changed, all later applications fail, although an
operator used for the first time succeeds with the same vectors. -/
theorem C39_error_history_witness :
    errOf (applyAdd exOp (fun _ _ => 0) (.vec 3) (.vec 1) exStart) = some .backend ∧
    errOf (applyAdd exOp (fun _ _ => 0) (.vec 0) (.vec 1)
      (rewrite (after (applyAdd exOp (fun _ _ => 0) (.vec 3) (.vec 1) exStart)))) = some .access ∧
    result (applyAdd exOp (fun _ _ => 0) (.vec 0) (.vec 1) (rewrite exStart)) 1 = some [140, 346, 420] := by
  decide +kernel

/-- An interpolated input whose restriction has one node per element and whose basis has two. -/
def shortOp : Oper Int :=
  { exOp with nin := 1, nout := 1, inp := fun _ => ⟨.active, some 1, some exBasis, .interp, 1⟩,
              out := fun _ => ⟨.active, some 1, none, .none, 1⟩, f := fun x _ q => x 0 q }

/-- C37 fails when the restriction and the basis of a field disagree on the number of nodes: nothing checks this
(`interface/ceed-operator.c` 36-82), and the basis reads past the end of the E-vector. -/
theorem C37_element_size_witness :
    isUb (applyAdd shortOp (fun _ _ => 0) (.vec 0) (.vec 1) exStart) = true := by decide +kernel

/-- An identity operator that copies the passive vector 2 into the active output. -/
def idOp : Oper Int :=
  { exOp with nin := 1, nout := 1, inp := fun _ => ⟨.vec 2, some 1, none, .none, 1⟩,
              out := fun _ => ⟨.active, some 1, none, .none, 1⟩, isId := true }

/-- C37 fails for identity operators without bases on passive vectors: the active input is used instead (lines 396-405;
result `+1, +2` instead of `+1, +10`). -/
theorem C37_identity_passive_witness :
    result (applyAdd idOp (fun _ _ => 0) (.vec 0) (.vec 1) exStart) 1 = some [101, 202, 300] ∧
    result (applyAdd { idOp with isId := false, f := fun x _ q => x 0 q } (fun _ _ => 0) (.vec 0) (.vec 1) exStart) 1 =
      some [101, 210, 300] := by
  decide +kernel

/-- An operator that adds the quadrature weights to the active output, with the identity QFunction or with a user
function that copies. -/
def idWeightOp (isId : Bool) : Oper Int :=
  { exOp with nin := 1, nout := 1, inp := fun _ => ⟨.none, none, some exBasis, .weight, 1⟩,
              out := fun _ => ⟨.active, some 1, none, .none, 1⟩, isId := isId, f := fun x _ q => x 0 q }

/-- C37 fails for the identity QFunction from weights to an output without basis: the setup makes `q_vecs_out[0]` the
vector that holds the weights (line 200), the application replaces its array (line 431), the weights are lost and
what the E-vector happened to hold (here 7) is added instead. -/
theorem C37_identity_weight_witness :
    result (applyAdd (idWeightOp true) (fun _ _ => 0) .none (.vec 1) exStart) 1 = some [107, 207, 300] ∧
    result (applyAdd (idWeightOp false) (fun _ _ => 0) .none (.vec 1) exStart) 1 = some [103, 203, 300] := by
  decide +kernel

end Operator
end Verif
