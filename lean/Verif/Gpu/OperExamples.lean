import Verif.Gpu.OperExec
import Verif.Operator.Examples

/-!
# Concrete cases of C66, and operators for which the device backends do not do what C66 asks
-/

namespace Verif.Gpu

open Verif.Restriction (TMode RData offsetData Rstr)
open Verif.Basis (EMode)
open Verif.Operator (VPtr FVec LVec Meaning exBasis exNodes)

/-! ## The operator of `Operator/Examples.lean` on a device -/

/-- Its basis: one quadrature point, two nodes, interpolation `[1 1]`, gradient `[-1 1]`, weight `3`. -/
def gBasis : DBas Int := ⟨exBasis, some ⟨1, (Buf.ofList [3]).val⟩⟩

theorem gBasis_made : DevNonTensorBasis gBasis .h1 (Buf.ofList [1, 1]) (Buf.ofList [-1, 1]) (some (Buf.ofList [3])) :=
  ⟨1, 1, 2, 1, rfl⟩

/-- Two elements with nodes `0 1` and `1 2`. -/
def gNodes : CRstr := ⟨exNodes, 4, none⟩

/-- One value per element, backend strides. -/
def gData : CRstr := ⟨{ Operator.exData with strides := some (0, 0, 0) }, 2, none⟩

/-- Inputs: quadrature data (passive, vector 2), weight, active interpolated values and gradients with the same
restriction. Outputs: interpolated values and gradients with the same restriction. -/
def gOp : GOper Int where
  ne := 2
  Q := 1
  nin := 4
  nout := 2
  inp := fun i => match i with
    | 0 => ⟨.vec 2, some 1, none, .none, 1⟩
    | 1 => ⟨.none, none, some gBasis, .weight, 1⟩
    | 2 => ⟨.active, some 0, some gBasis, .interp, 1⟩
    | _ => ⟨.active, some 0, some gBasis, .grad, 1⟩
  out := fun o => match o with
    | 0 => ⟨.active, some 0, some gBasis, .interp, 1⟩
    | _ => ⟨.active, some 0, some gBasis, .grad, 1⟩
  rstrs := fun r => if r = 0 then gNodes else gData
  g := fun x o _ => if o = 0 then x 0 0 * x 1 0 * x 2 0 else x 0 0 * x 3 0

/-- What the restrictions do; matrices as given. -/
def gMeaning (mIn mOut : Nat → Buf Int) : Meaning Int where
  D := fun r => if r = 0 then offsetData 2 2 1 1 (Buf.ofList [0, 1, 1, 2]) .none .plain else stridedDataG 2 1 1 (0, 0, 0)
  mIn := mIn
  mOut := mOut
  w := fun _ => (Buf.ofList [3]).val

section
variable {dv : Device} {x : DBas Int} {em : EMode} {m m' : Buf Int}

theorem mulByG_congr (h : MulByG dv x em m) (hv : m'.val = m.val) : MulByG dv x em m' := by
  unfold MulByG rowTimesG at *
  rw [hv]; exact h
theorem mulByTG_congr (h : MulByTG dv x em m) (hv : m'.val = m.val) : MulByTG dv x em m' := by
  unfold MulByTG colTimesG at *
  rw [hv]; exact h
theorem addByTG_congr (h : AddByTG dv x em m) (hv : m'.val = m.val) : AddByTG dv x em m' := by
  unfold AddByTG colTimesG at *
  rw [hv]; exact h
end

/-- The conditions on bases hold for every non-tensor basis that the device can run, with the matrices given to its
creation. -/
theorem devBasis_ok {dv : Device} {x : DBas Int} {i d w : Buf Int} (hx : DevNonTensorBasis x .h1 i d (some w))
    (hP : x.bas.P ≤ dv.maxThreads) (hQ : x.bas.Q ≤ dv.maxThreads) :
    (MulByG dv x .interp i ∧ MulByTG dv x .interp i ∧ AddByTG dv x .interp i) ∧
    (MulByG dv x .grad d ∧ MulByTG dv x .grad d ∧ AddByTG dv x .grad d) ∧ WeightByG dv x w.val := by
  obtain ⟨⟨m, _, e1, h1, h2, h3⟩, m', e2, h4, h5, h6⟩ := C62_nontensor hx hP hQ
  refine ⟨⟨mulByG_congr h1 e1.symm, mulByTG_congr h2 e1.symm, addByTG_congr h3 e1.symm⟩,
    ⟨mulByG_congr h4 e2.symm, mulByTG_congr h5 e2.symm, addByTG_congr h6 e2.symm⟩, fun junk ne v hne hv => ?_⟩
  obtain ⟨L, e, hr⟩ := C62_nontensor_weights hx hQ junk hne none hv
  exact ⟨L, e, hr.mono fun s hs => hs.1⟩

section
variable {op : GOper Int} {mi mo : Nat → Buf Int} {a : GField Int}

theorem gNodes_range : Restriction.OffsetsInRange 2 2 1 1 3 (Buf.ofList [0, 1, 1, 2]) := seg_range

theorem gNodes_has (h0 : op.rstrs 0 = gNodes) (hne : op.ne = 2) (ha : a.rid = some 0) :
    HasRstrG op (gMeaning mi mo) a ∧ Scatters op (gMeaning mi mo) a := by
  refine ⟨⟨0, ha, ?_, hne.symm, fun hb => ?_⟩, fun r hr => ?_⟩
  · rw [h0]
    exact C66_restriction_in (.offset (det := false) (mt := .host) (junk := fun _ => 0) (cs := 1) (lSize := 3) (o := .none)
      (r := exNodes) rfl rfl gNodes_range)
  · rw [h0] at hb; cases hb
  · rw [ha] at hr
    cases hr
    rw [h0]
    exact C66_restriction_out (mt := .host) (junk := fun _ => 0) (r := exNodes) rfl rfl gNodes_range

theorem gData_has (h0 : op.rstrs 1 = gData) (hne : op.ne = 2) (ha : a.rid = some 1) :
    HasRstrG op (gMeaning mi mo) a ∧ Scatters op (gMeaning mi mo) a := by
  have hs := C66_restriction_out_strided_partial (α := Int) (det := false) (mt := .host) (junk := fun _ => 0) (ne := 2) (es := 1)
    (nc := 1) (lSize := 2) (s := (0, 0, 0)) (r := gData.base) (x := gData) rfl rfl (.inl rfl)
  refine ⟨⟨1, ha, ?_, hne.symm, fun hb => ?_⟩, fun r hr => ?_⟩
  · rw [h0]
    exact C66_restriction_in (.strided (det := false) (mt := .host) (junk := fun _ => 0) (lSize := 2) (r := gData.base) rfl rfl
      (.inl rfl))
  · rw [h0]; exact hs.2 (h0 ▸ hb)
  · rw [ha] at hr
    cases hr
    rw [h0]; exact hs.1

theorem gFits (hQ : op.Q = 1) (ha : a.rid = some 0) (hb : a.basis = some gBasis) (hm : a.mode = .interp ∨ a.mode = .grad)
    (hs : a.size = 1) : FitsG op (gMeaning mi mo) a gBasis := by
  have hD := dat_some (gMeaning mi mo) ha
  refine ⟨hb, by rw [hD]; rfl, by rw [hD]; rfl, hQ.symm, ?_⟩
  rw [hD, hs]
  rcases hm with h | h <;> rw [h] <;> rfl

/-- A basis with one node: interpolation by `2`, gradient `5`. -/
def gOne : DBas Int :=
  ⟨{ isTensor := false, isH1 := true, dim := 1, nc := 1, P1 := 0, Q1 := 0, P := 1, Q := 1,
     interp1 := ⟨0, fun _ => 0⟩, grad1 := ⟨0, fun _ => 0⟩, qWeight := ⟨1, (Buf.ofList [3]).val⟩,
     interp := some ⟨1, (Buf.ofList [2]).val⟩, grad := some ⟨1, (Buf.ofList [5]).val⟩, div := none, curl := none,
     colloInterp := false, colloGrad := none }, some ⟨1, (Buf.ofList [3]).val⟩⟩

theorem gOne_made : DevNonTensorBasis gOne .h1 (Buf.ofList [2]) (Buf.ofList [5]) (some (Buf.ofList [3])) := ⟨1, 1, 1, 1, rfl⟩

theorem gOne_fits (hQ : op.Q = 1) (ha : a.rid = some 1) (hb : a.basis = some gOne) (hm : a.mode = .interp) (hs : a.size = 1) :
    FitsG op (gMeaning mi mo) a gOne := by
  have hD := dat_some (gMeaning mi mo) ha
  refine ⟨hb, by rw [hD]; rfl, by rw [hD]; rfl, hQ.symm, ?_⟩
  rw [hD, hs, hm]; rfl

theorem gDir (hQ : op.Q = 1) (ha : a.rid = some 1) (hs : a.size = 1) :
    ((gMeaning mi mo).dat a.host).es = op.Q ∧ a.size = ((gMeaning mi mo).dat a.host).nc := by
  rw [dat_some (gMeaning mi mo) ha, hQ, hs]
  exact ⟨rfl, rfl⟩
end

/-- Meaning of the operator. -/
def gM : Meaning Int := gMeaning (fun i => if i = 2 then Buf.ofList [1, 1] else Buf.ofList [-1, 1])
  (fun o => if o = 0 then Buf.ofList [1, 1] else Buf.ofList [-1, 1])

/-- Every field of an operator is set correctly. -/
def FieldsOK (dv : Device) (op : GOper Int) (S : Meaning Int) : Prop :=
  0 < op.Q ∧ (∀ i < op.nin, GInOK dv op S i) ∧ ∀ o < op.nout, GOutOK dv op S o

/-- The hypotheses of the theorems are met. -/
theorem gOp_ok {dv : Device} (hd : 2 ≤ dv.maxThreads) : GOK dv gOp gM := by
  obtain ⟨⟨b1, b2, b3⟩, ⟨b4, b5, b6⟩, b7⟩ := devBasis_ok (dv := dv) gBasis_made hd (le_trans (by decide) hd)
  refine ⟨by decide, ?_, ?_, ?_, ?_, ?_, ?_⟩
  · intro i hi
    have hi' : i < 4 := hi
    rcases (by omega : i = 0 ∨ i = 1 ∨ i = 2 ∨ i = 3) with rfl | rfl | rfl | rfl
    · exact ⟨by decide, (gData_has rfl rfl rfl).1, gDir rfl rfl rfl⟩
    · exact ⟨rfl, rfl, rfl, gBasis, rfl, rfl, b7⟩
    · exact ⟨by decide, (gNodes_has rfl rfl rfl).1, gBasis, gFits rfl rfl rfl (.inl rfl) rfl, b1⟩
    · exact ⟨by decide, (gNodes_has rfl rfl rfl).1, gBasis, gFits rfl rfl rfl (.inr rfl) rfl, b4⟩
  · intro o ho
    have ho' : o < 2 := ho
    rcases (by omega : o = 0 ∨ o = 1) with rfl | rfl
    · exact ⟨(gNodes_has rfl rfl rfl).1, (gNodes_has rfl rfl rfl).2, gBasis, gFits rfl rfl rfl (.inl rfl) rfl, b2, b3⟩
    · exact ⟨(gNodes_has rfl rfl rfl).1, (gNodes_has rfl rfl rfl).2, gBasis, gFits rfl rfl rfl (.inr rfl) rfl, b5, b6⟩
  · have : ∀ j < 4, ∀ i < j, (gOp.inp i).same (gOp.inp j) = true → ¬ (gOp.inp i).mode = .none := by decide +kernel
    exact fun i j hij hj hs _ hm => absurd hm (this j hj i hij hs)
  · have : ∀ i < 4, (gOp.inp i).vec = .active → ¬ (gOp.inp i).mode = .none := by decide +kernel
    exact fun i hi _ _ ha hm => absurd hm (this i hi ha)
  · have : ∀ i < 2, ∀ j < 2, i ≠ j → (gOp.out i).same (gOp.out j) = true → Operator.isBasisMode (gOp.out i).mode = true := by
      decide +kernel
    exact this
  · have : ∀ k < 2, ∀ j < k, ∀ i < j, (gOp.out j).mode = .none → (gOp.out i).same (gOp.out k) = false := by decide +kernel
    exact fun i j k hij hjk hk => this k hk j hjk i hij

/-- Vectors: 0 the input, 1 the output, 2 the quadrature data. -/
def gStart : GSt Int where
  done := false
  tabs := ⟨fun _ => none, fun _ => false, fun _ => none, fun _ => false, fun _ => false, [], [], 0⟩
  states := fun _ => 0
  ev := fun _ => ⟨false, 0, false, ⟨0, fun _ => 7⟩⟩
  qIn := fun _ => ⟨false, none, ⟨0, fun _ => 7⟩⟩
  qOut := fun _ => ⟨false, none, ⟨0, fun _ => 7⟩⟩
  vecs := fun v => match v with
    | 0 => ⟨2, true, Buf.ofList [1, 2, 4]⟩
    | 1 => ⟨2, true, Buf.ofList [100, 200, 300]⟩
    | 2 => ⟨2, true, Buf.ofList [1, 10]⟩
    | 3 => ⟨2, true, Buf.ofList [1000, 2000, 3000]⟩
    | _ => ⟨0, false, ⟨0, fun _ => 0⟩⟩
  tick := 0

/-- A work vector. -/
def gWork : Work Int := ⟨true, 1, fun _ => 9⟩

/-- Contents of a vector after a call. -/
def gResult (x : Out (GSt Int) Unit) (v : Nat) : Option (List Int) :=
  match x with
  | .ok s _ => some (s.vecs v).buf.toList
  | _ => none

/-- The error of a call. -/
def gErr (x : Out (GSt Int) Unit) : Option Err :=
  match x with
  | .err _ e => some e
  | _ => none

/-- The action: 3 * 1 * 3 and 3 * 10 * 6 from the values, 1 * 1 and 10 * 2 from the gradients. -/
example : gResult (applyAddG gOp (execDev twoDevice) gWork (.vec 0) (.vec 1) gStart) 1 =
    some [108, 200 + 9 + 180 + 1 - 20, 300 + 180 + 20] := by decide +kernel

/-- The same stored. -/
example : gResult (applyG gOp (execDev twoDevice) gWork (.vec 0) (.vec 1) gStart) 1 = some [8, 170, 200] := by
  decide +kernel

/-- Again, with the quadrature data changed in between. -/
noncomputable def gTwice : M (GSt Int) Unit := do
  applyG gOp (execDev twoDevice) gWork (.vec 0) (.vec 1)
  modG (fun s => { s with vecs := Function.update s.vecs 2 ⟨4, true, Buf.ofList [0, 1]⟩ })
  applyG gOp (execDev twoDevice) gWork (.vec 0) (.vec 3)

example : gResult (gTwice gStart) 1 = some [8, 170, 200] ∧ gResult (gTwice gStart) 3 = some [0, 16, 20] := by
  decide +kernel

theorem gStart_reach (op : GOper Int) (D : Dev Int) : GReach op D gStart :=
  .start _ rfl fun i => by
    match i with
    | 0 => intro h; cases h
    | 1 => intro h; cases h
    | 2 => intro h; cases h
    | 3 => intro h; cases h
    | n + 4 => intro _; rfl

/-- The vectors are ready. -/
example : InReadyG gOp (.vec 0) gStart ∧ OutReadyG gOp (.vec 1) gStart ∧ OutLongG gOp (.vec 1) gStart ∧
    Operator.NoAlias gOp.host (.vec 0) (.vec 1) ∧ 2 ≤ cudaDevice.maxThreads := by
  have ho : OutReadyG gOp (.vec 1) gStart := by
    intro o ho
    have ho' : o < 2 := ho
    rcases (by omega : o = 0 ∨ o = 1) with rfl | rfl
    · exact ⟨0, 1, rfl, rfl, rfl, by decide⟩
    · exact ⟨0, 1, rfl, rfl, rfl, by decide⟩
  refine ⟨?_, ho, fun o h => ?_, ?_, by decide⟩
  · intro i hi hw
    have hi' : i < 4 := hi
    rcases (by omega : i = 0 ∨ i = 1 ∨ i = 2 ∨ i = 3) with rfl | rfl | rfl | rfl
    · exact ⟨1, 2, rfl, rfl, rfl, by decide⟩
    · exact absurd rfl hw
    · exact ⟨0, 0, rfl, rfl, rfl, by decide⟩
    · exact ⟨0, 0, rfl, rfl, rfl, by decide⟩
  · obtain ⟨r, v, h1, h2, -, h3⟩ := ho o h
    exact ⟨r, v, h1, h2, h3⟩
  · have : ∀ i < 4, ∀ o < 2, (gOp.inp i).mode ≠ .weight → (gOp.inp i).vec.ptr (.vec 0) ≠ (gOp.out o).vec.ptr (.vec 1) := by
      decide +kernel
    exact this

/-! ## Operators that need the conditions on sharing -/

/-- An operator with one active input, gathered nodes, and the given outputs; the value goes to every output. -/
def outOp (outs : List (GField Int)) : GOper Int where
  ne := 2
  Q := 1
  nin := 1
  nout := outs.length
  inp := fun _ => ⟨.active, some 0, some gBasis, .interp, 1⟩
  out := fun o => outs.getD o ⟨.active, some 0, some gBasis, .interp, 1⟩
  rstrs := fun r => if r = 0 then gNodes else gData
  g := fun x _ _ => x 0 0

/-- An operator with the given inputs, whose sum is the output. -/
def inOp (ins : List (GField Int)) : GOper Int where
  ne := 2
  Q := 1
  nin := ins.length
  nout := 1
  inp := fun i => ins.getD i ⟨.active, some 0, some gBasis, .interp, 1⟩
  out := fun _ => ⟨.active, some 0, some gBasis, .interp, 1⟩
  rstrs := fun r => if r = 0 then gNodes else gData
  g := fun x _ _ => x 0 0 + x 1 0

/-- Fields: interpolated nodal values; data without basis; data with basis. -/
def fNodes (v : FVec) : GField Int := ⟨v, some 0, some gBasis, .interp, 1⟩
/-- Data at the quadrature points. -/
def fData (v : FVec) : GField Int := ⟨v, some 1, none, .none, 1⟩
/-- The same with a basis. -/
def fOne (v : FVec) : GField Int := ⟨v, some 1, some gOne, .interp, 1⟩

/-- A field among these. -/
def Among (a : GField Int) : Prop := ∃ v, v ≠ .none ∧ (a = fNodes v ∨ a = fData v ∨ a = fOne v)

/-- Matrix of a field among these. -/
def fMat (a : GField Int) : Buf Int := if a.rid = some 0 then Buf.ofList [1, 1] else Buf.ofList [2]

theorem among_in {dv : Device} (hd : 2 ≤ dv.maxThreads) {op : GOper Int} {mi mo : Nat → Buf Int} {i : Nat} (hne : op.ne = 2)
    (hQ : op.Q = 1) (h0 : op.rstrs 0 = gNodes) (h1 : op.rstrs 1 = gData) (ha : Among (op.inp i))
    (hm : mi i = fMat (op.inp i)) : GInOK dv op (gMeaning mi mo) i := by
  obtain ⟨v, hv, e | e | e⟩ := ha <;> unfold GInOK <;> rw [e] at hm ⊢
  · obtain ⟨⟨b1, -, -⟩, -⟩ := devBasis_ok (dv := dv) gBasis_made hd (le_trans (by decide) hd)
    exact ⟨hv, (gNodes_has h0 hne rfl).1, gBasis, gFits hQ rfl rfl (.inl rfl) rfl, by
      show MulByG dv gBasis .interp (mi i); rw [hm]; exact b1⟩
  · exact ⟨hv, (gData_has h1 hne rfl).1, gDir hQ rfl rfl⟩
  · obtain ⟨⟨b1, -, -⟩, -⟩ := devBasis_ok (dv := dv) gOne_made (le_trans (by decide) hd) (le_trans (by decide) hd)
    exact ⟨hv, (gData_has h1 hne rfl).1, gOne, gOne_fits hQ rfl rfl rfl rfl, by
      show MulByG dv gOne .interp (mi i); rw [hm]; exact b1⟩

theorem among_out {dv : Device} (hd : 2 ≤ dv.maxThreads) {op : GOper Int} {mi mo : Nat → Buf Int} {o : Nat} (hne : op.ne = 2)
    (hQ : op.Q = 1) (h0 : op.rstrs 0 = gNodes) (h1 : op.rstrs 1 = gData) (ha : Among (op.out o))
    (hm : mo o = fMat (op.out o)) : GOutOK dv op (gMeaning mi mo) o := by
  obtain ⟨v, hv, e | e | e⟩ := ha <;> unfold GOutOK <;> rw [e] at hm ⊢
  · obtain ⟨⟨-, b2, b3⟩, -⟩ := devBasis_ok (dv := dv) gBasis_made hd (le_trans (by decide) hd)
    exact ⟨(gNodes_has h0 hne rfl).1, (gNodes_has h0 hne rfl).2, gBasis, gFits hQ rfl rfl (.inl rfl) rfl,
      by show MulByTG dv gBasis .interp (mo o); rw [hm]; exact b2,
      by show AddByTG dv gBasis .interp (mo o); rw [hm]; exact b3⟩
  · exact ⟨(gData_has h1 hne rfl).1, (gData_has h1 hne rfl).2, gDir hQ rfl rfl⟩
  · obtain ⟨⟨-, b2, b3⟩, -⟩ := devBasis_ok (dv := dv) gOne_made (le_trans (by decide) hd) (le_trans (by decide) hd)
    exact ⟨(gData_has h1 hne rfl).1, (gData_has h1 hne rfl).2, gOne, gOne_fits hQ rfl rfl rfl rfl,
      by show MulByTG dv gOne .interp (mo o); rw [hm]; exact b2,
      by show AddByTG dv gOne .interp (mo o); rw [hm]; exact b3⟩

/-- Meaning of these operators. -/
def fM (op : GOper Int) : Meaning Int := gMeaning (fun i => fMat (op.inp i)) (fun o => fMat (op.out o))

theorem outOp_fields {dv : Device} (hd : 2 ≤ dv.maxThreads) {outs : List (GField Int)} (h : ∀ a ∈ outs, Among a) :
    FieldsOK dv (outOp outs) (fM (outOp outs)) := by
  refine ⟨Nat.one_pos, fun i hi => ?_, fun o ho => ?_⟩
  · exact among_in hd rfl rfl rfl rfl ⟨.active, by decide, .inl rfl⟩ rfl
  · refine among_out hd rfl rfl rfl rfl (h _ ?_) rfl
    have ho' : o < outs.length := ho
    show outs.getD o _ ∈ outs
    rw [List.getD_eq_getElem _ _ ho']
    exact List.getElem_mem ho'

theorem inOp_fields {dv : Device} (hd : 2 ≤ dv.maxThreads) {ins : List (GField Int)} (h : ∀ a ∈ ins, Among a) :
    FieldsOK dv (inOp ins) (fM (inOp ins)) := by
  refine ⟨Nat.one_pos, fun i hi => ?_, fun o ho => ?_⟩
  · refine among_in hd rfl rfl rfl rfl (h _ ?_) rfl
    have hi' : i < ins.length := hi
    show ins.getD i _ ∈ ins
    rw [List.getD_eq_getElem _ _ hi']
    exact List.getElem_mem hi'
  · exact among_out hd rfl rfl rfl rfl ⟨.active, by decide, .inl rfl⟩ rfl

/-- Shorthand for the application of these operators. -/
noncomputable def gRun (op : GOper Int) : Out (GSt Int) Unit := applyAddG op (execDev twoDevice) gWork (.vec 0) (.vec 1) gStart

theorem among_nodes {v : FVec} (h : v ≠ .none) : Among (fNodes v) := ⟨v, h, .inl rfl⟩
theorem among_data {v : FVec} (h : v ≠ .none) : Among (fData v) := ⟨v, h, .inr (.inl rfl)⟩
theorem among_one {v : FVec} (h : v ≠ .none) : Among (fOne v) := ⟨v, h, .inr (.inr rfl)⟩

/-- An output without basis between two outputs that share vector and restriction: `CeedOperatorApplyAdd` fails, as the
vector whose array is given back is found by position and not by field (`ceed-cuda-ref-operator.c` 587). The fields are
set correctly. -/
theorem C66_between_witness :
    let op := outOp [fNodes .active, fData (.vec 3), fNodes .active]
    FieldsOK twoDevice op (fM op) ∧ gErr (gRun op) = some .backend := by
  refine ⟨outOp_fields (by decide) ?_, by decide +kernel⟩
  intro a ha
  simp only [List.mem_cons, List.not_mem_nil, or_false] at ha
  rcases ha with rfl | rfl | rfl
  · exact among_nodes (by decide)
  · exact among_data (by decide)
  · exact among_nodes (by decide)

/-- With the same outputs in another order it succeeds. -/
example : gResult (gRun (outOp [fNodes .active, fNodes .active, fData (.vec 3)])) 1 = some [106, 218, 312] ∧
    gResult (gRun (outOp [fNodes .active, fNodes .active, fData (.vec 3)])) 3 = some [1003, 2006, 3000] := by decide +kernel

/-- Two active outputs with the same restriction, the first without basis, the second with basis: the application
succeeds, but the values of the first are lost, and what the work vector still holds, the gathered input, is added
instead (here `1` and `2`). The action adds `3 + 2 * 3` and `6 + 2 * 6`. -/
theorem C66_lost_output_witness :
    let op := outOp [fData .active, fOne .active]
    FieldsOK twoDevice op (fM op) ∧
      (List.range 2).map ((fM op).action op.host gStart.L (.vec 0) (.vec 1) 1) = [9, 18] ∧
      gResult (gRun op) 1 = some [100 + 2 * 3 + 1, 200 + 2 * 6 + 2, 300] := by
  refine ⟨outOp_fields (by decide) ?_, by decide +kernel, by decide +kernel⟩
  intro a ha
  simp only [List.mem_cons, List.not_mem_nil, or_false] at ha
  rcases ha with rfl | rfl
  · exact among_data (by decide)
  · exact among_one (by decide)

/-- In the other order, and for two outputs without basis, it fails. -/
theorem C66_shared_output_witness :
    (let op := outOp [fOne .active, fData .active]; FieldsOK twoDevice op (fM op) ∧ gErr (gRun op) = some .access) ∧
    let op := outOp [fData .active, fData .active]; FieldsOK twoDevice op (fM op) ∧ gErr (gRun op) = some .access := by
  refine ⟨⟨outOp_fields (by decide) ?_, by decide +kernel⟩, outOp_fields (by decide) ?_, by decide +kernel⟩
  · intro a ha
    simp only [List.mem_cons, List.not_mem_nil, or_false] at ha
    rcases ha with rfl | rfl
    · exact among_one (by decide)
    · exact among_data (by decide)
  · intro a ha
    simp only [List.mem_cons, List.not_mem_nil, or_false] at ha
    rcases ha with rfl | rfl <;> exact among_data (by decide)

/-- Two active inputs with different restrictions, the first without basis: the work vector is still read when the second
is to be gathered into it. -/
theorem C66_work_vector_witness :
    let op := inOp [fData .active, fNodes .active]
    FieldsOK twoDevice op (fM op) ∧ gErr (gRun op) = some .access := by
  refine ⟨inOp_fields (by decide) ?_, by decide +kernel⟩
  intro a ha
  simp only [List.mem_cons, List.not_mem_nil, or_false] at ha
  rcases ha with rfl | rfl
  · exact among_data (by decide)
  · exact among_nodes (by decide)

/-- In the other order it succeeds. -/
example : gResult (gRun (inOp [fNodes .active, fData .active])) 1 = some [104, 212, 308] := by decide +kernel

/-- A passive input without basis and with backend strides, followed by an input with basis of the same vector and
restriction: no E-vector is filled for the second. -/
theorem C66_direct_input_witness :
    let op := inOp [fData (.vec 2), fOne (.vec 2)]
    FieldsOK twoDevice op (fM op) ∧ gErr (gRun op) = some .backend := by
  refine ⟨inOp_fields (by decide) ?_, by decide +kernel⟩
  intro a ha
  simp only [List.mem_cons, List.not_mem_nil, or_false] at ha
  rcases ha with rfl | rfl
  · exact among_data (by decide)
  · exact among_one (by decide)

/-- In the other order it succeeds. -/
example : gResult (gRun (inOp [fOne (.vec 2), fData (.vec 2)])) 1 = some [103, 233, 330] := by decide +kernel

/-- The vectors of all these applications are ready. -/
example : InReadyG (outOp [fNodes .active, fData (.vec 3), fNodes .active]) (.vec 0) gStart ∧
    OutReadyG (outOp [fNodes .active, fData (.vec 3), fNodes .active]) (.vec 1) gStart := by
  refine ⟨fun i hi hw => ⟨0, 0, rfl, rfl, rfl, by decide⟩, fun o ho => ?_⟩
  have ho' : o < 3 := ho
  rcases (by omega : o = 0 ∨ o = 1 ∨ o = 2) with rfl | rfl | rfl
  · exact ⟨0, 1, rfl, rfl, rfl, by decide⟩
  · exact ⟨1, 3, rfl, rfl, rfl, by decide⟩
  · exact ⟨0, 1, rfl, rfl, rfl, by decide⟩

/-- The hypotheses of the comparison with the reference backend of the host are met. -/
example : GOK twoDevice (outOp [fNodes .active]) (fM (outOp [fNodes .active])) ∧
    Operator.OpOK (outOp [fNodes .active]).host (fM (outOp [fNodes .active])) := by
  obtain ⟨h1, h2, h3⟩ := outOp_fields (dv := twoDevice) (by decide) (outs := [fNodes .active]) (by
    intro a ha
    simp only [List.mem_cons, List.not_mem_nil, or_false] at ha
    subst ha
    exact among_nodes (by decide))
  obtain ⟨⟨b1, b2, b3⟩, -⟩ := Operator.basis_ok Operator.exBasis_made
  have hR : ∀ a : Operator.OField Int, a.rid = some 0 →
      Operator.HasRstr (outOp [fNodes .active]).host (fM (outOp [fNodes .active])) a := fun a ha =>
    ⟨0, 3, ha, Restriction.Made.offset (r := exNodes) (checked := true) rfl trivial (.inl rfl), rfl⟩
  have hF : Operator.Fits (outOp [fNodes .active]).host (fM (outOp [fNodes .active])) (fNodes .active).host exBasis :=
    ⟨rfl, rfl, rfl, rfl, rfl⟩
  have l1 : ∀ {i : Nat}, i < (outOp [fNodes .active]).nin → i = 0 := fun h => by
    have : (outOp [fNodes .active]).nin = 1 := rfl
    omega
  have l2 : ∀ {i : Nat}, i < (outOp [fNodes .active]).nout → i = 0 := fun h => by
    have : (outOp [fNodes .active]).nout = 1 := rfl
    omega
  refine ⟨⟨h1, h2, h3, fun i j hij hj => ?_, fun i hi j hj _ _ _ => rfl, fun i hi j hj hij => ?_, fun i j k hij hjk hk => ?_⟩,
    fun i hi => ?_, fun o ho => ?_, fun i j hij hj => ?_, fun i j hij hj => ?_, fun h => by cases h⟩
  · have := l1 hj; omega
  · have := l2 hi
    have := l2 hj
    omega
  · have := l2 hk; omega
  · exact ⟨hR _ rfl, exBasis, hF, b1⟩
  · obtain rfl := l2 ho
    exact ⟨hR _ rfl, exBasis, hF, b2, fun _ => b3⟩
  · have := l1 hj; omega
  · have := l2 hj; omega

end Verif.Gpu
