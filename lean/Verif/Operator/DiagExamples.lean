import Verif.Operator.DiagProps

/-!
# C44: examples, and operators whose diagonal is assembled wrongly
-/

set_option linter.unusedSectionVars false

namespace Verif
namespace Operator

open Finset
open Restriction (RData Made Rstr)
open Basis (Bas EMode)

/-- Contents of a vector after a call. -/
def vecAfter (x : Out (ASt Int) Unit) (v : Nat) : Option (List Int) :=
  match x with
  | .ok s _ => some (s.st.vecs v).buf.toList
  | _ => none
def asmUb (x : Out (ASt Int) Unit) : Bool :=
  match x with
  | .ub => true
  | _ => false

/-- Entry `(t, k)` of the matrix of an operator on vectors of `n` entries: apply it to a unit vector. -/
def entryOf (op : Oper Int) (n : Nat) (s : St Int) (t k : Nat) : Option Int :=
  let x : LVec Int := ⟨2, true, ⟨n, fun j => if j = k then 1 else 0⟩⟩
  let y : LVec Int := ⟨2, true, ⟨n, fun _ => 0⟩⟩
  match apply op (fun _ _ => 0) (.vec 0) (.vec 1) { s with vecs := Function.update (Function.update s.vecs 0 x) 1 y } with
  | .ok s' _ => some ((s'.vecs 1).buf.val t)
  | _ => none
def diagOf (op : Oper Int) (n : Nat) (s : St Int) : List (Option Int) := (List.range n).map (fun t => entryOf op n s t t)

/-! ## The example -/

/-- One basis object. -/
def exPrec : Prec Int := ⟨fun i => if i = 2 ∨ i = 3 then some 0 else none, fun _ => some 0, fun _ => exBasis, 3, 3⟩

theorem exNodes_inj : ∀ e < 2, ∀ m < 2, ∀ m' < 2, (exMeaning.D 0).lidx e m 0 = (exMeaning.D 0).lidx e m' 0 → m = m' := by
  decide

theorem exPrec_ok : DiagOK exOp exPrec exMeaning := by
  have hb1 : ∀ x, basisPtr exPrec (some 0) .interp x = .ok ⟨2, (Buf.ofList [1, 1]).val⟩ := fun x => rfl
  have hb2 : ∀ x, basisPtr exPrec (some 0) .grad x = .ok ⟨2, (Buf.ofList [-1, 1]).val⟩ := fun x => rfl
  refine ⟨?_, ?_, ?_, ?_, rfl, ?_, ?_, ?_, ?_⟩
  · intro i hi ha
    have hi' : i < 4 := hi
    rcases (by omega : i = 0 ∨ i = 1 ∨ i = 2 ∨ i = 3) with rfl | rfl | rfl | rfl
    · cases ha
    · cases ha
    · exact ⟨by decide, 0, rfl, rfl, _, hb1, rfl, by decide⟩
    · exact ⟨by decide, 0, rfl, rfl, _, hb2, rfl, by decide⟩
  · intro o ho _
    have ho' : o < 2 := ho
    rcases (by omega : o = 0 ∨ o = 1) with rfl | rfl
    · exact ⟨by decide, 0, rfl, rfl, _, hb1, rfl, by decide⟩
    · exact ⟨by decide, 0, rfl, rfl, _, hb2, rfl, by decide⟩
  · intro i hi ha r hr
    have hi' : i < 4 := hi
    rcases (by omega : i = 0 ∨ i = 1 ∨ i = 2 ∨ i = 3) with rfl | rfl | rfl | rfl
    · cases ha
    · cases ha
    · cases hr; rfl
    · cases hr; rfl
  · intro o ho _ r hr
    have ho' : o < 2 := ho
    rcases (by omega : o = 0 ∨ o = 1) with rfl | rfl <;> (cases hr; rfl)
  · intro i j _ _ ai aj _ hm
    refine Or.inl ?_
    unfold Prec.qComp
    match exPrec.inB i with
    | none => exact le_refl 1
    | some b => show exBasis.qComp _ ≤ 1; cases (exOp.inp i).mode <;> decide
  · intro i j _ _ ai aj _ hm
    refine Or.inl ?_
    show exBasis.qComp _ ≤ 1
    cases (exOp.out i).mode <;> decide
  · intro i hi o ho ha _ _
    have hi' : i < 4 := hi
    have ho' : o < 2 := ho
    rcases (by omega : i = 0 ∨ i = 1 ∨ i = 2 ∨ i = 3) with rfl | rfl | rfl | rfl
    · cases ha
    · cases ha
    · rcases (by omega : o = 0 ∨ o = 1) with rfl | rfl <;>
        exact ⟨rfl, fun r hr => by cases hr; decide, fun e he m hm m' hm' k hk k' hk' hl => by
          have hk0 : k < 1 := hk
          have hk0' : k' < 1 := hk'
          rcases (by omega : k = 0) with rfl
          rcases (by omega : k' = 0) with rfl
          exact ⟨exNodes_inj e he m hm m' hm' hl, rfl⟩⟩
    · rcases (by omega : o = 0 ∨ o = 1) with rfl | rfl <;>
        exact ⟨rfl, fun r hr => by cases hr; decide, fun e he m hm m' hm' k hk k' hk' hl => by
          have hk0 : k < 1 := hk
          have hk0' : k' < 1 := hk'
          rcases (by omega : k = 0) with rfl
          rcases (by omega : k' = 0) with rfl
          exact ⟨exNodes_inj e he m hm m' hm' hl, rfl⟩⟩
  · intro i hi o ho ha _ hne
    have hi' : i < 4 := hi
    rcases (by omega : i = 0 ∨ i = 1 ∨ i = 2 ∨ i = 3) with rfl | rfl | rfl | rfl
    · cases ha
    · cases ha
    · exact absurd rfl hne
    · exact absurd rfl hne

/-- The hypotheses of `C44_add_partial`, `C44_diagonal_partial` and `C44_succeeds` are met, and a matrix exists. -/
example : OpOK exOp exMeaning ∧ DiagOK exOp exPrec exMeaning ∧ LinearQF exOp ∧ Unassembled exOp exA ∧ NoApply exOp exA exA ∧
    exA.built = none ∧ (∀ i < exOp.nin, (exOp.inp i).vec ≠ .vec 1) ∧ AReach exOp False exA ∧
    ∃ A, IsMatrix exOp exMeaning exA.st.L exPrec.inSize.toNat A :=
  ⟨exOp_ok, exPrec_ok, exOp_linear, exA_unassembled, .refl _, rfl, by decide, .start _ rfl (fun i => by
      match i with
      | 0 => intro h; cases h
      | 1 => intro h; cases h
      | 2 => intro h; cases h
      | n + 3 => intro _; rfl) rfl rfl rfl,
    C44_matrix exOp_ok exOp_linear _ exPrec_ok.inSize⟩

/-- Element matrices `[[4, 2], [2, 4]]` and ten times that. -/
example : vecAfter (assembleDiagonal exOp exPrec false true (fun _ _ => 0) 1 exA) 1 = some [4, 44, 40] ∧
    vecAfter (addDiagonal exOp exPrec false true (fun _ _ => 0) 1 exA) 1 = some [104, 244, 340] ∧
    diagOf exOp 3 exStart = [some 4, some 44, some 40] := by decide +kernel

/-! ## Two components -/

def blBasis : Bas Int := { exBasis with nc := 2 }

theorem blBasis_made : Basis.NonTensorBasis blBasis .h1 (Buf.ofList [1, 1]) (Buf.ofList [-1, 1]) (Buf.ofList [3]) :=
  ⟨1, 2, 2, 1, rfl⟩

/-- Two elements with nodes `0 1` and `1 2`, two adjacent components. -/
def blNodes : Rstr :=
  { exNodes with numComp := 2, lSize := 6, eSize := 8, offsets := ⟨4, (Buf.ofList [0, 2, 2, 4]).val⟩ }

/-- A coupling `[[2, 3], [5, 7]]` of the components. -/
def blOp : Oper Int where
  ne := 2
  Q := 1
  nin := 1
  nout := 1
  inp := fun _ => ⟨.active, some 0, some blBasis, .interp, 2⟩
  out := fun _ => ⟨.active, some 0, some blBasis, .interp, 2⟩
  rstrs := fun _ => blNodes
  isId := false
  f := fun x _ q => if q = 0 then 2 * x 0 0 + 3 * x 0 1 else 5 * x 0 0 + 7 * x 0 1

def blMeaning : Meaning Int where
  D := fun _ => Restriction.offsetData 2 2 2 1 (Buf.ofList [0, 2, 2, 4]) .none .plain
  mIn := fun _ => Buf.ofList [1, 1]
  mOut := fun _ => Buf.ofList [1, 1]
  w := fun _ => (Buf.ofList [3]).val

def blPrec : Prec Int := ⟨fun _ => some 0, fun _ => some 0, fun _ => blBasis, 6, 6⟩

theorem blOp_ok : OpOK blOp blMeaning := by
  obtain ⟨⟨b1, b2, b3⟩, _, _⟩ := basis_ok blBasis_made
  have hr : HasRstr blOp blMeaning (blOp.inp 0) :=
    ⟨0, 6, rfl, Made.offset (checked := true) rfl trivial (Or.inl rfl), rfl⟩
  have hf : Fits blOp blMeaning (blOp.inp 0) blBasis := ⟨rfl, rfl, rfl, rfl, rfl⟩
  refine ⟨?_, ?_, ?_, ?_, ?_⟩
  · intro i hi
    exact ⟨hr, blBasis, hf, b1⟩
  · intro o ho
    exact ⟨hr, blBasis, hf, b2, fun _ => b3⟩
  · intro i j hij hj
    have hj' : j < 1 := hj
    omega
  · intro j o hjo ho
    have ho' : o < 1 := ho
    omega
  · intro h; cases h

theorem blOp_linear : LinearQF blOp := by
  intro p o ho hao d hd q hq
  have hd' : d < 2 := hd
  have hq' : q < 1 := hq
  have hq0 : q = 0 := by omega
  subst hq0
  refine ⟨fun _ c => if d = 0 then (if c = 0 then 2 else 3) else (if c = 0 then 5 else 7), ?_⟩
  intro u hu _
  show (if d * 1 + 0 = 0 then 2 * u 0 0 + 3 * u 0 1 else 5 * u 0 0 + 7 * u 0 1) =
    ∑ i ∈ range 1, if FVec.active = FVec.active then ∑ c ∈ range 2, _ * u i (c * 1 + 0) else 0
  rcases (by omega : d = 0 ∨ d = 1) with rfl | rfl <;> simp [sum_range_succ]

theorem blPrec_ok : DiagOK blOp blPrec blMeaning := by
  have hB : HasBasis blOp blPrec blMeaning (blOp.inp 0) (some 0) (Buf.ofList [1, 1]) :=
    ⟨by decide, 0, rfl, rfl, ⟨2, (Buf.ofList [1, 1]).val⟩, fun x => rfl, rfl, by decide⟩
  have hn : ∀ e < 2, ∀ m < 2, ∀ k < 2, (blMeaning.D 0).lidx e m k = (e + m) * 2 + k := by decide
  refine ⟨fun i _ _ => hB, fun o _ _ => hB, fun i _ _ r hr => rfl, fun i _ _ r hr => rfl, rfl, ?_, ?_, ?_, ?_⟩
  · intro i j hij hj
    have hj' : j < 1 := hj
    omega
  · intro i j hij hj
    have hj' : j < 1 := hj
    omega
  · intro i _ o _ _ _ _
    refine ⟨rfl, fun r _ => (by decide : blNodes.rtype ≠ .curlOriented), fun e he m hm m' hm' k hk k' hk' hl => ?_⟩
    have a1 := hn e he m hm k hk
    have a2 := hn e he m' hm' k' hk'
    have hk2 : k < 2 := hk
    have hk2' : k' < 2 := hk'
    have hl2 : (blMeaning.D 0).lidx e m k = (blMeaning.D 0).lidx e m' k' := hl
    omega
  · intro i _ o _ _ _ hne
    exact absurd rfl hne

theorem blBlock_ok : BlockOK blOp blPrec blMeaning 0 0 (fun e m => e + m) := by
  have hn : ∀ e < 2, ∀ m < 2, ∀ k < 2, (blMeaning.D 0).lidx e m k = (e + m) * 2 + k := by decide
  exact ⟨fun i _ _ => ⟨rfl, rfl⟩, fun o _ _ => ⟨rfl, rfl⟩, ⟨0, by decide, rfl⟩, ⟨0, by decide, rfl⟩, Or.inl rfl,
    fun e he m hm k hk => Or.inl ⟨rfl, hn e he m hm k hk⟩⟩

def blStart : St Int :=
  ⟨exImpl, fun v => match v with
    | 0 => ⟨2, true, Buf.ofList [1, 2, 4, 1, 1, 1]⟩
    | 1 => ⟨2, true, ⟨12, fun _ => 100⟩⟩
    | _ => ⟨0, false, ⟨0, fun _ => 0⟩⟩, fun _ => none⟩
def blA : ASt Int := ⟨blStart, 0, 0, none, false, false, ⟨0, fun _ => 0⟩, 0⟩

theorem blStart_reach (fails : Prop) : Reach blOp fails blStart :=
  Reach.start _ rfl (fun i => by
    match i with
    | 0 => intro h; cases h
    | 1 => intro h; cases h
    | n + 2 => intro _; rfl)

theorem blOp_separate : Separate blOp := fun _ _ _ _ _ _ _ hm =>
  absurd (show Basis.EMode.interp = Basis.EMode.none from hm) (by decide)

/-- The hypotheses of the theorems on point blocks are met. -/
example : OpOK blOp blMeaning ∧ DiagOK blOp blPrec blMeaning ∧ LinearQF blOp ∧
    BlockOK blOp blPrec blMeaning 0 0 (fun e m => e + m) ∧ Unassembled blOp blA ∧ AReach blOp False blA ∧
    ∃ A, IsMatrix blOp blMeaning blA.st.L blPrec.inSize.toNat A :=
  ⟨blOp_ok, blPrec_ok, blOp_linear, blBlock_ok, ⟨blStart_reach True, rfl, rfl, rfl, blOp_separate⟩,
    .start _ rfl (fun i => by
      match i with
      | 0 => intro h; cases h
      | 1 => intro h; cases h
      | n + 2 => intro _; rfl) rfl rfl rfl, C44_matrix blOp_ok blOp_linear _ blPrec_ok.inSize⟩

/-- Blocks `[[2, 3], [5, 7]]`, twice that at the node in the middle. -/
example : vecAfter (assembleDiagonal blOp blPrec true true (fun _ _ => 0) 1 blA) 1 =
      some [2, 3, 5, 7, 4, 6, 10, 14, 2, 3, 5, 7] ∧
    diagOf blOp 6 blStart = [some 2, some 7, some 4, some 14, some 2, some 7] ∧ entryOf blOp 6 blStart 2 3 = some 6 := by
  decide +kernel

/-! ## Disagreements -/

/-- The example on one element, with another restriction. -/
def withNodes (r : Rstr) : Oper Int := { exOp with ne := 1, rstrs := fun i => if i = 0 then r else exData }
def sized (l : Int) : Prec Int := { exPrec with inSize := l, outSize := l }

/-- A curl oriented restriction with the matrix `[[1, 1], [0, 1]]`. -/
def curlNodes : Rstr :=
  { exNodes with rtype := .curlOriented, numElem := 1, lSize := 2, eSize := 2, numBlock := 1,
                 offsets := ⟨2, (Buf.ofList [0, 1]).val⟩, curlOrients := ⟨6, (Buf.ofList [0, 1, 1, 0, 1, 0]).val⟩ }

/-- C44 fails for curl oriented restrictions: the element diagonal is scattered with the absolute values of the
transformation `T` instead of taking the diagonal of `Tᵀ K T`. (`CeedElemRestrictionCreateUnsignedCopy`, line 286.) The
call succeeds. -/
theorem C44_curl_witness :
    vecAfter (assembleDiagonal (withNodes curlNodes) (sized 2) false true (fun _ _ => 0) 1 exA) 1 = some [4, 8, 0] ∧
    diagOf (withNodes curlNodes) 2 exStart = [some 4, some 12] := by decide +kernel

/-- A periodic mesh of one element: both nodes of the element are the same node of the mesh. -/
def loopNodes : Rstr :=
  { exNodes with numElem := 1, lSize := 1, eSize := 2, numBlock := 1, offsets := ⟨2, (Buf.ofList [0, 0]).val⟩ }

/-- C44 fails if an entry occurs twice in an element: the entries of the element matrix off its diagonal belong to the
diagonal of the operator, but are not added. -/
theorem C44_repeated_witness :
    vecAfter (assembleDiagonal (withNodes loopNodes) (sized 1) false true (fun _ _ => 0) 1 exA) 1 = some [8, 0, 0] ∧
    diagOf (withNodes loopNodes) 1 exStart = [some 12] := by decide +kernel

/-- No elements. -/
def emptyOp : Oper Int :=
  { exOp with ne := 0, rstrs := fun i => if i = 0 then { exNodes with numElem := 0, eSize := 0, numBlock := 0 } else
                { exData with numElem := 0, eSize := 0, numBlock := 0 } }

/-- C44 fails for operators without elements: `CeedOperatorLinearAssembleDiagonal` overwrites the vector, but returns before
setting it to zero (lines 2022-2024; the same in `CeedOperatorLinearAssemblePointBlockDiagonal`). -/
theorem C44_empty_witness :
    vecAfter (assembleDiagonal emptyOp exPrec false true (fun _ _ => 0) 1 exA) 1 = some [100, 200, 300] ∧
    vecAfter (assembleDiagonal emptyOp exPrec true true (fun _ _ => 0) 1 exA) 1 = some [100, 200, 300] ∧
    diagOf emptyOp 3 exStart = [some 0, some 0, some 0] := by decide +kernel

/-- Input and output without basis: multiplication by five at the nodes of the elements. -/
def collOp : Oper Int :=
  { exOp with nin := 1, nout := 1, Q := 2, inp := fun _ => ⟨.active, some 0, none, .none, 1⟩,
              out := fun _ => ⟨.active, some 0, none, .none, 1⟩, f := fun x _ q => 5 * x 0 q }
def noBasis : Prec Int := { exPrec with inB := fun _ => none, outB := fun _ => none }

/-- C44 fails for active fields without basis: `CEED_BASIS_NONE` has zero nodes and zero components (lines 296-299), so
nothing is added. -/
theorem C44_none_witness :
    vecAfter (assembleDiagonal collOp noBasis false true (fun _ _ => 0) 1 exA) 1 = some [0, 0, 0] ∧
    diagOf collOp 3 exStart = [some 5, some 10, some 5] := by decide +kernel

/-- Gradients in two dimensions, given to the QFunction twice. -/
def gradBasis : Bas Int := { exBasis with dim := 2, grad := some ⟨4, (Buf.ofList [-1, 1, 2, 3]).val⟩ }
def gradOp : Oper Int :=
  { exOp with nin := 2, nout := 1, inp := fun _ => ⟨.active, some 0, some gradBasis, .grad, 2⟩,
              out := fun _ => ⟨.active, some 0, some gradBasis, .interp, 1⟩, f := fun x _ _ => x 0 0 + x 1 1 }
def gradPrec : Prec Int := ⟨fun _ => some 0, fun _ => some 0, fun _ => gradBasis, 3, 3⟩

/-- C44 fails if two active inputs in a row evaluate the gradient with the same basis: the components of the second are
taken for further components of the first (lines 337-343), beyond the end of the matrix. -/
theorem C44_adjacent_witness :
    asmUb (assembleDiagonal gradOp gradPrec false true (fun _ _ => 0) 1 exA) = true ∧
    diagOf gradOp 3 exStart = [some 1, some 5, some 4] := by decide +kernel

/-- Gradients through a restriction that swaps the nodes of each element, and values that the QFunction ignores. -/
def swapOp : Oper Int :=
  { exOp with nin := 2, nout := 1,
              inp := fun i => ⟨.active, some i, some exBasis, if i = 0 then .interp else .grad, 1⟩,
              out := fun _ => ⟨.active, some 0, some exBasis, .grad, 1⟩,
              rstrs := fun i => if i = 0 then exNodes else { exNodes with offsets := ⟨4, (Buf.ofList [1, 0, 2, 1]).val⟩ },
              f := fun x _ q => x 1 q }

def onePrec : Prec Int := { gradPrec with bas := fun _ => exBasis }

/-- C44 fails if active inputs with the same basis have different restrictions: that of the first is used for all
(lines 1455-1465). -/
theorem C44_restrictions_witness :
    vecAfter (assembleDiagonal swapOp onePrec false true (fun _ _ => 0) 1 exA) 1 = some [1, 2, 1] ∧
    diagOf swapOp 3 exStart = [some (-1), some (-2), some (-1)] := by decide +kernel

/-- Nodes that are not shared, with a strided restriction. -/
def stridedNodes : Rstr := { exData with elemSize := 2, lSize := 4, eSize := 4, strides := some (1, 1, 2) }
def stridedOp : Oper Int :=
  { collOp with Q := 1, rstrs := fun _ => stridedNodes, inp := fun _ => ⟨.active, some 0, some exBasis, .interp, 1⟩,
                out := fun _ => ⟨.active, some 0, some exBasis, .interp, 1⟩ }
def fourPrec : Prec Int := { onePrec with inSize := 4, outSize := 4 }

/-- A strided restriction: the point block diagonal reads offsets that do not exist (line 1169). -/
theorem C44_strided_witness :
    asmUb (assembleDiagonal stridedOp fourPrec true true (fun _ _ => 0) 1 blA) = true ∧
    diagOf stridedOp 4 blStart = [some 5, some 5, some 5, some 5] := by decide +kernel

/-- Components two apart, in two groups of two nodes: nodes `0` and `5`, with entries `0, 2` and `5, 7`. -/
def groupOp : Oper Int :=
  { blOp with ne := 1, rstrs := fun _ => { blNodes with numElem := 1, compStride := 2, lSize := 8, eSize := 4, numBlock := 1,
                                                        offsets := ⟨2, (Buf.ofList [0, 5]).val⟩ } }

def groupA : ASt Int :=
  { blA with st := { blStart with vecs := Function.update blStart.vecs 1 ⟨2, true, ⟨16, fun _ => 100⟩⟩ } }
def groupPrec : Prec Int := { blPrec with inSize := 8, outSize := 8 }

/-- The point block diagonal fails if there are nodes beyond the first `comp_stride` entries: their blocks are placed after
the end of the vector (lines 1168-1178). Backends that check offsets report an error, others write out of bounds. -/
theorem C44_stride_witness :
    asmUb (assembleDiagonal groupOp groupPrec true false (fun _ _ => 0) 1 groupA) = true ∧
    vecAfter (assembleDiagonal groupOp groupPrec true true (fun _ _ => 0) 1 groupA) 1 = none ∧
    diagOf groupOp 8 blStart = [some 2, some 0, some 7, some 0, some 0, some 2, some 0, some 7] := by decide +kernel

end Operator
end Verif
