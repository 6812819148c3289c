import Verif.Gpu.AsmDiagProps
import Verif.Gpu.AsmExamples

/-!
# C71: examples, and diagonals that are assembled wrongly on a device
-/

set_option linter.unusedSectionVars false

namespace Verif.Gpu
open Finset
open Verif.Operator
open Verif.Restriction (Rstr Made RData)
open Verif.Basis (EMode)

/-! ## The hypotheses are met -/

theorem exOp_alternating : Alternating exPrec exOp.inp exPrec.inB exOp.nin ∧
    Alternating exPrec exOp.out exPrec.outB exOp.nout := by
  constructor
  · intro i j hij hj ai aj _ hm
    have hj' : j < 4 := hj
    rcases (by omega : i = 0 ∨ i = 1 ∨ i = 2) with rfl | rfl | rfl
    · cases ai
    · cases ai
    · have : j = 3 := by omega
      subst this
      cases hm
  · intro i j hij hj _ _ _ hm
    have hj' : j < 2 := hj
    obtain ⟨rfl, rfl⟩ : i = 0 ∧ j = 1 := by omega
    cases hm

/-- Two elements, two active inputs, two outputs. -/
example : ∃ D Ln n A, OpOK exOp exMeaning ∧ FullOK exOp exPrec exMeaning ∧ exPrec.inSize = exPrec.outSize ∧
    Alternating exPrec exOp.inp exPrec.inB exOp.nin ∧ Alternating exPrec exOp.out exPrec.outB exOp.nout ∧
    (∀ i < exOp.nin, (exOp.inp i).vec = .active → exPrec.inB i ≠ none) ∧ LinearQF exOp ∧
    ColumnsDev exOp exMeaning exA.st.L D ∧ diagonalDev ⟨2, 0⟩ false exOp exPrec D = .ok (Ln, 0, n) ∧
    (exOp.rstrs 0).rtype ≠ .curlOriented ∧
    (∀ e < exOp.ne, ∀ m < (exMeaning.D 0).es, ∀ m' < (exMeaning.D 0).es, ∀ k < (exMeaning.D 0).nc,
      ∀ k' < (exMeaning.D 0).nc, (exMeaning.D 0).lidx e m k = (exMeaning.D 0).lidx e m' k' → m = m' ∧ k = k') ∧
    ScatterUnsigned ⟨exNodes, 4, none⟩ (exMeaning.D 0) ∧ exNodes.lSize = 3 ∧
    IsMatrix exOp exMeaning exA.st.L exPrec.inSize.toNat A := by
  obtain ⟨A, hA⟩ := C44_matrix exOp_ok exOp_linear exA.st.L exPrec_ok.inSize
  have hb : ∃ s v, buildOrUpdate exOp (fun _ _ => 0) exA = .ok s v := okO_ok (by decide +kernel)
  obtain ⟨s, H, hH⟩ := hb
  have hc := C43_build_partial exOp_ok exA_unassembled (.refl _) (.inl rfl) hH
  have hbas : ∀ i < exOp.nin, (exOp.inp i).vec = .active → exPrec.inB i ≠ none := by
    intro i hi hai
    have hi' : i < 4 := hi
    rcases (by omega : i = 0 ∨ i = 1 ∨ i = 2 ∨ i = 3) with rfl | rfl | rfl | rfl
    · cases hai
    · cases hai
    · decide
    · decide
  obtain ⟨Ln, hL⟩ := C71_succeeds exOp_ok exPrec_ok.full (r := 0) rfl (a := ⟨some 0, some 0, [(.interp, 0), (.grad, 1)]⟩)
    (b := ⟨some 0, some 0, [(.interp, 0), (.grad, 1)]⟩) rfl rfl exOp_alternating.1 exOp_alternating.2 hbas (dv := ⟨2, 0⟩)
    false (devOf_columns hc).1 (by decide) (by decide)
  refine ⟨devOf exOp H, Ln, _, A, exOp_ok, exPrec_ok.full, rfl, exOp_alternating.1, exOp_alternating.2, hbas, exOp_linear,
    devOf_columns hc, hL, by decide, ?_, ?_, rfl, hA⟩
  · intro e he m hm m' hm' k hk k' hk' hl
    have hk1 : k < 1 := hk
    have hk2 : k' < 1 := hk'
    obtain ⟨rfl, rfl⟩ : k = 0 ∧ k' = 0 := by omega
    exact ⟨exNodes_inj e he m hm m' hm' hl, rfl⟩
  · exact (C71_scatter (R := exNodes) (X := ⟨exNodes, 4, none⟩) (lSize := 3) (mt := .host) (junk := fun _ => 0) rfl rfl
      (by unfold Restriction.OffsetsInRange; decide) (by decide)).1

/-- Point blocks: two components. -/
example : ∃ D Ln n X A, OpOK blOp blMeaning ∧ DiagOK blOp blPrec blMeaning ∧
    BlockOK blOp blPrec blMeaning 0 0 (fun e m => e + m) ∧
    Alternating blPrec blOp.inp blPrec.inB blOp.nin ∧ Alternating blPrec blOp.out blPrec.outB blOp.nout ∧ LinearQF blOp ∧
    ColumnsDev blOp blMeaning blA.st.L D ∧ diagonalDev ⟨2, 0⟩ true blOp blPrec D = .ok (Ln, 0, n) ∧
    ScatterBy X (blockData (blMeaning.D 0) (fun e m => e + m)) ∧ X.base.lSize = 12 ∧
    IsMatrix blOp blMeaning blA.st.L blPrec.inSize.toNat A := by
  obtain ⟨A, hA⟩ := C44_matrix blOp_ok blOp_linear blA.st.L blPrec_ok.inSize
  obtain ⟨H, hH⟩ := exists_columns blOp blMeaning blA.st.L
  have h1 : Alternating blPrec blOp.inp blPrec.inB blOp.nin := fun i j hij hj => absurd hj (by have : blOp.nin = 1 := rfl; omega)
  have h2 : Alternating blPrec blOp.out blPrec.outB blOp.nout := fun i j hij hj =>
    absurd hj (by have : blOp.nout = 1 := rfl; omega)
  obtain ⟨Ln, hL⟩ := C71_succeeds blOp_ok blPrec_ok.full (r := 0) rfl (a := ⟨some 0, some 0, [(.interp, 0)]⟩)
    (b := ⟨some 0, some 0, [(.interp, 0)]⟩) rfl rfl h1 h2 (fun _ _ _ => by simp [blPrec]) (dv := ⟨2, 0⟩)
    true (devOf_columns hH).1 (by decide) (by decide)
  obtain ⟨rp, hrp⟩ : ∃ rp, pointBlock false (blOp.rstrs 0) = .ok rp := okR_ok (by decide +kernel)
  have hns : rp.rtype ≠ .strided := by
    unfold pointBlock at hrp
    obtain ⟨offs, _, hrp⟩ := Res.bind_eq_ok.1 hrp
    have := Restriction.create_fields (ne := 2) (es := 2) (nc := 4) (o := .none) hrp
    rw [this.1]
    decide
  have hX : createCuda false .host (fun _ => 0) rp = .ok ⟨rp, rp.numElem.toNat * rp.elemSize, none⟩ := by
    unfold createCuda
    simp [hns]
  obtain ⟨s1, s2⟩ := C71_block_scatter blOp_ok blBlock_ok hrp hX
  exact ⟨devOf blOp H, Ln, _, _, A, blOp_ok, blPrec_ok, blBlock_ok, h1, h2, blOp_linear, devOf_columns hH, hL, s1, s2, hA⟩

/-! ## Runs -/

/-- The launch. -/
def diagL (x : Res (Launch Int × Nat × Nat)) : Launch Int :=
  launchOf (match x with
    | .ok y => .ok y.1
    | .err c => .err c
    | .ub => .ub)

/-- A schedule of block 0: steps of the threads in the list, as long as they have not ended. -/
def turns (G B : Nat) : List Nat → Cfg Int → Cfg Int
  | [], c => c
  | t :: l, c => match stepT G B c 0 t with
    | some c' => turns G B l c'
    | none => turns G B l c

theorem turns_reach {G B : Nat} {l : List Nat} {c₀ c : Cfg Int} (h : Reach G B c₀ c) : Reach G B c₀ (turns G B l c) := by
  induction l generalizing c with
  | nil => exact h
  | cons t l ih =>
    unfold turns
    split
    · next c' hs => exact ih (.step h (stepT_step hs))
    · exact ih h

/-- Two threads take turns. -/
def inTurn (n : Nat) : List Nat := (List.replicate n [0, 1]).flatten

/-- On some schedule of the two kernels, the vector ends as `l`; it is zero before the call. -/
def Yields (op : Oper Int) (p : Prec Int) (pb : Bool) (D : Buf Int) (X : CRstr) (l : List Int) : Prop :=
  ∃ Ln r n, diagonalDev ⟨2, 0⟩ pb op p D = .ok (Ln, r, n) ∧ ∃ c, Reach Ln.G Ln.B Ln.cfg c ∧ Final Ln.G Ln.B c ∧
    ∃ L', diagScatter pb X ⟨n, c.mem.val .v⟩ ⟨l.length, fun _ => 0⟩ = .ok L' ∧
      ∃ c', Reach L'.G L'.B L'.cfg c' ∧ Final L'.G L'.B c' ∧ (List.range l.length).map (c'.mem.val .v) = l

def finalB (G B : Nat) (c : Cfg Int) : Bool := decide (∀ b < G, ∀ t < B, (c.prog b t).isDone = true)

def yields (op : Oper Int) (p : Prec Int) (pb : Bool) (D : Buf Int) (X : CRstr) (l : List Int) : Bool :=
  match diagonalDev ⟨2, 0⟩ pb op p D with
  | .ok y =>
    let c := turns y.1.G y.1.B (inTurn 40) y.1.cfg
    finalB y.1.G y.1.B c && match diagScatter pb X ⟨y.2.2, c.mem.val .v⟩ ⟨l.length, fun _ => 0⟩ with
    | .ok L' =>
      let c' := turns L'.G L'.B (inTurn 20) L'.cfg
      finalB L'.G L'.B c' && decide ((List.range l.length).map (c'.mem.val .v) = l)
    | _ => false
  | _ => false

theorem yields_run {op : Oper Int} {p : Prec Int} {pb : Bool} {D : Buf Int} {X : CRstr} {l : List Int}
    (h : yields op p pb D X l = true) : Yields op p pb D X l := by
  unfold yields at h
  rcases hd : diagonalDev ⟨2, 0⟩ pb op p D with ⟨Ln, r, n⟩ | c | _
  · rw [hd] at h
    simp only [Bool.and_eq_true] at h
    obtain ⟨h1, h2⟩ := h
    refine ⟨Ln, r, n, hd, _, turns_reach .start, fun b hb t ht => isDone_eq ((of_decide_eq_true h1) b hb t ht), ?_⟩
    rcases hs : diagScatter pb X ⟨n, (turns Ln.G Ln.B (inTurn 40) Ln.cfg).mem.val .v⟩ ⟨l.length, fun _ => 0⟩ with L' | c | _
    · rw [hs] at h2
      simp only [Bool.and_eq_true] at h2
      exact ⟨L', rfl, _, turns_reach .start, fun b hb t ht => isDone_eq ((of_decide_eq_true h2.1) b hb t ht),
        of_decide_eq_true h2.2⟩
    · rw [hs] at h2; cases h2
    · rw [hs] at h2; cases h2
  · rw [hd] at h; cases h
  · rw [hd] at h; cases h

/-- One element with two nodes and one quadrature point, values in, values out. -/
def massOp (r : Rstr) : Oper Int :=
  { cuOp with out := fun _ => ⟨.active, some 0, some exBasis, .interp, 1⟩, rstrs := fun _ => r }
def oneNodes : Rstr := { loopNodes with lSize := 2, offsets := ⟨2, (Buf.ofList [0, 1]).val⟩ }

/-- The diagonal on one schedule. -/
example : Yields (massOp oneNodes) cuPrec false cuD ⟨oneNodes, 2, none⟩ [5, 5] ∧
    diagOf (massOp oneNodes) 2 exStart = [some 5, some 5] :=
  ⟨yields_run (by decide +kernel), by decide +kernel⟩

/-- The point blocks of two components. -/
def pairNodes : Rstr := { oneNodes with numComp := 2, lSize := 4, eSize := 4, offsets := ⟨2, (Buf.ofList [0, 2]).val⟩ }
def pairOp : Oper Int := { blOp with ne := 1, rstrs := fun _ => pairNodes }
def pairBlocks : Rstr := { oneNodes with numComp := 4, lSize := 8, eSize := 8, offsets := ⟨2, (Buf.ofList [0, 4]).val⟩ }

example : Yields pairOp halfPrec true halfD ⟨pairBlocks, 2, none⟩ [2, 3, 5, 7, 2, 3, 5, 7] ∧
    diagOf pairOp 4 blStart = [some 2, some 7, some 2, some 7] :=
  ⟨yields_run (by decide +kernel), by decide +kernel⟩

/-! ## Disagreements -/

/-- C71 fails for curl oriented restrictions as C44 does: the diagonals of the elements are scattered with the absolute
values of the transformation (`ceed-cuda-ref-operator.c` 1397). -/
theorem C71_curl_witness : Yields (massOp curlNodes) cuPrec false cuD ⟨curlNodes, 2, none⟩ [5, 10] ∧
    diagOf (massOp curlNodes) 2 exStart = [some 5, some 20] :=
  ⟨yields_run (by decide +kernel), by decide +kernel⟩

/-- C71 fails if an entry occurs twice in an element, as C44 does. -/
theorem C71_repeated_witness : Yields (massOp loopNodes) { cuPrec with inSize := 1, outSize := 1 } false cuD ⟨loopNodes, 2, none⟩ [10] ∧
    diagOf (massOp loopNodes) 1 exStart = [some 20] :=
  ⟨yields_run (by decide +kernel), by decide +kernel⟩

/-- Two active inputs in a row are values with the same basis. -/
def twiceOp : Oper Int := { massOp oneNodes with nin := 2, f := fun x _ q => 5 * x 0 q + 7 * x 1 q }
def twiceD : Buf Int := ⟨2, (Buf.ofList [5, 7]).val⟩

/-- A thread is about to access an entry that does not exist. -/
def faultB (G B : Nat) (c : Cfg Int) : Bool :=
  decide (0 < G ∧ 0 < B) && match (c.prog 0 0).next with
  | some (a, i, _) => decide (¬ InB c.mem.len a i)
  | none => false

theorem faultB_fault {G B : Nat} {c : Cfg Int} (h : faultB G B c = true) : Fault G B c := by
  unfold faultB at h
  rw [Bool.and_eq_true, decide_eq_true_eq] at h
  obtain ⟨⟨h1, h2⟩, h⟩ := h
  split at h
  · next a i κ hn => exact ⟨0, h1, 0, h2, Or.inr ⟨a, i, κ, hn, of_decide_eq_true h⟩⟩
  · cases h

/-- C71 fails if two active inputs in a row are values with the same basis: the kernel takes the second for the next
component of the first (`cuda-ref-operator-assemble-diagonal.h` 77-78) and reads beyond the end of the matrix. The host
assembles the same operator correctly (the components are only counted when there are several). -/
theorem C71_adjacent_witness : ∃ Ln r n, diagonalDev ⟨2, 0⟩ false twiceOp cuPrec twiceD = .ok (Ln, r, n) ∧
    (∃ c, Reach Ln.G Ln.B Ln.cfg c ∧ Fault Ln.G Ln.B c) ∧
    vecAfter (assembleDiagonal twiceOp cuPrec false true (fun _ _ => 0) 1 exA) 1 = some [12, 12, 0] ∧
    diagOf twiceOp 2 exStart = [some 12, some 12] := by
  have hL : ∃ y, diagonalDev ⟨2, 0⟩ false twiceOp cuPrec twiceD = .ok y := okR_ok (by decide +kernel)
  obtain ⟨⟨Ln, r, n⟩, hL⟩ := hL
  have hf : (match diagonalDev ⟨2, 0⟩ false twiceOp cuPrec twiceD with
      | .ok y => faultB y.1.G y.1.B (turns y.1.G y.1.B (inTurn 40) y.1.cfg)
      | _ => false) = true := by decide +kernel
  rw [hL] at hf
  exact ⟨Ln, r, n, hL, ⟨_, turns_reach .start, faultB_fault hf⟩, by decide +kernel, by decide +kernel⟩

/-- Several bases; elements with two nodes on a device with one thread for each block. -/
example (D : Buf Int) : diagonalDev cudaDevice false exOp
    { exPrec with inB := fun i => if i = 2 then some 0 else some 1 } D = .err .backend := rfl
example (D : Buf Int) : diagonalDev ⟨1, 0⟩ false (massOp oneNodes) cuPrec D = .err .backend := rfl

/-- Different restrictions for input and output. -/
example (D : Buf Int) : diagonalDev cudaDevice false (halfOp true) halfPrec D = .err .backend := rfl

end Verif.Gpu
