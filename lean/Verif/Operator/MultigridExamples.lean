import Verif.Operator.MultigridCoarse
import Mathlib.Algebra.Field.Rat
import Mathlib.Algebra.Order.Ring.Rat

/-!
# C46, C52: a concrete multigrid level
-/

set_option linter.unusedSectionVars false

namespace Verif
namespace Operator

open Finset
open Restriction (Rstr RData Made)
open Basis (Bas EMode)

/-- Fine basis: three nodes, two points. -/
def mgFineB : Bas ℚ :=
  { isTensor := false, isH1 := true, dim := 1, nc := 1, P1 := 0, Q1 := 0, P := 3, Q := 2,
    interp1 := ⟨0, fun _ => 0⟩, grad1 := ⟨0, fun _ => 0⟩, qWeight := ⟨2, (Buf.ofList [1, 1]).val⟩,
    interp := some ⟨6, (Buf.ofList [1, 2, 0, 0, 2, 1]).val⟩, grad := some ⟨6, (Buf.ofList [1, 0, 0, 0, 0, 1]).val⟩,
    div := none, curl := none, colloInterp := false, colloGrad := none }

/-- Coarse basis: two nodes, the same points; its matrix is that of the fine basis after `mgInterp`. -/
def mgCoarseB : Bas ℚ :=
  { isTensor := false, isH1 := true, dim := 1, nc := 1, P1 := 0, Q1 := 0, P := 2, Q := 2,
    interp1 := ⟨0, fun _ => 0⟩, grad1 := ⟨0, fun _ => 0⟩, qWeight := ⟨2, (Buf.ofList [1, 1]).val⟩,
    interp := some ⟨4, (Buf.ofList [2, 1, 1, 2]).val⟩, grad := some ⟨4, (Buf.ofList [1, 0, 0, 1]).val⟩,
    div := none, curl := none, colloInterp := false, colloGrad := none }

/-- Interpolation from two to three nodes: ends and midpoint. -/
def mgInterp : Buf ℚ := Buf.ofList [1, 0, 1/2, 1/2, 0, 1]

/-- The basis from coarse to fine nodes. -/
def mgCtoF : Bas ℚ :=
  { isTensor := false, isH1 := true, dim := 1, nc := 1, P1 := 0, Q1 := 0, P := 2, Q := 3,
    interp1 := ⟨0, fun _ => 0⟩, grad1 := ⟨0, fun _ => 0⟩, qWeight := ⟨3, (Buf.ofList [1, 1, 1]).val⟩,
    interp := some ⟨6, mgInterp.val⟩, grad := some ⟨6, mgInterp.val⟩,
    div := none, curl := none, colloInterp := false, colloGrad := none }

theorem mgCtoF_made : Basis.NonTensorBasis mgCtoF .h1 mgInterp mgInterp (Buf.ofList [1, 1, 1]) := ⟨1, 1, 2, 3, rfl⟩

/-- Offsets of two elements with three nodes, and signs. -/
def mgOff : Buf Int := Buf.ofList [0, 1, 2, 2, 3, 4]
def mgOffC : Buf Int := Buf.ofList [0, 1, 1, 2]

/-- Restrictions: 0 fine, 1 coarse, 2 quadrature data. -/
def mgR0 : Rstr := match Restriction.create true 2 3 1 1 5 mgOff .none with
  | .ok r => r
  | _ => exData
def mgR1 : Rstr := match Restriction.create true 2 2 1 1 3 mgOffC .none with
  | .ok r => r
  | _ => exData
def mgR2 : Rstr := match Restriction.createStrided 2 2 1 4 (1, 2, 2) with
  | .ok r => r
  | _ => exData
def mgRs (r : Nat) : Rstr := if r = 0 then mgR0 else if r = 1 then mgR1 else mgR2

/-- What the restrictions were created from. -/
def mgD (r : Nat) : RData ℚ :=
  if r = 0 then Restriction.offsetData 2 3 1 1 mgOff .none .plain
  else if r = 1 then Restriction.offsetData 2 2 1 1 mgOffC .none .plain else Restriction.stridedData 2 2 1 (1, 2, 2)

theorem mgR0_made : Made .plain (mgRs 0) 1 5 (mgD 0) :=
  Made.offset (checked := true) (o := .none) (offsets := mgOff) rfl trivial (Or.inl rfl)
theorem mgR1_made : Made .plain (mgRs 1) 1 3 (mgD 1) :=
  Made.offset (checked := true) (o := .none) (offsets := mgOffC) rfl trivial (Or.inl rfl)

theorem mgLevelOK : LevelOK mgRs mgD 5 3 0 1 7 mgCtoF mgInterp where
  fine := mgR0_made
  coarse := mgR1_made
  new := ⟨by decide, by decide⟩
  nodes := rfl
  scalar := rfl
  pos := ⟨by decide, by decide⟩
  mul := (basis_ok mgCtoF_made).1.1
  mulT := (basis_ok mgCtoF_made).1.2.1

/-- QFunction: data (passive), values in, values out. -/
def mgQ : QFunction.QFunc :=
  ⟨1, [⟨['d'], 1, .none⟩, ⟨['u'], 1, .interp⟩], [⟨['v'], 1, .interp⟩], false⟩

theorem mgQ_calls : QFunction.Calls (QFunction.QFunc.create 1) mgQ :=
  .ok (c := .addOutput ['v'] 1 .interp) (.ok (c := .addInput ['u'] 1 .interp) (.ok (c := .addInput ['d'] 1 .none) .refl rfl)
      rfl) rfl

/-- The calls that set the fields of the fine operator. -/
def mgBuild : M (OpI ℚ) Unit := do
  setField mgRs ['d'] (.obj 2) .none (some (.vec 3))
  setField mgRs ['u'] (.obj 0) (.obj mgFineB) (some .active)
  setField mgRs ['v'] (.obj 0) (.obj mgFineB) (some .active)

def okOr {σ : Type _} (r : Res σ) (d : σ) : σ :=
  match r with
  | .ok s => s
  | _ => d

def isOk {σ : Type _} (r : Res σ) : Bool :=
  match r with
  | .ok _ => true
  | _ => false

theorem okOr_eq {σ : Type _} {r : Res σ} {d : σ} (h : isOk r = true) : r = .ok (okOr r d) := by
  cases r with
  | ok s => rfl
  | err e => cases h
  | ub => cases h

/-- The fine operator. -/
def mgFine : OpI ℚ := okOr (runOn mgBuild (OpI.create mgQ)) (OpI.create mgQ)

theorem mgFine_eq : runOn mgBuild (OpI.create mgQ) = .ok mgFine := okOr_eq (by decide +kernel)

/-- A field is set by no other call than that for its name. -/
theorem isSet_set {α : Type} {rs : Nat → Rstr} {once : Prop} {s s' : OpI α} (h : Built rs once s) {name n : List Char} {r : Arg Nat}
    {b : Arg (Bas α)} {v : Option FVec} (e : setField rs name r b v s = .ok s' ()) (hi : IsSet s' n) : n = name ∨ IsSet s n := by
  obtain ⟨w, k, i, f, rfl, h1, h2, h3, h4⟩ := C41_stored h e
  obtain ⟨k', i', v', a1, a2⟩ := hi
  by_cases hh : (k', i') = (k, i)
  · cases hh
    rw [h3] at a1; cases a1
    exact Or.inl a2.symm
  · rw [h4 k' i' hh] at a1
    exact Or.inr ⟨k', i', v', a1, a2⟩

theorem create_unset {α : Type} (q : QFunction.QFunc) (n : List Char) : ¬ IsSet (OpI.create q : OpI α) n := by
  rintro ⟨k, i, v, h, _⟩
  cases k <;> cases h

theorem mgSized (b : Arg (Bas ℚ)) (hb : b = .none ∨ b = .obj mgFineB) : Sized mgRs b := by
  constructor
  · intro r
    unfold mgRs
    split
    · exact ⟨by decide, by decide⟩
    · split <;> exact ⟨by decide, by decide⟩
  · rintro b' rfl
    rcases hb with h | h <;> cases h
    decide

theorem mgFine_built : Built mgRs True mgFine := by
  have e := mgFine_eq
  unfold mgBuild at e
  have h0 : Built mgRs True (OpI.create mgQ : OpI ℚ) := .create mgQ_calls
  obtain ⟨s1, _, e1, e⟩ := runOn_bind_ok e
  have h1 := Built.setField h0 (mgSized _ (Or.inl rfl)) (fun _ => create_unset _ _) e1
  obtain ⟨s2, _, e2, e⟩ := runOn_bind_ok e
  have h2 := Built.setField h1 (mgSized _ (Or.inr rfl)) (fun _ hi => by
    rcases isSet_set h0 e1 hi with hh | hh
    · cases hh
    · exact create_unset _ _ hh) e2
  obtain ⟨_, e3⟩ := runOn_ok e
  exact Built.setField h2 (mgSized _ (Or.inr rfl)) (fun _ hi => by
    rcases isSet_set h1 e2 hi with hh | hh
    · cases hh
    · rcases isSet_set h0 e1 hh with hh | hh
      · cases hh
      · exact create_unset _ _ hh) e3

/-- A multiplicity vector of ones. -/
def mgOnes : Buf ℚ := Buf.ofList [1, 1, 1, 1, 1]

/-- The level. -/
def mgLevelR : Res (Level ℚ) :=
  multigridLevel mgRs (1/1000) false mgFine (some mgOnes) 1 mgCoarseB (some mgCtoF) 7 9 true true

def mgLevel : Level ℚ := okOr mgLevelR ⟨OpI.create mgQ, none, none, mgRs, none⟩

theorem mgLevel_eq : mgLevelR = .ok mgLevel := okOr_eq (by decide +kernel)

/-- Vector and restriction of a filled field. -/
def Slot.key {α : Type} : Slot α → Option (FVec × Option Nat)
  | .set v => some (v.vec, v.rid)
  | _ => none

theorem mgFine_fields : mgFine.qf.inputs.length = 2 ∧ mgFine.qf.outputs.length = 1 ∧
    (mgFine.inF 0).key = some (.vec 3, some 2) ∧ (mgFine.inF 1).key = some (.active, some 0) ∧
    (mgFine.outF 0).key = some (.active, some 0) ∧ mgFine.Q = 2 := by decide +kernel

theorem mgActive : ActiveRstr mgFine 0 := by
  obtain ⟨h1, h2, h3, h4, h5, -⟩ := mgFine_fields
  constructor
  · intro i hi v hv ha
    rw [h1] at hi
    rcases (by omega : i = 0 ∨ i = 1) with rfl | rfl
    · rw [hv] at h3; simp [Slot.key] at h3
      rw [h3.1] at ha; cases ha
    · rw [hv] at h4; simp [Slot.key] at h4
      exact h4.2
  · intro i hi v hv _
    rw [h2] at hi
    obtain rfl : i = 0 := by omega
    rw [hv] at h5; simp [Slot.key] at h5
    exact h5.2

/-- The hypotheses of the theorems on transfer operators are met. -/
theorem mgCreated : Created mgRs mgD 5 3 0 1 7 9 (1/1000) mgFine mgOnes mgCoarseB mgCtoF mgInterp true true mgLevel :=
  ⟨mgLevel_eq, mgLevelOK, mgActive⟩

/-- Both operators exist, and are transposes of each other. -/
example : ∃ R P, mgLevel.restrict = some R ∧ mgLevel.prolong = some P ∧ ∀ L, ∃ A : Nat → Nat → ℚ,
    IsMatrix (P.oper mgLevel.rstrs false scaleF) (levelMeaning mgD 0 7 mgInterp) L 3 A ∧
    IsMatrix (R.oper mgLevel.rstrs false scaleF) (levelMeaning mgD 0 7 mgInterp) L 5 (fun s t => A t s) := by
  obtain ⟨⟨h1, h2⟩, -⟩ := C46_created mgCreated (Or.inl rfl)
  obtain ⟨R, hR⟩ := Option.isSome_iff_exists.1 h1
  obtain ⟨P, hP⟩ := Option.isSome_iff_exists.1 h2
  exact ⟨R, P, hR, hP, C46_transpose mgCreated hR hP⟩

/-- The inverse multiplicities of the level: node 2 is shared by the two elements. -/
example : mgLevel.mult.map Buf.toList = some [1, 1, 1/2, 1, 1] := by decide +kernel

/-- The hypotheses of `C46_errors` are met: the coarse operator alone is created without multiplicities, a transfer
operator is not. -/
example : (∃ lev, multigridLevel mgRs (1/1000 : ℚ) false mgFine none 1 mgCoarseB (some mgCtoF) 7 9 false false = .ok lev) ∧
    multigridLevel mgRs (1/1000 : ℚ) false mgFine none 1 mgCoarseB (some mgCtoF) 7 9 true false = .err .incompatible := by
  have h : ∃ lev, multigridLevel mgRs (1/1000 : ℚ) false mgFine none 1 mgCoarseB (some mgCtoF) 7 9 false false = .ok lev :=
    ⟨_, okOr_eq (d := mgLevel) (by decide +kernel)⟩
  obtain ⟨lev, e⟩ := h
  refine ⟨⟨lev, e⟩, (C46_errors (rf := 0) mgActive (Or.inl rfl) e ?_).2.1 (by decide +kernel) rfl⟩
  intro hu
  have : (match multigridLevel mgRs (1/1000 : ℚ) false mgFine none 1 mgCoarseB (some mgCtoF) 7 9 true false with
    | .ub => true | _ => false) = false := by decide +kernel
  rw [hu] at this
  cases this

/-- Backend data before the setup. -/
def mgImpl : Impl ℚ :=
  ⟨false, false, ⟨fun _ => none, fun _ => none, fun _ => false⟩,
    ⟨fun _ => none, fun _ => none, fun _ => false, fun _ => false, fun _ => 0⟩,
    fun _ => 0, fun _ => ⟨0, fun _ => 7⟩, fun _ => false, fun _ => 0, fun _ => ⟨0, fun _ => 7⟩, fun _ => false,
    fun _ => ⟨0, fun _ => 7⟩⟩

/-- Vectors: 0 coarse, 1 fine, 9 the inverse multiplicities. -/
def mgStart : St ℚ :=
  ⟨mgImpl, fun v => if v = 9 then ⟨2, true, Buf.ofList [1, 1, 1/2, 1, 1]⟩
    else if v = 0 then ⟨2, true, Buf.ofList [2, 4, 10]⟩
    else if v = 1 then ⟨2, true, Buf.ofList [1, 1, 1, 1, 3]⟩ else ⟨0, false, ⟨5, fun _ => 0⟩⟩, fun _ => none⟩

/-- Contents of a vector after a call on one of the operators. -/
def mgRun (op : Option (OpI ℚ)) (inv outv : Nat) : Option (List ℚ) :=
  match op with
  | some P =>
    match apply (P.oper mgLevel.rstrs false scaleF) (fun _ _ => 0) (.vec inv) (.vec outv) mgStart with
    | .ok s _ => some (s.vecs outv).buf.toList
    | _ => none
  | none => none

/-- The calls of `C46_apply` and `C46_exact` succeed: the prolongation interpolates, the restriction is its transpose. -/
example : mgRun mgLevel.prolong 0 1 = some [2, 3, 4, 7, 10] := by decide +kernel
example : mgRun mgLevel.restrict 1 0 = some [3/2, 2, 7/2] := by decide +kernel
theorem mgStart_reach (op : Oper ℚ) (fails : Prop) : Reach op fails mgStart :=
  Reach.start _ rfl (fun i => by
    unfold mgStart
    dsimp only
    split
    · intro h; cases h
    · split
      · intro h; cases h
      · split
        · intro h; cases h
        · intro _; rfl)

/-- Every coarse function is continuous on the fine nodes. -/
theorem mgConforming (u : Nat → ℚ) : ∃ v, Interpolates mgD 0 1 mgInterp u v := by
  refine ⟨fun t => if t = 0 then u 0 else if t = 1 then (u 0 + u 1) / 2 else if t = 2 then u 1
    else if t = 3 then (u 1 + u 2) / 2 else u 2, ?_⟩
  intro e he k hk n hn
  have he : e < 2 := he
  have hk : k < 1 := hk
  have hn : n < 3 := hn
  obtain rfl : k = 0 := by omega
  have hl : ∀ r : Nat, (mgD 0).es = 3 ∧ (mgD 1).es = 2 := fun _ => ⟨rfl, rfl⟩
  unfold interpE RData.row
  rw [show (mgD 0).es = 3 from rfl, show (mgD 1).es = 2 from rfl]
  rcases (by omega : e = 0 ∨ e = 1) with rfl | rfl <;> rcases (by omega : n = 0 ∨ n = 1 ∨ n = 2) with rfl | rfl | rfl <;>
  simp [sum_range_succ, mgD, Restriction.offsetData, Restriction.orientCoef, Restriction.idCoef, mgInterp, mgOff, mgOffC,
    Buf.ofList] <;> ring

/-- A nonlinear QFunction. -/
def mgF (x : Nat → Nat → ℚ) : Nat → Nat → ℚ := fun _ q => x 0 q * x 1 q * x 1 q

/-- Meaning of the fields of the fine and of the coarse operator. -/
def mgS : Meaning ℚ := ⟨mgD, fun _ => Buf.ofList [1, 2, 0, 0, 2, 1], fun _ => Buf.ofList [1, 2, 0, 0, 2, 1], fun _ _ => 0⟩
def mgSc : Meaning ℚ := ⟨mgD, fun i => if i = 1 then Buf.ofList [2, 1, 1, 2] else Buf.ofList [1, 2, 0, 0, 2, 1],
  fun _ => Buf.ofList [2, 1, 1, 2], fun _ _ => 0⟩

theorem mgCoarsened : Coarsened (mgFine.oper mgRs false mgF) (mgLevel.coarse.oper mgRs false mgF) 0 1 := by
  obtain ⟨h1, h2, h3, h4, h5, h6⟩ := mgFine_fields
  refine C52_coarsened mgCreated (Or.inl rfl) mgFine_built ⟨(mgSized _ (Or.inl rfl)).1, by decide⟩ h6.symm ⟨1, by omega, ?_⟩ _ _
  cases hv : mgFine.inF 1 with
  | set v =>
    rw [hv] at h4; simp [Slot.key] at h4
    exact ⟨v, rfl, h4.1⟩
  | empty => rw [hv] at h4; cases h4
  | half => rw [hv] at h4; cases h4

/-- Parts of a field. -/
def OField.part (a : OField ℚ) : FVec × Nat × Nat := (a.vec, a.size, a.qc)

theorem mgParts : (mgFine.oper mgRs false mgF).nin = 2 ∧ (mgFine.oper mgRs false mgF).nout = 1 ∧
    (mgFine.oper mgRs false mgF).Q = 2 ∧
    ((mgFine.oper mgRs false mgF).inp 0).part = (.vec 3, 1, 1) ∧ ((mgFine.oper mgRs false mgF).inp 1).part = (.active, 1, 1) ∧
    ((mgFine.oper mgRs false mgF).out 0).part = (.active, 1, 1) ∧
    ((mgLevel.coarse.oper mgRs false mgF).out 0).part = (.active, 1, 1) := by decide +kernel

theorem mgNested : Nested (mgFine.oper mgRs false mgF) (mgLevel.coarse.oper mgRs false mgF) mgS mgSc 0 1 mgInterp := by
  obtain ⟨h1, h2, h3, h4, h5, h6, h7⟩ := mgParts
  simp only [OField.part, Prod.mk.injEq] at h4 h5 h6 h7
  have hmat : ∀ r < 2, ∀ c < 2, (Buf.ofList [2, 1, 1, (2 : ℚ)]).val (r * 2 + c) =
      ∑ n ∈ range 3, (Buf.ofList [1, 2, 0, 0, 2, (1 : ℚ)]).val (r * 3 + n) * mgInterp.val (n * 2 + c) := by decide +kernel
  have hone : ∀ i < 2, ((mgFine.oper mgRs false mgF).inp i).vec = .active → i = 1 := by
    intro i hi ha
    rcases (by omega : i = 0 ∨ i = 1) with rfl | rfl
    · rw [h4.1] at ha; cases ha
    · rfl
  refine ⟨rfl, rfl, ?_, ?_, ?_, ?_, ?_⟩
  · intro i hi ha
    rw [h1] at hi
    rcases (by omega : i = 0 ∨ i = 1) with rfl | rfl
    · rfl
    · exact absurd h5.1 ha
  · intro i hi ha
    rw [h1] at hi
    obtain rfl := hone i hi ha
    rw [h5.2.1, h5.2.2]; rfl
  · intro i hi ha r hr c hc
    rw [h1] at hi
    obtain rfl := hone i hi ha
    rw [h5.2.2, h3] at hr
    exact hmat r (by omega) c hc
  · intro o ho ha r hr c hc
    rw [h2] at ho
    obtain rfl : o = 0 := by omega
    rw [h6.2.2, h3] at hr
    exact hmat r (by omega) c hc
  · intro o ho ha
    rw [h2] at ho
    obtain rfl : o = 0 := by omega
    rw [h6.2.2, h7.2.2]

/-- The hypotheses of `C52_galerkin` are met, with a nonlinear QFunction. -/
example : ∃ R P, mgLevel.restrict = some R ∧ mgLevel.prolong = some P ∧ ∀ (d u : Nat → ℚ) (s : Nat), s < 3 →
    let L : Nat → Nat → ℚ := fun v => if v = 9 then (Buf.ofList [1, 1, 1/2, 1, 1]).val else d
    mgSc.action (mgLevel.coarse.oper mgRs false mgF) (Function.update L 0 u) (.vec 0) (.vec 1) 1 s =
      (levelMeaning mgD 0 7 mgInterp).action (R.oper mgLevel.rstrs false scaleF)
        (Function.update L 0 (mgS.action (mgFine.oper mgRs false mgF) (Function.update L 0
          ((levelMeaning mgD 0 7 mgInterp).action (P.oper mgLevel.rstrs false scaleF) (Function.update L 0 u) (.vec 0) (.vec 1) 1))
          (.vec 0) (.vec 1) 1)) (.vec 0) (.vec 1) 1 s := by
  obtain ⟨⟨h1, h2⟩, -, -, m, hm, -, hmv⟩ := C46_created mgCreated (Or.inl rfl)
  obtain ⟨R, hR⟩ := Option.isSome_iff_exists.1 h1
  obtain ⟨P, hP⟩ := Option.isSome_iff_exists.1 h2
  refine ⟨R, P, hR, hP, fun d u s hs => ?_⟩
  obtain ⟨p1, p2, p3, p4, p5, p6, p7⟩ := mgParts
  simp only [OField.part, Prod.mk.injEq] at p4 p5 p6 p7
  refine C52_galerkin mgCreated hR hP hm rfl mgCoarsened mgNested (fun t ht => ?_) (fun t ht _ => ?_) mgConforming
    (fun t ht => ?_) ⟨by decide, fun i hi => ?_⟩ (fun o ho => ?_) u hs
  · have : ∀ t < 5, mgOnes.val t = 1 := by decide +kernel
    exact this t ht
  · have : ∀ t < 5, ((mgD 0).count t : ℚ) ≠ 0 ∧ (1/1000 : ℚ) < |((mgD 0).count t : ℚ)| := by decide +kernel
    exact this t ht
  · rw [hmv t ht]
    have : ∀ t < 5, (Buf.ofList [1, 1, 1/2, 1, (1 : ℚ)]).val t = recipOf (1/1000) ((mgD 0).count t * mgOnes.val t) := by
      decide +kernel
    exact this t ht
  · rw [p1] at hi
    rcases (by omega : i = 0 ∨ i = 1) with rfl | rfl
    · rw [p4.1]; decide
    · rw [p5.1]; decide
  · rw [p2] at ho
    obtain rfl : o = 0 := by omega
    rw [p6.1]; decide

/-! ## Disagreements -/

/-- An operator with an active field without basis. -/
def mgPlain : OpI ℚ := okOr (runOn (do
  setField mgRs ['u'] (.obj 0) .none (some .active)
  setField mgRs ['v'] (.obj 0) .none (some .active)) (OpI.create ⟨1, [⟨['u'], 1, .none⟩], [⟨['v'], 1, .none⟩], false⟩))
  (OpI.create mgQ)

/-- The error of a call. -/
def errR {σ : Type _} (r : Res σ) : Option Err :=
  match r with
  | .err e => some e
  | _ => none

def ubR {σ : Type _} (r : Res σ) : Bool :=
  match r with
  | .ub => true
  | _ => false

/-- C46: a ready operator whose active field has no basis has no coarse operator, as it is given the coarse basis for all
active fields (lines 901-906). -/
theorem C46_none_witness : isOk (runOn checkReady mgPlain) = true ∧
    errR (multigridLevel mgRs (1/1000) false mgPlain (some mgOnes) 1 mgCoarseB (some mgCtoF) 7 9 true true) =
      some .incompatible := by decide +kernel

/-- An operator without active fields. -/
def mgPassive : OpI ℚ := okOr (runOn (do
  setField mgRs ['u'] (.obj 0) .none (some (.vec 3))
  setField mgRs ['v'] (.obj 0) .none (some (.vec 4))) (OpI.create ⟨1, [⟨['u'], 1, .none⟩], [⟨['v'], 1, .none⟩], false⟩))
  (OpI.create mgQ)

/-- C46: for a ready operator without active fields the null pointer `rstr_fine` is dereferenced (line 948). -/
theorem C46_passive_witness : isOk (runOn checkReady mgPassive) = true ∧
    ubR (multigridLevel mgRs (1/1000) false mgPassive (some mgOnes) 1 mgCoarseB (some mgCtoF) 7 9 true true) = true := by
  decide +kernel

end Operator
end Verif
