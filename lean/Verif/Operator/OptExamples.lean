import Verif.Operator.OptProps
import Verif.Operator.Examples

/-!
# Concrete operators on backends that work on blocks of elements
-/

set_option linter.unusedSectionVars false

namespace Verif
namespace Operator

open Finset
open Restriction (RData Made Rstr)
open Basis (Bas EMode)

/-! ## Hypotheses from the creation functions -/

section
variable {α : Type} [CommRing α]

/-- The weights of any number of elements: non-tensor bases. -/
theorem weightN_nontensor {b : Bas α} {sp : Basis.Space} {i d w : Buf α} (hb : Basis.NonTensorBasis b sp i d w) (bs : Nat) :
    WeightN b w.val bs := by
  intro junk v hv
  obtain ⟨v', a1, a2, a3, _⟩ := Basis.C24_weight_nontensor hb junk (ne := bs) (u := none) (v := v)
    (by rw [Nat.mul_comm]; exact hv)
  exact ⟨v', a1, a2, fun q hq j hj => a3 q hq j hj⟩

/-- The weights of any positive number of elements: tensor bases. -/
theorem weightN_tensor {b : Bas α} {i1 g1 w : Buf α} (hb : Basis.TensorBasis b i1 g1 w) {bs : Nat} (hbs : 0 < bs) :
    WeightN b (fun q => ∏ d ∈ range b.dim, w.val (Basis.coord b.Q1 d q)) bs := by
  intro junk v hv
  obtain ⟨v', a1, a2, a3, _⟩ := Basis.C24_weight_tensor hb junk (ne := bs) hbs (u := none) (v := v)
    (by rw [Nat.mul_comm]; exact hv)
  exact ⟨v', a1, a2, fun q hq j hj => a3 q hq j hj⟩

end

/-! ## The operator with everything -/

/-- The user function of `exOp`, called with any number of points. -/
def exF : Nat → (Nat → Nat → Int) → Nat → Nat → Int :=
  fun _ x o q => if o = 0 then x 0 q * x 1 q * x 2 q else x 0 q * x 3 q

theorem exF_pointwise : Pointwise exOp exF :=
  ⟨rfl, fun a o c => if o = 0 then a 0 c * a 1 c * a 2 c else a 0 c * a 3 c, fun _ _ _ _ _ _ => rfl⟩

/-- The hypotheses of the theorems are met with blocks of any size. -/
theorem exOp_optOK {bs : Nat} (h : 0 < bs) : OptOK exOp exMeaning bs := by
  refine ⟨exOp_ok, h, ?_⟩
  intro i hi hm b hb
  have hi' : i < 4 := hi
  rcases (by omega : i = 0 ∨ i = 1 ∨ i = 2 ∨ i = 3) with rfl | rfl | rfl | rfl
  · cases hm
  · cases hb; exact weightN_nontensor exBasis_made bs
  · cases hm
  · cases hm

/-- The state before the setup. -/
def exOStart : OSt Int := ⟨exStart, fun _ => exNodes, fun _ => ⟨0, fun _ => 7⟩⟩

theorem exOStart_reach (chk : Bool) (bs : Nat) (fails : Prop) : ReachOpt exOp exF chk bs fails exOStart :=
  ReachOpt.start _ rfl (fun i => by
    match i with
    | 0 => intro h; cases h
    | 1 => intro h; cases h
    | 2 => intro h; cases h
    | n + 3 => intro _; rfl)

/-- Contents of a vector after a call. -/
def resultO (x : Out (OSt Int) Unit) (v : Nat) : Option (List Int) :=
  match x with
  | .ok s _ => some (s.base.vecs v).buf.toList
  | _ => none

/-- The error code of a call. -/
def errO (x : Out (OSt Int) Unit) : Option Err :=
  match x with
  | .err _ e => some e
  | _ => none

/-- The state after a call. -/
def afterO (x : Out (OSt Int) Unit) : OSt Int :=
  match x with
  | .ok s _ => s
  | .err s _ => s
  | .ub => exOStart

/-- The vectors are ready and the active input is not written. -/
example : OptInReady exOp (.vec 0) exOStart.base ∧ OptOutReady exOp (.vec 1) exOStart.base ∧ ActiveApart exOp (.vec 0) (.vec 1) := by
  refine ⟨?_, ?_, ?_⟩
  · intro i hi hw
    have hi' : i < 4 := hi
    rcases (by omega : i = 0 ∨ i = 1 ∨ i = 2 ∨ i = 3) with rfl | rfl | rfl | rfl
    · exact ⟨1, 2, rfl, rfl, rfl, by decide, fun h => by cases h⟩
    · exact absurd rfl hw
    · exact ⟨0, 0, rfl, rfl, rfl, by decide, fun _ => by decide⟩
    · exact ⟨0, 0, rfl, rfl, rfl, by decide, fun _ => by decide⟩
  · intro o ho
    have ho' : o < 2 := ho
    rcases (by omega : o = 0 ∨ o = 1) with rfl | rfl <;> exact ⟨0, 1, rfl, rfl, rfl, by decide⟩
  · intro i hi hw hv o ho
    have ho' : o < 2 := ho
    rcases (by omega : o = 0 ∨ o = 1) with rfl | rfl <;> decide

/-- One and eight elements per block: the results of the reference backend, also in a second application. -/
example : resultO (applyAddOpt exOp exF true 1 (fun _ _ => 0) (.vec 0) (.vec 1) exOStart) 1 = some [108, 370, 500] ∧
    resultO (applyAddOpt exOp exF true 8 (fun _ _ => 0) (.vec 0) (.vec 1) exOStart) 1 = some [108, 370, 500] ∧
    resultO (applyOpt exOp exF true 8 (fun _ _ => 0) (.vec 0) (.vec 1) exOStart) 1 = some [8, 170, 200] ∧
    resultO (applyAddOpt exOp exF true 8 (fun _ _ => 0) (.vec 0) (.vec 1)
      (afterO (applyAddOpt exOp exF true 8 (fun _ _ => 0) (.vec 0) (.vec 1) exOStart))) 1 = some [116, 540, 700] := by
  decide +kernel

/-! ## Disagreements -/

/-- C54 fails when the active input is also the output (`CeedOperatorApplyAdd(op, u, u)`): the reference backend restricts
the whole input before it adds anything, a backend with blocks reads it block by block. With one element per block the
second element sees what the first one has added; with eight elements per block the result is that of the reference. -/
theorem C54_in_place_witness :
    result (applyAdd exOp (fun _ _ => 0) (.vec 0) (.vec 0) exStart) 0 = some [9, 172, 204] ∧
    resultO (applyAddOpt exOp exF true 8 (fun _ _ => 0) (.vec 0) (.vec 0) exOStart) 0 = some [9, 172, 204] ∧
    resultO (applyAddOpt exOp exF true 1 (fun _ _ => 0) (.vec 0) (.vec 0) exOStart) 0 ≠ some [9, 172, 204] ∧
    (resultO (applyAddOpt exOp exF true 1 (fun _ _ => 0) (.vec 0) (.vec 0) exOStart) 0).isSome = true := by
  decide +kernel

/-- The same vectors, but the active input has an additional entry. -/
def longStart : St Int :=
  { exStart with vecs := Function.update exStart.vecs 0 ⟨2, true, Buf.ofList [1, 2, 4, 8]⟩ }

/-- C54 fails for active inputs (and outputs) longer than the restriction asks for: the reference backend accepts them,
a backend with blocks returns an error, because `CeedElemRestrictionApplyBlock` compares lengths exactly
(`interface/ceed-elemrestriction.c` 1413-1421). -/
theorem C54_longer_vector_witness :
    result (applyAdd exOp (fun _ _ => 0) (.vec 0) (.vec 1) longStart) 1 = some [108, 370, 500] ∧
    errO (applyAddOpt exOp exF true 1 (fun _ _ => 0) (.vec 0) (.vec 1) { exOStart with base := longStart }) = some .dimension := by
  decide +kernel

end Operator
end Verif
