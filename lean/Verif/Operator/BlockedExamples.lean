import Verif.Operator.BlockedProps
import Verif.Operator.OptExamples

/-!
# Concrete operators on the blocked backend
-/

set_option linter.unusedSectionVars false

namespace Verif
namespace Operator

open Restriction (RData Made Rstr)
open Basis (Bas EMode)

theorem exOStart_reachBlocked (chk : Bool) (bs : Nat) (fails : Prop) : ReachBlocked exOp exF chk bs fails exOStart :=
  ReachBlocked.start _ rfl (fun i => by
    match i with
    | 0 => intro h; cases h
    | 1 => intro h; cases h
    | 2 => intro h; cases h
    | n + 3 => intro _; rfl)

/-- The vectors are ready. -/
example : InReady exOp (.vec 0) exOStart.base ∧ OutReady exOp (.vec 1) exOStart.base := by
  refine ⟨?_, ?_⟩
  · intro i hi hw
    have hi' : i < 4 := hi
    rcases (by omega : i = 0 ∨ i = 1 ∨ i = 2 ∨ i = 3) with rfl | rfl | rfl | rfl
    · exact ⟨1, 2, rfl, rfl, rfl, by decide⟩
    · exact absurd rfl hw
    · exact ⟨0, 0, rfl, rfl, rfl, by decide⟩
    · exact ⟨0, 0, rfl, rfl, rfl, by decide⟩
  · intro o ho
    have ho' : o < 2 := ho
    rcases (by omega : o = 0 ∨ o = 1) with rfl | rfl <;> exact ⟨0, 1, rfl, rfl, rfl, by decide⟩

/-- One, two and eight elements per block: the results of the reference backend, also in a second application, in place, and
with a longer vector. -/
example :
    resultO (applyAddBlocked exOp exF true 1 (fun _ _ => 0) (.vec 0) (.vec 1) exOStart) 1 = some [108, 370, 500] ∧
    resultO (applyAddBlocked exOp exF true 2 (fun _ _ => 0) (.vec 0) (.vec 1) exOStart) 1 = some [108, 370, 500] ∧
    resultO (applyAddBlocked exOp exF true 8 (fun _ _ => 0) (.vec 0) (.vec 1) exOStart) 1 = some [108, 370, 500] ∧
    resultO (applyBlocked exOp exF true 8 (fun _ _ => 0) (.vec 0) (.vec 1) exOStart) 1 = some [8, 170, 200] ∧
    resultO (applyAddBlocked exOp exF true 8 (fun _ _ => 0) (.vec 0) (.vec 1)
      (afterO (applyAddBlocked exOp exF true 8 (fun _ _ => 0) (.vec 0) (.vec 1) exOStart))) 1 = some [116, 540, 700] ∧
    resultO (applyAddBlocked exOp exF true 1 (fun _ _ => 0) (.vec 0) (.vec 0) exOStart) 0 = some [9, 172, 204] ∧
    resultO (applyAddBlocked exOp exF true 1 (fun _ _ => 0) (.vec 0) (.vec 1) { exOStart with base := longStart }) 1 =
      some [108, 370, 500] := by
  decide +kernel

end Operator
end Verif
