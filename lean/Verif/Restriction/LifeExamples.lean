import Verif.Restriction.LifeProps

/-!
# Runs, and what goes wrong otherwise
-/

namespace Verif
namespace RstrLife

/-- Offsets of two elements with two nodes, no orientations. -/
def blk0 : Block
  | .offsets => some [0, 1, 1, 2]
  | _ => none

/-- A history to which the theorems apply: a copy is made, the offsets are borrowed through it, and the original is released. The
release of the copy has to wait now. -/
theorem life_reach : ∃ h l, Reach h l ∧ l.loans = [⟨0, 0, .offsets⟩] ∧ l.hand 1 = 1 ∧ l.hand 0 = 0 ∧ l.busy 1 ∧ l.blk 0 = blk0 ∧ l.base 1 = some 0 := by
  have h1 := Reach.ok (c := .create blk0) Reach.init trivial rfl
  have h2 := Reach.ok (c := .copy 0) h1 ⟨by decide, rfl, rfl, rfl⟩ rfl
  have h3 := Reach.ok (c := .get .offsets true 1) h2 (show 1 ≤ _ by decide) rfl
  have h4 := Reach.ok (c := .destroy 0) h3 (show 1 ≤ _ by decide) rfl
  refine ⟨_, _, h4, rfl, rfl, rfl, ⟨by unfold Ledger.last; rfl, Or.inr ⟨0, rfl, by unfold Ledger.last; rfl, by decide⟩⟩, rfl, rfl⟩

example : ∃ h l, Reach h l ∧ l.loans = [⟨0, 0, .offsets⟩] ∧ (∃ g, exec (.destroy 1) h = .err g .access) ∧
    readPtr 0 .offsets h = .ok h (some [0, 1, 1, 2]) := by
  obtain ⟨h, l, hr, h1, h2, h3, h4, h5, h6⟩ := life_reach
  refine ⟨h, l, hr, h1, (C74_errors_partial hr (c := .destroy 1) (show 1 ≤ l.hand 1 by omega)).2 (Or.inl ⟨1, rfl, h4, rfl⟩), ?_⟩
  have h7 : (⟨0, 0, .offsets⟩ : Loan) ∈ l.loans := by simp [h1]
  have := C74_borrowed_partial hr h7
  have hb : l.base 0 = none := ((reach_inv hr).base 1 0 h6).2
  simp only [Ledger.orig, hb, Option.getD_none, h5] at this
  exact this

/-- The history goes on with the refused release, returns the offsets, and ends with nothing left. -/
example : ∃ h l, Reach h l ∧ ∀ o, h.objs o = none ∧ h.blocks o = none := by
  have h1 := Reach.ok (c := .create blk0) Reach.init trivial rfl
  have h2 := Reach.ok (c := .copy 0) h1 ⟨by decide, rfl, rfl, rfl⟩ rfl
  have h3 := Reach.ok (c := .get .offsets true 1) h2 (show 1 ≤ _ by decide) rfl
  have h4 := Reach.ok (c := .destroy 0) h3 (show 1 ≤ _ by decide) rfl
  have h5 := Reach.err (c := .destroy 1) h4 (show 1 ≤ _ by decide) rfl
  have h6 := Reach.ok (c := .restore .offsets 1) h5 ⟨by decide, by decide⟩ rfl
  have h7 := Reach.ok (c := .destroy 1) h6 (show 1 ≤ _ by decide) rfl
  refine ⟨_, _, h7, fun o => ?_⟩
  have := C74_no_leak_partial h7 (fun o => ?_) o
  · exact ⟨this.1, this.2.1⟩
  · show Function.update _ 1 0 o = 0
    by_cases h1 : o = 1
    · subst h1; rfl
    · rw [Function.update_of_ne h1]
      show Function.update _ 0 0 o = 0
      by_cases h0 : o = 0
      · subst h0; rfl
      · rw [Function.update_of_ne h0]
        show Function.update _ 1 1 o = 0
        rw [Function.update_of_ne h1]
        show Function.update _ 0 1 o = 0
        rw [Function.update_of_ne h0]
        rfl

/-- The same run to the end: the second attempt succeeds and everything is released. -/
example : ∃ h, execs [.create blk0, .copy 0, .get .offsets true 1, .destroy 0, .destroy 1, .restore .offsets 1, .destroy 1] Heap.init = .ok h () ∧
    h.objs 0 = none ∧ h.objs 1 = none ∧ h.blocks 0 = none := ⟨_, rfl, rfl, rfl, rfl⟩

/-- **A copy of a copy**: the reference of the first copy to the original is released when the second one is made. The user releases
the original, as they may, and the first copy, to which they hold a reference, works with released memory. -/
theorem C74_copy_of_copy_witness : ∃ h, execs [.create blk0, .copy 0, .copy 1, .destroy 0] Heap.init = .ok h () ∧
    (∃ x, h.objs 1 = some x ∧ x.refs = 2) ∧ useObj 1 h = .ub ∧ useObj 2 h = .ub := ⟨_, rfl, ⟨_, rfl, rfl⟩, rfl, rfl⟩

/-- **A copy made while an array is borrowed** counts that array too: the user gives it back, and the copy can still not be released. -/
theorem C74_copy_while_reading_witness : ∃ h, execs [.create blk0, .get .offsets true 0, .copy 0, .restore .offsets 0] Heap.init = .ok h () ∧
    (∃ g, exec (.destroy 1) h = .err g .access ∧ ∃ g', exec (.destroy 1) g = .err g' .access) := ⟨_, rfl, _, rfl, _, rfl⟩

/-- **A refused destruction** takes away the reference nevertheless: after the array was given back, the user makes a second reference
and releases the first one; the second one points to released memory. -/
theorem C74_refused_witness : ∃ h h1 h2 h3 h4, execs [.create blk0, .get .offsets true 0] Heap.init = .ok h () ∧
    exec (.destroy 0) h = .err h1 .access ∧ exec (.restore .offsets 0) h1 = .ok h2 0 ∧ exec (.refCopy 0 none) h2 = .ok h3 0 ∧
    exec (.destroy 0) h3 = .ok h4 0 ∧ exec (.use 0) h4 = .ub := ⟨_, _, _, _, _, rfl, rfl, rfl, rfl, rfl, rfl⟩

/-- **A reference that replaces one which cannot be released**: an error is returned and the destination is left alone, but the new
reference was counted; the user releases all they hold, and the restriction is never released. -/
theorem C74_replace_witness : ∃ h h1 h2, execs [.create blk0, .create blk0, .get .offsets true 1] Heap.init = .ok h () ∧
    exec (.refCopy 0 (some 1)) h = .err h1 .access ∧
    execs [.restore .offsets 1, .destroy 1, .destroy 0] h1 = .ok h2 () ∧ h2.objs 1 = none ∧ h2.objs 0 ≠ none ∧ h2.blocks 0 ≠ none :=
  ⟨_, _, _, rfl, rfl, rfl, rfl, by simp [Function.update], by simp [Function.update, Heap.init]⟩

/-- **Giving back what was not borrowed** is not detected, and makes the restriction impossible to release. -/
theorem C74_restore_witness : ∃ h h1, execs [.create blk0] Heap.init = .ok h () ∧ exec (.restore .orients 0) h = .ok h1 0 ∧
    ∃ g, exec (.destroy 0) h1 = .err g .access := ⟨_, _, rfl, rfl, _, rfl⟩

end RstrLife
end Verif
