import Verif.Composite.LengthsProps
import Verif.Operator.FieldsProps

/-!
# C42: lengths of an operator that is not composite
-/

set_option linter.unusedSectionVars false

namespace Verif.Composite

open Operator (OpI Built Sized Arg FVec)
open Restriction (Rstr)
open Basis (Bas)

variable {α : Type}

/-- What the composite model keeps of an operator. -/
def nodeOf (s : OpI α) (complete : Bool) : Node := ⟨false, [], s.inSize, s.outSize, complete, s.ready⟩

theorem nodeOf_len (s : OpI α) (c : Bool) (k : Bool) : (nodeOf s c).len k = s.len k := by cases k <;> rfl

/-- **C42.** Every call of `CeedOperatorSetField`, successful or not, is an `Edit` of the composite model. -/
theorem C42_edit {rs : Nat → Rstr} {once : Prop} {s s' : OpI α} (h : Built rs once s) {name : List Char} {r : Arg Nat}
    {b : Arg (Bas α)} {v : Option FVec} (hz : Sized rs b) {c c' : Bool}
    (e : Operator.setField rs name r b v s = .ok s' () ∨ ∃ x, Operator.setField rs name r b v s = .err s' x) :
    Edit (nodeOf s c) (nodeOf s' c') := by
  refine ⟨⟨rfl, rfl⟩, rfl, fun k => ?_⟩
  rw [nodeOf_len, nodeOf_len]
  by_cases hacc : s.immutable = false ∧ ∃ w isIn i f, v = some w ∧ Operator.locate name s.qf = some (isIn, i, f) ∧
      Operator.Accepted rs s r b w isIn f
  · obtain ⟨hi, w, isIn, i, f, rfl, hl, ha⟩ := hacc
    rw [Operator.setField_ok hi hl ha] at e
    rcases e with e | ⟨x, e⟩
    · cases e
      obtain ⟨_, _, _, _, _, _, h7, _⟩ := Operator.fill_rest rs s.freeze isIn i name r b w
      rw [h7]
      split
      · rename_i hh
        rw [hh.2.1]
        refine Or.inr ⟨hh.2.2, ?_⟩
        cases r with
        | obj r => exact (hz.1 r).2
        | none => exact le_refl _
        | null => exact le_refl _
      · exact Or.inl rfl
    · cases e
  · obtain ⟨s1, x, he, hs⟩ := Operator.setField_err rs s r b v name hacc
    rw [he] at e
    rcases e with e | ⟨y, e⟩
    · cases e
    · cases e
      rcases hs with rfl | rfl | ⟨isIn, i, f, hl, rfl⟩
      · exact Or.inl rfl
      · exact Or.inl rfl
      · left
        unfold OpI.put
        cases isIn <;> rfl

/-- A recorded length comes from a field that is set: invariant of histories that set no field twice. -/
theorem len_active {rs : Nat → Rstr} {s : OpI α} (h : Built rs True s) (k : Bool) (hk : s.len k ≠ -1) :
    ∃ i v, s.slot k i = .set v ∧ v.vec = .active := by
  have put : ∀ (s : OpI α) (k' : Bool) (i' : Nat) (x : Operator.Slot α) (k : Bool) (i : Nat),
      (s.put k' i' x).slot k i = if k = k' ∧ i = i' then x else s.slot k i := by
    intro s k' i' x k i
    unfold OpI.put OpI.slot
    cases k' <;> cases k <;> simp [Function.update_apply]
  induction h with
  | create hq => exact absurd (by cases k <;> rfl) hk
  | qf _ hq ih => exact ih hk
  | @setField s s' name r b v hb hz ho e ih =>
    by_cases hacc : s.immutable = false ∧ ∃ w isIn i f, v = some w ∧ Operator.locate name s.qf = some (isIn, i, f) ∧
        Operator.Accepted rs s r b w isIn f
    · obtain ⟨hi, w, isIn, i, f, rfl, hl, ha⟩ := hacc
      rw [Operator.setField_ok hi hl ha] at e
      cases e
      obtain ⟨_, h2, _, _, _, _, h7, _⟩ := Operator.fill_rest rs s.freeze isIn i name r b w
      rw [h7] at hk
      split at hk
      · rename_i hh
        refine ⟨i, ⟨name, w, r.opt, b.opt⟩, ?_, hh.1⟩
        rw [h2, if_pos ⟨hh.2.1, rfl⟩]
      · obtain ⟨j, v', hj, hv⟩ := ih hk
        refine ⟨j, v', ?_, hv⟩
        rw [h2, if_neg]
        · exact hj
        · rintro ⟨rfl, rfl⟩
          obtain ⟨l1, l2⟩ := Operator.locate_some hl
          obtain ⟨_, g, hg, hag⟩ := hb.inv.agrees k j v' hj
          rw [l1] at hg; cases hg
          exact ho trivial ⟨k, j, v', hj, hag.name.trans l2⟩
    · obtain ⟨s1, c, he, _⟩ := Operator.setField_err rs s r b v name hacc
      rw [he] at e; cases e
  | @setFieldErr s s' name r b v c hb ho e ih =>
    by_cases hacc : s.immutable = false ∧ ∃ w isIn i f, v = some w ∧ Operator.locate name s.qf = some (isIn, i, f) ∧
        Operator.Accepted rs s r b w isIn f
    · obtain ⟨hi, w, isIn, i, f, rfl, hl, ha⟩ := hacc
      rw [Operator.setField_ok hi hl ha] at e
      cases e
    · obtain ⟨s1, c', he, hs⟩ := Operator.setField_err rs s r b v name hacc
      rw [he] at e; cases e
      rcases hs with rfl | rfl | ⟨isIn, i, f, hl, rfl⟩
      · exact ih hk
      · exact ih hk
      · have hk' : s.len k ≠ -1 := by
          intro hc; apply hk; rw [← hc]; unfold OpI.put; cases isIn <;> rfl
        obtain ⟨j, v', hj, hv⟩ := ih hk'
        refine ⟨j, v', ?_, hv⟩
        rw [put, if_neg]
        · exact hj
        · rintro ⟨rfl, rfl⟩
          obtain ⟨l1, l2⟩ := Operator.locate_some hl
          obtain ⟨_, g, hg, hag⟩ := hb.inv.agrees k j v' hj
          rw [l1] at hg; cases hg
          exact ho trivial ⟨k, j, v', hj, hag.name.trans l2⟩
  | @checkReady s s' hb e ih =>
    have key : s' = s ∨ s' = { s.freeze with ready := true } := by
      unfold Operator.checkReady at e
      simp only [M.bind_apply, Operator.getO_apply, Out.bind_ok] at e
      split at e
      · cases e; exact Or.inl rfl
      · simp only [M.bind_apply, Operator.modO_apply, M.check_apply] at e
        split at e
        · rw [Out.bind_ok, Out.bind_ok] at e
          split at e
          · rw [Out.bind_ok] at e
            split at e
            · rw [Out.bind_ok] at e
              split at e
              · cases e; exact Or.inr rfl
              · cases e
            · cases e
          · cases e
        · cases e
    rcases key with rfl | rfl
    · exact ih hk
    · exact ih hk
  | @checkReadyErr s s' c hb e ih =>
    have key : s' = s ∨ s' = s.freeze := by
      unfold Operator.checkReady at e
      simp only [M.bind_apply, Operator.getO_apply, Out.bind_ok] at e
      split at e
      · cases e
      · simp only [M.bind_apply, Operator.modO_apply, M.check_apply] at e
        split at e
        · rw [Out.bind_ok, Out.bind_ok] at e
          split at e
          · rw [Out.bind_ok] at e
            split at e
            · rw [Out.bind_ok] at e
              split at e
              · cases e
              · cases e; exact Or.inr rfl
            · cases e; exact Or.inr rfl
          · cases e; exact Or.inr rfl
        · cases e; exact Or.inl rfl
    rcases key with rfl | rfl
    · exact ih hk
    · exact ih hk

/-- **C42.** The lengths of an operator that is not composite, if no field is set twice: the recorded length is that of
every active field that is set, and `-1` if there is none. -/
theorem C42_single_partial {rs : Nat → Rstr} {s : OpI α} (h : Built rs True s) (k : Bool) :
    (∀ i v, s.slot k i = .set v → v.vec = .active → s.len k = v.llen rs) ∧
    ((∀ i v, s.slot k i = .set v → v.vec ≠ .active) → s.len k = -1) := by
  refine ⟨fun i v hv ha => ?_, fun hn => ?_⟩
  · obtain ⟨_, f, _, hag⟩ := h.inv.agrees k i v hv
    exact (hag.length ha).symm
  · by_contra hk
    obtain ⟨i, v, h1, h2⟩ := len_active h k hk
    exact hn i v h1 h2

end Verif.Composite
