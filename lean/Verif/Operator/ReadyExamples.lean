import Verif.Operator.Ready

/-!
# C41: an operator built through the interface, and histories that break completeness
-/

set_option linter.unusedSectionVars false

namespace Verif
namespace Operator

open Restriction (Rstr Made)
open Basis (Bas EMode)

/-! ## Running calls -/

/-- A call of `CeedOperatorSetField`, or of `CeedOperatorCheckReady`. -/
inductive OCall
  | set (name : List Char) (r : Arg Nat) (b : Arg (Bas Int)) (v : Option FVec)
  | ready

/-- The state that a call leaves. -/
def left (o : Out (OpI Int) Unit) (s : OpI Int) : OpI Int :=
  match o with
  | .ok s' _ => s'
  | .err s' _ => s'
  | .ub => s

/-- The call succeeds. -/
def succeeds (o : Out (OpI Int) Unit) : Bool :=
  match o with
  | .ok _ _ => true
  | _ => false

/-- Some field of this name is set. -/
def named (s : OpI Int) (name : List Char) : Bool :=
  [true, false].any fun k => (List.range (s.tab k).length).any fun i =>
    match s.slot k i with
    | .set v => v.name == name
    | _ => false

/-- One call after the other, successful or not; stopped at a field set before if `once`. -/
def run (rs : Nat → Rstr) (once : Bool) : List OCall → OpI Int → Option (OpI Int)
  | [], s => some s
  | .ready :: cs, s => run rs once cs (left (checkReady s) s)
  | .set n r b v :: cs, s => if once && named s n then none else run rs once cs (left (setField rs n r b v s) s)

theorem built_left {rs : Nat → Rstr} {once : Prop} {s : OpI Int} {n : List Char} {r : Arg Nat} {b : Arg (Bas Int)}
    {v : Option FVec} (h : Built rs once s) (hs : Sized rs b) (ho : once → ¬ IsSet s n) :
    Built rs once (left (setField rs n r b v s) s) := by
  cases e : setField rs n r b v s with
  | ok s' a => exact .setField h hs ho e
  | err s' c => exact .setFieldErr h ho e
  | ub => exact h

theorem built_ready {rs : Nat → Rstr} {once : Prop} {s : OpI Int} (h : Built rs once s) :
    Built rs once (left (checkReady s) s) := by
  cases e : checkReady s with
  | ok s' a => exact .checkReady h e
  | err s' c => exact .checkReadyErr h e
  | ub => exact h

theorem named_of_isSet {rs : Nat → Rstr} {once : Prop} {s : OpI Int} (h : Built rs once s) {n : List Char} (hs : IsSet s n) :
    named s n = true := by
  obtain ⟨k, i, v, h1, h2⟩ := hs
  obtain ⟨_, f, h3, _⟩ := h.inv.agrees k i v h1
  unfold named
  rw [List.any_eq_true]
  refine ⟨k, by cases k <;> simp, ?_⟩
  rw [List.any_eq_true]
  refine ⟨i, List.mem_range.2 (List.getElem?_eq_some_iff.1 h3).1, ?_⟩
  rw [h1]
  simp [h2]

theorem run_built {rs : Nat → Rstr} {once : Bool} {cs : List OCall} {s s' : OpI Int} (h : Built rs (once = true) s)
    (hs : ∀ b, Sized rs (b : Arg (Bas Int)) ∨ ∀ n r v, OCall.set n r b v ∉ cs) (e : run rs once cs s = some s') :
    Built rs (once = true) s' := by
  induction cs generalizing s with
  | nil => cases e; exact h
  | cons c cs ih =>
    cases c with
    | ready => exact ih (built_ready h) (fun b => (hs b).imp id fun x n r v hm => x n r v (List.mem_cons_of_mem _ hm)) e
    | set n r b v =>
      unfold run at e
      split at e
      · cases e
      · rename_i hc
        have hb : Sized rs b := (hs b).resolve_right fun x => x n r v List.mem_cons_self
        refine ih (built_left h hb fun ho hi => hc ?_)
          (fun b => (hs b).imp id fun x n r v hm => x n r v (List.mem_cons_of_mem _ hm)) e
        rw [ho, named_of_isSet h hi]; rfl

/-! ## The operator of the application examples -/

/-- Its restrictions. -/
def exRs (r : Nat) : Rstr := if r = 0 then exNodes else exData

/-- Its QFunction. -/
def exQF : QFunction.QFunc :=
  ⟨1, [⟨['d'], 1, .none⟩, ⟨['w'], 1, .weight⟩, ⟨['u'], 1, .interp⟩, ⟨['g'], 1, .grad⟩],
    [⟨['v'], 1, .interp⟩, ⟨['h'], 1, .grad⟩], false⟩

theorem exQF_calls : QFunction.Calls (QFunction.QFunc.create 1) exQF :=
  .ok (c := .addOutput ['h'] 1 .grad) (.ok (c := .addOutput ['v'] 1 .interp) (.ok (c := .addInput ['g'] 1 .grad)
    (.ok (c := .addInput ['u'] 1 .interp) (.ok (c := .addInput ['w'] 1 .weight) (.ok (c := .addInput ['d'] 1 .none) .refl rfl)
      rfl) rfl) rfl) rfl) rfl

theorem exSized (b : Arg (Bas Int)) (hb : b = .none ∨ b = .null ∨ b = .obj exBasis) : Sized exRs b := by
  constructor
  · intro r
    unfold exRs
    split <;> exact ⟨by decide, by decide⟩
  · rintro b' rfl
    rcases hb with h | h | h
    · cases h
    · cases h
    · cases h; decide

/-- Setting its fields, in an order other than that of the QFunction, with two refused calls in between. -/
def exCalls : List OCall :=
  [.set ['v'] (.obj 0) (.obj exBasis) (some .active), .set ['x'] (.obj 0) (.obj exBasis) (some .active),
   .set ['d'] (.obj 1) .none (some (.vec 2)), .ready, .set ['w'] .none (.obj exBasis) (some .none),
   .set ['u'] (.obj 0) (.obj exBasis) (some .active), .set ['g'] (.obj 0) (.obj exBasis) (some .active),
   .set ['h'] (.obj 0) (.obj exBasis) (some .active)]

/-- All bases in these calls are `exBasis`. -/
theorem exCalls_sized (b : Arg (Bas Int)) (cs : List OCall)
    (h : ∀ c ∈ cs, match c with
      | .set _ _ b _ => b = .none ∨ b = .null ∨ b = .obj exBasis
      | .ready => True) : Sized exRs b ∨ ∀ n r v, OCall.set n r b v ∉ cs := by
  by_cases hb : b = .none ∨ b = .null ∨ b = .obj exBasis
  · exact Or.inl (exSized b hb)
  · exact Or.inr fun n r v hm => hb (h _ hm)

/-- The operator before the readiness check. -/
def exBuilt : OpI Int := (run exRs true exCalls (OpI.create exQF)).getD (OpI.create exQF)

theorem exBuilt_built : Built exRs True exBuilt := by
  have h0 : Built exRs (true = true) (OpI.create exQF : OpI Int) := .create exQF_calls
  have h1 : (run exRs true exCalls (OpI.create exQF)).isSome = true := by decide +kernel
  have h2 := run_built h0 (fun b => exCalls_sized b exCalls (by simp [exCalls])) (Option.eq_some_of_isSome h1)
  have h3 : (run exRs true exCalls (OpI.create exQF)).get h1 = exBuilt := by
    unfold exBuilt
    rw [Option.get_eq_getD]
  rw [h3] at h2
  simpa using h2

/-- The hypotheses of `C41_ready_partial` are met: the operator is ready, with six fields. -/
example : ∃ s', checkReady exBuilt = .ok s' () ∧ s'.nf = 6 ∧ s'.Q = 1 ∧ s'.ne = 2 ∧ s'.inSize = 3 ∧ s'.outSize = 3 := by
  have h : (match checkReady exBuilt with
    | .ok s' _ => decide (s'.nf = 6 ∧ s'.Q = 1 ∧ s'.ne = 2 ∧ s'.inSize = 3 ∧ s'.outSize = 3)
    | _ => false) = true := by decide +kernel
  split at h
  · rename_i s' _ e; exact ⟨s', e, of_decide_eq_true h⟩
  · cases h

/-- The operator as the backend sees it. -/
def exReady : OpI Int := left (checkReady exBuilt) exBuilt

theorem exReady_slots : exReady.inF 0 = .set ⟨['d'], .vec 2, some 1, none⟩ ∧
    exReady.inF 1 = .set ⟨['w'], .none, none, some exBasis⟩ ∧ exReady.inF 2 = .set ⟨['u'], .active, some 0, some exBasis⟩ ∧
    exReady.inF 3 = .set ⟨['g'], .active, some 0, some exBasis⟩ ∧
    exReady.outF 0 = .set ⟨['v'], .active, some 0, some exBasis⟩ ∧
    exReady.outF 1 = .set ⟨['h'], .active, some 0, some exBasis⟩ :=
  ⟨rfl, rfl, rfl, rfl, rfl, rfl⟩

theorem exReady_slot {k : Bool} {i : Nat} {v : FVal Int} (h : exReady.slot k i = .set v) :
    (v.rid = some 1 ∧ v.basis = none) ∨ (v.rid = none ∧ v.basis = some exBasis) ∨ (v.rid = some 0 ∧ v.basis = some exBasis) := by
  obtain ⟨h0, h1, h2, h3, h4, h5⟩ := exReady_slots
  have hb : Built exRs True exReady := built_ready exBuilt_built
  obtain ⟨_, f, hf, _⟩ := hb.inv.agrees k i v h
  have hi := (List.getElem?_eq_some_iff.1 hf).1
  cases k with
  | true =>
    have hi' : i < 4 := hi
    change exReady.inF i = _ at h
    rcases (by omega : i = 0 ∨ i = 1 ∨ i = 2 ∨ i = 3) with rfl | rfl | rfl | rfl
    · rw [h0] at h; cases h; exact Or.inl ⟨rfl, rfl⟩
    · rw [h1] at h; cases h; exact Or.inr (Or.inl ⟨rfl, rfl⟩)
    · rw [h2] at h; cases h; exact Or.inr (Or.inr ⟨rfl, rfl⟩)
    · rw [h3] at h; cases h; exact Or.inr (Or.inr ⟨rfl, rfl⟩)
  | false =>
    have hi' : i < 2 := hi
    change exReady.outF i = _ at h
    rcases (by omega : i = 0 ∨ i = 1) with rfl | rfl
    · rw [h4] at h; cases h; exact Or.inr (Or.inr ⟨rfl, rfl⟩)
    · rw [h5] at h; cases h; exact Or.inr (Or.inr ⟨rfl, rfl⟩)

/-- The hypotheses of `C41_applicable` are met. -/
theorem exReady_proper : Proper exRs exReady exMeaning (exReady.oper exRs false exOp.f) := by
  obtain ⟨⟨b1, b2, b3⟩, ⟨b4, b5, b6⟩, b7⟩ := basis_ok exBasis_made
  refine ⟨?_, ?_, ?_, ?_, ?_, ?_, ?_, ?_⟩
  · intro k i v r h hr
    rcases exReady_slot h with ⟨h1, _⟩ | ⟨h1, _⟩ | ⟨h1, _⟩ <;> rw [h1] at hr <;> cases hr
    · exact ⟨2, Made.strided rfl (Or.inr (by intro e he m hm k hk; simp only; omega))⟩
    · exact ⟨3, Made.offset (checked := true) rfl trivial (Or.inl rfl)⟩
  · intro k i v r b h hr hb
    rcases exReady_slot h with ⟨h1, h2⟩ | ⟨h1, h2⟩ | ⟨h1, h2⟩ <;> rw [h1] at hr <;> rw [h2] at hb <;> cases hr <;> cases hb
    rfl
  · intro i hi hm b hb
    have hi' : i < 4 := hi
    rcases (by omega : i = 0 ∨ i = 1 ∨ i = 2 ∨ i = 3) with rfl | rfl | rfl | rfl
    · cases hb
    · cases hm
    · cases hb; exact b1
    · cases hb; exact b4
  · intro i hi hm
    have hi' : i < 4 := hi
    rcases (by omega : i = 0 ∨ i = 1 ∨ i = 2 ∨ i = 3) with rfl | rfl | rfl | rfl
    · cases hm
    · exact ⟨rfl, fun b hb => by cases hb; exact b7⟩
    · cases hm
    · cases hm
  · intro o ho hm b hb
    have ho' : o < 2 := ho
    rcases (by omega : o = 0 ∨ o = 1) with rfl | rfl
    · cases hb; exact ⟨b2, fun _ => b3⟩
    · cases hb; exact ⟨b5, fun _ => b6⟩
  · intro i j hij hj hs _
    have hj' : j < 4 := hj
    rcases (by omega : j = 1 ∨ j = 2 ∨ j = 3) with rfl | rfl | rfl
    · rcases (by omega : i = 0) with rfl
      exact absurd hs (by decide)
    · rcases (by omega : i = 0 ∨ i = 1) with rfl | rfl <;> exact absurd hs (by decide)
    · rcases (by omega : i = 0 ∨ i = 1 ∨ i = 2) with rfl | rfl | rfl
      · exact absurd hs (by decide)
      · exact absurd hs (by decide)
      · rfl
  · intro j o hjo ho _
    have ho' : o < 2 := ho
    rcases (by omega : o = 1) with rfl
    rfl
  · intro h; cases h

example : OpOK (exReady.oper exRs false exOp.f) exMeaning := by
  cases e : checkReady exBuilt with
  | ok s' a =>
    have h : exReady = s' := by unfold exReady; rw [e]; rfl
    have := C41_applicable exBuilt_built e (h ▸ exReady_proper)
    rw [h]; exact this
  | err s' c =>
    have h : succeeds (checkReady exBuilt) = true := by decide +kernel
    rw [e] at h; cases h
  | ub =>
    have h : succeeds (checkReady exBuilt) = true := by decide +kernel
    rw [e] at h; cases h

/-! ## Broken histories -/

/-- A QFunction with an input and an output. -/
def twoQF : QFunction.QFunc := ⟨1, [⟨['u'], 1, .interp⟩], [⟨['v'], 1, .interp⟩], false⟩

theorem twoQF_calls : QFunction.Calls (QFunction.QFunc.create 1) twoQF :=
  .ok (c := .addOutput ['v'] 1 .interp) (.ok (c := .addInput ['u'] 1 .interp) .refl rfl) rfl

/-- The operator after some calls. -/
def broken (cs : List OCall) : OpI Int := (run exRs false cs (OpI.create twoQF)).getD (OpI.create twoQF)

/-- The entry holds no field. -/
def Slot.isEmpty : Slot Int → Bool
  | .empty => true
  | _ => false

/-- The entry is allocated but not filled in. -/
def Slot.isHalf : Slot Int → Bool
  | .half => true
  | _ => false

/-- The vector of the entry. -/
def Slot.vec : Slot Int → Option FVec
  | .set v => some v.vec
  | _ => none

theorem broken_built (cs : List OCall) (h : ∀ c ∈ cs, match c with
      | .set _ _ b _ => b = .none ∨ b = .null ∨ b = .obj exBasis
      | .ready => True) : Built exRs False (broken cs) := by
  have h0 : Built exRs (false = true) (OpI.create twoQF : OpI Int) := .create twoQF_calls
  unfold broken
  cases e : run exRs false cs (OpI.create twoQF) with
  | none =>
    have := h0
    simpa using this
  | some s =>
    have := run_built h0 (fun b => exCalls_sized b cs h) e
    simpa using this

/-- **C41 fails** for a field set twice: the count of fields is raised by each call, so that the input set twice makes the
operator ready although the output was never set. -/
theorem C41_twice_witness :
    ∃ s : OpI Int, Built exRs False s ∧ succeeds (checkReady s) = true ∧ s.qf.outputs.length = 1 ∧
      (s.slot false 0).isEmpty = true :=
  ⟨broken [.set ['u'] (.obj 0) (.obj exBasis) (some .active), .set ['u'] (.obj 0) (.obj exBasis) (some .active)],
    broken_built _ (by simp), by decide +kernel, by decide +kernel, by decide +kernel⟩

/-- **C41 fails** after a refused call: setting again an active field with a restriction of another length is refused, but
only after the entry was replaced by an empty one; the operator is ready nonetheless. -/
theorem C41_refused_witness :
    ∃ s : OpI Int, Built exRs False s ∧ succeeds (checkReady s) = true ∧ (s.slot true 0).isHalf = true :=
  ⟨broken [.set ['u'] (.obj 0) (.obj exBasis) (some .active), .set ['v'] (.obj 0) (.obj exBasis) (some .active),
      .set ['u'] (.obj 1) (.obj exBasis) (some .active)],
    broken_built _ (by simp), by decide +kernel, by decide +kernel⟩

/-- **C41 fails** after the check: an operator found ready still accepts other objects for its fields, because the check
does not make it immutable. -/
theorem C41_changed_witness :
    ∃ s : OpI Int, Built exRs False s ∧ s.ready = true ∧ (s.slot true 0).vec = some .active ∧
      succeeds (setField exRs ['u'] (.obj 0) (.obj exBasis) (some (.vec 7)) s) = true ∧
      ((left (setField exRs ['u'] (.obj 0) (.obj exBasis) (some (.vec 7)) s) s).slot true 0).vec = some (.vec 7) ∧
      succeeds (checkReady (left (setField exRs ['u'] (.obj 0) (.obj exBasis) (some (.vec 7)) s) s)) = true :=
  ⟨broken [.set ['u'] (.obj 0) (.obj exBasis) (some .active), .set ['v'] (.obj 0) (.obj exBasis) (some .active), .ready],
    broken_built _ (by simp), by decide +kernel, by decide +kernel, by decide +kernel, by decide +kernel, by decide +kernel⟩

end Operator
end Verif
