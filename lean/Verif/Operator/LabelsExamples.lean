import Verif.Operator.LabelsProps

/-!
# C48: examples, and where the library falls short
-/

namespace Verif
namespace Labels

open Context (World Ctx Label FieldType View)

/-- A context with one byte of data, and the field `t` if `has`. -/
def exW (has : Bool) (type : FieldType) (num : Nat) : World Nat :=
  ⟨fun a => if a = 0 then some ⟨8, fun _ => 5⟩ else none, 1,
    some ⟨1, 2, 0, 8, some 0, some 0, none, if has then [⟨"t", "", type, type.bytes * num, num, 0⟩] else [],
      if has then 1 else 0, none⟩⟩

theorem exW_reach (has : Bool) (type : FieldType) (num : Nat) : ∃ g, Context.Reach g (exW has type num) := by
  have r1 : Context.Reach _ _ := (Context.Reach.start (β := Nat)).ok (c := .malloc ⟨8, fun _ => 5⟩) rfl
  have r2 : Context.Reach _ (exW false type num) := r1.ok (c := .setData .host .usePointer 8 (some 0)) (r := .none) rfl
  cases has with
  | false => exact ⟨_, r2⟩
  | true => exact ⟨_, r2.ok (c := .register "t" 0 (some "") type num) (r := .none) rfl⟩

/-- Contexts: 0 and 1 have a flag `t`, 2 has no field, 3 has an integer `t`, 4 has eight flags `t`. -/
def exCtx : Nat → World Nat
  | 2 => exW false .bool 1
  | 3 => exW true .int32 1
  | 4 => exW true .bool 8
  | _ => exW true .bool 1

/-- Operators below 10 have no sub-operators; operator `o` has context `o`, operator 5 has none. The others are
composite. -/
def exStart : St Nat where
  ctxs := exCtx
  qctx q := if q = 5 then none else some q
  ops o := if o < 10 then ⟨false, some o, [], [], 0, false⟩ else ⟨true, none, [], [], 0, false⟩
  groups := []
  fromOp _ := false

theorem exStart_start : Start exStart where
  ctx c := by
    show ∃ g, Context.Reach g (exCtx c)
    unfold exCtx
    split <;> exact exW_reach _ _ _
  comp o h := by
    simp only [exStart] at h ⊢
    split_ifs at h ⊢; rfl
  single o h := by
    simp only [exStart] at h ⊢
    split_ifs at h ⊢
    simp
  subs o := by simp only [exStart]; split_ifs <;> rfl
  labels o := by simp only [exStart]; split_ifs <;> rfl
  groups := rfl
  flags _ := rfl

/-- Carry out calls that all succeed. -/
def runAll : List (Call Nat) → St Nat → Option (St Nat)
  | [], s => some s
  | c :: t, s =>
    match exec c s with
    | .ok s' _ => runAll t s'
    | _ => none

theorem runAll_runs {cs : List (Call Nat)} {s s' : St Nat} (h : runAll cs s = some s') : Runs s s' := by
  have gen : ∀ (cs : List (Call Nat)) (s1 : St Nat), Runs s s1 → runAll cs s1 = some s' → Runs s s' := by
    intro cs
    induction cs with
    | nil => intro s1 h1 h2; cases h2; exact h1
    | cons c t ih =>
      intro s1 h1 h2
      unfold runAll at h2
      cases he : exec c s1 with
      | ok s2 u => rw [he] at h2; exact ih s2 (h1.ok he) h2
      | err s2 e => rw [he] at h2; cases h2
      | ub => rw [he] at h2; cases h2
  exact gen cs s .refl h

/-- The first byte of the data of a context. -/
def byte (s : St Nat) (c : Nat) : Option Nat := ((s.ctxs c).heap 0).map fun b => b.val 0

/-- The program of the examples: composite 10 of the operators 0, 2, 5 and 1. -/
def exProg : List (Call Nat) := [.addSub 10 0 true, .addSub 10 2 true, .addSub 10 5 true, .addSub 10 1 true]

/-- The value 7. -/
def seven : Buf Nat := ⟨8, fun _ => 7⟩

/-- A condition on the outcome of a call. -/
def okAnd {α : Type} (r : Out (St Nat) α) (P : St Nat → α → Bool) : Bool :=
  match r with
  | .ok s a => P s a
  | _ => false

theorem okAnd_iff {α : Type} {r : Out (St Nat) α} {P : St Nat → α → Bool} (h : okAnd r P = true) :
    ∃ s a, r = .ok s a ∧ P s a = true := by
  cases r with
  | ok s a => exact ⟨s, a, rfl, h⟩
  | err s e => cases h
  | ub => cases h

/-- Whether a call returned an error. -/
def errIs {α : Type} (r : Out (St Nat) α) (e : Err) : Bool :=
  match r with
  | .err _ e' => e = e'
  | _ => false

/-- Whether a call is undefined. -/
def isUb {α : Type} (r : Out (St Nat) α) : Bool :=
  match r with
  | .ub => true
  | _ => false

theorem isUb_iff {α : Type} {r : Out (St Nat) α} (h : isUb r = true) : r = .ub := by
  cases r with
  | ok s a => cases h
  | err s e => cases h
  | ub => rfl

/-- After some calls, a condition. -/
theorem after {cs : List (Call Nat)} {s : St Nat} {P : St Nat → Bool}
    (h : (match runAll cs s with | some s' => P s' | none => false) = true) : ∃ s', Runs s s' ∧ P s' = true := by
  cases he : runAll cs s with
  | none => rw [he] at h; cases h
  | some s' => rw [he] at h; exact ⟨s', runAll_runs he, h⟩

/-- The hypotheses of the theorems are met, and the outcome is what they say: contexts 0 and 1 are set, context 2 and
all others are not. -/
example : ∃ s0 s1 s', Reached s0 ∧ (s0.ops 10).comp = true ∧ (s0.ops 10).subs = [0, 2, 5, 1] ∧
    getLabel 10 "t" s0 = .ok s1 (some (.group 0)) ∧ (s0.ops 10).labels = [] ∧
    setLabel 10 (some (.group 0)) .bool seven s1 = .ok s' () ∧
    byte s' 0 = some 7 ∧ byte s' 1 = some 7 ∧ byte s' 2 = some 5 ∧ byte s' 6 = some 5 ∧ (s'.ops 1).update = true := by
  obtain ⟨s0, h0, hP⟩ := after (cs := exProg) (s := exStart) (P := fun s0 =>
    decide ((s0.ops 10).comp = true ∧ (s0.ops 10).subs = [0, 2, 5, 1] ∧ (s0.ops 10).labels = []) &&
    okAnd (getLabel 10 "t" s0) fun s1 p => decide (p = some (.group 0)) &&
      okAnd (setLabel 10 (some (.group 0)) .bool seven s1) fun s' _ => decide (byte s' 0 = some 7 ∧ byte s' 1 = some 7 ∧
        byte s' 2 = some 5 ∧ byte s' 6 = some 5 ∧ (s'.ops 1).update = true)) (by decide +kernel)
  simp only [Bool.and_eq_true, decide_eq_true_eq] at hP
  obtain ⟨⟨a1, a2, a3⟩, hP⟩ := hP
  obtain ⟨s1, p, e1, hP⟩ := okAnd_iff hP
  simp only [Bool.and_eq_true, decide_eq_true_eq] at hP
  obtain ⟨rfl, hP⟩ := hP
  obtain ⟨s', u, e2, hP⟩ := okAnd_iff hP
  simp only [decide_eq_true_eq] at hP
  exact ⟨s0, s1, s', ⟨_, exStart_start, h0⟩, a1, a2, e1, a3, e2, hP⟩

/-- A label used with another composite or after another sub-operator was added, a wrong type, and the null label of a
field that no sub-operator has. -/
example : (match runAll (exProg ++ [.addSub 11 0 true, .addSub 11 1 true, .getLabel 10 "t"]) exStart with
    | some s => errIs (setLabel 11 (some (.group 0)) .bool seven s) .unsupported &&
      errIs (setLabel 10 (some (.group 0)) .int32 seven s) .unsupported &&
      okAnd (getLabel 10 "u" s) (fun _ p => decide (p = none)) &&
      okAnd (getRead 10 (some (.group 0)) .bool s) (fun _ r => decide (r = some (1, some 0, 0))) &&
      (match runAll [.addSub 10 6 true] s with
        | some s => errIs (setLabel 10 (some (.group 0)) .bool seven s) .unsupported
        | none => false)
    | none => false) = true := by decide +kernel

/-- An operator without sub-operators. -/
example : (match runAll [.getLabel 0 "t", .set 0 (some (.field 0 0)) .bool seven] exStart with
    | some s => decide (byte s 0 = some 7 ∧ byte s 1 = some 5)
    | none => false) = true := by decide +kernel

/-! ## Where the library falls short -/

/-- A field registered in the context of a sub-operator after the label was made is not set, although the sub-operator has
the field, and asking for the label again does not help. -/
theorem C48_late_witness : ∃ s0 s1 s s' : St Nat, ∃ l, Reached s0 ∧ (s0.ops 10).comp = true ∧
    getLabel 10 "t" s0 = .ok s1 (some (.group 0)) ∧ Runs s1 s ∧ getLabel 10 "t" s = .ok s (some (.group 0)) ∧
    2 ∈ (s.ops 10).subs ∧ ctxOf s 2 = some 2 ∧ HasField s 2 "t" l ∧
    setLabel 10 (some (.group 0)) .bool seven s = .ok s' () ∧ byte s' 0 = some 7 ∧ byte s' 2 = some 5 := by
  obtain ⟨s0, h0, hP⟩ := after (cs := exProg) (s := exStart) (P := fun s0 =>
    decide ((s0.ops 10).comp = true) &&
    okAnd (getLabel 10 "t" s0) fun s1 p => decide (p = some (.group 0)) &&
      (match runAll [.ctx 2 (.register "t" 0 (some "") .bool 1)] s1 with
      | some s => decide (2 ∈ (s.ops 10).subs ∧ ctxOf s 2 = some 2 ∧
          (s.ctxs 2).ctx.map (fun x => x.labels) = some [⟨"t", "", .bool, 1, 1, 0⟩]) &&
        okAnd (setLabel 10 (some (.group 0)) .bool seven s) fun s' _ => decide (byte s' 0 = some 7 ∧ byte s' 2 = some 5)
      | none => false)) (by decide +kernel)
  simp only [Bool.and_eq_true, decide_eq_true_eq] at hP
  obtain ⟨a1, hP⟩ := hP
  obtain ⟨s1, p, e1, hP⟩ := okAnd_iff hP
  simp only [Bool.and_eq_true, decide_eq_true_eq] at hP
  obtain ⟨rfl, hP⟩ := hP
  obtain ⟨s, hr, hP⟩ := after hP
  simp only [Bool.and_eq_true, decide_eq_true_eq] at hP
  obtain ⟨⟨b1, b2, b3⟩, hP⟩ := hP
  obtain ⟨s', u, e2, hP⟩ := okAnd_iff hP
  simp only [decide_eq_true_eq] at hP
  obtain ⟨x, hx, hxl⟩ := Option.map_eq_some_iff.1 b3
  exact ⟨s0, s1, s, s', _, ⟨_, exStart_start, h0⟩, a1, e1, hr, C48_same ⟨_, exStart_start, h0⟩ a1 e1 hr, b1, b2,
    ⟨x, hx, by rw [hxl]; exact List.mem_singleton.2 rfl, rfl⟩, e2, hP⟩

/-- Sub-operators with fields of the same name but different types, or different numbers of values: asking for the label
is undefined, where an error is meant to be returned. -/
theorem C48_conflict_witness : ∃ s : St Nat, Reached s ∧ (∀ r ∈ (s.ops 10).subs ++ (s.ops 11).subs, (s.ops r).comp = false) ∧
    getLabel 10 "t" s = .ub ∧ getLabel 11 "t" s = .ub := by
  obtain ⟨s, h0, hP⟩ := after (cs := [.addSub 10 0 true, .addSub 10 3 true, .addSub 11 0 true, .addSub 11 4 true])
    (s := exStart) (P := fun s => decide (∀ r ∈ (s.ops 10).subs ++ (s.ops 11).subs, (s.ops r).comp = false) &&
      isUb (getLabel 10 "t" s) && isUb (getLabel 11 "t" s)) (by decide +kernel)
  simp only [Bool.and_eq_true, decide_eq_true_eq] at hP
  obtain ⟨⟨a1, a2⟩, a3⟩ := hP
  exact ⟨s, ⟨_, exStart_start, h0⟩, a1, isUb_iff a2, isUb_iff a3⟩

/-- A composite operator in a composite operator: asking for a label is undefined. -/
theorem C48_nested_witness : ∃ s : St Nat, Reached s ∧ (s.ops 11).subs = [10] ∧ (s.ops 10).subs = [0] ∧
    getLabel 11 "t" s = .ub := by
  obtain ⟨s, h0, hP⟩ := after (cs := [.addSub 10 0 true, .addSub 11 10 true])
    (s := exStart) (P := fun s => decide ((s.ops 11).subs = [10] ∧ (s.ops 10).subs = [0]) &&
      isUb (getLabel 11 "t" s)) (by decide +kernel)
  simp only [Bool.and_eq_true, decide_eq_true_eq] at hP
  obtain ⟨⟨a1, a2⟩, a3⟩ := hP
  exact ⟨s, ⟨_, exStart_start, h0⟩, a1, a2, isUb_iff a3⟩

/-- A label taken from a context directly, and not yet handed out by an operator, is accepted by any operator without
sub-operators: the field of another context is written. -/
theorem C48_context_witness : ∃ s s' : St Nat, Reached s ∧ ctxOf s 2 = some 2 ∧
    (∀ x, (s.ctxs 2).ctx = some x → x.labels = []) ∧
    setLabel 2 (some (.field 0 0)) .bool seven s = .ok s' () ∧ byte s' 0 = some 5 ∧ byte s' 2 = some 7 := by
  obtain ⟨s, h0, hP⟩ := after (cs := [])
    (s := exStart) (P := fun s => decide (ctxOf s 2 = some 2 ∧ (s.ctxs 2).ctx.map (fun x => x.labels) = some []) &&
      okAnd (setLabel 2 (some (.field 0 0)) .bool seven s) fun s' _ => decide (byte s' 0 = some 5 ∧ byte s' 2 = some 7))
      (by decide +kernel)
  simp only [Bool.and_eq_true, decide_eq_true_eq] at hP
  obtain ⟨⟨a1, a2⟩, hP⟩ := hP
  obtain ⟨s', u, e2, hP⟩ := okAnd_iff hP
  simp only [decide_eq_true_eq] at hP
  exact ⟨s, s', ⟨_, exStart_start, h0⟩, a1, fun x hx => by rw [hx] at a2; simpa using a2, e2, hP⟩

/-- When the context of the QFunction of a sub-operator is replaced after the label was made, setting writes to the new
context, which does not have the field. -/
theorem C48_replaced_witness : ∃ s s1 s2 s' : St Nat, Reached s ∧ getLabel 10 "t" s = .ok s1 (some (.group 0)) ∧
    setContext 0 (some 2) s1 = .ok s2 () ∧ ctxOf s2 0 = some 2 ∧ (∀ l, ¬ HasField s2 2 "t" l) ∧
    setLabel 10 (some (.group 0)) .bool seven s2 = .ok s' () ∧ byte s' 2 = some 7 := by
  obtain ⟨s, h0, hP⟩ := after (cs := [.addSub 10 0 true])
    (s := exStart) (P := fun s => okAnd (getLabel 10 "t" s) fun s1 p => decide (p = some (.group 0)) &&
      okAnd (setContext 0 (some 2) s1) fun s2 _ =>
      decide (ctxOf s2 0 = some 2 ∧ (s2.ctxs 2).ctx.map (fun x => x.labels) = some []) &&
      okAnd (setLabel 10 (some (.group 0)) .bool seven s2) fun s' _ => decide (byte s' 2 = some 7))
      (by decide +kernel)
  obtain ⟨s1, p, e1, hP⟩ := okAnd_iff hP
  simp only [Bool.and_eq_true, decide_eq_true_eq] at hP
  obtain ⟨rfl, hP⟩ := hP
  obtain ⟨s2, u, e2, hP⟩ := okAnd_iff hP
  simp only [Bool.and_eq_true, decide_eq_true_eq] at hP
  obtain ⟨⟨a1, a2⟩, hP⟩ := hP
  obtain ⟨s', u, e3, hP⟩ := okAnd_iff hP
  simp only [decide_eq_true_eq] at hP
  refine ⟨s, s1, s2, s', ⟨_, exStart_start, h0⟩, e1, e2, a1, ?_, e3, hP⟩
  rintro l ⟨x, hx, hl, -⟩
  rw [hx] at a2
  simp only [Option.map_some, Option.some.injEq] at a2
  rw [a2] at hl
  cases hl

end Labels
end Verif
