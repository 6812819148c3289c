import Verif.QFunction.Fields

/-!
# C36: fields of a QFunction
-/

namespace Verif.QFunction

/-! ### Specification -/

/-- Calls on a QFunction; `run` is what the backend's `Apply` returns. -/
inductive QCall
  | addInput (name : List Char) (size : Int) (mode : EvalMode)
  | addOutput (name : List Char) (size : Int) (mode : EvalMode)
  | getFields
  | apply (run : QFunc → Res Unit) (Q : Int)

/-- A call, its result dropped. -/
def qexec : QCall → M QFunc Unit
  | .addInput n s m => addInput n s m
  | .addOutput n s m => addOutput n s m
  | .getFields => do
    let _ ← getFields
    pure ()
  | .apply run Q => apply run Q

/-- `q'` is left by some sequence of calls on `q`, each of them successful or refused with an error. -/
inductive Calls (q : QFunc) : QFunc → Prop
  | refl : Calls q q
  | ok {q1 q2 : QFunc} {c : QCall} (h : Calls q q1) (hr : qexec c q1 = .ok q2 ()) : Calls q q2
  | err {q1 q2 : QFunc} {c : QCall} {e : Err} (h : Calls q q1) (hr : qexec c q1 = .err q2 e) : Calls q q2

/-- The names of all fields. -/
def names (q : QFunc) : List (List Char) := (q.inputs ++ q.outputs).map Field.name

/-! ### The calls, decided -/

theorem checkNames_eq (name : List Char) (t : List Field) (q : QFunc) :
    checkNames name t q = if name ∈ t.map Field.name then .err q .minor else .ok q () := by
  induction t with
  | nil => rfl
  | cons f t ih =>
    simp only [checkNames, M.bind_apply, M.check]
    by_cases h : name = f.name
    · rw [if_neg (by simpa using h), Out.bind_err, if_pos (by simp [h])]
    · rw [if_pos (by simpa using h), Out.bind_ok, ih]
      simp [h]

theorem addInput_eq (name : List Char) (size : Int) (mode : EvalMode) (q : QFunc) :
    addInput name size mode q =
      if q.immutable = true then .err q .major
      else if mode = .weight ∧ size ≠ 1 then .err q .dimension
      else if name ∈ names q then .err q .minor
      else if q.inputs.length < 16 then .ok { q with inputs := q.inputs ++ [⟨name, size, mode⟩] } ()
      else .ub := by
  simp only [addInput, getQ, M.bind_apply, Out.bind_ok, M.check, checkNames_eq]
  by_cases h1 : q.immutable = true
  · rw [if_neg (by simpa using h1), if_pos h1, Out.bind_err]
  · rw [if_pos h1, if_neg h1, Out.bind_ok]
    by_cases h2 : mode = .weight ∧ size ≠ 1
    · rw [if_pos h2, if_neg (by simpa using h2), Out.bind_err]
    · rw [if_neg h2, if_pos (by by_cases hm : mode = .weight <;> simp_all), Out.bind_ok]
      by_cases h3 : name ∈ q.inputs.map Field.name
      · rw [if_pos h3, Out.bind_err, if_pos (by unfold names; rw [List.map_append]; exact List.mem_append_left _ h3)]
      · rw [if_neg h3, Out.bind_ok]
        by_cases h4 : name ∈ q.outputs.map Field.name
        · rw [if_pos h4, Out.bind_err, if_pos (by unfold names; rw [List.map_append]; exact List.mem_append_right _ h4)]
        · rw [if_neg h4, Out.bind_ok,
            if_neg (c := name ∈ names q) (by unfold names; rw [List.map_append, List.mem_append]; exact fun h => h.elim h3 h4)]
          by_cases h5 : q.inputs.length < 16
          · rw [if_pos h5, if_pos (show _ < fieldMax from h5)]; rfl
          · rw [if_neg h5, if_neg (show ¬ _ < fieldMax from h5)]; rfl

theorem addOutput_eq (name : List Char) (size : Int) (mode : EvalMode) (q : QFunc) :
    addOutput name size mode q =
      if q.immutable = true then .err q .major
      else if mode = .weight then .err q .dimension
      else if name ∈ names q then .err q .minor
      else if q.outputs.length < 16 then .ok { q with outputs := q.outputs ++ [⟨name, size, mode⟩] } ()
      else .ub := by
  simp only [addOutput, getQ, M.bind_apply, Out.bind_ok, M.check, checkNames_eq]
  by_cases h1 : q.immutable = true
  · rw [if_neg (by simpa using h1), if_pos h1, Out.bind_err]
  · rw [if_pos h1, if_neg h1, Out.bind_ok]
    by_cases h2 : mode = .weight
    · rw [if_pos h2, if_neg (by simpa using h2), Out.bind_err]
    · rw [if_neg h2, if_pos h2, Out.bind_ok]
      by_cases h3 : name ∈ q.inputs.map Field.name
      · rw [if_pos h3, Out.bind_err, if_pos (by unfold names; rw [List.map_append]; exact List.mem_append_left _ h3)]
      · rw [if_neg h3, Out.bind_ok]
        by_cases h4 : name ∈ q.outputs.map Field.name
        · rw [if_pos h4, Out.bind_err, if_pos (by unfold names; rw [List.map_append]; exact List.mem_append_right _ h4)]
        · rw [if_neg h4, Out.bind_ok,
            if_neg (c := name ∈ names q) (by unfold names; rw [List.map_append, List.mem_append]; exact fun h => h.elim h3 h4)]
          by_cases h5 : q.outputs.length < 16
          · rw [if_pos h5, if_pos (show _ < fieldMax from h5)]; rfl
          · rw [if_neg h5, if_neg (show ¬ _ < fieldMax from h5)]; rfl

theorem apply_eq (run : QFunc → Res Unit) (Q : Int) (q : QFunc) :
    apply run Q q =
      if q.vecLength = 0 then .ub
      else if Int.tmod Q q.vecLength = 0 then M.lift (run q) { q with immutable := true }
      else .err q .dimension := by
  simp only [apply, getQ, M.bind_apply, Out.bind_ok]
  by_cases h : q.vecLength = 0
  · rw [if_pos h, if_pos h]; rfl
  · rw [if_neg h, if_neg h]
    simp only [M.bind_apply, M.check]
    by_cases h1 : Int.tmod Q q.vecLength = 0
    · rw [if_pos h1, if_pos h1]; rfl
    · rw [if_neg h1, if_neg h1]; rfl

/-- What one call leaves, whether it succeeds or is refused. -/
theorem call_cases {c : QCall} {q q' : QFunc} (h : (∃ a, qexec c q = .ok q' a) ∨ ∃ e, qexec c q = .err q' e) :
    q' = q ∨ (q'.inputs = q.inputs ∧ q'.outputs = q.outputs ∧ q'.immutable = true ∧ q'.vecLength = q.vecLength) ∨
    (∃ n s m, c = .addInput n s m ∧ q.immutable ≠ true ∧ n ∉ names q ∧ q.inputs.length < 16 ∧
      q' = { q with inputs := q.inputs ++ [⟨n, s, m⟩] }) ∨
    (∃ n s m, c = .addOutput n s m ∧ q.immutable ≠ true ∧ n ∉ names q ∧ q.outputs.length < 16 ∧
      q' = { q with outputs := q.outputs ++ [⟨n, s, m⟩] }) := by
  cases c with
  | addInput n s m =>
    simp only [qexec, addInput_eq] at h
    by_cases h1 : q.immutable = true
    · simp [h1] at h; exact Or.inl h.symm
    by_cases h2 : m = .weight ∧ s ≠ 1
    · rw [if_neg h1, if_pos h2] at h; simp at h; exact Or.inl h.symm
    by_cases h3 : n ∈ names q
    · rw [if_neg h1, if_neg h2, if_pos h3] at h; simp at h; exact Or.inl h.symm
    by_cases h4 : q.inputs.length < 16
    · rw [if_neg h1, if_neg h2, if_neg h3, if_pos h4] at h
      simp at h
      exact Or.inr (Or.inr (Or.inl ⟨n, s, m, rfl, h1, h3, h4, h.symm⟩))
    · rw [if_neg h1, if_neg h2, if_neg h3, if_neg h4] at h; simp at h
  | addOutput n s m =>
    simp only [qexec, addOutput_eq] at h
    by_cases h1 : q.immutable = true
    · simp [h1] at h; exact Or.inl h.symm
    by_cases h2 : m = .weight
    · rw [if_neg h1, if_pos h2] at h; simp at h; exact Or.inl h.symm
    by_cases h3 : n ∈ names q
    · rw [if_neg h1, if_neg h2, if_pos h3] at h; simp at h; exact Or.inl h.symm
    by_cases h4 : q.outputs.length < 16
    · rw [if_neg h1, if_neg h2, if_neg h3, if_pos h4] at h
      simp at h
      exact Or.inr (Or.inr (Or.inr ⟨n, s, m, rfl, h1, h3, h4, h.symm⟩))
    · rw [if_neg h1, if_neg h2, if_neg h3, if_neg h4] at h; simp at h
  | getFields =>
    have : qexec .getFields q = .ok { q with immutable := true } () := rfl
    rw [this] at h
    simp at h
    subst h
    exact Or.inr (Or.inl ⟨rfl, rfl, rfl, rfl⟩)
  | apply run Q =>
    simp only [qexec, apply_eq] at h
    by_cases h1 : q.vecLength = 0
    · rw [if_pos h1] at h; simp at h
    by_cases h2 : Int.tmod Q q.vecLength = 0
    · rw [if_neg h1, if_pos h2] at h
      have hq : q' = { q with immutable := true } := by
        unfold M.lift at h
        cases hr : run q with
        | ok a => rw [hr] at h; simp at h; exact h.symm
        | err e => rw [hr] at h; simp at h; exact h.symm
        | ub => rw [hr] at h; simp at h
      subst hq
      exact Or.inr (Or.inl ⟨rfl, rfl, rfl, rfl⟩)
    · rw [if_neg h1, if_neg h2] at h; simp at h; exact Or.inl h.symm

theorem Calls.ind {P : QFunc → Prop} {q q' : QFunc} (h : Calls q q') (h0 : P q)
    (hs : ∀ c q1 q2, P q1 → ((∃ a, qexec c q1 = .ok q2 a) ∨ ∃ e, qexec c q1 = .err q2 e) → P q2) : P q' := by
  induction h with
  | refl => exact h0
  | ok _ hr ih => exact hs _ _ _ ih (Or.inl ⟨_, hr⟩)
  | err _ hr ih => exact hs _ _ _ ih (Or.inr ⟨_, hr⟩)

/-! ### Theorems -/

/-- **C36.** After every sequence of calls on a new QFunction the field names are unique across inputs and outputs. -/
theorem C36_unique {v : Int} {q : QFunc} (h : Calls (QFunc.create v) q) : (names q).Nodup := by
  refine h.ind (P := fun q => (names q).Nodup) (by simp [names, QFunc.create]) ?_
  intro c q1 q2 hn hc
  rcases call_cases hc with rfl | ⟨h1, h2, _⟩ | ⟨n, s, m, _, _, h3, _, rfl⟩ | ⟨n, s, m, _, _, h3, _, rfl⟩
  · exact hn
  · unfold names at hn ⊢; rw [h1, h2]; exact hn
  · unfold names at hn h3 ⊢
    simp only [List.map_append, List.map_cons, List.map_nil, List.append_assoc] at hn h3 ⊢
    rw [List.nodup_append] at hn ⊢
    obtain ⟨a, b, c⟩ := hn
    rw [List.mem_append, not_or] at h3
    refine ⟨a, List.nodup_cons.2 ⟨h3.2, b⟩, ?_⟩
    intro x hx y hy
    rcases List.mem_cons.1 hy with rfl | hy
    · rintro rfl; exact h3.1 hx
    · exact c x hx y hy
  · unfold names at hn h3 ⊢
    simp only [List.map_append, List.map_cons, List.map_nil] at hn h3 ⊢
    rw [← List.append_assoc, List.nodup_append]
    refine ⟨hn, by simp, ?_⟩
    intro x hx y hy
    simp only [List.mem_singleton] at hy
    subst hy
    rintro rfl
    exact h3 hx

/-- Once immutable, always immutable, with the same fields. -/
theorem frozen {q q' : QFunc} (h : Calls q q') (hi : q.immutable = true) :
    q'.immutable = true ∧ q'.inputs = q.inputs ∧ q'.outputs = q.outputs := by
  refine h.ind (P := fun x => x.immutable = true ∧ x.inputs = q.inputs ∧ x.outputs = q.outputs) ⟨hi, rfl, rfl⟩ ?_
  intro c q1 q2 ⟨i1, i2, i3⟩ hc
  rcases call_cases hc with rfl | ⟨h1, h2, h3, _⟩ | ⟨n, s, m, _, h4, _⟩ | ⟨n, s, m, _, h4, _⟩
  · exact ⟨i1, i2, i3⟩
  · exact ⟨h3, h1.trans i2, h2.trans i3⟩
  · exact absurd i1 h4
  · exact absurd i1 h4

/-- **C36.** After the fields were inspected, or the QFunction was applied, the fields never change again and every
attempt to add one is refused. -/
theorem C36_immutable {q q1 q2 : QFunc}
    (h : (∃ r, getFields q = .ok q1 r) ∨ (∃ run Q, apply run Q q = .ok q1 ())) (hc : Calls q1 q2)
    (name : List Char) (size : Int) (mode : EvalMode) :
    q2.inputs = q.inputs ∧ q2.outputs = q.outputs ∧
    addInput name size mode q2 = .err q2 .major ∧ addOutput name size mode q2 = .err q2 .major := by
  have h0 : q1.immutable = true ∧ q1.inputs = q.inputs ∧ q1.outputs = q.outputs := by
    rcases h with ⟨r, h⟩ | ⟨run, Q, h⟩
    · have e : getFields q = .ok { q with immutable := true } (q.inputs, q.outputs) := rfl
      rw [e] at h
      cases h
      exact ⟨rfl, rfl, rfl⟩
    · rw [apply_eq] at h
      by_cases h1 : q.vecLength = 0
      · rw [if_pos h1] at h; cases h
      by_cases h2 : Int.tmod Q q.vecLength = 0
      · rw [if_neg h1, if_pos h2] at h
        unfold M.lift at h
        cases hr : run q with
        | ok a => rw [hr] at h; cases h; exact ⟨rfl, rfl, rfl⟩
        | err e => rw [hr] at h; cases h
        | ub => rw [hr] at h; cases h
      · rw [if_neg h1, if_neg h2] at h; cases h
  obtain ⟨f1, f2, f3⟩ := frozen hc h0.1
  refine ⟨f2.trans h0.2.1, f3.trans h0.2.2, ?_, ?_⟩
  · rw [addInput_eq, if_pos f1]
  · rw [addOutput_eq, if_pos f1]

/-- **C36.** `GetFields` returns all fields in the order they were added: adding one puts it after those of its kind and
moves no other. -/
theorem C36_order (q : QFunc) :
    (∃ q', getFields q = .ok q' (q.inputs, q.outputs)) ∧
    (∀ n s m q', addInput n s m q = .ok q' () → q'.inputs = q.inputs ++ [⟨n, s, m⟩] ∧ q'.outputs = q.outputs) ∧
    (∀ n s m q', addOutput n s m q = .ok q' () → q'.outputs = q.outputs ++ [⟨n, s, m⟩] ∧ q'.inputs = q.inputs) := by
  refine ⟨⟨_, rfl⟩, ?_, ?_⟩
  · intro n s m q' h
    rw [addInput_eq] at h
    split at h
    · cases h
    split at h
    · cases h
    split at h
    · cases h
    split at h
    · cases h; exact ⟨rfl, rfl⟩
    · cases h
  · intro n s m q' h
    rw [addOutput_eq] at h
    split at h
    · cases h
    split at h
    · cases h
    split at h
    · cases h
    split at h
    · cases h; exact ⟨rfl, rfl⟩
    · cases h

/-- **C36.** Before the QFunction is inspected or applied, an input is accepted exactly when its name is new and a
weight has size one, an output exactly when its name is new and it is no weight. Room in the table is assumed, see
`C36_overflow_witness`. -/
theorem C36_accept {q : QFunc} (hi : q.immutable = false) (n : List Char) (s : Int) (m : EvalMode) :
    (q.inputs.length < 16 → ((∃ q', addInput n s m q = .ok q' ()) ↔ n ∉ names q ∧ (m = .weight → s = 1))) ∧
    (q.outputs.length < 16 → ((∃ q', addOutput n s m q = .ok q' ()) ↔ n ∉ names q ∧ m ≠ .weight)) := by
  constructor
  · intro hl
    rw [addInput_eq, if_neg (by simp [hi])]
    by_cases h2 : m = .weight ∧ s ≠ 1
    · rw [if_pos h2]
      constructor
      · rintro ⟨q', h⟩; cases h
      · intro h; exact absurd (h.2 h2.1) h2.2
    · rw [if_neg h2]
      by_cases h3 : n ∈ names q
      · rw [if_pos h3]
        constructor
        · rintro ⟨q', h⟩; cases h
        · intro h; exact absurd h3 h.1
      · rw [if_neg h3, if_pos hl]
        refine ⟨fun _ => ⟨h3, fun hm => ?_⟩, fun _ => ⟨_, rfl⟩⟩
        by_contra hs
        exact h2 ⟨hm, hs⟩
  · intro hl
    rw [addOutput_eq, if_neg (by simp [hi])]
    by_cases h2 : m = .weight
    · rw [if_pos h2]
      constructor
      · rintro ⟨q', h⟩; cases h
      · intro h; exact absurd h2 h.2
    · rw [if_neg h2]
      by_cases h3 : n ∈ names q
      · rw [if_pos h3]
        constructor
        · rintro ⟨q', h⟩; cases h
        · intro h; exact absurd h3 h.1
      · rw [if_neg h3, if_pos hl]
        exact ⟨fun _ => ⟨h3, h2⟩, fun _ => ⟨_, rfl⟩⟩

/-- **C36.** A refused call changes nothing, except that an application that fails inside the backend has already made
the QFunction immutable. -/
theorem C36_refused {q q' : QFunc} {c : QCall} {e : Err} (h : qexec c q = .err q' e) :
    q'.inputs = q.inputs ∧ q'.outputs = q.outputs ∧ ((∀ run Q, c ≠ .apply run Q) → q' = q) := by
  rcases call_cases (Or.inr ⟨e, h⟩) with rfl | ⟨h1, h2, _⟩ | ⟨n, s, m, rfl, h1, h2, h3, rfl⟩ | ⟨n, s, m, rfl, h1, h2, h3, rfl⟩
  · exact ⟨rfl, rfl, fun _ => rfl⟩
  · refine ⟨h1, h2, fun hc => ?_⟩
    cases c with
    | addInput n s m =>
      simp only [qexec, addInput_eq] at h
      split at h
      · cases h; rfl
      split at h
      · cases h; rfl
      split at h
      · cases h; rfl
      split at h <;> cases h
    | addOutput n s m =>
      simp only [qexec, addOutput_eq] at h
      split at h
      · cases h; rfl
      split at h
      · cases h; rfl
      split at h
      · cases h; rfl
      split at h <;> cases h
    | getFields => cases h
    | apply run Q => exact absurd rfl (hc run Q)
  · exfalso
    simp only [qexec, addInput_eq] at h
    rw [if_neg h1] at h
    split at h
    · injection h with h4 _
      have := congrArg (fun x => x.inputs.length) h4
      simp at this
    · simp at h
  · exfalso
    simp only [qexec, addOutput_eq] at h
    rw [if_neg h1] at h
    split at h
    · injection h with h4 _
      have := congrArg (fun x => x.outputs.length) h4
      simp at this
    · simp at h

/-- **C36, partly.** No call writes outside the field tables while fewer than 16 inputs and 16 outputs are set (for a
nonzero vector length and a backend without undefined behaviour). Missing: the seventeenth field of a kind, see
`C36_overflow_witness`. -/
theorem C36_bounds_partial {q : QFunc} (hi : q.inputs.length < 16) (ho : q.outputs.length < 16) (hv : q.vecLength ≠ 0)
    (c : QCall) (hc : ∀ run Q, c = .apply run Q → run q ≠ .ub) : qexec c q ≠ .ub := by
  cases c with
  | addInput n s m =>
    simp only [qexec, addInput_eq]
    split
    · simp
    split
    · simp
    split
    · simp
    simp
  | addOutput n s m =>
    simp only [qexec, addOutput_eq]
    split
    · simp
    split
    · simp
    split
    · simp
    simp
  | getFields => intro h; cases h
  | apply run Q =>
    simp only [qexec, apply_eq]
    rw [if_neg hv]
    split
    · unfold M.lift
      have := hc run Q rfl
      cases hr : run q with
      | ok a => simp
      | err e => simp
      | ub => exact absurd hr this
    · simp

/-- The tables never hold more than 16 fields of a kind. -/
theorem C36_room {v : Int} {q : QFunc} (h : Calls (QFunc.create v) q) : q.inputs.length ≤ 16 ∧ q.outputs.length ≤ 16 := by
  refine h.ind (P := fun q => q.inputs.length ≤ 16 ∧ q.outputs.length ≤ 16) (by simp [QFunc.create]) ?_
  intro c q1 q2 hn hc
  rcases call_cases hc with rfl | ⟨h1, h2, _⟩ | ⟨n, s, m, _, _, _, h4, rfl⟩ | ⟨n, s, m, _, _, _, h4, rfl⟩
  · exact hn
  · rw [h1, h2]; exact hn
  · refine ⟨?_, hn.2⟩; simp; omega
  · refine ⟨hn.1, ?_⟩; simp; omega

/-! ### Concrete cases -/

/-- A QFunction with `n` inputs, named by increasing runs of one letter. -/
def exMany (v : Int) : Nat → QFunc
  | 0 => QFunc.create v
  | n + 1 => { exMany v n with inputs := (exMany v n).inputs ++ [⟨List.replicate n 'a', 1, .none⟩] }

theorem exMany_names (v : Int) (n : Nat) : names (exMany v n) = (List.range n).map (fun k => List.replicate k 'a') ∧
    (exMany v n).immutable = false ∧ (exMany v n).inputs.length = n ∧ (exMany v n).outputs = [] := by
  induction n with
  | zero => exact ⟨rfl, rfl, rfl, rfl⟩
  | succ n ih =>
    obtain ⟨h1, h2, h3, h4⟩ := ih
    refine ⟨?_, h2, by simp [exMany, h3], h4⟩
    unfold names at h1 ⊢
    rw [h4, List.append_nil] at h1
    simp only [exMany, h4, List.append_nil, List.map_append, h1, List.map_cons, List.map_nil, List.range_succ]

theorem exMany_fresh (v : Int) (n : Nat) : List.replicate n 'a' ∉ names (exMany v n) := by
  rw [(exMany_names v n).1]
  intro h
  obtain ⟨k, hk, he⟩ := List.mem_map.1 h
  have := congrArg List.length he
  simp at this hk
  omega

theorem exMany_calls (v : Int) (n : Nat) (hn : n ≤ 16) : Calls (QFunc.create v) (exMany v n) := by
  induction n with
  | zero => exact .refl
  | succ n ih =>
    refine .ok (c := .addInput (List.replicate n 'a') 1 .none) (ih (by omega)) ?_
    obtain ⟨_, h2, h3, _⟩ := exMany_names v n
    simp only [qexec, addInput_eq]
    rw [if_neg (by simp [h2]), if_neg (by simp), if_neg (exMany_fresh v n), if_pos (by omega)]
    rfl

/-- **C36, disagreement.** After sixteen accepted inputs, adding a seventeenth with a new name writes outside the
table. -/
theorem C36_overflow_witness (v : Int) :
    Calls (QFunc.create v) (exMany v 16) ∧ addInput (List.replicate 16 'a') 1 .none (exMany v 16) = .ub := by
  refine ⟨exMany_calls v 16 (le_refl _), ?_⟩
  obtain ⟨_, h2, h3, _⟩ := exMany_names v 16
  rw [addInput_eq, if_neg (by simp [h2]), if_neg (by simp), if_neg (exMany_fresh v 16), if_neg (by omega)]

/-- A QFunction with two inputs and an output, as the examples build it. -/
def exQ : QFunc := ⟨1, [⟨['u'], 1, .interp⟩, ⟨['w'], 1, .weight⟩], [⟨['v'], 1, .interp⟩], false⟩

example : Calls (QFunc.create 1) exQ :=
  .ok (c := .addOutput ['v'] 1 .interp) (.ok (c := .addInput ['w'] 1 .weight) (.ok (c := .addInput ['u'] 1 .interp) .refl rfl) rfl) rfl

/-- A duplicate name across the tables is refused, and so is any field after an application. -/
example : addOutput ['u'] 1 .interp exQ = .err exQ .minor ∧
    apply (fun _ => .ok ()) 8 exQ = .ok { exQ with immutable := true } () := ⟨rfl, rfl⟩

end Verif.QFunction
