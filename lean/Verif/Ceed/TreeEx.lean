import Verif.Ceed.TreeProps

/-!
# C34 and C49: concrete trees, and where the code departs from the properties
-/

namespace Verif.Ceed

/-- The forest left by a call that succeeds. -/
def after {β : Type} (w : Forest Nat) (m : M (Forest Nat) β) : Forest Nat :=
  match m w with
  | .ok w' _ => w'
  | _ => w

/-- Two Ceeds, neither attached to anything. -/
def exTwo (env : Handler) : Forest Nat := after (after (Forest.init env) (texec .new)) (texec .new)
/-- Ceed 0 delegates to Ceed 1. -/
def exDel (env : Handler) : Forest Nat := after (exTwo env) (texec (.setDelegate 0 1))
/-- Ceed 0 delegates to Ceed 1 and has a valid fallback resource. -/
def exVal (env : Handler) : Forest Nat := after (exDel env) (texec (.setFallbackResource 0 true))
/-- Then also Ceeds 2 and 3 exist. -/
def exFour (env : Handler) : Forest Nat := after (after (exVal env) (texec .new)) (texec .new)
/-- Ceed 2 delegates to Ceed 3: what `CeedInit` of a backend with a delegate leaves. -/
def exSub (env : Handler) : Forest Nat := after (exFour env) (texec (.setDelegate 2 3))
/-- The user asks for stored errors. -/
def exStore (env : Handler) : Forest Nat := after (exSub env) (texec (.setHandler 0 .store))
/-- Ceed 2 becomes the operator fallback of Ceed 0. -/
def exFall (env : Handler) : Forest Nat := after (exStore env) (texec (.getFallback 0 2))

theorem not_root {w : Forest Nat} {c d r : Nat} (h : Root w c r) (hne : d ≠ r) : ¬ Root w c d := by
  rintro ⟨l, hl⟩
  obtain ⟨l', hl'⟩ := h
  exact hne (hl.unique hl').1

theorem exTwo_grown (env : Handler) : Grown (exTwo env) :=
  Grown.call (Grown.call (Grown.init env) .new trivial (w' := after (Forest.init env) (texec .new)) rfl) .new trivial rfl

theorem exDel_grown (env : Handler) : Grown (exDel env) :=
  Grown.call (exTwo_grown env) (.setDelegate 0 1)
    ⟨by intro n hn; cases hn; rfl, ⟨_, rfl, rfl, rfl⟩, not_root (r := 0) ⟨0, Chain.root rfl rfl⟩ (by decide)⟩ rfl

theorem exVal_grown (env : Handler) : Grown (exVal env) :=
  Grown.call (exDel_grown env) (.setFallbackResource 0 true) trivial rfl

theorem exFour_grown (env : Handler) : Grown (exFour env) :=
  Grown.call (Grown.call (exVal_grown env) .new trivial (w' := after (exVal env) (texec .new)) rfl) .new trivial rfl

theorem exSub_grown (env : Handler) : Grown (exSub env) :=
  Grown.call (exFour_grown env) (.setDelegate 2 3)
    ⟨by intro n hn; cases hn; rfl, ⟨_, rfl, rfl, rfl⟩, not_root (r := 2) ⟨0, Chain.root rfl rfl⟩ (by decide)⟩ rfl

theorem exStore_grown (env : Handler) : Grown (exStore env) :=
  Grown.call (exSub_grown env) (.setHandler 0 .store) trivial rfl

theorem exFall_grown (env : Handler) : Grown (exFall env) :=
  Grown.call (exStore_grown env) (.getFallback 0 2)
    ⟨⟨_, rfl, rfl, rfl⟩, not_root (r := 0) ⟨0, Chain.root rfl rfl⟩ (by decide)⟩ rfl

/-- The hypotheses of `C34_error` and `C34_parent_partial` are met two levels down: Ceed 3 is the delegate of the
fallback of Ceed 0. -/
example : Grown (exFall .store) ∧ Root (exFall .store) 3 0 ∧ IsRoot (exFall .store) 0 ∧ Below (exFall .store) 0 1 ∧
    ∃ n, (exFall .store).node 3 = some n ∧ n.handler = .store :=
  ⟨exFall_grown _, ⟨2, Chain.step (p := 2) rfl rfl (Chain.step (p := 0) rfl rfl (Chain.root rfl rfl))⟩,
    ⟨_, rfl, rfl, rfl⟩, Below.step ⟨_, rfl, Or.inl rfl⟩ (Below.refl _), _, rfl, rfl⟩

/-- An error on Ceed 3 is read from Ceed 0. -/
example : getMessage 0 (after (exFall .store) (raise 3 7)) = .ok (after (exFall .store) (raise 3 7)) (some 7) := rfl

/-- **C34, disagreement.** The parent of an operator fallback is the fallback itself, not the root the user created:
Ceed 2 is the fallback of the root 0, whose errors go to 0, yet `CeedGetParent` of 2 returns 2. -/
theorem C34_parent_witness (env : Handler) :
    Grown (exFall env) ∧ IsRoot (exFall env) 0 ∧ Root (exFall env) 2 0 ∧
    (∃ n, (exFall env).node 0 = some n ∧ n.fallback = some 2) ∧
    ∃ w', getParent 2 (exFall env) = .ok w' 2 :=
  ⟨exFall_grown env, ⟨_, rfl, rfl, rfl⟩, ⟨1, Chain.step (p := 0) rfl rfl (Chain.root rfl rfl)⟩, ⟨_, rfl, rfl⟩, _, rfl⟩

/-- **C34, disagreement.** The user asks for stored errors on the root; the fallback made afterwards takes over the
handler of the root, but its own delegate does not: an error on Ceed 3 ends the process instead of being stored. -/
theorem C34_fallback_delegate_witness :
    Grown (exFall .stop) ∧ Root (exFall .stop) 3 0 ∧
    (∃ n, (exFall .stop).node 0 = some n ∧ n.handler = .store) ∧
    raise 3 7 (exFall .stop) = .ok (exFall .stop) false :=
  ⟨exFall_grown _, ⟨2, Chain.step (p := 2) rfl rfl (Chain.step (p := 0) rfl rfl (Chain.root rfl rfl))⟩, ⟨_, rfl, rfl⟩, rfl⟩

/-- Ceed 2 becomes the fallback of Ceed 0 before the user changes the handler. -/
def exLate : Forest Nat := after (after (exSub .stop) (texec (.getFallback 0 2))) (texec (.setHandler 0 .store))

/-- **C34, disagreement.** `CeedSetErrorHandler` on the root does not reach an operator fallback made earlier. -/
theorem C34_handler_witness :
    Grown exLate ∧ Root exLate 2 0 ∧ (∃ n, exLate.node 0 = some n ∧ n.handler = .store) ∧
    raise 2 7 exLate = .ok exLate false :=
  ⟨Grown.call (w := after (exSub .stop) (texec (.getFallback 0 2)))
      (Grown.call (exSub_grown .stop) (.getFallback 0 2)
        ⟨⟨_, rfl, rfl, rfl⟩, not_root (r := 0) ⟨0, Chain.root rfl rfl⟩ (by decide)⟩ rfl) (.setHandler 0 .store) trivial rfl,
    ⟨1, Chain.step (p := 0) rfl rfl (Chain.root rfl rfl)⟩, ⟨_, rfl, rfl⟩, rfl⟩

/-- A history with destruction: Ceed 0 delegates to Ceed 1 and drops its local handle to it; an object made by the
delegate holds a reference to Ceed 1 (`CeedVectorCreate` stores the delegate); the user destroys Ceed 0. -/
def exDangling : M (Forest Nat) Unit := do
  let c ← newCeed
  let d ← newCeed
  setDelegate c d
  destroy d
  reference d
  destroy c

/-- **C34, disagreement.** An object outliving the root: the Ceed it holds still points to the freed root, so that
asking for its parent, reading an error message, or an error on it, uses freed memory. -/
theorem C34_dangling_witness :
    (∃ w, exDangling (Forest.init .store) = .ok w () ∧ (∃ n, w.node 1 = some n ∧ n.refs = 1) ∧
      getParent 1 w = .ub ∧ getMessage 1 w = .ub ∧ raise 1 7 w = .ub) :=
  ⟨_, rfl, ⟨_, rfl, rfl⟩, rfl, rfl, rfl⟩

/-! ### C49 -/

section
variable {μ : Type}

/-- **C49, partly.** After the first object delegate of a Ceed is set, objects of that kind use it and objects of other
kinds use the default delegate. Missing: a second object delegate, see `C49_second_witness`. -/
theorem C49_lookup_partial {w : Forest μ} {c d : Nat} {n m : Node μ} (hn : w.node c = some n) (hm : w.node d = some m)
    (hcd : c ≠ d) (ho : n.objs = []) (x : List Char) :
    ∃ w', setObjectDelegate c d x w = .ok w' () ∧ (∃ w'', getObjectDelegate c x w' = .ok w'' (some d)) ∧
      ∀ y, y ≠ x → getObjectDelegate c y w' = getDelegate c w' := by
  refine ⟨_, setObjectDelegate_eq hn hm hcd ho x, ?_, ?_⟩
  · simp only [getObjectDelegate, M.bind_apply]
    rw [get_eq (n := { n with objs := [(x, d)] }) (by simp [hcd])]
    simp only [Out.bind_ok, if_true, M.bind_apply, reference]
    rw [modify_eq (n := { m with refs := m.refs + 1, parent := some c }) _ (by simp)]
    exact ⟨_, rfl⟩
  · intro y hy
    simp only [getObjectDelegate, M.bind_apply]
    rw [get_eq (n := { n with objs := [(x, d)] }) (by simp [hcd])]
    simp only [Out.bind_ok, hy, if_false]

/-- **C49.** With no object delegate, every kind of object uses the default delegate. -/
theorem C49_default {w : Forest μ} {c : Nat} {n : Node μ} (hn : w.node c = some n) (ho : n.objs = []) (y : List Char) :
    getObjectDelegate c y w = getDelegate c w := by
  simp only [getObjectDelegate, M.bind_apply]
  rw [get_eq hn]
  simp only [Out.bind_ok, ho]

/-- **C49, disagreement.** Setting a second object delegate is undefined behaviour: the new entry of the table is not
initialised before it is overwritten by reference. -/
theorem C49_second_witness {w : Forest μ} {c d : Nat} {n : Node μ} (hn : w.node c = some n) (ho : n.objs ≠ [])
    (x : List Char) : setObjectDelegate c d x w = .ub := by
  have : n.objs.length ≠ 0 := by simpa using ho
  simp only [setObjectDelegate, M.bind_apply]
  rw [get_eq hn]
  simp only [Out.bind_ok]
  rw [if_neg this]
  rfl

end

/-- The hypotheses of `C49_lookup_partial` are met. -/
example : ∃ n m, (exTwo .store).node 0 = some n ∧ (exTwo .store).node 1 = some m ∧ n.objs = [] := ⟨_, _, rfl, rfl, rfl⟩

end Verif.Ceed
