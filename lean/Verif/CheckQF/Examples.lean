import Verif.CheckQF.Changed

/-!
# QFunction application of the checking backend: applications and disagreements
-/

namespace Verif
namespace CheckQF

/-- A vector of two entries, nobody has access. -/
def two (a b : Nat) : Vec Nat := ⟨2, 0, 0, some fun i => if i = 0 then a else b, none, none⟩

/-- Vector 0 holds 3, 4; the others hold 7, 7; the context holds 5. -/
def w0 : W Nat Nat := ⟨fun v => if v = 0 then two 3 4 else two 7 7, some ⟨0, 0, some 5, none, none⟩⟩

/-- Not set: 99. -/
def isNan (s : Nat) : Bool := s == 99

/-- The product of two inputs plus the context, set in the first `k` points. -/
def prod (k : Nat) : Option Nat → Nat → List (Nat → Nat) → List (Nat → Nat) → Option (UserOut Nat Nat) := fun c _ ins outs =>
  some ⟨c, ins, [fun i => if i < k then (ins[0]?.getD fun _ => 0) i * (ins[1]?.getD fun _ => 0) i + c.getD 0 else
    (outs[0]?.getD fun _ => 0) i]⟩

/-- A QFunction of two inputs and one output of size 1. -/
def qf (k : Nat) : QF Nat Nat := ⟨false, 1, [1], prod k⟩

/-- A user function that also changes its second input. -/
def qfIn : QF Nat Nat := ⟨false, 1, [1], fun c _ ins _ => some ⟨c, [ins[0]?.getD fun _ => 0, fun _ => 1], [fun _ => 1]⟩⟩

/-- A user function that counts its applications in the context. -/
def qfCtx (writable : Bool) : QF Nat Nat := ⟨writable, 1, [1], fun c _ ins _ => some ⟨c.map (· + 1), ins, [fun _ => 1]⟩⟩

/-- A user function that fails. -/
def qfFail : QF Nat Nat := ⟨false, 1, [1], fun _ _ _ _ => none⟩

/-- What the user function leaves. -/
def left (q : QF Nat Nat) (us vs : List Nat) : UserOut Nat Nat :=
  (q.user (ctxData w0) 2 (us.map (inVal 99 w0)) (vs.map fun _ => fun _ => 99)).getD ⟨none, [], []⟩

theorem ready (q : QF Nat Nat) (h1 : q.vecLen = 1) (h2 : q.sizes = [1]) (us : List Nat) (h3 : 2 ∉ us) : Ready w0 q 2 us [2] where
  vecLen := by omega
  points := by rw [h1]
  ins := by
    intro v _
    by_cases h : v = 0
    · simp [w0, h, Vec.Idle, two]
    · simp [w0, h, Vec.Idle, two]
  outs := by
    intro v hv
    cases List.mem_singleton.1 hv
    exact ⟨by simp [w0, Vec.Idle, two], h3⟩
  nodup := List.nodup_singleton _
  sizes := by
    rw [h2]
    exact .cons (by simp [w0, two]) .nil
  ctx := by
    intro c hc
    cases hc
    exact ⟨rfl, rfl, rfl, rfl, rfl⟩

/-- The hypotheses of `C78_applied_partial` are met: one vector for both inputs. -/
example : ∃ w', apply 99 isNan (qf 2) 2 [0, 0] [2] w0 = .ok w' () ∧ Applied w0 w' (qf 2) [2] (left (qf 2) [0, 0] [2]) :=
  C78_applied_partial 99 isNan (ready _ rfl rfl _ (by decide)) ⟨rfl, rfl⟩
    ⟨.cons (fun _ _ => rfl) (.cons (fun _ _ => rfl) .nil), fun _ => rfl, fun _ => rfl⟩
    (.cons (fun j hj => by
      rcases j with _ | _ | j
      · rfl
      · rfl
      · omega) .nil)

/-- The values: 3 * 3 + 5 and 4 * 4 + 5. -/
example : (match apply 99 isNan (qf 2) 2 [0, 0] [2] w0 with
    | .ok w' _ => (w'.vec 2).arr.map fun a => (a 0, a 1)
    | _ => none) = some (14, 21) := by decide +kernel

/-- The hypotheses of `C78_applied_partial` are met: a user function that writes to its context. -/
example : ∃ w', apply 99 isNan (qfCtx true) 2 [0, 1] [2] w0 = .ok w' () ∧
    Applied w0 w' (qfCtx true) [2] (left (qfCtx true) [0, 1] [2]) :=
  C78_applied_partial 99 isNan (ready _ rfl rfl _ (by decide)) ⟨rfl, rfl⟩
    ⟨.cons (fun _ _ => rfl) (.cons (fun _ _ => rfl) .nil), fun h => (by cases h), fun _ => rfl⟩
    (.cons (fun _ _ => rfl) .nil)

/-- The hypotheses of `C78_unset_partial`, and so of `C78_reports_partial`, are met: the second point is not set. -/
example : ∃ w', apply 99 isNan (qf 1) 2 [0, 0] [2] w0 = .err w' .backend :=
  C78_unset_partial 99 isNan rfl (ready _ rfl rfl _ (by decide)) (r := left (qf 1) [0, 0] [2]) ⟨rfl, rfl⟩
    (.cons (fun _ _ => rfl) (.cons (fun _ _ => rfl) .nil)) (k := 0) (n := 1) (j := 1) rfl rfl (by decide) rfl

/-- The hypotheses of `C78_changed_partial` are met. -/
example : ∃ w', apply 99 isNan qfIn 2 [0, 1] [2] w0 = .err w' .backend :=
  C78_changed_partial 99 isNan (ready _ rfl rfl _ (by decide)) (r := left qfIn [0, 1] [2]) ⟨rfl, rfl⟩ (by decide) rfl (by
    intro h
    cases h with
    | cons _ h =>
      cases h with
      | cons h _ => exact absurd (h 0 (by decide)) (by decide +kernel))

/-- The hypotheses of `C78_context_partial` are met. -/
example : ∃ w', apply 99 isNan (qfCtx false) 2 [0, 1] [2] w0 = .err w' .backend :=
  C78_context_partial 99 isNan (ready _ rfl rfl _ (by decide)) (r := left (qfCtx false) [0, 1] [2]) ⟨rfl, rfl⟩
    (.cons (fun _ _ => rfl) (.cons (fun _ _ => rfl) .nil)) rfl rfl (by decide +kernel)

/-- The hypotheses of `C78_points_partial` are met. -/
example : apply 99 isNan { qf 2 with vecLen := 4 } 6 [0, 0] [2] w0 = .err w0 .dimension :=
  C78_points_partial 99 isNan _ _ (by decide) (by decide)

/-- The world after an application that failed with this error. -/
def failed (e : Err) : Out (W Nat Nat) Unit → Option (W Nat Nat)
  | .err w e' => if e' = e then some w else none
  | _ => none

/-- The world after an application that succeeded. -/
def passed : Out (W Nat Nat) Unit → Option (W Nat Nat)
  | .ok w _ => some w
  | _ => none

/-- **C78**: after an unset output was reported, its vector and the context stay locked: the right function can not be applied
any more, since access to the output is refused, and the number of readers of the context never returns to 0. -/
theorem C78_locked_witness :
    (failed .backend (apply 99 isNan (qf 1) 2 [0, 0] [2] w0)).map (fun w => ((w.vec 2).state, w.ctx.map Cx.readers,
      (failed .access (apply 99 isNan (qf 2) 2 [0, 0] [2] w)).isSome)) = some (1, some 1, true) := by decide +kernel

/-- **C78**: after the user function has failed, its inputs and outputs stay locked. -/
theorem C78_failed_witness :
    (failed .minor (apply 99 isNan qfFail 2 [0, 0] [2] w0)).map (fun w => ((w.vec 0).readers, (w.vec 2).state,
      (failed .access (apply 99 isNan (qf 2) 2 [0, 0] [2] w)).isSome)) = some (2, 1, true) := by decide +kernel

/-- **C78**: a vector that is used as input and as output is refused, and the input stays locked: it can not be written to any
more. -/
theorem C78_alias_witness :
    (failed .access (apply 99 isNan (qf 2) 2 [0, 1] [1] w0)).map (fun w => ((w.vec 1).readers,
      (failed .access (apply 99 isNan (qf 2) 2 [0, 0] [1] w)).isSome)) = some (1, true) := by decide +kernel

/-- **C78**: a vector that is longer than the output has its other entries marked as unset: the values it held there are lost,
without an error. -/
theorem C78_longer_witness :
    (passed (apply 99 isNan (qf 1) 1 [0, 0] [2] w0)).map (fun w => (w.vec 2).arr.map fun a => (a 0, a 1)) = some (some (14, 99)) ∧
    (w0.vec 2).arr.map (fun a => a 1) = some 7 := by decide +kernel

/-- **C78**: a change of an input is not reported by the application if somebody else reads the vector at that time: the
application succeeds, and the changed values are what the next reader gets. -/
theorem C78_other_reader_witness :
    (passed (apply 99 isNan qfIn 2 [0, 1] [2]
      { w0 with vec := fun v => if v = 1 then { two 7 7 with readers := 1, ro := (two 7 7).arr } else w0.vec v })).map
      (fun w => (w.vec 1).ro.map fun a => a 0) = some (some 1) := by decide +kernel

end CheckQF
end Verif
