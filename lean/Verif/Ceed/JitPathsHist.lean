import Verif.Ceed.JitPathsProps

/-!
# C82: histories of calls on the two lists

Programs that go on after errors, calling through any `Ceed`s with the same top ancestor.
-/

namespace Verif
namespace JitPaths

/-- A call of a program: add a string, ask for a list, give it back; on list `k` through `Ceed` `c`. -/
inductive Call
  | add (k : Kind) (c : Nat) (s : String)
  | get (k : Kind) (c : Nat)
  | restore (k : Kind) (c : Nat)

/-- The `Ceed` a call goes through. -/
def Call.via : Call → Nat
  | .add _ c _ => c
  | .get _ c => c
  | .restore _ c => c

/-- The state after a call, with the list if one was returned; `none` when the behaviour is undefined. Errors are reported
and the program goes on. -/
def Call.run : Call → W → Option (W × Option (List String))
  | .add k c s, w =>
    match JitPaths.add k c s w with
    | .ok v _ => some (v, none)
    | .err v _ => some (v, none)
    | .ub => none
  | .get k c, w =>
    match getL k c w with
    | .ok v l => some (v, some l)
    | .err v _ => some (v, none)
    | .ub => none
  | .restore k c, w =>
    match restoreL k c w with
    | .ok v _ => some (v, none)
    | .err v _ => some (v, none)
    | .ub => none

/-- All calls in order; the lists returned by the requests, in order. -/
def runAll : List Call → W → Option (W × List (List String))
  | [], w => some (w, [])
  | q :: l, w =>
    match q.run w with
    | none => none
    | some (v, r) =>
      match runAll l v with
      | none => none
      | some (u, rs) => some (u, r.toList ++ rs)

/-! ## Specification: two lists with locks -/

/-- Strings and number of readers of both lists. -/
structure Spec where
  strs : Kind → List String
  locks : Kind → Int

/-- What a call does to them. -/
def Spec.step (a : Spec) : Call → Spec
  | .add k _ s => { a with strs := fun j => if j = k ∧ a.locks k = 0 then a.strs k ++ [s] else a.strs j }
  | .get k _ => { a with locks := fun j => a.locks j + if j = k then 1 else 0 }
  | .restore k _ => { a with locks := fun j => a.locks j - if j = k then 1 else 0 }

/-- What the requests return. -/
def Spec.answers (a : Spec) : List Call → List (List String)
  | [] => []
  | .get k c :: l => a.strs k :: (a.step (.get k c)).answers l
  | q :: l => (a.step q).answers l

/-- The lists of `Ceed` `t`. -/
def specOf (w : W) (t : Nat) : Spec := ⟨fun k => ((w.cd t).jl k).items, fun k => ((w.cd t).jl k).readers⟩

/-! ## Proof -/

variable {w w' : W} {c t : Nat} {k : Kind}

/-- What every call keeps. -/
def Keeps (t : Nat) (w w' : W) : Prop :=
  (∀ x, (w'.cd x).par = (w.cd x).par ∧ (w'.cd x).alive = (w.cd x).alive ∧ (w.cd x).ref ≤ (w'.cd x).ref) ∧
    ((∀ k, Fits ((w.cd t).jl k)) → ∀ k, Fits ((w'.cd t).jl k))

theorem Keeps.usable (h : Keeps t w w') (u : Usable w c t) : Usable w' c t := by
  obtain ⟨ho, ht, a, b, d⟩ := u
  exact ⟨fun x p hp => ho x p (by rw [← (h.1 x).1]; exact hp), isTop_congr (fun x => (h.1 x).1) ht, by rw [(h.1 c).2.1]; exact a,
    by rw [(h.1 t).2.1]; exact b, le_trans d (h.1 t).2.2⟩

theorem keeps_upd {g : Cd → Cd} (e : ∀ d, (g d).par = d.par ∧ (g d).alive = d.alive ∧ d.ref ≤ (g d).ref)
    (f : ∀ k, Fits ((w.cd t).jl k) → Fits ((g (w.cd t)).jl k)) : Keeps t w (w.upd t g) := by
  refine ⟨fun x => ?_, fun h k => by rw [upd_same]; exact f k (h k)⟩
  by_cases hx : x = t
  · subst hx; rw [upd_same]; exact e _
  · rw [upd_ne _ _ hx]; exact ⟨rfl, rfl, le_rfl⟩

theorem readers_fits (k : Kind) (i : Int) (d : Cd) (k' : Kind) (h : Fits (d.jl k')) : Fits ((readers k i d).jl k') := by
  by_cases hk : k' = k
  · subst hk; simpa [readers, Fits] using h
  · simpa [readers, hk] using h

theorem spec_ext {a b : Spec} (h1 : ∀ k, a.strs k = b.strs k) (h2 : ∀ k, a.locks k = b.locks k) : a = b := by
  obtain ⟨x, y⟩ := a
  obtain ⟨x', y'⟩ := b
  simp only at h1 h2
  rw [funext h1, funext h2]

theorem step_ok (q : Call) (u : Usable w q.via t) (hf : ∀ k, Fits ((w.cd t).jl k)) :
    ∃ v, q.run w = some (v, (match q with
      | .get k _ => some ((w.cd t).jl k).items
      | _ => none)) ∧ Keeps t w v ∧ specOf v t = (specOf w t).step q := by
  cases q with
  | add k c s =>
    change Usable w c t at u
    by_cases hr : ((w.cd t).jl k).readers = 0
    · refine ⟨w.upd t (pushed k s), by simp only [Call.run, add_ok u (hf k) hr s], keeps_upd (fun d => ?_) (fun k' h => ?_), ?_⟩
      · obtain ⟨a, b, e⟩ := pushed_keep k s d
        exact ⟨a, b, by rw [e]⟩
      · by_cases hk : k' = k
        · subst hk
          have := fits_grow h
          simp only [pushed, jl_setJl, if_true, Fits, List.length_append, List.length_singleton]
          omega
        · simpa [pushed, hk] using h
      · refine spec_ext (fun j => ?_) (fun j => ?_)
        · simp only [specOf, Spec.step, upd_same, pushed, jl_setJl, hr, and_true]
          by_cases hj : j = k
          · subst hj; simp
          · simp [hj]
        · simp only [specOf, Spec.step, upd_same, pushed, jl_setJl]
          by_cases hj : j = k
          · subst hj; simp
          · simp [hj]
    · have hta := u.2.2.2.1
      have he : JitPaths.add k c s w = .err (w.upd t fun d => { d with ref := d.ref + 1 }) .access := by
        unfold JitPaths.add
        rw [M.bind_apply, getParent_ok u, Out.bind_ok, M.bind_apply, look_ok (by rw [upd_same]; exact hta), Out.bind_ok, M.bind_apply,
          upd_same, M.check_false (by rw [ref_jl]; exact hr)]
        rfl
      refine ⟨w.upd t fun d => { d with ref := d.ref + 1 }, by simp only [Call.run, he], keeps_upd (fun d => ⟨rfl, rfl, ?_⟩) (fun k' h => by simpa using h), ?_⟩
      · show d.ref ≤ d.ref + 1
        omega
      · refine spec_ext (fun j => ?_) (fun j => ?_)
        · simp [specOf, Spec.step, hr]
        · simp [specOf, Spec.step]
  | get k c =>
    change Usable w c t at u
    refine ⟨w.upd t (readers k 1), by simp only [Call.run, getL_ok (k := k) u], keeps_upd (fun d => ?_) (fun k' h => readers_fits k 1 _ k' h), ?_⟩
    · obtain ⟨a, b, e⟩ := readers_keep k 1 d
      exact ⟨a, b, by rw [e]⟩
    · refine spec_ext (fun j => ?_) (fun j => ?_)
      · simp only [specOf, Spec.step, upd_same, readers, jl_setJl]
        by_cases hj : j = k
        · subst hj; simp
        · simp [hj]
      · simp only [specOf, Spec.step, upd_same, readers, jl_setJl]
        by_cases hj : j = k
        · subst hj; simp
        · simp [hj]
  | restore k c =>
    change Usable w c t at u
    refine ⟨w.upd t (readers k (-1)), by simp only [Call.run, restoreL_ok (k := k) u], keeps_upd (fun d => ?_) (fun k' h => readers_fits k (-1) _ k' h), ?_⟩
    · obtain ⟨a, b, e⟩ := readers_keep k (-1) d
      exact ⟨a, b, by rw [e]⟩
    · refine spec_ext (fun j => ?_) (fun j => ?_)
      · simp only [specOf, Spec.step, upd_same, readers, jl_setJl]
        by_cases hj : j = k
        · subst hj; simp
        · simp [hj]
      · simp only [specOf, Spec.step, upd_same, readers, jl_setJl]
        by_cases hj : j = k
        · subst hj; simp only [if_true]; omega
        · simp [hj]

/-- Over every history of calls through `Ceed`s with the same top ancestor, nothing undefined happens, every request
returns the strings added so far while the list was not lent, in order, and the lists end up as these calls say. -/
theorem C82_history (l : List Call) : ∀ (w : W), (∀ q ∈ l, Usable w q.via t) → (∀ k, Fits ((w.cd t).jl k)) →
    ∃ v, runAll l w = some (v, (specOf w t).answers l) ∧ specOf v t = l.foldl Spec.step (specOf w t) := by
  induction l with
  | nil => intro w _ _; exact ⟨w, rfl, rfl⟩
  | cons q l ih =>
    intro w hu hf
    obtain ⟨v, h1, h2, h3⟩ := step_ok q (hu q (by simp)) hf
    obtain ⟨v', h4, h5⟩ := ih v (fun q' hq => h2.usable (hu q' (by simp [hq]))) (h2.2 hf)
    refine ⟨v', ?_, by rw [List.foldl_cons, h5, h3]⟩
    simp only [runAll, h1, h4, h3]
    cases q <;> rfl

/-- A list is the same as long as it is lent: whatever is called, if it is lent before each of the calls. -/
theorem C82_lent_unchanged (a : Spec) (k : Kind) (l : List Call)
    (h : ∀ n < l.length, ((l.take n).foldl Spec.step a).locks k ≠ 0) : (l.foldl Spec.step a).strs k = a.strs k := by
  induction l generalizing a with
  | nil => rfl
  | cons q l ih =>
    rw [List.foldl_cons, ih]
    · have h0 := h 0 (by simp)
      simp only [List.take_zero, List.foldl_nil] at h0
      cases q with
      | add j c s =>
        simp only [Spec.step]
        by_cases hj : k = j
        · subst hj; simp [h0]
        · simp [hj]
      | get j c => rfl
      | restore j c => rfl
    · intro n hn
      have := h (n + 1) (by simp; omega)
      simpa using this

/-- The example of `JitPathsProps`, with an addition that is refused because the list is lent. -/
example : ∃ w, runAll [.add .roots 1 "/a", .get .roots 0, .add .roots 0 "/no", .add .defs 0 "N=4", .restore .roots 1,
    .add .roots 0 "/b", .get .roots 1, .get .defs 0] exW = some (w, [["/inc", "/a"], ["/inc", "/a", "/b"], ["N=4"]]) := ⟨_, rfl⟩
example : ∀ k, Fits ((exW.cd 0).jl k) := by
  intro k
  cases k
  · show (1 : Nat) ≤ 2; omega
  · show (0 : Nat) ≤ 0; omega
example : ∀ n < 2, (([Call.add .roots 0 "/no", .get .roots 0].take n).foldl Spec.step ⟨fun _ => ["/a"], fun _ => 1⟩).locks .roots ≠ 0 := by
  decide +kernel

end JitPaths
end Verif
