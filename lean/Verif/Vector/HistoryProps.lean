import Verif.Vector.Legal
import Mathlib.Algebra.Field.Rat
import Mathlib.Algebra.Order.Ring.Rat

/-!
# C01-C06: access, state, ownership

Properties of histories of vector calls. `Reach L F sqrt eps w g`: a program whose calls respect `L` has reached the state
`w` and knows `g`; calls that fail are part of the history if `F` holds. `Any` is no contract, `Legal` the contract of
`Verif/Vector/Calls.lean`.
-/

namespace Verif
namespace Vector

set_option linter.unusedSectionVars false

section
variable {α : Type} [Field α] [LinearOrder α]

theorem Reach.ok {L : View → Call α → Prop} {F : Prop} {sqrt : α → α} {eps : α} {w w' : World α} {g : View} {c : Call α}
    {r : Ret α} (h : Reach L F sqrt eps w g) (hl : L g c) (e : exec sqrt eps c w = .ok w' r) :
    Reach L F sqrt eps w' (g.ok c r) := Steps.tail h (Step.ok hl e)

theorem Reach.err {L : View → Call α → Prop} {F : Prop} {sqrt : α → α} {eps : α} {w w' : World α} {g : View} {c : Call α}
    {r : Err} (h : Reach L F sqrt eps w g) (hl : L g c) (hF : F) (e : exec sqrt eps c w = .err w' r) :
    Reach L F sqrt eps w' (g.err c) := Steps.tail h (Step.err hl hF e)

theorem Reach.start {L : View → Call α → Prop} {F : Prop} {sqrt : α → α} {eps : α} :
    Reach L F sqrt eps (World.init : World α) View.init := Steps.refl _

variable {sqrt : α → α} {eps : α} {w w' : World α} {g g' : View} {v : Vid}

/-! ## C01 -/

/-- C01: for every program, at most one write access to a vector is outstanding, and none together with a read access. -/
theorem C01_exclusive (h : Reach Any True sqrt eps w g) (v : Vid) :
    (g.writes v).length ≤ 1 ∧ (g.writes v ≠ [] → g.reads v = []) := by
  have hi := inv1_reach h
  cases hv : w.vecs v with
  | none =>
    obtain ⟨h1, h2⟩ := hi.dead v hv
    simp [h1]
  | some x =>
    have h1 := hi.vec v x hv
    have hw := h1.writes
    refine ⟨by omega, fun hne => ?_⟩
    have hp : 0 < (g.writes v).length := List.length_pos_iff.2 hne
    have := hi.wf.excl v x hv (by omega)
    have hr := h1.reads
    exact List.eq_nil_of_length_eq_zero (by omega)

theorem locked_of_access (h : Reach Any True sqrt eps w g) (ha : g.writes v ≠ [] ∨ g.reads v ≠ []) :
    ∃ x, w.vecs v = some x ∧ ¬ x.free := by
  have hi := inv1_reach h
  cases hv : w.vecs v with
  | none =>
    obtain ⟨h1, h2⟩ := hi.dead v hv
    simp [h1, h2] at ha
  | some x =>
    refine ⟨x, rfl, fun hf => ?_⟩
    obtain ⟨h1, h2⟩ := (hi.vec v x hv).free hf
    simp [h1, h2] at ha

/-- C01: while any access is outstanding, a request for write access (or to replace or take the array) returns an access
error, hands out nothing and changes nothing. -/
theorem C01_write_refused (h : Reach Any True sqrt eps w g) (ha : g.writes v ≠ [] ∨ g.reads v ≠ []) (m : Mem) (mode : Mode)
    (src : Option Addr) :
    exec sqrt eps (.getArray v m) w = .err w .access ∧ exec sqrt eps (.getArrayWrite v m) w = .err w .access ∧
    exec sqrt eps (.takeArray v m) w = .err w .access ∧ exec sqrt eps (.setArray v m mode src) w = .err w .access := by
  obtain ⟨x, hx, hf⟩ := locked_of_access h ha
  refine ⟨?_, ?_, ?_, ?_⟩
  · simp only [exec, M.bind_apply, getArray_eq hx, if_neg hf, Out.bind_err]
  · simp only [exec, getArrayWrite, M.bind_apply, getV_some hx, Out.bind_ok, lockChecks_eq, if_neg hf, Out.bind_err]
  · simp only [exec, M.bind_apply, takeArray_eq hx, if_neg hf, Out.bind_err]
  · simp only [exec, setArray, M.bind_apply, getV_some hx, Out.bind_ok, lockChecks_eq, if_neg hf, Out.bind_err]

/-- C01: while a write access is outstanding, a request for read access returns an access error and changes nothing. -/
theorem C01_read_refused (h : Reach Any True sqrt eps w g) (ha : g.writes v ≠ []) (m : Mem) :
    exec sqrt eps (.getArrayRead v m) w = .err w .access := by
  have hi := inv1_reach h
  cases hv : w.vecs v with
  | none => exact absurd (hi.dead v hv).1 ha
  | some x =>
    have h1 := (hi.vec v x hv).writes
    have hp : 0 < (g.writes v).length := List.length_pos_iff.2 ha
    have : ¬ x.state % 2 = 0 := by omega
    simp only [exec, M.bind_apply, getArrayRead_eq hv, if_neg this, Out.bind_err]

/-! ## C02 -/

/-- A read access granted now sees the value `z` at index `i`. -/
def Readable (w : World α) (v : Vid) (i : Int) (z : α) : Prop :=
  ∃ w1 p, getArrayRead v .host w = .ok w1 p ∧ ld p i w1 = .ok w1 z

/-- A read access is granted now. -/
def CanRead (w : World α) (v : Vid) : Prop := ∃ w1 p, getArrayRead v .host w = .ok w1 p

theorem canRead_cases (h : CanRead w v) : ∃ x, w.vecs v = some x ∧ x.canRead .host ∧
    getArrayRead v .host w = .ok (w.setVec v (some { x with readers := x.readers + 1 })) x.ptr := by
  obtain ⟨w1, p, e⟩ := h
  cases hv : w.vecs v with
  | none => unfold getArrayRead at e; simp [hv] at e
  | some x =>
    have e0 := getArrayRead_eq hv .host
    rw [e] at e0
    refine ⟨x, rfl, ?_⟩
    split at e0
    · rename_i h1
      split at e0
      · rename_i h2
        split at e0
        · rename_i h3
          cases e0
          exact ⟨⟨h1, fun _ => h3⟩, by rw [e]; simp [Vec.ptr, h2]⟩
        · cases e0
      · rename_i h2
        cases e0
        exact ⟨⟨h1, fun h => absurd h h2⟩, by rw [e]; simp [Vec.ptr, h2]⟩
    · cases e0

theorem ld_heap {w1 w2 : World α} {p : Option Addr} (h : ∀ a, p = some a → w1.heap a = w2.heap a) {i : Int} {z : α}
    (e : ld p i w1 = .ok w1 z) : ld p i w2 = .ok w2 z := by
  unfold ld at *
  cases p with
  | none => simp [getB] at e
  | some a =>
    simp only [M.bind_apply, getB] at *
    rw [← h a rfl]
    cases hb : w1.heap a with
    | none => rw [hb] at e; simp at e
    | some b =>
      rw [hb] at e
      simp only [Out.bind_ok] at *
      cases hz : b.rdI i with
      | ok z' => rw [hz] at e; simp at e; simp [e]
      | err e' => rw [hz] at e; simp at e
      | ub => rw [hz] at e; simp at e

/-- C02: the state value never decreases along a history, and when it is the same at two moments at which the vector can
be read, the values read are the same. -/
theorem C02_state {F : Prop} (h : Reach Legal F sqrt eps w g) (hs : Steps Legal F sqrt eps (w, g) (w', g')) {s s' : Nat}
    (e : getState v w = .ok w s) (e' : getState v w' = .ok w' s') :
    s ≤ s' ∧ (s = s' → CanRead w v → CanRead w' v → ∀ i z, Readable w v i z ↔ Readable w' v i z) := by
  have hi := inv_reach h
  have hk := (inv_steps (s := (w, g)) hi hs).2
  cases hv : w.vecs v with
  | none => simp [getState, hv] at e
  | some x =>
    cases hv' : w'.vecs v with
    | none => simp [getState, hv'] at e'
    | some x' =>
      simp [getState, hv] at e
      simp [getState, hv'] at e'
      subst e; subst e'
      obtain ⟨hlen, hle, hkeep⟩ := hk.vec v x x' hv hv'
      refine ⟨hle, fun heq hr hr' i z => ?_⟩
      obtain ⟨y, hy, hc, ee⟩ := canRead_cases hr
      obtain ⟨y', hy', hc', ee'⟩ := canRead_cases hr'
      have e1 : x = y := Option.some.inj (hv.symm.trans hy)
      have e2 : x' = y' := Option.some.inj (hv'.symm.trans hy')
      subst e1; subst e2
      have hptr : x.ptr = x'.ptr ∧ ∀ a, x.ptr = some a → w.heap a = w'.heap a := by
        unfold Vec.ptr
        rw [hlen]
        by_cases hl : 0 < x.len
        · rw [if_pos hl, if_pos hl]
          obtain ⟨a, ha⟩ := Option.isSome_iff_exists.1 (hc'.2 (by omega)).1
          obtain ⟨h1, h2⟩ := hkeep heq.symm hc.1 a ha
          refine ⟨by rw [h1, ha], ?_⟩
          intro a' ha'
          rw [h1] at ha'; cases ha'
          exact h2.symm
        · rw [if_neg hl, if_neg hl]
          exact ⟨rfl, by simp⟩
      constructor
      · rintro ⟨w1, p, e3, e4⟩
        rw [ee] at e3; cases e3
        refine ⟨_, _, ee', ?_⟩
        rw [← hptr.1]
        exact ld_heap (w1 := w.setVec v (some { x with readers := x.readers + 1 }))
          (w2 := w'.setVec v (some { x' with readers := x'.readers + 1 })) (fun a ha => hptr.2 a ha) e4
      · rintro ⟨w1, p, e3, e4⟩
        rw [ee'] at e3; cases e3
        refine ⟨_, _, ee, ?_⟩
        rw [hptr.1]
        exact ld_heap (w1 := w'.setVec v (some { x' with readers := x'.readers + 1 }))
          (w2 := w.setVec v (some { x with readers := x.readers + 1 }))
          (fun a ha => (hptr.2 a (by rw [hptr.1, ha])).symm) e4

/-! ## C03 -/

/-- Calls with one vector operand, except `CeedVectorDestroy` and requests for another memory type than the host. -/
def SingleOperand : Call α → Prop
  | .copy _ _ | .copyStrided _ _ _ _ _ | .axpy _ _ _ | .axpby _ _ _ _ | .pointwiseMult _ _ _ | .destroy _ => False
  | .getArrayWrite _ m => m = .host
  | _ => True

/-- C03 for calls with one vector operand: an error leaves everything unchanged. -/
theorem C03_one_operand_partial (h : Reach Any True sqrt eps w g) {c : Call α} (hc : SingleOperand c) {e : Err}
    (he : exec sqrt eps c w = .err w' e) : w' = w := by
  have := eff_err (inv1_reach h).wf he
  cases c <;> simp only [SingleOperand, ErrEff, Leak, or_false] at this hc
  case getArrayWrite v m =>
    rcases this.2 with h1 | ⟨h1, _⟩
    · exact h1
    · exact absurd hc h1
  all_goals exact this.2

theorem not_canRead (hr : CanRead w v) (h : ∃ z, w.vecs v = some z ∧ ¬ z.canRead .host) : False := by
  obtain ⟨z, hz, hn⟩ := h
  obtain ⟨x, hx, hc, _⟩ := canRead_cases hr
  rw [hz] at hx; cases hx
  exact hn hc

/-- C03 for `CeedVectorAXPY`: an error leaves everything unchanged if the second vector can be read. -/
theorem C03_axpy_partial (h : Reach Any True sqrt eps w g) {y x : Vid} {a : α} {e : Err} (hr : CanRead w x)
    (he : exec sqrt eps (.axpy y a x) w = .err w' e) : w' = w := by
  have := eff_err (inv1_reach h).wf he
  exact this.2.resolve_right (not_canRead hr)

/-- C03 for `CeedVectorAXPBY`: an error leaves everything unchanged if the second vector can be read. -/
theorem C03_axpby_partial (h : Reach Any True sqrt eps w g) {y x : Vid} {a b : α} {e : Err} (hr : CanRead w x)
    (he : exec sqrt eps (.axpby y a b x) w = .err w' e) : w' = w := by
  have := eff_err (inv1_reach h).wf he
  exact this.2.resolve_right (not_canRead hr)

/-- C03 for `CeedVectorPointwiseMult`: an error leaves everything unchanged if the factors, where they are other vectors
than the result, can be read. -/
theorem C03_pointwiseMult_partial (h : Reach Any True sqrt eps w g) {u x y : Vid} {e : Err} (hx : x ≠ u → CanRead w x)
    (hy : y ≠ u → CanRead w y) (he : exec sqrt eps (.pointwiseMult u x y) w = .err w' e) : w' = w := by
  have := eff_err (inv1_reach h).wf he
  refine this.2.resolve_right ?_
  rintro (⟨h1, h2⟩ | ⟨h1, h2⟩)
  · exact not_canRead (hx h1) h2
  · exact not_canRead (hy h1) h2

/-- C03 for `CeedVectorCopy`: an error leaves everything unchanged if the target is another vector and accepts new values. -/
theorem C03_copy_partial (h : Reach Any True sqrt eps w g) {u c : Vid} {e : Err} (hc : c ≠ u)
    (hs : ∃ w1, setArray c .host .copyValues none w = .ok w1 ()) (he : exec sqrt eps (.copy u c) w = .err w' e) : w' = w := by
  have := eff_err (inv1_reach h).wf he
  refine this.2.resolve_right ?_
  rintro (h1 | ⟨y, hy, hf⟩)
  · exact hc h1
  · obtain ⟨w1, e1⟩ := hs
    unfold setArray at e1
    simp only [M.bind_apply, getV_some hy, Out.bind_ok, lockChecks_eq, if_neg hf, Out.bind_err] at e1
    cases e1

/-- C03 for `CeedVectorCopyStrided`: an error leaves everything unchanged if the target is another vector and can be
written. -/
theorem C03_copyStrided_partial (h : Reach Any True sqrt eps w g) {u c : Vid} {s t k : Int} {e : Err} (hc : c ≠ u)
    (hs : ∃ w1 p, getArray c .host w = .ok w1 p) (he : exec sqrt eps (.copyStrided u s t k c) w = .err w' e) : w' = w := by
  have := eff_err (inv1_reach h).wf he
  refine this.2.resolve_right ?_
  rintro (h1 | ⟨y, hy, hf⟩)
  · exact hc h1
  · obtain ⟨w1, p, e1⟩ := hs
    rw [getArray_eq hy] at e1
    unfold Vec.canWrite at hf
    split at e1
    · rename_i h1
      split at e1
      · split at e1
        · rename_i h3
          exact hf ⟨h1, fun _ => h3⟩
        · cases e1
      · rename_i h2
        exact hf ⟨h1, fun h => absurd h h2⟩
    · cases e1

/-! ## C04 -/

theorem eq_ok (h1 : Inv1 g w) (h : ∀ v x, w.vecs v = some x → x.state % 2 = (g.writes v).length ∧ x.readers = (g.reads v).length)
    {c : Call α} {r : Ret α} (he : OkEff w c w' r) :
    ∀ v x, w'.vecs v = some x → x.state % 2 = ((g.ok c r).writes v).length ∧ x.readers = ((g.ok c r).reads v).length := by
  have trk : ∀ d l, Trk w d l w' → (∀ u, d u = 0) → (∀ u, l u = 0) → ∀ v x, w'.vecs v = some x →
      x.state % 2 = (g.writes v).length ∧ x.readers = (g.reads v).length := by
    intro d l ht hd hl v x hx
    obtain ⟨x0, h0, hs⟩ := ht.get0 hx
    have := hs.readers
    rw [hd v] at this
    rw [hs.even (hl v), this]
    exact h v x0 h0
  have one : ∀ v x', (∃ x, w.vecs v = some x) → w'.vecs = (w.setVec v (some x')).vecs →
      (x'.state % 2 = ((g.ok c r).writes v).length ∧ x'.readers = ((g.ok c r).reads v).length) →
      (∀ u, u ≠ v → (g.ok c r).writes u = g.writes u ∧ (g.ok c r).reads u = g.reads u) →
      ∀ v x, w'.vecs v = some x → x.state % 2 = ((g.ok c r).writes v).length ∧ x.readers = ((g.ok c r).reads v).length := by
    intro v x' _ hw' hv hu u y hy
    rw [hw'] at hy
    by_cases huv : u = v
    · subst huv; simp at hy; subst hy; exact hv
    · simp [huv] at hy
      rw [(hu u huv).1, (hu u huv).2]
      exact h u y hy
  cases c with
  | create p n =>
    obtain ⟨rfl, rfl⟩ := he
    intro u y hy
    by_cases hu : u = w.nextVec
    · simp [hu] at hy; subst hy; subst hu; simp [View.ok]
    · simp [hu] at hy
      simp only [View.ok, upd_ne _ _ hu]
      exact h u y hy
  | reference v =>
    obtain ⟨x, hx, rfl⟩ := he
    exact one v { x with refs := x.refs + 1 } ⟨x, hx⟩ rfl (h v x hx) (fun u _ => ⟨rfl, rfl⟩)
  | destroy v =>
    obtain ⟨x, hx, ⟨h0, rfl⟩ | ⟨h0, hf, rfl⟩⟩ := he
    · exact one v { x with refs := x.refs - 1 } ⟨x, hx⟩ rfl (h v x hx) (fun u _ => ⟨rfl, rfl⟩)
    · intro u y hy
      by_cases hu : u = v
      · simp [hu] at hy
      · simp [hu] at hy; exact h u y hy
  | setArray v m mode src =>
    cases mode with
    | copyValues =>
      obtain ⟨x, hx, hf, ht⟩ := he
      exact trk _ _ ht (fun _ => rfl) (fun _ => rfl)
    | usePointer =>
      obtain ⟨x, hx, hf, rfl⟩ := he
      obtain ⟨f1, f2⟩ := (h1.vec v x hx).free hf
      have hg : ∀ u, (g.ok (.setArray v m .usePointer src) r).writes u = g.writes u ∧
          (g.ok (.setArray v m .usePointer src) r).reads u = g.reads u := by
        intro u; simp only [View.ok]; split <;> exact ⟨rfl, rfl⟩
      have hst : (x.state + 2) % 2 = 0 := by have := hf.1; omega
      by_cases hl : 0 < x.len
      · rw [if_pos hl]
        rw [if_pos hl] at one
        refine one v _ ⟨x, hx⟩ rfl ?_ (fun u _ => hg u)
        rw [(hg v).1, (hg v).2, f1, f2]
        exact ⟨hst, hf.2⟩
      · rw [if_neg hl]
        rw [if_neg hl] at one
        refine one v _ ⟨x, hx⟩ rfl ?_ (fun u _ => hg u)
        rw [(hg v).1, (hg v).2, f1, f2]
        exact ⟨hst, hf.2⟩
    | ownPointer =>
      obtain ⟨x, hx, hf, rfl⟩ := he
      obtain ⟨f1, f2⟩ := (h1.vec v x hx).free hf
      have hg : ∀ u, (g.ok (.setArray v m .ownPointer src) r).writes u = g.writes u ∧
          (g.ok (.setArray v m .ownPointer src) r).reads u = g.reads u := by
        intro u; simp only [View.ok]; split <;> exact ⟨rfl, rfl⟩
      have hst : (x.state + 2) % 2 = 0 := by have := hf.1; omega
      by_cases hl : 0 < x.len
      · rw [if_pos hl]
        rw [if_pos hl] at one
        refine one v _ ⟨x, hx⟩ rfl ?_ (fun u _ => hg u)
        rw [(hg v).1, (hg v).2, f1, f2]
        exact ⟨hst, hf.2⟩
      · rw [if_neg hl]
        rw [if_neg hl] at one
        refine one v _ ⟨x, hx⟩ rfl ?_ (fun u _ => hg u)
        rw [(hg v).1, (hg v).2, f1, f2]
        exact ⟨hst, hf.2⟩
  | takeArray v m =>
    have hg : ∀ u, (g.ok (.takeArray v m) r).writes u = g.writes u ∧ (g.ok (.takeArray v m) r).reads u = g.reads u := by
      intro u; simp only [View.ok]; split <;> exact ⟨rfl, rfl⟩
    obtain ⟨x, hx, hf, ⟨hl, rfl, rfl, hbo⟩ | ⟨hl, rfl, rfl⟩⟩ := he
    · refine one v { x with borrowed := none, array := none } ⟨x, hx⟩ rfl ?_ (fun u _ => hg u)
      rw [(hg v).1, (hg v).2]
      exact h v x hx
    · intro u y hy
      rw [(hg u).1, (hg u).2]
      exact h u y hy
  | getArray v m =>
    obtain ⟨ht, x', hx', rfl, _⟩ := he
    intro u y hy
    obtain ⟨x0, h0, hs⟩ := ht.get0 hy
    have hr := hs.readers
    by_cases hu : u = v
    · subst hu
      have ho := hs.odd (by simp)
      obtain ⟨f1, f2⟩ := (h1.vec u x0 h0).free ho.2.2.1
      have := ho.2.2.1.2
      simp [View.ok, f1, f2, ho.2.1]
      omega
    · have he := hs.even (inc_ne _ hu)
      simp only [View.ok, upd_ne _ _ hu]
      rw [he, hr]
      exact h u x0 h0
  | getArrayWrite v m =>
    obtain ⟨ht, x', hx', rfl, _⟩ := he
    intro u y hy
    obtain ⟨x0, h0, hs⟩ := ht.get0 hy
    have hr := hs.readers
    by_cases hu : u = v
    · subst hu
      have ho := hs.odd (by simp)
      obtain ⟨f1, f2⟩ := (h1.vec u x0 h0).free ho.2.2.1
      have := ho.2.2.1.2
      simp [View.ok, f1, f2, ho.2.1]
      omega
    · have he := hs.even (inc_ne _ hu)
      simp only [View.ok, upd_ne _ _ hu]
      rw [he, hr]
      exact h u x0 h0
  | getArrayRead v m =>
    obtain ⟨ht, x', hx', rfl, _⟩ := he
    intro u y hy
    obtain ⟨x0, h0, hs⟩ := ht.get0 hy
    have hr := hs.readers
    have he := hs.even rfl
    have h2 := h u x0 h0
    by_cases hu : u = v
    · subst hu
      simp at hr
      simp [View.ok]
      omega
    · rw [inc_ne _ hu] at hr
      simp only [View.ok, upd_ne _ _ hu]
      rw [he, hr]
      exact h2
  | restoreArray v =>
    obtain ⟨x, hx, ho, rfl⟩ := he
    have h2 := h v x hx
    refine one v { x with state := x.state + 1 } ⟨x, hx⟩ rfl ?_ (fun u hu => by simp [View.ok, upd_ne _ _ hu])
    simp [View.ok]
    omega
  | restoreArrayRead v =>
    obtain ⟨x, hx, ho, rfl⟩ := he
    have h2 := h v x hx
    refine one v { x with readers := x.readers - 1 } ⟨x, hx⟩ rfl ?_ (fun u hu => by simp [View.ok, upd_ne _ _ hu])
    simp [View.ok]
    omega
  | malloc b =>
    obtain ⟨rfl, rfl⟩ := he
    exact h
  | mfree a =>
    obtain ⟨b, hb, rfl⟩ := he
    exact h
  | load a i =>
    have he : w' = w := he
    subst he
    exact h
  | store a i z =>
    obtain ⟨b, b', hb, hl, rfl⟩ := he
    exact h
  | syncArray v m => exact trk _ _ he (fun _ => rfl) (fun _ => rfl)
  | setValue v z => exact trk _ _ he (fun _ => rfl) (fun _ => rfl)
  | setValueStrided v s t u z => exact trk _ _ he (fun _ => rfl) (fun _ => rfl)
  | copy v c => exact trk _ _ he (fun _ => rfl) (fun _ => rfl)
  | copyStrided v s t u c => exact trk _ _ he (fun _ => rfl) (fun _ => rfl)
  | norm v t => exact trk _ _ he (fun _ => rfl) (fun _ => rfl)
  | scale v z => exact trk _ _ he (fun _ => rfl) (fun _ => rfl)
  | axpy y z x => exact trk _ _ he (fun _ => rfl) (fun _ => rfl)
  | axpby y z z' x => exact trk _ _ he (fun _ => rfl) (fun _ => rfl)
  | pointwiseMult v x y => exact trk _ _ he (fun _ => rfl) (fun _ => rfl)
  | reciprocal v => exact trk _ _ he (fun _ => rfl) (fun _ => rfl)

theorem eq_steps {L : View → Call α → Prop} {s t : World α × View} (h1 : Inv1 s.2 s.1)
    (h : ∀ v x, s.1.vecs v = some x → x.state % 2 = (s.2.writes v).length ∧ x.readers = (s.2.reads v).length)
    (hs : Steps L False sqrt eps s t) :
    ∀ v x, t.1.vecs v = some x → x.state % 2 = (t.2.writes v).length ∧ x.readers = (t.2.reads v).length := by
  induction hs with
  | refl => exact h
  | tail h' hs ih =>
    have hi := inv1_steps h1 h'
    cases hs with
    | ok _ e => exact eq_ok hi ih (eff_ok hi.wf e)
    | err _ hF _ => exact hF.elim

/-- The locks of a vector are the accesses the program holds, if no call failed. -/
theorem eq_reach {L : View → Call α → Prop} (h : Reach L False sqrt eps w g) {x : Vec} (hx : w.vecs v = some x) :
    x.state % 2 = (g.writes v).length ∧ x.readers = (g.reads v).length :=
  eq_steps (s := (World.init, View.init)) inv1_init (by simp [World.init]) h v x hx

/-- C04: after a history of successful calls in which every access to `v` was restored, `v` accepts new values, write
access, destruction, and (if it has data) every kind of access. -/
theorem C04_balanced (h : Reach Legal False sqrt eps w g) (hv : g.has v) (h1 : g.writes v = []) (h2 : g.reads v = []) :
    (∀ mode src, Legal g (.setArray v .host mode src : Call α) → ∃ w' r, exec sqrt eps (.setArray v .host mode src) w = .ok w' r) ∧
    (∃ w' r, exec sqrt eps (.getArrayWrite v .host) w = .ok w' r) ∧
    (∃ w' r, exec sqrt eps (.destroy v) w = .ok w' r) ∧
    (hasValidArray v w = .ok w true → (∃ w' r, exec sqrt eps (.getArray v .host) w = .ok w' r) ∧
      ∃ w' r, exec sqrt eps (.getArrayRead v .host) w = .ok w' r) := by
  have hi := inv_reach h
  obtain ⟨x, hx⟩ := hi.has hv
  obtain ⟨e1, e2⟩ := eq_reach h hx
  rw [h1] at e1
  rw [h2] at e2
  have hf : x.free := ⟨e1, e2⟩
  refine ⟨?_, ?_, ?_, ?_⟩
  · intro mode src hl
    cases e : exec sqrt eps (.setArray v .host mode src) w with
    | ok w' r => exact ⟨w', r, rfl⟩
    | ub => exact absurd e (legal_defined hi hl)
    | err w' er =>
      exfalso
      simp only [exec, setArray, setArrayRef, M.bind_apply, getV_some hx, Out.bind_ok, lockChecks_eq, if_pos hf] at e
      split at e
      · simp only [M.bind_apply, M.check_apply, if_true, Out.bind_ok] at e
        cases mode with
        | copyValues =>
          unfold setHostArray at e
          simp only [M.bind_apply, getV_some hx, Out.bind_ok, copyTarget_eq hx (hi.base.wf.slots v x hx)] at e
          have mem : ∀ (p q : Option Addr) n (u u' : World α) er', memcpy p q n u ≠ .err u' er' := by
            intro p q n u u' er'
            unfold memcpy
            split
            · split
              · split <;> simp
              · simp
            · simp
          have bmp : ∀ k (u u' : World α) er', bump v k u ≠ .err u' er' := by
            intro k u u' er'
            unfold bump
            cases hh : u.vecs v <;> simp [hh]
          cases ha : x.array with
          | none =>
            simp only [ha, Out.bind_ok] at e
            cases src with
            | none =>
              simp only [M.pure_apply, Out.bind_ok] at e
              cases hb : bump v 2 ((w.push ⟨x.len.toNat, fun _ => 0⟩).setVec v
                (some { x with owned := some w.next, array := some w.next })) with
              | ok _ _ => rw [hb] at e; simp at e
              | err _ _ => exact bmp _ _ _ _ hb
              | ub => rw [hb] at e; simp at e
            | some s =>
              simp only at e
              cases hm : memcpy (some w.next) (some s) x.len.toNat ((w.push ⟨x.len.toNat, fun _ => 0⟩).setVec v
                (some { x with owned := some w.next, array := some w.next })) with
              | ok u _ =>
                rw [hm] at e
                simp only [Out.bind_ok] at e
                cases hb : bump v 2 u with
                | ok _ _ => rw [hb] at e; simp at e
                | err _ _ => exact bmp _ _ _ _ hb
                | ub => rw [hb] at e; simp at e
              | err _ _ => exact mem _ _ _ _ _ _ hm
              | ub => rw [hm] at e; simp at e
          | some a =>
            simp only [ha, Out.bind_ok] at e
            cases src with
            | none =>
              simp only [M.pure_apply, Out.bind_ok, bump_eq hx] at e
              simp at e
            | some s =>
              simp only at e
              cases hm : memcpy (some a) (some s) x.len.toNat w with
              | ok u _ =>
                rw [hm] at e
                simp only [Out.bind_ok] at e
                cases hb : bump v 2 u with
                | ok _ _ => rw [hb] at e; simp at e
                | err _ _ => exact bmp _ _ _ _ hb
                | ub => rw [hb] at e; simp at e
              | err _ _ => exact mem _ _ _ _ _ _ hm
              | ub => rw [hm] at e; simp at e
        | usePointer =>
          simp only [setHostArray, M.bind_apply, getV_some hx, Out.bind_ok,
            free_eq (fun a ha => owned_alloc hi.base.wf hi.mem hx ha), putV_apply] at e
          rw [bump_eq (x := { x with owned := none, borrowed := src, array := src }) (by simp)] at e
          simp at e
        | ownPointer =>
          simp only [setHostArray, M.bind_apply, getV_some hx, Out.bind_ok,
            free_eq (fun a ha => owned_alloc hi.base.wf hi.mem hx ha), putV_apply] at e
          rw [bump_eq (x := { x with owned := src, borrowed := none, array := src }) (by simp)] at e
          simp at e
      · simp [bump_eq hx] at e
  · have hwp := wp_getArrayWrite (S := True) (m := .host) (Q := fun _ _ => True) (E := fun _ _ => False) (trk0 hi.base.wf)
      hi.base.wf hx (fun _ _ _ _ _ _ _ _ _ _ _ => trivial) (fun hh => hh hf) (fun _ _ hh => absurd rfl hh)
    unfold M.wp at hwp
    simp only [exec, M.bind_apply]
    cases e : getArrayWrite v .host w with
    | ok u p => exact ⟨_, _, rfl⟩
    | err _ _ => rw [e] at hwp; exact hwp.elim
    | ub => rw [e] at hwp; exact absurd trivial hwp
  · cases e : exec sqrt eps (.destroy v) w with
    | ok w' r => exact ⟨w', r, rfl⟩
    | ub => exact absurd e (legal_defined hi (c := .destroy v) hv)
    | err w' er =>
      obtain ⟨y, hy, _, hnf, _⟩ := eff_err hi.base.wf e
      rw [hx] at hy; cases hy
      exact absurd hf hnf
  · intro hva
    rw [hasValid_eq hx] at hva
    have hva : x.valid := by
      have : decide x.valid = true := by simpa using hva
      exact of_decide_eq_true this
    have hs : 0 < x.len → x.array.isSome = true ∧ Mem.host = Mem.host := fun hl => ⟨(Vec.valid_iff hl).1 hva, rfl⟩
    constructor
    · by_cases hl : 0 < x.len
      · simp only [exec, M.bind_apply, getArray_eq hx, if_pos hf, if_pos hl, (hs hl).1, true_and, if_true, Out.bind_ok, M.pure_apply]
        exact ⟨_, _, rfl⟩
      · simp only [exec, M.bind_apply, getArray_eq hx, if_pos hf, if_neg hl, Out.bind_ok, M.pure_apply]
        exact ⟨_, _, rfl⟩
    · by_cases hl : 0 < x.len
      · simp only [exec, M.bind_apply, getArrayRead_eq hx, if_pos hf.1, if_pos hl, (hs hl).1, true_and, if_true, Out.bind_ok, M.pure_apply]
        exact ⟨_, _, rfl⟩
      · simp only [exec, M.bind_apply, getArrayRead_eq hx, if_pos hf.1, if_neg hl, Out.bind_ok, M.pure_apply]
        exact ⟨_, _, rfl⟩

/-- C04: `CeedVectorDestroy` never destroys a vector while an access is outstanding, for any program. -/
theorem C04_no_destroy_with_access (h : Reach Any True sqrt eps w g) (ha : g.writes v ≠ [] ∨ g.reads v ≠ []) {u : Vid}
    {r : Ret α} (e : exec sqrt eps (.destroy u) w = .ok w' r) : ∃ x, w'.vecs v = some x := by
  obtain ⟨x, hx, hf⟩ := locked_of_access h ha
  obtain ⟨y, hy, ⟨_, rfl⟩ | ⟨_, hfy, rfl⟩⟩ := eff_ok (inv1_reach h).wf e
  · by_cases hu : v = u
    · subst hu; exact ⟨{ y with refs := y.refs - 1 }, by simp⟩
    · exact ⟨x, by simp [hu, hx]⟩
  · have hu : v ≠ u := by rintro rfl; rw [hx] at hy; cases hy; exact hf hfy
    exact ⟨x, by simp [hu, hx]⟩

/-! ## C05 -/

/-- C05: no call of a program that respects the contract reads, writes or frees memory that is not allocated (or long
enough), in any history. -/
theorem C05_defined (h : Reach Legal True sqrt eps w g) {c : Call α} (hc : Legal g c) : exec sqrt eps c w ≠ .ub :=
  legal_defined (inv_reach h) hc

/-- C05: the arrays of the program, lent or not, are never freed by the library and keep their length. -/
theorem C05_lent_not_freed (h : Reach Legal True sqrt eps w g) {a : Addr} {n : Nat} (ha : g.mine a = some n) :
    ∃ b, w.heap a = some b ∧ b.len = n := ((inv_reach h).mine a n ha).1

/-- C05: every allocated array that is not the program's belongs to exactly one vector, of which the program has a handle. -/
theorem C05_one_owner (h : Reach Legal True sqrt eps w g) {a : Addr} {b : Buf α} (ha : w.heap a = some b)
    (hm : g.mine a = none) :
    ∃ v x, g.has v ∧ w.vecs v = some x ∧ x.owned = some a ∧
      ∀ u y, w.vecs u = some y → y.owned = some a → u = v := by
  have hi := inv_reach h
  rcases hi.cover a b ha with ⟨n, hn⟩ | ⟨v, x, hx, ho⟩
  · rw [hm] at hn; cases hn
  · refine ⟨v, x, (hi.alive v x hx).1, hx, ho, ?_⟩
    intro u y hy hyo
    by_contra hne
    exact hi.distinct u v y x a hne hy hx (owned_array hi.base.wf hy hyo).1 (owned_array hi.base.wf hx ho).1

/-- C05: an array given away with `CEED_OWN_POINTER` belongs to the vector. -/
theorem C05_own (h : Reach Legal True sqrt eps w g) {a : Addr} (hl : Legal g (.setArray v .host .ownPointer (some a) : Call α))
    {r : Ret α} (e : exec sqrt eps (.setArray v .host .ownPointer (some a)) w = .ok w' r) :
    ∃ x, w'.vecs v = some x ∧ x.owned = some a := by
  have hi := inv_reach h
  obtain ⟨x, hx, hf, rfl⟩ := eff_ok hi.base.wf e
  obtain ⟨_, _, _, _, hp⟩ := hl.2 a rfl
  rw [(hi.base.vec v x hx).len] at hp
  rw [if_pos hp]
  exact ⟨{ x with owned := some a, borrowed := none, array := some a, state := x.state + 2 }, by simp, rfl⟩

/-- C05: the array owned by a vector is freed when its last handle is destroyed. -/
theorem C05_freed_at_destroy (h : Reach Legal True sqrt eps w g) (hone : g.handles v = 1) {x : Vec} (hx : w.vecs v = some x)
    {a : Addr} (ha : x.owned = some a) {r : Ret α} (e : exec sqrt eps (.destroy v) w = .ok w' r) :
    w'.heap a = none ∧ w'.vecs v = none := by
  have hi := inv_reach h
  obtain ⟨y, hy, ⟨h0, _⟩ | ⟨_, _, rfl⟩⟩ := eff_ok hi.base.wf e
  · rw [hx] at hy; cases hy
    have := (hi.base.vec v x hx).refs
    omega
  · rw [hx] at hy; cases hy
    simp [dropBlk_heap, ha]

/-- C05: nothing is left when the program has freed its arrays and destroyed its handles. -/
theorem C05_no_leak (h : Reach Legal True sqrt eps w g) (hh : ∀ v, g.handles v = 0) (hm : ∀ a, g.mine a = none) (a : Addr) :
    w.heap a = none := by
  cases ha : w.heap a with
  | none => rfl
  | some b =>
    obtain ⟨v, x, hv, _⟩ := C05_one_owner h ha (hm a)
    have := hh v
    unfold View.has at hv
    omega

/-! ## C06 -/

/-- C06: for every program, `CeedVectorTakeArray` on a vector that is not empty and not locked succeeds exactly when an array
was lent and not taken or replaced since; it returns that array. -/
theorem C06_take_iff (h : Reach Any True sqrt eps w g) {x : Vec} (hx : w.vecs v = some x) (hl : 0 < x.len)
    (hf : x.state % 2 = 0 ∧ x.readers = 0) (a : Addr) :
    (∃ w', exec sqrt eps (.takeArray v .host) w = .ok w' (.ptr (some a))) ↔ g.lent v = some a := by
  have hi := inv1_reach h
  have hv := hi.vec v x hx
  have hf : x.free := hf
  simp only [exec, M.bind_apply, takeArray_eq hx, if_pos hf, if_pos hl, true_and]
  rw [hv.lent]
  constructor
  · rintro ⟨w', e⟩
    split at e
    · simp at e; exact e.2
    · simp at e
  · intro hb
    have hs := hi.wf.slots v x hx
    unfold Vec.slots at hs
    rw [hb] at hs
    rw [if_pos ⟨by simp [hb], by simp [hs.1]⟩]
    simp [hb]

/-- C06: success always means a lent array is returned, and it is the array read accesses gave before; its contents are
untouched; afterwards the vector has no valid data and refuses to be read. -/
theorem C06_take_result (h : Reach Any True sqrt eps w g) {p : Option Addr} (hl : 0 < g.len v)
    (e : exec sqrt eps (.takeArray v .host) w = .ok w' (.ptr p)) :
    p = g.lent v ∧ p.isSome ∧ (∃ w1, getArrayRead v .host w = .ok w1 p) ∧ w'.heap = w.heap ∧
    hasValidArray v w' = .ok w' false ∧ exec sqrt eps (.getArrayRead v .host) w' = .err w' .backend ∧
    exec sqrt eps (.getArray v .host) w' = .err w' .backend ∧ exec sqrt eps (.takeArray v .host) w' = .err w' .backend := by
  have hi := inv1_reach h
  obtain ⟨x, hx, hf, ⟨hlx, rfl, hr, hb⟩ | ⟨hlx, _, _⟩⟩ := eff_ok hi.wf e
  swap
  · rw [(hi.vec v x hx).len] at hl; omega
  cases hr
  have hs := hi.wf.slots v x hx
  unfold Vec.slots at hs
  obtain ⟨a, ha⟩ := Option.isSome_iff_exists.1 hb
  rw [ha] at hs
  have hx' : (w.setVec v (some { x with borrowed := none, array := none })).vecs v =
    some { x with borrowed := none, array := none } := by simp
  have hf' : ({ x with borrowed := none, array := none } : Vec).free := hf
  refine ⟨(hi.vec v x hx).lent.symm, hb, ?_, rfl, ?_, ?_, ?_, ?_⟩
  · rw [getArrayRead_eq hx, if_pos hf.1, if_pos hlx, if_pos ⟨by simp [hs.1], rfl⟩, hs.1, ha]
    exact ⟨_, rfl⟩
  · rw [hasValid_eq hx']
    have : ¬ x.len = 0 := by omega
    simp [Vec.valid, this]
  · simp only [exec, M.bind_apply]
    rw [getArrayRead_eq hx', if_pos hf.1, if_pos hlx]
    simp
  · simp only [exec, M.bind_apply]
    rw [getArray_eq hx', if_pos hf', if_pos hlx]
    simp
  · simp only [exec, M.bind_apply]
    rw [takeArray_eq hx', if_pos hf', if_pos hlx]
    simp

end

/-! ## Concrete histories -/

section Witness

/-- Histories over the rationals. -/
abbrev R (w : World ℚ) (g : View) : Prop := Reach Any True id 0 w g

/-- C01, a case: write access to a vector with values, then a refused second one. -/
example : ∃ (w : World ℚ) (g : View), R w g ∧ g.writes 0 ≠ [] ∧ g.len 0 = 3 :=
  ⟨_, _, ((Reach.start.ok (c := .create 0 3) trivial rfl).ok (c := .setValue 0 5) trivial rfl).ok (c := .getArray 0 .host)
    trivial rfl, by simp [View.ok], rfl⟩

/-- C01, a case: two read accesses at the same time. -/
example : ∃ (w : World ℚ) (g : View), R w g ∧ (g.reads 0).length = 2 :=
  ⟨_, _, (((Reach.start.ok (c := .create 0 3) trivial rfl).ok (c := .setValue 0 5) trivial rfl).ok (c := .getArrayRead 0 .host)
    trivial rfl).ok (c := .getArrayRead 0 .host) trivial rfl, rfl⟩

/-- C02, a case: a legal history, then another legal part that changes the vector; the vector can be read at both ends and
the values differ. -/
example : ∃ (w w' : World ℚ) (g g' : View) (s s' : Nat), Reach Legal True id 0 w g ∧ Steps Legal True id 0 (w, g) (w', g') ∧
    getState 0 w = .ok w s ∧ getState 0 w' = .ok w' s' ∧ CanRead w 0 ∧ CanRead w' 0 ∧ s < s' ∧
    Readable w 0 1 5 ∧ Readable w' 0 1 7 :=
  ⟨_, _, _, _, _, _, (Reach.start.ok (c := .create 0 3) trivial rfl).ok (c := .setValue 0 5) (Nat.le_refl 1)
    rfl, Steps.tail (Steps.refl _) (Step.ok (c := .setValue 0 7) (Nat.le_refl 1) rfl), rfl, rfl,
    ⟨_, _, rfl⟩, ⟨_, _, rfl⟩, by decide, ⟨_, _, rfl, rfl⟩, ⟨_, _, rfl, rfl⟩⟩

/-- C02, a case: the same state and the same values after accesses for reading. -/
example : ∃ (w w' : World ℚ) (g g' : View) (s : Nat), Reach Legal True id 0 w g ∧ Steps Legal True id 0 (w, g) (w', g') ∧
    getState 0 w = .ok w s ∧ getState 0 w' = .ok w' s ∧ CanRead w 0 ∧ CanRead w' 0 :=
  ⟨_, _, _, _, _, (Reach.start.ok (c := .create 0 3) trivial rfl).ok (c := .setValue 0 5) (Nat.le_refl 1)
    rfl, Steps.tail (Steps.refl _) (Step.ok (c := .getArrayRead 0 .host) (Nat.le_refl 1) rfl), rfl, rfl,
    ⟨_, _, rfl⟩, ⟨_, _, rfl⟩⟩

/-- C03, a case: `CeedVectorScale` on a vector without data fails. -/
example : ∃ (w w' : World ℚ) (g : View) (e : Err), R w g ∧ SingleOperand (α := ℚ) (.getArray 0 .host) ∧
    exec id 0 (.getArray 0 .host) w = .err w' e :=
  ⟨_, _, _, _, Reach.start.ok (c := .create 0 3) trivial rfl, trivial, rfl⟩

/-- C03, a case: `CeedVectorAXPY` with lengths that differ fails, and the second vector can be read. -/
example : ∃ (w w' : World ℚ) (g : View) (e : Err), R w g ∧ CanRead w 1 ∧ exec id 0 (.axpy 0 2 1) w = .err w' e :=
  ⟨_, _, _, _, (((Reach.start.ok (c := .create 0 3) trivial rfl).ok (c := .create 0 2) trivial rfl).ok
    (c := .setArray 0 .host .copyValues none) trivial rfl).ok (c := .setArray 1 .host .copyValues none) trivial rfl, ⟨_, _, rfl⟩, rfl⟩

/-- C03, a case: `CeedVectorCopy` between lengths that differ fails. -/
example : ∃ (w w' : World ℚ) (g : View) (e : Err), R w g ∧ (∃ w1, setArray 1 .host .copyValues none w = .ok w1 ()) ∧
    (∃ w1 p, getArray 1 .host w = .ok w1 p) ∧ exec id 0 (.copy 0 1) w = .err w' e :=
  ⟨_, _, _, _, (((Reach.start.ok (c := .create 0 3) trivial rfl).ok (c := .create 0 2) trivial rfl).ok
    (c := .setArray 0 .host .copyValues none) trivial rfl).ok (c := .setArray 1 .host .copyValues none) trivial rfl, ⟨_, rfl⟩, ⟨_, _, rfl⟩, rfl⟩

/-- C03 fails: `CeedVectorCopy` of a vector to itself returns an error and leaves the vector locked for ever: no access is
outstanding, yet reading is refused. -/
theorem C03_copy_self_witness : ∃ (w w' : World ℚ) (g : View), R w g ∧ g.writes 0 = [] ∧ g.reads 0 = [] ∧ CanRead w 0 ∧
    exec id 0 (.copy 0 0) w = .err w' .access ∧ exec id 0 (.getArrayRead 0 .host) w' = .err w' .access :=
  ⟨_, _, _, (Reach.start.ok (c := .create 0 3) trivial rfl).ok (c := .setValue 0 5) trivial rfl, rfl, rfl, ⟨_, _, rfl⟩, rfl, rfl⟩

/-- C03 fails: `CeedVectorAXPY` with a second vector that is being written returns an error and leaves the first one locked. -/
theorem C03_axpy_witness : ∃ (w w' : World ℚ) (g : View), R w g ∧ g.writes 0 = [] ∧ g.reads 0 = [] ∧ CanRead w 0 ∧
    exec id 0 (.axpy 0 2 1) w = .err w' .access ∧ exec id 0 (.getArrayRead 0 .host) w' = .err w' .access :=
  ⟨_, _, _, ((((Reach.start.ok (c := .create 0 3) trivial rfl).ok (c := .create 0 3) trivial rfl).ok
    (c := .setArray 0 .host .copyValues none) trivial rfl).ok (c := .getArrayWrite 1 .host) trivial rfl), rfl, rfl, ⟨_, _, rfl⟩,
    rfl, rfl⟩

/-- C03 fails: `CeedVectorAXPBY` with a second vector that is being written returns an error and leaves the first one locked. -/
theorem C03_axpby_witness : ∃ (w w' : World ℚ) (g : View), R w g ∧ g.writes 0 = [] ∧ g.reads 0 = [] ∧ CanRead w 0 ∧
    exec id 0 (.axpby 0 2 3 1) w = .err w' .access ∧ exec id 0 (.getArrayRead 0 .host) w' = .err w' .access :=
  ⟨_, _, _, ((((Reach.start.ok (c := .create 0 3) trivial rfl).ok (c := .create 0 3) trivial rfl).ok
    (c := .setArray 0 .host .copyValues none) trivial rfl).ok (c := .getArrayWrite 1 .host) trivial rfl), rfl, rfl, ⟨_, _, rfl⟩,
    rfl, rfl⟩

/-- C03 fails: `CeedVectorPointwiseMult` with a factor that is being written returns an error and leaves the result locked. -/
theorem C03_pointwiseMult_witness : ∃ (w w' : World ℚ) (g : View), R w g ∧ g.writes 0 = [] ∧ g.reads 0 = [] ∧ CanRead w 0 ∧
    exec id 0 (.pointwiseMult 0 0 1) w = .err w' .access ∧ exec id 0 (.getArrayRead 0 .host) w' = .err w' .access :=
  ⟨_, _, _, ((((Reach.start.ok (c := .create 0 3) trivial rfl).ok (c := .create 0 3) trivial rfl).ok
    (c := .setArray 0 .host .copyValues none) trivial rfl).ok (c := .getArrayWrite 1 .host) trivial rfl), rfl, rfl, ⟨_, _, rfl⟩,
    rfl, rfl⟩

/-- C03 fails: `CeedVectorCopyStrided` of a vector to itself returns an error and leaves the vector locked for writing. -/
theorem C03_copyStrided_self_witness : ∃ (w w' w1 : World ℚ) (g : View) (r : Ret ℚ), R w g ∧ g.writes 0 = [] ∧ g.reads 0 = [] ∧
    exec id 0 (.getArray 0 .host) w = .ok w1 r ∧
    exec id 0 (.copyStrided 0 0 2 1 0) w = .err w' .access ∧ exec id 0 (.getArray 0 .host) w' = .err w' .access :=
  ⟨_, _, _, _, _, (Reach.start.ok (c := .create 0 3) trivial rfl).ok (c := .setValue 0 5) trivial rfl, rfl, rfl, rfl, rfl, rfl⟩

/-- C03 fails: a refused request for device memory on a vector without data makes its (zero) data valid. -/
theorem C03_getArrayWrite_witness : ∃ (w w' : World ℚ) (g : View), R w g ∧ hasValidArray 0 w = .ok w false ∧
    exec id 0 (.getArrayWrite 0 .device) w = .err w' .backend ∧ hasValidArray 0 w' = .ok w' true :=
  ⟨_, _, _, Reach.start.ok (c := .create 0 3) trivial rfl, rfl, rfl, rfl⟩

/-- C03 fails: a failed `CeedVectorDestroy` of the only handle has dropped the handle: a new handle made afterwards does not
keep the vector alive. After create, read access, failed destroy, reference, restore, one destroy frees the vector, though
two handles were made and one destroy succeeded. -/
theorem C03_destroy_witness : ∃ (w : World ℚ) (g : View), R w g ∧ g.handles 0 = 1 ∧ w.vecs 0 = none :=
  ⟨_, _, ((((((Reach.start.ok (c := .create 0 3) trivial rfl).ok (c := .setValue 0 5) trivial rfl).ok
    (c := .getArrayRead 0 .host) trivial rfl).err (c := .destroy 0) trivial trivial rfl).ok (c := .reference 0) trivial rfl).ok
    (c := .restoreArrayRead 0) trivial rfl).ok (c := .destroy 0) trivial rfl, rfl, rfl⟩

/-- C04, a case: a vector was written and read, all accesses were restored. -/
example : ∃ (w : World ℚ) (g : View), Reach Legal False id 0 w g ∧ g.has 0 ∧ g.writes 0 = [] ∧ g.reads 0 = [] ∧
    hasValidArray 0 w = .ok w true :=
  ⟨_, _, (((((Reach.start.ok (c := .create 0 3) trivial rfl).ok (c := .getArrayWrite 0 .host)
    (Nat.le_refl 1) rfl).ok (c := .restoreArray 0) (Nat.le_refl 1) rfl).ok
    (c := .getArrayRead 0 .host) (Nat.le_refl 1) rfl).ok (c := .restoreArrayRead 0)
    (by simp [Legal, View.has, View.ok, View.init, World.init]) rfl),
    by simp [View.has, View.ok, View.init, World.init], rfl, rfl, rfl⟩

/-- C04, a case: one of two handles is destroyed while the vector is being read. -/
example : ∃ (w w' : World ℚ) (g : View) (r : Ret ℚ), R w g ∧ g.reads 0 ≠ [] ∧ exec id 0 (.destroy 0) w = .ok w' r :=
  ⟨_, _, _, _, (((Reach.start.ok (c := .create 0 3) trivial rfl).ok (c := .setValue 0 5) trivial rfl).ok
    (c := .getArrayRead 0 .host) trivial rfl).ok (c := .reference 0) trivial rfl, by simp [View.ok], rfl⟩

/-- C05, a case: an array of the program is given away, copied and lent; the vectors are destroyed and the program frees what
is left. -/
example : ∃ (w : World ℚ) (g : View), Reach Legal True id 0 w g ∧ (∀ v, g.handles v = 0) ∧ (∀ a, g.mine a = none) ∧
    w.next = 2 := by
  refine ⟨_, _, (((((((((Reach.start.ok (c := .create 0 3) trivial rfl).ok (c := .malloc ⟨3, fun _ => 1⟩) trivial rfl).ok
    (c := .malloc ⟨4, fun _ => 2⟩) trivial rfl).ok (c := .setArray 0 .host .ownPointer (some 0)) ?_ rfl).ok
    (c := .setArray 0 .host .usePointer (some 1)) ?_ rfl).ok (c := .scale 0 3) ?_ rfl).ok (c := .takeArray 0 .host) ?_ rfl).ok
    (c := .destroy 0) ?_ rfl).ok (c := .mfree 1) ?_) rfl, ?_, ?_, rfl⟩
  any_goals simp [Legal, View.has, View.ok, View.onlyTo, View.notLent, upd, View.init, World.init, World.push]
  · intro a h h1
    simp [h, Ne.symm h1]

/-- C05, a case: an array that was not lent belongs to a vector with one handle. -/
example : ∃ (w w' : World ℚ) (g : View) (b : Buf ℚ) (x : Vec) (r : Ret ℚ), Reach Legal True id 0 w g ∧ w.heap 0 = some b ∧
    g.mine 0 = none ∧ g.handles 0 = 1 ∧ w.vecs 0 = some x ∧ x.owned = some 0 ∧ exec id 0 (.destroy 0) w = .ok w' r :=
  ⟨_, _, _, _, _, _, (Reach.start.ok (c := .create 0 3) trivial rfl).ok (c := .setValue 0 5) (Nat.le_refl 1)
    rfl, rfl, rfl, rfl, rfl, rfl, rfl⟩

/-- C05 fails for empty vectors: an array given away with `CEED_OWN_POINTER` to a vector of length zero is not freed when
the vector is destroyed. -/
theorem C05_empty_leak_witness : ∃ (w : World ℚ) (g : View), R w g ∧ g.handles 0 = 0 ∧ (w.heap 0).isSome ∧
    w.vecs 0 = none :=
  ⟨_, _, (((Reach.start.ok (c := .create 0 0) trivial rfl).ok (c := .malloc ⟨3, fun _ => 1⟩) trivial rfl).ok
    (c := .setArray 0 .host .ownPointer (some 0)) trivial rfl).ok (c := .destroy 0) trivial rfl, rfl, rfl, rfl⟩

/-- C05 fails when an array is given away twice: giving the array a vector already owns to it again frees it first; the next
access uses freed memory. -/
theorem C05_own_twice_witness : ∃ (w w1 : World ℚ) (g : View) (r : Ret ℚ), R w g ∧
    exec id 0 (.setArray 0 .host .ownPointer (some 0)) w = .ok w1 r ∧ exec id 0 (.scale 0 2) w1 = .ub :=
  ⟨_, _, _, _, ((Reach.start.ok (c := .create 0 3) trivial rfl).ok (c := .malloc ⟨3, fun _ => 1⟩) trivial rfl).ok
    (c := .setArray 0 .host .ownPointer (some 0)) trivial rfl, rfl, rfl⟩

/-- C06, a case: an array is lent, values are set through the vector, the array is taken back. -/
example : ∃ (w w' : World ℚ) (g : View) (x : Vec), R w g ∧ w.vecs 0 = some x ∧ 0 < x.len ∧ x.state % 2 = 0 ∧ x.readers = 0 ∧
    g.lent 0 = some 0 ∧ 0 < g.len 0 ∧ exec id 0 (.takeArray 0 .host) w = .ok w' (.ptr (some 0)) :=
  ⟨_, _, _, _, (((Reach.start.ok (c := .create 0 3) trivial rfl).ok (c := .malloc ⟨3, fun _ => 1⟩) trivial rfl).ok
    (c := .setArray 0 .host .usePointer (some 0)) trivial rfl).ok (c := .setValue 0 5) trivial rfl, rfl, by decide, rfl, rfl, rfl,
    by decide, rfl⟩

/-- C06 fails for empty vectors: `CeedVectorTakeArray` succeeds without a lent array and gives a null pointer. -/
theorem C06_empty_witness : ∃ (w w' : World ℚ) (g : View), R w g ∧ g.lent 0 = none ∧
    exec id 0 (.takeArray 0 .host) w = .ok w' (.ptr none) :=
  ⟨_, _, _, Reach.start.ok (c := .create 0 0) trivial rfl, rfl, rfl⟩

end Witness

end Vector
end Verif
