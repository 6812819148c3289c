import Verif.Memcheck.Exec

/-!
# Vectors of the memcheck backend: properties

`/cpu/self/memcheck/*` keeps the values of a vector apart from every array a program can write to, and hands out copies. C60 says
that a program sees the documented values all the same, and that a change of an array granted for reading is reported.
-/

set_option linter.unusedSectionVars false

namespace Verif
namespace Memcheck

open Vector (Mem Mode)

variable {α : Type} [DecidableEq α] {A : Arith α}

/-! ## All calls -/

theorem Step.seq {w : W α} {c : Call α} {m : M (W α) Unit} (h : Step A w c (m w) fun _ => none) :
    Step A w c ((do m; pure none : M (W α) (Option Nat)) w) id := by
  simp only [M.bind_apply]
  cases e : m w with
  | ok w' r => rw [e] at h; exact h
  | err w' k => rw [e] at h; exact h
  | ub => rw [e] at h; exact h

theorem exec_step {w : W α} (hi : Inv w) {c : Call α} (hl : Legal w c) (hc : ∀ v, c ≠ .restoreArrayRead v) :
    Step A w c (exec A c w) id := by
  cases c with
  | create v n => exact Step.seq (create_step hi n hl _)
  | destroy v => exact Step.seq (destroy_step hi hl _)
  | setArray v m mode src =>
    cases src with
    | none =>
      obtain ⟨x, hx⟩ := hl
      exact Step.seq (setArray_step hi m mode none hx (fun a ha => by cases ha) _)
    | some a =>
      obtain ⟨x, b, hx, hb, hle, hh⟩ := hl
      exact Step.seq (setArray_step hi m mode (some a) hx (fun a' ha => by cases ha; exact ⟨⟨b, hb, hle⟩, hh⟩) _)
  | takeArray v m => exact takeArray_step hi m hl
  | getArray v m => exact Step.seq (getArray_step hi m hl _)
  | getArrayRead v m => exact Step.seq (getArrayRead_step hi m hl _)
  | getArrayWrite v m => exact Step.seq (getArrayWrite_step hi m hl _)
  | restoreArray v => exact Step.seq (restoreArray_step hi hl _)
  | restoreArrayRead v => exact absurd rfl (hc v)
  | syncArray v m => exact Step.seq (syncArray_step hi m hl _)
  | setValue v z => exact Step.seq (setValue_step hi z hl _)
  | setValueStrided v a b d z => exact Step.seq (setValueStrided_step hi z hl.1 hl.2.1 hl.2.2 _)
  | scale v z => exact Step.seq (scale_step hi z hl _)
  | axpy y z x => exact Step.seq (axp_step (c := .axpy y z x) hi _ (by simp) (show y = y from rfl) rfl hl.1 hl.2 _)
  | axpby y z z' x => exact Step.seq (axp_step (c := .axpby y z z' x) hi _ (by simp) (show y = y from rfl) rfl hl.1 hl.2 _)
  | pointwiseMult u x y => exact Step.seq (pointwiseMult_step hi hl.1 hl.2.1 hl.2.2 _)
  | reciprocal v => exact Step.seq (reciprocal_step hi hl _)
  | malloc a b => exact step_ok (malloc_step hi b hl) (by simp)
  | mfree a =>
    obtain ⟨⟨b, hb⟩, hh⟩ := hl
    exact Step.seq (mfree_step hi hb hh _)
  | store a i z =>
    obtain ⟨b, hb, hib⟩ := hl
    exact Step.seq (storeA_step hi z hb hib _)
  | storeWrite v i z =>
    obtain ⟨x, hx, h1, h2⟩ := hl
    exact Step.seq (storeW_step hi z hx h1 h2 _)
  | storeRead v i z =>
    obtain ⟨x, hx, h1, h2⟩ := hl
    exact Step.seq (storeR_step hi z hx h1 h2 _)

theorem exec_restoreRead (w : W α) (v : Nat) :
    exec A (.restoreArrayRead v) w = (restoreArrayRead v w).bind (fun s _ => .ok s none) := rfl

theorem exec_ok {w w' : W α} (hi : Inv w) {c : Call α} (hl : Legal w c) {r : Option Nat} (e : exec A c w = .ok w' r) : Post A w c w' := by
  by_cases hc : ∀ v, c ≠ .restoreArrayRead v
  · have := exec_step (A := A) hi hl hc
    rw [e] at this
    exact this.1
  · push Not at hc
    obtain ⟨v, rfl⟩ := hc
    have := restoreArrayRead_step (A := A) hi (show Is w v from hl)
    rw [exec_restoreRead] at e
    cases h : restoreArrayRead v w with
    | ok s u => rw [h] at e this; cases e; exact this
    | err s k => rw [h] at e; cases e
    | ub => rw [h] at e; cases e

theorem exec_err {w w' : W α} (hi : Inv w) {c : Call α} (hl : Legal w c) {k : Err} (e : exec A c w = .err w' k) :
    w' = w ∨ (k = .backend ∧ ∃ v x, c = .restoreArrayRead v ∧ w.vecs v = some x ∧ w' = w.setVec v (some { x with readers := 0 }) ∧
      VInv w { x with readers := 0 }) := by
  by_cases hc : ∀ v, c ≠ .restoreArrayRead v
  · have := exec_step (A := A) hi hl hc
    rw [e] at this
    exact Or.inl this
  · push Not at hc
    obtain ⟨v, rfl⟩ := hc
    have := restoreArrayRead_step (A := A) hi (show Is w v from hl)
    rw [exec_restoreRead] at e
    cases h : restoreArrayRead v w with
    | ok s u => rw [h] at e; cases e
    | err s k =>
      rw [h] at e this
      cases e
      rcases this with ⟨h1, _⟩ | ⟨h1, x, hx, h2, h3⟩
      · exact Or.inl h1
      · exact Or.inr ⟨h1, v, x, rfl, hx, h2, h3⟩
    | ub => rw [h] at e; cases e

theorem exec_err_inv {w w' : W α} (hi : Inv w) {c : Call α} (hl : Legal w c) {k : Err} (e : exec A c w = .err w' k) : Inv w' := by
  rcases exec_err hi hl e with rfl | ⟨_, v, x, _, hx, rfl, hv⟩
  · exact hi
  · exact hi.setVec hx hv (fun a h => h)

/-- No copy for reading is left over. -/
def Clean (w : W α) (v : Nat) : Prop := ∀ x, w.vecs v = some x → 0 < x.len → x.readers = 0 → x.rcopy = none

theorem Reach.good {w : W α} {bad : Nat → Bool} (h : Reach A w bad) : Inv w ∧ ∀ v, bad v = false → Clean w v := by
  induction h with
  | init => exact ⟨Inv.init, fun v _ x hx => by cases hx⟩
  | @ok w w' bad c r h hl e ih =>
    have hp := exec_ok ih.1 hl e
    refine ⟨hp.inv, fun v hb x hx h0 h1 => ?_⟩
    cases hr : x.rcopy with
    | none => rfl
    | some b =>
      obtain ⟨y, hy, g0, g1, g2⟩ := hp.clean v x hx h0 h1 (by rw [hr]; rfl)
      have hb' : bad v = false := by
        cases c with
        | create u n =>
          by_cases hu : v = u
          · subst hu
            have hl : w.vecs v = none := hl
            rw [hl] at hy; cases hy
          · have : (if v = u then false else bad v) = false := hb
            rw [if_neg hu] at this
            exact this
        | _ => exact hb
      rw [ih.2 v hb' y hy g0 g1] at g2
      cases g2
  | @err w w' bad c k h hl e ih =>
    refine ⟨exec_err_inv ih.1 hl e, ?_⟩
    rcases exec_err ih.1 hl e with rfl | ⟨hk, u, y, rfl, hy, rfl, hv⟩
    · intro v hb
      refine ih.2 v ?_
      cases c with
      | restoreArrayRead u =>
        by_cases hk : k = .backend
        · have hb : (if k = .backend then fun i => if i = u then true else bad i else bad) v = false := hb
          rw [if_pos hk] at hb
          by_cases hu : v = u
          · simp [hu] at hb
          · simpa [hu] using hb
        · have hb : (if k = .backend then fun i => if i = u then true else bad i else bad) v = false := hb
          rw [if_neg hk] at hb
          exact hb
      | _ => exact hb
    · intro v hb
      have hb : (if k = .backend then fun i => if i = u then true else bad i else bad) v = false := hb
      rw [if_pos hk] at hb
      by_cases hu : v = u
      · simp [hu] at hb
      · simp only [hu, if_false] at hb
        intro x hx
        rw [setVec_ne _ _ hu] at hx
        exact ih.2 v hb x hx

/-! ## Theorems -/

/-- **C60.** A legal call never leads to undefined behaviour, whatever happened before; in particular no array is used after it
was freed, and nothing is read or written past the end. -/
theorem C60_defined {w : W α} {bad : Nat → Bool} (h : Reach A w bad) {c : Call α} (hl : Legal w c) : exec A c w ≠ .ub := by
  have hi := h.good.1
  by_cases hc : ∀ v, c ≠ .restoreArrayRead v
  · have := exec_step (A := A) hi hl hc
    intro e
    rw [e] at this
    exact this
  · push Not at hc
    obtain ⟨v, rfl⟩ := hc
    have := restoreArrayRead_step (A := A) hi (show Is w v from hl)
    rw [exec_restoreRead]
    cases h : restoreArrayRead v w with
    | ok s u => exact fun h => by cases h
    | err s k => exact fun h => by cases h
    | ub => rw [h] at this; exact this.elim

/-- **C60.** A successful call has the documented effect on the values of every vector. -/
theorem C60_values {w w' : W α} {bad : Nat → Bool} (h : Reach A w bad) {c : Call α} (hl : Legal w c) {r : Option Nat}
    (e : exec A c w = .ok w' r) (v : Nat) : SameOn (lenOf w' v) (vals w' v) (newVals A w c v) :=
  (exec_ok h.good.1 hl e).vals v

/-- **C60.** A call that fails changes nothing, except that the last `CeedVectorRestoreArrayRead` ends the access also when it
reports a violation. -/
theorem C60_error_keeps {w w' : W α} {bad : Nat → Bool} (h : Reach A w bad) {c : Call α} (hl : Legal w c) {k : Err}
    (e : exec A c w = .err w' k) :
    vals w' = vals w ∧ w'.heap = w.heap ∧ lent w' = lent w ∧ ((∃ v, c = .restoreArrayRead v ∧ k = .backend) ∨ w' = w) := by
  rcases exec_err h.good.1 hl e with rfl | ⟨hk, v, x, rfl, hx, rfl, _⟩
  · exact ⟨rfl, rfl, rfl, Or.inr rfl⟩
  · refine ⟨?_, rfl, ?_, Or.inl ⟨v, rfl, hk⟩⟩
    · funext u
      by_cases hu : u = v
      · subst hu
        rw [vals_eq (setVec_same _ _ _), vals_eq hx]
      · unfold vals
        rw [setVec_ne _ _ hu]
    · funext u
      by_cases hu : u = v
      · subst hu
        rw [lent_eq (setVec_same _ _ _), lent_eq hx]
      · unfold lent
        rw [setVec_ne _ _ hu]

/-- The access that a program has to a vector, and its state counter. -/
def stateOf (w : W α) (v : Nat) : Nat := ((w.vecs v).map (·.state)).getD 0
def readersOf (w : W α) (v : Nat) : Nat := ((w.vecs v).map (·.readers)).getD 0

theorem stateOf_eq {w : W α} {v : Nat} {x : MVec α} (h : w.vecs v = some x) : stateOf w v = x.state := by unfold stateOf; rw [h]; rfl
theorem readersOf_eq {w : W α} {v : Nat} {x : MVec α} (h : w.vecs v = some x) : readersOf w v = x.readers := by unfold readersOf; rw [h]; rfl

theorem valid_iff {w : W α} {v : Nat} {x : MVec α} (hx : w.vecs v = some x) (h : 0 < x.len) : validB x = true ↔ (vals w v).isSome := by
  rw [vals_eq hx]
  unfold validB
  have : ¬ x.len = 0 := by omega
  simp [this]

/-- `CeedVectorGetArrayRead`, case by case. -/
theorem getArrayRead_out {w : W α} (hi : Inv w) {v : Nat} {m : Mem} {x : MVec α} (hx : w.vecs v = some x) :
    (x.state % 2 = 0 ∧ (x.len = 0 ∨ ((vals w v).isSome ∧ m = .host)) ∧
      ((0 < x.len ∧ x.rcopy = none ∧ ∃ b, x.alloc = some b ∧
          exec A (.getArrayRead v m) w = .ok (w.setVec v (some { x with rcopy := some ⟨x.len, b.val⟩, readers := x.readers + 1 })) none) ∨
        ((x.len = 0 ∨ x.rcopy.isSome) ∧ exec A (.getArrayRead v m) w = .ok (w.setVec v (some { x with readers := x.readers + 1 })) none))) ∨
    (¬ (x.state % 2 = 0 ∧ (x.len = 0 ∨ ((vals w v).isSome ∧ m = .host))) ∧ ∃ k, exec A (.getArrayRead v m) w = .err w k) := by
  have hV := hi.each v x hx
  simp only [exec, getArrayRead, M.bind_apply, getV_eq hx, Out.bind_ok]
  by_cases h1 : x.state % 2 = 0
  swap
  · exact Or.inr ⟨fun h => h1 h.1, _, by rw [M.check_false h1]; rfl⟩
  rw [M.check_true h1, Out.bind_ok]
  by_cases h3 : 0 < x.len
  swap
  · left
    refine ⟨h1, Or.inl (by omega), Or.inr ⟨Or.inl (by omega), ?_⟩⟩
    rw [if_neg h3]
    simp only [addReader, M.bind_apply, getV_eq hx, Out.bind_ok, putV_eq, M.pure_apply]
  rw [if_pos h3]
  simp only [M.bind_apply]
  by_cases h4 : validB x = true
  swap
  · refine Or.inr ⟨fun h => h4 ((valid_iff hx h3).2 (h.2.resolve_left (by omega)).1), _, by rw [M.check_false h4]; rfl⟩
  rw [M.check_true h4, Out.bind_ok]
  obtain ⟨b, hb⟩ := valid_alloc h4 (by omega)
  have hbl := hV.al b hb
  unfold getReadMc
  simp only [M.bind_apply]
  by_cases h5 : m = .host
  swap
  · exact Or.inr ⟨fun h => h5 (h.2.resolve_left (by omega)).2, _, by rw [M.check_false h5]; rfl⟩
  rw [M.check_true h5, Out.bind_ok]
  simp only [getV_eq hx, Out.bind_ok]
  left
  refine ⟨h1, Or.inr ⟨(valid_iff hx h3).1 h4, h5⟩, ?_⟩
  by_cases hr : x.rcopy.isSome = true
  · refine Or.inr ⟨Or.inr hr, ?_⟩
    rw [if_pos hr]
    simp only [M.pure_apply, Out.bind_ok, addReader, M.bind_apply, getV_eq hx, putV_eq]
  · refine Or.inl ⟨h3, by simpa using hr, b, hb, ?_⟩
    rw [if_neg hr]
    simp only [M.bind_apply, dup, hb, if_pos (le_of_eq hbl.symm), M.lift_ok, Out.bind_ok, addReader, getV_put, putV_eq, setVec_setVec, M.pure_apply]

/-- **C60.** Read access is granted exactly if nobody has write access, the vector has values (or no entries), and the memory is
that of the host. The first reader sees the values of the vector, unless a violation was reported for it before. Further readers
share the array of the first. -/
theorem C60_read {w : W α} {bad : Nat → Bool} (h : Reach A w bad) {v : Nat} {m : Mem} (hl : Legal w (.getArrayRead v m)) :
    ((∃ w' r, exec A (.getArrayRead v m) w = .ok w' r) ↔
      stateOf w v % 2 = 0 ∧ (lenOf w v = 0 ∨ ((vals w v).isSome ∧ m = .host))) ∧
    ∀ w' r, exec A (.getArrayRead v m) w = .ok w' r →
      readersOf w' v = readersOf w v + 1 ∧
      (readersOf w v = 0 → bad v = false → 0 < lenOf w v → SameOn (lenOf w v) (readArr w' v) (vals w v) ∧ (readArr w' v).isSome) ∧
      (0 < readersOf w v → readArr w' v = readArr w v) := by
  obtain ⟨hi, hcl⟩ := h.good
  obtain ⟨x, hx⟩ : Is w v := hl
  have hV := hi.each v x hx
  rw [stateOf_eq hx, lenOf_eq hx, readersOf_eq hx]
  rcases getArrayRead_out (A := A) (m := m) hi hx with ⟨h1, h2, ⟨h3, h4, b, hb, e⟩ | ⟨h3, e⟩⟩ | ⟨h1, k, e⟩
  · refine ⟨⟨fun _ => ⟨h1, h2⟩, fun _ => ⟨_, _, e⟩⟩, fun w' r e' => ?_⟩
    rw [e] at e'
    cases e'
    refine ⟨readersOf_eq (setVec_same _ _ _), fun _ _ _ => ?_, fun hr => ?_⟩
    · have : readArr (w.setVec v (some { x with rcopy := some ⟨x.len, b.val⟩, readers := x.readers + 1 })) v = some b.val := by
        unfold readArr; rw [setVec_same]; rfl
      rw [this, vals_eq hx, hb]
      exact ⟨SameOn.refl _ _, rfl⟩
    · have := (hV.rc h3 hr).1
      rw [h4] at this
      cases this
  · refine ⟨⟨fun _ => ⟨h1, h2⟩, fun _ => ⟨_, _, e⟩⟩, fun w' r e' => ?_⟩
    rw [e] at e'
    cases e'
    refine ⟨readersOf_eq (setVec_same _ _ _), fun g1 g2 g3 => ?_, fun hr => ?_⟩
    · rw [hcl v g2 x hx g3 g1] at h3
      rcases h3 with h3 | h3
      · omega
      · cases h3
    · unfold readArr
      rw [setVec_same, hx]
      rfl
  · refine ⟨⟨fun ⟨w', r, e'⟩ => ?_, fun hh => absurd hh h1⟩, fun w' r e' => ?_⟩
    · rw [e] at e'; cases e'
    · rw [e] at e'; cases e'

/-- While a program reads, the values stay. -/
theorem Reading.keeps {v : Nat} {w w' : W α} (h : Reading A v w w') (hi : Inv w) {x : MVec α} (hx : w.vecs v = some x) (hr : 0 < x.readers) :
    Inv w' ∧ ∃ x', w'.vecs v = some x' ∧ 0 < x'.readers ∧ x'.alloc = x.alloc ∧ x'.len = x.len := by
  induction h with
  | refl => exact ⟨hi, x, hx, hr, rfl, rfl⟩
  | @step w1 w2 c h hl hc e hr2 ih =>
    obtain ⟨hi1, x1, hx1, hr1, ha1, hl1⟩ := ih
    obtain ⟨x2, hx2, hr2⟩ := hr2
    have key : Inv w2 ∧ x2.alloc = x1.alloc := by
      rcases e with ⟨r, e⟩ | ⟨k, e⟩
      · have hp := exec_ok hi1 hl e
        exact ⟨hp.inv, hp.reading v x1 x2 hx1 hr1 hc hx2⟩
      · refine ⟨exec_err_inv hi1 hl e, ?_⟩
        rcases exec_err hi1 hl e with rfl | ⟨hk, u, y, rfl, hy, rfl, hv⟩
        · rw [hx1] at hx2; cases hx2; rfl
        · by_cases hu : v = u
          · subst hu
            rw [setVec_same] at hx2
            cases hx2
            rw [hx1] at hy
            cases hy
            rfl
          · rw [setVec_ne _ _ hu, hx1] at hx2
            cases hx2
            rfl
    refine ⟨key.1, x2, hx2, hr2, by rw [key.2, ha1], ?_⟩
    rw [← hl1]
    cases ha : x1.alloc with
    | some b =>
      rw [← (hi1.each v x1 hx1).al b ha, ← (key.1.each v x2 hx2).al b (by rw [key.2]; exact ha)]
    | none =>
      have z1 : ¬ 0 < x1.len := fun h => by have := ((hi1.each v x1 hx1).rc h hr1).2; rw [ha] at this; cases this
      have z2 : ¬ 0 < x2.len := fun h => by have := ((key.1.each v x2 hx2).rc h hr2).2; rw [key.2, ha] at this; cases this
      omega

/-- **C60.** Somebody gets read access that nobody else has. Then anything happens, as long as the access lasts and no arithmetic is
done on the vector: accesses by further readers, writes to the array granted, calls on other vectors. When the last reader gives
the access back, the library reports an error exactly if the array is not what it was at first. -/
theorem C60_violation {w w1 w2 : W α} {bad : Nat → Bool} (h : Reach A w bad) {v : Nat} {m : Mem} {r : Option Nat}
    (hl : Legal w (.getArrayRead v m)) (h0 : readersOf w v = 0) (hb : bad v = false) (e : exec A (.getArrayRead v m) w = .ok w1 r)
    (hr : Reading A v w1 w2) (h2 : readersOf w2 v = 1) :
    (SameOn (lenOf w v) (readArr w2 v) (readArr w1 v) → ∃ w3 r', exec A (.restoreArrayRead v) w2 = .ok w3 r') ∧
    (¬ SameOn (lenOf w v) (readArr w2 v) (readArr w1 v) → ∃ w3, exec A (.restoreArrayRead v) w2 = .err w3 .backend) := by
  obtain ⟨hi, hcl⟩ := h.good
  have hi1 := (exec_ok hi hl e).inv
  obtain ⟨x, hx⟩ : Is w v := hl
  rw [readersOf_eq hx] at h0
  rw [lenOf_eq hx]
  have hok : ∀ w3, restoreArrayRead v w2 = .ok w3 () → exec A (.restoreArrayRead v) w2 = .ok w3 none := fun w3 h => by
    rw [exec_restoreRead, h]; rfl
  have herr : ∀ w3 k, restoreArrayRead v w2 = .err w3 k → exec A (.restoreArrayRead v) w2 = .err w3 k := fun w3 k h => by
    rw [exec_restoreRead, h]; rfl
  rcases getArrayRead_out (A := A) (m := m) hi hx with ⟨_, _, ⟨h3, h4, b, hb', e'⟩ | ⟨h3, e'⟩⟩ | ⟨_, k, e'⟩
  · rw [e'] at e
    cases e
    obtain ⟨hi2, x2, hx2, hr2, ha2, hl2⟩ := hr.keeps hi1 (setVec_same _ _ _) (show 0 < x.readers + 1 by omega)
    rw [readersOf_eq hx2] at h2
    have hl2 : x2.len = x.len := hl2
    have ha2 : x2.alloc = x.alloc := ha2
    have g1 : readArr (w.setVec v (some { x with rcopy := some ⟨x.len, b.val⟩, readers := x.readers + 1 })) v = some b.val := by
      unfold readArr; rw [setVec_same]; rfl
    rw [g1]
    rcases restoreArrayRead_out hi2 hx2 with ⟨k1, _⟩ | ⟨_, k2, _⟩ | ⟨_, _, a, q, k3, k4, k5⟩
    · omega
    · omega
    · have g2 : readArr w2 v = some q.val := by unfold readArr; rw [hx2]; show x2.rcopy.map _ = _; rw [k4]; rfl
      rw [g2]
      rw [ha2, hb'] at k3
      cases k3
      have iff : SameOn x.len (some q.val) (some b.val) ↔ ∀ i < x2.len, b.val i = q.val i := by
        rw [hl2]
        exact ⟨fun h i hi => (h i hi).symm, fun h i hi => (h i hi).symm⟩
      rcases k5 with ⟨k5, k6⟩ | ⟨k5, k6⟩
      · exact ⟨fun _ => ⟨_, _, hok _ k6⟩, fun hn => absurd (iff.2 k5) hn⟩
      · exact ⟨fun hs => absurd (iff.1 hs) k5, fun _ => ⟨_, herr _ _ k6⟩⟩
  · have hz : x.len = 0 := by
      by_contra hne
      rw [hcl v hb x hx (by omega) h0] at h3
      rcases h3 with h3 | h3
      · exact hne h3
      · cases h3
    rw [e'] at e
    cases e
    obtain ⟨hi2, x2, hx2, hr2, ha2, hl2⟩ := hr.keeps hi1 (setVec_same _ _ _) (show 0 < x.readers + 1 by omega)
    have hl2 : x2.len = x.len := hl2
    refine ⟨fun _ => ?_, fun hn => absurd (by rw [hz]; exact SameOn.zero _ _) hn⟩
    rw [readersOf_eq hx2] at h2
    rcases restoreArrayRead_out hi2 hx2 with ⟨k1, _⟩ | ⟨_, k2, k3⟩ | ⟨k1, _⟩
    · omega
    · exact ⟨_, _, hok _ k3⟩
    · omega
  · rw [e'] at e
    cases e

/-- **C60.** Giving back an access that others still have always succeeds; without an access it is rejected. -/
theorem C60_restore_read {w : W α} {bad : Nat → Bool} (h : Reach A w bad) {v : Nat} (hl : Legal w (.restoreArrayRead v)) :
    (1 < readersOf w v → ∃ w' r, exec A (.restoreArrayRead v) w = .ok w' r ∧ readersOf w' v = readersOf w v - 1 ∧ readArr w' v = readArr w v) ∧
    (readersOf w v = 0 → exec A (.restoreArrayRead v) w = .err w .access) := by
  obtain ⟨x, hx⟩ : Is w v := hl
  rw [readersOf_eq hx]
  rcases restoreArrayRead_out h.good.1 hx with ⟨k1, e⟩ | ⟨k1, k2, e⟩ | ⟨_, k2, _⟩
  · exact ⟨fun h => by omega, fun _ => by rw [exec_restoreRead, e]; rfl⟩
  · refine ⟨fun _ => ⟨_, _, by rw [exec_restoreRead, e]; rfl, readersOf_eq (setVec_same _ _ _), ?_⟩, fun h => by omega⟩
    unfold readArr
    rw [setVec_same, hx]
    rfl
  · exact ⟨fun h => by omega, fun h => by omega⟩

/-- **C60.** Write access is granted exactly if nobody has access, the vector has values (or no entries; values are not needed for
`CeedVectorGetArrayWrite`), and the memory is that of the host. The array shows the values, or with `CeedVectorGetArrayWrite`
entries that are not numbers. -/
theorem C60_write {w : W α} {bad : Nat → Bool} (h : Reach A w bad) {v : Nat} (m : Mem) (hl : Is w v) :
    (((∃ w' r, exec A (.getArray v m) w = .ok w' r) ↔
        stateOf w v % 2 = 0 ∧ readersOf w v = 0 ∧ (lenOf w v = 0 ∨ ((vals w v).isSome ∧ m = .host))) ∧
      ∀ w' r, exec A (.getArray v m) w = .ok w' r → stateOf w' v = stateOf w v + 1 ∧
        (0 < lenOf w v → ∃ f g, writeArr w' v = some f ∧ vals w v = some g ∧ ∀ i < lenOf w v, f i = g i)) ∧
    (((∃ w' r, exec A (.getArrayWrite v m) w = .ok w' r) ↔
        stateOf w v % 2 = 0 ∧ readersOf w v = 0 ∧ (lenOf w v = 0 ∨ m = .host)) ∧
      ∀ w' r, exec A (.getArrayWrite v m) w = .ok w' r → stateOf w' v = stateOf w v + 1 ∧
        (0 < lenOf w v → ∃ f, writeArr w' v = some f ∧ ∀ i < lenOf w v, f i = A.nan)) := by
  have hi := h.good.1
  obtain ⟨x, hx⟩ := hl
  have hV := hi.each v x hx
  rw [stateOf_eq hx, lenOf_eq hx, readersOf_eq hx]
  have lk : ∀ {β : Type} (f : Unit → M (W α) β) , ((x.state % 2 = 0 ∧ x.readers = 0) ∧ (lockChecks x w).bind (fun s a => f a s) = f () w) ∨
      (¬ (x.state % 2 = 0 ∧ x.readers = 0) ∧ (lockChecks x w).bind (fun s a => f a s) = .err w .access) := by
    intro β f
    rcases lock_out (w := w) x with e | ⟨e, h1, h2⟩
    · refine Or.inr ⟨fun hh => ?_, by rw [e]; rfl⟩
      unfold lockChecks at e
      simp only [M.bind_apply, M.check_true hh.1, Out.bind_ok, M.check_true hh.2] at e
      cases e
    · exact Or.inl ⟨⟨h1, h2⟩, by rw [e]; rfl⟩
  constructor
  · simp only [exec, getArray, M.bind_apply, getV_eq hx, Out.bind_ok]
    by_cases hk : x.state % 2 = 0 ∧ x.readers = 0
    swap
    · have hout : lockChecks x w = .err w .access := (lock_out (w := w) x).resolve_right (fun h => hk h.2)
      simp only [hout, Out.bind]
      exact ⟨⟨fun ⟨_, _, h⟩ => (by cases h), fun h => absurd ⟨h.1, h.2.1⟩ hk⟩, fun _ _ h => by cases h⟩
    have hout : lockChecks x w = .ok w () := by
      unfold lockChecks
      simp only [M.bind_apply, M.check_true hk.1, Out.bind_ok, M.check_true hk.2]
    rw [hout, Out.bind_ok]
    by_cases h3 : 0 < x.len
    swap
    · rw [if_neg h3]
      simp only [bump, M.bind_apply, getV_eq hx, Out.bind_ok, putV_eq, M.pure_apply]
      refine ⟨⟨fun _ => ⟨hk.1, hk.2, Or.inl (by omega)⟩, fun _ => ⟨_, _, rfl⟩⟩, fun w' r e => ?_⟩
      cases e
      exact ⟨stateOf_eq (setVec_same _ _ _), fun h => absurd h h3⟩
    rw [if_pos h3]
    simp only [M.bind_apply]
    by_cases h4 : validB x = true
    swap
    · rw [M.check_false h4]
      refine ⟨⟨fun ⟨_, _, h⟩ => (by cases h), fun h => absurd ((valid_iff hx h3).2 (h.2.2.resolve_left (by omega)).1) h4⟩, fun _ _ h => by cases h⟩
    rw [M.check_true h4, Out.bind_ok]
    obtain ⟨b, hb⟩ := valid_alloc h4 (by omega)
    have hbl := hV.al b hb
    unfold getMc
    simp only [M.bind_apply]
    by_cases h5 : m = .host
    swap
    · rw [M.check_false h5]
      exact ⟨⟨fun ⟨_, _, h⟩ => (by cases h), fun h => absurd (h.2.2.resolve_left (by omega)).2 h5⟩, fun _ _ h => by cases h⟩
    rw [M.check_true h5, Out.bind_ok]
    simp only [getV_eq hx, Out.bind_ok, dup, hb, if_pos (le_of_eq hbl.symm), M.lift_ok, putV_eq, bump, M.bind_apply, getV_put, setVec_setVec, M.pure_apply]
    refine ⟨⟨fun _ => ⟨hk.1, hk.2, Or.inr ⟨(valid_iff hx h3).1 h4, h5⟩⟩, fun _ => ⟨_, _, rfl⟩⟩, fun w' r e => ?_⟩
    cases e
    refine ⟨stateOf_eq (setVec_same _ _ _), fun _ => ⟨b.val, b.val, ?_, ?_, fun _ _ => rfl⟩⟩
    · unfold writeArr; rw [setVec_same]; rfl
    · rw [vals_eq hx, hb]; rfl
  · simp only [exec, getArrayWrite, M.bind_apply, getV_eq hx, Out.bind_ok]
    by_cases hk : x.state % 2 = 0 ∧ x.readers = 0
    swap
    · have hout : lockChecks x w = .err w .access := (lock_out (w := w) x).resolve_right (fun h => hk h.2)
      simp only [hout, Out.bind]
      exact ⟨⟨fun ⟨_, _, h⟩ => (by cases h), fun h => absurd ⟨h.1, h.2.1⟩ hk⟩, fun _ _ h => by cases h⟩
    have hout : lockChecks x w = .ok w () := by
      unfold lockChecks
      simp only [M.bind_apply, M.check_true hk.1, Out.bind_ok, M.check_true hk.2]
    rw [hout, Out.bind_ok]
    by_cases h3 : 0 < x.len
    swap
    · rw [if_neg h3]
      simp only [bump, M.bind_apply, getV_eq hx, Out.bind_ok, putV_eq, M.pure_apply]
      refine ⟨⟨fun _ => ⟨hk.1, hk.2, Or.inl (by omega)⟩, fun _ => ⟨_, _, rfl⟩⟩, fun w' r e => ?_⟩
      cases e
      exact ⟨stateOf_eq (setVec_same _ _ _), fun h => absurd h h3⟩
    rw [if_pos h3]
    unfold getWriteMc
    simp only [M.bind_apply]
    by_cases h5 : m = .host
    swap
    · rw [M.check_false h5]
      exact ⟨⟨fun ⟨_, _, h⟩ => (by cases h), fun h => absurd (h.2.2.resolve_left (by omega)) h5⟩, fun _ _ h => by cases h⟩
    subst h5
    obtain ⟨b, hb, hbl, hbv, hE⟩ := ensured_spec hV A.nan
    rw [M.check_true rfl, Out.bind_ok, ensure_eq hx, Out.bind_ok]
    simp only [getMc, M.bind_apply, M.check_true, getV_put, Out.bind_ok, hE, dup, if_pos (le_of_eq hbl.symm), M.lift_ok, putV_eq, bump, setVec_setVec,
      le_refl, if_true, mapLoop_ok (fun _ => A.nan) (b := ⟨x.len, b.val⟩) (Nat.le_refl x.len), M.pure_apply]
    refine ⟨⟨fun _ => ⟨hk.1, hk.2, Or.inr trivial⟩, fun _ => ⟨_, _, rfl⟩⟩, fun w' r e => ?_⟩
    cases e
    refine ⟨stateOf_eq (setVec_same _ _ _), fun _ => ⟨_, by unfold writeArr; rw [setVec_same]; rfl, fun i hi => ?_⟩⟩
    exact if_pos hi

/-- **C60.** An array lent to a vector shows its values after `CeedVectorRestoreArray` and after `CeedVectorSyncArray`.
`CeedVectorTakeArray` returns the array that was lent, with the values of the vector. Which array is lent changes with
`CeedVectorSetArray` and `CeedVectorTakeArray` only. -/
theorem C60_lent {w w' : W α} {bad : Nat → Bool} (h : Reach A w bad) {c : Call α} (hl : Legal w c) {r : Option Nat} (e : exec A c w = .ok w' r) :
    (∀ v, lent w' v = newLent w c v) ∧
    (∀ v, (c = .restoreArray v ∨ ∃ m, c = .syncArray v m) → ∀ a, lent w v = some a →
      ∃ f, contents w' a = some f ∧ (0 < lenOf w v → ∃ g, vals w' v = some g ∧ ∀ i < lenOf w v, f i = g i)) ∧
    (∀ v m, c = .takeArray v m → 0 < lenOf w v →
      r = lent w v ∧ ∃ a f g, r = some a ∧ contents w' a = some f ∧ vals w v = some g ∧ ∀ i < lenOf w v, f i = g i) := by
  have hi := h.good.1
  have hp := exec_ok hi hl e
  refine ⟨hp.lent, fun v hc a ha => ?_, fun v m hc hlen => ?_⟩
  · rcases hc with rfl | ⟨m, rfl⟩
    · obtain ⟨x, hx⟩ : Is w v := hl
      have hV := hi.each v x hx
      rw [lent_eq hx] at ha
      rw [lenOf_eq hx]
      by_cases h3 : 0 < x.len
      · by_cases h1 : x.state % 2 = 1
        · obtain ⟨w1, d, hd, e', k1, k2, k3⟩ := restoreArray_out hi hx h1 h3
          simp only [exec, M.bind_apply, e', Out.bind_ok, M.pure_apply] at e
          cases e
          obtain ⟨k, q, q1, q2, q3, q4⟩ := k3 a (Or.inr ha)
          refine ⟨k.val, ?_, fun _ => ⟨d.val, ?_, q4⟩⟩
          · show (w1.heap a).map _ = _
            rw [q2]; rfl
          · exact vals_eq (setVec_same _ _ _)
        · simp only [exec, restoreArray, M.bind_apply, getV_eq hx, Out.bind_ok, M.check_false h1] at e
          cases e
      · simp only [exec, restoreArray, M.bind_apply, getV_eq hx, Out.bind_ok] at e
        by_cases h1 : x.state % 2 = 1
        · rw [M.check_true h1, Out.bind_ok, if_neg h3] at e
          simp only [bump, M.bind_apply, getV_eq hx, Out.bind_ok, putV_eq, M.pure_apply] at e
          cases e
          obtain ⟨b, hb, _⟩ := hV.arr a (Or.inr ha)
          exact ⟨b.val, by show (w.heap a).map _ = _; rw [hb]; rfl, fun h => absurd h h3⟩
        · rw [M.check_false h1] at e
          cases e
    · obtain ⟨x, hx⟩ : Is w v := hl
      have hV := hi.each v x hx
      rw [lent_eq hx] at ha
      rw [lenOf_eq hx]
      simp only [exec, syncArray, M.bind_apply, getV_eq hx, Out.bind_ok] at e
      by_cases h1 : x.state % 2 = 0
      swap
      · rw [M.check_false h1] at e; cases e
      rw [M.check_true h1, Out.bind_ok] at e
      by_cases h2 : x.len = 0
      · rw [if_pos h2] at e
        cases e
        obtain ⟨b, hb, _⟩ := hV.arr a (Or.inr ha)
        exact ⟨b.val, by show (w.heap a).map _ = _; rw [hb]; rfl, fun h => by omega⟩
      rw [if_neg h2] at e
      by_cases h5 : m = .host
      swap
      · unfold syncMc at e
        simp only [M.bind_apply] at e
        rw [M.check_false h5] at e; cases e
      subst h5
      obtain ⟨w1, e', k1, k2, k3⟩ := sync_ok hx hV
      rw [e'] at e
      cases e
      obtain ⟨b, k, q, q1, q2, q3, q4, q5⟩ := k3 a (Or.inr ha)
      refine ⟨k.val, by unfold contents; rw [q3]; rfl, fun _ => ⟨b.val, ?_, q5⟩⟩
      rw [vals_eq (x := x) (by rw [k1]; exact hx), q2]
      rfl
  · have := exec_step (A := A) hi hl (by rw [hc]; exact fun _ h => by cases h)
    rw [e] at this
    obtain ⟨k1, k2, k3⟩ := this.2 v m hc hlen
    have k2 : r.isSome := k2
    obtain ⟨a, ha⟩ := Option.isSome_iff_exists.1 k2
    obtain ⟨b, g, q1, q2, q3⟩ := k3 a ha
    exact ⟨k1, a, b.val, g, ha, by unfold contents; rw [q1]; rfl, q2, q3⟩

/-- **C60.** A successful call leaves all arrays of the program alone except those that are lent or given to the vector it is about,
and an array the program itself allocates, frees or writes to. -/
theorem C60_other_arrays {w w' : W α} {bad : Nat → Bool} (h : Reach A w bad) {c : Call α} (hl : Legal w c) {r : Option Nat}
    (e : exec A c w = .ok w' r) {a : Nat} (ha : ¬ Held w a) (hc : (∀ b, c ≠ .malloc a b) ∧ c ≠ .mfree a ∧ ∀ i z, c ≠ .store a i z) :
    w'.heap a = w.heap a := by
  refine (exec_ok h.good.1 hl e).heap a (fun ht => ?_)
  cases c with
  | malloc b d => exact hc.1 d (by rw [show a = b from ht])
  | mfree b => exact hc.2.1 (by rw [show a = b from ht])
  | store b i z => exact hc.2.2 i z (by rw [show a = b from ht])
  | restoreArray v => obtain ⟨x, hx, hh⟩ := ht; exact ha ⟨v, x, hx, hh⟩
  | syncArray v m => obtain ⟨x, hx, hh⟩ := ht; exact ha ⟨v, x, hx, hh⟩
  | takeArray v m => obtain ⟨x, hx, hh⟩ := ht; exact ha ⟨v, x, hx, hh⟩
  | setArray v m mode src => obtain ⟨x, hx, hh⟩ := ht; exact ha ⟨v, x, hx, Or.inl hh⟩
  | destroy v => obtain ⟨x, hx, hh⟩ := ht; exact ha ⟨v, x, hx, Or.inl hh⟩
  | _ => exact ht

/-- **C60, in part.** Over any part of a history that does no arithmetic on the vector the state counter does not go down, and if
it is the same as before then so are the values (or the vector has none any more). What is missing: arithmetic does not count. -/
theorem C60_state_partial {w w' : W α} {bad : Nat → Bool} (h : Reach A w bad) {v : Nat} (hv : Is w v)
    (hs : Steps A (fun c => ¬ Arithmetic v c ∧ c ≠ .destroy v) w w') :
    stateOf w v ≤ stateOf w' v ∧ (stateOf w' v = stateOf w v → vals w' v = vals w v ∨ vals w' v = none) := by
  obtain ⟨x, hx⟩ := hv
  have hi := h.good.1
  suffices Inv w' ∧ ∃ x', w'.vecs v = some x' ∧ x.state ≤ x'.state ∧ (x'.state = x.state → x'.alloc = x.alloc ∨ x'.alloc = none) by
    obtain ⟨_, x', hx', h1, h2⟩ := this
    rw [stateOf_eq hx, stateOf_eq hx', vals_eq hx, vals_eq hx']
    refine ⟨h1, fun h => ?_⟩
    rcases h2 h with h | h
    · exact Or.inl (by rw [h])
    · exact Or.inr (by rw [h]; rfl)
  induction hs with
  | refl => exact ⟨hi, x, hx, Nat.le_refl _, fun _ => Or.inl rfl⟩
  | @step w1 w2 c hs hl hc e ih =>
    obtain ⟨hi1, x1, hx1, g1, g2⟩ := ih
    rcases e with ⟨r, e⟩ | ⟨k, e⟩
    · have hp := exec_ok hi1 hl e
      obtain ⟨x2, hx2, _, g3, g4⟩ := hp.state v x1 hx1 hc.2
      refine ⟨hp.inv, x2, hx2, by omega, fun hh => ?_⟩
      rcases g4 (by omega) hc.1 with q | q
      · rw [q]
        exact g2 (by omega)
      · exact Or.inr q
    · refine ⟨exec_err_inv hi1 hl e, ?_⟩
      rcases exec_err hi1 hl e with rfl | ⟨hk, u, y, rfl, hy, rfl, _⟩
      · exact ⟨x1, hx1, g1, g2⟩
      · by_cases hu : v = u
        · subst hu
          rw [hx1] at hy
          cases hy
          exact ⟨_, setVec_same _ _ _, g1, g2⟩
        · exact ⟨x1, by rw [setVec_ne _ _ hu]; exact hx1, g1, g2⟩

end Memcheck
end Verif
