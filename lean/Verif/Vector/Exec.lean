import Verif.Vector.Model

/-!
# What the calls do, exactly

Symbolic execution of the model, used by the proofs in the other files.
-/

namespace Verif
namespace Vector

set_option linter.unusedSectionVars false

variable {α : Type _}

@[simp] theorem setVec_vecs (w : World α) (v u : Vid) (x : Option Vec) :
    (w.setVec v x).vecs u = if u = v then x else w.vecs u := rfl
@[simp] theorem setVec_heap (w : World α) (v : Vid) (x : Option Vec) : (w.setVec v x).heap = w.heap := rfl
@[simp] theorem setVec_next (w : World α) (v : Vid) (x : Option Vec) : (w.setVec v x).next = w.next := rfl
@[simp] theorem setVec_nextVec (w : World α) (v : Vid) (x : Option Vec) : (w.setVec v x).nextVec = w.nextVec := rfl
@[simp] theorem setBlk_heap (w : World α) (a c : Addr) (b : Option (Buf α)) :
    (w.setBlk a b).heap c = if c = a then b else w.heap c := rfl
@[simp] theorem setBlk_vecs (w : World α) (a : Addr) (b : Option (Buf α)) : (w.setBlk a b).vecs = w.vecs := rfl
@[simp] theorem setBlk_next (w : World α) (a : Addr) (b : Option (Buf α)) : (w.setBlk a b).next = w.next := rfl
@[simp] theorem setBlk_nextVec (w : World α) (a : Addr) (b : Option (Buf α)) : (w.setBlk a b).nextVec = w.nextVec := rfl

@[simp] theorem push_heap (w : World α) (c : Addr) (b : Buf α) :
    (w.push b).heap c = if c = w.next then some b else w.heap c := rfl
@[simp] theorem push_vecs (w : World α) (b : Buf α) : (w.push b).vecs = w.vecs := rfl
@[simp] theorem push_next (w : World α) (b : Buf α) : (w.push b).next = w.next + 1 := rfl
@[simp] theorem push_nextVec (w : World α) (b : Buf α) : (w.push b).nextVec = w.nextVec := rfl
@[simp] theorem push_setBlk (w : World α) (b c : Buf α) : (w.push b).setBlk w.next (some c) = w.push c := by
  unfold World.push World.setBlk
  simp only [World.mk.injEq, and_self, and_true]
  funext u
  split <;> rfl

@[simp] theorem setVec_setVec (w : World α) (v : Vid) (x y : Option Vec) :
    (w.setVec v x).setVec v y = w.setVec v y := by
  unfold World.setVec
  congr 1
  funext u
  dsimp only
  split <;> rfl

theorem setVec_comm (w : World α) {v u : Vid} (h : v ≠ u) (x y : Option Vec) :
    (w.setVec v x).setVec u y = (w.setVec u y).setVec v x := by
  unfold World.setVec
  congr 1
  funext t
  dsimp only
  by_cases h1 : t = u
  · subst h1; simp [Ne.symm h]
  · simp [h1]

@[simp] theorem setBlk_setBlk (w : World α) (a : Addr) (x y : Option (Buf α)) :
    (w.setBlk a x).setBlk a y = w.setBlk a y := by
  unfold World.setBlk
  congr 1
  funext u
  dsimp only
  split <;> rfl

theorem setVec_self (w : World α) {v : Vid} {x : Option Vec} (h : w.vecs v = x) : w.setVec v x = w := by
  cases w with
  | mk heap next vecs nextVec =>
    simp only [World.setVec, World.mk.injEq, true_and, and_true]
    funext u
    split
    · subst_vars; rfl
    · rfl

theorem setBlk_self (w : World α) {a : Addr} {b : Option (Buf α)} (h : w.heap a = b) : w.setBlk a b = w := by
  cases w with
  | mk heap next vecs nextVec =>
    simp only [World.setBlk, World.mk.injEq, and_true]
    funext u
    split
    · subst_vars; rfl
    · rfl

theorem setVec_setBlk (w : World α) (v : Vid) (x : Option Vec) (a : Addr) (b : Option (Buf α)) :
    (w.setVec v x).setBlk a b = (w.setBlk a b).setVec v x := rfl

@[simp] theorem getV_some {w : World α} {v : Vid} {x : Vec} (h : w.vecs v = some x) : getV v w = .ok w x := by
  simp [getV, h]
@[simp] theorem getV_none {w : World α} {v : Vid} (h : w.vecs v = none) : getV v w = .ub := by
  simp [getV, h]
@[simp] theorem putV_apply (w : World α) (v : Vid) (x : Vec) : putV v x w = .ok (w.setVec v (some x)) () := rfl

/-- No writer and no reader. -/
def Vec.free (x : Vec) : Prop := x.state % 2 = 0 ∧ x.readers = 0

instance (x : Vec) : Decidable x.free := by unfold Vec.free; infer_instance

/-- Reading is possible: the vector is empty or has an array. -/
def Vec.valid (x : Vec) : Prop := x.len = 0 ∨ x.array.isSome

instance (x : Vec) : Decidable x.valid := by unfold Vec.valid; infer_instance

theorem Vec.valid_iff {x : Vec} (h : 0 < x.len) : x.valid ↔ x.array.isSome = true := by
  unfold Vec.valid
  have : x.len ≠ 0 := by omega
  simp [this]

variable [Zero α]
variable {w : World α} {v : Vid} {x : Vec}

theorem lockChecks_eq (x : Vec) (w : World α) :
    lockChecks x w = if x.free then .ok w () else .err w .access := by
  unfold lockChecks Vec.free
  simp only [M.bind_apply, M.check_apply]
  split <;> rename_i h1
  · simp only [Out.bind_ok]; split <;> simp_all
  · simp [h1]

theorem hasValid_eq (h : w.vecs v = some x) : hasValidArray v w = .ok w (decide x.valid) := by
  unfold hasValidArray Vec.valid
  simp only [M.bind_apply, getV_some h, Out.bind_ok, M.pure_apply]
  congr 1
  by_cases h0 : x.len = 0 <;> simp [h0]

theorem bump_eq (h : w.vecs v = some x) (k : Nat) :
    bump v k w = .ok (w.setVec v (some { x with state := x.state + k })) () := by
  simp [bump, h]

theorem getArrayCore_eq (h : w.vecs v = some x) (m : Mem) :
    getArrayCore v m w = if m = .host then .ok w x.array else .err w .backend := by
  unfold getArrayCore
  simp only [M.bind_apply, getV_some h, Out.bind_ok, M.check_apply]
  split <;> simp

theorem getArray_eq (h : w.vecs v = some x) (m : Mem) :
    getArray v m w =
      if x.free then
        if 0 < x.len then
          if x.array.isSome ∧ m = .host then .ok (w.setVec v (some { x with state := x.state + 1 })) x.array
          else .err w .backend
        else .ok (w.setVec v (some { x with state := x.state + 1 })) none
      else .err w .access := by
  unfold getArray
  simp only [M.bind_apply, getV_some h, Out.bind_ok, lockChecks_eq]
  by_cases hf : x.free
  · simp only [if_pos hf, Out.bind_ok]
    by_cases hl : 0 < x.len
    · have hv := Vec.valid_iff hl
      simp only [if_pos hl, M.bind_apply, hasValid_eq h, Out.bind_ok, M.check_apply, decide_eq_true_eq, hv]
      by_cases ha : x.array.isSome = true
      · simp only [if_pos ha, Out.bind_ok, getArrayCore_eq h]
        by_cases hm : m = .host
        · simp [hm, bump_eq h, ha]
        · simp [hm]
      · simp [ha]
    · simp [hl, bump_eq h]
  · simp [hf]

theorem getArrayRead_eq (h : w.vecs v = some x) (m : Mem) :
    getArrayRead v m w =
      if x.state % 2 = 0 then
        if 0 < x.len then
          if x.array.isSome ∧ m = .host then .ok (w.setVec v (some { x with readers := x.readers + 1 })) x.array
          else .err w .backend
        else .ok (w.setVec v (some { x with readers := x.readers + 1 })) none
      else .err w .access := by
  unfold getArrayRead
  simp only [M.bind_apply, getV_some h, Out.bind_ok, M.check_apply]
  by_cases hf : x.state % 2 = 0
  · simp only [if_pos hf, Out.bind_ok]
    by_cases hl : 0 < x.len
    · have hv := Vec.valid_iff hl
      simp only [if_pos hl, M.bind_apply, hasValid_eq h, Out.bind_ok, M.check_apply, decide_eq_true_eq, hv]
      by_cases ha : x.array.isSome = true
      · simp only [if_pos ha, Out.bind_ok, getArrayCore_eq h]
        by_cases hm : m = .host
        · simp [hm, ha]
        · simp [hm]
      · simp [ha]
    · simp [hl]
  · simp [hf]

theorem restoreArray_eq (h : w.vecs v = some x) :
    restoreArray v w = if x.state % 2 = 1 then .ok (w.setVec v (some { x with state := x.state + 1 })) ()
      else .err w .access := by
  unfold restoreArray
  simp only [M.bind_apply, getV_some h, Out.bind_ok, M.check_apply]
  split <;> simp [bump_eq h]

theorem restoreArrayRead_eq (h : w.vecs v = some x) :
    restoreArrayRead v w = if 0 < x.readers then .ok (w.setVec v (some { x with readers := x.readers - 1 })) ()
      else .err w .access := by
  unfold restoreArrayRead
  simp only [M.bind_apply, getV_some h, Out.bind_ok, M.check_apply]
  split <;> simp

theorem takeArray_eq (h : w.vecs v = some x) (m : Mem) :
    takeArray v m w =
      if x.free then
        if 0 < x.len then
          if m = .host ∧ x.borrowed.isSome ∧ x.array.isSome then
            .ok (w.setVec v (some { x with borrowed := none, array := none })) x.borrowed
          else .err w .backend
        else .ok w none
      else .err w .access := by
  unfold takeArray
  simp only [M.bind_apply, getV_some h, Out.bind_ok, lockChecks_eq]
  by_cases hf : x.free
  · simp only [if_pos hf, Out.bind_ok]
    by_cases hl : 0 < x.len
    · have hv := Vec.valid_iff hl
      simp only [if_pos hl, M.bind_apply, M.check_apply]
      by_cases hm : m = .host
      · by_cases hb : x.borrowed.isSome = true
        · simp only [if_pos hm, Out.bind_ok, if_pos hb, hasValid_eq h, decide_eq_true_eq, hv]
          by_cases ha : x.array.isSome = true
          · simp [ha, hb, hm, takeArrayRef, h]
          · simp [ha]
        · simp [hm, hb]
      · simp [hm]
    · simp [hl]
  · simp [hf]

/-- The slots of a vector of the reference backend: either an array was lent and nothing is owned, or the array in use
is the owned one. -/
def Vec.slots (x : Vec) : Prop :=
  match x.borrowed with
  | some b => x.array = some b ∧ x.owned = none
  | none => x.array = x.owned

/-- A vector whose slots agree. -/
def World.slots (w : World α) : Prop := ∀ v x, w.vecs v = some x → x.slots

theorem copyTarget_eq (h : w.vecs v = some x) (hs : x.slots) :
    copyTarget v w = match x.array with
      | some a => .ok w (some a)
      | none => .ok ((w.push ⟨x.len.toNat, fun _ => 0⟩).setVec v
          (some { x with owned := some w.next, array := some w.next })) (some w.next) := by
  unfold copyTarget
  simp only [M.bind_apply, getV_some h, Out.bind_ok]
  cases ha : x.array with
  | some a => rfl
  | none =>
    unfold Vec.slots at hs
    cases hb : x.borrowed with
    | some b => simp [hb, ha] at hs
    | none =>
      simp only [hb, ha] at hs
      simp only [← hs]
      rfl

theorem memcpy_eq {d s : Addr} {n : Nat} {bd bs : Buf α} (hd : w.heap d = some bd) (hs : w.heap s = some bs)
    (h1 : n ≤ bd.len) (h2 : n ≤ bs.len) (h3 : d ≠ s) :
    memcpy (some d) (some s) n w =
      .ok (w.setBlk d (some ⟨bd.len, fun i => if i < n then bs.val i else bd.val i⟩)) () := by
  simp [memcpy, hd, hs, h1, h2, h3]

theorem memcpy_cases (d : Addr) (s : Addr) (n : Nat) (w : World α) :
    (memcpy (some d) (some s) n w = .ub ∧
      ¬ ∃ bd bs, w.heap d = some bd ∧ w.heap s = some bs ∧ n ≤ bd.len ∧ n ≤ bs.len ∧ d ≠ s) ∨
    ∃ bd bs, w.heap d = some bd ∧ w.heap s = some bs ∧ n ≤ bd.len ∧ n ≤ bs.len ∧ d ≠ s ∧
      memcpy (some d) (some s) n w =
        .ok (w.setBlk d (some ⟨bd.len, fun i => if i < n then bs.val i else bd.val i⟩)) () := by
  by_cases h : ∃ bd bs, w.heap d = some bd ∧ w.heap s = some bs ∧ n ≤ bd.len ∧ n ≤ bs.len ∧ d ≠ s
  · right
    obtain ⟨bd, bs, h1, h2, h3, h4, h5⟩ := h
    exact ⟨bd, bs, h1, h2, h3, h4, h5, memcpy_eq h1 h2 h3 h4 h5⟩
  · left
    refine ⟨?_, h⟩
    unfold memcpy
    cases h1 : w.heap d with
    | none => simp [h1]
    | some bd =>
      cases h2 : w.heap s with
      | none => simp [h1, h2]
      | some bs =>
        simp only [h1, h2, Option.some.injEq] at h ⊢
        rw [if_neg]
        rintro ⟨a1, a2, a3⟩
        exact h ⟨bd, bs, rfl, rfl, a1, a2, a3⟩

/-- `CeedVectorSetArray` with `CEED_COPY_VALUES` on an unlocked vector. -/
theorem setArray_copy (h : w.vecs v = some x) (hs : x.slots) (hf : x.free) (hl : 0 < x.len) (src : Option Addr) :
    setArray v .host .copyValues src w =
      match x.array, src with
      | some _, none => .ok (w.setVec v (some { x with state := x.state + 2 })) ()
      | some a, some s => (memcpy (some a) (some s) x.len.toNat w).bind
          (fun w _ => .ok (w.setVec v (some { x with state := x.state + 2 })) ())
      | none, none => .ok ((w.push ⟨x.len.toNat, fun _ => 0⟩).setVec v
          (some { x with state := x.state + 2, owned := some w.next, array := some w.next })) ()
      | none, some s => (memcpy (some w.next) (some s) x.len.toNat (w.push ⟨x.len.toNat, fun _ => 0⟩)).bind
          (fun w' _ => .ok (w'.setVec v
            (some { x with state := x.state + 2, owned := some w.next, array := some w.next })) ()) := by
  unfold setArray setArrayRef setHostArray
  simp only [M.bind_apply, getV_some h, Out.bind_ok, lockChecks_eq, if_pos hf, if_pos hl, M.check_apply, if_true,
    copyTarget_eq h hs]
  cases ha : x.array with
  | some a =>
    cases src with
    | none => simp [bump_eq h, ha]
    | some s =>
      simp only [Out.bind_ok]
      rcases memcpy_cases a s x.len.toNat w with ⟨e, _⟩ | ⟨bd, bs, _, _, _, _, _, e⟩
      · simp [e]
      · rw [e]
        simp only [Out.bind_ok]
        rw [bump_eq (w := w.setBlk _ _) (x := x) h, ha]
  | none =>
    cases src with
    | none =>
      simp only [Out.bind_ok, M.pure_apply]
      rw [bump_eq (x := { x with owned := some w.next, array := some w.next }) (by simp)]
      simp
    | some s =>
      simp only [Out.bind_ok]
      rw [show memcpy (some w.next) (some s) x.len.toNat ((w.push ⟨x.len.toNat, fun _ => 0⟩).setVec v
        (some { x with owned := some w.next, array := some w.next })) =
        (memcpy (some w.next) (some s) x.len.toNat (w.push ⟨x.len.toNat, fun _ => 0⟩)).bind (fun w' _ =>
          .ok (w'.setVec v (some { x with owned := some w.next, array := some w.next })) ()) by
        unfold memcpy
        simp only [setVec_heap]
        split
        · split <;> simp [setVec_setBlk]
        · simp]
      rcases memcpy_cases w.next s x.len.toNat (w.push ⟨x.len.toNat, fun _ => 0⟩) with
        ⟨e, _⟩ | ⟨bd, bs, _, _, _, _, _, e⟩
      · simp [e]
      · rw [e]
        simp only [Out.bind_ok]
        rw [bump_eq (x := { x with owned := some w.next, array := some w.next }) (by simp)]
        simp

end Vector
end Verif
