import Verif.Vector.Ops
import Verif.Vector.Calls

/-!
# Effect of every call

One lemma describing what each call does to the state; the invariants of histories are proved from it.
-/

namespace Verif
namespace Vector

set_option linter.unusedSectionVars false

section
variable {α : Type}

/-- The array behind `p` is freed. -/
def World.dropBlk (w : World α) (p : Option Addr) : World α :=
  { w with heap := fun a => if p = some a then none else w.heap a }

@[simp] theorem dropBlk_vecs (w : World α) (p : Option Addr) : (w.dropBlk p).vecs = w.vecs := rfl
@[simp] theorem dropBlk_next (w : World α) (p : Option Addr) : (w.dropBlk p).next = w.next := rfl
@[simp] theorem dropBlk_nextVec (w : World α) (p : Option Addr) : (w.dropBlk p).nextVec = w.nextVec := rfl
theorem dropBlk_heap (w : World α) (p : Option Addr) (a : Addr) :
    (w.dropBlk p).heap a = if p = some a then none else w.heap a := rfl
@[simp] theorem dropBlk_none (w : World α) : w.dropBlk none = w := by simp [World.dropBlk]

theorem free_eq {w : World α} {p : Option Addr} (h : ∀ a, p = some a → ∃ b, w.heap a = some b) :
    free p w = .ok (w.dropBlk p) () := by
  cases p with
  | none => simp [free]
  | some a =>
    obtain ⟨b, hb⟩ := h a rfl
    simp only [free, hb]
    congr 1
    simp [World.dropBlk, World.setBlk, eq_comm]

theorem free_cases (w : World α) (p : Option Addr) :
    free p w = .ok (w.dropBlk p) () ∨ (free p w = .ub ∧ ∃ a, p = some a ∧ w.heap a = none) := by
  cases p with
  | none => left; exact free_eq (by simp)
  | some a =>
    cases h : w.heap a with
    | none => right; simp [free, h]
    | some b => left; exact free_eq (by rintro a' ⟨⟩; exact ⟨b, h⟩)

/-- Effect of a successful call. -/
def OkEff (w : World α) (c : Call α) (w' : World α) (r : Ret α) : Prop :=
  match c with
  | .create p n => r = .vec w.nextVec ∧
      w' = { w.setVec w.nextVec (some ⟨p, 1, n, 0, 0, none, none, none⟩) with nextVec := w.nextVec + 1 }
  | .reference v => ∃ x, w.vecs v = some x ∧ w' = w.setVec v (some { x with refs := x.refs + 1 })
  | .destroy v => ∃ x, w.vecs v = some x ∧
      ((0 < x.refs - 1 ∧ w' = w.setVec v (some { x with refs := x.refs - 1 })) ∨
       (x.refs - 1 ≤ 0 ∧ x.free ∧ w' = (w.dropBlk x.owned).setVec v none))
  | .setArray v _ .copyValues _ => ∃ x, w.vecs v = some x ∧ x.free ∧ Trk w (fun _ => 0) (fun _ => 0) w'
  | .setArray v _ mode src => ∃ x, w.vecs v = some x ∧ x.free ∧
      w' = if 0 < x.len then (w.dropBlk x.owned).setVec v
        (some { x with state := x.state + 2, array := src,
                       owned := if mode = .ownPointer then src else none,
                       borrowed := if mode = .ownPointer then none else src })
        else w.setVec v (some { x with state := x.state + 2 })
  | .takeArray v _ => ∃ x, w.vecs v = some x ∧ x.free ∧
      ((0 < x.len ∧ w' = w.setVec v (some { x with borrowed := none, array := none }) ∧ r = .ptr x.borrowed ∧
        x.borrowed.isSome) ∨ (x.len ≤ 0 ∧ w' = w ∧ r = .ptr none))
  | .getArray v _ => Trk w (fun _ => 0) (inc (fun _ => 0) v) w' ∧
      ∃ x', w'.vecs v = some x' ∧ r = .ptr x'.ptr ∧ (0 < x'.len → x'.array.isSome)
  | .getArrayWrite v _ => Trk w (fun _ => 0) (inc (fun _ => 0) v) w' ∧
      ∃ x', w'.vecs v = some x' ∧ r = .ptr x'.ptr ∧ (0 < x'.len → x'.array.isSome)
  | .getArrayRead v _ => Trk w (inc (fun _ => 0) v) (fun _ => 0) w' ∧
      ∃ x', w'.vecs v = some x' ∧ r = .ptr x'.ptr ∧ (0 < x'.len → x'.array.isSome)
  | .restoreArray v => ∃ x, w.vecs v = some x ∧ x.state % 2 = 1 ∧ w' = w.setVec v (some { x with state := x.state + 1 })
  | .restoreArrayRead v => ∃ x, w.vecs v = some x ∧ 0 < x.readers ∧
      w' = w.setVec v (some { x with readers := x.readers - 1 })
  | .malloc b => w' = w.push b ∧ r = .ptr (some w.next)
  | .mfree a => ∃ b, w.heap a = some b ∧ w' = w.dropBlk (some a)
  | .load _ _ => w' = w
  | .store a _ _ => ∃ b b', w.heap a = some b ∧ b'.len = b.len ∧ w' = w.setBlk a (some b')
  | _ => Trk w (fun _ => 0) (fun _ => 0) w'

/-- Situations in which a call that returns an error leaves a trace (apart from `CeedVectorDestroy`). -/
def Leak (w : World α) (c : Call α) : Prop :=
  match c with
  | .copy v c => c = v ∨ ∃ y, w.vecs c = some y ∧ ¬ y.free
  | .copyStrided v _ _ _ c => c = v ∨ ∃ y, w.vecs c = some y ∧ ¬ y.canWrite .host
  | .axpy _ _ x => ∃ z, w.vecs x = some z ∧ ¬ z.canRead .host
  | .axpby _ _ _ x => ∃ z, w.vecs x = some z ∧ ¬ z.canRead .host
  | .pointwiseMult v x y => (x ≠ v ∧ ∃ z, w.vecs x = some z ∧ ¬ z.canRead .host) ∨
      (y ≠ v ∧ ∃ z, w.vecs y = some z ∧ ¬ z.canRead .host)
  | .getArrayWrite v m => m ≠ .host ∧ ∃ x, w.vecs v = some x ∧ x.array = none
  | _ => False

/-- Effect of a call that returns an error. -/
def ErrEff (w : World α) (c : Call α) (w' : World α) : Prop :=
  match c with
  | .destroy v => ∃ x, w.vecs v = some x ∧ x.refs - 1 ≤ 0 ∧ ¬ x.free ∧ w' = w.setVec v (some { x with refs := x.refs - 1 })
  | c => (∃ d l, Trk w d l w') ∧ (w' = w ∨ Leak w c)

/-- The vector exists. -/
def Alive (w : World α) (v : Vid) : Prop := ∃ x, w.vecs v = some x

/-- What the code relies on without checking. -/
def Safe (w : World α) (c : Call α) : Prop :=
  match c with
  | .create _ _ => True
  | .reference v => Alive w v
  | .destroy v => Alive w v
  | .setArray v _ mode src => Alive w v ∧ ∀ x s, w.vecs v = some x → x.free → mode = .copyValues → src = some s → 0 < x.len →
      ∃ b, w.heap s = some b ∧ x.len ≤ b.len ∧ x.array ≠ some s
  | .takeArray v _ => Alive w v
  | .getArray v _ => Alive w v
  | .getArrayRead v _ => Alive w v
  | .getArrayWrite v _ => Alive w v
  | .restoreArray v => Alive w v
  | .restoreArrayRead v => Alive w v
  | .syncArray v _ => Alive w v
  | .setValue v _ => Alive w v
  | .setValueStrided v start _ step _ => Alive w v ∧ 0 ≤ start ∧ 0 < step
  | .copy v c => Alive w v ∧ Alive w c ∧
      ∀ x y a, w.vecs v = some x → w.vecs c = some y → c ≠ v → x.array = some a → y.array ≠ some a
  | .copyStrided v _ _ step c => Alive w v ∧ Alive w c ∧ 0 < step
  | .norm v _ => Alive w v
  | .scale v _ => Alive w v
  | .axpy y _ x => Alive w y ∧ Alive w x
  | .axpby y _ _ x => Alive w y ∧ Alive w x
  | .pointwiseMult v x y => Alive w v ∧ Alive w x ∧ Alive w y
  | .reciprocal v => Alive w v
  | .malloc _ => True
  | .mfree a => ∃ b, w.heap a = some b
  | .load a i => ∃ b, w.heap a = some b ∧ 0 ≤ i ∧ i < b.len
  | .store a i _ => ∃ b, w.heap a = some b ∧ 0 ≤ i ∧ i < b.len

end

section
variable {α : Type} [Field α] [LinearOrder α]
variable {w : World α} {S : Prop} {sqrt : α → α} {eps : α}

theorem owned_alloc (hw : WF w) (hm : MemOK w) {v : Vid} {x : Vec} (h : w.vecs v = some x) {a : Addr}
    (ha : x.owned = some a) : ∃ b, w.heap a = some b := by
  have hs := hw.slots v x h
  unfold Vec.slots at hs
  split at hs
  · rw [hs.2] at ha; cases ha
  · obtain ⟨b, hb, _⟩ := hm v x a h (by rw [hs, ha])
    exact ⟨b, hb⟩

/-- A call whose result is dropped. -/
theorem wp_unit {m : M (World α) Unit} {Q : World α → Ret α → Prop} {E : World α → Err → Prop}
    (h : M.wp S m w (fun w' _ => Q w' .unit) E) : M.wp S (do m; pure .unit) w Q E := by
  rw [M.wp_bind]
  exact h

theorem wp_ptr {β : Type} {m : M (World α) β} {f : β → Ret α} {Q : World α → Ret α → Prop} {E : World α → Err → Prop}
    (h : M.wp S m w (fun w' p => Q w' (f p)) E) : M.wp S (do let p ← m; pure (f p)) w Q E := by
  rw [M.wp_bind]
  exact h

theorem wp_dead {β : Type} {m : M (World α) β} {Q : World α → β → Prop} {E : World α → Err → Prop} {v : Vid}
    (f : Vec → M (World α) β) (hm : m = (getV v >>= f)) (hS : S → Alive w v)
    (h : ∀ x, w.vecs v = some x → M.wp S m w Q E) : M.wp S m w Q E := by
  cases hv : w.vecs v with
  | some x => exact h x hv
  | none =>
    refine M.wp_of_eq_ub ?_ ?_
    · rw [hm, M.bind_apply, getV_none hv]; rfl
    · intro s
      obtain ⟨x, hx⟩ := hS s
      rw [hv] at hx; cases hx

theorem trk0 (hw : WF w) : Trk w (fun _ => 0) (fun _ => 0) w := Trk.refl hw

theorem errNone (hw : WF w) {c : Call α} (hc : ∀ v, c ≠ .destroy v) : ErrEff w c w := by
  have : (∃ d l, Trk w d l w) ∧ (w = w ∨ Leak w c) := ⟨⟨_, _, trk0 hw⟩, Or.inl rfl⟩
  cases c <;> first | exact this | exact absurd rfl (hc _)

theorem exec_wp (hw : WF w) (c : Call α) (hS : S → MemOK w ∧ Safe w c) :
    M.wp S (exec sqrt eps c) w (fun w' r => OkEff w c w' r) (fun w' _ => ErrEff w c w') := by
  cases c with
  | create p n =>
    refine wp_ptr ?_
    exact ⟨rfl, rfl⟩
  | reference v =>
    refine wp_unit (wp_dead (v := v) _ rfl (fun s => (hS s).2) (fun x hx => ?_))
    refine M.wp_of_eq_ok (s' := w.setVec v (some { x with refs := x.refs + 1 })) (a := ()) (by simp [reference, hx]) ⟨x, hx, rfl⟩
  | destroy v =>
    refine wp_unit (wp_dead (v := v) _ rfl (fun s => (hS s).2) (fun x hx => ?_))
    unfold destroy
    rw [M.wp_bind]
    refine M.wp_of_eq_ok (getV_some hx) ?_
    rw [M.wp_bind]
    refine M.wp_of_eq_ok (putV_apply _ _ _) ?_
    refine M.wp_ite (fun h0 => ?_) (fun h0 => ?_)
    · exact ⟨x, hx, Or.inl ⟨h0, rfl⟩⟩
    · rw [M.wp_bind]
      refine M.wp_check (fun h1 => ?_) (fun h1 => ⟨x, hx, by omega, fun hf => h1 hf.1, rfl⟩)
      rw [M.wp_bind]
      refine M.wp_check (fun h2 => ?_) (fun h2 => ⟨x, hx, by omega, fun hf => h2 hf.2, rfl⟩)
      rw [M.wp_bind]
      rcases free_cases (w.setVec v (some { x with refs := x.refs - 1 })) x.owned with e | ⟨e, a, ha, hn⟩
      · refine M.wp_of_eq_ok e ?_
        refine ⟨x, hx, Or.inr ⟨by omega, ⟨h1, h2⟩, ?_⟩⟩
        simp only [World.setVec, World.dropBlk, World.mk.injEq, true_and, and_true]
        funext u; split <;> rfl
      · refine M.wp_of_eq_ub e ?_
        intro s
        obtain ⟨b, hb⟩ := owned_alloc hw (hS s).1 hx ha
        rw [show (w.setVec v (some { x with refs := x.refs - 1 })).heap a = w.heap a from rfl, hb] at hn
        cases hn
  | setArray v m mode src =>
    refine wp_unit (wp_dead (v := v) _ rfl (fun s => (hS s).2.1) (fun x hx => ?_))
    have hE : ErrEff w (.setArray v m mode src : Call α) w := errNone hw (by simp)
    by_cases hf : x.free
    swap
    · exact M.wp_of_eq_err (e := by unfold setArray; simp only [M.bind_apply, getV_some hx, Out.bind_ok, lockChecks_eq, if_neg hf, Out.bind_err]; rfl) hE
    by_cases hm : m = .host
    swap
    · by_cases hl : 0 < x.len
      · refine M.wp_of_eq_err (s' := w) (a := .backend) ?_ hE
        unfold setArray setArrayRef
        simp only [M.bind_apply, getV_some hx, Out.bind_ok, lockChecks_eq, if_pos hf, if_pos hl, M.check_apply, if_neg hm,
          Out.bind_err]
      · refine M.wp_of_eq_ok (s' := w.setVec v (some { x with state := x.state + 2 })) (a := ()) ?_ ?_
        · unfold setArray
          simp only [M.bind_apply, getV_some hx, Out.bind_ok, lockChecks_eq, if_pos hf, if_neg hl, bump_eq hx]
        · cases mode with
          | copyValues => exact ⟨x, hx, hf, (trk0 hw).bump2 hx hf⟩
          | usePointer => exact ⟨x, hx, hf, by rw [if_neg hl]⟩
          | ownPointer => exact ⟨x, hx, hf, by rw [if_neg hl]⟩
    subst hm
    cases hmode : mode with
    | copyValues =>
      subst hmode
      refine wp_setArrayCopy (trk0 hw) hw hx (fun s _ => (hS s).1) ?_ ?_ (fun hh => absurd hf hh)
      · intro s hf' a ha hl
        exact (hS s).2.2 x a hx hf' rfl ha hl
      · intro w' x' _ _ _ _ _ _ _ ht
        exact ⟨x, hx, hf, ht⟩
    | usePointer =>
      unfold setArray setArrayRef setHostArray
      rw [M.wp_bind]
      refine M.wp_of_eq_ok (getV_some hx) ?_
      rw [M.wp_bind]
      refine wp_lockChecks (fun _ => ?_) (fun hh => absurd hf hh)
      refine M.wp_ite (fun hl => ?_) (fun hl => ?_)
      · rw [M.wp_bind, M.wp_bind]
        refine M.wp_check (fun _ => ?_) (fun hh => absurd rfl hh)
        rw [M.wp_bind]
        refine M.wp_of_eq_ok (getV_some hx) ?_
        rw [M.wp_bind]
        rcases free_cases w x.owned with e | ⟨e, a, ha, hn⟩
        · refine M.wp_of_eq_ok e ?_
          refine M.wp_of_eq_ok (putV_apply _ _ _) ?_
          refine M.wp_of_eq_ok (bump_eq (x := { x with owned := none, borrowed := src, array := src }) (by simp) 2) ?_
          refine ⟨x, hx, hf, ?_⟩
          rw [if_pos hl, setVec_setVec]
          rfl
        · refine M.wp_of_eq_ub e ?_
          intro s
          obtain ⟨b, hb⟩ := owned_alloc hw (hS s).1 hx ha
          rw [hb] at hn; cases hn
      · exact M.wp_of_eq_ok (bump_eq hx 2) ⟨x, hx, hf, by rw [if_neg hl]⟩
    | ownPointer =>
      unfold setArray setArrayRef setHostArray
      rw [M.wp_bind]
      refine M.wp_of_eq_ok (getV_some hx) ?_
      rw [M.wp_bind]
      refine wp_lockChecks (fun _ => ?_) (fun hh => absurd hf hh)
      refine M.wp_ite (fun hl => ?_) (fun hl => ?_)
      · rw [M.wp_bind, M.wp_bind]
        refine M.wp_check (fun _ => ?_) (fun hh => absurd rfl hh)
        rw [M.wp_bind]
        refine M.wp_of_eq_ok (getV_some hx) ?_
        rw [M.wp_bind]
        rcases free_cases w x.owned with e | ⟨e, a, ha, hn⟩
        · refine M.wp_of_eq_ok e ?_
          refine M.wp_of_eq_ok (putV_apply _ _ _) ?_
          refine M.wp_of_eq_ok (bump_eq (x := { x with owned := src, borrowed := none, array := src }) (by simp) 2) ?_
          refine ⟨x, hx, hf, ?_⟩
          rw [if_pos hl, setVec_setVec]
          rfl
        · refine M.wp_of_eq_ub e ?_
          intro s
          obtain ⟨b, hb⟩ := owned_alloc hw (hS s).1 hx ha
          rw [hb] at hn; cases hn
      · exact M.wp_of_eq_ok (bump_eq hx 2) ⟨x, hx, hf, by rw [if_neg hl]⟩
  | takeArray v m =>
    refine wp_ptr (wp_dead (v := v) _ rfl (fun s => (hS s).2) (fun x hx => ?_))
    have hE : ErrEff w (.takeArray v m : Call α) w := errNone hw (by simp)
    unfold M.wp
    rw [takeArray_eq hx]
    split
    · rename_i hh
      split at hh
      · rename_i hf
        split at hh
        · rename_i hl
          split at hh
          · rename_i hc
            cases hh
            exact ⟨x, hx, hf, Or.inl ⟨hl, rfl, rfl, hc.2.1⟩⟩
          · cases hh
        · rename_i hl
          cases hh
          exact ⟨x, hx, hf, Or.inr ⟨by omega, rfl, rfl⟩⟩
      · cases hh
    · rename_i hh
      split at hh
      · split at hh
        · split at hh
          · cases hh
          · cases hh; exact hE
        · cases hh
      · cases hh; exact hE
    · rename_i hh
      split at hh
      · split at hh
        · split at hh <;> cases hh
        · cases hh
      · cases hh
  | getArray v m =>
    refine wp_ptr (wp_dead (v := v) _ rfl (fun s => (hS s).2) (fun x hx => ?_))
    refine wp_getArray (trk0 hw) hx (fun hc ht => ⟨ht, { x with state := x.state + 1 }, by simp, rfl, fun hl => (hc.2 hl).1⟩)
      (fun e _ => errNone hw (by simp))
  | getArrayRead v m =>
    refine wp_ptr (wp_dead (v := v) _ rfl (fun s => (hS s).2) (fun x hx => ?_))
    refine wp_getArrayRead (trk0 hw) hx (fun hc ht => ⟨ht, { x with readers := x.readers + 1 }, by simp, rfl, fun hl => (hc.2 hl).1⟩)
      (fun e _ => errNone hw (by simp))
  | getArrayWrite v m =>
    refine wp_ptr (wp_dead (v := v) _ rfl (fun s => (hS s).2) (fun x hx => ?_))
    refine wp_getArrayWrite (trk0 hw) hw hx ?_ (fun _ => errNone hw (by simp)) ?_
    · intro w' x' p _ _ hv hlen hsome hp _ ht
      exact ⟨ht, x', by rw [hv]; simp, by rw [hp], fun hl => hsome (by omega)⟩
    · intro w' hl hm hor ht
      refine ⟨⟨_, _, ht⟩, hor.imp id (fun ha => ?_)⟩
      exact ⟨hm, x, hx, ha⟩
  | restoreArray v =>
    refine wp_unit (wp_dead (v := v) _ rfl (fun s => (hS s).2) (fun x hx => ?_))
    unfold M.wp
    rw [restoreArray_eq hx]
    by_cases h : x.state % 2 = 1
    · rw [if_pos h]; exact ⟨x, hx, h, rfl⟩
    · rw [if_neg h]; exact errNone hw (by simp)
  | restoreArrayRead v =>
    refine wp_unit (wp_dead (v := v) _ rfl (fun s => (hS s).2) (fun x hx => ?_))
    unfold M.wp
    rw [restoreArrayRead_eq hx]
    by_cases h : 0 < x.readers
    · rw [if_pos h]; exact ⟨x, hx, h, rfl⟩
    · rw [if_neg h]; exact errNone hw (by simp)
  | syncArray v m =>
    exact wp_unit (wp_syncArray hw (fun s => (hS s).2) (fun w' ht => ht) (fun e => errNone hw (by simp)))
  | setValue v z =>
    exact wp_unit (wp_setValue hw (fun s => hS s) (fun w' ht => ht) (errNone hw (by simp)))
  | setValueStrided v start stop step z =>
    exact wp_unit (wp_setValueStrided hw (fun s => ⟨(hS s).1, (hS s).2⟩) (fun w' ht => ht) (fun e => errNone hw (by simp)))
  | copy v c =>
    refine wp_unit (wp_copy hw (fun s => hS s) (fun w' ht => ht) (fun e => errNone hw (by simp)) ?_)
    intro w' y hy hor ht
    exact ⟨⟨_, _, ht⟩, Or.inr (hor.imp id (fun hh => ⟨y, hy, hh⟩))⟩
  | copyStrided v start stop step c =>
    refine wp_unit (wp_copyStrided hw (fun s => hS s) (fun w' ht => ht) (fun e => errNone hw (by simp)) ?_)
    intro w' y e hy hor ht
    exact ⟨⟨_, _, ht⟩, Or.inr (hor.imp id (fun hh => ⟨y, hy, hh⟩))⟩
  | norm v t =>
    exact wp_ptr (wp_norm hw (fun s => hS s) (fun w' z ht => ht) (fun e => errNone hw (by simp)))
  | scale v z =>
    exact wp_unit (wp_scale hw (fun s => hS s) (fun w' ht => ht) (fun e => errNone hw (by simp)))
  | axpy y z x =>
    refine wp_unit (wp_axp hw (fun s => hS s) (fun w' ht => ht) (fun e => errNone hw (by simp)) ?_)
    intro w' zx e hx hc ht
    exact ⟨⟨_, _, ht⟩, Or.inr ⟨zx, hx, hc⟩⟩
  | axpby y z z' x =>
    refine wp_unit (wp_axp hw (fun s => hS s) (fun w' ht => ht) (fun e => errNone hw (by simp)) ?_)
    intro w' zx e hx hc ht
    exact ⟨⟨_, _, ht⟩, Or.inr ⟨zx, hx, hc⟩⟩
  | pointwiseMult v x y =>
    refine wp_unit (wp_pointwiseMult hw (fun s => hS s) (fun w' ht => ht) (fun e => errNone hw (by simp)) ?_)
    intro w' d zx zy e hx hy hor ht
    exact ⟨⟨_, _, ht⟩, Or.inr (hor.imp (fun h => ⟨h.1, zx, hx, h.2⟩) (fun h => ⟨h.1, zy, hy, h.2⟩))⟩
  | reciprocal v =>
    exact wp_unit (wp_reciprocal hw (fun s => hS s) (fun w' ht => ht) (fun e => errNone hw (by simp)))
  | malloc b => exact ⟨rfl, rfl⟩
  | mfree a =>
    refine wp_unit ?_
    cases ha : w.heap a with
    | none =>
      refine M.wp_of_eq_ub (by simp [free, ha]) ?_
      intro s
      obtain ⟨b, hb⟩ := (hS s).2
      rw [ha] at hb; cases hb
    | some b => exact M.wp_of_eq_ok (free_eq (by rintro a' ⟨⟩; exact ⟨b, ha⟩)) ⟨b, ha, rfl⟩
  | load a i =>
    refine wp_ptr ?_
    unfold M.wp
    simp only [ld, M.bind_apply, getB]
    cases ha : w.heap a with
    | none =>
      intro s
      obtain ⟨b, hb, _⟩ := (hS s).2
      rw [ha] at hb; cases hb
    | some b =>
      simp only [Out.bind_ok]
      by_cases hi : 0 ≤ i ∧ i < b.len
      · have : ∃ z, b.rdI i = .ok z := by
          unfold Buf.rdI Buf.rd
          rw [if_pos hi.1, if_pos (by omega)]
          exact ⟨_, rfl⟩
        obtain ⟨z, hz⟩ := this
        rw [hz]; rfl
      · have : b.rdI i = .ub := by
          unfold Buf.rdI Buf.rd
          by_cases h0 : 0 ≤ i
          · rw [if_pos h0, if_neg (by omega)]
          · rw [if_neg h0]
        rw [this]
        intro s
        obtain ⟨b', hb', h1, h2⟩ := (hS s).2
        rw [ha] at hb'; cases hb'
        exact hi ⟨h1, h2⟩
  | store a i z =>
    refine wp_unit ?_
    unfold M.wp
    simp only [st]
    cases ha : w.heap a with
    | none =>
      intro s
      obtain ⟨b, hb, _⟩ := (hS s).2
      rw [ha] at hb; cases hb
    | some b =>
      by_cases hi : 0 ≤ i ∧ i < b.len
      · have : ∃ b', b.wrI i z = .ok b' ∧ b'.len = b.len := by
          unfold Buf.wrI Buf.wr
          rw [if_pos hi.1, if_pos (by omega)]
          exact ⟨_, rfl, rfl⟩
        obtain ⟨b', hz, hl⟩ := this
        simp only [hz]
        exact ⟨b, b', ha, hl, rfl⟩
      · have : b.wrI i z = .ub := by
          unfold Buf.wrI Buf.wr
          by_cases h0 : 0 ≤ i
          · rw [if_pos h0, if_neg (by omega)]
          · rw [if_neg h0]
        simp only [this]
        intro s
        obtain ⟨b', hb', h1, h2⟩ := (hS s).2
        rw [ha] at hb'; cases hb'
        exact hi ⟨h1, h2⟩

end

end Vector
end Verif
