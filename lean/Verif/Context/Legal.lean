import Verif.Context.Inv

/-!
# Histories that obey the rules

Under the rules of `Legal` the behaviour is always defined, and the data of the context is in an allocated array that is
long enough.
-/

namespace Verif
namespace Context

set_option linter.unusedSectionVars false

variable {β : Type} [DecidableEq β]

/-- What the rules keep true of an existing context. -/
structure CInv (g : View) (w : World β) (x : Ctx) : Prop where
  refs : (g.broken = true ∧ x.refs ≤ 0 ∧ g.handles = 1) ∨ (g.broken = false ∧ x.refs = g.handles)
  ptrs : ∀ p, p ∈ g.writes ∨ p ∈ g.reads → x.data = some p
  owned : ∀ a, x.owned = some a → g.mine a = none ∧ x.data = some a
  borrowed : x.borrowed = g.lent
  lent : ∀ a, x.borrowed = some a → x.data = some a ∧ ∃ len, g.mine a = some len
  data : ∀ a, x.data = some a → (x.owned = some a ∨ x.borrowed = some a) ∧ ∃ b, w.heap a = some b ∧ x.size ≤ b.len
  size : g.size = x.data.map fun _ => x.size

/-- What the rules keep true. -/
structure Inv (g : View) (w : World β) : Prop where
  gen : GInv g w
  ctx : (0 < g.handles ∧ ∃ x, w.ctx = some x ∧ CInv g w x) ∨ (g.handles = 0 ∧ w.ctx = none)
  mine : ∀ a len, g.mine a = some len → ∃ b, w.heap a = some b ∧ b.len = len
  fresh : ∀ a, w.next ≤ a → w.heap a = none

/-- The outcome is defined and satisfies `P`. -/
def Good (g : View) (c : Call β) (o : Out (World β) Ret) (P : View → World β → Prop) : Prop :=
  match o with
  | .ok w' r => P (g.after c r) w'
  | .err w' _ => P (g.failed c) w'
  | .ub => False

theorem Good.ginv {g : View} {w : World β} {c : Call β} (h : GInv g w) {P : View → World β → Prop}
    (hg : Good g c (exec c w) fun g w => GInv g w → P g w) : Good g c (exec c w) P := by
  have := h.next c
  unfold Next at this
  unfold Good at *
  cases ho : exec c w with
  | ok w' r => rw [ho] at this hg; exact hg this
  | err w' r => rw [ho] at this hg; exact hg this
  | ub => rw [ho] at hg; exact hg

theorem Inv.start : Inv View.init (World.init : World β) := by
  refine ⟨.start, .inl ⟨by decide, _, rfl, ?_⟩, fun a len h => ?_, fun _ _ => rfl⟩
  · constructor
    · exact .inr ⟨rfl, rfl⟩
    · intro p hp; simp [View.init] at hp
    · intro a ha; simp at ha
    · rfl
    · intro a ha; simp at ha
    · intro a ha; simp at ha
    · rfl
  · simp [View.init] at h

/-- Only the state counter, readers, labels and the destroy function changed. -/
theorem CInv.keep {g g' : View} {w w' : World β} {x x' : Ctx} (h : CInv g w x) (hr : x'.refs = x.refs)
    (hs : x'.size = x.size) (hd : x'.data = x.data) (hb : x'.borrowed = x.borrowed) (ho : x'.owned = x.owned)
    (hh : ∀ a, x.data = some a → ∀ b, w.heap a = some b → ∃ b', w'.heap a = some b' ∧ b.len ≤ b'.len)
    (g1 : g'.handles = g.handles) (g2 : g'.broken = g.broken) (g3 : g'.lent = g.lent) (g4 : g'.size = g.size)
    (g5 : ∀ a, g'.mine a = g.mine a ∨ x.data ≠ some a) (g6 : ∀ p, p ∈ g'.writes ∨ p ∈ g'.reads → x.data = some p) :
    CInv g' w' x' := by
  constructor
  · rw [g1, g2, hr]; exact h.refs
  · intro p hp; rw [hd]; exact g6 p hp
  · intro a ha
    rw [ho] at ha
    rw [hd]
    have := h.owned a ha
    rcases g5 a with h5 | h5
    · rw [h5]; exact this
    · exact absurd this.2 h5
  · rw [hb, g3]; exact h.borrowed
  · intro a ha
    rw [hb] at ha
    rw [hd]
    have := h.lent a ha
    rcases g5 a with h5 | h5
    · rw [h5]; exact this
    · exact absurd this.1 h5
  · intro a ha
    rw [hd] at ha
    rw [ho, hb, hs]
    obtain ⟨h1, b, h2, h3⟩ := h.data a ha
    obtain ⟨b', h4, h5⟩ := hh a ha b h2
    exact ⟨h1, b', h4, h3.trans h5⟩
  · rw [g4, hd, hs]; exact h.size

/-- The heap after freeing an optional array. -/
def freed (w : World β) (p : Option Nat) : World β :=
  { w with heap := fun c => if p = some c then none else w.heap c }

theorem free_eq {w : World β} {p : Option Nat} (h : ∀ a, p = some a → w.heap a ≠ none) :
    free p w = .ok (freed w p) () := by
  cases p with
  | none => simp [free, freed]
  | some a =>
    cases hh : w.heap a with
    | none => exact absurd hh (h a rfl)
    | some b => simp [free, hh, freed, World.setBlk, eq_comm]

@[simp] theorem freed_ctx (w : World β) (p : Option Nat) : (freed w p).ctx = w.ctx := rfl
@[simp] theorem freed_next (w : World β) (p : Option Nat) : (freed w p).next = w.next := rfl
theorem freed_heap (w : World β) (p : Option Nat) (c : Nat) :
    (freed w p).heap c = if p = some c then none else w.heap c := rfl

/-- The array holding the data after setting it. -/
def newData (w : World β) (mode : Mode) (src : Nat) : Nat := if mode = .copyValues then w.next else src

/-- The world after the backend has set data. -/
def setWorld (w : World β) (x : Ctx) (mode : Mode) (src : Nat) (b : Buf β) : World β :=
  match mode with
  | .copyValues => ((freed w x.owned).push ⟨x.size, b.val⟩).setCtx
      (some { x with owned := some w.next, borrowed := none, data := some w.next })
  | .ownPointer => (freed w x.owned).setCtx (some { x with owned := some src, borrowed := none, data := some src })
  | .usePointer => (freed w x.owned).setCtx (some { x with owned := none, borrowed := some src, data := some src })

theorem setDataRef_eq {w : World β} {x : Ctx} (h : w.ctx = some x) (mode : Mode) {a : Nat} {b : Buf β}
    (hb : w.heap a = some b) (hl : x.size ≤ b.len) (hne : x.owned ≠ some a)
    (ho : ∀ c, x.owned = some c → w.heap c ≠ none) :
    setDataRef .host mode (some a) w = .ok (setWorld w x mode a b) () := by
  unfold setDataRef
  simp only [M.bind_apply, getC_some h, Out.bind_ok, M.check_apply, if_true, free_eq ho]
  cases mode with
  | ownPointer => rfl
  | usePointer => rfl
  | copyValues =>
    have hb' : (freed w x.owned).heap a = some b := by rw [freed_heap, if_neg hne, hb]
    simp only [M.bind_apply, getB_some hb', Out.bind_ok]
    rw [if_pos hl]
    simp only [M.bind_apply, alloc, Out.bind_ok, putC_apply, freed_next]
    rfl

open Classical in
/-- What setting data does under the rules. -/
theorem setData_eq {w : World β} {x : Ctx} (h : w.ctx = some x) (mode : Mode) {a size : Nat} {b : Buf β}
    (hb : w.heap a = some b) (hl : size ≤ b.len) (hne : x.owned ≠ some a)
    (ho : ∀ c, x.owned = some c → w.heap c ≠ none) :
    (∃ e, setData .host mode size (some a) w = .err w e ∧ (x.state % 2 ≠ 0 ∨ x.destroyFn ≠ none)) ∨
    ∃ st, (st = x.state + 2 ∨ st = x.state + 4) ∧ x.state % 2 = 0 ∧ setData .host mode size (some a) w =
      .ok (setWorld w { x with size := size, state := st } mode a b) () := by
  unfold setData
  simp only [M.bind_apply, getC_some h, Out.bind_ok, M.check_apply]
  by_cases he : x.state % 2 = 0
  swap
  · rw [if_neg he]
    exact .inl ⟨_, rfl, .inl he⟩
  rw [if_pos he]
  simp only [Out.bind_ok, destroyData_eq h he]
  have key : ∀ st, ((getC (w.setCtx (some { x with state := st }))).bind fun s y =>
      ((putC { y with size := size }) s).bind fun s _ => (setDataRef .host mode (some a) s).bind fun s _ =>
        (getC s).bind fun s a => putC { a with state := a.state + 2 } s) =
      .ok (setWorld w { x with size := size, state := st + 2 } mode a b) () := by
    intro st
    rw [getC_some rfl]
    simp only [Out.bind_ok, putC_apply, setCtx_setCtx]
    rw [setDataRef_eq (w := w.setCtx (some { x with state := st, size := size })) rfl mode (b := b) hb hl hne ho]
    simp only [Out.bind_ok]
    cases mode <;> simp only [setWorld] <;> rw [getC_some rfl] <;> rfl
  cases hf : x.destroyFn with
  | none =>
    right
    refine ⟨x.state + 2, .inl rfl, he, ?_⟩
    have := key x.state
    rw [setCtx_self (x := { x with state := x.state }) h] at this
    simp only [hf] at this
    exact this
  | some m =>
    dsimp only
    split_ifs
    · right
      refine ⟨x.state + 4, .inr rfl, he, ?_⟩
      have := key (x.state + 2)
      simp only [hf] at this
      exact this
    all_goals exact .inl ⟨_, rfl, .inr (by simp)⟩

theorem setWorld_ctx (w : World β) (x : Ctx) (mode : Mode) (a : Nat) (b : Buf β) :
    (setWorld w x mode a b).ctx = some { x with
      owned := if mode = .usePointer then none else some (newData w mode a)
      borrowed := if mode = .usePointer then some a else none
      data := some (newData w mode a) } := by
  cases mode <;> rfl

theorem setWorld_heap (w : World β) (x : Ctx) (mode : Mode) (a : Nat) (b : Buf β) (c : Nat) :
    (setWorld w x mode a b).heap c = if mode = .copyValues ∧ c = w.next then some ⟨x.size, b.val⟩
      else if x.owned = some c then none else w.heap c := by
  by_cases h : x.owned = some c <;> cases mode <;> simp [setWorld, freed_heap, h]

theorem setWorld_next (w : World β) (x : Ctx) (mode : Mode) (a : Nat) (b : Buf β) :
    w.next ≤ (setWorld w x mode a b).next := by
  cases mode <;> simp [setWorld]

theorem setWorld_next' (w : World β) (x : Ctx) (mode : Mode) (a : Nat) (b : Buf β)
    (h : mode = .copyValues) : (setWorld w x mode a b).next = w.next + 1 := by
  subst h; simp [setWorld]

/-- The rules keep the behaviour defined and the invariant true. -/
theorem Inv.next {g : View} {w : World β} (h : Inv g w) {c : Call β} (hl : Legal g c) : Good g c (exec c w) Inv := by
  refine Good.ginv h.gen ?_
  obtain ⟨hg, hctx, hm, hf⟩ := h
  -- the program's own actions
  have hmine : ∀ {w' : World β} {c' : Call β} {r : Ret}, w'.ctx = w.ctx → (∀ a, w'.next ≤ a → w'.heap a = none) →
      (∀ a len, (g.after c' r).mine a = some len → ∃ b, w'.heap a = some b ∧ b.len = len) →
      (∀ x, w.ctx = some x → CInv g w x → CInv (g.after c' r) w' x) → (g.after c' r).handles = g.handles →
      GInv (g.after c' r) w' → Inv (g.after c' r) w' := by
    intro w' c' r h1 h2 h3 h4 h5 h6
    refine ⟨h6, ?_, h3, h2⟩
    rcases hctx with ⟨hh, x, hx, hi⟩ | ⟨hh, hn⟩
    · exact .inl ⟨by rw [h5]; exact hh, x, by rw [h1]; exact hx, h4 x hx hi⟩
    · exact .inr ⟨by rw [h5]; exact hh, by rw [h1]; exact hn⟩
  by_cases hprog : (∃ b, c = .malloc b) ∨ (∃ a, c = .mfree a) ∨ (∃ a i v, c = .store a i v)
  · rcases hprog with ⟨b, rfl⟩ | ⟨a, rfl⟩ | ⟨a, i, v, rfl⟩
    · refine hmine (r := .ptr (some w.next)) rfl ?_ ?_ ?_ rfl
      · intro a ha
        simp only [push_next] at ha
        simp only [push_heap, if_neg (show a ≠ w.next by omega)]
        exact hf a (by omega)
      · intro a len ha
        simp only [View.after] at ha
        simp only [push_heap]
        split_ifs at ha ⊢ with e
        · exact ⟨b, rfl, by simpa using ha⟩
        · exact hm a len ha
      · intro x hx hi
        have hne : x.data ≠ some w.next := by
          intro hd
          obtain ⟨-, b', hb', -⟩ := hi.data _ hd
          rw [hf w.next le_rfl] at hb'
          cases hb'
        refine hi.keep rfl rfl rfl rfl rfl ?_ rfl rfl rfl rfl ?_ hi.ptrs
        · intro a ha b' hb'
          refine ⟨b', ?_, le_rfl⟩
          simp only [push_heap]
          rw [if_neg ?_]
          · exact hb'
          · rintro rfl; exact hne ha
        · intro a
          simp only [View.after]
          split_ifs with e
          · right; rw [e]; exact hne
          · exact .inl rfl
    · obtain ⟨hl1, hl2⟩ := hl
      obtain ⟨len, hlen⟩ := Option.ne_none_iff_exists'.1 hl1
      obtain ⟨b, hb, -⟩ := hm a len hlen
      have hfr : free (some a) w = .ok (w.setBlk a none) () := by simp [free, hb]
      simp only [exec, M.bind_apply, hfr]
      refine hmine (r := .none) rfl ?_ ?_ ?_ rfl
      · intro c hc
        simp only [setBlk_heap]
        split_ifs
        · rfl
        · exact hf c hc
      · intro c len hc
        simp only [View.after] at hc
        simp only [setBlk_heap]
        split_ifs at hc ⊢ with e
        exact hm c len hc
      · intro x hx hi
        have hne : x.data ≠ some a := by
          intro hd
          rcases (hi.data _ hd).1 with ho | ho
          · rw [(hi.owned a ho).1] at hlen; cases hlen
          · exact hl2 (by rw [← hi.borrowed]; exact ho)
        refine hi.keep rfl rfl rfl rfl rfl ?_ rfl rfl rfl rfl ?_ hi.ptrs
        · intro c hc b' hb'
          refine ⟨b', ?_, le_rfl⟩
          simp only [setBlk_heap]
          rw [if_neg ?_]
          · exact hb'
          · rintro rfl; exact hne hc
        · intro c
          simp only [View.after]
          split_ifs with e
          · right; rw [e]; exact hne
          · exact .inl rfl
    · have hb : ∃ b, w.heap a = some b ∧ i < b.len := by
        rcases hl with ⟨len, h1, h2, -⟩ | ⟨h1, s, h2, h3⟩
        · obtain ⟨b, hb, hbl⟩ := hm a len h1
          exact ⟨b, hb, by omega⟩
        · rcases hctx with ⟨hh, x, hx, hi⟩ | ⟨hh, hn⟩
          · have hd := hi.ptrs a (.inl h1)
            obtain ⟨-, b, hb, hbl⟩ := hi.data a hd
            have hs := hi.size
            rw [hd, h2] at hs
            simp only [Option.map_some, Option.some.injEq] at hs
            exact ⟨b, hb, by omega⟩
          · rw [hg.dead hn] at h1
            cases h1
      obtain ⟨b, hb, hib⟩ := hb
      have hst : store a i v w = .ok (w.setBlk a (some ⟨b.len, fun j => if j = i then v else b.val j⟩)) () := by
        unfold store
        simp only [M.bind_apply, getB_some hb, Out.bind_ok, if_pos hib]
        rfl
      simp only [exec, M.bind_apply, hst]
      refine hmine (r := .none) rfl ?_ ?_ ?_ rfl
      · intro c hc
        simp only [setBlk_heap]
        split_ifs with e
        · rw [e] at hc
          rw [hf a hc] at hb
          cases hb
        · exact hf c hc
      · intro c len hc
        obtain ⟨b', hb', hbl⟩ := hm c len hc
        simp only [setBlk_heap]
        split_ifs with e
        · subst e
          rw [hb] at hb'
          cases hb'
          exact ⟨_, rfl, hbl⟩
        · exact ⟨b', hb', hbl⟩
      · intro x hx hi
        refine hi.keep rfl rfl rfl rfl rfl ?_ rfl rfl rfl rfl (fun _ => .inl rfl) hi.ptrs
        intro c hc b' hb'
        simp only [setBlk_heap]
        split_ifs with e
        · subst e
          rw [hb] at hb'
          cases hb'
          exact ⟨_, rfl, le_rfl⟩
        · exact ⟨b', hb', le_rfl⟩
  · -- calls of the library
    have hpos : 0 < g.handles := by
      cases c with
      | malloc b => exact absurd (.inl ⟨b, rfl⟩) hprog
      | mfree a => exact absurd (.inr (.inl ⟨a, rfl⟩)) hprog
      | store a i v => exact absurd (.inr (.inr ⟨a, i, v, rfl⟩)) hprog
      | getFieldLabel | getData | getDataRead | restoreData | restoreDataRead | getField | restoreField
        | setDataDestroy => exact hl
      | _ => exact hl.1
    rcases hctx with ⟨-, x, hx, hi⟩ | ⟨hh, -⟩
    swap
    · omega
    have stay : ∀ {g' : View}, CInv g' w x → g'.handles = g.handles → g'.mine = g.mine → GInv g' w → Inv g' w := by
      intro g' h1 h2 h3 h4
      exact ⟨h4, .inl ⟨by rw [h2]; exact hpos, x, hx, h1⟩, by rw [h3]; exact hm, hf⟩
    have upd : ∀ {g' : View} {y : Ctx}, CInv g' (w.setCtx (some y)) y → 0 < g'.handles → g'.mine = g.mine →
        GInv g' (w.setCtx (some y)) → Inv g' (w.setCtx (some y)) := by
      intro g' y h1 h2 h3 h4
      exact ⟨h4, .inl ⟨h2, y, rfl, h1⟩, by rw [h3]; exact hm, hf⟩
    have hsame : ∀ a, x.data = some a → ∀ b, w.heap a = some b → ∃ b', w.heap a = some b' ∧ b.len ≤ b'.len :=
      fun a _ b hb => ⟨b, hb, le_rfl⟩
    cases c with
    | malloc b => exact absurd (.inl ⟨b, rfl⟩) hprog
    | mfree a => exact absurd (.inr (.inl ⟨a, rfl⟩)) hprog
    | store a i v => exact absurd (.inr (.inr ⟨a, i, v, rfl⟩)) hprog
    | reference =>
      simp only [exec, reference, M.bind_apply, getC_some hx, Out.bind_ok, putC_apply, M.pure_apply, Good]
      refine upd ?_ (by simp [View.after]) rfl
      obtain ⟨r1, r2, r3, r4, r5, r6, r7⟩ := hi
      refine ⟨?_, r2, r3, r4, r5, r6, r7⟩
      rcases r1 with ⟨rb, -⟩ | ⟨rb, rr⟩
      · rw [hl.2] at rb; cases rb
      · right
        exact ⟨rb, by simp only [View.after]; push_cast; omega⟩
    | setDataDestroy m =>
      simp only [exec, setDataDestroy, M.bind_apply, getC_some hx, Out.bind_ok, putC_apply, M.pure_apply, Good]
      exact upd (hi.keep rfl rfl rfl rfl rfl hsame rfl rfl rfl rfl (fun _ => .inl rfl) hi.ptrs) hpos rfl
    | register name offset descr type num =>
      cases descr with
      | none => simp [Legal] at hl
      | some d =>
        simp only [exec, M.bind_apply, register_eq hx (hg.cap x hx)]
        by_cases hn : name ∈ x.labels.map Label.name
        · rw [if_pos hn]
          exact stay hi rfl rfl
        · rw [if_neg hn]
          exact upd (hi.keep rfl rfl rfl rfl rfl hsame rfl rfl rfl rfl (fun _ => .inl rfl) hi.ptrs) hpos rfl
    | getFieldLabel name =>
      rcases getFieldLabel_eq hx name with ⟨-, he⟩ | ⟨l, -, -, he⟩
      · simp only [exec, M.bind_apply, he]
        exact stay hi rfl rfl
      · simp only [exec, M.bind_apply, he]
        exact stay hi rfl rfl
    | getData mem =>
      simp only [exec, M.bind_apply, getData_eq hx]
      split_ifs with e1 e2 e3
      · obtain ⟨p, hp⟩ := Option.isSome_iff_exists.1 e3
        simp only [hp]
        refine upd (hi.keep rfl rfl hp.symm rfl rfl hsame rfl rfl rfl rfl (fun _ => .inl rfl) ?_) hpos rfl
        simp only [View.after, List.mem_cons]
        rintro q ((rfl | hq) | hq)
        · exact hp
        · exact hi.ptrs q (.inl hq)
        · exact hi.ptrs q (.inr hq)
      all_goals exact stay hi rfl rfl
    | getDataRead mem =>
      simp only [exec, M.bind_apply, getDataRead_eq hx]
      split_ifs with e1 e3
      · obtain ⟨p, hp⟩ := Option.isSome_iff_exists.1 e3
        simp only [hp]
        refine upd (hi.keep rfl rfl hp.symm rfl rfl hsame rfl rfl rfl rfl (fun _ => .inl rfl) ?_) hpos rfl
        simp only [View.after, List.mem_cons]
        rintro q (hq | rfl | hq)
        · exact hi.ptrs q (.inl hq)
        · exact hp
        · exact hi.ptrs q (.inr hq)
      all_goals exact stay hi rfl rfl
    | getField l type =>
      simp only [exec, getField, M.bind_apply, M.check_apply, getC_some hx, Out.bind_ok]
      split_ifs with e0
      swap
      · exact stay hi rfl rfl
      simp only [Out.bind_ok, getDataRead_eq hx]
      split_ifs with e1 e3
      · obtain ⟨p, hp⟩ := Option.isSome_iff_exists.1 e3
        simp only [hp]
        refine upd (hi.keep rfl rfl hp.symm rfl rfl hsame rfl rfl rfl rfl (fun _ => .inl rfl) ?_) hpos rfl
        simp only [View.after, List.mem_cons]
        rintro q (hq | rfl | hq)
        · exact hi.ptrs q (.inl hq)
        · exact hp
        · exact hi.ptrs q (.inr hq)
      all_goals exact stay hi rfl rfl
    | restoreData =>
      simp only [exec, M.bind_apply, restoreData_eq hx]
      split_ifs with e1
      · refine upd (hi.keep rfl rfl rfl rfl rfl hsame rfl rfl rfl rfl (fun _ => .inl rfl) ?_) hpos rfl
        simp only [View.after]
        rintro q (hq | hq)
        · exact hi.ptrs q (.inl (List.mem_of_mem_tail hq))
        · exact hi.ptrs q (.inr hq)
      all_goals exact stay hi rfl rfl
    | restoreDataRead =>
      simp only [exec, M.bind_apply, restoreDataRead_eq hx]
      split_ifs with e1
      · refine upd (hi.keep rfl rfl rfl rfl rfl hsame rfl rfl rfl rfl (fun _ => .inl rfl) ?_) hpos rfl
        simp only [View.after]
        rintro q (hq | hq)
        · exact hi.ptrs q (.inl hq)
        · exact hi.ptrs q (.inr (List.mem_of_mem_tail hq))
      all_goals exact stay hi rfl rfl
    | restoreField l type =>
      simp only [exec, restoreField, M.bind_apply, M.check_apply, getC_some hx, Out.bind_ok]
      split_ifs with e0
      swap
      · exact stay hi rfl rfl
      simp only [Out.bind_ok, restoreDataRead_eq hx]
      split_ifs with e1
      · refine upd (hi.keep rfl rfl rfl rfl rfl hsame rfl rfl rfl rfl (fun _ => .inl rfl) ?_) hpos rfl
        simp only [View.after]
        rintro q (hq | hq)
        · exact hi.ptrs q (.inl hq)
        · exact hi.ptrs q (.inr (List.mem_of_mem_tail hq))
      all_goals exact stay hi rfl rfl
    | takeData mem =>
      simp only [exec, M.bind_apply, takeData_eq hx]
      split_ifs with e1 e2 e3 e4
      · refine upd ?_ hpos rfl
        have hnw : g.writes = [] := List.eq_nil_of_length_eq_zero ((hg.writes x hx).symm.trans e2)
        obtain ⟨q, hq⟩ := Option.isSome_iff_exists.1 e4
        refine ⟨hi.refs, ?_, ?_, rfl, ?_, ?_, rfl⟩
        · simp only [View.after]
          rintro p (hp | hp)
          · rw [hnw] at hp; cases hp
          · rw [hl.2] at hp; cases hp
        · intro a ha
          have h1 := hi.owned a ha
          have h2 := hi.lent q hq
          rw [h1.2] at h2
          obtain ⟨h3, len, h4⟩ := h2
          cases h3
          rw [h1.1] at h4
          cases h4
        · intro a ha; simp at ha
        · intro a ha; simp at ha
      all_goals exact stay hi rfl rfl
    | setField l type values =>
      obtain ⟨-, hl1, hl2⟩ := hl
      simp only [exec, M.bind_apply]
      cases hd : x.data with
      | none =>
        obtain ⟨e, he⟩ := setField_noData hx l type values hd
        rw [he]
        exact stay hi rfl rfl
      | some a =>
        obtain ⟨-, b, hb, hbl⟩ := hi.data a hd
        have hs : l.offset + l.size ≤ x.size := hl1 x.size (by rw [hi.size, hd]; rfl)
        rw [setField_eq hx l type values hd hb (hs.trans hbl) hl2]
        split_ifs
        · exact stay hi rfl rfl
        · simp only [Out.bind_ok, M.pure_apply, Good]
          intro hgi
          refine ⟨hgi, .inl ⟨hpos, _, rfl, ?_⟩, ?_, ?_⟩
          · refine hi.keep rfl rfl rfl rfl rfl ?_ rfl rfl rfl rfl (fun _ => .inl rfl) hi.ptrs
            intro c hc b' hb'
            rw [hd] at hc
            cases hc
            rw [hb] at hb'
            cases hb'
            exact ⟨patch b l.offset values l.size, by simp, le_rfl⟩
          · intro c len hc
            obtain ⟨b', hb', hbl'⟩ := hm c len hc
            simp only [setCtx_heap, setBlk_heap]
            split_ifs with e
            · subst e
              rw [hb] at hb'
              cases hb'
              exact ⟨_, rfl, hbl'⟩
            · exact ⟨b', hb', hbl'⟩
          · intro c hc
            simp only [setCtx_heap, setBlk_heap]
            split_ifs with e
            · subst e
              rw [hf c hc] at hb
              cases hb
            · exact hf c hc
        all_goals exact stay hi rfl rfl
    | setData mem mode size src =>
      obtain ⟨-, hl1, rfl, a, len, rfl, hl2, hl3⟩ := hl
      obtain ⟨b, hb, hbl⟩ := hm a len hl2
      have hne : x.owned ≠ some a := by
        intro ho
        rw [(hi.owned a ho).1] at hl2
        cases hl2
      have ho : ∀ c, x.owned = some c → w.heap c ≠ none := by
        intro c hc
        obtain ⟨-, b', hb', -⟩ := hi.data c (hi.owned c hc).2
        rw [hb']; simp
      simp only [exec, M.bind_apply]
      rcases setData_eq hx mode hb (size := size) (by omega) hne ho with ⟨e, he, -⟩ | ⟨st, -, hev, he⟩
      · rw [he]
        exact stay hi rfl rfl
      · rw [he]
        simp only [Out.bind_ok, M.pure_apply, Good]
        intro hgi
        have hnw : g.writes = [] := List.eq_nil_of_length_eq_zero ((hg.writes x hx).symm.trans hev)
        have hnext : ∀ c len, g.mine c = some len → c ≠ w.next := by
          rintro c len hc rfl
          obtain ⟨b', hb', -⟩ := hm _ len hc
          rw [hf w.next le_rfl] at hb'
          cases hb'
        refine ⟨hgi, .inl ⟨hpos, _, setWorld_ctx .., ?_⟩, ?_, ?_⟩
        · refine ⟨hi.refs, ?_, ?_, ?_, ?_, ?_, ?_⟩
          · simp only [View.after]
            rintro p (hp | hp)
            · rw [hnw] at hp; cases hp
            · rw [hl1] at hp; cases hp
          · intro c hc
            simp only at hc
            split_ifs at hc with e
            cases hc
            refine ⟨?_, rfl⟩
            simp only [View.after, newData]
            cases mode with
            | usePointer => exact absurd rfl e
            | ownPointer => simp
            | copyValues =>
              simp only [if_true]
              cases hmn : g.mine w.next with
              | none => simp
              | some len => exact absurd rfl (hnext _ len hmn)
          · simp only [View.after]
          · intro c hc
            simp only at hc
            split_ifs at hc with e
            cases hc
            subst e
            exact ⟨rfl, len, by simp [View.after, hl2]⟩
          · intro c hc
            simp only [Option.some.injEq] at hc
            subst hc
            rw [setWorld_heap]
            cases mode with
            | copyValues =>
              refine ⟨.inl (by simp), ?_⟩
              simp [newData]
            | ownPointer =>
              refine ⟨.inl (by simp), b, ?_, by dsimp only; omega⟩
              simp [newData, hne, hb]
            | usePointer =>
              refine ⟨.inr (by simp [newData]), b, ?_, by dsimp only; omega⟩
              simp [newData, hne, hb]
          · cases mode <;> simp [View.after]
        · intro c len' hc
          simp only [View.after] at hc
          split_ifs at hc with e
          obtain ⟨b', hb', hbl'⟩ := hm c len' hc
          refine ⟨b', ?_, hbl'⟩
          rw [setWorld_heap, if_neg (fun hh => hnext c len' hc hh.2), if_neg]
          · exact hb'
          · intro ho'
            rw [(hi.owned c ho').1] at hc
            cases hc
        · intro c hc
          rw [setWorld_heap]
          have := setWorld_next w { x with size := size, state := st } mode a b
          rw [if_neg]
          · split_ifs
            · rfl
            · exact hf c (by omega)
          · rintro ⟨rfl, rfl⟩
            rw [setWorld_next' _ _ _ _ _ rfl] at hc
            omega
    | destroy =>
      obtain ⟨-, hl1⟩ := hl
      have ho : ∀ c, x.owned = some c → w.heap c ≠ none := by
        intro c hc
        obtain ⟨-, b', hb', -⟩ := hi.data c (hi.owned c hc).2
        rw [hb']; simp
      have hfin : ∀ y : Ctx, x.refs - 1 ≤ 0 → Good g Call.destroy
          ((finish x.owned (w.setCtx (some y))).bind fun s _ => (pure Ret.none : M (World β) Ret) s) fun g w => GInv g w → Inv g w := by
        intro y hy
        have : finish x.owned (w.setCtx (some y)) = .ok ((freed (w.setCtx (some y)) x.owned).setCtx none) () := by
          unfold finish
          rw [M.bind_apply, free_eq (by exact ho)]
          rfl
        rw [this]
        intro hgi
        have hh1 : g.handles = 1 := by
          rcases hi.refs with ⟨-, -, h1⟩ | ⟨-, h1⟩ <;> omega
        refine ⟨hgi, .inr ⟨by simp [View.after, hh1], rfl⟩, ?_, ?_⟩
        · intro c len hc
          obtain ⟨b', hb', hbl'⟩ := hm c len hc
          refine ⟨b', ?_, hbl'⟩
          simp only [setCtx_heap, freed_heap]
          rw [if_neg]
          · exact hb'
          · intro ho'
            have := (hi.owned c ho').1
            rw [show g.mine c = some len from hc] at this
            cases this
        · intro c hc
          simp only [setCtx_heap, freed_heap]
          split_ifs
          · rfl
          · exact hf c (by simpa using hc)
      have hfail : ∀ e, x.refs - 1 ≤ 0 → Good g Call.destroy
          ((Out.err (w.setCtx (some { x with refs := x.refs - 1 })) e).bind fun s (_ : Unit) => (pure Ret.none : M (World β) Ret) s)
          fun g w => GInv g w → Inv g w := by
        intro e hy
        have hh1 : g.handles = 1 := by
          rcases hi.refs with ⟨-, -, h1⟩ | ⟨-, h1⟩ <;> omega
        refine upd ?_ hpos rfl
        obtain ⟨r1, r2, r3, r4, r5, r6, r7⟩ := hi
        exact ⟨.inl ⟨rfl, hy, hh1⟩, r2, r3, r4, r5, r6, r7⟩
      simp only [exec, M.bind_apply, destroy_eq hx]
      by_cases h1 : 0 < x.refs - 1
      · rw [if_pos h1]
        refine upd ?_ ?_ rfl
        · obtain ⟨r1, r2, r3, r4, r5, r6, r7⟩ := hi
          refine ⟨.inr ?_, r2, r3, r4, r5, r6, r7⟩
          rcases r1 with ⟨-, h2, -⟩ | ⟨h2, h3⟩
          · omega
          · refine ⟨h2, ?_⟩
            simp only [View.after]
            omega
        · simp only [View.after]
          rcases hi.refs with ⟨-, h2, -⟩ | ⟨h2, h3⟩ <;> omega
      rw [if_neg h1]
      by_cases he : x.state % 2 = 0
      · rw [if_pos he]
        split
        · exact hfin _ (by omega)
        · split_ifs
          · exact hfin _ (by omega)
          all_goals exact hfail _ (by omega)
      · rw [if_neg he]
        exact hfail _ (by omega)

theorem Steps.inv {g0 g : View} {w0 w : World β} (h0 : Inv g0 w0) (h : Steps g0 w0 g w) : Inv g w := by
  induction h with
  | refl => exact h0
  | ok _ hl he ih =>
    have := ih.next hl
    rw [he] at this
    exact this
  | err _ hl he ih =>
    have := ih.next hl
    rw [he] at this
    exact this

end Context
end Verif
