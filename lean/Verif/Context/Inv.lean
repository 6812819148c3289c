import Verif.Context.Hist

/-!
# Invariants of histories of calls on a context
-/

namespace Verif
namespace Context

set_option linter.unusedSectionVars false

variable {β : Type}

@[simp] theorem setCtx_ctx (w : World β) (x : Option Ctx) : (w.setCtx x).ctx = x := rfl
@[simp] theorem setCtx_heap (w : World β) (x : Option Ctx) : (w.setCtx x).heap = w.heap := rfl
@[simp] theorem setCtx_next (w : World β) (x : Option Ctx) : (w.setCtx x).next = w.next := rfl
@[simp] theorem setBlk_ctx (w : World β) (a : Nat) (b : Option (Buf β)) : (w.setBlk a b).ctx = w.ctx := rfl
@[simp] theorem setBlk_heap (w : World β) (a c : Nat) (b : Option (Buf β)) :
    (w.setBlk a b).heap c = if c = a then b else w.heap c := rfl
@[simp] theorem setBlk_next (w : World β) (a : Nat) (b : Option (Buf β)) : (w.setBlk a b).next = w.next := rfl
@[simp] theorem push_ctx (w : World β) (b : Buf β) : (w.push b).ctx = w.ctx := rfl
@[simp] theorem push_heap (w : World β) (c : Nat) (b : Buf β) :
    (w.push b).heap c = if c = w.next then some b else w.heap c := rfl
@[simp] theorem push_next (w : World β) (b : Buf β) : (w.push b).next = w.next + 1 := rfl
@[simp] theorem setCtx_setCtx (w : World β) (x y : Option Ctx) : (w.setCtx x).setCtx y = w.setCtx y := rfl
theorem setCtx_self {w : World β} {x : Ctx} (h : w.ctx = some x) : w.setCtx (some x) = w := by
  cases w; simp only at h; subst h; rfl

theorem getC_some {w : World β} {x : Ctx} (h : w.ctx = some x) : getC w = .ok w x := by simp [getC, h]
theorem getC_none {w : World β} (h : w.ctx = none) : getC w = .ub := by simp [getC, h]
@[simp] theorem putC_apply (w : World β) (x : Ctx) : putC x w = .ok (w.setCtx (some x)) () := rfl
@[simp] theorem delC_apply (w : World β) : delC w = .ok (w.setCtx none) () := rfl
theorem getB_some {w : World β} {a : Nat} {b : Buf β} (h : w.heap a = some b) : getB (some a) w = .ok w b := by
  simp [getB, h]

theorem getData_eq {w : World β} {x : Ctx} (h : w.ctx = some x) (mem : Mem) :
    getData mem w = if x.state % 2 = 0 then
        if x.readers = 0 then
          if x.data.isSome then
            if mem = .host then .ok (w.setCtx (some { x with state := x.state + 1 })) x.data else .err w .backend
          else .err w .backend
        else .err w .minor
      else .err w .minor := by
  unfold getData
  simp only [M.bind_apply, getC_some h, Out.bind_ok, M.check_apply]
  split_ifs <;> rfl

theorem getDataRead_eq {w : World β} {x : Ctx} (h : w.ctx = some x) (mem : Mem) :
    getDataRead mem w = if x.state % 2 = 0 then
        if x.data.isSome then
          if mem = .host then .ok (w.setCtx (some { x with readers := x.readers + 1 })) x.data else .err w .backend
        else .err w .backend
      else .err w .minor := by
  unfold getDataRead
  simp only [M.bind_apply, getC_some h, Out.bind_ok, M.check_apply]
  split_ifs <;> rfl

theorem restoreData_eq {w : World β} {x : Ctx} (h : w.ctx = some x) :
    restoreData w = if x.state % 2 = 1 then .ok (w.setCtx (some { x with state := x.state + 1 })) () else .err w .minor := by
  unfold restoreData
  simp only [M.bind_apply, getC_some h, Out.bind_ok, M.check_apply]
  split_ifs <;> rfl

theorem restoreDataRead_eq {w : World β} {x : Ctx} (h : w.ctx = some x) :
    restoreDataRead w = if 0 < x.readers then .ok (w.setCtx (some { x with readers := x.readers - 1 })) ()
      else .err w .minor := by
  unfold restoreDataRead
  simp only [M.bind_apply, getC_some h, Out.bind_ok, M.check_apply]
  split_ifs <;> rfl

/-- What destroying the data does: nothing without a destroy function; otherwise the state advances by two, or an access
check fails and nothing changes. -/
theorem destroyData_eq {w : World β} {x : Ctx} (h : w.ctx = some x) (he : x.state % 2 = 0) :
    destroyData w = match x.destroyFn with
      | none => .ok w ()
      | some m =>
        if x.readers = 0 then
          if x.data.isSome then
            if m = .host then .ok (w.setCtx (some { x with state := x.state + 2 })) () else .err w .backend
          else .err w .backend
        else .err w .minor := by
  unfold destroyData
  simp only [M.bind_apply, getC_some h, Out.bind_ok]
  obtain ⟨r, st, rd, sz, d, bo, ow, ls, ml, df⟩ := x
  dsimp only at he ⊢
  cases df with
  | none => rfl
  | some m =>
    simp only [M.bind_apply, getData_eq h, he, if_true]
    split_ifs
    · simp only [Out.bind_ok]
      rw [restoreData_eq rfl]
      have : (st + 1) % 2 = 1 := by omega
      simp [this]
    · rfl
    · rfl
    · rfl

theorem takeData_eq {w : World β} {x : Ctx} (h : w.ctx = some x) (mem : Mem) :
    takeData mem w = if x.data.isSome then
        if x.state % 2 = 0 then
          if mem = .host then
            if x.borrowed.isSome then .ok (w.setCtx (some { x with borrowed := none, data := none })) x.data
            else .err w .backend
          else .err w .backend
        else .err w .minor
      else .err w .backend := by
  unfold takeData
  simp only [M.bind_apply, getC_some h, Out.bind_ok, M.check_apply]
  split_ifs <;> rfl

/-- Whether the bytes of a range equal the given values. -/
def sameBytes (b : Buf β) (offset : Nat) (values : Buf β) (size : Nat) : Prop :=
  ∀ i, i < size → b.val (offset + i) = values.val i

/-- The array with a range overwritten. -/
def patch (b : Buf β) (offset : Nat) (values : Buf β) (size : Nat) : Buf β :=
  ⟨b.len, fun i => if offset ≤ i ∧ i < offset + size then values.val (i - offset) else b.val i⟩

theorem copyIn_eq {w : World β} {a : Nat} {b : Buf β} (hb : w.heap a = some b) {offset size : Nat} {values : Buf β}
    (hin : offset + size ≤ b.len) (hv : size ≤ values.len) :
    copyIn (some a) offset values size w = .ok (w.setBlk a (some (patch b offset values size))) () := by
  unfold copyIn
  rw [M.bind_apply, getB_some hb]
  simp only [Out.bind_ok]
  rw [if_pos ⟨hin, hv⟩]
  rfl

variable [DecidableEq β]

theorem differs_eq {w : World β} {a : Nat} {b : Buf β} (hb : w.heap a = some b) {offset size : Nat} {values : Buf β}
    (hin : offset + size ≤ b.len) (hv : size ≤ values.len) :
    differs (some a) offset values size w = .ok w (!decide (∀ i : Fin size, b.val (offset + i) = values.val i)) := by
  unfold differs
  rw [M.bind_apply, getB_some hb]
  simp only [Out.bind_ok]
  rw [if_pos ⟨hin, hv⟩]
  rfl

open Classical in
/-- What setting a field does when the context has data in an allocated array and the field lies inside. -/
theorem setField_eq {w : World β} {x : Ctx} {a : Nat} {b : Buf β} (h : w.ctx = some x) (l : Label) (type : FieldType)
    (values : Buf β) (hd : x.data = some a) (hb : w.heap a = some b) (hin : l.offset + l.size ≤ b.len)
    (hv : l.size ≤ values.len) :
    setField l type values w = if l.type = type then
        if x.state % 2 = 0 then
          if sameBytes b l.offset values l.size then .ok w ()
          else if x.readers = 0 then
            .ok ((w.setBlk a (some (patch b l.offset values l.size))).setCtx (some { x with state := x.state + 2 })) ()
          else .err w .minor
        else .err w .minor
      else .err w .unsupported := by
  obtain ⟨r, st, rd, sz, d, bo, ow, ls, ml, df⟩ := x
  dsimp only at hd ⊢
  subst hd
  unfold setField
  simp only [M.bind_apply, getC_some h, Out.bind_ok, M.check_apply]
  by_cases ht : l.type = type
  swap
  · simp [ht]
  simp only [ht, if_true, Out.bind_ok, getDataRead_eq h, Option.isSome_some]
  by_cases he : st % 2 = 0
  swap
  · simp [he]
  simp only [he, if_true, Out.bind_ok]
  rw [differs_eq (b := b) (by exact hb) hin hv]
  simp only [Out.bind_ok]
  rw [restoreDataRead_eq rfl]
  simp only [Nat.zero_lt_succ, if_true, Out.bind_ok, setCtx_setCtx, Nat.add_sub_cancel]
  rw [setCtx_self h]
  by_cases hs : sameBytes b l.offset values l.size
  · have : ∀ i : Fin l.size, b.val (l.offset + i) = values.val i := fun i => hs i i.2
    simp [hs, this]
  · have : ¬ ∀ i : Fin l.size, b.val (l.offset + i) = values.val i := fun h' => hs fun i hi => h' ⟨i, hi⟩
    simp only [this, decide_false, Bool.not_false, if_true, M.bind_apply, getData_eq h, he, Option.isSome_some, hs,
      if_false]
    by_cases hr : rd = 0
    swap
    · simp [hr]
    simp only [hr, if_true, Out.bind_ok]
    rw [copyIn_eq (b := b) (by exact hb) hin hv]
    simp only [Out.bind_ok]
    rw [restoreData_eq rfl]
    have : (st + 1) % 2 = 1 := by omega
    simp only [this, if_true]
    rfl

/-- Setting a field of a context without data, or with the wrong type, or during write access fails. -/
theorem setField_noData {w : World β} {x : Ctx} (h : w.ctx = some x) (l : Label) (type : FieldType)
    (values : Buf β) (hd : x.data = none) : ∃ e, setField l type values w = .err w e := by
  unfold setField
  simp only [M.bind_apply, getC_some h, Out.bind_ok, M.check_apply]
  split_ifs
  · simp only [Out.bind_ok, getDataRead_eq h, hd]
    split_ifs <;> first | exact ⟨_, rfl⟩ | simp_all
  · exact ⟨_, rfl⟩

theorem setField_odd {w : World β} {x : Ctx} (h : w.ctx = some x) (l : Label) (type : FieldType)
    (values : Buf β) (hd : x.state % 2 ≠ 0) : ∃ e, setField l type values w = .err w e := by
  unfold setField
  simp only [M.bind_apply, getC_some h, Out.bind_ok, M.check_apply]
  split_ifs
  · simp only [Out.bind_ok, getDataRead_eq h, if_neg hd]
    exact ⟨_, rfl⟩
  · exact ⟨_, rfl⟩

theorem differs_cases (p : Option Nat) (o : Nat) (v : Buf β) (n : Nat) (w : World β) :
    differs p o v n w = .ub ∨ ∃ d, differs p o v n w = .ok w d := by
  unfold differs
  simp only [M.bind_apply, getB]
  cases p with
  | none => exact .inl rfl
  | some a =>
    cases h : w.heap a with
    | none => exact .inl (by simp [h])
    | some b =>
      simp only [h, Out.bind_ok]
      split_ifs
      · exact .inr ⟨_, rfl⟩
      · exact .inl rfl

theorem copyIn_cases (p : Option Nat) (o : Nat) (v : Buf β) (n : Nat) (w : World β) :
    copyIn p o v n w = .ub ∨ ∃ a b, copyIn p o v n w = .ok (w.setBlk a b) () := by
  unfold copyIn
  simp only [M.bind_apply, getB]
  cases p with
  | none => exact .inl rfl
  | some a =>
    cases h : w.heap a with
    | none => exact .inl (by simp [h])
    | some b =>
      simp only [h, Out.bind_ok]
      split_ifs
      · exact .inr ⟨_, _, rfl⟩
      · exact .inl rfl

/-- Setting a field keeps everything in the context except that the state may advance by two. -/
theorem setField_ctx {w : World β} {x : Ctx} (h : w.ctx = some x) (l : Label) (type : FieldType) (values : Buf β) :
    (setField l type values w).Post fun w' => w'.ctx = some x ∨ w'.ctx = some { x with state := x.state + 2 } := by
  obtain ⟨r, st, rd, sz, d, bo, ow, ls, ml, df⟩ := x
  unfold setField
  simp only [M.bind_apply, getC_some h, Out.bind_ok, M.check_apply]
  split_ifs with ht
  swap
  · exact .inl h
  simp only [Out.bind_ok, getDataRead_eq h]
  split_ifs with he hd
  · simp only [Out.bind_ok]
    rcases differs_cases d l.offset values l.size
      (w.setCtx (some ⟨r, st, rd + 1, sz, d, bo, ow, ls, ml, df⟩)) with hu | ⟨q, hq⟩
    · rw [hu]; trivial
    rw [hq]
    simp only [Out.bind_ok]
    rw [restoreDataRead_eq rfl]
    simp only [Nat.zero_lt_succ, if_true, Out.bind_ok, setCtx_setCtx, Nat.add_sub_cancel]
    rw [setCtx_self h]
    split_ifs
    · simp only [M.bind_apply, getData_eq h, he, if_true]
      split_ifs
      · simp only [Out.bind_ok]
        rcases copyIn_cases d l.offset values l.size
          (w.setCtx (some ⟨r, st + 1, rd, sz, d, bo, ow, ls, ml, df⟩)) with hu | ⟨a, b, hq⟩
        · rw [hu]; trivial
        rw [hq]
        simp only [Out.bind_ok]
        rw [restoreData_eq rfl]
        have : (st + 1) % 2 = 1 := by omega
        simp only [this, if_true]
        exact .inr rfl
      · exact .inl h
    · exact .inl h
  · exact .inl h
  · exact .inl h

/-- The backend's part of setting data keeps the interface's part of the context. -/
theorem setDataRef_ctx {w : World β} {x : Ctx} (h : w.ctx = some x) (mem : Mem) (mode : Mode) (src : Option Nat) :
    (setDataRef mem mode src w).Post fun w' => ∃ d bo ow, w'.ctx = some { x with data := d, borrowed := bo, owned := ow } := by
  unfold setDataRef
  simp only [M.bind_apply, getC_some h, Out.bind_ok, M.check_apply]
  split_ifs
  swap
  · exact ⟨x.data, x.borrowed, x.owned, h⟩
  simp only [Out.bind_ok]
  have hfree : free x.owned w = .ub ∨ ∃ w', free x.owned w = .ok w' () ∧ w'.ctx = w.ctx := by
    unfold free
    cases x.owned with
    | none => exact .inr ⟨_, rfl, rfl⟩
    | some a =>
      cases hh : w.heap a with
      | none => exact .inl (by simp [hh])
      | some b => exact .inr ⟨w.setBlk a none, by simp only [hh], rfl⟩
  rcases hfree with hf | ⟨w', hf, hc⟩
  · rw [hf]; trivial
  rw [hf]
  simp only [Out.bind_ok]
  cases mode with
  | ownPointer => exact ⟨_, _, _, rfl⟩
  | usePointer => exact ⟨_, _, _, rfl⟩
  | copyValues =>
    simp only [M.bind_apply, getB]
    cases src with
    | none => trivial
    | some a =>
      cases hh : w'.heap a with
      | none => simp [hh]
      | some b =>
        simp only [hh, Out.bind_ok]
        split_ifs
        · exact ⟨_, _, _, rfl⟩
        · trivial

/-- Setting data keeps the locks, handles and fields; when it succeeds the state advances by two or four. -/
theorem setData_ctx {w : World β} {x : Ctx} (h : w.ctx = some x) (mem : Mem) (mode : Mode) (size : Nat)
    (src : Option Nat) :
    (setData mem mode size src w).Post fun w' => ∃ st sz d bo ow, w'.ctx =
      some { x with state := st, size := sz, data := d, borrowed := bo, owned := ow } ∧ st % 2 = x.state % 2 ∧
        x.state ≤ st := by
  unfold setData
  simp only [M.bind_apply, getC_some h, Out.bind_ok, M.check_apply]
  have hrefl : ∃ st sz d bo ow, w.ctx =
      some { x with state := st, size := sz, data := d, borrowed := bo, owned := ow } ∧ st % 2 = x.state % 2 ∧
        x.state ≤ st := ⟨_, _, _, _, _, h, rfl, le_rfl⟩
  split_ifs with he
  swap
  · exact hrefl
  simp only [Out.bind_ok, destroyData_eq h he]
  have key : ∀ st, (st = x.state ∨ st = x.state + 2) → ((getC (w.setCtx (some { x with state := st }))).bind fun s a =>
      ((putC { a with size := size }) s).bind fun s _ => (setDataRef mem mode src s).bind fun s _ => (getC s).bind fun s a =>
        putC { a with state := a.state + 2 } s).Post (fun w' => ∃ st sz d bo ow, w'.ctx =
      some { x with state := st, size := sz, data := d, borrowed := bo, owned := ow } ∧ st % 2 = x.state % 2 ∧
        x.state ≤ st) := by
    intro st hst
    rw [getC_some rfl]
    simp only [Out.bind_ok, putC_apply, setCtx_setCtx]
    refine Out.Post.bind (setDataRef_ctx rfl mem mode src) ?_ ?_
    · rintro s ⟨d, bo, ow, hs⟩
      exact ⟨st, size, d, bo, ow, hs, by omega, by omega⟩
    · rintro s a hsa ⟨d, bo, ow, hs⟩
      rw [getC_some hs]
      exact ⟨st + 2, size, d, bo, ow, rfl, by omega, by omega⟩
  split
  · have := key x.state (.inl rfl)
    rw [setCtx_self (x := { x with state := x.state }) h] at this
    exact this
  · split_ifs
    · exact key _ (.inr rfl)
    · exact hrefl
    · exact hrefl
    · exact hrefl

/-- What every history preserves, whatever the program does. -/
structure GInv (g : View) (w : World β) : Prop where
  dead : w.ctx = none → g.writes = []
  writes : ∀ x, w.ctx = some x → x.state % 2 = g.writes.length
  readers : ∀ x, w.ctx = some x → x.readers = g.reads.length
  excl : g.writes ≠ [] → g.reads = []
  labels : ∀ x, w.ctx = some x → x.labels = g.regs
  cap : ∀ x, w.ctx = some x → x.labels.length ≤ x.maxLabels
  nodup : (g.regs.map Label.name).Nodup

theorem fieldIndex_neg {ls : List Label} {name : String} {n : Nat} (hn : n ≤ ls.length) :
    fieldIndex ls name n = -1 ↔ ∀ l ∈ ls.take n, l.name ≠ name := by
  induction n with
  | zero => simp [fieldIndex]
  | succ n ih =>
    have hlt : n < ls.length := hn
    rw [fieldIndex, List.take_add_one, List.getElem?_eq_getElem hlt]
    simp only [Option.map_some, Option.some.injEq, Option.toList_some, List.mem_append, List.mem_singleton]
    split_ifs with h
    · constructor
      · intro h'
        cases h'
      · intro h'; exact absurd h (h' _ (.inr rfl))
    · rw [ih (by omega)]
      constructor
      · rintro h' l (hl | hl)
        · exact h' l hl
        · rw [hl]; exact h
      · intro h' l hl
        exact h' l (.inl hl)

theorem fieldIndex_some {ls : List Label} {name : String} {n : Nat} (h : fieldIndex ls name n ≠ -1) :
    ∃ (i : Nat) (l : Label), fieldIndex ls name n = i ∧ ls[i]? = some l ∧ l.name = name := by
  induction n with
  | zero => simp [fieldIndex] at h
  | succ n ih =>
    rw [fieldIndex] at h ⊢
    split_ifs at h ⊢ with hn
    · cases hl : ls[n]? with
      | none => simp [hl] at hn
      | some l => exact ⟨n, l, rfl, hl, by simpa [hl] using hn⟩
    · exact ih h

theorem fieldIndex_all {ls : List Label} {name : String} :
    fieldIndex ls name ls.length = -1 ↔ name ∉ ls.map Label.name := by
  rw [fieldIndex_neg le_rfl, List.take_length]
  simp

theorem register_eq {w : World β} {x : Ctx} (h : w.ctx = some x) (hc : x.labels.length ≤ x.maxLabels) (name : String)
    (offset : Nat) (d : String) (type : FieldType) (num : Nat) :
    register name offset (some d) type num w = if name ∈ x.labels.map Label.name then .err w .unsupported
      else .ok (w.setCtx (some { x with
        labels := x.labels ++ [labelOf name offset d type num],
        maxLabels := if x.labels.length = 0 then 1 else if x.labels.length = x.maxLabels then 2 * x.maxLabels
          else x.maxLabels })) () := by
  unfold register
  simp only [M.bind_apply, getC_some h, Out.bind_ok, M.check_apply, fieldIndex_all]
  by_cases hn : name ∈ x.labels.map Label.name
  · simp only [hn, not_true, if_false, if_true]; rfl
  · simp only [hn, not_false_eq_true, if_false, if_true, Out.bind_ok]
    rw [if_pos (by split_ifs <;> omega)]
    rfl

theorem register_null {w : World β} (name : String) (offset : Nat) (type : FieldType) (num : Nat) :
    (∃ e, register name offset none type num w = .err w e) ∨ register name offset none type num w = .ub := by
  unfold register
  cases h : w.ctx with
  | none => exact .inr (by simp [getC_none h])
  | some x =>
    simp only [M.bind_apply, getC_some h, Out.bind_ok, M.check_apply]
    by_cases hn : fieldIndex x.labels name x.labels.length = -1
    · right
      rw [if_pos hn]
      simp only [Out.bind_ok]
      split_ifs <;> rfl
    · left
      rw [if_neg hn]
      exact ⟨_, rfl⟩

theorem getFieldLabel_eq {w : World β} {x : Ctx} (h : w.ctx = some x) (name : String) :
    (name ∉ x.labels.map Label.name ∧ getFieldLabel name w = .ok w none) ∨
      ∃ l ∈ x.labels, l.name = name ∧ getFieldLabel name w = .ok w (some l) := by
  unfold getFieldLabel
  simp only [M.bind_apply, getC_some h, Out.bind_ok]
  by_cases hn : fieldIndex x.labels name x.labels.length = -1
  · left
    exact ⟨fieldIndex_all.1 hn, by simp [hn]⟩
  · right
    obtain ⟨i, l, hi, hl, hname⟩ := fieldIndex_some hn
    refine ⟨l, List.mem_of_getElem? hl, hname, ?_⟩
    rw [if_pos hn, hi]
    simp [hl]

theorem GInv.start : GInv View.init (World.init : World β) :=
  ⟨fun h => by simp [World.init] at h, fun x h => by simp [World.init] at h; subst h; rfl,
    fun x h => by simp [World.init] at h; subst h; rfl, fun h => absurd rfl h,
    fun x h => by simp [World.init] at h; subst h; rfl, fun x h => by simp [World.init] at h; subst h; decide,
    by simp [View.init]⟩

/-- The invariant from its parts when the context exists. -/
theorem GInv.mk' {g : View} {w : World β} {x : Ctx} (h : w.ctx = some x) (h1 : x.state % 2 = g.writes.length)
    (h2 : x.readers = g.reads.length) (h3 : g.writes ≠ [] → g.reads = []) (h4 : x.labels = g.regs)
    (h5 : x.labels.length ≤ x.maxLabels) (h6 : (g.regs.map Label.name).Nodup) : GInv g w :=
  ⟨fun h' => by simp [h] at h', fun y hy => by rw [h] at hy; cases hy; exact h1,
    fun y hy => by rw [h] at hy; cases hy; exact h2, h3, fun y hy => by rw [h] at hy; cases hy; exact h4,
    fun y hy => by rw [h] at hy; cases hy; exact h5, h6⟩

/-- The invariant only looks at the context, the accesses and the registrations. -/
theorem GInv.congr {g g' : View} {w w' : World β} (h : GInv g w) (hc : w'.ctx = w.ctx) (h1 : g'.writes = g.writes)
    (h2 : g'.reads = g.reads) (h3 : g'.regs = g.regs) : GInv g' w' := by
  obtain ⟨a, b, c, d, e, f, i⟩ := h
  constructor <;> simp only [hc, h1, h2, h3] <;> assumption

/-- The end of destruction: free the owned data and the context. -/
def finish (owned : Option Nat) : M (World β) Unit := do
  free owned
  delC

/-- What destroying does. -/
theorem destroy_eq {w : World β} {x : Ctx} (h : w.ctx = some x) :
    destroy w = if 0 < x.refs - 1 then .ok (w.setCtx (some { x with refs := x.refs - 1 })) ()
      else if x.state % 2 = 0 then
        match x.destroyFn with
        | none => finish x.owned (w.setCtx (some { x with refs := x.refs - 1 }))
        | some m =>
          if x.readers = 0 then
            if x.data.isSome then
              if m = .host then finish x.owned (w.setCtx (some { x with refs := x.refs - 1, state := x.state + 2 }))
              else .err (w.setCtx (some { x with refs := x.refs - 1 })) .backend
            else .err (w.setCtx (some { x with refs := x.refs - 1 })) .backend
          else .err (w.setCtx (some { x with refs := x.refs - 1 })) .minor
      else .err (w.setCtx (some { x with refs := x.refs - 1 })) .minor := by
  obtain ⟨r, st, rd, sz, d, bo, ow, ls, ml, df⟩ := x
  unfold destroy
  simp only [M.bind_apply, getC_some h, Out.bind_ok, putC_apply]
  by_cases h1 : 0 < r - 1
  · rw [if_pos h1, if_pos h1]; rfl
  rw [if_neg h1, if_neg h1]
  by_cases he : st % 2 = 0
  · simp only [M.bind_apply, M.check_apply, he, if_true, Out.bind_ok]
    rw [destroyData_eq rfl he]
    dsimp only
    cases df with
    | none => rfl
    | some m =>
      dsimp only
      split_ifs <;> rfl
  · simp only [M.bind_apply, M.check_apply, he, if_false, Out.bind_err]

theorem finish_cases (p : Option Nat) (w : World β) :
    finish p w = .ub ∨ ∃ w', finish p w = .ok w' () ∧ w'.ctx = none := by
  unfold finish
  simp only [M.bind_apply, free]
  cases p with
  | none => exact .inr ⟨_, rfl, rfl⟩
  | some a =>
    cases hh : w.heap a with
    | none => exact .inl (by simp [hh])
    | some b => exact .inr ⟨(w.setBlk a none).setCtx none, by simp [hh], rfl⟩

theorem Post_mono {σ γ : Type} {o : Out σ γ} {P Q : σ → Prop} (h : o.Post P) (hq : ∀ s, P s → Q s) : o.Post Q := by
  cases o with
  | ok s a => exact hq s h
  | err s e => exact hq s h
  | ub => trivial

/-- Destroying deletes the context, with no write access outstanding, or leaves the locks and fields. -/
theorem destroy_ctx {w : World β} {x : Ctx} (h : w.ctx = some x) :
    (destroy w).Post fun w' => (x.state % 2 = 0 ∧ w'.ctx = none) ∨
      ∃ st, w'.ctx = some { x with refs := x.refs - 1, state := st } ∧ st % 2 = x.state % 2 := by
  rw [destroy_eq h]
  have hf : x.state % 2 = 0 → ∀ w1 : World β, (finish x.owned w1).Post fun w' => (x.state % 2 = 0 ∧ w'.ctx = none) ∨
      ∃ st, w'.ctx = some { x with refs := x.refs - 1, state := st } ∧ st % 2 = x.state % 2 := by
    intro he w1
    rcases finish_cases x.owned w1 with hu | ⟨w', hw, hc⟩
    · rw [hu]; trivial
    · rw [hw]; exact .inl ⟨he, hc⟩
  by_cases h1 : 0 < x.refs - 1
  · rw [if_pos h1]
    exact .inr ⟨x.state, rfl, rfl⟩
  rw [if_neg h1]
  by_cases he : x.state % 2 = 0
  · rw [if_pos he]
    split
    · exact hf he _
    · split_ifs
      · exact hf he _
      · exact .inr ⟨x.state, rfl, rfl⟩
      · exact .inr ⟨x.state, rfl, rfl⟩
      · exact .inr ⟨x.state, rfl, rfl⟩
  · rw [if_neg he]
    exact .inr ⟨x.state, rfl, rfl⟩

/-- How a call's outcome relates to the outcome of its body. -/
def Next (g : View) (c : Call β) (o : Out (World β) Ret) (P : View → World β → Prop) : Prop :=
  match o with
  | .ok w' r => P (g.after c r) w'
  | .err w' _ => P (g.failed c) w'
  | .ub => True

theorem exec_dead {w : World β} (hn : w.ctx = none) (c : Call β) :
    exec c w = .ub ∨ (∃ b, c = .malloc b) ∨ (∃ a, c = .mfree a) ∨ ∃ a i v, c = .store a i v := by
  cases c with
  | malloc b => exact .inr (.inl ⟨b, rfl⟩)
  | mfree a => exact .inr (.inr (.inl ⟨a, rfl⟩))
  | store a i v => exact .inr (.inr (.inr ⟨a, i, v, rfl⟩))
  | _ =>
    left
    simp only [exec, reference, destroy, register, getFieldLabel, setData, takeData, getData, getDataRead, restoreData,
      restoreDataRead, setField, getField, restoreField, setDataDestroy, M.bind_apply, getC_none hn, Out.bind_ub]

theorem store_cases (a i : Nat) (v : β) (w : World β) :
    store a i v w = .ub ∨ ∃ b, w.heap a = some b ∧ i < b.len ∧
      store a i v w = .ok (w.setBlk a (some ⟨b.len, fun j => if j = i then v else b.val j⟩)) () := by
  unfold store
  simp only [M.bind_apply, getB]
  cases w.heap a with
  | none => exact .inl (by simp)
  | some b =>
    simp only [Out.bind_ok]
    split_ifs with hi
    · exact .inr ⟨b, rfl, hi, rfl⟩
    · exact .inl rfl

theorem free_cases (p : Option Nat) (w : World β) :
    free p w = .ub ∨ (p = none ∧ free p w = .ok w ()) ∨
      ∃ a b, p = some a ∧ w.heap a = some b ∧ free p w = .ok (w.setBlk a none) () := by
  cases p with
  | none => exact .inr (.inl ⟨rfl, rfl⟩)
  | some a =>
    cases h : w.heap a with
    | none => exact .inl (by simp [free, h])
    | some b => exact .inr (.inr ⟨a, b, rfl, h, by simp [free, h]⟩)

theorem GInv.next {g : View} {w : World β} (h : GInv g w) (c : Call β) : Next g c (exec c w) GInv := by
  have hprog : (∃ b, c = .malloc b) ∨ (∃ a, c = .mfree a) ∨ (∃ a i v, c = .store a i v) → Next g c (exec c w) GInv := by
    rintro (⟨b, rfl⟩ | ⟨a, rfl⟩ | ⟨a, i, v, rfl⟩)
    · exact h.congr rfl rfl rfl rfl
    · rcases free_cases (some a) w with hf | ⟨hp, -⟩ | ⟨a', b, -, -, hf⟩
      · simp only [exec, M.bind_apply, hf]; trivial
      · simp at hp
      · simp only [exec, M.bind_apply, hf]
        exact h.congr rfl rfl rfl rfl
    · rcases store_cases a i v w with hf | ⟨b, -, -, hf⟩
      · simp only [exec, M.bind_apply, hf]; trivial
      · simp only [exec, M.bind_apply, hf]
        exact h.congr rfl rfl rfl rfl
  cases hc : w.ctx with
  | none =>
    rcases exec_dead hc c with hu | hu
    · rw [hu]; trivial
    · exact hprog hu
  | some x =>
    have hg := h
    obtain ⟨_, h1, h2, h3, h4, h5, h6⟩ := h
    specialize h1 x hc
    specialize h2 x hc
    specialize h4 x hc
    specialize h5 x hc
    cases c with
    | malloc b => exact hprog (.inl ⟨b, rfl⟩)
    | mfree a => exact hprog (.inr (.inl ⟨a, rfl⟩))
    | store a i v => exact hprog (.inr (.inr ⟨a, i, v, rfl⟩))
    | reference =>
      simp only [exec, reference, M.bind_apply, getC_some hc, Out.bind_ok, putC_apply, M.pure_apply, Next]
      exact GInv.mk' rfl h1 h2 h3 h4 h5 h6
    | setDataDestroy m =>
      simp only [exec, setDataDestroy, M.bind_apply, getC_some hc, Out.bind_ok, putC_apply, M.pure_apply, Next]
      exact GInv.mk' rfl h1 h2 h3 h4 h5 h6
    | destroy =>
      have hp := destroy_ctx hc
      simp only [exec, M.bind_apply]
      cases ho : destroy w with
      | ub => trivial
      | ok w' u =>
        rw [ho] at hp
        rcases hp with ⟨he, hn⟩ | ⟨st, hs, hst⟩
        · refine ⟨fun _ => ?_, fun y hy => ?_, fun y hy => ?_, h3, fun y hy => ?_, fun y hy => ?_, h6⟩
          · exact List.eq_nil_of_length_eq_zero (h1.symm.trans he)
          all_goals rw [hn] at hy; cases hy
        · exact GInv.mk' hs (hst.trans h1) h2 h3 h4 h5 h6
      | err w' u =>
        rw [ho] at hp
        rcases hp with ⟨he, hn⟩ | ⟨st, hs, hst⟩
        · refine ⟨fun _ => ?_, fun y hy => ?_, fun y hy => ?_, h3, fun y hy => ?_, fun y hy => ?_, h6⟩
          · exact List.eq_nil_of_length_eq_zero (h1.symm.trans he)
          all_goals rw [hn] at hy; cases hy
        · exact GInv.mk' hs (hst.trans h1) h2 h3 h4 h5 h6
    | register name offset descr type num =>
      cases descr with
      | none =>
        rcases register_null (w := w) name offset type num with ⟨e, he⟩ | he
        · simp only [exec, M.bind_apply, he]
          exact hg
        · simp only [exec, M.bind_apply, he]; trivial
      | some d =>
        simp only [exec, M.bind_apply, register_eq hc h5]
        by_cases hn : name ∈ x.labels.map Label.name
        · rw [if_pos hn]
          exact hg
        · rw [if_neg hn]
          refine GInv.mk' rfl h1 h2 h3 ?_ ?_ ?_
          · simp only [h4, View.after]
          · simp only [List.length_append, List.length_singleton]
            split_ifs <;> omega
          · simp only [View.after, List.map_append, List.map_cons, List.map_nil]
            rw [List.nodup_append]
            refine ⟨h6, by simp, ?_⟩
            intro a ha b hb
            simp only [List.mem_singleton] at hb
            rw [h4] at hn
            rintro rfl
            rw [hb] at ha
            exact hn ha
    | getFieldLabel name =>
      rcases getFieldLabel_eq hc name with ⟨-, he⟩ | ⟨l, -, -, he⟩
      · simp only [exec, M.bind_apply, he]
        exact hg
      · simp only [exec, M.bind_apply, he]
        exact hg
    | setData mem mode size src =>
      have hp := setData_ctx hc mem mode size src
      simp only [exec, M.bind_apply]
      cases ho : setData mem mode size src w with
      | ub => trivial
      | ok w' u =>
        rw [ho] at hp
        obtain ⟨st, sz, d, bo, ow, hs, hst, -⟩ := hp
        exact GInv.mk' hs (hst.trans h1) h2 h3 h4 h5 h6
      | err w' u =>
        rw [ho] at hp
        obtain ⟨st, sz, d, bo, ow, hs, hst, -⟩ := hp
        exact GInv.mk' hs (hst.trans h1) h2 h3 h4 h5 h6
    | setField l type values =>
      have hp := setField_ctx hc l type values
      simp only [exec, M.bind_apply]
      cases ho : setField l type values w with
      | ub => trivial
      | ok w' u =>
        rw [ho] at hp
        rcases hp with hs | hs
        · exact hg.congr (hs.trans hc.symm) rfl rfl rfl
        · exact GInv.mk' hs ((Nat.add_mod_right _ _).trans h1) h2 h3 h4 h5 h6
      | err w' u =>
        rw [ho] at hp
        rcases hp with hs | hs
        · exact hg.congr (hs.trans hc.symm) rfl rfl rfl
        · exact GInv.mk' hs ((Nat.add_mod_right _ _).trans h1) h2 h3 h4 h5 h6
    | takeData mem =>
      simp only [exec, M.bind_apply, takeData_eq hc]
      split_ifs
      · exact GInv.mk' rfl h1 h2 h3 h4 h5 h6
      all_goals exact hg
    | getData mem =>
      simp only [exec, M.bind_apply, getData_eq hc]
      split_ifs with e1 e2 e3
      · obtain ⟨p, hp⟩ := Option.isSome_iff_exists.1 e3
        simp only [hp]
        have hw : g.writes = [] := List.eq_nil_of_length_eq_zero (h1.symm.trans e1)
        refine GInv.mk' rfl ?_ h2 ?_ h4 h5 h6
        · simp only [View.after, List.length_cons, hw, List.length_nil]; omega
        · intro _
          exact List.eq_nil_of_length_eq_zero (h2.symm.trans e2)
      all_goals exact hg
    | getDataRead mem =>
      simp only [exec, M.bind_apply, getDataRead_eq hc]
      split_ifs with e1 e3
      · obtain ⟨p, hp⟩ := Option.isSome_iff_exists.1 e3
        simp only [hp]
        have hw : g.writes = [] := List.eq_nil_of_length_eq_zero (h1.symm.trans e1)
        refine GInv.mk' rfl h1 ?_ ?_ h4 h5 h6
        · simp only [View.after, List.length_cons, h2]
        · intro hne
          exact absurd hw hne
      all_goals exact hg
    | getField l type =>
      simp only [exec, getField, M.bind_apply, M.check_apply, getC_some hc, Out.bind_ok]
      split_ifs with e0
      swap
      · exact hg
      simp only [Out.bind_ok, getDataRead_eq hc]
      split_ifs with e1 e3
      · obtain ⟨p, hp⟩ := Option.isSome_iff_exists.1 e3
        simp only [hp]
        have hw : g.writes = [] := List.eq_nil_of_length_eq_zero (h1.symm.trans e1)
        refine GInv.mk' rfl h1 ?_ ?_ h4 h5 h6
        · simp only [View.after, List.length_cons, h2]
        · intro hne
          exact absurd hw hne
      all_goals exact hg
    | restoreData =>
      simp only [exec, M.bind_apply, restoreData_eq hc]
      split_ifs with e1
      · refine GInv.mk' rfl ?_ h2 ?_ h4 h5 h6
        · simp only [View.after, List.length_tail]; omega
        · intro hne
          refine h3 ?_
          rintro hw
          simp [View.after, hw] at hne
      all_goals exact hg
    | restoreDataRead =>
      simp only [exec, M.bind_apply, restoreDataRead_eq hc]
      split_ifs with e1
      · refine GInv.mk' rfl h1 ?_ ?_ h4 h5 h6
        · simp only [View.after, List.length_tail]; omega
        · intro hne
          simp [View.after, h3 hne]
      all_goals exact hg
    | restoreField l type =>
      simp only [exec, restoreField, M.bind_apply, M.check_apply, getC_some hc, Out.bind_ok]
      split_ifs with e0
      swap
      · exact hg
      simp only [Out.bind_ok, restoreDataRead_eq hc]
      split_ifs with e1
      · refine GInv.mk' rfl h1 ?_ ?_ h4 h5 h6
        · simp only [View.after, List.length_tail]; omega
        · intro hne
          simp [View.after, h3 hne]
      all_goals exact hg

theorem Reach.ginv {g : View} {w : World β} (h : Reach g w) : GInv g w := by
  induction h with
  | start => exact .start
  | @ok g w w' c r _ he ih =>
    have := ih.next c
    rw [he] at this
    exact this
  | @err g w w' c e _ he ih =>
    have := ih.next c
    rw [he] at this
    exact this

end Context
end Verif
