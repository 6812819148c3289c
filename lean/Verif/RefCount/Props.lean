import Verif.RefCount.Release

/-!
# C10: reference counting is exact
-/

namespace Verif
namespace RefCount

open Finset

/-! ## Specification -/

/-- The calls of a program, on its variables. -/
inductive Call
  | create (dst : Nat) (children : List Nat) (extra : Nat)
  | refCopy (src dst : Nat)
  | destroy (i : Nat)
  | attach (i child : Nat)
  | setField (i k child : Nat)
  | setContext (i k child : Nat)
  | getSlot (i k dst : Nat)

/-- Execution of a call. -/
def exec : Call → M World Unit
  | .create d c e => create d c e
  | .refCopy s d => refCopy s d
  | .destroy i => destroy i
  | .attach i c => attach i c
  | .setField i k c => setField i k c
  | .setContext i k c => setContext i k c
  | .getSlot i k d => getSlot i k d

/-- Object `a` holds a pointer to object `b`. -/
def Holds (w : World) (a b : Nat) : Prop := ∃ x, w.objs a = some x ∧ some b ∈ x.slots

/-- From `a` one gets to `b` along pointers held by objects. -/
inductive Leads (w : World) : Nat → Nat → Prop
  | refl (a) : Leads w a a
  | step {a b c} : Holds w a b → Leads w b c → Leads w a c

/-- The object is allocated. -/
def Alive (w : World) (o : Nat) : Prop := (w.objs o).isSome

/-- Some variable of the program points to an object that leads to `o`. -/
def Reachable (w : World) (o : Nat) : Prop := ∃ i a, i < w.nvars ∧ w.vars i = some a ∧ Leads w a o

/-- `i` is a variable that holds an object. -/
def Has (w : World) (i : Nat) : Prop := i < w.nvars ∧ ∃ o, w.vars i = some o

/-- The variable `i` holds an object whose slot `k` contains `p`. -/
def SlotIs (w : World) (i k : Nat) (p : Option Nat) : Prop := ∃ a x, w.vars i = some a ∧ w.objs a = some x ∧ x.slots[k]? = some p

/-- Correct use: the variables that are read hold objects; results are stored into variables (and fields into slots) that
hold nothing; no cycle is made. -/
def Legal (w : World) : Call → Prop
  | .create d c _ => d < w.nvars ∧ w.vars d = none ∧ ∀ i ∈ c, Has w i
  | .refCopy s d => Has w s ∧ d < w.nvars
  | .destroy i => i < w.nvars
  | .attach i c => Has w i ∧ Has w c ∧ ∀ a b, w.vars i = some a → w.vars c = some b → ¬ Leads w b a
  | .setField i k c => Has w i ∧ Has w c ∧ SlotIs w i k none ∧ ∀ a b, w.vars i = some a → w.vars c = some b → ¬ Leads w b a
  | .setContext i k c => Has w i ∧ Has w c ∧ (∃ p, SlotIs w i k p) ∧ ∀ a b, w.vars i = some a → w.vars c = some b → ¬ Leads w b a
  | .getSlot i k d => Has w i ∧ d < w.nvars ∧ w.vars d = none ∧ ∃ c, SlotIs w i k (some c)

/-- States reached by successful legal calls. -/
inductive Run (n : Nat) : World → Prop
  | init : Run n (World.init n)
  | call {w w' : World} {c : Call} : Run n w → Legal w c → exec c w = .ok w' () → Run n w'

/-! ## Invariant over histories -/

/-- The pointers held by objects form no cycle. -/
def Ranked (w : World) : Prop := ∃ r : Nat → Nat, ∀ a b, Holds w a b → r b < r a

theorem Ranked.mono {w w' : World} (h : Ranked w) (hs : ∀ a b, Holds w' a b → Holds w a b) : Ranked w' := by
  obtain ⟨r, hr⟩ := h
  exact ⟨r, fun a b hab => hr a b (hs a b hab)⟩

open Classical in
theorem Ranked.add {w w' : World} (h : Ranked w) {a b : Nat} (hs : ∀ c d, Holds w' c d → Holds w c d ∨ (c = a ∧ d = b))
    (hn : ¬ Leads w b a) : Ranked w' := by
  obtain ⟨r, hr⟩ := h
  refine ⟨fun c => if Leads w c a then r c + (r b + 1) else r c, fun c d hcd => ?_⟩
  rcases hs c d hcd with hcd | ⟨rfl, rfl⟩
  · have h1 := hr c d hcd
    by_cases hd : Leads w d a
    · have hc : Leads w c a := .step hcd hd
      simp only [hd, hc, if_true]; omega
    · simp only [hd, if_false]
      split <;> omega
  · simp only [hn, if_false, Leads.refl, if_true]
    omega

theorem Ranked.new {w w' : World} (h : Ranked w) {o : Nat} (ho : ∀ a, ¬ Holds w' a o) (ho' : ∀ a, ¬ Holds w o a) {L : List Nat}
    (hs : ∀ c d, Holds w' c d → Holds w c d ∨ (c = o ∧ d ∈ L)) : Ranked w' := by
  obtain ⟨r, hr⟩ := h
  refine ⟨fun c => if c = o then (L.map r).sum + 1 else r c, fun c d hcd => ?_⟩
  have hd : d ≠ o := fun e => ho c (e ▸ hcd)
  simp only [hd, if_false]
  rcases hs c d hcd with hcd | ⟨rfl, hL⟩
  · have hc : c ≠ o := fun e => ho' d (e ▸ hcd)
    simp only [hc, if_false]; exact hr c d hcd
  · simp only [if_true]
    have : r d ≤ (L.map r).sum := List.single_le_sum (by simp) _ (List.mem_map_of_mem hL)
    omega

/-- Invariant between calls. -/
structure Good (w : World) : Prop where
  inv : Inv w [] ∅
  ranked : Ranked w

variable {w w' : World}

theorem Frame.holds {D : Finset Nat} (h : Frame w w' D) (a b : Nat) : Holds w' a b → Holds w a b := by
  rintro ⟨x', hx', hb⟩
  obtain ⟨x, hx, _, hs, _⟩ := h.obj a x' hx'
  exact ⟨x, hx, hs b hb⟩

theorem getVar_lt {i : Nat} (h : i < w.nvars) : getVar i w = .ok w (w.vars i) := if_pos h
theorem putVar_lt {i : Nat} (h : i < w.nvars) (p : Option Nat) : putVar i p w = .ok (w.setVar i p) () := if_pos h

theorem deref_some {i o : Nat} (h : i < w.nvars) (ho : w.vars i = some o) : deref i w = .ok w o := by
  simp only [deref, M.bind_apply, getVar_lt h, Out.bind_ok, ho]
  rfl

theorem reference_some {o : Nat} {x : Obj} (hx : w.objs o = some x) :
    reference o w = .ok (w.setObj o (some { x with refs := x.refs + 1 })) () := by
  simp only [reference, M.bind_apply, getO_some hx, Out.bind_ok, putO_apply]

theorem holds_refs {o : Nat} {x : Obj} (hx : w.objs o = some x) (r : Int) (a b : Nat) :
    Holds (w.setObj o (some { x with refs := r })) a b ↔ Holds w a b := by
  unfold Holds
  simp only [setObj_objs]
  by_cases h : a = o
  · subst h
    simp [hx]
  · simp [h]

/-- Emptying a variable and releasing what it held. -/
theorem destroy_spec {P : List Nat} {i : Nat} (h : Inv w P ∅) (hi : i < w.nvars) :
    ∃ w', destroy i w = .ok w' () ∧ Inv w' P ∅ ∧ Frame (w.setVar i none) w' ∅ := by
  have h1 : Inv (w.setVar i none) ((w.vars i).toList ++ P) ∅ := by
    refine h.setVar hi (fun o => ?_)
    cases hv : w.vars i with
    | none => simp
    | some a => simp [List.count_cons, Nat.add_comm]
  obtain ⟨w', e, hi', hf⟩ := destroyPtr_spec h1
  refine ⟨w', ?_, hi', hf⟩
  simp only [destroy, M.bind_apply, getVar_lt hi, Out.bind_ok, putVar_lt hi]
  exact e

theorem destroy_good {i : Nat} (h : Good w) (hi : i < w.nvars) : ∃ w', destroy i w = .ok w' () ∧ Good w' ∧
    w'.nvars = w.nvars ∧ w'.next = w.next ∧ (∀ o, Alive w' o → Alive w o) := by
  obtain ⟨w', e, hi', hf⟩ := destroy_spec h.inv hi
  refine ⟨w', e, ⟨hi', h.ranked.mono (fun a b hab => hf.holds a b hab)⟩, hf.nvars, hf.next, ?_⟩
  intro o ho
  obtain ⟨x, hx⟩ := Option.isSome_iff_exists.1 ho
  obtain ⟨y, hy, _⟩ := hf.obj o x hx
  exact Option.isSome_iff_exists.2 ⟨y, hy⟩

theorem alive_setObj {o : Nat} {x y : Obj} (hx : w.objs o = some x) (a : Nat) : Alive (w.setObj o (some y)) a ↔ Alive w a := by
  unfold Alive
  simp only [setObj_objs]
  by_cases h : a = o
  · simp [h, hx]
  · simp [h]

theorem refCopy_good {s d : Nat} (h : Good w) (hs : Has w s) (hd : d < w.nvars) : ∃ w', refCopy s d w = .ok w' () ∧ Good w' ∧
    w'.nvars = w.nvars ∧ w'.next = w.next ∧ (∀ o, Alive w' o → Alive w o) := by
  obtain ⟨hs1, o, ho⟩ := hs
  obtain ⟨x, hx⟩ := h.inv.var s o hs1 ho
  have h1 := h.inv.take hx (by simp)
  obtain ⟨w2, e, h2, hf⟩ := destroy_spec h1 (i := d) hd
  have hd2 : d < w2.nvars := by rw [hf.nvars]; exact hd
  have hv : w2.vars d = none := by rw [hf.vars]; simp
  refine ⟨w2.setVar d (some o), ?_, ⟨?_, ?_⟩, hf.nvars, hf.next, ?_⟩
  · simp only [refCopy, M.bind_apply, deref_some hs1 ho, Out.bind_ok, reference_some hx]
    rw [e]
    simp only [Out.bind_ok]
    exact putVar_lt hd2 _
  · refine h2.setVar hd2 (fun a => ?_)
    rw [hv]
    simp [List.count_cons]
  · refine h.ranked.mono (fun a b hab => ?_)
    have h3 := hf.holds a b hab
    exact (holds_refs hx _ a b).1 h3
  · intro a ha
    obtain ⟨y, hy⟩ := Option.isSome_iff_exists.1 ha
    obtain ⟨z, hz, _⟩ := hf.obj a y hy
    exact (alive_setObj hx a).1 (Option.isSome_iff_exists.2 ⟨z, hz⟩)

/-- Only counters differ. -/
structure SameShape (w w' : World) : Prop where
  next : w'.next = w.next
  vars : w'.vars = w.vars
  nvars : w'.nvars = w.nvars
  obj : ∀ k, (w'.objs k).map Obj.slots = (w.objs k).map Obj.slots

theorem SameShape.holds (h : SameShape w w') (a b : Nat) : Holds w' a b ↔ Holds w a b := by
  have := h.obj a
  unfold Holds
  cases h1 : w.objs a <;> cases h2 : w'.objs a <;> simp_all

theorem takeAll_spec (L : List Nat) : ∀ (w : World) (P : List Nat), Inv w P ∅ → (∀ i ∈ L, Has w i) →
    ∃ w' l, takeAll L w = .ok w' (l.map some) ∧ Inv w' (l ++ P) ∅ ∧ SameShape w w' := by
  induction L with
  | nil =>
    intro w P h _
    exact ⟨w, [], rfl, h, rfl, rfl, rfl, fun _ => rfl⟩
  | cons i L ih =>
    intro w P h hL
    obtain ⟨hi, o, ho⟩ := hL i (by simp)
    obtain ⟨x, hx⟩ := h.var i o hi ho
    have h1 := h.take hx (by simp)
    obtain ⟨w', l, e, h2, hs⟩ := ih _ _ h1 (fun j hj => hL j (List.mem_cons_of_mem _ hj))
    refine ⟨w', o :: l, ?_, ?_, ?_⟩
    · simp only [takeAll, M.bind_apply, deref_some hi ho, Out.bind_ok, reference_some hx]
      rw [e]
      rfl
    · refine ⟨h2.lt, ?_, h2.var, h2.slot, ?_, h2.dying, h2.pos⟩
      · intro k y hy
        have := h2.refs k y hy
        simp only [List.count_append, List.count_cons, List.cons_append] at this ⊢
        push_cast at this ⊢
        omega
      · intro k hk
        refine h2.pend k ?_
        simp only [List.cons_append, List.mem_cons, List.mem_append] at hk ⊢
        tauto
    · refine ⟨hs.next, hs.vars, hs.nvars, fun k => ?_⟩
      rw [hs.obj k]
      simp only [setObj_objs]
      by_cases hk : k = o
      · simp [hk, hx]
      · simp [hk]

/-- A new object with the pending pointers as its slots. -/
theorem Inv.newObj {P : List Nat} (h : Inv w P ∅) {l : List (Option Nat)} (hl : ∀ o, l.count (some o) = P.count o) :
    Inv { w.setObj w.next (some ⟨1, l⟩) with next := w.next + 1 } [w.next] ∅ := by
  have hfresh : w.objs w.next = none := by
    cases hx : w.objs w.next with
    | none => rfl
    | some x => exact absurd (h.lt _ _ hx) (by omega)
  have hv : varCnt w w.next = 0 := by
    by_contra hne
    obtain ⟨i, hi, hv⟩ := varCnt_pos.1 (by omega : 0 < varCnt w w.next)
    obtain ⟨x, hx⟩ := h.var i _ hi hv
    rw [hfresh] at hx; simp at hx
  have hh : heldCnt w w.next = 0 := by
    by_contra hne
    obtain ⟨k, x, _, hx, hv⟩ := heldCnt_pos.1 (by omega : 0 < heldCnt w w.next)
    obtain ⟨x, hx⟩ := h.slot k x _ hx hv
    rw [hfresh] at hx; simp at hx
  have hp : P.count w.next = 0 := by
    by_contra hne
    obtain ⟨x, hx⟩ := h.pend w.next (List.count_pos_iff.1 (by omega))
    rw [hfresh] at hx; simp at hx
  have hheld : ∀ o, heldCnt { w.setObj w.next (some ⟨1, l⟩) with next := w.next + 1 } o = heldCnt w o + P.count o := by
    intro o
    show ∑ k ∈ range (w.next + 1), slotCnt (if k = w.next then some ⟨1, l⟩ else w.objs k) o = _
    rw [Finset.sum_range_succ]
    simp only [if_true, slotCnt, hl]
    congr 1
    refine Finset.sum_congr rfl (fun k hk => ?_)
    have : k ≠ w.next := by have := mem_range.1 hk; omega
    simp [this, slotCnt]
  have hex : ∀ {o : Nat}, (∃ y, w.objs o = some y) → ∃ y, (if o = w.next then some ⟨1, l⟩ else w.objs o) = some y := by
    intro o ho
    split
    · exact ⟨_, rfl⟩
    · exact ho
  refine ⟨?_, ?_, fun i o hi ho => hex (h.var i o hi ho), ?_, ?_, fun o ho => absurd ho (by simp), ?_⟩
  · intro o x hx
    simp only [setObj_objs] at hx
    split at hx
    · dsimp only; omega
    · have := h.lt o x hx
      dsimp only; omega
  · intro o x hx
    rw [hheld]
    show x.refs = (varCnt w o : Int) + _ + _
    simp only [setObj_objs] at hx
    split at hx
    · rename_i e; subst e
      simp only [Option.some.injEq] at hx; subst hx
      simp [hv, hh, hp]
    · rename_i e
      have := h.refs o x hx
      have hz : [w.next].count o = 0 := List.count_eq_zero_of_not_mem (by simpa using e)
      rw [hz]
      push_cast
      omega
  · intro k x o hx ho
    refine hex ?_
    simp only [setObj_objs] at hx
    split at hx
    · simp only [Option.some.injEq] at hx; subst hx
      refine h.pend o ?_
      rw [← List.count_pos_iff, ← hl]
      exact List.count_pos_iff.2 ho
    · exact h.slot k x o hx ho
  · intro o ho
    rw [List.mem_singleton] at ho
    subst ho
    exact ⟨⟨1, l⟩, by simp⟩
  · intro o x hx _
    simp only [setObj_objs] at hx
    split at hx
    · simp only [Option.some.injEq] at hx; subst hx
      simp
    · exact h.pos o x hx (by simp)

theorem create_good {d e : Nat} {L : List Nat} (h : Good w) (hd : d < w.nvars) (hv : w.vars d = none) (hL : ∀ i ∈ L, Has w i) :
    ∃ w', create d L e w = .ok w' () ∧ Good w' ∧ w'.nvars = w.nvars ∧ w.next ≤ w'.next ∧
      (∀ o, o < w.next → Alive w' o → Alive w o) := by
  obtain ⟨w1, l, e1, h1, hs⟩ := takeAll_spec L w [] h.inv hL
  rw [List.append_nil] at h1
  have hcount : ∀ o, (l.map some ++ List.replicate e none).count (some o) = l.count o := by
    intro o
    rw [List.count_append, List.count_eq_zero_of_not_mem (l := List.replicate e none)]
    · simp only [Nat.add_zero]
      exact List.count_map_of_injective _ _ (Option.some_injective _) _
    · intro hm
      have := List.eq_of_mem_replicate hm
      simp at this
  have h2 := h1.newObj hcount
  have hfresh : w.objs w.next = none := by
    cases hx : w.objs w.next with
    | none => rfl
    | some x => exact absurd (h.inv.lt _ _ hx) (by omega)
  refine ⟨({ w1.setObj w1.next (some ⟨1, l.map some ++ List.replicate e none⟩) with next := w1.next + 1 } : World).setVar d (some w1.next),
    ?_, ⟨?_, ?_⟩, hs.nvars, ?_, ?_⟩
  · simp only [create, M.bind_apply, e1, Out.bind_ok, newObj]
    exact putVar_lt (by dsimp only [World.setObj]; rw [hs.nvars]; exact hd) _
  · refine h2.setVar (by dsimp only [World.setObj]; rw [hs.nvars]; exact hd) (fun a => ?_)
    show _ = (if w1.vars d = some a then 1 else 0) + _
    rw [hs.vars, hv]
    simp [List.count_cons]
  · refine h.ranked.new (o := w.next) (L := l) ?_ ?_ ?_
    · rintro a ⟨x, hx, hm⟩
      simp only [setVar_objs, setObj_objs, hs.next] at hx
      have hold : ∀ (y : Obj) (k : Nat), w1.objs k = some y → some w.next ∈ y.slots → False := by
        intro y k hy hm
        obtain ⟨z, hz, hzm⟩ := (hs.holds k w.next).1 ⟨y, hy, hm⟩
        obtain ⟨q, hq⟩ := h.inv.slot k z _ hz hzm
        rw [hfresh] at hq; simp at hq
      split at hx
      · simp only [Option.some.injEq] at hx; subst hx
        have h3 : w.next ∈ l := by
          rw [← List.count_pos_iff, ← hcount]
          exact List.count_pos_iff.2 hm
        obtain ⟨q, hq⟩ := h1.pend _ h3
        have := h1.lt _ _ hq
        rw [hs.next] at this
        omega
      · exact hold x a hx hm
    · rintro a ⟨x, hx, _⟩
      rw [hfresh] at hx; simp at hx
    · rintro a b ⟨x, hx, hm⟩
      simp only [setVar_objs, setObj_objs, hs.next] at hx
      split at hx
      · simp only [Option.some.injEq] at hx; subst hx
        right
        refine ⟨by assumption, ?_⟩
        rw [← List.count_pos_iff, ← hcount]
        exact List.count_pos_iff.2 hm
      · left
        exact (hs.holds a b).1 ⟨x, hx, hm⟩
  · dsimp only [World.setVar]; rw [hs.next]; omega
  · intro o ho ha
    unfold Alive at ha ⊢
    simp only [setVar_objs, setObj_objs, hs.next] at ha
    rw [if_neg (by omega)] at ha
    have := hs.obj o
    rw [← Option.isSome_map (f := Obj.slots), ← this, Option.isSome_map]
    exact ha

/-- An object takes a pending pointer into its slots. -/
theorem store_good (hr : Ranked w) {a c : Nat} {x : Obj} (h : Inv w [c] ∅) (hx : w.objs a = some x)
    {l : List (Option Nat)} (hc : ∀ o, l.count (some o) = x.slots.count (some o) + [c].count o) (hn : ¬ Leads w c a) :
    Good (w.setObj a (some { x with slots := l })) := by
  refine ⟨h.slots hx (by simpa using hc), hr.add (a := a) (b := c) ?_ hn⟩
  rintro p q ⟨y, hy, hm⟩
  simp only [setObj_objs] at hy
  split at hy
  · rename_i e; subst e
    simp only [Option.some.injEq] at hy; subst hy
    by_cases hq : q = c
    · right; exact ⟨rfl, hq⟩
    · left
      refine ⟨x, hx, ?_⟩
      have h1 := hc q
      have h2 := List.count_pos_iff.2 hm
      rw [List.count_eq_zero_of_not_mem (l := [c]) (by simpa using hq)] at h1
      exact List.count_pos_iff.1 (by dsimp only at h2; omega)
  · left; exact ⟨y, hy, hm⟩

theorem leads_congr (h : ∀ a b, Holds w' a b → Holds w a b) {a b : Nat} (hl : Leads w' a b) : Leads w a b := by
  induction hl with
  | refl => exact .refl _
  | step h1 _ ih => exact .step (h _ _ h1) ih

/-- Taking a reference to the object of a variable and storing it. -/
theorem refStore {i c : Nat} (h : Good w) (hi : Has w i) (hc : Has w c)
    (hn : ∀ a b, w.vars i = some a → w.vars c = some b → ¬ Leads w b a) :
    ∃ a b x y, w.vars i = some a ∧ w.vars c = some b ∧ w.objs a = some x ∧ w.objs b = some y ∧ a ≠ b ∧
      Inv (w.setObj b (some { y with refs := y.refs + 1 })) [b] ∅ ∧ Ranked (w.setObj b (some { y with refs := y.refs + 1 })) ∧
      ¬ Leads (w.setObj b (some { y with refs := y.refs + 1 })) b a := by
  obtain ⟨hi1, a, ha⟩ := hi
  obtain ⟨hc1, b, hb⟩ := hc
  obtain ⟨x, hx⟩ := h.inv.var i a hi1 ha
  obtain ⟨y, hy⟩ := h.inv.var c b hc1 hb
  have hl := hn a b ha hb
  refine ⟨a, b, x, y, ha, hb, hx, hy, ?_, h.inv.take hy (by simp), ?_, ?_⟩
  · rintro rfl
    exact hl (.refl _)
  · exact h.ranked.mono (fun p q hpq => (holds_refs hy _ p q).1 hpq)
  · intro hh
    exact hl (leads_congr (fun p q hpq => (holds_refs hy _ p q).1 hpq) hh)

theorem attach_good {i c : Nat} (h : Good w) (hi : Has w i) (hc : Has w c)
    (hn : ∀ a b, w.vars i = some a → w.vars c = some b → ¬ Leads w b a) :
    ∃ w', attach i c w = .ok w' () ∧ Good w' ∧ w'.nvars = w.nvars ∧ w'.next = w.next ∧ (∀ o, Alive w' o → Alive w o) := by
  obtain ⟨a, b, x, y, ha, hb, hx, hy, hab, h1, hr, hl⟩ := refStore h hi hc hn
  have hx1 : (w.setObj b (some { y with refs := y.refs + 1 })).objs a = some x := by simp [hab, hx]
  refine ⟨_, ?_, store_good hr h1 hx1 (l := x.slots ++ [some b]) ?_ hl, rfl, rfl, ?_⟩
  · simp only [attach, M.bind_apply, deref_some hi.1 ha, deref_some hc.1 hb, Out.bind_ok, reference_some hy, getO_some hx1]
    rfl
  · intro o
    rw [List.count_append]
    simp [List.count_cons]
  · intro o ho
    exact (alive_setObj hy o).1 ((alive_setObj hx1 o).1 ho)

theorem setField_good {i k c : Nat} (h : Good w) (hi : Has w i) (hc : Has w c) (hs : SlotIs w i k none)
    (hn : ∀ a b, w.vars i = some a → w.vars c = some b → ¬ Leads w b a) :
    ∃ w', setField i k c w = .ok w' () ∧ Good w' ∧ w'.nvars = w.nvars ∧ w'.next = w.next ∧ (∀ o, Alive w' o → Alive w o) := by
  obtain ⟨a, b, x, y, ha, hb, hx, hy, hab, h1, hr, hl⟩ := refStore h hi hc hn
  obtain ⟨a', x', ha', hx', hk⟩ := hs
  obtain rfl : a' = a := by rw [ha] at ha'; simpa using ha'.symm
  obtain rfl : x' = x := by rw [hx] at hx'; simpa using hx'.symm
  have hx1 : (w.setObj b (some { y with refs := y.refs + 1 })).objs a' = some x' := by simp [hab, hx]
  have hlt : k < x'.slots.length := by
    by_contra hge
    rw [List.getElem?_eq_none (by omega)] at hk
    simp at hk
  refine ⟨_, ?_, store_good hr h1 hx1 (l := x'.slots.set k (some b)) ?_ hl, rfl, rfl, ?_⟩
  · simp only [setField, M.bind_apply, deref_some hi.1 ha, deref_some hc.1 hb, Out.bind_ok, reference_some hy, getO_some hx1]
    rw [if_pos hlt]
    rfl
  · intro o
    have := count_set (b := some b) hk (some o)
    simp only [reduceCtorEq, if_false, Nat.add_zero, Option.some.injEq] at this
    rw [this]
    simp [List.count_cons]
  · intro o ho
    exact (alive_setObj hy o).1 ((alive_setObj hx1 o).1 ho)

theorem setObj_comm {a b : Nat} (hab : a ≠ b) (x y : Option Obj) : (w.setObj a x).setObj b y = (w.setObj b y).setObj a x := by
  unfold World.setObj
  congr 1
  funext k
  by_cases h1 : k = a <;> by_cases h2 : k = b <;> simp [h1, h2]
  · exact absurd (h1.symm.trans h2) hab
  · intro h; exact absurd h hab
  · intro h; exact absurd h.symm hab

theorem setContext_good {i k c : Nat} (h : Good w) (hi : Has w i) (hc : Has w c) (hs : ∃ p, SlotIs w i k p)
    (hn : ∀ a b, w.vars i = some a → w.vars c = some b → ¬ Leads w b a) :
    ∃ w', setContext i k c w = .ok w' () ∧ Good w' ∧ w'.nvars = w.nvars ∧ w'.next = w.next ∧ (∀ o, Alive w' o → Alive w o) := by
  obtain ⟨hi1, a, ha⟩ := hi
  obtain ⟨hc1, b, hb⟩ := hc
  obtain ⟨p, a', x, ha', hx, hk⟩ := hs
  obtain rfl : a' = a := by rw [ha] at ha'; simpa using ha'.symm
  have hlt : k < x.slots.length := by
    by_contra hge
    rw [List.getElem?_eq_none (by omega)] at hk
    simp at hk
  have hdrop : ∃ w2, dropSlot (fun o => destroyPtr (some o)) a' k w = .ok w2 () ∧ Inv w2 [] ∅ ∧
      w2.vars = w.vars ∧ w2.nvars = w.nvars ∧ w2.next = w.next ∧ (∀ p q, Holds w2 p q → Holds w p q) ∧
      (∃ r l, w2.objs a' = some ⟨r, l⟩ ∧ l[k]? = some none) ∧ (∀ o, Alive w2 o → Alive w o) := by
    unfold dropSlot
    simp only [M.bind_apply, getO_some hx, Out.bind_ok, hk, Option.join_some]
    cases p with
    | none => exact ⟨w, rfl, h.inv, rfl, rfl, rfl, fun _ _ h => h, ⟨x.refs, x.slots, hx, hk⟩, fun _ h => h⟩
    | some d =>
      have h1 : Inv (w.setObj a' (some { x with slots := x.slots.set k none })) ((some d).toList ++ []) ∅ := by
        refine h.inv.slots hx (fun o => ?_)
        have := count_set (b := none) hk (some o)
        simp only [reduceCtorEq, if_false, Nat.add_zero, Option.some.injEq] at this
        simp only [Option.toList_some, List.append_nil, List.count_cons, List.count_nil, beq_iff_eq]
        omega
      obtain ⟨w2, e, h2, hf⟩ := destroyPtr_spec h1
      simp only [M.bind_apply, putO_apply, Out.bind_ok]
      refine ⟨w2, e, h2, hf.vars, hf.nvars, hf.next, ?_, ?_, ?_⟩
      · intro p q hpq
        obtain ⟨z, hz, hm⟩ := hf.holds p q hpq
        simp only [setObj_objs] at hz
        split at hz
        · rename_i e; subst e
          simp only [Option.some.injEq] at hz; subst hz
          rcases mem_set_of hm with hm | hm
          · exact ⟨x, hx, hm⟩
          · simp at hm
        · exact ⟨z, hz, hm⟩
      · obtain ⟨z, hz⟩ := h2.var i a' (by rw [hf.nvars]; exact hi1) (by rw [hf.vars]; exact ha)
        obtain ⟨z', hz', _, _, heq⟩ := hf.obj a' z hz
        simp only [setObj_objs, if_true, Option.some.injEq] at hz'; subst hz'
        have := heq (h2.pos a' z hz (by simp))
        refine ⟨z.refs, z.slots, hz, ?_⟩
        rw [this, List.getElem?_set]
        simp [hlt]
      · intro o ho
        obtain ⟨y, hy⟩ := Option.isSome_iff_exists.1 ho
        obtain ⟨z, hz, _⟩ := hf.obj o y hy
        exact (alive_setObj hx o).1 (Option.isSome_iff_exists.2 ⟨z, hz⟩)
  obtain ⟨w2, e, h2, hvars, hnv, hnx, hholds, ⟨r, l, ha2, hlk⟩, halive⟩ := hdrop
  have hg2 : Good w2 := ⟨h2, h.ranked.mono hholds⟩
  have hn2 : ∀ a b, w2.vars i = some a → w2.vars c = some b → ¬ Leads w2 b a := by
    intro a b ha hb hl
    rw [hvars] at ha hb
    exact hn a b ha hb (leads_congr hholds hl)
  obtain ⟨a, b2, x2, y, ha3, hb3, hx3, hy, hab, h3, hr, hl⟩ := refStore hg2 ⟨by rw [hnv]; exact hi1, a', by rw [hvars]; exact ha⟩
    ⟨by rw [hnv]; exact hc1, b, by rw [hvars]; exact hb⟩ hn2
  obtain rfl : a = a' := by rw [hvars, ha] at ha3; simpa using ha3.symm
  obtain rfl : b2 = b := by rw [hvars, hb] at hb3; simpa using hb3.symm
  obtain rfl : x2 = ⟨r, l⟩ := by rw [ha2] at hx3; simpa using hx3.symm
  have hx4 : (w2.setObj b2 (some { y with refs := y.refs + 1 })).objs a = some ⟨r, l⟩ := by simp [hab, ha2]
  have hy4 : (w2.setObj a (some ⟨r, l.set k (some b2)⟩)).objs b2 = some y := by simp [Ne.symm hab, hy]
  refine ⟨_, ?_, store_good hr h3 hx4 (l := l.set k (some b2)) ?_ hl, hnv, hnx, ?_⟩
  · simp only [setContext, M.bind_apply, deref_some hi1 ha, deref_some hc1 hb, Out.bind_ok, getO_some hx]
    rw [if_pos hlt]
    simp only [M.bind_apply]
    rw [e]
    simp only [Out.bind_ok, getO_some ha2, putO_apply, reference_some hy4]
    rw [setObj_comm hab]
  · intro o
    have := count_set (b := some b2) hlk (some o)
    simp only [reduceCtorEq, if_false, Nat.add_zero, Option.some.injEq] at this
    rw [this]
    simp [List.count_cons]
  · intro o ho
    exact halive o ((alive_setObj hy o).1 ((alive_setObj hx4 o).1 ho))

theorem getSlot_good {i k d : Nat} (h : Good w) (hi : Has w i) (hd : d < w.nvars) (hv : w.vars d = none) (hs : ∃ c, SlotIs w i k (some c)) :
    ∃ w', getSlot i k d w = .ok w' () ∧ Good w' ∧ w'.nvars = w.nvars ∧ w'.next = w.next ∧ (∀ o, Alive w' o → Alive w o) := by
  obtain ⟨c, a, x, ha, hx, hk⟩ := hs
  obtain ⟨y, hy⟩ := h.inv.slot a x c hx (List.mem_of_getElem? hk)
  have h1 := h.inv.take hy (by simp)
  have hself : w.setVar d none = w := by
    unfold World.setVar
    congr 1
    funext j
    split
    · rename_i e; rw [e, hv]
    · rfl
  refine ⟨_, ?_, ⟨h1.setVar (i := d) (p := some c) hd ?_, ?_⟩, rfl, rfl, ?_⟩
  · simp only [getSlot, M.bind_apply, deref_some hi.1 ha, Out.bind_ok, getO_some hx, putVar_lt hd, hk, Option.join_some, hself,
      reference_some hy]
    exact putVar_lt (by exact hd) _
  · intro o
    simp [hv, List.count_cons]
  · exact h.ranked.mono (fun p q hpq => (holds_refs hy _ p q).1 hpq)
  · intro o ho
    exact (alive_setObj hy o).1 ho

/-- Every legal call succeeds and keeps the invariant. -/
theorem exec_good {c : Call} (h : Good w) (hc : Legal w c) : ∃ w', exec c w = .ok w' () ∧ Good w' ∧ w'.nvars = w.nvars ∧
    w.next ≤ w'.next ∧ (∀ o, o < w.next → Alive w' o → Alive w o) := by
  have key : (∃ w', exec c w = .ok w' () ∧ Good w' ∧ w'.nvars = w.nvars ∧ w'.next = w.next ∧ (∀ o, Alive w' o → Alive w o)) →
      ∃ w', exec c w = .ok w' () ∧ Good w' ∧ w'.nvars = w.nvars ∧ w.next ≤ w'.next ∧ (∀ o, o < w.next → Alive w' o → Alive w o) := by
    rintro ⟨w', h1, h2, h3, h4, h5⟩
    exact ⟨w', h1, h2, h3, h4.ge, fun o _ => h5 o⟩
  cases c with
  | create d L e => exact create_good h hc.1 hc.2.1 hc.2.2
  | refCopy s d => exact key (refCopy_good h hc.1 hc.2)
  | destroy i => exact key (destroy_good h hc)
  | attach i c => exact key (attach_good h hc.1 hc.2.1 hc.2.2)
  | setField i k c => exact key (setField_good h hc.1 hc.2.1 hc.2.2.1 hc.2.2.2)
  | setContext i k c => exact key (setContext_good h hc.1 hc.2.1 hc.2.2.1 hc.2.2.2)
  | getSlot i k d => exact key (getSlot_good h hc.1 hc.2.1 hc.2.2.1 hc.2.2.2)

theorem good_init (n : Nat) : Good (World.init n) := by
  refine ⟨⟨?_, ?_, ?_, ?_, ?_, ?_, ?_⟩, ⟨fun _ => 0, ?_⟩⟩ <;> simp [World.init, Holds]

theorem run_good {n : Nat} (h : Run n w) : Good w := by
  induction h with
  | init => exact good_init n
  | call _ hc he ih =>
    obtain ⟨w', h1, h2, _⟩ := exec_good ih hc
    rw [he] at h1
    simp only [Out.ok.injEq, and_true] at h1
    rw [h1]; exact h2

/-! ## The property -/

/-- C10: no legal call touches an object that was destroyed (or fails, or frees twice, or runs forever): the model makes
each of these undefined. -/
theorem C10_defined {n : Nat} {c : Call} (h : Run n w) (hc : Legal w c) : ∃ w', exec c w = .ok w' () := by
  obtain ⟨w', h1, _⟩ := exec_good (run_good h) hc
  exact ⟨w', h1⟩

theorem Leads.snoc {a b c : Nat} (h : Leads w a b) (hc : Holds w b c) : Leads w a c := by
  induction h with
  | refl => exact .step hc (.refl _)
  | step h1 _ ih => exact .step h1 (ih hc)

/-- C10: at every moment exactly those objects exist that the program can get to from its variables. -/
theorem C10_alive_iff {n : Nat} (h : Run n w) (o : Nat) : Alive w o ↔ Reachable w o := by
  obtain ⟨hi, r, hr⟩ := run_good h
  constructor
  · have hb : ∀ o x, w.objs o = some x → r o ≤ ∑ k ∈ range w.next, r k := fun o x hx =>
      Finset.single_le_sum (f := r) (fun _ _ => Nat.zero_le _) (mem_range.2 (hi.lt o x hx))
    suffices H : ∀ (m o : Nat) (x : Obj), w.objs o = some x → (∑ k ∈ range w.next, r k) - r o ≤ m → Reachable w o by
      intro ha
      obtain ⟨x, hx⟩ := Option.isSome_iff_exists.1 ha
      exact H _ o x hx (le_refl _)
    intro m
    induction m with
    | zero =>
      intro o x hx hm
      have hp := hi.pos o x hx (by simp)
      have hrefs := hi.refs o x hx
      simp only [List.count_nil, Nat.cast_zero, add_zero] at hrefs
      by_cases hv : 0 < varCnt w o
      · obtain ⟨i, hi, hv⟩ := varCnt_pos.1 hv
        exact ⟨i, o, hi, hv, .refl _⟩
      · obtain ⟨k, y, _, hy, hs⟩ := heldCnt_pos.1 (by omega : 0 < heldCnt w o)
        have h1 := hr k o ⟨y, hy, hs⟩
        have h2 := hb k y hy
        omega
    | succ m ih =>
      intro o x hx hm
      have hp := hi.pos o x hx (by simp)
      have hrefs := hi.refs o x hx
      simp only [List.count_nil, Nat.cast_zero, add_zero] at hrefs
      by_cases hv : 0 < varCnt w o
      · obtain ⟨i, hi, hv⟩ := varCnt_pos.1 hv
        exact ⟨i, o, hi, hv, .refl _⟩
      · obtain ⟨k, y, _, hy, hs⟩ := heldCnt_pos.1 (by omega : 0 < heldCnt w o)
        have h1 := hr k o ⟨y, hy, hs⟩
        have h2 := hb k y hy
        obtain ⟨i, a, h3, h4, h5⟩ := ih k y hy (by omega)
        exact ⟨i, a, h3, h4, h5.snoc ⟨y, hy, hs⟩⟩
  · rintro ⟨i, a, h1, h2, h3⟩
    have ha : Alive w a := by
      obtain ⟨x, hx⟩ := hi.var i a h1 h2
      exact Option.isSome_iff_exists.2 ⟨x, hx⟩
    clear h2
    induction h3 with
    | refl => exact ha
    | step h4 _ ih =>
      obtain ⟨x, hx, hm⟩ := h4
      obtain ⟨y, hy⟩ := hi.slot _ x _ hx hm
      exact ih (Option.isSome_iff_exists.2 ⟨y, hy⟩)

/-- C10: the counter of an object is the number of variables and objects' slots that point to it. -/
theorem C10_count {n : Nat} (h : Run n w) {o : Nat} {x : Obj} (hx : w.objs o = some x) :
    x.refs = (∑ i ∈ range w.nvars, if w.vars i = some o then 1 else 0) +
      ∑ k ∈ range w.next, (((w.objs k).map Obj.slots).getD []).count (some o) := by
  have := (run_good h).inv.refs o x hx
  simp only [List.count_nil, Nat.cast_zero, add_zero] at this
  rw [this]
  unfold varCnt heldCnt
  push_cast
  congr 1
  refine Finset.sum_congr rfl (fun k _ => ?_)
  cases w.objs k <;> simp [slotCnt]

/-- C10: an object that was destroyed never exists again. -/
theorem C10_once {n : Nat} {c : Call} (h : Run n w) (hc : Legal w c) (he : exec c w = .ok w' ()) {o : Nat} (ho : o < w.next)
    (hd : ¬ Alive w o) : ¬ Alive w' o ∧ o < w'.next := by
  obtain ⟨w1, h1, _, _, h2, h3⟩ := exec_good (run_good h) hc
  rw [he] at h1
  simp only [Out.ok.injEq, and_true] at h1
  subst h1
  exact ⟨fun ha => hd (h3 o ho ha), by omega⟩

/-- C10: when all variables are `NULL` nothing is left. -/
theorem C10_no_leak {n : Nat} (h : Run n w) (hv : ∀ i, i < w.nvars → w.vars i = none) (o : Nat) : ¬ Alive w o := by
  rw [C10_alive_iff h]
  rintro ⟨i, a, h1, h2, _⟩
  rw [hv i h1] at h2
  simp at h2

/-! ## A case, and what goes wrong otherwise -/

/-- A `Ceed` (variable 0), a vector made from it (variable 1), a second variable for the vector, the first one destroyed:
legal, and both objects exist. -/
example : ∃ w, Run 3 w ∧ Alive w 0 ∧ Alive w 1 ∧ w.vars 1 = none ∧ Legal w (.destroy 2) ∧ Legal w (.refCopy 2 2) := by
  refine ⟨_, (((Run.init.call (c := .create 0 [] 0) ?_ rfl).call (c := .create 1 [0] 0) ?_ rfl).call (c := .refCopy 1 2) ?_ rfl).call
    (c := .destroy 1) ?_ rfl, ?_, ?_, ?_, ?_, ?_⟩ <;> simp [Legal, Has, Alive, World.init, World.setVar, World.setObj]

/-- Results of calls without regard to `Legal`. -/
def execs : List Call → World → Out World Unit
  | [], w => .ok w ()
  | c :: l, w => (exec c w).bind (fun w _ => execs l w)

/-- C10 fails: `CeedCompositeOperatorAddSub` accepts an operator as its own sub-operator, which then is never destroyed. -/
theorem C10_cycle_witness : ∃ w, execs [.create 0 [] 0, .attach 0 0, .destroy 0] (World.init 1) = .ok w () ∧
    Alive w 0 ∧ ¬ Reachable w 0 :=
  ⟨_, rfl, rfl, by
    rintro ⟨i, a, h1, h2, _⟩
    have : i = 0 := by
      have : i < 1 := h1
      omega
    subst this
    simp [World.setVar, World.setObj] at h2⟩

/-- C10 fails: setting a field of an operator again loses the reference to the object set first. -/
theorem C10_field_twice_witness : ∃ w, execs [.create 0 [] 1, .create 1 [] 0, .setField 0 0 1, .setField 0 0 1, .destroy 0, .destroy 1]
    (World.init 2) = .ok w () ∧ Alive w 1 ∧ ¬ Reachable w 1 :=
  ⟨_, rfl, rfl, by
    rintro ⟨i, a, h1, h2, _⟩
    have : i < 2 := h1
    obtain rfl | rfl : i = 0 ∨ i = 1 := by omega
    · simp [World.setVar, World.setObj] at h2
    · simp [World.setVar, World.setObj] at h2⟩

end RefCount
end Verif
