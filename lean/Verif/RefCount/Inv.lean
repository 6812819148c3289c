import Verif.RefCount.Model
import Mathlib.Algebra.Order.BigOperators.Group.Finset

/-!
# Invariant of the reference counts
-/

namespace Verif
namespace RefCount

open Finset

/-- Number of pointers to `o` held by an object. -/
def slotCnt (x : Option Obj) (o : Nat) : Nat :=
  match x with
  | some x => x.slots.count (some o)
  | none => 0

/-- Number of variables that point to `o`. -/
def varCnt (w : World) (o : Nat) : Nat := ∑ i ∈ range w.nvars, if w.vars i = some o then 1 else 0

/-- Number of slots that point to `o`. -/
def heldCnt (w : World) (o : Nat) : Nat := ∑ k ∈ range w.next, slotCnt (w.objs k) o

/-- Counters agree with the number of pointers, where `P` are pointers about to be released and `D` are objects whose
destruction has begun. -/
structure Inv (w : World) (P : List Nat) (D : Finset Nat) : Prop where
  lt : ∀ o x, w.objs o = some x → o < w.next
  refs : ∀ o x, w.objs o = some x → x.refs = varCnt w o + heldCnt w o + P.count o
  var : ∀ i o, i < w.nvars → w.vars i = some o → ∃ x, w.objs o = some x
  slot : ∀ k x o, w.objs k = some x → some o ∈ x.slots → ∃ y, w.objs o = some y
  pend : ∀ o, o ∈ P → ∃ x, w.objs o = some x
  dying : ∀ o, o ∈ D → ∃ x, w.objs o = some x ∧ x.refs = 0
  pos : ∀ o x, w.objs o = some x → o ∉ D → 0 < x.refs

variable {w w' : World} {P : List Nat} {D : Finset Nat}

@[simp] theorem setObj_objs (w : World) (o k : Nat) (x : Option Obj) :
    (w.setObj o x).objs k = if k = o then x else w.objs k := rfl
@[simp] theorem setObj_next (w : World) (o : Nat) (x : Option Obj) : (w.setObj o x).next = w.next := rfl
@[simp] theorem setObj_vars (w : World) (o : Nat) (x : Option Obj) : (w.setObj o x).vars = w.vars := rfl
@[simp] theorem setObj_nvars (w : World) (o : Nat) (x : Option Obj) : (w.setObj o x).nvars = w.nvars := rfl
@[simp] theorem setVar_objs (w : World) (i : Nat) (x : Option Nat) : (w.setVar i x).objs = w.objs := rfl
@[simp] theorem setVar_next (w : World) (i : Nat) (x : Option Nat) : (w.setVar i x).next = w.next := rfl
@[simp] theorem setVar_vars (w : World) (i k : Nat) (x : Option Nat) :
    (w.setVar i x).vars k = if k = i then x else w.vars k := rfl
@[simp] theorem setVar_nvars (w : World) (i : Nat) (x : Option Nat) : (w.setVar i x).nvars = w.nvars := rfl

theorem varCnt_setObj (w : World) (k o : Nat) (x : Option Obj) : varCnt (w.setObj k x) o = varCnt w o := rfl
theorem heldCnt_setVar (w : World) (k o : Nat) (x : Option Nat) : heldCnt (w.setVar k x) o = heldCnt w o := rfl

theorem sum_upd {n k : Nat} (hk : k < n) (f : Nat → Nat) (a : Nat) :
    (∑ i ∈ range n, if i = k then a else f i) + f k = (∑ i ∈ range n, f i) + a := by
  have h1 := Finset.add_sum_erase (range n) f (mem_range.2 hk)
  have h2 := Finset.add_sum_erase (range n) (fun i => if i = k then a else f i) (mem_range.2 hk)
  have h3 : ∑ i ∈ (range n).erase k, (if i = k then a else f i) = ∑ i ∈ (range n).erase k, f i :=
    Finset.sum_congr rfl (fun i hi => if_neg (Finset.ne_of_mem_erase hi))
  rw [h3] at h2
  simp only [if_true] at h2
  omega

theorem heldCnt_setObj {k : Nat} (hk : k < w.next) (o : Nat) (x : Option Obj) :
    heldCnt (w.setObj k x) o + slotCnt (w.objs k) o = heldCnt w o + slotCnt x o := by
  unfold heldCnt
  rw [← sum_upd hk (fun i => slotCnt (w.objs i) o) (slotCnt x o)]
  congr 1
  refine Finset.sum_congr rfl (fun i _ => ?_)
  simp only [setObj_objs]
  split <;> rfl

theorem varCnt_setVar {i : Nat} (hi : i < w.nvars) (o : Nat) (x : Option Nat) :
    varCnt (w.setVar i x) o + (if w.vars i = some o then 1 else 0) = varCnt w o + (if x = some o then 1 else 0) := by
  unfold varCnt
  rw [← sum_upd hi (fun i => if w.vars i = some o then 1 else 0) (if x = some o then 1 else 0)]
  congr 1
  refine Finset.sum_congr rfl (fun j _ => ?_)
  simp only [setVar_vars]
  by_cases h : j = i <;> simp [h]

theorem slotCnt_pos {x : Obj} {o : Nat} : 0 < slotCnt (some x) o ↔ some o ∈ x.slots := by
  simp [slotCnt, List.count_pos_iff]

theorem heldCnt_pos {o : Nat} : 0 < heldCnt w o ↔ ∃ k x, k < w.next ∧ w.objs k = some x ∧ some o ∈ x.slots := by
  unfold heldCnt
  constructor
  · intro h
    obtain ⟨k, hk, h⟩ := Finset.exists_ne_zero_of_sum_ne_zero (by omega : ∑ k ∈ range w.next, slotCnt (w.objs k) o ≠ 0)
    cases hx : w.objs k with
    | none => simp [hx, slotCnt] at h
    | some x =>
      rw [hx] at h
      exact ⟨k, x, mem_range.1 hk, hx, slotCnt_pos.1 (by omega)⟩
  · rintro ⟨k, x, hk, hx, h⟩
    have h1 := Finset.single_le_sum (f := fun k => slotCnt (w.objs k) o) (fun _ _ => Nat.zero_le _) (mem_range.2 hk)
    simp only [hx] at h1
    have := slotCnt_pos.2 h
    omega

theorem varCnt_pos {o : Nat} : 0 < varCnt w o ↔ ∃ i, i < w.nvars ∧ w.vars i = some o := by
  unfold varCnt
  constructor
  · intro h
    obtain ⟨i, hi, h⟩ := Finset.exists_ne_zero_of_sum_ne_zero (by omega : (∑ i ∈ range w.nvars, if w.vars i = some o then 1 else 0) ≠ 0)
    exact ⟨i, mem_range.1 hi, by by_contra hne; simp [hne] at h⟩
  · rintro ⟨i, hi, h⟩
    have h1 := Finset.single_le_sum (f := fun i => if w.vars i = some o then 1 else 0) (fun _ _ => Nat.zero_le _) (mem_range.2 hi)
    simp only [h, if_true] at h1
    omega

/-! ## Changes of one object -/

/-- Changing the counter only. -/
theorem heldCnt_refs {k : Nat} {x : Obj} (hx : w.objs k = some x) (hk : k < w.next) (r : Int) (o : Nat) :
    heldCnt (w.setObj k (some { x with refs := r })) o = heldCnt w o := by
  have := heldCnt_setObj hk o (some { x with refs := r })
  simp only [hx, slotCnt] at this
  omega

theorem exists_setObj {k : Nat} {x' : Obj} {o : Nat} (h : ∃ x, w.objs o = some x) : ∃ x, (w.setObj k (some x')).objs o = some x := by
  simp only [setObj_objs]
  split
  · exact ⟨_, rfl⟩
  · exact h

/-- A reference is taken: one more pending pointer. -/
theorem Inv.take (h : Inv w P D) {o : Nat} {x : Obj} (hx : w.objs o = some x) (hD : o ∉ D) :
    Inv (w.setObj o (some { x with refs := x.refs + 1 })) (o :: P) D := by
  have hlt := h.lt o x hx
  refine ⟨?_, ?_, fun i a hi ha => exists_setObj (h.var i a hi ha), ?_, ?_, ?_, ?_⟩
  · intro k y hy
    simp only [setObj_objs] at hy
    split at hy
    · rename_i e; subst e; exact hlt
    · exact h.lt k y hy
  · intro k y hy
    rw [varCnt_setObj, heldCnt_refs hx hlt]
    simp only [setObj_objs] at hy
    split at hy
    · rename_i e; subst e
      simp only [Option.some.injEq] at hy; subst hy
      have := h.refs k x hx
      simp only [List.count_cons_self]
      push_cast
      omega
    · rename_i e
      have := h.refs k y hy
      rw [List.count_cons_of_ne (Ne.symm e)]
      exact this
  · intro k y a hy ha
    simp only [setObj_objs] at hy
    refine exists_setObj ?_
    split at hy
    · rename_i e; subst e
      simp only [Option.some.injEq] at hy; subst hy
      exact h.slot k x a hx ha
    · exact h.slot k y a hy ha
  · intro a ha
    refine exists_setObj ?_
    rcases List.mem_cons.1 ha with rfl | ha
    · exact ⟨x, hx⟩
    · exact h.pend a ha
  · intro a ha
    have hne : a ≠ o := fun e => hD (e ▸ ha)
    simpa [hne] using h.dying a ha
  · intro k y hy hk
    simp only [setObj_objs] at hy
    split at hy
    · rename_i e; subst e
      simp only [Option.some.injEq] at hy; subst hy
      have := h.pos k x hx hk
      dsimp only; omega
    · exact h.pos k y hy hk

/-- A pending pointer is dropped from the counter. -/
theorem Inv.drop (h : Inv w (o :: P) D) {x : Obj} (hx : w.objs o = some x) {D' : Finset Nat}
    (hD : (D' = D ∧ 0 < x.refs - 1) ∨ (D' = insert o D ∧ x.refs - 1 = 0)) :
    Inv (w.setObj o (some { x with refs := x.refs - 1 })) P D' := by
  have hlt := h.lt o x hx
  have hrefs := h.refs o x hx
  simp only [List.count_cons_self] at hrefs
  refine ⟨?_, ?_, fun i a hi ha => exists_setObj (h.var i a hi ha), ?_, ?_, ?_, ?_⟩
  · intro k y hy
    simp only [setObj_objs] at hy
    split at hy
    · rename_i e; subst e; exact hlt
    · exact h.lt k y hy
  · intro k y hy
    rw [varCnt_setObj, heldCnt_refs hx hlt]
    simp only [setObj_objs] at hy
    split at hy
    · rename_i e; subst e
      simp only [Option.some.injEq] at hy; subst hy
      push_cast at hrefs
      dsimp only
      omega
    · rename_i e
      have := h.refs k y hy
      rwa [List.count_cons_of_ne (Ne.symm e)] at this
  · intro k y a hy ha
    simp only [setObj_objs] at hy
    refine exists_setObj ?_
    split at hy
    · rename_i e; subst e
      simp only [Option.some.injEq] at hy; subst hy
      exact h.slot k x a hx ha
    · exact h.slot k y a hy ha
  · intro a ha
    exact exists_setObj (h.pend a (List.mem_cons_of_mem _ ha))
  · intro a ha
    by_cases hne : a = o
    · subst hne
      simp only [setObj_objs, if_true]
      refine ⟨_, rfl, ?_⟩
      rcases hD with ⟨rfl, _⟩ | ⟨_, h0⟩
      · obtain ⟨y, hy, h0⟩ := h.dying a ha
        rw [hx] at hy
        simp only [Option.some.injEq] at hy; subst hy
        exfalso
        push_cast at hrefs
        omega
      · exact h0
    · have ha' : a ∈ D := by
        rcases hD with ⟨rfl, _⟩ | ⟨rfl, _⟩
        · exact ha
        · exact (Finset.mem_insert.1 ha).resolve_left hne
      simpa [hne] using h.dying a ha'
  · intro k y hy hk
    simp only [setObj_objs] at hy
    split at hy
    · rename_i e; subst e
      simp only [Option.some.injEq] at hy; subst hy
      rcases hD with ⟨_, h0⟩ | ⟨rfl, _⟩
      · exact h0
      · exact absurd (Finset.mem_insert_self _ _) hk
    · refine h.pos k y hy ?_
      rcases hD with ⟨rfl, _⟩ | ⟨rfl, _⟩
      · exact hk
      · exact fun hh => hk (Finset.mem_insert_of_mem hh)

theorem count_set {l : List (Option Nat)} {i : Nat} {a b : Option Nat} (hi : l[i]? = some a) (c : Option Nat) :
    (l.set i b).count c + (if a = c then 1 else 0) = l.count c + (if b = c then 1 else 0) := by
  induction l generalizing i with
  | nil => simp at hi
  | cons y l ih =>
    cases i with
    | zero =>
      simp only [List.getElem?_cons_zero, Option.some.injEq] at hi
      subst hi
      simp only [List.set_cons_zero, List.count_cons, beq_iff_eq]
      omega
    | succ i =>
      simp only [List.getElem?_cons_succ] at hi
      have := ih hi
      simp only [List.set_cons_succ, List.count_cons, beq_iff_eq]
      omega

theorem mem_set_of {l : List (Option Nat)} {i : Nat} {b c : Option Nat} (h : c ∈ l.set i b) : c ∈ l ∨ c = b :=
  List.mem_or_eq_of_mem_set h

/-- Change of the slots of one object: the differences go to or come from the pending pointers. -/
theorem Inv.slots (h : Inv w P D) {k : Nat} {x : Obj} (hx : w.objs k = some x) {l : List (Option Nat)} {P' : List Nat}
    (hc : ∀ o, l.count (some o) + P'.count o = x.slots.count (some o) + P.count o) :
    Inv (w.setObj k (some { x with slots := l })) P' D := by
  have hlt := h.lt k x hx
  have hsub : ∀ o, (some o ∈ l ∨ o ∈ P') → ∃ y, w.objs o = some y := by
    intro o ho
    have h1 := hc o
    by_cases h2 : some o ∈ x.slots
    · exact h.slot k x o hx h2
    · refine h.pend o ?_
      rw [← List.count_pos_iff]
      rw [List.count_eq_zero_of_not_mem h2] at h1
      rcases ho with ho | ho
      · have := List.count_pos_iff.2 ho; omega
      · have := List.count_pos_iff.2 ho; omega
  refine ⟨?_, ?_, fun i a hi ha => exists_setObj (h.var i a hi ha), ?_, ?_, ?_, ?_⟩
  · intro j y hy
    simp only [setObj_objs] at hy
    split at hy
    · rename_i e; subst e; exact hlt
    · exact h.lt j y hy
  · intro j y hy
    rw [varCnt_setObj]
    have h1 := heldCnt_setObj hlt j (some { x with slots := l })
    have h2 := hc j
    simp only [hx, slotCnt] at h1
    have h3 : ∃ z, w.objs j = some z ∧ z.refs = y.refs := by
      simp only [setObj_objs] at hy
      split at hy
      · rename_i e; subst e
        simp only [Option.some.injEq] at hy; subst hy
        exact ⟨x, hx, rfl⟩
      · exact ⟨y, hy, rfl⟩
    obtain ⟨z, hz, e⟩ := h3
    have := h.refs j z hz
    omega
  · intro j y a hy ha
    simp only [setObj_objs] at hy
    refine exists_setObj ?_
    split at hy
    · rename_i e; subst e
      simp only [Option.some.injEq] at hy; subst hy
      exact hsub a (Or.inl ha)
    · exact h.slot j y a hy ha
  · intro a ha
    exact exists_setObj (hsub a (Or.inr ha))
  · intro a ha
    obtain ⟨y, hy, h0⟩ := h.dying a ha
    simp only [setObj_objs]
    split
    · rename_i e; subst e
      rw [hx] at hy
      simp only [Option.some.injEq] at hy; subst hy
      exact ⟨_, rfl, h0⟩
    · exact ⟨y, hy, h0⟩
  · intro j y hy hj
    simp only [setObj_objs] at hy
    split at hy
    · rename_i e; subst e
      simp only [Option.some.injEq] at hy; subst hy
      exact h.pos j x hx hj
    · exact h.pos j y hy hj

/-- The end of a destruction. -/
theorem Inv.del {o : Nat} (h : Inv w P (insert o D)) (hD : o ∉ D) {x : Obj} (hx : w.objs o = some x) (hs : ∀ c, some c ∉ x.slots) :
    Inv (w.setObj o none) P D := by
  have hlt := h.lt o x hx
  obtain ⟨x', hx', h0⟩ := h.dying o (Finset.mem_insert_self _ _)
  rw [hx] at hx'
  simp only [Option.some.injEq] at hx'
  subst hx'
  have hr := h.refs o x hx
  have hv : ¬ 0 < varCnt w o := by omega
  have hh : ¬ 0 < heldCnt w o := by omega
  have hp : o ∉ P := fun hp => by have := List.count_pos_iff.2 hp; omega
  have hheld : ∀ a, heldCnt (w.setObj o none) a = heldCnt w a := by
    intro a
    have := heldCnt_setObj hlt a none
    simp only [hx, slotCnt, List.count_eq_zero_of_not_mem (hs a)] at this
    exact this
  have hne : ∀ {a : Nat}, a ≠ o → (∃ y, w.objs a = some y) → ∃ y, (w.setObj o none).objs a = some y := by
    intro a ha hy
    simpa [ha] using hy
  refine ⟨?_, ?_, ?_, ?_, ?_, ?_, ?_⟩
  · intro k y hy
    simp only [setObj_objs] at hy
    split at hy
    · simp at hy
    · exact h.lt k y hy
  · intro k y hy
    rw [varCnt_setObj, hheld]
    simp only [setObj_objs] at hy
    split at hy
    · simp at hy
    · exact h.refs k y hy
  · intro i a hi ha
    refine hne ?_ (h.var i a hi ha)
    rintro rfl
    exact hv (varCnt_pos.2 ⟨i, hi, ha⟩)
  · intro k y a hy ha
    simp only [setObj_objs] at hy
    split at hy
    · simp at hy
    · refine hne ?_ (h.slot k y a hy ha)
      rintro rfl
      exact hh (heldCnt_pos.2 ⟨k, y, h.lt k y hy, hy, ha⟩)
  · intro a ha
    refine hne ?_ (h.pend a ha)
    rintro rfl
    exact hp ha
  · intro a ha
    have hao : a ≠ o := fun e => hD (e ▸ ha)
    simpa [hao] using h.dying a (Finset.mem_insert_of_mem ha)
  · intro k y hy hk
    simp only [setObj_objs] at hy
    split at hy
    · simp at hy
    · rename_i e
      exact h.pos k y hy (fun hh => (Finset.mem_insert.1 hh).elim e hk)

/-- A change of a variable: the differences go to or come from the pending pointers. -/
theorem Inv.setVar (h : Inv w P D) {i : Nat} (hi : i < w.nvars) {p : Option Nat} {P' : List Nat}
    (hc : ∀ o, (if p = some o then 1 else 0) + P'.count o = (if w.vars i = some o then 1 else 0) + P.count o) :
    Inv (w.setVar i p) P' D := by
  have hsub : ∀ o, (p = some o ∨ o ∈ P') → ∃ y, w.objs o = some y := by
    intro o ho
    have h1 := hc o
    by_cases h2 : w.vars i = some o
    · exact h.var i o hi h2
    · refine h.pend o ?_
      rw [← List.count_pos_iff]
      rw [if_neg h2] at h1
      rcases ho with ho | ho
      · rw [if_pos ho] at h1; omega
      · have := List.count_pos_iff.2 ho; omega
  refine ⟨h.lt, ?_, ?_, h.slot, fun o ho => hsub o (Or.inr ho), h.dying, h.pos⟩
  · intro o x hx
    rw [heldCnt_setVar]
    have h1 := varCnt_setVar hi o p
    have h2 := hc o
    have h3 := h.refs o x hx
    omega
  · intro j o hj ho
    simp only [setVar_vars] at ho
    split at ho
    · exact hsub o (Or.inl ho)
    · exact h.var j o hj ho

end RefCount
end Verif
