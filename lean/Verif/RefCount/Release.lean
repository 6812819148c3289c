import Verif.RefCount.Inv

/-!
# Destruction terminates and keeps the invariant
-/

namespace Verif
namespace RefCount

open Finset

variable {w w' : World} {P : List Nat} {D : Finset Nat}

/-- Objects that may still be destroyed. -/
def load (w : World) (D : Finset Nat) : Nat := ((range w.next).filter (fun k => (w.objs k).isSome ∧ k ∉ D)).card

/-- What a destruction leaves alone. -/
structure Frame (w w' : World) (D : Finset Nat) : Prop where
  next : w'.next = w.next
  vars : w'.vars = w.vars
  nvars : w'.nvars = w.nvars
  obj : ∀ k x', w'.objs k = some x' → ∃ x, w.objs k = some x ∧ x'.refs ≤ x.refs ∧
    (∀ c, some c ∈ x'.slots → some c ∈ x.slots) ∧ (0 < x'.refs → x'.slots = x.slots)
  keep : ∀ k, k ∈ D → w'.objs k = w.objs k

theorem Frame.refl (w : World) (D : Finset Nat) : Frame w w D :=
  ⟨rfl, rfl, rfl, fun _ x' h => ⟨x', h, le_refl _, fun _ hc => hc, fun _ => rfl⟩, fun _ _ => rfl⟩

theorem Frame.trans {w1 w2 w3 : World} {D1 D2 : Finset Nat} (h : Frame w1 w2 D1) (h' : Frame w2 w3 D2) (hD : D1 ⊆ D2) :
    Frame w1 w3 D1 := by
  refine ⟨h'.next.trans h.next, h'.vars.trans h.vars, h'.nvars.trans h.nvars, ?_, ?_⟩
  · intro k x' hx
    obtain ⟨x, hx, hr, hs, he⟩ := h'.obj k x' hx
    obtain ⟨y, hy, hr', hs', he'⟩ := h.obj k x hx
    exact ⟨y, hy, le_trans hr hr', fun c hc => hs' c (hs c hc), fun h0 => (he h0).trans (he' (lt_of_lt_of_le h0 hr))⟩
  · intro k hk
    rw [h'.keep k (hD hk), h.keep k hk]

theorem load_le (h : Frame w w' D) : load w' D ≤ load w D := by
  refine Finset.card_le_card ?_
  intro k hk
  simp only [mem_filter, mem_range] at hk ⊢
  obtain ⟨h1, h2, h3⟩ := hk
  obtain ⟨x', hx'⟩ := Option.isSome_iff_exists.1 h2
  obtain ⟨x, hx, _⟩ := h.obj k x' hx'
  exact ⟨by rw [← h.next]; exact h1, by simp [hx], h3⟩

theorem load_insert {o : Nat} {x : Obj} (hx : w.objs o = some x) (hlt : o < w.next) (hD : o ∉ D) :
    load w (insert o D) + 1 ≤ load w D := by
  unfold load
  have : ((range w.next).filter (fun k => (w.objs k).isSome ∧ k ∉ insert o D)) ⊆
      ((range w.next).filter (fun k => (w.objs k).isSome ∧ k ∉ D)).erase o := by
    intro k hk
    simp only [mem_filter, mem_range, mem_erase, mem_insert, not_or] at hk ⊢
    exact ⟨hk.2.2.1, hk.1, hk.2.1, hk.2.2.2⟩
  have h2 := Finset.card_le_card this
  have h3 : o ∈ (range w.next).filter (fun k => (w.objs k).isSome ∧ k ∉ D) := by simp [hx, hlt, hD]
  rw [Finset.card_erase_of_mem h3] at h2
  have := Finset.card_pos.2 ⟨o, h3⟩
  omega

theorem load_le_next (w : World) (D : Finset Nat) : load w D ≤ w.next := by
  have := Finset.card_filter_le (range w.next) (fun k => (w.objs k).isSome ∧ k ∉ D)
  rw [card_range] at this
  exact this

theorem load_setObj {o : Nat} {x y : Obj} (hx : w.objs o = some x) : load (w.setObj o (some y)) D = load w D := by
  unfold load
  congr 1
  refine Finset.filter_congr (fun k _ => ?_)
  simp only [setObj_objs]
  by_cases h : k = o
  · simp [h, hx]
  · simp [h]

theorem getO_some {o : Nat} {x : Obj} (hx : w.objs o = some x) : getO o w = .ok w x := by
  unfold getO; rw [hx]

theorem putO_apply (o : Nat) (x : Obj) (w : World) : putO o x w = .ok (w.setObj o (some x)) () := rfl

theorem join_some {l : List (Option Nat)} {i c : Nat} (h : (l[i]?).join = some c) : l[i]? = some (some c) := by
  cases hl : l[i]? with
  | none => simp [hl] at h
  | some a => simp only [hl, Option.join_some] at h; rw [h]

theorem frame_slots {o : Nat} {x : Obj} (hx : w.objs o = some x) {r : Int} {l : List (Option Nat)} (hl : ∀ c, some c ∈ l → some c ∈ x.slots)
    (hr : r ≤ x.refs) (he : 0 < r → l = x.slots) (hD : o ∉ D) : Frame w (w.setObj o (some ⟨r, l⟩)) D := by
  refine ⟨rfl, rfl, rfl, ?_, ?_⟩
  · intro k x' hk
    simp only [setObj_objs] at hk
    split at hk
    · rename_i e; subst e
      simp only [Option.some.injEq] at hk; subst hk
      exact ⟨x, hx, hr, hl, he⟩
    · exact ⟨x', hk, le_refl _, fun _ h => h, fun _ => rfl⟩
  · intro k hk
    have : k ≠ o := fun e => hD (e ▸ hk)
    simp [this]

/-- Releasing one slot, given what the recursive call does. -/
theorem dropSlot_spec {rel : Nat → M World Unit} {o i : Nat} {x : Obj} (h : Inv w P (insert o D)) (hx : w.objs o = some x)
    (hD : o ∉ D)
    (hrel : ∀ c (w : World), Inv w (c :: P) (insert o D) →
      load w (insert o D) ≤ n → ∃ w', rel c w = .ok w' () ∧ Inv w' P (insert o D) ∧ Frame w w' (insert o D))
    (hn : load w (insert o D) ≤ n) :
    ∃ w', dropSlot rel o i w = .ok w' () ∧ Inv w' P (insert o D) ∧ Frame w w' D ∧
      w'.objs o = some { x with slots := x.slots.set i none } := by
  unfold dropSlot
  simp only [M.bind_apply, getO_some hx, Out.bind_ok]
  cases hj : (x.slots[i]?).join with
  | none =>
    refine ⟨w, rfl, h, Frame.refl _ _, ?_⟩
    rw [hx]
    congr 1
    cases x
    simp only [Obj.mk.injEq, true_and]
    apply List.ext_getElem?
    intro j
    rw [List.getElem?_set]
    split
    · rename_i e; subst e
      dsimp only at hj
      split
      · rename_i hlt
        rw [List.getElem?_eq_getElem hlt] at hj ⊢
        simp only [Option.join_some] at hj
        rw [hj]
      · rename_i hge
        exact List.getElem?_eq_none (by omega)
    · rfl
  | some c =>
    have hs := join_some hj
    have hinv : Inv (w.setObj o (some { x with slots := x.slots.set i none })) (c :: P) (insert o D) := by
      refine h.slots hx (fun a => ?_)
      have := count_set (b := none) hs (some a)
      simp only [List.count_cons, beq_iff_eq, Option.some.injEq] at this ⊢
      simp only [reduceCtorEq, if_false] at this
      omega
    simp only [M.bind_apply, putO_apply, Out.bind_ok]
    obtain ⟨w', e, hi', hf⟩ := hrel c _ hinv (by rw [load_setObj hx]; exact hn)
    refine ⟨w', e, hi', ?_, ?_⟩
    · have h0 : x.refs = 0 := by
        obtain ⟨y, hy, h0⟩ := h.dying o (Finset.mem_insert_self _ _)
        rw [hx] at hy
        simp only [Option.some.injEq] at hy; subst hy
        exact h0
      refine Frame.trans (frame_slots hx ?_ (le_refl _) (fun hp => absurd hp (by omega)) hD) hf (Finset.subset_insert _ _)
      intro a ha
      rcases mem_set_of ha with ha | ha
      · exact ha
      · simp at ha
    · rw [hf.keep o (Finset.mem_insert_self _ _)]
      simp

/-- Releasing the first slots in turn. -/
theorem dropLoop_spec {rel : Nat → M World Unit} {o : Nat} {x : Obj} {n : Nat} (hD : o ∉ D)
    (hrel : ∀ c (w : World), Inv w (c :: P) (insert o D) →
      load w (insert o D) ≤ n → ∃ w', rel c w = .ok w' () ∧ Inv w' P (insert o D) ∧ Frame w w' (insert o D))
    (m : Nat) : ∀ (w : World), Inv w P (insert o D) → w.objs o = some x → load w (insert o D) ≤ n →
    ∃ w' l, M.loop m (fun i => dropSlot rel o i) w = .ok w' () ∧ Inv w' P (insert o D) ∧ Frame w w' D ∧
      w'.objs o = some { x with slots := l } ∧ l.length = x.slots.length ∧ ∀ i, i < m → ∀ c, l[i]? ≠ some (some c) := by
  induction m with
  | zero =>
    intro w h hx hn
    exact ⟨w, x.slots, rfl, h, Frame.refl _ _, hx, rfl, fun i hi => absurd hi (by omega)⟩
  | succ m ih =>
    intro w h hx hn
    obtain ⟨w1, l, e, h1, hf, hx1, hlen, hl⟩ := ih w h hx hn
    have hn1 : load w1 (insert o D) ≤ n := by
      refine le_trans ?_ hn
      refine Finset.card_le_card ?_
      intro k hk
      simp only [mem_filter, mem_range] at hk ⊢
      obtain ⟨h1, h2, h3⟩ := hk
      obtain ⟨x', hx'⟩ := Option.isSome_iff_exists.1 h2
      obtain ⟨x, hx, _⟩ := hf.obj k x' hx'
      exact ⟨by rw [← hf.next]; exact h1, by simp [hx], h3⟩
    obtain ⟨w2, e2, h2, hf2, hx2⟩ := dropSlot_spec (i := m) h1 hx1 hD hrel hn1
    refine ⟨w2, l.set m none, ?_, h2, hf.trans hf2 (Finset.Subset.refl _), hx2, by simp [hlen], ?_⟩
    · rw [M.loop_succ, e]
      exact e2
    · intro i hi c hc
      rw [List.getElem?_set] at hc
      split at hc
      · split at hc <;> simp at hc
      · exact hl i (by omega) c hc

theorem release_spec (f : Nat) : ∀ (w : World) (P : List Nat) (D : Finset Nat) (o : Nat), Inv w (o :: P) D → load w D ≤ f →
    ∃ w', release f o w = .ok w' () ∧ Inv w' P D ∧ Frame w w' D := by
  induction f with
  | zero =>
    intro w P D o h hl
    obtain ⟨x, hx⟩ := h.pend o (by simp)
    exfalso
    have hD : o ∉ D := by
      intro hD
      obtain ⟨y, hy, h0⟩ := h.dying o hD
      have := h.refs o y hy
      simp only [List.count_cons_self] at this
      push_cast at this
      omega
    have := load_insert hx (h.lt o x hx) hD
    omega
  | succ f ih =>
    intro w P D o h hl
    obtain ⟨x, hx⟩ := h.pend o (by simp)
    have hr := h.refs o x hx
    simp only [List.count_cons_self] at hr
    push_cast at hr
    have hD : o ∉ D := by
      intro hD
      obtain ⟨y, hy, h0⟩ := h.dying o hD
      rw [hx] at hy
      simp only [Option.some.injEq] at hy; subst hy
      omega
    unfold release
    simp only [M.bind_apply, getO_some hx, Out.bind_ok, putO_apply]
    by_cases h0 : 0 < x.refs - 1
    · rw [if_pos h0]
      exact ⟨_, rfl, h.drop hx (Or.inl ⟨rfl, h0⟩), frame_slots hx (fun _ h => h) (by omega) (fun _ => rfl) hD⟩
    · rw [if_neg h0]
      have hinv := h.drop hx (D' := insert o D) (Or.inr ⟨rfl, by omega⟩)
      have hn : load (w.setObj o (some { x with refs := x.refs - 1 })) (insert o D) ≤ f := by
        rw [load_setObj hx]
        have := load_insert hx (h.lt o x hx) hD
        omega
      obtain ⟨w1, l, e, h1, hf, hx1, hlen, hl⟩ := dropLoop_spec (rel := release f) (n := f) (x := { x with refs := x.refs - 1 }) hD
        (fun c w hw hl => ih w P _ c hw hl) x.slots.length _ hinv (by simp) hn
      simp only [M.bind_apply]
      rw [e]
      simp only [Out.bind_ok]
      have hnone : ∀ c, some c ∉ l := by
        intro c hc
        obtain ⟨i, hi⟩ := List.getElem?_of_mem hc
        have hlt : i < l.length := by
          by_contra hge
          rw [List.getElem?_eq_none (by omega)] at hi
          simp at hi
        exact hl i (by dsimp only at hlen; omega) c hi
      refine ⟨_, rfl, h1.del hD hx1 hnone, ?_⟩
      refine Frame.trans (Frame.trans (frame_slots hx (fun _ h => h) (by omega) (fun _ => rfl) hD) hf (Finset.Subset.refl _)) (w3 := w1.setObj o none) (D2 := D) ?_
        (Finset.Subset.refl _)
      refine ⟨rfl, rfl, rfl, ?_, ?_⟩
      · intro k x' hk
        simp only [setObj_objs] at hk
        split at hk
        · simp at hk
        · exact ⟨x', hk, le_refl _, fun _ h => h, fun _ => rfl⟩
      · intro k hk
        have : k ≠ o := fun e => hD (e ▸ hk)
        simp [this]

theorem destroyPtr_spec {p : Option Nat} {P : List Nat} (h : Inv w (p.toList ++ P) D) :
    ∃ w', destroyPtr p w = .ok w' () ∧ Inv w' P D ∧ Frame w w' D := by
  cases p with
  | none => exact ⟨w, rfl, h, Frame.refl _ _⟩
  | some o => exact release_spec _ w P D o h (load_le_next w D)

end RefCount
end Verif
