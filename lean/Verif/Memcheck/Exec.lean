import Verif.Memcheck.Steps

/-!
# Vectors of the memcheck backend: calls that change arrays of the program
-/

set_option linter.unusedSectionVars false

namespace Verif
namespace Memcheck

open Vector (Mem Mode)

variable {α : Type} {A : Arith α}

/-- What copying the values back to the owned or lent array does. -/
theorem sync_ok {w : W α} {v : Nat} {x : MVec α} (hx : w.vecs v = some x) (hV : VInv w x) :
    ∃ w', syncMc v .host w = .ok w' () ∧ w'.vecs = w.vecs ∧
      (∀ a, ¬ (x.owned = some a ∨ x.borrowed = some a) → w'.heap a = w.heap a) ∧
      (∀ a, (x.owned = some a ∨ x.borrowed = some a) → ∃ b c d, w.heap a = some d ∧ x.alloc = some b ∧ w'.heap a = some c ∧
        c.len = d.len ∧ ∀ i < x.len, c.val i = b.val i) := by
  unfold syncMc
  simp only [M.bind_apply, M.check_true, Out.bind_ok, getV_eq hx]
  have cb : ∀ p : Option Nat, (∀ a, p = some a → (x.owned = some a ∨ x.borrowed = some a)) →
      ∃ w', copyBack p x w = .ok w' () ∧ w'.vecs = w.vecs ∧ (∀ a, p ≠ some a → w'.heap a = w.heap a) ∧
      (∀ a, p = some a → ∃ b c d, w.heap a = some d ∧ x.alloc = some b ∧ w'.heap a = some c ∧ c.len = d.len ∧ ∀ i < x.len, c.val i = b.val i) := by
    intro p hp
    unfold copyBack
    cases p with
    | none => exact ⟨w, rfl, rfl, fun _ _ => rfl, fun _ h => (by cases h)⟩
    | some a =>
      obtain ⟨d, hd, hdl⟩ := hV.arr a (hp a rfl)
      obtain ⟨b, hb⟩ : ∃ b, x.alloc = some b := by
        cases hb : x.alloc with
        | some b => exact ⟨b, rfl⟩
        | none =>
          have := hV.slots hb
          rcases hp a rfl with h | h
          · rw [this.1] at h; cases h
          · rw [this.2] at h; cases h
      have hbl := hV.al b hb
      simp only [hd, hb]
      rw [if_pos ⟨hdl, by omega⟩]
      refine ⟨_, rfl, rfl, fun c hc => ?_, fun c hc => ?_⟩
      · exact setArr_ne _ _ (fun h => hc (by rw [h]))
      · cases hc
        exact ⟨b, _, d, hd, rfl, setArr_same _ _ _, rfl, fun i hi => if_pos hi⟩
  rcases hV.one with h | h
  · rw [h]
    obtain ⟨w', e, h1, h2, h3⟩ := cb x.borrowed (fun a h => Or.inr h)
    refine ⟨w', by simp only [copyBack]; exact e, h1, fun a ha => h2 a (fun hh => ha (Or.inr hh)), fun a ha => h3 a ?_⟩
    rcases ha with ha | ha
    · cases ha
    · exact ha
  · rw [h]
    obtain ⟨w', e, h1, h2, h3⟩ := cb x.owned (fun a h => Or.inl h)
    refine ⟨w', by rw [e]; rfl, h1, fun a ha => h2 a (fun hh => ha (Or.inl hh)), fun a ha => h3 a ?_⟩
    rcases ha with ha | ha
    · exact ha
    · cases ha

/-- A successful call that changes one vector and arrays that belong to it, keeping their lengths. -/
theorem Post.of_sync {w w1 : W α} (hi : Inv w) {c : Call α} {v : Nat} {x x' : MVec α} (hx : w.vecs v = some x) (hv : VInv w x')
    (hs : ∀ a, (x'.owned = some a ∨ x'.borrowed = some a) → (x.owned = some a ∨ x.borrowed = some a)) (hl : x'.len = x.len)
    (hval : SameOn x.len (x'.alloc.map (·.val)) (newVals A w c v)) (hnv : ∀ u, u ≠ v → newVals A w c u = Memcheck.vals w u)
    (hcl : x'.readers = 0 → x'.rcopy.isSome → x.readers = 0 ∧ x.rcopy.isSome) (hst : x.state ≤ x'.state)
    (hst' : x'.state = x.state → ¬ Arithmetic v c → x'.alloc = x.alloc ∨ x'.alloc = none)
    (hrd : 0 < x.readers → ¬ Arithmetic v c → x'.alloc = x.alloc)
    (h1 : w1.vecs = w.vecs) (h2 : ∀ a, ¬ (x.owned = some a ∨ x.borrowed = some a) → w1.heap a = w.heap a)
    (h3 : ∀ a, (x.owned = some a ∨ x.borrowed = some a) → ∃ c d, w.heap a = some d ∧ w1.heap a = some c ∧ c.len = d.len)
    (ht : ∀ a, ¬ Touches w c a → ¬ (x.owned = some a ∨ x.borrowed = some a))
    (hnl : newLent w c = put (Memcheck.lent w) v x'.borrowed) :
    Post A w c (w1.setVec v (some x')) := by
  have hlen : ∀ a b, w.heap a = some b → ∃ b', w1.heap a = some b' ∧ b'.len = b.len := by
    intro a b e
    by_cases ha : x.owned = some a ∨ x.borrowed = some a
    · obtain ⟨c, d, k1, k2, k3⟩ := h3 a ha
      rw [e] at k1; cases k1
      exact ⟨c, k2, k3⟩
    · exact ⟨b, by rw [h2 a ha]; exact e, rfl⟩
  have hi1 : Inv w1 := hi.heap h1 (fun a _ b e => hlen a b e)
  have hx1 : w1.vecs v = some x := by rw [h1]; exact hx
  have hv1 : VInv w1 x' := hv.congr (fun a _ b e => hlen a b e)
  refine ⟨hi1.setVec hx1 hv1 hs, fun u => ?_, fun a ha => h2 a (ht a ha), fun u y hy => ?_, fun u y hy _ => ?_, fun u y y' hy hr hna hy' => ?_,
    fun u => ?_⟩
  · by_cases hu : u = v
    · subst hu
      rw [vals_eq (setVec_same _ _ _), lenOf_eq (setVec_same _ _ _), hl]
      exact hval
    · rw [hnv u hu]
      have : Memcheck.vals (w1.setVec v (some x')) u = Memcheck.vals w u := by
        unfold Memcheck.vals; rw [setVec_ne _ _ hu, h1]
      rw [this]
      exact SameOn.refl _ _
  · by_cases hu : u = v
    · subst hu
      rw [setVec_same] at hy
      cases hy
      intro h0 h1 h2
      obtain ⟨h3, h4⟩ := hcl h1 h2
      exact ⟨x, hx, by rw [hl] at h0; exact h0, h3, h4⟩
    · rw [setVec_ne _ _ hu, h1] at hy
      exact fun h0 h1 h2 => ⟨y, hy, h0, h1, h2⟩
  · by_cases hu : u = v
    · subst hu
      rw [hx] at hy
      cases hy
      exact ⟨x', setVec_same _ _ _, hl, hst, hst'⟩
    · exact ⟨y, by rw [setVec_ne _ _ hu, h1]; exact hy, rfl, Nat.le_refl _, fun _ _ => Or.inl rfl⟩
  · by_cases hu : u = v
    · subst hu
      rw [hx] at hy
      cases hy
      rw [setVec_same] at hy'
      cases hy'
      exact hrd hr hna
    · rw [setVec_ne _ _ hu, h1, hy] at hy'
      cases hy'
      rfl
  · rw [hnl]
    by_cases hu : u = v
    · subst hu
      rw [lent_eq (setVec_same _ _ _), put_same]
    · rw [put_ne hu]
      unfold Memcheck.lent
      rw [setVec_ne _ _ hu, h1]

theorem put_lent {w : W α} {v : Nat} {x : MVec α} (hx : w.vecs v = some x) : lent w = put (lent w) v x.borrowed := by
  funext u
  by_cases hu : u = v
  · subst hu; rw [put_same, lent_eq hx]
  · rw [put_ne hu]

theorem syncArray_step {w : W α} (hi : Inv w) {v : Nat} (m : Mem) (hv : Is w v) (f : Unit → Option Nat) :
    Step A w (.syncArray v m) (syncArray v m w) f := by
  obtain ⟨x, hx⟩ := hv
  have hV := hi.each v x hx
  unfold syncArray
  simp only [M.bind_apply, getV_eq hx, Out.bind_ok]
  by_cases h1 : x.state % 2 = 0
  swap
  · rw [M.check_false h1]; exact rfl
  rw [M.check_true h1, Out.bind_ok]
  have hsame : SameOn x.len (x.alloc.map (·.val)) (newVals A w (.syncArray v m) v) := by
    show SameOn _ _ (vals w v)
    rw [vals_eq hx]
    exact SameOn.refl _ _
  by_cases h2 : x.len = 0
  · rw [if_pos h2]
    have := Post.of_vec (A := A) (c := .syncArray v m) hi hx hV ⟨rfl, rfl⟩ rfl hsame (fun u hu => rfl)
      (fun h1 h2 => ⟨h1, h2⟩) (Nat.le_refl _) (fun _ _ => Or.inl rfl) (fun _ _ => rfl)
    rw [setVec_self hx] at this
    exact step_ok this (by simp)
  rw [if_neg h2]
  by_cases h5 : m = .host
  swap
  · unfold syncMc
    simp only [M.bind_apply]
    rw [M.check_false h5]; exact rfl
  subst h5
  obtain ⟨w1, e, k1, k2, k3⟩ := sync_ok hx hV
  rw [e]
  have := Post.of_sync (A := A) (c := .syncArray v .host) hi hx hV (fun a h => h) rfl hsame (fun u hu => rfl)
      (fun h1 h2 => ⟨h1, h2⟩) (Nat.le_refl _) (fun _ _ => Or.inl rfl) (fun _ _ => rfl) k1 k2
      (fun a ha => by obtain ⟨b, c, d, e1, e2, e3, e4, _⟩ := k3 a ha; exact ⟨c, d, e1, e3, e4⟩)
      (fun a ha hh => ha ⟨x, hx, hh⟩) (put_lent hx)
  rw [setVec_self (by rw [k1]; exact hx)] at this
  exact step_ok this (by simp)

theorem takeArray_step {w : W α} (hi : Inv w) {v : Nat} (m : Mem) (hv : Is w v) :
    Step A w (.takeArray v m) (takeArray v m w) id := by
  obtain ⟨x, hx⟩ := hv
  have hV := hi.each v x hx
  unfold takeArray
  simp only [M.bind_apply, getV_eq hx, Out.bind_ok]
  rcases lock_out (w := w) x with e | ⟨e, h1, h2⟩
  · rw [e]; exact rfl
  rw [e, Out.bind_ok]
  by_cases h3 : 0 < x.len
  · rw [if_pos h3]
    simp only [M.bind_apply]
    by_cases h5 : m = .host
    swap
    · rw [M.check_false h5]; exact rfl
    subst h5
    rw [M.check_true rfl, Out.bind_ok]
    by_cases h6 : x.borrowed.isSome
    swap
    · rw [M.check_false h6]; exact rfl
    rw [M.check_true h6, Out.bind_ok]
    by_cases h4 : validB x = true
    swap
    · rw [M.check_false h4]; exact rfl
    rw [M.check_true h4, Out.bind_ok]
    obtain ⟨b, hb⟩ := valid_alloc h4 (by omega)
    obtain ⟨w1, e1, k1, k2, k3⟩ := sync_ok hx hV
    have hno : x.owned = none := hV.one.resolve_right (by intro h; rw [h] at h6; cases h6)
    simp only [takeMc, M.bind_apply, M.check_true, Out.bind_ok, getV_eq hx, e1, putV_eq, M.pure_apply]
    refine ⟨?_, fun v' m' hc hl => ?_⟩
    · refine Post.of_sync hi hx ?_ ?_ rfl ?_ (fun u hu => put_ne hu)
        (fun h1 h2 => ⟨h1, h2⟩) (Nat.le_refl _) (fun _ _ => Or.inr rfl) (fun hh => by omega) k1 k2
        (fun a ha => by obtain ⟨b, c, d, e1, e2, e3, e4, _⟩ := k3 a ha; exact ⟨c, d, e1, e3, e4⟩)
        (fun a ha hh => ha ⟨x, hx, hh⟩) (by show (if lenOf w v = 0 then _ else _) = _; rw [lenOf_eq hx, if_neg (by omega)])
      · refine ⟨fun c hc => (by cases hc), hV.wl, hV.rl, hV.wc, fun hh => ?_, fun h3 h4 => ?_, fun _ => ⟨hno, rfl⟩, Or.inr rfl,
          fun a ha => ?_, hV.lock⟩
        · have := (hV.wc h3).2 hh
          omega
        · have h4 : 0 < x.readers := h4
          omega
        · rcases ha with ha | ha
          · exact hV.arr a (Or.inl ha)
          · cases ha
      · rintro a (ha | ha)
        · exact Or.inl ha
        · cases ha
      · show SameOn _ _ (put _ _ _ _)
        rw [put_same]
        exact True.intro
    · injection hc with hc1 hc2
      subst hc1
      refine ⟨by unfold lent; rw [hx]; rfl, h6, fun a ha => ?_⟩
      obtain ⟨b', c, d, e1, e2, e3, e4, e5⟩ := k3 a (Or.inr ha)
      refine ⟨c, b'.val, e3, by rw [vals_eq hx, e2]; rfl, fun i hi' => e5 i ?_⟩
      rw [lenOf_eq hx] at hi'
      exact hi'
  · rw [if_neg h3]
    refine ⟨?_, fun v' m' hc hl => ?_⟩
    · have := Post.of_vec (A := A) (c := .takeArray v m) hi hx hV ⟨rfl, rfl⟩ rfl (by rw [show x.len = 0 by omega]; exact SameOn.zero _ _)
        (fun u hu => put_ne hu) (fun h1 h2 => ⟨h1, h2⟩) (Nat.le_refl _) (fun _ _ => Or.inl rfl) (fun _ _ => rfl)
        (fun u => by show (if lenOf w v = 0 then _ else _ : Nat → Option Nat) u = _; rw [lenOf_eq hx, if_pos (by omega)])
      rw [setVec_self hx] at this
      exact this
    · injection hc with hc1 hc2
      subst hc1
      rw [lenOf_eq hx] at hl
      omega

theorem restoreArray_out {w : W α} (hi : Inv w) {v : Nat} {x : MVec α} (hx : w.vecs v = some x) (h1 : x.state % 2 = 1) (h3 : 0 < x.len) :
    ∃ (w1 : W α) (c : Buf α), x.wcopy = some c ∧ restoreArray v w = .ok (w1.setVec v (some { x with alloc := some ⟨x.len, c.val⟩, writeOnly := false, wcopy := none, state := x.state + 1 })) () ∧
      w1.vecs = (w.setVec v (some { x with alloc := some ⟨x.len, c.val⟩, writeOnly := false })).vecs ∧
      (∀ a, ¬ (x.owned = some a ∨ x.borrowed = some a) → w1.heap a = w.heap a) ∧
      (∀ a, (x.owned = some a ∨ x.borrowed = some a) → ∃ (k d : Buf α), w.heap a = some d ∧ w1.heap a = some k ∧ k.len = d.len ∧ ∀ i < x.len, k.val i = c.val i) := by
  have hV := hi.each v x hx
  obtain ⟨c, hc⟩ := Option.isSome_iff_exists.1 ((hV.wc h3).1 h1)
  obtain ⟨b, hb⟩ := Option.isSome_iff_exists.1 (hV.wa (by rw [hc]; rfl))
  have hcl := hV.wl c hc
  have hbl := hV.al b hb
  have hV1 : VInv w { x with alloc := some ⟨x.len, c.val⟩, writeOnly := false } :=
    ⟨fun c hc => (by cases hc; rfl), hV.wl, hV.rl, hV.wc, fun _ => rfl, fun h1 h2 => ⟨(hV.rc h1 h2).1, rfl⟩, fun hc => (by cases hc), hV.one, hV.arr, hV.lock⟩
  obtain ⟨w1, e1, k1, k2, k3⟩ := sync_ok (w := w.setVec v (some { x with alloc := some ⟨x.len, c.val⟩, writeOnly := false })) (v := v)
    (setVec_same _ _ _) (hV1.congr (fun a _ b e => ⟨b, e, rfl⟩))
  refine ⟨w1, c, hc, ?_, k1, k2, fun a ha => ?_⟩
  · unfold restoreArray
    simp only [M.bind_apply, getV_eq hx, Out.bind_ok, M.check_true h1, if_pos h3, restoreMc, dup, hb, hc,
      if_pos (show x.len ≤ c.len by omega), if_pos (show x.len ≤ b.len by omega), M.lift_ok, putV_eq]
    rw [hc] at e1
    rw [e1]
    have : w1.vecs v = some { x with alloc := some ⟨x.len, c.val⟩, writeOnly := false } := by rw [k1]; exact setVec_same _ _ _
    simp only [Out.bind_ok, getV_eq this, putV_eq, bump, M.bind_apply, getV_put, setVec_setVec]
  · obtain ⟨b', k, d, e1, e2, e3, e4, e5⟩ := k3 a ha
    cases e2
    exact ⟨k, d, e1, e3, e4, e5⟩

theorem restoreArray_step {w : W α} (hi : Inv w) {v : Nat} (hv : Is w v) (f : Unit → Option Nat) :
    Step A w (.restoreArray v) (restoreArray v w) f := by
  obtain ⟨x, hx⟩ := hv
  have hV := hi.each v x hx
  by_cases h1 : x.state % 2 = 1
  swap
  · unfold restoreArray
    simp only [M.bind_apply, getV_eq hx, Out.bind_ok]
    rw [M.check_false h1]; exact rfl
  by_cases h3 : 0 < x.len
  · obtain ⟨w1, c, hc, e, k1, k2, k3⟩ := restoreArray_out hi hx h1 h3
    rw [e]
    refine step_ok ?_ (by simp)
    have : w1.setVec v (some { x with alloc := some ⟨x.len, c.val⟩, writeOnly := false, wcopy := none, state := x.state + 1 }) =
        ({ w1 with vecs := w.vecs } : W α).setVec v (some { x with alloc := some ⟨x.len, c.val⟩, writeOnly := false, wcopy := none, state := x.state + 1 }) := by
      unfold W.setVec
      congr 1
      funext u
      by_cases hu : u = v
      · simp [hu]
      · simp only [if_neg hu, k1]
        exact setVec_ne _ _ hu
    rw [this]
    refine Post.of_sync hi hx ?_ (fun a h => h) rfl ?_ (fun u hu => put_ne hu)
      (fun h1 h2 => ⟨h1, h2⟩) (by simp) (fun hh => by simp at hh) (fun hh => by have := hV.lock h1; omega) rfl k2
      (fun a ha => by obtain ⟨k, d, e1, e2, e3, _⟩ := k3 a ha; exact ⟨k, d, e1, e2, e3⟩) (fun a ha hh => ha ⟨x, hx, hh⟩)
      (show lent w = put (lent w) v x.borrowed from put_lent hx)
    · exact ⟨fun c hc => (by cases hc; rfl), fun c hc => (by cases hc), hV.rl,
        fun _ => ⟨fun hh => absurd hh (by show ¬ (x.state + 1) % 2 = 1; omega), fun hh => (by cases hh)⟩, fun hh => (by cases hh),
        fun h1 h2 => ⟨(hV.rc h1 h2).1, rfl⟩, fun hc => (by cases hc), hV.one, hV.arr,
        fun hh => absurd hh (by show ¬ (x.state + 1) % 2 = 1; omega)⟩
    · show SameOn _ _ (put _ _ _ _)
      rw [put_same]
      unfold writeArr
      rw [hx]
      show SameOn _ _ (x.wcopy.map (·.val))
      rw [hc]
      exact SameOn.refl _ _
  · unfold restoreArray
    simp only [M.bind_apply, getV_eq hx, Out.bind_ok]
    rw [M.check_true h1, Out.bind_ok, if_neg h3]
    simp only [bump, M.bind_apply, getV_eq hx, Out.bind_ok, putV_eq]
    refine step_ok (w' := w.setVec v (some { x with state := x.state + 1 })) ?_ (by simp)
    refine Post.of_vec hi hx ?_ ⟨rfl, rfl⟩ rfl ?_ (fun u hu => put_ne hu)
      (fun h1 h2 => ⟨h1, h2⟩) (by simp) (fun hh => by simp at hh) (fun _ _ => rfl)
    · exact ⟨hV.al, hV.wl, hV.rl, fun hh => absurd hh h3, hV.wa, hV.rc, hV.slots, hV.one, hV.arr,
        fun hh => absurd hh (by show ¬ (x.state + 1) % 2 = 1; omega)⟩
    · rw [show x.len = 0 by omega]
      exact SameOn.zero _ _

theorem storeA_step {w : W α} (hi : Inv w) {a i : Nat} (z : α) {b : Buf α} (hb : w.heap a = some b) (h : i < b.len) (f : Unit → Option Nat) :
    Step A w (.store a i z) (storeA a i z w) f := by
  unfold storeA
  simp only [stB, hb, Buf.wr_lt h]
  refine step_ok ?_ (by simp)
  refine ⟨hi.heap rfl (fun c _ d hd => ?_), fun u => SameOn.refl _ _, fun c hc => setArr_ne _ _ hc, fun u y hy h0 h1 h2 => ⟨y, hy, h0, h1, h2⟩,
    fun u y hy _ => ⟨y, hy, rfl, Nat.le_refl _, fun _ _ => Or.inl rfl⟩, fun u y y' hy _ _ hy' => by
      have : w.vecs u = some y' := hy'
      rw [hy] at this; cases this; rfl, fun u => rfl⟩
  by_cases hc : c = a
  · subst hc
    rw [hb] at hd; cases hd
    exact ⟨_, setArr_same _ _ _, rfl⟩
  · exact ⟨d, by rw [setArr_ne _ _ hc]; exact hd, rfl⟩

theorem malloc_step {w : W α} (hi : Inv w) {a : Nat} (b : Buf α) (ha : w.heap a = none) : Post A w (.malloc a b) (w.setArr a (some b)) := by
  refine ⟨hi.heap rfl (fun c _ d hd => ?_), fun u => SameOn.refl _ _, fun c hc => setArr_ne _ _ hc, fun u y hy h0 h1 h2 => ⟨y, hy, h0, h1, h2⟩,
    fun u y hy _ => ⟨y, hy, rfl, Nat.le_refl _, fun _ _ => Or.inl rfl⟩, fun u y y' hy _ _ hy' => by
      have : w.vecs u = some y' := hy'
      rw [hy] at this; cases this; rfl, fun u => rfl⟩
  refine ⟨d, ?_, rfl⟩
  rw [setArr_ne _ _ (fun hc => by subst hc; rw [ha] at hd; cases hd)]
  exact hd

theorem mfree_step {w : W α} (hi : Inv w) {a : Nat} {b : Buf α} (hb : w.heap a = some b) (ha : ¬ Held w a) (f : Unit → Option Nat) :
    Step A w (.mfree a) (freeA (some a) w) f := by
  simp only [freeA, hb]
  refine step_ok ?_ (by simp)
  refine ⟨hi.heap rfl (fun c hh d hd => ?_), fun u => SameOn.refl _ _, fun c hc => setArr_ne _ _ hc, fun u y hy h0 h1 h2 => ⟨y, hy, h0, h1, h2⟩,
    fun u y hy _ => ⟨y, hy, rfl, Nat.le_refl _, fun _ _ => Or.inl rfl⟩, fun u y y' hy _ _ hy' => by
      have : w.vecs u = some y' := hy'
      rw [hy] at this; cases this; rfl, fun u => rfl⟩
  refine ⟨d, ?_, rfl⟩
  have hne : c ≠ a := fun h => ha (h ▸ hh)
  rw [setArr_ne _ _ hne]
  exact hd

theorem create_step {w : W α} (hi : Inv w) {v : Nat} (n : Nat) (hv : w.vecs v = none) (f : Unit → Option Nat) :
    Step A w (.create v n) (create v n w) f := by
  refine step_ok ?_ (by simp)
  refine ⟨⟨fun u y hy => ?_, fun u1 u2 y1 y2 a h1 h2 h3 h4 => ?_⟩, fun u => ?_, fun c hc => rfl, fun u y hy h0 h1 h2 => ?_,
    fun u y hy _ => ?_, fun u y y' hy _ _ hy' => ?_, fun u => ?_⟩
  · by_cases hu : u = v
    · subst hu
      rw [setVec_same] at hy
      cases hy
      refine ⟨fun c hc => (by cases hc), fun c hc => (by cases hc), fun c hc => (by cases hc), fun _ => ⟨fun h => (by cases h), fun h => (by cases h)⟩,
        fun h => (by cases h), fun _ h => absurd h (Nat.lt_irrefl _), fun _ => ⟨rfl, rfl⟩, Or.inl rfl, fun a h => ?_, fun h => (by cases h)⟩
      rcases h with h | h <;> cases h
    · rw [setVec_ne _ _ hu] at hy
      exact (hi.each u y hy).congr (fun a _ b e => ⟨b, e, rfl⟩)
  · by_cases hu1 : u1 = v
    · subst hu1
      rw [setVec_same] at h1
      cases h1
      rcases h3 with h | h <;> cases h
    · by_cases hu2 : u2 = v
      · subst hu2
        rw [setVec_same] at h2
        cases h2
        rcases h4 with h | h <;> cases h
      · rw [setVec_ne _ _ hu1] at h1
        rw [setVec_ne _ _ hu2] at h2
        exact hi.excl _ _ y1 y2 a h1 h2 h3 h4
  · by_cases hu : u = v
    · subst hu
      show SameOn _ _ (put _ _ _ _)
      rw [put_same, vals_eq (setVec_same _ _ _)]
      exact True.intro
    · show SameOn _ _ (put _ _ _ _)
      rw [put_ne hu]
      have : vals (w.setVec v (some ⟨n, 0, 0, none, none, none, none, none, false⟩)) u = vals w u := by
        unfold vals; rw [setVec_ne _ _ hu]
      rw [this]
      exact SameOn.refl _ _
  · by_cases hu : u = v
    · subst hu
      rw [setVec_same] at hy
      cases hy
      cases h2
    · rw [setVec_ne _ _ hu] at hy
      exact ⟨y, hy, h0, h1, h2⟩
  · have hu : u ≠ v := fun h => by subst h; rw [hv] at hy; cases hy
    exact ⟨y, by rw [setVec_ne _ _ hu]; exact hy, rfl, Nat.le_refl _, fun _ _ => Or.inl rfl⟩
  · have hu : u ≠ v := fun h => by subst h; rw [hv] at hy; cases hy
    rw [setVec_ne _ _ hu, hy] at hy'
    cases hy'
    rfl
  · show _ = put _ _ _ _
    by_cases hu : u = v
    · subst hu
      rw [lent_eq (setVec_same _ _ _), put_same]
    · rw [put_ne hu]
      unfold lent
      rw [setVec_ne _ _ hu]

/-- Freeing the owned array of a vector that gets other arrays, or goes. -/
theorem free_out {w : W α} (hi : Inv w) {v : Nat} {x : MVec α} (hx : w.vecs v = some x) :
    ∃ w1, freeA x.owned w = .ok w1 () ∧ w1.vecs = w.vecs ∧ (∀ a, x.owned ≠ some a → w1.heap a = w.heap a) ∧
      ∀ u y a, u ≠ v → w.vecs u = some y → (y.owned = some a ∨ y.borrowed = some a) → w1.heap a = w.heap a := by
  unfold freeA
  cases ho : x.owned with
  | none => exact ⟨w, rfl, rfl, fun _ _ => rfl, fun _ _ _ _ _ _ => rfl⟩
  | some a =>
    obtain ⟨b, hb, _⟩ := (hi.each v x hx).arr a (Or.inl ho)
    simp only [hb]
    have : ∀ c, (some a ≠ some c) → (w.setArr a none).heap c = w.heap c := fun c hc => setArr_ne _ _ (fun h => hc (by rw [h]))
    refine ⟨_, rfl, rfl, this, fun u y c hu hy hc => this c (fun hh => ?_)⟩
    cases hh
    exact hu (hi.excl u v y x a hy hx hc (Or.inl ho))

theorem destroy_step {w : W α} (hi : Inv w) {v : Nat} (hv : Is w v) (f : Unit → Option Nat) :
    Step A w (.destroy v) (destroy v w) f := by
  obtain ⟨x, hx⟩ := hv
  unfold destroy
  simp only [M.bind_apply, getV_eq hx, Out.bind_ok]
  by_cases h1 : x.state % 2 = 0
  swap
  · rw [M.check_false h1]; exact rfl
  rw [M.check_true h1, Out.bind_ok]
  by_cases h2 : x.readers = 0
  swap
  · rw [M.check_false h2]; exact rfl
  rw [M.check_true h2, Out.bind_ok]
  obtain ⟨w1, e, k1, k2, k3⟩ := free_out hi hx
  simp only [destroyMc, M.bind_apply, getV_eq hx, Out.bind_ok]
  have e' : ((freeA x.owned : M (W α) Unit) >>= fun _ w => Out.ok (w.setVec v none) ()) w = .ok (w1.setVec v none) () := by
    show Out.bind (freeA x.owned w) _ = _
    rw [e]; rfl
  rw [e']
  refine step_ok ?_ (by simp)
  have hne : ∀ u y, (w1.setVec v none).vecs u = some y → u ≠ v ∧ w.vecs u = some y := by
    intro u y hy
    by_cases hu : u = v
    · subst hu; rw [setVec_same] at hy; cases hy
    · rw [setVec_ne _ _ hu, k1] at hy; exact ⟨hu, hy⟩
  refine ⟨⟨fun u y hy => ?_, fun u1 u2 y1 y2 a h1 h2 h3 h4 => ?_⟩, fun u => ?_, fun c hc => ?_, fun u y hy h0 h1 h2 => ?_,
    fun u y hy hc => ?_, fun u y y' hy _ _ hy' => ?_, fun u => ?_⟩
  · obtain ⟨hu, hy⟩ := hne u y hy
    exact (hi.each u y hy).congr (fun a ha b e => ⟨b, by show w1.heap a = _; rw [k3 u y a hu hy ha]; exact e, rfl⟩)
  · exact hi.excl u1 u2 y1 y2 a (hne u1 y1 h1).2 (hne u2 y2 h2).2 h3 h4
  · show SameOn _ _ (put _ _ _ _)
    by_cases hu : u = v
    · subst hu
      rw [put_same]
      have : vals (w1.setVec u none) u = none := by unfold vals; rw [setVec_same]; rfl
      rw [this]
      exact True.intro
    · rw [put_ne hu]
      have : vals (w1.setVec v none) u = vals w u := by unfold vals; rw [setVec_ne _ _ hu, k1]
      rw [this]
      exact SameOn.refl _ _
  · exact k2 c (fun h => hc ⟨x, hx, h⟩)
  · exact ⟨y, (hne u y hy).2, h0, h1, h2⟩
  · have hu : u ≠ v := fun h => hc (by rw [h])
    exact ⟨y, by rw [setVec_ne _ _ hu, k1]; exact hy, rfl, Nat.le_refl _, fun _ _ => Or.inl rfl⟩
  · have := (hne u y' hy').2
    rw [hy] at this
    cases this
    rfl
  · show _ = put _ _ _ _
    by_cases hu : u = v
    · subst hu
      rw [put_same]
      unfold lent
      rw [setVec_same]
      rfl
    · rw [put_ne hu]
      unfold lent
      rw [setVec_ne _ _ hu, k1]

/-- A vector gets other arrays after its owned array may have been freed. -/
theorem Post.of_set {w w1 : W α} (hi : Inv w) {m : Mem} {mode : Mode} {src : Option Nat} {v : Nat} {x x' : MVec α} (hx : w.vecs v = some x)
    (h1 : w1.vecs = w.vecs) (h2 : ∀ a, x.owned ≠ some a → w1.heap a = w.heap a)
    (h3 : ∀ u y a, u ≠ v → w.vecs u = some y → (y.owned = some a ∨ y.borrowed = some a) → w1.heap a = w.heap a) (hv : VInv w1 x')
    (hs : ∀ a, (x'.owned = some a ∨ x'.borrowed = some a) → (x.owned = some a ∨ x.borrowed = some a) ∨ ¬ Held w a) (hl : x'.len = x.len)
    (hval : SameOn x.len (x'.alloc.map (·.val)) (newVals A w (.setArray v m mode src) v))
    (hr : x.readers = 0) (hr' : x'.readers = x.readers ∧ x'.rcopy = x.rcopy) (hst : x'.state = x.state + 2)
    (hnl : newLent w (.setArray v m mode src) = put (Memcheck.lent w) v x'.borrowed) :
    Post A w (.setArray v m mode src) (w1.setVec v (some x')) := by
  have hne : ∀ u y, u ≠ v → (w1.setVec v (some x')).vecs u = some y → w.vecs u = some y := by
    intro u y hu hy
    rw [setVec_ne _ _ hu, h1] at hy; exact hy
  refine ⟨⟨fun u y hy => ?_, fun u1 u2 y1 y2 a e1 e2 e3 e4 => ?_⟩, fun u => ?_, fun c hc => ?_, fun u y hy g0 g1 g2 => ?_,
    fun u y hy hc => ?_, fun u y y' hy g1 _ hy' => ?_, fun u => ?_⟩
  · by_cases hu : u = v
    · subst hu
      rw [setVec_same] at hy
      cases hy
      exact hv.congr (fun a _ b e => ⟨b, e, rfl⟩)
    · have hy := hne u y hu hy
      exact (hi.each u y hy).congr (fun a ha b e => ⟨b, by show w1.heap a = _; rw [h3 u y a hu hy ha]; exact e, rfl⟩)
  · by_cases hu1 : u1 = v
    · by_cases hu2 : u2 = v
      · rw [hu1, hu2]
      · subst hu1
        rw [setVec_same] at e1
        cases e1
        have e2 := hne _ _ hu2 e2
        rcases hs a e3 with h | h
        · exact hi.excl _ _ x y2 a hx e2 h e4
        · exact absurd ⟨u2, y2, e2, e4⟩ h
    · replace e1 := hne _ _ hu1 e1
      by_cases hu2 : u2 = v
      · subst hu2
        rw [setVec_same] at e2
        cases e2
        rcases hs a e4 with h | h
        · exact hi.excl _ _ y1 x a e1 hx e3 h
        · exact absurd ⟨u1, y1, e1, e3⟩ h
      · exact hi.excl _ _ y1 y2 a e1 (hne _ _ hu2 e2) e3 e4
  · by_cases hu : u = v
    · subst hu
      rw [vals_eq (setVec_same _ _ _), lenOf_eq (setVec_same _ _ _), hl]
      exact hval
    · have e : newVals A w (.setArray v m mode src) u = Memcheck.vals w u := by
        cases src <;> exact put_ne hu
      rw [e]
      have : Memcheck.vals (w1.setVec v (some x')) u = Memcheck.vals w u := by
        unfold Memcheck.vals; rw [setVec_ne _ _ hu, h1]
      rw [this]
      exact SameOn.refl _ _
  · exact h2 c (fun h => hc ⟨x, hx, h⟩)
  · by_cases hu : u = v
    · subst hu
      rw [setVec_same] at hy
      cases hy
      rw [hr'.1] at g1
      rw [hr'.2] at g2
      exact ⟨x, hx, by rw [hl] at g0; exact g0, g1, g2⟩
    · exact ⟨y, hne _ _ hu hy, g0, g1, g2⟩
  · by_cases hu : u = v
    · subst hu
      rw [hx] at hy
      cases hy
      exact ⟨x', setVec_same _ _ _, hl, by omega, fun h => by omega⟩
    · exact ⟨y, by rw [setVec_ne _ _ hu, h1]; exact hy, rfl, Nat.le_refl _, fun _ _ => Or.inl rfl⟩
  · by_cases hu : u = v
    · subst hu
      rw [hx] at hy
      cases hy
      omega
    · have := hne _ _ hu hy'
      rw [hy] at this
      cases this
      rfl
  · rw [hnl]
    by_cases hu : u = v
    · subst hu
      rw [lent_eq (setVec_same _ _ _), put_same]
    · rw [put_ne hu]
      unfold Memcheck.lent
      rw [setVec_ne _ _ hu, h1]

theorem takeIn_ok {w : W α} (nan : α) {src : Option Nat} {n : Nat} (h : ∀ a, src = some a → ∃ b, w.heap a = some b ∧ n ≤ b.len) :
    ∃ b, takeIn nan src n w = .ok w b ∧ b.len = n ∧ (src = none → b.val = fun _ => nan) ∧ (∀ a, src = some a → ∃ d, w.heap a = some d ∧ b.val = d.val) := by
  unfold takeIn
  cases src with
  | none => exact ⟨_, rfl, rfl, fun _ => rfl, fun a h => (by cases h)⟩
  | some a =>
    obtain ⟨d, hd, hdl⟩ := h a rfl
    simp only [dup, hd, if_pos hdl]
    exact ⟨_, rfl, rfl, fun h => (by cases h), fun c hc => (by cases hc; exact ⟨d, hd, rfl⟩)⟩

theorem setArray_step {w : W α} (hi : Inv w) {v : Nat} (m : Mem) (mode : Mode) (src : Option Nat) {x : MVec α} (hx : w.vecs v = some x)
    (hsrc : ∀ a, src = some a → (∃ b, w.heap a = some b ∧ x.len ≤ b.len) ∧ (mode ≠ .copyValues → ¬ Held w a)) (f : Unit → Option Nat) :
    Step A w (.setArray v m mode src) (setArray A v m mode src w) f := by
  have hV := hi.each v x hx
  unfold setArray
  simp only [M.bind_apply, getV_eq hx, Out.bind_ok]
  rcases lock_out (w := w) x with e | ⟨e, h1, h2⟩
  · rw [e]; exact rfl
  rw [e, Out.bind_ok]
  by_cases h3 : 0 < x.len
  swap
  · rw [if_neg h3]
    simp only [bump, M.bind_apply, getV_eq hx, Out.bind_ok, putV_eq]
    refine step_ok (w' := w.setVec v (some { x with state := x.state + 2 })) ?_ (by simp)
    refine Post.of_vec hi hx ?_ ⟨rfl, rfl⟩ rfl ?_ (fun u hu => ?_)
      (fun h1 h2 => ⟨h1, h2⟩) (by simp) (fun hh => by simp at hh) (fun _ _ => rfl) (fun u => ?_)
    pick_goal 4
    · cases mode with
      | copyValues => rfl
      | _ => show (if lenOf w v = 0 then _ else _ : Nat → Option Nat) u = _; rw [lenOf_eq hx, if_pos (by omega)]
    · exact ⟨hV.al, hV.wl, hV.rl, fun hh => absurd hh h3, hV.wa, hV.rc, hV.slots, hV.one, hV.arr,
        fun hh => absurd hh (by show ¬ (x.state + 2) % 2 = 1; omega)⟩
    · rw [show x.len = 0 by omega]
      exact SameOn.zero _ _
    · cases src <;> exact put_ne hu
  rw [if_pos h3]
  simp only [setArrayMc, M.bind_apply]
  by_cases h5 : m = .host
  swap
  · rw [M.check_false h5]; exact rfl
  subst h5
  rw [M.check_true rfl, Out.bind_ok]
  simp only [getV_eq hx, Out.bind_ok]
  have hw : x.wcopy = none := by
    cases hw : x.wcopy with
    | none => rfl
    | some c =>
      have := (hV.wc h3).2 (by rw [hw]; rfl)
      omega
  have hvals : ∀ b : Buf α, (src = none → b.val = fun _ => A.nan) → (∀ a, src = some a → ∃ d, w.heap a = some d ∧ b.val = d.val) →
      SameOn x.len ((some b).map (·.val)) (newVals A w (.setArray v .host mode src) v) := by
    intro b e1 e2
    cases src with
    | none =>
      show SameOn _ _ (put _ _ _ _)
      rw [put_same, Option.map_some, e1 rfl]
      exact SameOn.refl _ _
    | some a =>
      obtain ⟨d, hd, he⟩ := e2 a rfl
      show SameOn _ _ (put _ _ _ _)
      rw [put_same, Option.map_some, he]
      unfold contents
      rw [hd]
      exact SameOn.refl _ _
  by_cases hm : mode = .copyValues
  · subst hm
    obtain ⟨b, e1, e2, e3, e4⟩ := takeIn_ok (w := w) (n := x.len) A.nan (fun a ha => (hsrc a ha).1)
    simp only [freeOwned, M.pure_apply, Out.bind_ok, e1, putV_eq, bump, M.bind_apply, getV_put, setVec_setVec]
    refine step_ok (w' := w.setVec v (some { x with alloc := some b, state := x.state + 2 })) ?_ (by simp)
    refine Post.of_set hi hx rfl (fun _ _ => rfl) (fun _ _ _ _ _ _ => rfl) ?_ (fun a h => Or.inl h) rfl (hvals b e3 e4) h2 ⟨rfl, rfl⟩ rfl
      (show lent w = put (lent w) v x.borrowed from put_lent hx)
    exact ⟨fun c hc => (by cases hc; exact e2), hV.wl, hV.rl, fun _ => ⟨fun hh => absurd hh (by show ¬ (x.state + 2) % 2 = 1; omega), fun hh => (by
      rw [show ({ x with alloc := some b, state := x.state + 2 } : MVec α).wcopy = x.wcopy from rfl, hw] at hh; cases hh)⟩, fun _ => rfl,
      fun h1 h2 => ⟨(hV.rc h1 h2).1, rfl⟩, fun hc => (by cases hc), hV.one, hV.arr, fun hh => absurd hh (by show ¬ (x.state + 2) % 2 = 1; omega)⟩
  · obtain ⟨w1, k0, k1, k2, k3⟩ := free_out hi hx
    have hf : freeOwned mode x w = .ok w1 () := by
      cases mode with
      | copyValues => exact absurd rfl hm
      | ownPointer => exact k0
      | usePointer => exact k0
    have hk : ∀ a, src = some a → w1.heap a = w.heap a := fun a ha => k2 a (fun ho => (hsrc a ha).2 hm ⟨v, x, hx, Or.inl ho⟩)
    obtain ⟨b, e1, e2, e3, e4⟩ := takeIn_ok (w := w1) (n := x.len) A.nan (src := src) (fun a ha => by rw [hk a ha]; exact (hsrc a ha).1)
    rw [hf, Out.bind_ok, e1, Out.bind_ok]
    have e4' : ∀ a, src = some a → ∃ d, w.heap a = some d ∧ b.val = d.val := fun a ha => by
      obtain ⟨d, hd, he⟩ := e4 a ha
      exact ⟨d, by rw [← hk a ha]; exact hd, he⟩
    have harr : ∀ a, src = some a → ∃ b, w1.heap a = some b ∧ x.len ≤ b.len := fun a ha => by rw [hk a ha]; exact (hsrc a ha).1
    cases mode with
    | copyValues => exact absurd rfl hm
    | ownPointer =>
      simp only [putV_eq, Out.bind_ok, bump, M.bind_apply, getV_put, setVec_setVec]
      refine step_ok (w' := w1.setVec v (some { x with alloc := some b, owned := src, borrowed := none, state := x.state + 2 })) ?_ (by simp)
      refine Post.of_set hi hx k1 k2 k3 ?_ (fun a h => Or.inr ?_) rfl (hvals b e3 e4') h2 ⟨rfl, rfl⟩ rfl
        (by show (if lenOf w v = 0 then _ else _) = _; rw [lenOf_eq hx, if_neg (by omega)])
      · refine ⟨fun c hc => (by cases hc; exact e2), hV.wl, hV.rl, fun _ => ⟨fun hh => absurd hh (by show ¬ (x.state + 2) % 2 = 1; omega), fun hh => (by
          have hh : x.wcopy.isSome = true := hh
          rw [hw] at hh; cases hh)⟩, fun _ => rfl,
          fun h1 h2 => ⟨(hV.rc h1 h2).1, rfl⟩, fun hc => (by cases hc), Or.inr rfl, fun a ha => ?_, fun hh => absurd hh (by show ¬ (x.state + 2) % 2 = 1; omega)⟩
        rcases ha with ha | ha
        · exact harr a ha
        · cases ha
      · rcases h with h | h
        · exact (hsrc a h).2 hm
        · cases h
    | usePointer =>
      simp only [putV_eq, Out.bind_ok, bump, M.bind_apply, getV_put, setVec_setVec]
      refine step_ok (w' := w1.setVec v (some { x with alloc := some b, owned := none, borrowed := src, state := x.state + 2 })) ?_ (by simp)
      refine Post.of_set hi hx k1 k2 k3 ?_ (fun a h => Or.inr ?_) rfl (hvals b e3 e4') h2 ⟨rfl, rfl⟩ rfl
        (by show (if lenOf w v = 0 then _ else _) = _; rw [lenOf_eq hx, if_neg (by omega)])
      · refine ⟨fun c hc => (by cases hc; exact e2), hV.wl, hV.rl, fun _ => ⟨fun hh => absurd hh (by show ¬ (x.state + 2) % 2 = 1; omega), fun hh => (by
          have hh : x.wcopy.isSome = true := hh
          rw [hw] at hh; cases hh)⟩, fun _ => rfl,
          fun h1 h2 => ⟨(hV.rc h1 h2).1, rfl⟩, fun hc => (by cases hc), Or.inl rfl, fun a ha => ?_, fun hh => absurd hh (by show ¬ (x.state + 2) % 2 = 1; omega)⟩
        rcases ha with ha | ha
        · cases ha
        · exact harr a ha
      · rcases h with h | h
        · cases h
        · exact (hsrc a h).2 hm

/-- `CeedVectorRestoreArrayRead`, case by case. -/
theorem restoreArrayRead_out [DecidableEq α] {w : W α} (hi : Inv w) {v : Nat} {x : MVec α} (hx : w.vecs v = some x) :
    (x.readers = 0 ∧ restoreArrayRead v w = .err w .access) ∨
    (0 < x.readers ∧ (x.len = 0 ∨ 1 < x.readers) ∧ restoreArrayRead v w = .ok (w.setVec v (some { x with readers := x.readers - 1 })) ()) ∨
    (0 < x.len ∧ x.readers = 1 ∧ ∃ a r, x.alloc = some a ∧ x.rcopy = some r ∧
      (((∀ i < x.len, a.val i = r.val i) ∧ restoreArrayRead v w = .ok (w.setVec v (some { x with readers := 0, rcopy := none })) ()) ∨
      (¬ (∀ i < x.len, a.val i = r.val i) ∧ restoreArrayRead v w = .err (w.setVec v (some { x with readers := 0 })) .backend))) := by
  have hV := hi.each v x hx
  unfold restoreArrayRead
  simp only [M.bind_apply, getV_eq hx, Out.bind_ok]
  by_cases h1 : 0 < x.readers
  swap
  · exact Or.inl ⟨by omega, by rw [M.check_false h1]; rfl⟩
  rw [M.check_true h1, Out.bind_ok, putV_eq, Out.bind_ok]
  by_cases h2 : 0 < x.len ∧ x.readers - 1 = 0
  swap
  · exact Or.inr (Or.inl ⟨h1, by omega, by rw [if_neg h2]; rfl⟩)
  refine Or.inr (Or.inr ⟨h2.1, by omega, ?_⟩)
  obtain ⟨k1, k2⟩ := hV.rc h2.1 h1
  obtain ⟨r, hr⟩ := Option.isSome_iff_exists.1 k1
  obtain ⟨a, ha⟩ := Option.isSome_iff_exists.1 k2
  have hal := hV.al a ha
  have hrl := hV.rl r hr
  refine ⟨a, r, ha, hr, ?_⟩
  rw [if_pos h2]
  simp only [restoreReadMc, M.bind_apply, getV_put, Out.bind_ok, dup, ha, hr, if_pos (le_of_eq hal.symm), if_pos (le_of_eq hrl.symm), M.lift_ok]
  by_cases h3 : ∀ i < x.len, a.val i = r.val i
  · refine Or.inl ⟨h3, ?_⟩
    rw [M.check_true h3, Out.bind_ok, putV_eq, setVec_setVec]
    simp [h2.2]
  · refine Or.inr ⟨h3, ?_⟩
    rw [M.check_false h3]
    simp [h2.2]

theorem restoreArrayRead_step [DecidableEq α] {w : W α} (hi : Inv w) {v : Nat} (hv : Is w v) :
    match restoreArrayRead v w with
    | .ok w' _ => Post A w (.restoreArrayRead v) w'
    | .err w' k => (w' = w ∧ k = .access) ∨ (k = .backend ∧ ∃ x, w.vecs v = some x ∧ w' = w.setVec v (some { x with readers := 0 }) ∧
        VInv w { x with readers := 0 })
    | .ub => False := by
  obtain ⟨x, hx⟩ := hv
  have hV := hi.each v x hx
  rcases restoreArrayRead_out hi hx with ⟨h1, e⟩ | ⟨h1, h2, e⟩ | ⟨h1, h2, a, r, ha, hr, ⟨h3, e⟩ | ⟨h3, e⟩⟩
  · rw [e]
    exact Or.inl ⟨rfl, rfl⟩
  · rw [e]
    refine Post.of_vec' hi hx ?_ ⟨rfl, rfl⟩ rfl ?_ (fun u hu => rfl) (fun g0 g1 g2 => ?_) (Nat.le_refl _) (fun _ _ => Or.inl rfl) (fun _ _ => rfl)
      (fun _ => rfl)
    · exact ⟨hV.al, hV.wl, hV.rl, hV.wc, hV.wa, fun g _ => hV.rc g h1, hV.slots, hV.one, hV.arr,
        fun hh => (by have := hV.lock hh; show x.readers - 1 = 0; omega)⟩
    · show SameOn _ _ (vals w v)
      rw [vals_eq hx]
      exact SameOn.refl _ _
    · have g1 : x.readers - 1 = 0 := g1
      omega
  · rw [e]
    refine Post.of_vec hi hx ?_ ⟨rfl, rfl⟩ rfl ?_ (fun u hu => rfl) (fun g1 g2 => (by cases g2)) (Nat.le_refl _) (fun _ _ => Or.inl rfl) (fun _ _ => rfl)
    · exact ⟨hV.al, hV.wl, fun c hc => (by cases hc), hV.wc, hV.wa, fun _ g => absurd g (Nat.lt_irrefl _), hV.slots, hV.one, hV.arr, fun _ => rfl⟩
    · show SameOn _ _ (vals w v)
      rw [vals_eq hx]
      exact SameOn.refl _ _
  · rw [e]
    exact Or.inr ⟨rfl, x, hx, rfl, hV.al, hV.wl, hV.rl, hV.wc, hV.wa, fun _ g => absurd g (Nat.lt_irrefl _), hV.slots, hV.one, hV.arr, fun _ => rfl⟩

end Memcheck
end Verif
