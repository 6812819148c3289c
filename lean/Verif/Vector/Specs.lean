import Verif.Vector.Track

/-!
# Specifications of the calls in terms of tracked accesses
-/

namespace Verif
namespace Vector

set_option linter.unusedSectionVars false

section
variable {α : Type _} [Zero α]
variable {w0 w : World α} {d l : Vid → Nat} {v : Vid} {x : Vec} {S : Prop}

@[simp] theorem dec_inc (d : Vid → Nat) (v : Vid) : dec (inc d v) v = d := by
  funext u; simp only [dec, inc]; split <;> simp
@[simp] theorem inc_self (d : Vid → Nat) (v : Vid) : inc d v v = d v + 1 := by simp [inc]
theorem inc_ne (d : Vid → Nat) {v u : Vid} (h : u ≠ v) : inc d v u = d u := by simp [inc, h]

/-- A new array for an unlocked vector without one. -/
theorem Trk.alloc (ht : Trk w0 d l w) (h : w.vecs v = some x) (hf : x.free) (hl : 0 < x.len)
    (ha : x.array = none) {b : Buf α} (hb : x.len ≤ b.len) :
    Trk w0 d l ((w.push b).setVec v
      (some { x with state := x.state + 2, owned := some w.next, array := some w.next })) := by
  obtain ⟨x0, h0, hs⟩ := ht.get0 h
  have hn := ht.fresh w.next (Nat.le_refl _)
  have hl0 : l v = 0 := by
    by_contra hl
    have := (hs.odd hl).2.1
    have := hf.1
    omega
  have he := hs.even hl0
  have hr := hs.readers
  have f0 : x0.free := ⟨by have := hf.1; omega, by have := hf.2; omega⟩
  have hd0 : d v = 0 := by have := hf.2; omega
  have hm := hs.mono
  have ha0 : x0.array = none := by
    rcases hs.slot with ⟨e1, _⟩ | ⟨_, _, _, _, a', _, e1, _⟩
    · rw [← e1, ha]
    · rw [ha] at e1; cases e1
  have hslot : ∀ y0 y, SlotStep w0 w y0 y → SlotStep w0 ((w.push b).setVec v
      (some { x with state := x.state + 2, owned := some w.next, array := some w.next })) y0 y := by
    intro y0 y hy
    refine hy.imp id ?_
    rintro ⟨h1, h2, h3, h4, c, e, h5, h6, h7, h8, h9, h10⟩
    exact ⟨h1, h2, h3, h4, c, e, h5, h6, h7, by simp; omega, by simp; rw [if_neg (by omega)]; exact h9, h10⟩
  have hne : ∀ u y, u ≠ v → w.vecs u = some y → y.array = some w.next →
      ∃ y0, w0.vecs u = some y0 ∧ y0.array = some w.next := by
    intro u y _ hy hya
    obtain ⟨y0, hy0, hys⟩ := ht.get0 hy
    rcases hys.slot with ⟨e1, _⟩ | ⟨_, _, _, _, a', _, e1, _, _, e4, _⟩
    · exact ⟨y0, hy0, by rw [← e1, hya]⟩
    · rw [hya] at e1; cases e1; omega
  refine ⟨ht.nextVec, by have := ht.next; simp; omega, ?_, ?_, ?_, ?_, ?_, ?_⟩
  · intro c hc
    simp at hc
    have : c ≠ w.next := by omega
    simp [this, ht.fresh c (by omega)]
  · intro u
    by_cases hu : u = v
    · subst hu; simp [h0]
    · simp [hu, ht.dead u]
  · intro u y0 y hy0 hy
    by_cases hu : u = v
    · subst hu
      rw [h0] at hy0; cases hy0
      simp at hy; subst hy
      refine ⟨hs.parent, hs.refs, hs.len, hs.borrowed, hs.readers, by show x0.state ≤ x.state + 2; omega, ?_, ?_,
        fun _ => f0, hs.reading, hs.rlock, ?_⟩
      · intro _; show (x.state + 2) % 2 = _; omega
      · intro hh; exact absurd hl0 hh
      · exact Or.inr ⟨by have := hs.len; omega, ha0, f0, by show x0.state + 2 ≤ x.state + 2; omega, w.next, b, rfl, rfl,
          ht.next, by simp, by simp, hb⟩
    · simp [hu] at hy
      have := ht.vec u y0 y hy0 hy
      exact { this with slot := hslot _ _ this.slot }
  · intro a c hc
    obtain ⟨b', h1, h2, h3⟩ := ht.heap a c hc
    have hne : a ≠ w.next := by rintro rfl; rw [hn] at h1; cases h1
    refine ⟨b', by simp [hne, h1], h2, h3.imp id ?_⟩
    rintro ⟨u, y0, y, e0, e1, e2, e3, e4⟩
    by_cases hu : u = v
    · subst hu
      rw [h0] at e0; cases e0
      rw [ha0] at e2; cases e2
    · exact ⟨u, y0, y, e0, by simp [hu, e1], e2, e3, e4⟩
  · intro a c h1 h2
    by_cases hne : a = w.next
    · subst hne
      exact ⟨ht.next, v, x0, { x with state := x.state + 2, owned := some w.next, array := some w.next }, h0, by simp,
        ha0, rfl, rfl⟩
    · simp [hne] at h2
      obtain ⟨h3, u, y0, y, e0, e1, e2, e3, e4⟩ := ht.new a c h1 h2
      refine ⟨h3, ?_⟩
      by_cases hu : u = v
      · subst hu
        rw [h] at e1; cases e1
        rw [ha] at e3; cases e3
      · exact ⟨u, y0, y, e0, by simp [hu, e1], e2, e3, e4⟩
  · intro u1 u2 x1 x2 a hu h1 h2 h3 h4
    by_cases e1 : u1 = v
    · subst e1
      simp at h1; subst h1
      simp at h3; subst h3
      have e2 : u2 ≠ u1 := Ne.symm hu
      simp [e2] at h2
      obtain ⟨y0, g1, g2⟩ := hne u2 x2 e2 h2 h4
      exact ⟨u2, y0, Or.inr rfl, g1, g2⟩
    · simp [e1] at h1
      by_cases e2 : u2 = v
      · subst e2
        simp at h2; subst h2
        simp at h4; subst h4
        obtain ⟨y0, g1, g2⟩ := hne u1 x1 e1 h1 h3
        exact ⟨u1, y0, Or.inl rfl, g1, g2⟩
      · simp [e2] at h2
        exact ht.inj u1 u2 x1 x2 a hu h1 h2 h3 h4

/-- `state += 2` on an unlocked vector. -/
theorem Trk.bump2 (ht : Trk w0 d l w) (h : w.vecs v = some x) (hf : x.free) :
    Trk w0 d l (w.setVec v (some { x with state := x.state + 2 })) := by
  have h1 := ht.lock h hf
  have h2 := h1.unlock (v := v) (x := { x with state := x.state + 1 }) (by simp) (by
    obtain ⟨x0, h0, hs⟩ := ht.get0 h
    have : l v = 0 := by
      by_contra hl
      have := (hs.odd hl).2.1
      have := hf.1
      omega
    simp [this])
  simpa using h2.2

/-- Write access can be granted. -/
def Vec.canWrite (x : Vec) (m : Mem) : Prop := x.free ∧ (0 < x.len → x.array.isSome ∧ m = .host)
/-- Read access can be granted. -/
def Vec.canRead (x : Vec) (m : Mem) : Prop := x.state % 2 = 0 ∧ (0 < x.len → x.array.isSome ∧ m = .host)

/-- Pointer handed out. -/
def Vec.ptr (x : Vec) : Option Addr := if 0 < x.len then x.array else none

variable {β : Type _} {Q : World α → β → Prop} {E : World α → Err → Prop}

theorem wp_getV {Q : World α → Vec → Prop} (hS : S → ∃ x, w.vecs v = some x) (hQ : ∀ x, w.vecs v = some x → Q w x) :
    M.wp S (getV v) w Q E := by
  cases h : w.vecs v with
  | none =>
    refine M.wp_of_eq_ub (getV_none h) ?_
    intro hs
    obtain ⟨x, hx⟩ := hS hs
    rw [h] at hx; cases hx
  | some x => exact M.wp_of_eq_ok (getV_some h) (hQ x h)

theorem wp_hasValid {Q : World α → Bool → Prop} (h : w.vecs v = some x) (hQ : Q w (decide x.valid)) :
    M.wp S (hasValidArray v) w Q E := M.wp_of_eq_ok (hasValid_eq h) hQ

theorem wp_hasValid' {Q : World α → Bool → Prop} (hS : S → ∃ x, w.vecs v = some x)
    (hQ : ∀ x, w.vecs v = some x → Q w (decide x.valid)) : M.wp S (hasValidArray v) w Q E := by
  cases h : w.vecs v with
  | none =>
    refine M.wp_of_eq_ub (by unfold hasValidArray; simp [h]) ?_
    intro hs
    obtain ⟨x, hx⟩ := hS hs
    rw [h] at hx; cases hx
  | some x => exact wp_hasValid h (hQ x h)

theorem wp_lockChecks {Q : World α → Unit → Prop} (h1 : x.free → Q w ()) (h2 : ¬ x.free → E w .access) :
    M.wp S (lockChecks x) w Q E := by
  by_cases hf : x.free
  · exact M.wp_of_eq_ok (by rw [lockChecks_eq, if_pos hf]) (h1 hf)
  · exact M.wp_of_eq_err (by rw [lockChecks_eq, if_neg hf]) (h2 hf)

theorem wp_getArray {Q : World α → Option Addr → Prop} {m : Mem} (ht : Trk w0 d l w) (h : w.vecs v = some x)
    (hQ : x.canWrite m → Trk w0 d (inc l v) (w.setVec v (some { x with state := x.state + 1 })) →
      Q (w.setVec v (some { x with state := x.state + 1 })) x.ptr)
    (hE : ∀ e, ¬ x.canWrite m → E w e) : M.wp S (getArray v m) w Q E := by
  by_cases hc : x.canWrite m
  · refine M.wp_of_eq_ok ?_ (hQ hc (ht.lock h hc.1))
    rw [getArray_eq h, if_pos hc.1]
    unfold Vec.ptr
    by_cases hl : 0 < x.len
    · rw [if_pos hl, if_pos (hc.2 hl), if_pos hl]
    · rw [if_neg hl, if_neg hl]
  · have : ∃ e, getArray v m w = .err w e := by
      rw [getArray_eq h]
      unfold Vec.canWrite at hc
      by_cases hf : x.free
      · by_cases hl : 0 < x.len
        · exact ⟨.backend, by rw [if_pos hf, if_pos hl, if_neg (fun hh => hc ⟨hf, fun _ => hh⟩)]⟩
        · exact absurd ⟨hf, fun hh => absurd hh hl⟩ hc
      · exact ⟨.access, by rw [if_neg hf]⟩
    obtain ⟨e, he⟩ := this
    exact M.wp_of_eq_err he (hE e hc)

theorem wp_getArrayRead {Q : World α → Option Addr → Prop} {m : Mem} (ht : Trk w0 d l w) (h : w.vecs v = some x)
    (hQ : x.canRead m → Trk w0 (inc d v) l (w.setVec v (some { x with readers := x.readers + 1 })) →
      Q (w.setVec v (some { x with readers := x.readers + 1 })) x.ptr)
    (hE : ∀ e, ¬ x.canRead m → E w e) : M.wp S (getArrayRead v m) w Q E := by
  by_cases hc : x.canRead m
  · refine M.wp_of_eq_ok ?_ (hQ hc (ht.rlock h hc.1))
    rw [getArrayRead_eq h, if_pos hc.1]
    unfold Vec.ptr
    by_cases hl : 0 < x.len
    · rw [if_pos hl, if_pos (hc.2 hl), if_pos hl]
    · rw [if_neg hl, if_neg hl]
  · have : ∃ e, getArrayRead v m w = .err w e := by
      rw [getArrayRead_eq h]
      unfold Vec.canRead at hc
      by_cases hf : x.state % 2 = 0
      · by_cases hl : 0 < x.len
        · exact ⟨.backend, by rw [if_pos hf, if_pos hl, if_neg (fun hh => hc ⟨hf, fun _ => hh⟩)]⟩
        · exact absurd ⟨hf, fun hh => absurd hh hl⟩ hc
      · exact ⟨.access, by rw [if_neg hf]⟩
    obtain ⟨e, he⟩ := this
    exact M.wp_of_eq_err he (hE e hc)

theorem wp_restoreArray {Q : World α → Unit → Prop} (ht : Trk w0 d l w) (h : w.vecs v = some x) (hl : l v = 1)
    (hQ : Trk w0 d (dec l v) (w.setVec v (some { x with state := x.state + 1 })) →
      Q (w.setVec v (some { x with state := x.state + 1 })) ()) : M.wp S (restoreArray v) w Q E := by
  obtain ⟨h1, h2⟩ := ht.unlock h hl
  exact M.wp_of_eq_ok (by rw [restoreArray_eq h, if_pos h1]) (hQ h2)

theorem wp_restoreArrayRead {Q : World α → Unit → Prop} (ht : Trk w0 d l w) (h : w.vecs v = some x) (hd : d v ≠ 0)
    (hQ : Trk w0 (dec d v) l (w.setVec v (some { x with readers := x.readers - 1 })) →
      Q (w.setVec v (some { x with readers := x.readers - 1 })) ()) : M.wp S (restoreArrayRead v) w Q E := by
  obtain ⟨h1, h2⟩ := ht.runlock h hd
  exact M.wp_of_eq_ok (by rw [restoreArrayRead_eq h, if_pos h1]) (hQ h2)

/-- `CeedVectorSetArray` with `CEED_COPY_VALUES` inside a call. -/
theorem wp_setArrayCopy {Q : World α → Unit → Prop} {src : Option Addr} (ht : Trk w0 d l w) (hw : WF w0)
    (h : w.vecs v = some x) (hSm : S → src.isSome → MemOK w0)
    (hSs : S → x.free → ∀ s, src = some s → 0 < x.len → ∃ b, w.heap s = some b ∧ x.len ≤ b.len ∧ x.array ≠ some s)
    (hQ : ∀ w' x', x.free → w'.vecs = (w.setVec v (some x')).vecs → x'.len = x.len → x'.state = x.state + 2 →
      x'.readers = x.readers → (0 < x.len → x'.array.isSome) → (x.array.isSome → x'.array = x.array) →
      Trk w0 d l w' → Q w' ())
    (hE : ¬ x.free → E w .access) : M.wp S (setArray v .host .copyValues src) w Q E := by
  by_cases hf : x.free
  swap
  · exact M.wp_of_eq_err (by unfold setArray; simp [h, lockChecks_eq, hf]) (hE hf)
  by_cases hl : 0 < x.len
  swap
  · refine M.wp_of_eq_ok (s' := w.setVec v (some { x with state := x.state + 2 })) ?_
      (hQ _ _ hf rfl rfl rfl rfl (fun hh => absurd hh hl) (fun _ => rfl) (ht.bump2 h hf))
    unfold setArray
    simp [h, lockChecks_eq, hf, hl, bump_eq h]
  have hn := ht.fresh w.next (Nat.le_refl _)
  have hx := setArray_copy h (ht.slots hw h) hf hl src
  cases ha : x.array with
  | some a =>
    cases hsrc : src with
    | none =>
      rw [hsrc] at hx
      simp only [ha] at hx
      rw [← ha] at hx
      exact M.wp_of_eq_ok hx (hQ _ _ hf rfl rfl rfl rfl (fun _ => by simp [ha]) (fun _ => rfl) (ht.bump2 h hf))
    | some s =>
      rw [hsrc] at hx
      simp only [ha] at hx
      rw [← ha] at hx
      rcases memcpy_cases a s x.len.toNat w with ⟨e, hne⟩ | ⟨bd, bs, e1, e2, e3, e4, e5, e⟩
      · rw [ha, e] at hx
        refine M.wp_of_eq_ub hx ?_
        intro hS
        obtain ⟨bs, h1, h2, h3⟩ := hSs hS hf s hsrc hl
        obtain ⟨bd, h4, h5⟩ := ht.mem (hSm hS (by simp [hsrc])) h ha
        exact hne ⟨bd, bs, h4, h1, by omega, by omega, by rintro rfl; exact h3 ha⟩
      · have he := e
        rw [ha, he] at hx
        rw [← ha] at hx
        refine M.wp_of_eq_ok hx (hQ _ { x with state := x.state + 2 } hf ?_ rfl rfl rfl (fun _ => by simp [ha]) (fun _ => rfl) ?_)
        · rfl
        · have h1 := ht.bump2 h hf
          have h2 := h1.write hw (v := v) (x := { x with state := x.state + 2 }) (by simp) (a := a) ha (b := bd)
            (b' := ⟨bd.len, fun i => if i < x.len.toNat then bs.val i else bd.val i⟩) e1 rfl (by
              intro x0 h0
              have hs := ht.vec v x0 x h0 h
              refine ⟨?_, by have := hs.mono; show x0.state < x.state + 2; omega⟩
              have hl0 : l v = 0 := by
                by_contra hl
                have := (hs.odd hl).2.1
                have := hf.1
                omega
              have := hs.even hl0
              have := hs.readers
              exact ⟨by have := hf.1; omega, by have := hf.2; omega⟩)
          exact h2
  | none =>
    cases hsrc : src with
    | none =>
      rw [hsrc] at hx
      simp only [ha] at hx
      exact M.wp_of_eq_ok hx (hQ _ _ hf rfl rfl rfl rfl (fun _ => rfl) (by simp [ha]) (ht.alloc h hf hl ha (by simp)))
    | some s =>
      rw [hsrc] at hx
      simp only [ha] at hx
      rcases memcpy_cases w.next s x.len.toNat (w.push ⟨x.len.toNat, fun _ => 0⟩) with
        ⟨e, hne⟩ | ⟨bd, bs, e1, e2, e3, e4, e5, e⟩
      · rw [e] at hx
        refine M.wp_of_eq_ub hx ?_
        intro hS
        obtain ⟨bs, h1, h2, h3⟩ := hSs hS hf s hsrc hl
        have hsn : s ≠ w.next := by rintro rfl; rw [hn] at h1; cases h1
        exact hne ⟨⟨x.len.toNat, fun _ => 0⟩, bs, by simp, by simp [hsn, h1], by simp, by omega, hsn.symm⟩
      · rw [e] at hx
        simp only [Out.bind_ok, push_setBlk] at hx
        simp at e1
        refine M.wp_of_eq_ok hx (hQ _ _ hf rfl rfl rfl rfl (fun _ => rfl) (by simp [ha]) (ht.alloc h hf hl ha ?_))
        simp [← e1]

theorem wp_getArrayWrite {Q : World α → Option Addr → Prop} {m : Mem} (ht : Trk w0 d l w) (hw : WF w0)
    (h : w.vecs v = some x)
    (hQ : ∀ w' x' p, x.free → (0 < x.len → m = .host) → w'.vecs = (w.setVec v (some x')).vecs → x'.len = x.len →
      (0 < x.len → x'.array.isSome) →
      p = x'.ptr → (x.array.isSome → x'.array = x.array) → Trk w0 d (inc l v) w' → Q w' p)
    (hE1 : ¬ x.free → E w .access)
    (hE2 : ∀ w', 0 < x.len → m ≠ .host → (w' = w ∨ x.array = none) → Trk w0 d l w' → E w' .backend) :
    M.wp S (getArrayWrite v m) w Q E := by
  unfold getArrayWrite
  rw [M.wp_bind]
  refine M.wp_of_eq_ok (getV_some h) ?_
  rw [M.wp_bind]
  refine wp_lockChecks (fun hf => ?_) hE1
  refine M.wp_ite (fun hl => ?_) (fun hl => ?_)
  · rw [M.wp_bind]
    unfold getArrayWriteRef
    rw [M.wp_bind]
    refine M.wp_of_eq_ok (getV_some h) ?_
    refine M.wp_ite (fun ha => ?_) (fun ha => ?_)
    · unfold M.wp
      rw [getArrayCore_eq h]
      by_cases hm : m = .host
      · rw [if_pos hm]
        show M.wp S _ w Q E
        rw [M.wp_bind]
        refine M.wp_of_eq_ok (bump_eq h 1) ?_
        exact hQ _ _ _ hf (fun _ => hm) rfl rfl (fun _ => ha) (by simp [Vec.ptr, hl]) (fun _ => rfl) (ht.lock h hf)
      · rw [if_neg hm]
        exact hE2 w hl hm (Or.inl rfl) ht
    · rw [M.wp_bind]
      refine wp_setArrayCopy (S := S) ht hw h (by simp) (by simp) ?_ (fun hh => absurd hf hh)
      · intro w1 x1 _ hv hlen hst hr hsome _ ht1
        have h1 : w1.vecs v = some x1 := by rw [hv]; simp
        unfold M.wp
        rw [getArrayCore_eq h1]
        by_cases hm : m = .host
        · rw [if_pos hm]
          show M.wp S _ w1 Q E
          rw [M.wp_bind]
          refine M.wp_of_eq_ok (bump_eq h1 1) ?_
          refine hQ _ { x1 with state := x1.state + 1 } _ hf (fun _ => hm) ?_ hlen hsome (by simp [Vec.ptr, hlen, hl])
            (fun hh => absurd hh ha) (ht1.lock h1 ⟨by have := hf.1; omega, by have := hf.2; omega⟩)
          funext u
          simp only [setVec_vecs, hv]
          split <;> rfl
        · rw [if_neg hm]
          exact hE2 w1 hl hm (Or.inr (by simpa using ha)) ht1
  · rw [M.wp_bind]
    refine M.wp_of_eq_ok (bump_eq h 1) ?_
    exact hQ _ _ _ hf (fun hh => absurd hh hl) rfl rfl (fun hh => absurd hh hl) (by simp [Vec.ptr, hl]) (fun _ => rfl)
      (ht.lock h hf)

end
end Vector
end Verif
