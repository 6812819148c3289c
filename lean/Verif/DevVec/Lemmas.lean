import Verif.DevVec.Spec

/-!
# Vectors with arrays on the host and on the device: the invariant
-/

set_option linter.unusedSectionVars false

namespace Verif
namespace DevVec

open Vector (Mem Mode NormType)

variable {α : Type} [CommRing α] [DecidableEq α] {E : Env α}

/-- The array of a memory type, borrowed or owned. -/
def Side.slot (s : Side) : Option Nat := s.bor.or s.own

/-- All valid arrays contain `f`. -/
def Val (w : W α) (x : DVec) (f : Nat → α) : Prop :=
  ∀ m a, (x.side m).arr = some a → ∃ b, w.heap a = some b ∧ ∀ i < x.len, b.buf.val i = f i

/-- Some array is valid. -/
def Valid (x : DVec) : Prop := ∃ m, (x.side m).arr ≠ none

structure VInv (w : W α) (x : DVec) : Prop where
  slot : ∀ m a, (x.side m).slot = some a → ∃ b, w.heap a = some b ∧ b.mem = m ∧ x.len ≤ b.buf.len ∧ (b.lib = true ↔ (x.side m).own = some a)
  one : ∀ m, (x.side m).bor = none ∨ (x.side m).own = none
  arr : ∀ m a, (x.side m).arr = some a → (x.side m).slot = some a
  coh : ∃ f, Val w x f
  odd : x.state % 2 = 1 → ∀ m, (x.side m).arr ≠ none → (x.side (other m)).arr = none
  rd : 0 < x.readers → x.state % 2 = 0
  empty : x.len = 0 → ∀ m, x.side m = ⟨none, none, none⟩

structure Inv (w : W α) : Prop where
  vec : ∀ v x, w.vecs v = some x → VInv w x
  excl : ∀ u v a, HeldBy w u a → HeldBy w v a → u = v
  top : ∀ a, w.next ≤ a → w.heap a = none
  lib : ∀ a b, w.heap a = some b → b.lib = true → ∃ v x m, w.vecs v = some x ∧ (x.side m).own = some a

/-- Other vectors than `v` and their arrays have not changed. -/
structure Ext (w w' : W α) (v : Nat) : Prop where
  vecs : ∀ u, u ≠ v → w'.vecs u = w.vecs u
  heap : ∀ u a, u ≠ v → HeldBy w u a → w'.heap a = w.heap a
  held : ∀ a, HeldBy w' v a → ∀ u, u ≠ v → ¬ HeldBy w u a

/-- As `Ext`, and `v` has got no arrays but its own and new ones. -/
structure Grow (w w' : W α) (v : Nat) : Prop where
  vecs : ∀ u, u ≠ v → w'.vecs u = w.vecs u
  heap : ∀ a, a < w.next → ¬ HeldBy w v a → w'.heap a = w.heap a
  next : w.next ≤ w'.next
  held : ∀ a, HeldBy w' v a → HeldBy w v a ∨ w.next ≤ a

theorem Grow.trans {w w' w'' : W α} {v : Nat} (h : Grow w w' v) (h' : Grow w' w'' v) : Grow w w'' v := by
  refine ⟨fun u hu => (h'.vecs u hu).trans (h.vecs u hu), fun a ha hn => ?_, h.next.trans h'.next, fun a ha => ?_⟩
  · rw [h'.heap a (lt_of_lt_of_le ha h.next), h.heap a ha hn]
    intro hc
    rcases h.held a hc with hc | hc
    · exact hn hc
    · omega
  · rcases h'.held a ha with hc | hc
    · exact h.held a hc
    · exact .inr (h.next.trans hc)

theorem Grow.refl (w : W α) (v : Nat) : Grow w w v := ⟨fun _ _ => rfl, fun _ _ _ => rfl, Nat.le_refl _, fun _ h => .inl h⟩

@[simp] theorem setVec_same (w : W α) (v : Nat) (x : Option DVec) : (w.setVec v x).vecs v = x := by simp [W.setVec]
theorem setVec_ne (w : W α) {v u : Nat} (x : Option DVec) (h : u ≠ v) : (w.setVec v x).vecs u = w.vecs u := by simp [W.setVec, h]
@[simp] theorem setVec_heap (w : W α) (v : Nat) (x : Option DVec) : (w.setVec v x).heap = w.heap := rfl
@[simp] theorem setVec_next (w : W α) (v : Nat) (x : Option DVec) : (w.setVec v x).next = w.next := rfl
@[simp] theorem setArr_same (w : W α) (a : Nat) (b : Option (Blk α)) : (w.setArr a b).heap a = b := by simp [W.setArr]
theorem setArr_ne (w : W α) {a c : Nat} (b : Option (Blk α)) (h : c ≠ a) : (w.setArr a b).heap c = w.heap c := by simp [W.setArr, h]
@[simp] theorem setArr_vecs (w : W α) (a : Nat) (b : Option (Blk α)) : (w.setArr a b).vecs = w.vecs := rfl
@[simp] theorem setArr_next (w : W α) (a : Nat) (b : Option (Blk α)) : (w.setArr a b).next = w.next := rfl
@[simp] theorem other_other (m : Mem) : other (other m) = m := by cases m <;> rfl
theorem other_ne (m : Mem) : other m ≠ m := by cases m <;> simp [other]
theorem eq_or_other (m m' : Mem) : m' = m ∨ m' = other m := by cases m <;> cases m' <;> simp [other]

theorem slot_some {s : Side} {a : Nat} (h : s.slot = some a) : s.bor = some a ∨ s.own = some a := by
  unfold Side.slot at h
  cases hb : s.bor <;> simp_all

theorem VInv.slot_of {w : W α} {x : DVec} (h : VInv w x) {m : Mem} {a : Nat} (ha : (x.side m).own = some a ∨ (x.side m).bor = some a) :
    (x.side m).slot = some a := by
  unfold Side.slot
  rcases ha with ha | ha
  · rcases h.one m with hb | hb
    · rw [hb, ha]; rfl
    · rw [hb] at ha; cases ha
  · rw [ha]; rfl

theorem Inv.held_alloc {w : W α} (hi : Inv w) {v a : Nat} (h : HeldBy w v a) : ∃ b, w.heap a = some b := by
  obtain ⟨x, m, hx, ha⟩ := h
  obtain ⟨b, hb, -⟩ := (hi.vec v x hx).slot m a ((hi.vec v x hx).slot_of ha)
  exact ⟨b, hb⟩

theorem Inv.lt_next {w : W α} (hi : Inv w) {a : Nat} {b : Blk α} (h : w.heap a = some b) : a < w.next := by
  by_contra hc
  rw [hi.top a (by omega)] at h
  cases h

theorem Inv.held_lt {w : W α} (hi : Inv w) {v a : Nat} (h : HeldBy w v a) : a < w.next := by
  obtain ⟨b, hb⟩ := hi.held_alloc h
  exact hi.lt_next hb

theorem heldBy_slot {w : W α} {v : Nat} {x : DVec} (hx : w.vecs v = some x) {m : Mem} {a : Nat} (h : (x.side m).slot = some a) :
    HeldBy w v a := ⟨x, m, hx, (slot_some h).symm⟩

theorem HeldBy.slot {w : W α} (hi : Inv w) {v : Nat} {x : DVec} (hx : w.vecs v = some x) {a : Nat} (h : HeldBy w v a) :
    ∃ m, (x.side m).slot = some a := by
  obtain ⟨y, m, hy, ha⟩ := h
  rw [hx] at hy
  cases hy
  exact ⟨m, (hi.vec v x hx).slot_of ha⟩

theorem Grow.ext {w w' : W α} {v : Nat} (h : Grow w w' v) (hi : Inv w) : Ext w w' v :=
  ⟨h.vecs, fun u a hu ha => h.heap a (hi.held_lt ha) fun hv => hu (hi.excl u v a ha hv), fun a ha u hu hu' => (h.held a ha).elim (fun hc => hu (hi.excl u v a hu' hc)) fun hc => by
    have := hi.held_lt hu'
    omega⟩

/-- The invariant of a vector depends on the arrays it keeps only. -/
theorem VInv.congr {w w' : W α} {x : DVec} (h : VInv w x) (hh : ∀ m a, (x.side m).slot = some a → w'.heap a = w.heap a) : VInv w' x := by
  refine ⟨fun m a ha => by rw [hh m a ha]; exact h.slot m a ha, h.one, h.arr, ?_, h.odd, h.rd, h.empty⟩
  obtain ⟨f, hf⟩ := h.coh
  exact ⟨f, fun m a ha => by rw [hh m a (h.arr m a ha)]; exact hf m a ha⟩

theorem Ext.heap_other {w w' : W α} {v : Nat} (h : Ext w w' v) (_hi : Inv w) {u : Nat} (hu : u ≠ v) {a : Nat} (ha : HeldBy w u a) :
    w'.heap a = w.heap a :=
  h.heap u a hu ha

theorem Ext.heldBy_other {w w' : W α} {v : Nat} (h : Ext w w' v) {u : Nat} (hu : u ≠ v) {a : Nat} : HeldBy w' u a ↔ HeldBy w u a := by
  unfold HeldBy
  rw [h.vecs u hu]

/-- The invariant after a change of one vector. -/
theorem Inv.ext {w w' : W α} (hi : Inv w) {v : Nat} (he : Ext w w' v) (hv : ∀ x', w'.vecs v = some x' → VInv w' x')
    (htop : ∀ a, w'.next ≤ a → w'.heap a = none)
    (hlib : ∀ a b, w'.heap a = some b → b.lib = true → (w.next ≤ a ∨ HeldBy w v a ∨ w'.heap a ≠ w.heap a) → ∃ x' m, w'.vecs v = some x' ∧ (x'.side m).own = some a) :
    Inv w' := by
  refine ⟨fun u x hx => ?_, fun u t a hu ht => ?_, htop, fun a b hb hl => ?_⟩
  · by_cases hu : u = v
    · subst hu; exact hv x hx
    · rw [he.vecs u hu] at hx
      exact (hi.vec u x hx).congr fun m a ha => he.heap_other hi hu (heldBy_slot hx ha)
  · by_cases h1 : u = v
    · subst h1
      by_cases h2 : t = u
      · exact h2.symm
      · exact absurd ((he.heldBy_other h2).1 ht) (he.held a hu t h2)
    · by_cases h2 : t = v
      · subst h2
        exact absurd ((he.heldBy_other h1).1 hu) (he.held a ht u h1)
      · exact hi.excl u t a ((he.heldBy_other h1).1 hu) ((he.heldBy_other h2).1 ht)
  · by_cases h : w.next ≤ a ∨ HeldBy w v a ∨ w'.heap a ≠ w.heap a
    · obtain ⟨x', m, h1, h2⟩ := hlib a b hb hl h
      exact ⟨v, x', m, h1, h2⟩
    · push Not at h
      rw [h.2.2] at hb
      obtain ⟨u, x, m, h1, h2⟩ := hi.lib a b hb hl
      have hu : u ≠ v := fun hc => h.2.1 (hc ▸ ⟨x, m, h1, .inl h2⟩)
      exact ⟨u, x, m, by rw [he.vecs u hu]; exact h1, h2⟩

/-- What one memory type looks like. -/
def Blk.shape (b : Blk α) : Mem × Nat × Bool := (b.mem, b.buf.len, b.lib)

/-- The invariant after a change of the contents and of the validity of the arrays of a vector. -/
theorem Inv.write {w w' : W α} (hi : Inv w) {v : Nat} {x x' : DVec} (hx : w.vecs v = some x) (hx' : w'.vecs v = some x')
    (ho : ∀ u, u ≠ v → w'.vecs u = w.vecs u) (hn : w'.next = w.next)
    (hsh : ∀ a, (w'.heap a).map Blk.shape = (w.heap a).map Blk.shape) (hh : ∀ a, ¬ HeldBy w v a → w'.heap a = w.heap a)
    (hs : ∀ m, (x'.side m).bor = (x.side m).bor ∧ (x'.side m).own = (x.side m).own)
    (ha : ∀ m a, (x'.side m).arr = some a → (x.side m).slot = some a) (hl : x'.len = x.len) {f : Nat → α} (hf : Val w' x' f)
    (hodd : x'.state % 2 = 1 → ∀ m, (x'.side m).arr ≠ none → (x'.side (other m)).arr = none)
    (hrd : 0 < x'.readers → x'.state % 2 = 0) : Inv w' ∧ Grow w w' v := by
  have hslot : ∀ m, (x'.side m).slot = (x.side m).slot := fun m => by unfold Side.slot; rw [(hs m).1, (hs m).2]
  have hheld : ∀ a, HeldBy w' v a → HeldBy w v a := by
    rintro a ⟨y, m, hy, h⟩
    rw [hx'] at hy
    cases hy
    rw [(hs m).1, (hs m).2] at h
    exact ⟨x, m, hx, h⟩
  have hg : Grow w w' v := ⟨ho, fun a _ h => hh a h, by omega, fun a h => .inl (hheld a h)⟩
  have he : Ext w w' v := hg.ext hi
  have hV := hi.vec v x hx
  refine ⟨hi.ext he (fun y hy => ?_) (fun a h => ?_) (fun a b hb hlb h => ?_), hg⟩
  · rw [hx'] at hy
    cases hy
    refine ⟨fun m a h => ?_, fun m => by rw [(hs m).1, (hs m).2]; exact hV.one m, fun m a h => by rw [hslot]; exact ha m a h, ⟨f, hf⟩, hodd,
      hrd, fun h m => ?_⟩
    · rw [hslot] at h
      obtain ⟨b, hb, h1, h2, h3⟩ := hV.slot m a h
      have := hsh a
      rw [hb] at this
      obtain ⟨b', hb', h4⟩ := Option.map_eq_some_iff.1 this
      unfold Blk.shape at h4
      simp only [Prod.mk.injEq] at h4
      refine ⟨b', hb', h4.1.trans h1, by rw [h4.2.1, hl]; exact h2, by rw [h4.2.2, (hs m).2]; exact h3⟩
    · have h0 := hV.empty (hl ▸ h) m
      have h1 : (x'.side m).arr = none := by
        cases hc : (x'.side m).arr with
        | none => rfl
        | some a => have := ha m a hc; rw [h0] at this; cases this
      have h2 := (hs m).1
      have h3 := (hs m).2
      rw [h0] at h2 h3
      cases hside : x'.side m
      rw [hside] at h1 h2 h3
      simp_all
  · have := hsh a
    rw [hi.top a (by omega)] at this
    simpa using this
  · have : ∃ b0, w.heap a = some b0 ∧ b0.lib = true := by
      have := hsh a
      rw [hb] at this
      obtain ⟨b0, h0, h1⟩ := Option.map_eq_some_iff.1 this.symm
      unfold Blk.shape at h1
      simp only [Prod.mk.injEq] at h1
      exact ⟨b0, h0, h1.2.2.trans hlb⟩
    obtain ⟨b0, h0, h1⟩ := this
    have hv : HeldBy w v a := by
      rcases h with h | h | h
      · rw [hi.top a h] at h0; cases h0
      · exact h
      · by_contra hc; exact h (hh a hc)
    obtain ⟨u, y, m, hy, hown⟩ := hi.lib a b0 h0 h1
    have : u = v := hi.excl u v a ⟨y, m, hy, .inl hown⟩ hv
    subst this
    rw [hx] at hy
    cases hy
    exact ⟨x', m, hx', by rw [(hs m).2]; exact hown⟩

theorem Ext.refl (w : W α) (hi : Inv w) (v : Nat) : Ext w w v :=
  ⟨fun _ _ => rfl, fun _ _ _ _ => rfl, fun a h u hu h' => hu (hi.excl u v a h' h)⟩

/-- The world after an allocation for one memory type of a vector. -/
def allocW (w : W α) (v : Nat) (x : DVec) (m : Mem) (f : Nat → α) : W α :=
  W.setVec ⟨fun c => if c = w.next then some ⟨m, ⟨x.len, f⟩, true⟩ else w.heap c, w.next + 1, w.vecs⟩ v
    (some (x.setSide m ⟨none, none, some w.next⟩))

theorem setSide_same (x : DVec) (m : Mem) (s : Side) : (x.setSide m s).side m = s := by simp [DVec.setSide]
theorem setSide_ne (x : DVec) {m m' : Mem} (s : Side) (h : m' ≠ m) : (x.setSide m s).side m' = x.side m' := by simp [DVec.setSide, h]
@[simp] theorem setSide_len (x : DVec) (m : Mem) (s : Side) : (x.setSide m s).len = x.len := rfl
@[simp] theorem setSide_state (x : DVec) (m : Mem) (s : Side) : (x.setSide m s).state = x.state := rfl
@[simp] theorem setSide_readers (x : DVec) (m : Mem) (s : Side) : (x.setSide m s).readers = x.readers := rfl

theorem Inv.alloc {w : W α} (hi : Inv w) {v : Nat} {x : DVec} (hx : w.vecs v = some x) {m : Mem} (hs : (x.side m).slot = none)
    (h0 : 0 < x.len) (f : Nat → α) : Inv (allocW w v x m f) ∧ Grow w (allocW w v x m f) v := by
  have hV := hi.vec v x hx
  have hne : ∀ m' a, ((x.setSide m ⟨none, none, some w.next⟩).side m').slot = some a → (m' = m ∧ a = w.next) ∨ (m' ≠ m ∧ (x.side m').slot = some a) := by
    intro m' a h
    by_cases hm : m' = m
    · subst hm
      rw [setSide_same] at h
      exact .inl ⟨rfl, (Option.some.inj h).symm⟩
    · rw [setSide_ne _ _ hm] at h
      exact .inr ⟨hm, h⟩
  have hvec : (allocW w v x m f).vecs v = some (x.setSide m ⟨none, none, some w.next⟩) := setVec_same _ _ _
  have hg : Grow w (allocW w v x m f) v := by
    refine ⟨fun u hu => setVec_ne _ _ hu, fun a ha _ => ?_, ?_, ?_⟩
    · show (if a = w.next then _ else w.heap a) = _
      rw [if_neg (by omega)]
    · show w.next ≤ w.next + 1
      omega
    · rintro a ⟨y, m', hy, h⟩
      rw [hvec] at hy
      cases hy
      by_cases hm : m' = m
      · subst hm
        rw [setSide_same] at h
        rcases h with h | h
        · cases h; exact .inr (Nat.le_refl _)
        · cases h
      · rw [setSide_ne _ _ hm] at h
        exact .inl ⟨x, m', hx, h⟩
  have hheap : ∀ a, a ≠ w.next → (allocW w v x m f).heap a = w.heap a := fun a h => if_neg h
  refine ⟨hi.ext (hg.ext hi) (fun y hy => ?_) (fun a ha => ?_) (fun a b hb hl h => ?_), hg⟩
  · rw [hvec] at hy
    cases hy
    refine ⟨fun m' a ha => ?_, fun m' => ?_, fun m' a ha => ?_, ?_, fun ho m' hm' => ?_, hV.rd, fun h => ?_⟩
    · rcases hne m' a ha with ⟨h1, h2⟩ | ⟨h1, h2⟩
      · subst h1 h2
        exact ⟨_, if_pos rfl, rfl, Nat.le_refl _, by rw [setSide_same]; simp⟩
      · obtain ⟨b, hb, h3⟩ := hV.slot m' a h2
        rw [setSide_ne _ _ h1]
        refine ⟨b, ?_, h3⟩
        rw [hheap a (by have := hi.lt_next hb; omega)]
        exact hb
    · by_cases hm : m' = m
      · subst hm; rw [setSide_same]; exact .inl rfl
      · rw [setSide_ne _ _ hm]; exact hV.one m'
    · by_cases hm : m' = m
      · subst hm; rw [setSide_same] at ha; cases ha
      · rw [setSide_ne _ _ hm] at ha ⊢; exact hV.arr m' a ha
    · obtain ⟨g, hg⟩ := hV.coh
      refine ⟨g, fun m' a ha => ?_⟩
      by_cases hm : m' = m
      · subst hm; rw [setSide_same] at ha; cases ha
      · rw [setSide_ne _ _ hm] at ha
        obtain ⟨b, hb, h⟩ := hg m' a ha
        refine ⟨b, ?_, h⟩
        rw [hheap a (by have := hi.lt_next hb; omega)]
        exact hb
    · by_cases hm : m' = m
      · subst hm; rw [setSide_same] at hm'; exact absurd rfl hm'
      · rw [setSide_ne _ _ hm] at hm'
        have := hV.odd ho m' hm'
        rcases eq_or_other m m' with h | h
        · exact absurd h hm
        · subst h
          rw [other_other, setSide_same]
    · rw [setSide_len] at h; omega
  · show (if a = w.next then _ else w.heap a) = none
    have : w.next + 1 ≤ a := ha
    rw [if_neg (by omega)]
    exact hi.top a (by omega)
  · by_cases ha : a = w.next
    · subst ha
      exact ⟨_, m, hvec, by rw [setSide_same]⟩
    · rw [hheap a ha] at hb
      have hv : HeldBy w v a := by
        rcases h with h | h | h
        · rw [hi.top a h] at hb; cases hb
        · exact h
        · exact absurd (hheap a ha) h
      obtain ⟨u, y, m', hy, ho⟩ := hi.lib a b hb hl
      have : u = v := hi.excl u v a ⟨y, m', hy, .inl ho⟩ hv
      subst this
      rw [hx] at hy
      cases hy
      refine ⟨_, m', hvec, ?_⟩
      by_cases hm : m' = m
      · subst hm
        have := hV.slot_of (.inl ho)
        rw [hs] at this
        cases this
      · rw [setSide_ne _ _ hm]; exact ho

/-! ## Values -/

theorem Inv.hasVals_iff {w : W α} (hi : Inv w) {v : Nat} {x : DVec} (hx : w.vecs v = some x) {f : Nat → α} :
    HasVals w v f ↔ Valid x ∧ Val w x f := by
  constructor
  · rintro ⟨y, hy, h1, h2⟩
    rw [hx] at hy
    cases hy
    refine ⟨h1, fun m a ha => ?_⟩
    obtain ⟨b, hb, -, -, h⟩ := h2 m a ha
    exact ⟨b, hb, h⟩
  · rintro ⟨h1, h2⟩
    refine ⟨x, hx, h1, fun m a ha => ?_⟩
    obtain ⟨b, hb, h⟩ := h2 m a ha
    obtain ⟨b', hb', h3, h4, -⟩ := (hi.vec v x hx).slot m a ((hi.vec v x hx).arr m a ha)
    rw [hb] at hb'
    cases hb'
    exact ⟨b, hb, h3, h4, h⟩

theorem noVals_iff {w : W α} {v : Nat} {x : DVec} (hx : w.vecs v = some x) : NoVals w v ↔ ¬ Valid x := by
  constructor
  · rintro ⟨y, hy, h⟩ ⟨m, h'⟩
    rw [hx] at hy
    cases hy
    exact h' (h m)
  · intro h
    refine ⟨x, hx, fun m => ?_⟩
    by_contra hc
    exact h ⟨m, hc⟩

theorem Valid.len_pos {w : W α} {x : DVec} (h : VInv w x) (hv : Valid x) : 0 < x.len := by
  by_contra hc
  obtain ⟨m, hm⟩ := hv
  rw [h.empty (by omega) m] at hm
  exact hm rfl

theorem Inv.len_pos {w : W α} (hi : Inv w) {v : Nat} {x : DVec} (hx : w.vecs v = some x) {f : Nat → α} (h : HasVals w v f) : 0 < x.len :=
  Valid.len_pos (hi.vec v x hx) ((hi.hasVals_iff hx).1 h).1

theorem validB_iff {x : DVec} (h : 0 < x.len) : validB x = true ↔ Valid x := by
  unfold validB Valid
  constructor
  · intro h'
    simp only [Bool.or_eq_true, decide_eq_true_eq, Option.isSome_iff_ne_none] at h'
    rcases h' with (h' | h') | h'
    · omega
    · exact ⟨_, h'⟩
    · exact ⟨_, h'⟩
  · rintro ⟨m, hm⟩
    simp only [Bool.or_eq_true, decide_eq_true_eq, Option.isSome_iff_ne_none]
    cases m
    · exact .inl (.inr hm)
    · exact .inr hm

theorem Val.congr {w : W α} {x : DVec} {f g : Nat → α} (h : Val w x f) (hfg : ∀ i < x.len, f i = g i) : Val w x g := fun m a ha => by
  obtain ⟨b, hb, h'⟩ := h m a ha
  exact ⟨b, hb, fun i hi => (h' i hi).trans (hfg i hi)⟩

/-- Other vectors keep their values. -/
theorem Ext.keeps {w w' : W α} {v : Nat} (h : Ext w w' v) (hi : Inv w) {u : Nat} (hu : u ≠ v) : Keeps w w' u := by
  refine ⟨?_, ?_⟩
  · rintro f ⟨x, hx, h1, h2⟩
    refine ⟨x, by rw [h.vecs u hu]; exact hx, h1, fun m a ha => ?_⟩
    rw [h.heap_other hi hu (heldBy_slot hx ((hi.vec u x hx).arr m a ha))]
    exact h2 m a ha
  · rintro ⟨x, hx, h1⟩
    exact ⟨x, by rw [h.vecs u hu]; exact hx, h1⟩

theorem Keeps.refl (w : W α) (v : Nat) : Keeps w w v := ⟨fun _ h => h, id⟩
theorem Keeps.trans {w w' w'' : W α} {v : Nat} (h : Keeps w w' v) (h' : Keeps w' w'' v) : Keeps w w'' v :=
  ⟨fun f hf => h'.1 f (h.1 f hf), fun hn => h'.2 (h.2 hn)⟩

end DevVec
end Verif
