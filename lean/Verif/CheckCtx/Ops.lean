import Verif.CheckCtx.Spec

/-!
# Contexts of the checking backend: the arrays that a context keeps
-/

namespace Verif
namespace CheckCtx

open Vector (Mem Mode)

variable {β : Type}

/-- Every pointer leads to its own array, long enough, and every array of the library has a pointer. -/
structure SI (w : W β) (x : KCtx) : Prop where
  ctx : w.ctx = some x
  ok : ∀ s a, x.ptr s = some a → ∃ b, w.heap a = some b ∧ x.size ≤ b.buf.len ∧ b.lib = decide (s ≠ .bor)
  inj : ∀ s t a, x.ptr s = some a → x.ptr t = some a → s = t
  fresh : ∀ a, w.heap a ≠ none → a < w.next
  lib : ∀ a b, w.heap a = some b → b.lib = true → ∃ s, s ≠ .bor ∧ x.ptr s = some a

@[simp] theorem setPtr_same (x : KCtx) (s : Slot) (p : Option Nat) : (x.setPtr s p).ptr s = p := by simp [KCtx.setPtr]
theorem setPtr_ne (x : KCtx) {s t : Slot} (p : Option Nat) (h : t ≠ s) : (x.setPtr s p).ptr t = x.ptr t := by
  simp [KCtx.setPtr, h]
@[simp] theorem setPtr_size (x : KCtx) (s : Slot) (p : Option Nat) : (x.setPtr s p).size = x.size := rfl
@[simp] theorem setPtr_state (x : KCtx) (s : Slot) (p : Option Nat) : (x.setPtr s p).state = x.state := rfl
@[simp] theorem setPtr_readers (x : KCtx) (s : Slot) (p : Option Nat) : (x.setPtr s p).readers = x.readers := rfl
@[simp] theorem setPtr_destroyFn (x : KCtx) (s : Slot) (p : Option Nat) : (x.setPtr s p).destroyFn = x.destroyFn := rfl

theorem getC_eq {w : W β} {x : KCtx} (h : w.ctx = some x) : getC w = .ok w x := by simp [getC, h]
theorem setP_eq {w : W β} {x : KCtx} (h : w.ctx = some x) (s : Slot) (p : Option Nat) :
    setP s p w = .ok { w with ctx := some (x.setPtr s p) } () := by simp [setP, getC_eq h, putC]

theorem Gives.congr {w : W β} {p : Option Nat} {n : Nat} {f g : Nat → β} (h : Gives w p n f) (hfg : ∀ i < n, f i = g i) :
    Gives w p n g := by
  obtain ⟨a, b, e0, e1, e2, e3⟩ := h
  exact ⟨a, b, e0, e1, e2, fun i hi => (e3 i hi).trans (hfg i hi)⟩

theorem Gives.agree {w : W β} {p : Option Nat} {n : Nat} {f g : Nat → β} (h : Gives w p n f) (h' : Gives w p n g) :
    ∀ i < n, f i = g i := by
  intro i hi
  obtain ⟨a, b, e0, e1, e2, e3⟩ := h
  obtain ⟨a', b', g0, g1, g2, g3⟩ := h'
  rw [e0] at g0
  cases g0
  rw [e1] at g1
  cases g1
  exact (e3 i hi).symm.trans (g3 i hi)

/-- What an array contains in another world in which it is the same. -/
theorem Gives.same {w w' : W β} {p : Option Nat} {n : Nat} {f : Nat → β} (h : Gives w p n f)
    (hw : ∀ a, p = some a → w'.heap a = w.heap a) : Gives w' p n f := by
  obtain ⟨a, b, e0, e1, e2⟩ := h
  exact ⟨a, b, e0, by rw [hw a e0]; exact e1, e2⟩

theorem look_eq {w : W β} {p : Option Nat} {n : Nat} {f : Nat → β} (h : Gives w p n f) :
    ∃ b, look p n w = .ok w b ∧ n ≤ b.len ∧ ∀ i < n, b.val i = f i := by
  obtain ⟨a, b, e0, e1, e2, e3⟩ := h
  subst e0
  exact ⟨b.buf, by simp [look, e1, e2], e2, e3⟩

/-- The contents of a slot. -/
theorem SI.gives {w : W β} {x : KCtx} (hi : SI w x) {s : Slot} (h : x.ptr s ≠ none) : ∃ f, Gives w (x.ptr s) x.size f := by
  cases hs : x.ptr s with
  | none => exact absurd hs h
  | some a =>
    obtain ⟨b, g1, g2, _⟩ := hi.ok s a hs
    exact ⟨b.buf.val, a, b, rfl, g1, g2, fun _ _ => rfl⟩

theorem touchSlot_eq {w : W β} {x : KCtx} (hi : SI w x) (s : Slot) : touchSlot s w = .ok w () := by
  cases hs : x.ptr s with
  | none => simp [touchSlot, getC_eq hi.ctx, hs]
  | some a =>
    obtain ⟨b, g1, g2, _⟩ := hi.ok s a hs
    simp [touchSlot, getC_eq hi.ctx, hs, look, g1, g2]

/-- Replace the contents of an array that the context keeps. -/
theorem SI.setBlk {w : W β} {x : KCtx} (hi : SI w x) {a : Nat} {b b' : Blk β} (hb : w.heap a = some b)
    (h2 : b'.buf.len = b.buf.len) (h3 : b'.lib = b.lib) : SI (w.setBlk a (some b')) x := by
  refine ⟨hi.ctx, ?_, hi.inj, ?_, ?_⟩
  · intro s c hc
    obtain ⟨d, g1, g2, g3⟩ := hi.ok s c hc
    by_cases h : c = a
    · subst h
      rw [hb] at g1
      cases g1
      exact ⟨b', by simp [W.setBlk], by rw [h2]; exact g2, h3.trans g3⟩
    · exact ⟨d, by simp [W.setBlk, h, g1], g2, g3⟩
  · intro c hc
    apply hi.fresh
    by_cases h : c = a
    · rw [h, hb]; simp
    · simpa [W.setBlk, h] using hc
  · intro c d hc hd
    by_cases h : c = a
    · subst h
      simp [W.setBlk] at hc
      subst hc
      exact hi.lib c b hb (h3 ▸ hd)
    · exact hi.lib c d (by simpa [W.setBlk, h] using hc) hd

/-- Copy values to an array that the context keeps. -/
theorem fill_spec {w : W β} {x : KCtx} (hi : SI w x) {s : Slot} {a o n : Nat} (hs : x.ptr s = some a) (hn : o + n ≤ x.size)
    (f : Nat → β) : ∃ w', fillA (some a) o n f w = .ok w' () ∧ SI w' x ∧ (∀ c, c ≠ a → w'.heap c = w.heap c) ∧
      (∀ g, Gives w (some a) x.size g → Gives w' (some a) x.size fun i => if o ≤ i ∧ i < o + n then f (i - o) else g i) ∧
      w'.log = w.log := by
  obtain ⟨b, g1, g2, g3⟩ := hi.ok s a hs
  have : o + n ≤ b.buf.len := by omega
  refine ⟨w.setBlk a (some { b with buf := ⟨b.buf.len, fun i => if o ≤ i ∧ i < o + n then f (i - o) else b.buf.val i⟩ }),
    by simp [fillA, g1, this], hi.setBlk g1 rfl rfl, fun c hc => by simp [W.setBlk, hc], ?_, rfl⟩
  rintro g ⟨a', b', e0, e1, e2, e3⟩
  cases e0
  rw [g1] at e1
  cases e1
  refine ⟨a, { b with buf := ⟨b.buf.len, fun i => if o ≤ i ∧ i < o + n then f (i - o) else b.buf.val i⟩ }, rfl,
    by simp [W.setBlk], g2, ?_⟩
  intro i hi'
  dsimp only
  by_cases h : o ≤ i ∧ i < o + n
  · rw [if_pos h, if_pos h]
  · rw [if_neg h, if_neg h]
    exact e3 i hi'

/-- Free the array of a slot. -/
theorem freeSlot_spec {w : W β} {x : KCtx} (hi : SI w x) {s : Slot} (hs : s ≠ .bor) :
    ∃ w', freeSlot s w = .ok w' () ∧ SI w' (x.setPtr s none) ∧ (∀ c, x.ptr s ≠ some c → w'.heap c = w.heap c) ∧
      w'.log = w.log := by
  cases hp : x.ptr s with
  | none =>
    refine ⟨{ w with ctx := some (x.setPtr s none) }, by simp [freeSlot, getC_eq hi.ctx, hp, freeA, setP_eq hi.ctx],
      ⟨rfl, ?_, ?_, hi.fresh, ?_⟩, fun _ _ => rfl, rfl⟩
    · intro t a ht
      by_cases h : t = s
      · subst h; simp at ht
      · rw [setPtr_ne _ _ h] at ht
        exact hi.ok t a ht
    · intro t u a ht hu
      by_cases h : t = s
      · subst h; simp at ht
      · by_cases h' : u = s
        · subst h'; simp at hu
        · rw [setPtr_ne _ _ h] at ht
          rw [setPtr_ne _ _ h'] at hu
          exact hi.inj t u a ht hu
    · intro a b ha hb
      obtain ⟨t, h1, h2⟩ := hi.lib a b ha hb
      refine ⟨t, h1, ?_⟩
      rw [setPtr_ne]
      · exact h2
      · intro h
        subst h
        rw [hp] at h2
        cases h2
  | some c =>
    obtain ⟨b, g1, g2, g3⟩ := hi.ok s c hp
    have hctx : (w.setBlk c none).ctx = some x := hi.ctx
    refine ⟨{ w.setBlk c none with ctx := some (x.setPtr s none) },
      by simp [freeSlot, getC_eq hi.ctx, hp, freeA, g1, setP_eq hctx], ⟨rfl, ?_, ?_, ?_, ?_⟩, ?_, rfl⟩
    · intro t a ht
      by_cases h : t = s
      · subst h; simp at ht
      · rw [setPtr_ne _ _ h] at ht
        have hac : a ≠ c := by
          intro hac
          subst hac
          exact h (hi.inj t s a ht hp)
        obtain ⟨d, e1, e2⟩ := hi.ok t a ht
        exact ⟨d, by simp [W.setBlk, hac, e1], e2⟩
    · intro t u a ht hu
      by_cases h : t = s
      · subst h; simp at ht
      · by_cases h' : u = s
        · subst h'; simp at hu
        · rw [setPtr_ne _ _ h] at ht
          rw [setPtr_ne _ _ h'] at hu
          exact hi.inj t u a ht hu
    · intro a ha
      apply hi.fresh
      intro h
      apply ha
      by_cases hac : a = c <;> simp [W.setBlk, hac, h]
    · intro a d ha hd
      by_cases hac : a = c
      · simp [W.setBlk, hac] at ha
      · obtain ⟨t, h1, h2⟩ := hi.lib a d (by simpa [W.setBlk, hac] using ha) hd
        refine ⟨t, h1, ?_⟩
        rw [setPtr_ne]
        · exact h2
        · intro h
          subst h
          rw [hp] at h2
          exact hac (Option.some.inj h2).symm
    · intro a ha
      have : a ≠ c := fun h => ha (by rw [h])
      simp [W.setBlk, this]

/-- Forget the array of the program. -/
theorem dropBor {w : W β} {x x' : KCtx} (hi : SI w x) (n : Nat) (hx : ∀ s, s ≠ .bor → x'.ptr s = x.ptr s)
    (hb : x'.ptr .bor = none) (hn : x'.size = n) (hs : n = x.size ∨ ∀ s, s ≠ .bor → x.ptr s = none) :
    SI { w with ctx := some x' } x' := by
  refine ⟨rfl, ?_, ?_, hi.fresh, ?_⟩
  · intro s a ha
    by_cases h : s = .bor
    · subst h
      rw [hb] at ha
      cases ha
    · rw [hx s h] at ha
      rcases hs with hs | hs
      · rw [hn, hs]
        exact hi.ok s a ha
      · rw [hs s h] at ha
        cases ha
  · intro s t a h1 h2
    by_cases h : s = .bor
    · subst h
      rw [hb] at h1
      cases h1
    · by_cases h' : t = .bor
      · subst h'
        rw [hb] at h2
        cases h2
      · rw [hx s h] at h1
        rw [hx t h'] at h2
        exact hi.inj s t a h1 h2
  · intro a b h1 h2
    obtain ⟨s, g1, g2⟩ := hi.lib a b h1 h2
    exact ⟨s, g1, by rw [hx s g1]; exact g2⟩

/-- Only flags change. -/
theorem SI.flags {w : W β} {x x' : KCtx} (hi : SI w x) (hp : x'.ptr = x.ptr) (hs : x'.size = x.size) (l : List (Option Nat)) :
    SI { w with ctx := some x', log := l } x' :=
  ⟨rfl, by rw [hp, hs]; exact hi.ok, by rw [hp]; exact hi.inj, hi.fresh, by rw [hp]; exact hi.lib⟩

/-- A new array in an empty slot. -/
theorem newSlot {w : W β} {x : KCtx} (hi : SI w x) {s : Slot} (hs : s ≠ .bor) (hp : x.ptr s = none) (f : Nat → β) :
    ∃ w', newA ⟨x.size, f⟩ w = .ok w' w.next ∧ w'.ctx = some x ∧ w'.log = w.log ∧
      SI { w' with ctx := some (x.setPtr s (some w.next)) } (x.setPtr s (some w.next)) ∧
      Gives w' (some w.next) x.size f ∧ (∀ c, w.heap c ≠ none → w'.heap c = w.heap c) ∧ w.heap w.next = none := by
  have hn : w.heap w.next = none := by
    by_contra h
    exact Nat.lt_irrefl _ (hi.fresh _ h)
  have hne : ∀ t a, x.ptr t = some a → a ≠ w.next := by
    intro t a ht h
    obtain ⟨b, g, _⟩ := hi.ok t a ht
    rw [h, hn] at g
    cases g
  refine ⟨{ w.setBlk w.next (some ⟨⟨x.size, f⟩, true⟩) with next := w.next + 1 }, rfl, hi.ctx, rfl, ⟨rfl, ?_, ?_, ?_, ?_⟩,
    ⟨w.next, ⟨⟨x.size, f⟩, true⟩, rfl, by simp [W.setBlk], Nat.le_refl _, fun _ _ => rfl⟩, ?_, hn⟩
  · intro t a ht
    by_cases h : t = s
    · subst h
      simp at ht
      subst ht
      exact ⟨⟨⟨x.size, f⟩, true⟩, by simp [W.setBlk], Nat.le_refl _, by simp [hs]⟩
    · rw [setPtr_ne _ _ h] at ht
      obtain ⟨b, g1, g2⟩ := hi.ok t a ht
      exact ⟨b, by simp [W.setBlk, hne t a ht, g1], g2⟩
  · intro t u a ht hu
    by_cases h : t = s
    · subst h
      simp at ht
      subst ht
      by_cases h' : u = t
      · exact h'.symm
      · rw [setPtr_ne _ _ h'] at hu
        exact absurd rfl (hne u _ hu)
    · rw [setPtr_ne _ _ h] at ht
      by_cases h' : u = s
      · subst h'
        simp at hu
        subst hu
        exact absurd rfl (hne t _ ht)
      · rw [setPtr_ne _ _ h'] at hu
        exact hi.inj t u a ht hu
  · intro c hc
    show c < w.next + 1
    by_cases h : c = w.next
    · omega
    · have := hi.fresh c (by simpa [W.setBlk, h] using hc)
      omega
  · intro c d hc hd
    by_cases h : c = w.next
    · exact ⟨s, hs, by simp [h]⟩
    · obtain ⟨t, h1, h2⟩ := hi.lib c d (by simpa [W.setBlk, h] using hc) hd
      refine ⟨t, h1, ?_⟩
      rw [setPtr_ne]
      · exact h2
      · intro h'
        subst h'
        rw [hp] at h2
        cases h2
  · intro c hc
    have : c ≠ w.next := fun h => hc (h ▸ hn)
    simp [W.setBlk, this]

/-- Copy the values to the array in a slot, if there is one. -/
theorem copyTo_spec {w : W β} {x : KCtx} {f : Nat → β} (hi : SI w x) (hf : Gives w (x.ptr .alloc) x.size f) {s : Slot} :
    ∃ w', copyTo s w = .ok w' () ∧ SI w' x ∧ (∀ c, x.ptr s ≠ some c → w'.heap c = w.heap c) ∧
      (x.ptr s ≠ none → Gives w' (x.ptr s) x.size f) ∧ w'.log = w.log := by
  cases hs : x.ptr s with
  | none => exact ⟨w, by simp [copyTo, getC_eq hi.ctx, hs], hi, fun _ _ => rfl, fun h => absurd rfl h, rfl⟩
  | some a =>
    obtain ⟨b, h1, h2, h3⟩ := look_eq hf
    obtain ⟨w', g1, g2, g3, g4, g5⟩ := fill_spec hi hs (o := 0) (n := x.size) (by omega) b.val
    refine ⟨w', ?_, g2, fun c hc => g3 c (fun h => hc (by rw [h])), fun _ => ?_, g5⟩
    · simp only [copyTo, M.bind_apply, getC_eq hi.ctx, Out.bind_ok, hs, h1]
      exact g1
    · obtain ⟨g, hg⟩ := hi.gives (s := s) (by rw [hs]; simp)
      rw [hs] at hg
      refine (g4 g hg).congr ?_
      intro i hi'
      rw [if_pos (by omega)]
      exact h3 i hi'

end CheckCtx
end Verif
