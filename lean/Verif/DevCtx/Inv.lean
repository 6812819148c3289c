import Verif.DevCtx.Spec

/-!
# Contexts on the host and on the device: the invariant and copies between the two memories
-/

namespace Verif
namespace DevCtx

open Vector (Mem Mode)

variable {β : Type}

/-- The pointers of one memory type lead to arrays in that memory. -/
structure SideOK (h : Nat → Option (Blk β)) (n : Nat) (m : Mem) (s : Side) : Prop where
  own : ∀ a, s.own = some a → ∃ b, h a = some b ∧ b.mem = m ∧ n ≤ b.buf.len ∧ b.lib = true
  bor : ∀ a, s.bor = some a → ∃ b, h a = some b ∧ b.mem = m ∧ n ≤ b.buf.len ∧ b.lib = false
  excl : s.own = none ∨ s.bor = none
  arr : ∀ a, s.arr = some a → s.own = some a ∨ s.bor = some a

/-- The values of a context. -/
def VX (w : W β) (x : DCtx) (f : Nat → β) : Prop :=
  (∃ m, (x.side m).arr ≠ none) ∧ ∀ m, (x.side m).arr ≠ none → Gives w (x.side m).arr m x.size f

/-- The invariant. -/
structure Inv (w : W β) (x : DCtx) : Prop where
  ctx : w.ctx = some x
  side : ∀ m, SideOK w.heap x.size m (x.side m)
  coh : (∀ m, (x.side m).arr = none) ∨ ∃ f, VX w x f
  odd : x.state % 2 = 1 → ∃ m, (x.side m).arr ≠ none ∧ (x.side (other m)).arr = none
  fresh : ∀ a, w.heap a ≠ none → a < w.next
  lib : ∀ a b, w.heap a = some b → b.lib = true → ∃ m, (x.side m).own = some a
  rd : 0 < x.readers → x.state % 2 = 0

@[simp] theorem other_ne (m : Mem) : other m ≠ m := by cases m <;> decide
@[simp] theorem ne_other (m : Mem) : m ≠ other m := by cases m <;> decide
@[simp] theorem other_other (m : Mem) : other (other m) = m := by cases m <;> rfl

theorem eq_or_other (m m' : Mem) : m' = m ∨ m' = other m := by cases m <;> cases m' <;> simp [other]

@[simp] theorem setSide_same (x : DCtx) (m : Mem) (s : Side) : (x.setSide m s).side m = s := by simp [DCtx.setSide]
@[simp] theorem setSide_other (x : DCtx) (m : Mem) (s : Side) : (x.setSide m s).side (other m) = x.side (other m) := by
  simp [DCtx.setSide]
@[simp] theorem setSide_size (x : DCtx) (m : Mem) (s : Side) : (x.setSide m s).size = x.size := rfl
@[simp] theorem setSide_state (x : DCtx) (m : Mem) (s : Side) : (x.setSide m s).state = x.state := rfl
@[simp] theorem setSide_readers (x : DCtx) (m : Mem) (s : Side) : (x.setSide m s).readers = x.readers := rfl
@[simp] theorem setSide_destroyFn (x : DCtx) (m : Mem) (s : Side) : (x.setSide m s).destroyFn = x.destroyFn := rfl

/-- A property of both memory types from the two. -/
theorem both {P : Mem → Prop} (m : Mem) (h1 : P m) (h2 : P (other m)) : ∀ m', P m' := by
  intro m'
  rcases eq_or_other m m' with h | h <;> subst h <;> assumption

theorem validB_iff (x : DCtx) : validB x = true ↔ ∃ m, (x.side m).arr ≠ none := by
  unfold validB
  rw [Bool.or_eq_true, Option.isSome_iff_ne_none, Option.isSome_iff_ne_none]
  constructor
  · rintro (h | h)
    · exact ⟨_, h⟩
    · exact ⟨_, h⟩
  · rintro ⟨m, h⟩
    cases m
    · exact Or.inl h
    · exact Or.inr h

theorem getC_eq {w : W β} {x : DCtx} (h : w.ctx = some x) : getC w = .ok w x := by simp [getC, h]

theorem Inv.vals {w : W β} {x : DCtx} (hi : Inv w x) (hv : validB x = true) : ∃ f, VX w x f := by
  obtain ⟨m, hm⟩ := (validB_iff x).1 hv
  rcases hi.coh with h | h
  · exact absurd (h m) hm
  · exact h

/-- What `syncB` does when there is something to copy. -/
theorem syncB_run {w : W β} {x : DCtx} {f : Nat → β} (m : Mem) (hi : Inv w x) (hf : VX w x f) (hm : (x.side m).arr = none) :
    ∃ a b s nx, syncB m w = .ok ⟨fun c => if c = a then some b else w.heap c, nx, some (x.setSide m s)⟩ () ∧
      w.next ≤ nx ∧ a < nx ∧ b.mem = m ∧ x.size ≤ b.buf.len ∧ (∀ i < x.size, b.buf.val i = f i) ∧ s.arr = some a ∧
      s.bor = (x.side m).bor ∧
      ((b.lib = true ∧ s.own = some a ∧ (x.side m).bor = none ∧
          (((x.side m).own = some a ∧ ∃ b', w.heap a = some b' ∧ b'.buf.len = b.buf.len) ∨
            ((x.side m).own = none ∧ w.heap a = none))) ∨
        (b.lib = false ∧ s.own = none ∧ (x.side m).bor = some a ∧ (x.side m).own = none ∧
          ∃ b', w.heap a = some b' ∧ b'.buf.len = b.buf.len)) := by
  have hv : validB x = true := (validB_iff x).2 hf.1
  have ho : (x.side (other m)).arr ≠ none := by
    obtain ⟨m', h'⟩ := hf.1
    rcases eq_or_other m m' with h | h <;> subst h
    · exact absurd hm h'
    · exact h'
  obtain ⟨a0, b0, e0, e1, e2, e3, e4⟩ := hf.2 _ ho
  have hs := hi.side m
  generalize hS : x.side m = S at hs hm ⊢
  obtain ⟨arr, bor, own⟩ := S
  dsimp only at hm hs ⊢
  subst hm
  have hlook : look (other m) (some a0) x.size w = .ok w b0.buf := by simp [look, e1, e2, e3]
  have hmain : syncB m w = (pick m ⟨x.size, b0.buf.val⟩ ⟨none, bor, own⟩ w).bind fun w1 s =>
      (putC (x.setSide m s) w1).bind fun w2 _ => fillA m s.arr 0 x.size b0.buf.val w2 := by
    unfold syncB
    simp only [M.bind_apply, getC_eq hi.ctx, Out.bind_ok, hS, hv, e0, Option.isSome_some, M.check_true, hlook, and_self,
      if_true]
  cases hb : bor with
  | some a =>
    subst hb
    obtain ⟨b, g1, g2, g3, g4⟩ := hs.bor a rfl
    have hn : own = none := by
      rcases hs.excl with h | h
      · exact h
      · simp at h
    subst hn
    refine ⟨a, { b with buf := ⟨b.buf.len, fun i => if i < x.size then b0.buf.val i else b.buf.val i⟩ },
      ⟨some a, some a, none⟩, w.next, ?_, Nat.le_refl _, hi.fresh a (by rw [g1]; simp), g2, g3, ?_, rfl, rfl,
      Or.inr ⟨g4, rfl, rfl, rfl, b, g1, rfl⟩⟩
    · rw [hmain]
      simp [pick, putC, fillA, g1, g2, g3, W.setBlk]
    · intro i hlt
      simp only [if_pos hlt]
      exact e4 i hlt
  | none =>
    subst hb
    cases hw : own with
    | some a =>
      subst hw
      obtain ⟨b, g1, g2, g3, g4⟩ := hs.own a rfl
      refine ⟨a, { b with buf := ⟨b.buf.len, fun i => if i < x.size then b0.buf.val i else b.buf.val i⟩ },
        ⟨some a, none, some a⟩, w.next, ?_, Nat.le_refl _, hi.fresh a (by rw [g1]; simp), g2, g3, ?_, rfl, rfl,
        Or.inl ⟨g4, rfl, rfl, Or.inl ⟨rfl, b, g1, rfl⟩⟩⟩
      · rw [hmain]
        simp [pick, putC, fillA, g1, g2, g3, W.setBlk]
      · intro i hlt
        simp only [if_pos hlt]
        exact e4 i hlt
    | none =>
      subst hw
      refine ⟨w.next, ⟨m, ⟨x.size, fun i => if i < x.size then b0.buf.val i else b0.buf.val i⟩, true⟩,
        ⟨some w.next, none, some w.next⟩, w.next + 1, ?_, Nat.le_succ _, Nat.lt_succ_self _, rfl, Nat.le_refl _, ?_, rfl, rfl,
        Or.inl ⟨rfl, rfl, rfl, Or.inr ⟨rfl, ?_⟩⟩⟩
      · rw [hmain]
        simp only [pick, putC, fillA, alloc, W.setBlk, M.bind_apply, Out.bind_ok, M.pure_apply, if_true]
        simp
        funext c
        by_cases hc : c = w.next <;> simp [hc]
      · intro i hlt
        simp only [if_pos hlt]
        exact e4 i hlt
      · by_contra hne
        exact Nat.lt_irrefl _ (hi.fresh _ hne)

/-- Some array the context keeps. -/
def HX (x : DCtx) (a : Nat) : Prop := ∃ m, (x.side m).own = some a ∨ (x.side m).bor = some a

theorem held_iff {w : W β} {x : DCtx} (h : w.ctx = some x) (a : Nat) : Held w a ↔ HX x a := by
  constructor
  · rintro ⟨x', m, h1, h2⟩
    rw [h] at h1
    cases h1
    exact ⟨m, h2⟩
  · rintro ⟨m, h2⟩
    exact ⟨x, m, h, h2⟩

/-- What a copy to one memory keeps. -/
structure Synced (w w' : W β) (x x' : DCtx) (m : Mem) : Prop where
  size : x'.size = x.size
  readers : x'.readers = x.readers
  destroyFn : x'.destroyFn = x.destroyFn
  bor : ∀ m', (x'.side m').bor = (x.side m').bor
  own : ∀ a b, HX x' a → w.heap a = some b → HX x a
  heap : ∀ a b, w.heap a = some b → ((∃ m', (x.side m').arr = some a) ∨ ¬ HX x a) → w'.heap a = some b
  len : ∀ c d, (x'.side (other m)).own = some c ∨ (x'.side (other m)).bor = some c → w'.heap c = some d →
    ((x.side (other m)).own = some c ∨ (x.side (other m)).bor = some c) ∧ w.heap c = some d
  mine : ∀ c d, (x'.side m).own = some c ∨ (x'.side m).bor = some c → w'.heap c = some d →
    x.size ≤ d.buf.len ∧ (w.heap c = none ∨ ∃ d', ((x.side m).own = some c ∨ (x.side m).bor = some c) ∧
      w.heap c = some d' ∧ d'.buf.len = d.buf.len)

/-- A copy to the memory `m`. -/
theorem syncB_spec {w : W β} {x : DCtx} {f : Nat → β} (m : Mem) (hi : Inv w x) (hf : VX w x f) (he : x.state % 2 = 0) :
    ∃ w' s, syncB m w = .ok w' () ∧ Inv w' (x.setSide m s) ∧ VX w' (x.setSide m s) f ∧ s.arr ≠ none ∧
      Synced w w' x (x.setSide m s) m ∧ ((x.side m).arr ≠ none → s = x.side m) := by
  by_cases hm : (x.side m).arr = none
  · obtain ⟨a, b, s, nx, hr, k1, k2, k3, k4, k5, k6, k7, k8⟩ := syncB_run m hi hf hm
    have hfree : ∀ c, (x.side (other m)).own = some c ∨ (x.side (other m)).bor = some c → c ≠ a := by
      intro c hc hca
      subst hca
      have h1 : ∃ b', w.heap c = some b' ∧ b'.mem = other m := by
        rcases hc with hc | hc
        · obtain ⟨b', g1, g2, _⟩ := (hi.side (other m)).own c hc
          exact ⟨b', g1, g2⟩
        · obtain ⟨b', g1, g2, _⟩ := (hi.side (other m)).bor c hc
          exact ⟨b', g1, g2⟩
      obtain ⟨b', g1, g2⟩ := h1
      have h2 : ∃ b', w.heap c = some b' ∧ b'.mem = m := by
        rcases k8 with ⟨_, _, _, ⟨h, _⟩ | ⟨_, h⟩⟩ | ⟨_, _, h, _⟩
        · obtain ⟨b', g1, g2, _⟩ := (hi.side m).own c h
          exact ⟨b', g1, g2⟩
        · rw [g1] at h
          cases h
        · obtain ⟨b', g1, g2, _⟩ := (hi.side m).bor c h
          exact ⟨b', g1, g2⟩
      obtain ⟨b'', g3, g4⟩ := h2
      rw [g1] at g3
      cases g3
      rw [g2] at g4
      exact other_ne m g4
    have hoSide : SideOK (fun c => if c = a then some b else w.heap c) x.size (other m) (x.side (other m)) := by
      have h := hi.side (other m)
      refine ⟨?_, ?_, h.excl, h.arr⟩
      · intro c hc
        simp only [if_neg (hfree c (Or.inl hc))]
        exact h.own c hc
      · intro c hc
        simp only [if_neg (hfree c (Or.inr hc))]
        exact h.bor c hc
    have hmSide : SideOK (fun c => if c = a then some b else w.heap c) x.size m s := by
      refine ⟨?_, ?_, ?_, ?_⟩
      · intro c hc
        rcases k8 with ⟨g1, g2, g3, _⟩ | ⟨g1, g2, g3, _⟩
        · rw [g2] at hc
          cases hc
          exact ⟨b, by simp, k3, k4, g1⟩
        · rw [g2] at hc
          cases hc
      · intro c hc
        rw [k7] at hc
        rcases k8 with ⟨g1, g2, g3, _⟩ | ⟨g1, g2, g3, _⟩
        · rw [g3] at hc
          cases hc
        · rw [g3] at hc
          cases hc
          exact ⟨b, by simp, k3, k4, g1⟩
      · rcases k8 with ⟨g1, g2, g3, _⟩ | ⟨g1, g2, g3, _⟩
        · exact Or.inr (k7.trans g3)
        · exact Or.inl g2
      · intro c hc
        rw [k6] at hc
        cases hc
        rcases k8 with ⟨g1, g2, g3, _⟩ | ⟨g1, g2, g3, _⟩
        · exact Or.inl g2
        · exact Or.inr (k7.trans g3)
    have hV : VX ⟨fun c => if c = a then some b else w.heap c, nx, some (x.setSide m s)⟩ (x.setSide m s) f := by
      refine ⟨⟨m, by simp [k6]⟩, both m ?_ ?_⟩
      · intro _
        rw [setSide_same]
        exact ⟨a, b, k6, by simp, k3, k4, k5⟩
      · intro ho
        rw [setSide_other] at ho ⊢
        obtain ⟨a0, b0, e0, e1, e2, e3, e4⟩ := hf.2 _ ho
        have : a0 ≠ a := hfree a0 ((hi.side (other m)).arr a0 e0)
        exact ⟨a0, b0, e0, by simp [this, e1], e2, e3, e4⟩
    refine ⟨_, s, hr, ⟨rfl, both m (by rw [setSide_same]; exact hmSide) (by rw [setSide_other]; exact hoSide),
      Or.inr ⟨f, hV⟩, ?_, ?_, ?_, hi.rd⟩, hV, by simp [k6], ⟨rfl, rfl, rfl, ?_, ?_, ?_, ?_, ?_⟩, fun h => absurd hm h⟩
    · intro h
      rw [setSide_state] at h
      omega
    · intro c hc
      dsimp only at hc ⊢
      by_cases hca : c = a
      · subst hca
        exact k2
      · rw [if_neg hca] at hc
        exact lt_of_lt_of_le (hi.fresh c hc) k1
    · intro c d hc hd
      dsimp only at hc
      by_cases hca : c = a
      · subst hca
        rw [if_pos rfl] at hc
        cases hc
        rcases k8 with ⟨g1, g2, _⟩ | ⟨g1, _⟩
        · exact ⟨m, by rw [setSide_same]; exact g2⟩
        · rw [g1] at hd
          cases hd
      · rw [if_neg hca] at hc
        obtain ⟨m', h'⟩ := hi.lib c d hc hd
        rcases eq_or_other m m' with h | h <;> subst h
        · rcases k8 with ⟨_, _, _, ⟨h, _⟩ | ⟨h, _⟩⟩ | ⟨_, _, _, h, _⟩
          · rw [h] at h'
            exact absurd (Option.some.inj h').symm hca
          · rw [h] at h'
            cases h'
          · rw [h] at h'
            cases h'
        · exact ⟨_, by rw [setSide_other]; exact h'⟩
    · exact both m (by rw [setSide_same]; exact k7) (by rw [setSide_other])
    · rintro c d ⟨m', h'⟩ hd
      rcases eq_or_other m m' with h | h <;> subst h
      · rw [setSide_same, k7] at h'
        rcases h' with h' | h'
        · rcases k8 with ⟨_, g, _, ⟨h, _⟩ | ⟨h, h2⟩⟩ | ⟨_, h, _⟩
          · rw [g] at h'
            cases h'
            exact ⟨_, Or.inl h⟩
          · rw [g] at h'
            cases h'
            rw [hd] at h2
            cases h2
          · rw [h] at h'
            cases h'
        · exact ⟨_, Or.inr h'⟩
      · rw [setSide_other] at h'
        exact ⟨_, h'⟩
    · intro c d hc hcond
      have : c ≠ a := by
        intro hca
        subst hca
        rcases hcond with ⟨m', h'⟩ | h'
        · rcases eq_or_other m m' with h | h <;> subst h
          · rw [hm] at h'
            cases h'
          · exact hfree c ((hi.side _).arr c h') rfl
        · apply h'
          rcases k8 with ⟨_, _, _, ⟨h, _⟩ | ⟨_, h⟩⟩ | ⟨_, _, h, _⟩
          · exact ⟨m, Or.inl h⟩
          · rw [hc] at h
            cases h
          · exact ⟨m, Or.inr h⟩
      simp only [if_neg this]
      exact hc
    · intro c d hc hd
      rw [setSide_other] at hc
      dsimp only at hd
      rw [if_neg (hfree c hc)] at hd
      exact ⟨hc, hd⟩
    · intro c d hc hd
      rw [setSide_same, k7] at hc
      dsimp only at hd
      rcases k8 with ⟨_, g, g', h⟩ | ⟨_, g, g', _, b', h1, h2⟩
      · rw [g, g'] at hc
        rcases hc with hc | hc
        · cases hc
          rw [if_pos rfl] at hd
          cases hd
          refine ⟨k4, ?_⟩
          rcases h with ⟨h, b', h1, h2⟩ | ⟨_, h⟩
          · exact Or.inr ⟨b', Or.inl h, h1, h2⟩
          · exact Or.inl h
        · cases hc
      · rw [g, g'] at hc
        rcases hc with hc | hc
        · cases hc
        · cases hc
          rw [if_pos rfl] at hd
          cases hd
          exact ⟨k4, Or.inr ⟨b', Or.inr g', h1, h2⟩⟩
  · have hx : x.setSide m (x.side m) = x := by
      have : (x.setSide m (x.side m)).side = x.side := by
        funext m'
        exact both (P := fun m' => (x.setSide m (x.side m)).side m' = x.side m') m (setSide_same ..) (setSide_other ..) m'
      cases x
      simp only [DCtx.setSide] at this ⊢
      rw [this]
    refine ⟨w, x.side m, ?_, by rw [hx]; exact hi, by rw [hx]; exact hf, hm, ?_, fun _ => rfl⟩
    · unfold syncB
      simp [getC_eq hi.ctx, hm]
    · rw [hx]
      refine ⟨rfl, rfl, rfl, fun _ => rfl, fun _ _ h _ => h, fun _ _ h _ => h, fun _ _ h h' => ⟨h, h'⟩, ?_⟩
      intro c d hc hd
      refine ⟨?_, Or.inr ⟨d, hc, hd, rfl⟩⟩
      rcases hc with hc | hc
      · obtain ⟨d', g1, _, g2, _⟩ := (hi.side m).own c hc
        rw [hd] at g1
        cases g1
        exact g2
      · obtain ⟨d', g1, _, g2, _⟩ := (hi.side m).bor c hc
        rw [hd] at g1
        cases g1
        exact g2

end DevCtx
end Verif
