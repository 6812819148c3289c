import Verif.DevCtx.Calls

/-!
# Contexts on the host and on the device: every history
-/

namespace Verif
namespace DevCtx

open Vector (Mem Mode)

variable {β : Type}

/-- The context was destroyed, and its arrays are freed. -/
structure Gone (w : W β) : Prop where
  ctx : w.ctx = none
  fresh : ∀ a, w.heap a ≠ none → a < w.next
  lib : ∀ a b, w.heap a = some b → b.lib = false

/-- What histories lead to. -/
def Good (w : W β) : Prop := (∃ x, Inv w x) ∨ Gone w

theorem hasVals_of {w : W β} {x : DCtx} {f : Nat → β} (h : w.ctx = some x) (hf : VX w x f) : HasVals w x.size f :=
  ⟨x, h, rfl, hf.1, hf.2⟩

theorem hasVals_inv {w : W β} {x : DCtx} {n : Nat} {f : Nat → β} (h : w.ctx = some x) (hf : HasVals w n f) :
    x.size = n ∧ VX w x f := by
  obtain ⟨x', h1, h2, h3, h4⟩ := hf
  rw [h] at h1
  cases h1
  subst h2
  exact ⟨rfl, h3, h4⟩

theorem VX.congr {w : W β} {x : DCtx} {f g : Nat → β} (hf : VX w x f) (h : ∀ i < x.size, f i = g i) : VX w x g := by
  refine ⟨hf.1, fun m hm => ?_⟩
  obtain ⟨a, b, e0, e1, e2, e3, e4⟩ := hf.2 m hm
  exact ⟨a, b, e0, e1, e2, e3, fun i hi => (e4 i hi).trans (h i hi)⟩

theorem VX.agree {w : W β} {x : DCtx} {f g : Nat → β} (hf : VX w x f) (hg : VX w x g) : ∀ i < x.size, f i = g i := by
  intro i hi
  obtain ⟨m, hm⟩ := hf.1
  obtain ⟨a, b, e0, e1, e2, e3, e4⟩ := hf.2 m hm
  obtain ⟨a', b', g0, g1, g2, g3, g4⟩ := hg.2 m hm
  rw [e0] at g0
  cases g0
  rw [e1] at g1
  cases g1
  exact (e4 i hi).symm.trans (g4 i hi)

theorem keeps_of {w w' : W β} {x x' : DCtx} {f : Nat → β} (h : w.ctx = some x) (h' : w'.ctx = some x')
    (hs : x'.size = x.size) (hf : VX w x f) (hf' : VX w' x' f) : Keeps w w' := by
  refine ⟨?_, ?_⟩
  · intro n g hg
    obtain ⟨h1, h2⟩ := hasVals_inv h hg
    subst h1
    rw [← hs]
    exact hasVals_of h' (hf'.congr fun i hi => (hf.agree h2) i (hs ▸ hi))
  · rintro ⟨x0, g1, g2⟩
    rw [h] at g1
    cases g1
    obtain ⟨m, hm⟩ := hf.1
    exact absurd (g2 m) hm

/-- Only flags change. -/
theorem keeps_flags {w w' : W β} {x x' : DCtx} (h : w.ctx = some x) (h' : w'.ctx = some x') (hw : w'.heap = w.heap)
    (hs : x'.size = x.size) (ha : x'.side = x.side) : Keeps w w' := by
  refine ⟨?_, ?_⟩
  · intro n g hg
    obtain ⟨h1, h2⟩ := hasVals_inv h hg
    subst h1
    rw [← hs]
    exact hasVals_of h' (h2.put hw hs (fun _ => Or.inl (by rw [ha])) (by rw [ha]; exact h2.1))
  · rintro ⟨x0, g1, g2⟩
    rw [h] at g1
    cases g1
    exact ⟨x', h', by rw [ha]; exact g2⟩

theorem keeps_refl (w : W β) : Keeps w w := ⟨fun _ _ h => h, fun h => h⟩

/-- Writing to the array that access for writing is granted to. -/
theorem updBlk {w : W β} {x : DCtx} {m : Mem} {a : Nat} {b b' : Blk β} (hi : Inv w x) (ho : x.state % 2 = 1)
    (ha : (x.side m).arr = some a) (hb : w.heap a = some b) (h1 : b'.mem = b.mem) (h2 : b'.buf.len = b.buf.len)
    (h3 : b'.lib = b.lib) : Inv (w.setBlk a (some b')) x ∧ VX (w.setBlk a (some b')) x b'.buf.val := by
  have hoth : (x.side (other m)).arr = none := by
    obtain ⟨m1, g1, g2⟩ := hi.odd ho
    rcases eq_or_other m1 m with h | h <;> subst h
    · exact g2
    · rw [g2] at ha
      cases ha
  have hupd : ∀ c d, w.heap c = some d → ∃ d', (w.setBlk a (some b')).heap c = some d' ∧ d'.mem = d.mem ∧
      d'.buf.len = d.buf.len ∧ d'.lib = d.lib := by
    intro c d hc
    by_cases h : c = a
    · subst h
      rw [hb] at hc
      cases hc
      exact ⟨b', by simp [W.setBlk], h1, h2, h3⟩
    · exact ⟨d, by simp [W.setBlk, h, hc], rfl, rfl, rfl⟩
  have hlen : ∃ d, w.heap a = some d ∧ d.mem = m ∧ x.size ≤ d.buf.len := by
    rcases (hi.side m).arr a ha with h | h
    · obtain ⟨d, g1, g2, g3, _⟩ := (hi.side m).own a h
      exact ⟨d, g1, g2, g3⟩
    · obtain ⟨d, g1, g2, g3, _⟩ := (hi.side m).bor a h
      exact ⟨d, g1, g2, g3⟩
  have hV : VX (w.setBlk a (some b')) x b'.buf.val := by
    refine ⟨⟨m, by rw [ha]; simp⟩, both m ?_ ?_⟩
    · intro _
      obtain ⟨d, g1, g2, g3⟩ := hlen
      rw [hb] at g1
      cases g1
      exact ⟨a, b', ha, by simp [W.setBlk], h1.trans g2, by rw [h2]; exact g3, fun _ _ => rfl⟩
    · intro h
      exact absurd hoth h
  refine ⟨⟨hi.ctx, ?_, Or.inr ⟨_, hV⟩, hi.odd, ?_, ?_, hi.rd⟩, hV⟩
  · intro m'
    have h := hi.side m'
    refine ⟨?_, ?_, h.excl, h.arr⟩
    · intro c hc
      obtain ⟨d, g1, g2, g3, g4⟩ := h.own c hc
      obtain ⟨d', e1, e2, e3, e4⟩ := hupd c d g1
      exact ⟨d', e1, e2.trans g2, by rw [e3]; exact g3, e4.trans g4⟩
    · intro c hc
      obtain ⟨d, g1, g2, g3, g4⟩ := h.bor c hc
      obtain ⟨d', e1, e2, e3, e4⟩ := hupd c d g1
      exact ⟨d', e1, e2.trans g2, by rw [e3]; exact g3, e4.trans g4⟩
  · intro c hc
    apply hi.fresh
    by_cases h : c = a
    · rw [h, hb]
      simp
    · simpa [W.setBlk, h] using hc
  · intro c d hc hd
    by_cases h : c = a
    · subst h
      simp [W.setBlk] at hc
      subst hc
      exact hi.lib c b hb (h3 ▸ hd)
    · exact hi.lib c d (by simpa [W.setBlk, h] using hc) hd

/-- Arrays that the context does not keep. -/
theorem outside {w : W β} {x : DCtx} {h : Nat → Option (Blk β)} {n : Nat} (hi : Inv w x)
    (hk : ∀ a, HX x a → h a = w.heap a) (hf : ∀ a, h a ≠ none → a < n)
    (hl : ∀ a b, h a = some b → b.lib = true → w.heap a = some b) :
    Inv ⟨h, n, w.ctx⟩ x ∧ Keeps w ⟨h, n, w.ctx⟩ := by
  have hV : ∀ f, VX w x f → VX ⟨h, n, w.ctx⟩ x f := by
    intro f hf
    refine ⟨hf.1, fun m hm => ?_⟩
    obtain ⟨a, b, e0, e1, e2⟩ := hf.2 m hm
    refine ⟨a, b, e0, ?_, e2⟩
    show h a = some b
    rw [hk a ⟨m, (hi.side m).arr a e0⟩]
    exact e1
  refine ⟨⟨hi.ctx, ?_, ?_, hi.odd, hf, fun a b h1 h2 => hi.lib a b (hl a b h1 h2) h2, hi.rd⟩, ?_, ?_⟩
  · intro m
    have hs := hi.side m
    refine ⟨?_, ?_, hs.excl, hs.arr⟩
    · intro a ha
      show ∃ b, h a = some b ∧ _
      rw [hk a ⟨m, Or.inl ha⟩]
      exact hs.own a ha
    · intro a ha
      show ∃ b, h a = some b ∧ _
      rw [hk a ⟨m, Or.inr ha⟩]
      exact hs.bor a ha
  · rcases hi.coh with h | ⟨f, h⟩
    · exact Or.inl h
    · exact Or.inr ⟨f, hV f h⟩
  · intro k f hkf
    obtain ⟨h1, h2⟩ := hasVals_inv hi.ctx hkf
    subst h1
    exact hasVals_of hi.ctx (hV f h2)
  · rintro ⟨x', g1, g2⟩
    exact ⟨x', g1, g2⟩

/-- `CeedQFunctionContextSetData`. -/
theorem setData_spec {w : W β} {x : DCtx} (m : Mem) (mode : Mode) (n a : Nat) (b : Blk β) (hi : Inv w x)
    (hb : w.heap a = some b) (hbm : b.mem = m) (hbn : n ≤ b.buf.len) (hbl : b.lib = false)
    (hmode : mode ≠ .copyValues → HX x a → (x.side m).bor = some a)
    (hd1 : x.destroyFn ≠ none → ¬ HX x a) (hd2 : x.destroyFn = some (other m) → n ≤ x.size)
    (hlen : ∀ c d, (x.side (other m)).own = some c ∨ (x.side (other m)).bor = some c → w.heap c = some d → n ≤ d.buf.len) :
    (∃ w' x', setData m mode n (some a) w = .ok w' () ∧ Inv w' x' ∧ x'.size = n ∧ VX w' x' b.buf.val ∧
      (mode = .usePointer → (x'.side m).bor = some a)) ∨ ∃ e, setData m mode n (some a) w = .err w e := by
  by_cases he : x.state % 2 = 0
  · rcases destroyData_spec hi he with ⟨w1, x1, h1, h2, h3, h4⟩ | ⟨e, h⟩
    · left
      have key : w1.heap a = some b ∧ (mode ≠ .copyValues → HX x1 a → (x1.side m).bor = some a) ∧
          ∀ c d, (x1.side (other m)).own = some c ∨ (x1.side (other m)).bor = some c → w1.heap c = some d → n ≤ d.buf.len := by
        rcases h4 with ⟨_, g1, g2⟩ | ⟨m0, g1, g2⟩
        · subst g1 g2
          exact ⟨hb, hmode, hlen⟩
        · have hna := hd1 (by rw [g1]; simp)
          refine ⟨g2.heap a b hb (Or.inr hna), fun _ h => absurd (g2.own a b h hb) hna, ?_⟩
          intro c d hc hd
          rcases eq_or_other m m0 with h | h <;> subst h
          · obtain ⟨k1, k2⟩ := g2.len c d hc hd
            exact hlen c d k1 k2
          · obtain ⟨k1, k2⟩ := g2.mine c d hc hd
            have := hd2 g1
            omega
      obtain ⟨k1, k2, k3⟩ := key
      obtain ⟨w', x', r1, r2, r3, r4, r5⟩ := setTail_spec m mode n a b h2 h3 k1 hbm hbn hbl k2 k3
      refine ⟨w', x', ?_, r2, r3, r4, r5⟩
      simp only [M.bind_apply] at r1
      simp only [setData, M.bind_apply, getC_eq hi.ctx, Out.bind_ok, M.check_true he, h1]
      exact r1
    · exact Or.inr ⟨e, by simp [setData, getC_eq hi.ctx, he, h]⟩
  · exact Or.inr ⟨.minor, by simp [setData, getC_eq hi.ctx, he]⟩

/-- `CeedQFunctionContextDestroy`. -/
theorem destroy_spec {w : W β} {x : DCtx} (hi : Inv w x) :
    (∃ w', destroy w = .ok w' () ∧ Gone w') ∨ ∃ e, destroy w = .err w e := by
  by_cases he : x.state % 2 = 0
  · rcases destroyData_spec hi he with ⟨w1, x1, h1, h2, h3, h4⟩ | ⟨e, h⟩
    · left
      obtain ⟨h, f1, f2, f3, f4⟩ := freeOwn .device h2 w1 rfl
      have hfree2 : ∃ h', freeA .host (x1.side .host).own ({ w1 with heap := h } : W β) = .ok { w1 with heap := h' } () ∧
          (∀ a b, h' a = some b → h a = some b) ∧ ∀ a, (x1.side .host).own = some a → h' a = none := by
        cases hx : (x1.side .host).own with
        | none => exact ⟨h, by simp [freeA], fun _ _ h => h, fun _ h => by cases h⟩
        | some c =>
          obtain ⟨b, g1, g2, _⟩ := (h2.side .host).own c hx
          have hne : (x1.side .device).own ≠ some c := by
            intro h'
            obtain ⟨b', e1, e2, _⟩ := (h2.side .device).own c h'
            rw [g1] at e1
            cases e1
            rw [g2] at e2
            cases e2
          have := f3 c b g1 hne
          refine ⟨fun a => if a = c then none else h a, by simp [freeA, this, g2, W.setBlk], ?_, ?_⟩
          · intro a b hab
            by_cases h : a = c
            · simp [h] at hab
            · simpa [h] using hab
          · intro a h
            cases h
            simp
      obtain ⟨h', k1, k2, k3⟩ := hfree2
      refine ⟨⟨h', w1.next, none⟩, ?_, rfl, ?_, ?_⟩
      · simp only [destroy, destroyB, M.bind_apply, getC_eq hi.ctx, getC_eq h2.ctx, Out.bind_ok, M.check_true he, h1, f1, k1,
          delC]
      · intro a ha
        apply h2.fresh
        dsimp only at ha
        cases hd : h' a with
        | none => exact absurd hd ha
        | some d => rw [f2 a d (k2 a d hd)]; simp
      · intro a b hab
        by_contra hl
        have hl : b.lib = true := by simpa using hl
        obtain ⟨m, hm⟩ := h2.lib a b (f2 a b (k2 a b hab)) hl
        cases m
        · have := k3 a hm
          rw [show h' a = some b from hab] at this
          cases this
        · have := f4 a hm
          rw [k2 a b hab] at this
          cases this
    · exact Or.inr ⟨e, by simp [destroy, getC_eq hi.ctx, he, h]⟩
  · exact Or.inr ⟨.minor, by simp [destroy, getC_eq hi.ctx, he]⟩

variable [DecidableEq β]

/-- `CeedQFunctionContextSetGeneric`. -/
theorem setField_spec {w : W β} {x : DCtx} (o : Nat) (v : Buf β) (hi : Inv w x) (ho : o + v.len ≤ x.size) :
    (∃ w' x' f, setField o v w = .ok w' () ∧ Inv w' x' ∧ x'.size = x.size ∧ VX w x f ∧
      VX w' x' fun i => if o ≤ i ∧ i < o + v.len then v.val (i - o) else f i) ∨
      ∃ w' x' e, setField o v w = .err w' e ∧ Inv w' x' ∧ Keeps w w' := by
  rcases getDataRead_spec .host hi with ⟨w1, x1, f, h1, h2, h3, h4, h5, h6, h7, h8, h9, h10, h11, h12⟩ | ⟨e, h⟩
  · obtain ⟨a, b, e0, e1, e2, e3, e4⟩ := h9.2 _ h10
    have hdiff : differs (x1.side .host).arr o v w1 = .ok w1 (!decide (∀ i : Fin v.len, b.buf.val (o + i) = v.val i)) := by
      have : o + v.len ≤ b.buf.len := by omega
      simp [differs, look, e0, e1, e2, this]
    rcases restoreDataRead_spec h2 with ⟨g1, g2, g3⟩ | ⟨e, g⟩
    · have hV2 : VX { w1 with ctx := some { x1 with readers := x1.readers - 1 } } { x1 with readers := x1.readers - 1 } f :=
        h9.put rfl rfl (fun _ => Or.inl rfl) h9.1
      by_cases hd : ∀ i : Fin v.len, b.buf.val (o + i) = v.val i
      · refine Or.inl ⟨_, _, f, ?_, g3, h6, h8, hV2.congr ?_⟩
        · simp only [setField, M.bind_apply, h1, Out.bind_ok, hdiff, g1, hd, implies_true, decide_true, Bool.not_true,
            Bool.false_eq_true, if_false, M.pure_apply]
        · intro i hi'
          by_cases hc : o ≤ i ∧ i < o + v.len
          · rw [if_pos hc]
            have := hd ⟨i - o, by omega⟩
            dsimp only at this
            rw [Nat.add_sub_cancel' hc.1] at this
            rw [← this]
            exact (e4 i hi').symm
          · rw [if_neg hc]
      · have hrun : setField o v w = writeField o v { w1 with ctx := some { x1 with readers := x1.readers - 1 } } := by
          simp only [setField, M.bind_apply, h1, Out.bind_ok, hdiff, g1, hd, decide_false, Bool.not_false, if_true]
        rcases getData_spec .host g3 with ⟨w3, x3, f3, k1, k2, k3, k4, k5, k6, k7, k8, k9, k10⟩ | ⟨e, k⟩
        · obtain ⟨a3, b3, l0, l1, l2, l3, l4⟩ := k7.2 _ k8
          have hodd : x3.state % 2 = 1 := by
            have : x3.state = x1.state + 1 := k3
            have : x1.state % 2 = 0 := k4
            omega
          obtain ⟨u1, u2⟩ := updBlk (b' := { b3 with buf := ⟨b3.buf.len, fun i => if o ≤ i ∧ i < o + v.len then
            v.val (i - o) else b3.buf.val i⟩ }) k2 hodd l0 l1 rfl rfl rfl
          rcases restoreData_spec u1 with ⟨t1, t2, t3⟩ | ⟨e, t⟩
          · have hs3 : x3.size = x.size := k10.size.trans h6
            have hff : ∀ i < x.size, f i = f3 i := fun i hi' => hV2.agree k6 i (by
              show i < x1.size
              rw [h6]
              exact hi')
            refine Or.inl ⟨_, _, f, ?_, t3, hs3, h8, ?_⟩
            · rw [hrun]
              have hfill : fillA .host (some a3) o v.len v.val w3 = .ok (w3.setBlk a3 (some { b3 with
                  buf := ⟨b3.buf.len, fun i => if o ≤ i ∧ i < o + v.len then v.val (i - o) else b3.buf.val i⟩ })) () := by
                simp only [fillA, l1]
                rw [if_pos (show b3.mem = .host ∧ o + v.len ≤ b3.buf.len from ⟨l2, by omega⟩)]
              simp only [writeField, M.bind_apply, k1, Out.bind_ok, l0, hfill]
              exact t1
            · refine VX.congr (u2.put rfl rfl (fun _ => Or.inl rfl) u2.1) ?_
              intro i hi'
              dsimp only
              by_cases hc : o ≤ i ∧ i < o + v.len
              · rw [if_pos hc, if_pos hc]
              · rw [if_neg hc, if_neg hc, hff i (hs3 ▸ hi')]
                exact l4 i hi'
          · have : (w3.setBlk a3 (some { b3 with buf := ⟨b3.buf.len, fun i => if o ≤ i ∧ i < o + v.len then
              v.val (i - o) else b3.buf.val i⟩ })).ctx = some x3 := u1.ctx
            simp [restoreData, getC_eq this, hodd, putC] at t
        · refine Or.inr ⟨_, _, e, ?_, g3, keeps_of hi.ctx rfl (show x1.size = x.size from h6) h8 hV2⟩
          rw [hrun]
          simp only [writeField, M.bind_apply, k, Out.bind_err]
    · simp [restoreDataRead, getC_eq h2.ctx, h5, putC] at g
  · exact Or.inr ⟨w, x, e, by simp [setField, h], hi, keeps_refl w⟩

theorem noRet_ok {m : M (W β) Unit} {w w' : W β} (h : m w = .ok w' ()) : noRet m w = .ok w' none := by
  simp [noRet, h]

theorem noRet_err {m : M (W β) Unit} {w w' : W β} {e : Err} (h : m w = .err w' e) : noRet m w = .err w' e := by
  simp [noRet, h]

/-- Arrays of the program that the context does not keep. -/
theorem good_outside {w : W β} {h : Nat → Option (Blk β)} {n : Nat} (hg : Good w)
    (hk : ∀ a, Held w a → h a = w.heap a) (hf : ∀ a, h a ≠ none → a < n)
    (hl : ∀ a b, h a = some b → b.lib = true → w.heap a = some b) :
    Good ⟨h, n, w.ctx⟩ ∧ Keeps w ⟨h, n, w.ctx⟩ := by
  rcases hg with ⟨x, hi⟩ | hg
  · obtain ⟨h1, h2⟩ := outside hi (fun a ha => hk a ((held_iff hi.ctx a).2 ha)) hf hl
    exact ⟨Or.inl ⟨x, h1⟩, h2⟩
  · refine ⟨Or.inr ⟨hg.ctx, hf, ?_⟩, ?_, ?_⟩
    · intro a b hab
      by_contra hb
      have hb : b.lib = true := by simpa using hb
      have := hg.lib a b (hl a b hab hb)
      rw [hb] at this
      cases this
    · rintro k f ⟨x, h1, _⟩
      rw [hg.ctx] at h1
      cases h1
    · rintro ⟨x, h1, _⟩
      rw [hg.ctx] at h1
      cases h1

theorem Good.fresh {w : W β} (hg : Good w) : ∀ a, w.heap a ≠ none → a < w.next := by
  rcases hg with ⟨x, hi⟩ | hg
  · exact hi.fresh
  · exact hg.fresh

theorem Good.lib {w : W β} (hg : Good w) {a : Nat} {b : Blk β} (hb : w.heap a = some b) (hl : b.lib = true) : Held w a := by
  rcases hg with ⟨x, hi⟩ | hg
  · obtain ⟨m, hm⟩ := hi.lib a b hb hl
    exact ⟨x, m, hi.ctx, Or.inl hm⟩
  · rw [hg.lib a b hb] at hl
    cases hl

theorem Good.inv {w : W β} (hg : Good w) (h : Is w) : ∃ x, Inv w x := by
  rcases hg with h' | hg
  · exact h'
  · obtain ⟨x, hx⟩ := h
    rw [hg.ctx] at hx
    cases hx

/-- Every legal call in a good world. -/
theorem exec_spec {w : W β} {c : Call β} (hg : Good w) (hl : Legal w c) :
    (∃ w' p, exec c w = .ok w' p ∧ Good w' ∧ Doc w w' p c) ∨ ∃ w' e, exec c w = .err w' e ∧ Good w' ∧ Keeps w w' := by
  cases c with
  | setData m mode n a =>
    obtain ⟨x, b, l1, l2, l3, l4, l5, l6, l7, l8, l9⟩ := hl
    obtain ⟨x0, hi⟩ := hg.inv ⟨x, l1⟩
    have := hi.ctx
    rw [l1] at this
    cases this
    rcases setData_spec m mode n a b hi l2 l3 l4 l5 (fun h h' => l6 h ((held_iff l1 a).2 h'))
      (fun h h' => l7 h ((held_iff l1 a).2 h')) l8 l9 with ⟨w', x', r1, r2, r3, r4, r5⟩ | ⟨e, r⟩
    · refine Or.inl ⟨w', none, noRet_ok r1, Or.inl ⟨x', r2⟩, ⟨b, l2, ?_⟩, fun h => ⟨x', r2.ctx, r5 h⟩⟩
      rw [← r3]
      exact hasVals_of r2.ctx r4
    · exact Or.inr ⟨w, e, noRet_err r, hg, keeps_refl w⟩
  | takeData m =>
    obtain ⟨x, hi⟩ := hg.inv hl
    rcases takeData_spec m hi with ⟨w', x', f, a, r1, r2, r3, r4, r5, r6, r7, r8⟩ | ⟨e, r⟩
    · refine Or.inl ⟨w', some a, r1, Or.inl ⟨x', r2⟩, x.size, f, hasVals_of hi.ctx r4, r6, ?_, ?_⟩
      · intro c hc
        cases hc
        exact ⟨⟨x, hi.ctx, r5⟩, fun h => r7 ((held_iff r2.ctx a).1 h)⟩
      · rcases r8 with h | h
        · left
          rw [← r3]
          exact hasVals_of r2.ctx h
        · exact Or.inr ⟨x', r2.ctx, h⟩
    · exact Or.inr ⟨w, e, r, hg, keeps_refl w⟩
  | getData m =>
    obtain ⟨x, hi⟩ := hg.inv hl
    rcases getData_spec m hi with ⟨w', x', f, r1, r2, r3, r4, r5, r6, r7, r8, r9, r10⟩ | ⟨e, r⟩
    · refine Or.inl ⟨w', _, r1, Or.inl ⟨x', r2⟩, x.size, f, hasVals_of hi.ctx r6, ?_, ?_, x', r2.ctx, by omega, rfl⟩
      · rw [← r10.size]
        exact hasVals_of r2.ctx r7
      · rw [← r10.size]
        exact r7.2 m r8
    · exact Or.inr ⟨w, e, r, hg, keeps_refl w⟩
  | getDataRead m =>
    obtain ⟨x, hi⟩ := hg.inv hl
    rcases getDataRead_spec m hi with ⟨w', x', f, r1, r2, r3, r4, r5, r6, r7, r8, r9, r10, _⟩ | ⟨e, r⟩
    · refine Or.inl ⟨w', _, r1, Or.inl ⟨x', r2⟩, x.size, f, hasVals_of hi.ctx r8, ?_, ?_, x', r2.ctx, by omega, rfl⟩
      · rw [← r6]
        exact hasVals_of r2.ctx r9
      · rw [← r6]
        exact r9.2 m r10
    · exact Or.inr ⟨w, e, r, hg, keeps_refl w⟩
  | restoreData =>
    obtain ⟨x, hi⟩ := hg.inv hl
    rcases restoreData_spec hi with ⟨r1, _, r2⟩ | ⟨e, r⟩
    · exact Or.inl ⟨_, none, noRet_ok r1, Or.inl ⟨_, r2⟩, keeps_flags hi.ctx rfl rfl rfl rfl⟩
    · exact Or.inr ⟨w, e, noRet_err r, hg, keeps_refl w⟩
  | restoreDataRead =>
    obtain ⟨x, hi⟩ := hg.inv hl
    rcases restoreDataRead_spec hi with ⟨r1, _, r2⟩ | ⟨e, r⟩
    · exact Or.inl ⟨_, none, noRet_ok r1, Or.inl ⟨_, r2⟩, keeps_flags hi.ctx rfl rfl rfl rfl⟩
    · exact Or.inr ⟨w, e, noRet_err r, hg, keeps_refl w⟩
  | setField o v =>
    obtain ⟨x, l1, l2⟩ := hl
    obtain ⟨x0, hi⟩ := hg.inv ⟨x, l1⟩
    have := hi.ctx
    rw [l1] at this
    cases this
    rcases setField_spec o v hi l2 with ⟨w', x', f, r1, r2, r3, r4, r5⟩ | ⟨w', x', e, r1, r2, r3⟩
    · refine Or.inl ⟨w', none, noRet_ok r1, Or.inl ⟨x', r2⟩, x.size, f, hasVals_of hi.ctx r4, ?_⟩
      rw [← r3]
      exact hasVals_of r2.ctx r5
    · exact Or.inr ⟨w', e, noRet_err r1, Or.inl ⟨x', r2⟩, r3⟩
  | setDestroy m =>
    obtain ⟨x, hi⟩ := hg.inv hl
    have r1 : setDestroy m w = .ok { w with ctx := some { x with destroyFn := some m } } () := by
      simp [setDestroy, getC_eq hi.ctx, putC]
    exact Or.inl ⟨_, none, noRet_ok r1, Or.inl ⟨_, hi.put rfl (fun _ => rfl) (fun _ => rfl) (fun _ => Or.inl rfl) hi.odd hi.rd⟩,
      keeps_flags hi.ctx rfl rfl rfl rfl⟩
  | destroy =>
    obtain ⟨x, hi⟩ := hg.inv hl
    rcases destroy_spec hi with ⟨w', r1, r2⟩ | ⟨e, r⟩
    · exact Or.inl ⟨w', none, noRet_ok r1, Or.inr r2, r2.ctx⟩
    · exact Or.inr ⟨w, e, noRet_err r, hg, keeps_refl w⟩
  | malloc m b =>
    left
    have hn : w.heap w.next = none := by
      by_contra h
      exact Nat.lt_irrefl _ (hg.fresh _ h)
    obtain ⟨r1, r2⟩ := good_outside (h := fun c => if c = w.next then some ⟨m, b, false⟩ else w.heap c) (n := w.next + 1) hg
      (by
        rintro a ⟨x, m', h1, h2⟩
        have : a ≠ w.next := by
          intro h
          subst h
          obtain ⟨x0, hi⟩ := hg.inv ⟨x, h1⟩
          have := hi.ctx
          rw [h1] at this
          cases this
          rcases h2 with h2 | h2
          · obtain ⟨b, e, _⟩ := (hi.side m').own _ h2
            rw [hn] at e
            cases e
          · obtain ⟨b, e, _⟩ := (hi.side m').bor _ h2
            rw [hn] at e
            cases e
        simp [this])
      (by
        intro a ha
        by_cases h : a = w.next
        · omega
        · have := hg.fresh a (by simpa [h] using ha)
          omega)
      (by
        intro a d had hd
        by_cases h : a = w.next
        · simp [h] at had
          subst had
          cases hd
        · simpa [h] using had)
    exact ⟨_, some w.next, rfl, r1, r2⟩
  | mfree a =>
    left
    obtain ⟨⟨b, l1⟩, l2⟩ := hl
    obtain ⟨r1, r2⟩ := good_outside (h := fun c => if c = a then none else w.heap c) (n := w.next) hg
      (by
        intro c hc
        have : c ≠ a := fun h => l2 (h ▸ hc)
        simp [this])
      (by
        intro c hc
        by_cases h : c = a
        · simp [h] at hc
        · exact hg.fresh c (by simpa [h] using hc))
      (by
        intro c d hcd _
        by_cases h : c = a
        · simp [h] at hcd
        · simpa [h] using hcd)
    exact ⟨_, none, noRet_ok (by simp [mfree, l1, W.setBlk]), r1, r2⟩
  | store a i z =>
    left
    obtain ⟨b, l1, l2, l3⟩ := hl
    have hrun : store a i z w =
        .ok (w.setBlk a (some { b with buf := ⟨b.buf.len, fun j => if j = i then z else b.buf.val j⟩ })) () := by
      simp [store, l1, l2]
    by_cases hh : Held w a
    · have l3' : ∃ x m, w.ctx = some x ∧ x.state % 2 = 1 ∧ (x.side m).arr = some a := by
        rcases l3 with h | h
        · exact absurd hh h
        · exact h
      obtain ⟨x, m, k1, k2, k3⟩ := l3'
      obtain ⟨x0, hi⟩ := hg.inv ⟨x, k1⟩
      have := hi.ctx
      rw [k1] at this
      cases this
      obtain ⟨r1, r2⟩ := updBlk (b' := { b with buf := ⟨b.buf.len, fun j => if j = i then z else b.buf.val j⟩ }) hi k2 k3 l1
        rfl rfl rfl
      refine ⟨_, none, noRet_ok hrun, Or.inl ⟨x, r1⟩, fun h => absurd hh h, ?_⟩
      intro _ n f hf
      obtain ⟨q1, q2⟩ := hasVals_inv k1 hf
      subst q1
      refine hasVals_of r1.ctx (r2.congr ?_)
      intro j hj
      obtain ⟨a', b', e0, e1, e2, e3, e4⟩ := q2.2 m (by rw [k3]; simp)
      rw [k3] at e0
      cases e0
      rw [l1] at e1
      cases e1
      dsimp only
      by_cases hji : j = i
      · rw [if_pos hji, if_pos hji]
      · rw [if_neg hji, if_neg hji]
        exact e4 j hj
    · obtain ⟨r1, r2⟩ := good_outside
        (h := fun c => if c = a then some { b with buf := ⟨b.buf.len, fun j => if j = i then z else b.buf.val j⟩ } else w.heap c)
        (n := w.next) hg
        (by
          intro c hc
          have : c ≠ a := fun h => hh (h ▸ hc)
          simp [this])
        (by
          intro c hc
          by_cases h : c = a
          · exact hg.fresh c (by rw [h, l1]; simp)
          · exact hg.fresh c (by simpa [h] using hc))
        (by
          intro c d hcd hd
          by_cases h : c = a
          · simp [h] at hcd
            subst hcd
            exact absurd (hg.lib l1 hd) hh
          · simpa [h] using hcd)
      exact ⟨_, none, noRet_ok hrun, r1, fun _ => r2, fun h => absurd h hh⟩

theorem good_init : Good (W.init : W β) := by
  refine Or.inl ⟨_, rfl, ?_, Or.inl fun _ => rfl, fun h => (by cases h), fun a h => absurd rfl h, fun a b h => (by cases h), fun h => (by cases h)⟩
  intro m
  exact ⟨fun _ h => (by cases h), fun _ h => (by cases h), Or.inl rfl, fun _ h => (by cases h)⟩

theorem Reach.good {w : W β} (hr : Reach w) : Good w := by
  induction hr with
  | init => exact good_init
  | step _ hl hs ih =>
    rcases exec_spec ih hl with ⟨w', p, h1, h2, _⟩ | ⟨w', e, h1, h2, _⟩
    · cases hs with
      | ok h => rw [h1] at h; cases h; exact h2
      | err h => rw [h1] at h; cases h
    · cases hs with
      | ok h => rw [h1] at h; cases h
      | err h => rw [h1] at h; cases h; exact h2

/-- **C76**: no call of a program that keeps the contract has undefined behaviour, in any history: no copy overruns an array,
no freed array and no array of the other memory is touched. -/
theorem C76_defined_partial {w : W β} {c : Call β} (hr : Reach w) (hl : Legal w c) : exec c w ≠ .ub := by
  intro h
  rcases exec_spec hr.good hl with ⟨w', p, h1, _⟩ | ⟨w', e, h1, _⟩ <;> rw [h1] at h <;> cases h

/-- **C76**: in every history the copies agree: a context has no data, or its valid copies contain the same values. -/
theorem C76_coherent_partial {w : W β} (hr : Reach w) (hw : Is w) : NoVals w ∨ ∃ n f, HasVals w n f := by
  obtain ⟨x, hi⟩ := hr.good.inv hw
  rcases hi.coh with h | ⟨f, h⟩
  · exact Or.inl ⟨x, hi.ctx, h⟩
  · exact Or.inr ⟨x.size, f, hasVals_of hi.ctx h⟩

/-- **C76**: a successful call has its documented effect on the values and the arrays. -/
theorem C76_documented_partial {w w' : W β} {p : Option Nat} {c : Call β} (hr : Reach w) (hl : Legal w c)
    (h : exec c w = .ok w' p) : Doc w w' p c := by
  rcases exec_spec hr.good hl with ⟨w1, p1, h1, _, h2⟩ | ⟨w1, e, h1, _⟩ <;> rw [h1] at h <;> cases h
  exact h2

/-- **C76**: a call that fails leaves the values as they are. -/
theorem C76_failed_partial {w w' : W β} {e : Err} {c : Call β} (hr : Reach w) (hl : Legal w c)
    (h : exec c w = .err w' e) : Keeps w w' := by
  rcases exec_spec hr.good hl with ⟨w1, p1, h1, _, h2⟩ | ⟨w1, e1, h1, _, h2⟩ <;> rw [h1] at h <;> cases h
  exact h2

/-- **C76**: while access for writing is granted, there is one valid copy, so nothing stale is ever read afterwards. -/
theorem C76_exclusive_partial {w : W β} {x : DCtx} (hr : Reach w) (hx : w.ctx = some x) (ho : x.state % 2 = 1) :
    ∃ m, (x.side m).arr ≠ none ∧ (x.side (other m)).arr = none := by
  obtain ⟨x', hi⟩ := hr.good.inv ⟨x, hx⟩
  have := hi.ctx
  rw [hx] at this
  cases this
  exact hi.odd ho

/-- **C76**: after a context was destroyed, no array remains that the library should have freed. -/
theorem C76_no_leak_partial {w : W β} (hr : Reach w) (hw : w.ctx = none) {a : Nat} {b : Blk β} (hb : w.heap a = some b) :
    b.lib = false := by
  rcases hr.good with ⟨x, hi⟩ | hg
  · have := hi.ctx
    rw [hw] at this
    cases this
  · exact hg.lib a b hb

/-- **C76**: access for reading and for writing exclude each other. -/
theorem C76_readers_partial {w : W β} {x : DCtx} (hr : Reach w) (hx : w.ctx = some x) (h : 0 < x.readers) : x.state % 2 = 0 := by
  obtain ⟨x', hi⟩ := hr.good.inv ⟨x, hx⟩
  have := hi.ctx
  rw [hx] at this
  cases this
  exact hi.rd h

/-- **C76**: while a program reads, the arrays it reads stay valid and unchanged, whatever is called on the context, except for
new data, taking the data back and destroying the context, which the library does not refuse (`C76_dangling_witness`). -/
theorem C76_reading_partial {w w' : W β} {x : DCtx} {c : Call β} {m : Mem} {a : Nat} (hr : Reach w) (hl : Legal w c)
    (hx : w.ctx = some x) (hrd : 0 < x.readers) (ha : (x.side m).arr = some a)
    (hc : (∀ m' mode n d, c ≠ .setData m' mode n d) ∧ (∀ m', c ≠ .takeData m') ∧ c ≠ .destroy) (hs : Step w c w') :
    w'.heap a = w.heap a ∧ ∃ x', w'.ctx = some x' ∧ (x'.side m).arr = some a := by
  obtain ⟨x0, hi⟩ := hr.good.inv ⟨x, hx⟩
  have := hi.ctx
  rw [hx] at this
  cases this
  have he := hi.rd hrd
  obtain ⟨b, hb⟩ : ∃ b, w.heap a = some b := by
    rcases (hi.side m).arr a ha with h | h
    · obtain ⟨b, h, _⟩ := (hi.side m).own a h
      exact ⟨b, h⟩
    · obtain ⟨b, h, _⟩ := (hi.side m).bor a h
      exact ⟨b, h⟩
  have hheld : Held w a := ⟨x, m, hx, (hi.side m).arr a ha⟩
  have hgd : ∀ m', getData m' w = .err w .minor := by
    intro m'
    simp [getData, getC_eq hx, he, Nat.ne_of_gt hrd]
  cases c with
  | setData m' mode n d => exact absurd rfl (hc.1 m' mode n d)
  | takeData m' => exact absurd rfl (hc.2.1 m')
  | destroy => exact absurd rfl hc.2.2
  | getData m' =>
    cases hs with
    | ok h => rw [show exec (.getData m') w = getData m' w from rfl, hgd] at h; cases h
    | err h => rw [show exec (.getData m') w = getData m' w from rfl, hgd] at h; cases h; exact ⟨rfl, x, hx, ha⟩
  | getDataRead m' =>
    rcases getDataRead_spec m' hi with ⟨w1, x1, f, r1, r2, _, _, _, _, _, _, _, _, r3, r4⟩ | ⟨e, r⟩
    · cases hs with
      | ok h =>
        rw [show exec (.getDataRead m') w = getDataRead m' w from rfl, r1] at h
        cases h
        exact ⟨(r4 a b hb (Or.inl ⟨m, ha⟩)).trans hb.symm, x1, r2.ctx, r3 m a ha⟩
      | err h => rw [show exec (.getDataRead m') w = getDataRead m' w from rfl, r1] at h; cases h
    · cases hs with
      | ok h => rw [show exec (.getDataRead m') w = getDataRead m' w from rfl, r] at h; cases h
      | err h => rw [show exec (.getDataRead m') w = getDataRead m' w from rfl, r] at h; cases h; exact ⟨rfl, x, hx, ha⟩
  | restoreData =>
    have r : exec .restoreData w = .err w .minor := noRet_err (by simp [restoreData, getC_eq hx, he])
    cases hs with
    | ok h => rw [r] at h; cases h
    | err h => rw [r] at h; cases h; exact ⟨rfl, x, hx, ha⟩
  | restoreDataRead =>
    have r : exec .restoreDataRead w = .ok { w with ctx := some { x with readers := x.readers - 1 } } none :=
      noRet_ok (by simp [restoreDataRead, getC_eq hx, hrd, putC])
    cases hs with
    | ok h => rw [r] at h; cases h; exact ⟨rfl, _, rfl, ha⟩
    | err h => rw [r] at h; cases h
  | setField o v =>
    obtain ⟨x0, l1, l2⟩ := hl
    rw [hx] at l1
    cases l1
    rcases getDataRead_spec .host hi with ⟨w1, x1, f, h1, h2, h3, h4, h5, h6, h7, h8, h9, h10, h11, h12⟩ | ⟨e, h⟩
    · obtain ⟨a', b', e0, e1, e2, e3, e4⟩ := h9.2 _ h10
      have hdiff : differs (x1.side .host).arr o v w1 =
          .ok w1 (!decide (∀ i : Fin v.len, b'.buf.val (o + i) = v.val i)) := by
        have : o + v.len ≤ b'.buf.len := by omega
        simp [differs, look, e0, e1, e2, this]
      have g1 : restoreDataRead w1 = .ok { w1 with ctx := some { x1 with readers := x.readers } } () := by
        simp [restoreDataRead, getC_eq h2.ctx, h5, putC]
      have hres : (∃ p, exec (.setField o v) w = .ok { w1 with ctx := some { x1 with readers := x.readers } } p) ∨
          ∃ e, exec (.setField o v) w = .err { w1 with ctx := some { x1 with readers := x.readers } } e := by
        by_cases hd : ∀ i : Fin v.len, b'.buf.val (o + i) = v.val i
        · left
          refine ⟨none, noRet_ok ?_⟩
          simp only [setField, M.bind_apply, h1, Out.bind_ok, hdiff, g1, hd, implies_true, decide_true, Bool.not_true,
            Bool.false_eq_true, if_false, M.pure_apply]
        · right
          refine ⟨.minor, noRet_err ?_⟩
          have he1 : x1.state % 2 = 0 := by omega
          simp [setField, h1, hdiff, g1, hd, writeField, getData, getC_mk, he1, Nat.ne_of_gt hrd]
      have hfin : ({ w1 with ctx := some { x1 with readers := x.readers } } : W β).heap a = w.heap a :=
        (h12 a b hb (Or.inl ⟨m, ha⟩)).trans hb.symm
      rcases hres with ⟨p, r⟩ | ⟨e, r⟩
      · cases hs with
        | ok h => rw [r] at h; cases h; exact ⟨hfin, _, rfl, h11 m a ha⟩
        | err h => rw [r] at h; cases h
      · cases hs with
        | ok h => rw [r] at h; cases h
        | err h => rw [r] at h; cases h; exact ⟨hfin, _, rfl, h11 m a ha⟩
    · have r : exec (.setField o v) w = .err w e := noRet_err (by simp [setField, h])
      cases hs with
      | ok h => rw [r] at h; cases h
      | err h => rw [r] at h; cases h; exact ⟨rfl, x, hx, ha⟩
  | setDestroy m' =>
    have r : exec (.setDestroy m') w = .ok { w with ctx := some { x with destroyFn := some m' } } none :=
      noRet_ok (by simp [setDestroy, getC_eq hx, putC])
    cases hs with
    | ok h => rw [r] at h; cases h; exact ⟨rfl, _, rfl, ha⟩
    | err h => rw [r] at h; cases h
  | malloc m' b0 =>
    have hne : a ≠ w.next := Nat.ne_of_lt (hi.fresh a (by rw [hb]; simp))
    cases hs with
    | ok h => cases h; exact ⟨by simp [W.setBlk, hne], x, hx, ha⟩
    | err h => cases h
  | mfree c =>
    have hne : a ≠ c := fun h => hl.2 (h ▸ hheld)
    obtain ⟨⟨b0, l1⟩, _⟩ := hl
    have r : exec (.mfree c) w = .ok (w.setBlk c none) none := noRet_ok (by simp [mfree, l1])
    cases hs with
    | ok h => rw [r] at h; cases h; exact ⟨by simp [W.setBlk, hne], x, hx, ha⟩
    | err h => rw [r] at h; cases h
  | store c i z =>
    obtain ⟨b0, l1, l2, l3⟩ := hl
    have hne : a ≠ c := by
      intro h
      subst h
      rcases l3 with l3 | ⟨x', _, k1, k2, _⟩
      · exact l3 hheld
      · rw [hx] at k1
        cases k1
        omega
    have r : exec (.store c i z) w =
        .ok (w.setBlk c (some { b0 with buf := ⟨b0.buf.len, fun j => if j = i then z else b0.buf.val j⟩ })) none :=
      noRet_ok (by simp [store, l1, l2])
    cases hs with
    | ok h => rw [r] at h; cases h; exact ⟨by simp [W.setBlk, hne], x, hx, ha⟩
    | err h => rw [r] at h; cases h

end DevCtx
end Verif
