import Verif.CheckCtx.Calls2

/-!
# Contexts of the checking backend: every history
-/

namespace Verif
namespace CheckCtx

open Vector (Mem Mode)

variable {β : Type}

/-- What histories lead to. -/
def Good (w : W β) : Prop := (∃ x, Inv w x) ∨ Gone w

theorem held_of {w : W β} {x : KCtx} (h : w.ctx = some x) {s : Slot} {a : Nat} (hs : x.ptr s = some a) : Held w a := ⟨x, s, h, hs⟩

/-- Arrays that the context does not keep. -/
theorem good_outside {w : W β} {h : Nat → Option (Blk β)} {n : Nat} (hg : Good w)
    (h1 : ∀ a, Held w a → h a = w.heap a) (h2 : ∀ a, h a ≠ none → a < n)
    (h3 : ∀ a b, h a = some b → b.lib = true → w.heap a = some b) :
    Good { w with heap := h, next := n } ∧ Keeps w { w with heap := h, next := n } := by
  rcases hg with ⟨x, hi⟩ | hg
  · have hh : ∀ s a, x.ptr s = some a → h a = w.heap a := fun s a ha => h1 a (held_of hi.si.ctx ha)
    have hsi : SI { w with heap := h, next := n } x := by
      refine ⟨hi.si.ctx, ?_, hi.si.inj, h2, fun a b hb hl => hi.si.lib a b (h3 a b hb hl) hl⟩
      intro s a ha
      obtain ⟨b, g1, g2⟩ := hi.si.ok s a ha
      exact ⟨b, (hh s a ha).trans g1, g2⟩
    exact ⟨Or.inl ⟨x, hi.keep hsi rfl (fun _ _ => rfl) (fun s a _ ha => hh s a ha) hi.odd hi.rd
      (fun h => ⟨(hi.base h).1, (hi.base h).2.1⟩)⟩,
      keeps_same hi.si.ctx hsi.ctx rfl rfl fun a ha => hh _ a ha⟩
  · refine ⟨Or.inr ⟨hg.ctx, h2, ?_⟩, ?_⟩
    · intro a b hb
      cases hl : b.lib with
      | false => rfl
      | true =>
        rw [← hl]
        exact hg.lib a b (h3 a b hb hl)
    · refine ⟨?_, ?_⟩
      · rintro n f ⟨x, k, _⟩
        rw [hg.ctx] at k
        cases k
      · rintro ⟨x, k, _⟩
        rw [hg.ctx] at k
        cases k

theorem Good.fresh {w : W β} (hg : Good w) : ∀ a, w.heap a ≠ none → a < w.next := by
  rcases hg with ⟨x, hi⟩ | hg
  · exact hi.si.fresh
  · exact hg.fresh

theorem Good.lib {w : W β} (hg : Good w) {a : Nat} {b : Blk β} (hb : w.heap a = some b) (hl : b.lib = true) : Held w a := by
  rcases hg with ⟨x, hi⟩ | hg
  · obtain ⟨s, _, h⟩ := hi.si.lib a b hb hl
    exact held_of hi.si.ctx h
  · rw [hg.lib a b hb] at hl
    cases hl

theorem Good.inv {w : W β} {x : KCtx} (hg : Good w) (h : w.ctx = some x) : Inv w x := by
  rcases hg with ⟨x', hi⟩ | hg
  · have := hi.si.ctx
    rw [h] at this
    cases this
    exact hi
  · rw [hg.ctx] at h
    cases h

theorem noRet_ok {m : M (W β) Unit} {w w' : W β} (h : m w = .ok w' ()) : noRet m w = .ok w' none := by
  simp [noRet, h]

theorem noRet_err {m : M (W β) Unit} {w w' : W β} {e : Err} (h : m w = .err w' e) : noRet m w = .err w' e := by
  simp [noRet, h]

variable [DecidableEq β]

/-- `CeedQFunctionContextSetGeneric`, the part that writes. -/
theorem writeField_spec {w : W β} {x : KCtx} (o : Nat) (v : Buf β) (hi : Inv w x) (ho : o + v.len ≤ x.size) :
    (∃ w' x' f, writeField o v w = .ok w' () ∧ Inv w' x' ∧ x'.size = x.size ∧ Gives w (x.ptr .alloc) x.size f ∧
      (Gives w' (x'.ptr .alloc) x.size fun i => if o ≤ i ∧ i < o + v.len then v.val (i - o) else f i) ∧
      x'.readers = x.readers ∧ x'.state % 2 = 0) ∨
    ∃ e, writeField o v w = .err w e := by
  rcases getData_spec .host hi with ⟨w1, x1, f, a, r1, _, r2, r3, r4, r5, r6, r7, r8, r9, r10, r11, r12, r13, _⟩ | ⟨e, r⟩
  · left
    obtain ⟨w2, f1, f2, f3, f4, f5⟩ := fill_spec r2.si r12 (o := o) (n := v.len) (by omega) v.val
    obtain ⟨g1, _⟩ := r2.granted (Or.inl rfl) r12 f2 f3
    rw [r7] at f4
    have hg := f4 f r11
    rcases restoreData_spec g1 with ⟨w3, x3, g, s1, s2, s3, s4, s5, s6, s7, s8⟩ | ⟨h, _⟩
    · refine ⟨w3, x3, f, by simp [writeField, r1, f1, s1], s2, s4.trans r7, r9, ?_, s7.trans r5, s8⟩
      rw [r7] at s5 s6
      refine s6.congr fun i hi' => ?_
      rw [r12] at s5
      exact s5.agree hg i hi'
    · omega
  · exact Or.inr ⟨e, by simp [writeField, r]⟩

theorem look_le {w : W β} {p : Option Nat} {n k : Nat} {f : Nat → β} (h : Gives w p n f) (hk : k ≤ n) :
    ∃ b, look p k w = .ok w b ∧ ∀ i < n, b.val i = f i := by
  obtain ⟨a, b, e0, e1, e2, e3⟩ := h
  subst e0
  exact ⟨b.buf, by simp [look, e1, Nat.le_trans hk e2], e3⟩

/-- `CeedQFunctionContextSetGeneric`. -/
theorem setField_spec {w : W β} {x : KCtx} (o : Nat) (v : Buf β) (hi : Inv w x) (ho : o + v.len ≤ x.size) :
    (∃ w' x', setField o v w = .ok w' () ∧ Inv w' x' ∧ x'.size = x.size ∧
      (Clean w → ∃ f, Gives w (x.ptr .alloc) x.size f ∧
        Gives w' (x'.ptr .alloc) x.size fun i => if o ≤ i ∧ i < o + v.len then v.val (i - o) else f i) ∧
      x.state % 2 = 0 ∧ x'.state % 2 = 0 ∧ x'.readers = x.readers) ∨
    ∃ w' x' e, setField o v w = .err w' e ∧ Inv w' x' ∧ Keeps w w' := by
  have hc := hi.si.ctx
  rcases getDataRead_spec .host hi with ⟨w1, x1, f, a, r1, _, r2, r3, r4, r5, r6, r7, r8, r9, r10, r11, r12⟩ | ⟨e, r⟩
  · have hro1 : x1.ptr .ro ≠ none := by rw [r10]; simp
    obtain ⟨c, hcg⟩ := r2.si.gives hro1
    rw [r10, r6] at hcg
    obtain ⟨b, b1, b3⟩ := look_le hcg ho
    have hdiff : differs (some a) o v w1 = .ok w1 (!decide (∀ i : Fin v.len, b.val (o + i) = v.val i)) := by
      simp [differs, b1]
    have hkeep1 : Keeps w w1 := by
      refine ⟨?_, ?_⟩
      · intro n g hg
        obtain ⟨q1, q2⟩ := hasVals_inv hc hg
        subst q1
        refine ⟨x1, r2.si.ctx, r6, ?_⟩
        rw [r7]
        exact r9.congr fun i hi' => r8.agree q2 i hi'
      · rintro ⟨x0, g1, g2⟩
        rw [hc] at g1
        cases g1
        exact ⟨x1, r2.si.ctx, r7.trans g2⟩
    rcases restoreDataRead_spec r2 with ⟨h, _⟩ | ⟨_, _, w2, x2, s1, s2, s3, s4, s5, s6, s7⟩ | ⟨_, _, x2, s1, s2, s3, s4⟩
    · omega
    · have hkeep2 : Keeps w1 w2 := keeps_same r2.si.ctx s2.si.ctx s3 s4 s5
      have hk : Keeps w w2 := ⟨fun n g h => hkeep2.1 n g (hkeep1.1 n g h), fun h => hkeep2.2 (hkeep1.2 h)⟩
      have hf2 : Gives w2 (x2.ptr .alloc) x.size f := by
        rw [s4, r7]
        rw [r7] at s5
        exact r9.same s5
      by_cases hd : ∀ i : Fin v.len, b.val (o + i) = v.val i
      · left
        refine ⟨w2, x2, ?_, s2, s3.trans r6, ?_, r4, by omega, by omega⟩
        · simp [setField, r1, hdiff, s1, hd]
        · rintro ⟨x0, k1, k2⟩
          rw [hc] at k1
          cases k1
          have hfc : ∀ i < x.size, f i = b.val i := by
            intro i hi'
            by_cases hr : x.ptr .ro = none
            · rw [b3 i hi']
              exact (r11 hr).agree hcg i hi'
            · obtain ⟨q1, q2⟩ := r12 hr
              rcases k2 with k2 | k2
              · exact absurd k2 hr
              · have := k2 f r8
                rw [q1] at this
                rw [b3 i hi']
                exact (this.same fun c hc' => by cases hc'; exact q2).agree hcg i hi'
          refine ⟨f, r8, hf2.congr fun i hi' => ?_⟩
          by_cases h : o ≤ i ∧ i < o + v.len
          · rw [if_pos h, hfc i hi', ← hd ⟨i - o, by omega⟩]
            congr 1
            simp only
            omega
          · rw [if_neg h]
      · rcases writeField_spec o v s2 (by omega) with ⟨w3, x3, f', t1, t2, t3, t4, t5, t6, t7⟩ | ⟨e, t⟩
        · left
          refine ⟨w3, x3, ?_, t2, by omega, fun _ => ⟨f, r8, ?_⟩, r4, t7, by omega⟩
          · simp only [setField, M.bind_apply, r1, Out.bind_ok, hdiff, s1]
            simp [hd, t1]
          · have hz : x2.size = x.size := s3.trans r6
            rw [hz] at t4 t5
            refine t5.congr fun i hi' => ?_
            by_cases h : o ≤ i ∧ i < o + v.len
            · rw [if_pos h, if_pos h]
            · rw [if_neg h, if_neg h]
              exact t4.agree hf2 i hi'
        · right
          refine ⟨w2, x2, e, ?_, s2, hk⟩
          simp only [setField, M.bind_apply, r1, Out.bind_ok, hdiff, s1]
          simp [hd, t]
    · right
      refine ⟨_, x2, .backend, ?_, s2, ?_⟩
      · simp [setField, r1, hdiff, s1]
      · have hkeep2 : Keeps w1 { w1 with ctx := some x2 } := keeps_same r2.si.ctx rfl s3 (by rw [s4]) fun _ _ => rfl
        exact ⟨fun n g h => hkeep2.1 n g (hkeep1.1 n g h), fun h => hkeep2.2 (hkeep1.2 h)⟩
  · exact Or.inr ⟨w, x, e, by simp [setField, r], hi, keeps_refl w⟩

/-- Every call. -/
theorem exec_spec {w : W β} {c : Call β} (hg : Good w) (hl : Legal w c) :
    (∃ w' p, exec c w = .ok w' p ∧ Good w' ∧ Doc w w' p c) ∨ ∃ w' e, exec c w = .err w' e ∧ Good w' ∧ Keeps w w' := by
  cases c with
  | setData m mode n a =>
    obtain ⟨x, b, l1, l2, l3, l4, l5, l6, _⟩ := hl
    subst l3
    have hi := hg.inv l1
    rcases setData_spec mode n a b hi l2 l4 l5 l6 with ⟨w', x', r1, r2, r3, r4, r5, _⟩ | ⟨e, r⟩
    · exact Or.inl ⟨w', none, noRet_ok r1, Or.inl ⟨x', r2⟩, ⟨b, l4, x', r2.si.ctx, r3, r4⟩, fun h => ⟨x', r2.si.ctx, r5 h⟩⟩
    · exact Or.inr ⟨w, e, noRet_err r, hg, keeps_refl w⟩
  | takeData m =>
    obtain ⟨x, l1, l2⟩ := hl
    have hi := hg.inv l1
    rcases takeData_spec m hi l2 with ⟨w', x', f, a, r1, r2, r3, r4, r5, r6, _⟩ | ⟨e, r⟩
    · refine Or.inl ⟨w', some a, r1, Or.inl ⟨x', r2⟩, x.size, f, hasVals_of l1 r3, r5, ?_, x', r2.si.ctx, r6 _⟩
      intro c hc
      cases hc
      refine ⟨⟨x, l1, r4⟩, ?_⟩
      rintro ⟨x0, s, k1, k2⟩
      rw [r2.si.ctx] at k1
      cases k1
      rw [r6] at k2
      cases k2
    · exact Or.inr ⟨w, e, r, hg, keeps_refl w⟩
  | getData m =>
    obtain ⟨x, l1⟩ := hl
    have hi := hg.inv l1
    rcases getData_spec m hi with ⟨w', x', f, a, r1, r2, r3, r4, r5, r6, r7, r8, r9, r10, r11, r12, r13, r14, _⟩ | ⟨e, r⟩
    · refine Or.inl ⟨w', some a, r1, Or.inl ⟨x', r3⟩, r2, x.size, f, hasVals_of l1 r10, ⟨x', r3.si.ctx, r8, ?_⟩, r12, by simp,
        ⟨x', r3.si.ctx, by omega, r13⟩, ?_⟩
      · rw [r9]
        exact r11
      · intro c hc
        cases hc
        exact r14
    · exact Or.inr ⟨w, e, r, hg, keeps_refl w⟩
  | getDataRead m =>
    obtain ⟨x, l1⟩ := hl
    have hi := hg.inv l1
    rcases getDataRead_spec m hi with ⟨w', x', f, a, r1, r2, r3, r4, r5, r6, r7, r8, r9, r10, r11, r12, r13⟩ | ⟨e, r⟩
    · refine Or.inl ⟨w', some a, r1, Or.inl ⟨x', r3⟩, r2, x.size, f, hasVals_of l1 r9, ⟨x', r3.si.ctx, r7, ?_⟩, ?_,
        x', r3.si.ctx, by omega, r11⟩
      · rw [r8]
        exact r10
      · rintro ⟨x0, k1, k2⟩
        rw [l1] at k1
        cases k1
        have hga : Gives w' (some a) x.size f := by
          by_cases hr : x.ptr .ro = none
          · exact r12 hr
          · obtain ⟨q1, q2⟩ := r13 hr
            rcases k2 with k2 | k2
            · exact absurd k2 hr
            · have := k2 f r9
              rw [q1] at this
              exact this.same fun c hc' => by cases hc'; exact q2
        refine ⟨hga, x', r3.si.ctx, Or.inr fun g hg' => ?_⟩
        rw [r11, r7]
        rw [r8, r7] at hg'
        exact hga.congr fun i hi' => r10.agree hg' i hi'
    · exact Or.inr ⟨w, e, r, hg, keeps_refl w⟩
  | restoreData =>
    obtain ⟨x, l1⟩ := hl
    have hi := hg.inv l1
    rcases restoreData_spec hi with ⟨w', x', g, r1, r2, r3, r4, r5, r6, r7⟩ | ⟨_, e, r⟩
    · exact Or.inl ⟨w', none, noRet_ok r1, Or.inl ⟨x', r2⟩, x.size, g, x.ptr .wr, ⟨x, l1, r3, rfl⟩, r5, x', r2.si.ctx, r4, r6⟩
    · exact Or.inr ⟨w, e, noRet_err r, hg, keeps_refl w⟩
  | restoreDataRead =>
    obtain ⟨x, l1⟩ := hl
    have hi := hg.inv l1
    rcases restoreDataRead_spec hi with ⟨_, r⟩ | ⟨_, _, w', x', r1, r2, r3, r4, r5, _⟩ | ⟨_, _, x', r1, r2, r3, r4⟩
    · exact Or.inr ⟨w, _, noRet_err r, hg, keeps_refl w⟩
    · exact Or.inl ⟨w', none, noRet_ok r1, Or.inl ⟨x', r2⟩, keeps_same l1 r2.si.ctx r3 r4 r5⟩
    · exact Or.inr ⟨_, _, noRet_err r1, Or.inl ⟨x', r2⟩, keeps_same l1 rfl r3 (by rw [r4]) fun _ _ => rfl⟩
  | setField o v =>
    obtain ⟨x, l1, l2⟩ := hl
    have hi := hg.inv l1
    rcases setField_spec o v hi l2 with ⟨w', x', r1, r2, r3, r4, _⟩ | ⟨w', x', e, r1, r2, r3⟩
    · refine Or.inl ⟨w', none, noRet_ok r1, Or.inl ⟨x', r2⟩, fun h => ?_⟩
      obtain ⟨f, q1, q2⟩ := r4 h
      exact ⟨x.size, f, hasVals_of l1 q1, x', r2.si.ctx, r3, q2⟩
    · exact Or.inr ⟨w', e, noRet_err r1, Or.inl ⟨x', r2⟩, r3⟩
  | setDestroy m =>
    obtain ⟨x, l1⟩ := hl
    have hi := hg.inv l1
    have r1 : setDestroy m w = .ok { w with ctx := some { x with destroyFn := some m } } () := by
      simp [setDestroy, getC_eq l1, putC]
    have hsi : SI { w with ctx := some { x with destroyFn := some m } } { x with destroyFn := some m } :=
      hi.si.flags (x' := { x with destroyFn := some m }) rfl rfl w.log
    exact Or.inl ⟨_, none, noRet_ok r1, Or.inl ⟨_, hi.keep hsi rfl (fun _ _ => rfl) (fun _ _ _ _ => rfl) hi.odd hi.rd
      (fun h => ⟨(hi.base h).1, (hi.base h).2.1⟩)⟩, keeps_same l1 rfl rfl rfl fun _ _ => rfl⟩
  | destroy =>
    obtain ⟨x, l1, l2⟩ := hl
    have hi := hg.inv l1
    rcases destroy_spec hi l2 with ⟨w', r1, r2, _⟩ | ⟨e, r⟩
    · exact Or.inl ⟨w', none, noRet_ok r1, Or.inr r2, r2.ctx⟩
    · exact Or.inr ⟨w, e, noRet_err r, hg, keeps_refl w⟩
  | malloc b =>
    left
    have hn : w.heap w.next = none := by
      by_contra h
      exact Nat.lt_irrefl _ (hg.fresh _ h)
    obtain ⟨r1, r2⟩ := good_outside (h := fun c => if c = w.next then some ⟨b, false⟩ else w.heap c) (n := w.next + 1) hg
      (by
        rintro a ⟨x, s, h1, h2⟩
        have : a ≠ w.next := by
          intro h
          subst h
          obtain ⟨b, e, _⟩ := (hg.inv h1).si.ok s _ h2
          rw [hn] at e
          cases e
        simp [this])
      (by
        intro a ha
        by_cases h : a = w.next
        · omega
        · have := hg.fresh a (by simpa [h] using ha)
          omega)
      (by
        intro a d had hd
        by_cases h : a = w.next
        · simp [h] at had
          subst had
          cases hd
        · simpa [h] using had)
    exact ⟨_, some w.next, rfl, r1, r2⟩
  | mfree a =>
    left
    obtain ⟨⟨b, l1⟩, l2⟩ := hl
    obtain ⟨r1, r2⟩ := good_outside (h := fun c => if c = a then none else w.heap c) (n := w.next) hg
      (by
        intro c hc
        have : c ≠ a := fun h => l2 (h ▸ hc)
        simp [this])
      (by
        intro c hc
        by_cases h : c = a
        · simp [h] at hc
        · exact hg.fresh c (by simpa [h] using hc))
      (by
        intro c d hcd _
        by_cases h : c = a
        · simp [h] at hcd
        · simpa [h] using hcd)
    exact ⟨_, none, noRet_ok (by simp [mfree, l1, W.setBlk]), r1, r2⟩
  | store a i z =>
    left
    obtain ⟨b, l1, l2, l3⟩ := hl
    have hrun : store a i z w =
        .ok (w.setBlk a (some { b with buf := ⟨b.buf.len, fun j => if j = i then z else b.buf.val j⟩ })) () := by
      simp [store, l1, l2]
    by_cases hh : Held w a
    · have l3' : ∃ x, w.ctx = some x ∧ (x.ptr .wr = some a ∨ x.ptr .ro = some a) := by
        rcases l3 with h | h
        · exact absurd hh h
        · exact h
      obtain ⟨x, k1, k2⟩ := l3'
      have hi := hg.inv k1
      have hsi := hi.si.setBlk (b' := { b with buf := ⟨b.buf.len, fun j => if j = i then z else b.buf.val j⟩ }) l1 rfl rfl
      have hne : ∀ c, c ≠ a →
          (w.setBlk a (some { b with buf := ⟨b.buf.len, fun j => if j = i then z else b.buf.val j⟩ })).heap c = w.heap c :=
        fun c h => by simp [W.setBlk, h]
      rcases k2 with k2 | k2
      · obtain ⟨g1, g2⟩ := hi.granted (Or.inl rfl) k2 hsi hne
        exact ⟨_, none, noRet_ok hrun, Or.inl ⟨x, g1⟩, g2⟩
      · obtain ⟨g1, g2⟩ := hi.granted (Or.inr rfl) k2 hsi hne
        exact ⟨_, none, noRet_ok hrun, Or.inl ⟨x, g1⟩, g2⟩
    · obtain ⟨r1, r2⟩ := good_outside
        (h := fun c => if c = a then some { b with buf := ⟨b.buf.len, fun j => if j = i then z else b.buf.val j⟩ } else w.heap c)
        (n := w.next) hg
        (by
          intro c hc
          have : c ≠ a := fun h => hh (h ▸ hc)
          simp [this])
        (by
          intro c hc
          by_cases h : c = a
          · exact hg.fresh c (by rw [h, l1]; simp)
          · exact hg.fresh c (by simpa [h] using hc))
        (by
          intro c d hcd hd
          by_cases h : c = a
          · simp [h] at hcd
            subst hcd
            exact absurd (hg.lib l1 hd) hh
          · simpa [h] using hcd)
      exact ⟨_, none, noRet_ok hrun, r1, r2⟩

theorem good_init : Good (W.init : W β) :=
  Or.inl ⟨_, ⟨rfl, fun _ _ h => (by cases h), fun _ _ _ h => (by cases h), fun _ h => absurd rfl h, fun _ _ h => (by cases h)⟩,
    ⟨fun h => (by cases h), fun h => absurd rfl h⟩, fun h => (by cases h), fun _ => ⟨rfl, rfl, rfl, rfl⟩, Or.inl rfl, Or.inl rfl⟩

theorem Reach.good {w : W β} (hr : Reach w) : Good w := by
  induction hr with
  | init => exact good_init
  | step _ hl hs ih =>
    rcases exec_spec ih hl with ⟨w', p, h1, h2, _⟩ | ⟨w', e, h1, h2, _⟩
    · cases hs with
      | ok h => rw [h1] at h; cases h; exact h2
      | err h => rw [h1] at h; cases h
    · cases hs with
      | ok h => rw [h1] at h; cases h
      | err h => rw [h1] at h; cases h; exact h2

/-- **C77**: no call of a program that keeps the contract has undefined behaviour, in any history. -/
theorem C77_defined_partial {w : W β} {c : Call β} (hr : Reach w) (hl : Legal w c) : exec c w ≠ .ub := by
  intro h
  rcases exec_spec hr.good hl with ⟨w', p, h1, _⟩ | ⟨w', e, h1, _⟩ <;> rw [h1] at h <;> cases h

/-- **C77**: a successful call has its documented effect on the values and the arrays: access is granted to an array with the
present values, what was written to it is the data once access is given back, and nothing else changes the data. -/
theorem C77_documented_partial {w w' : W β} {p : Option Nat} {c : Call β} (hr : Reach w) (hl : Legal w c)
    (h : exec c w = .ok w' p) : Doc w w' p c := by
  rcases exec_spec hr.good hl with ⟨w1, p1, h1, _, h2⟩ | ⟨w1, e, h1, _⟩ <;> rw [h1] at h <;> cases h
  exact h2

/-- **C77**: a call that fails leaves the values as they are. -/
theorem C77_failed_partial {w w' : W β} {e : Err} {c : Call β} (hr : Reach w) (hl : Legal w c)
    (h : exec c w = .err w' e) : Keeps w w' := by
  rcases exec_spec hr.good hl with ⟨w1, p1, h1, _, h2⟩ | ⟨w1, e1, h1, _, h2⟩ <;> rw [h1] at h <;> cases h
  exact h2

/-- **C77**: when the last reader gives its access back, the call succeeds exactly if no reader has changed the data it was
granted, and otherwise reports it; for the readers before, the call succeeds. -/
theorem C77_reports_partial {w : W β} {x : KCtx} (hr : Reach w) (hx : w.ctx = some x) :
    (x.readers = 0 → exec .restoreDataRead w = .err w .minor) ∧
    (x.readers = 1 → ((∃ w', exec .restoreDataRead w = .ok w' none) ↔ Clean w) ∧
      ((∃ w', exec .restoreDataRead w = .err w' .backend) ↔ ¬ Clean w)) ∧
    (1 < x.readers → ∃ w', exec .restoreDataRead w = .ok w' none) := by
  have hi := hr.good.inv hx
  rcases restoreDataRead_spec hi with ⟨h, r⟩ | ⟨h, hcl, w', x', r1, _⟩ | ⟨h, hcl, x', r1, _⟩
  · exact ⟨fun _ => noRet_err r, fun h' => by omega, fun h' => by omega⟩
  · refine ⟨fun h' => by omega, fun h' => ⟨⟨fun _ => hcl h', fun _ => ⟨w', noRet_ok r1⟩⟩, ?_, fun h2 => absurd (hcl h') h2⟩,
      fun _ => ⟨w', noRet_ok r1⟩⟩
    rintro ⟨w2, h2⟩
    rw [show exec .restoreDataRead w = _ from noRet_ok r1] at h2
    cases h2
  · refine ⟨fun h' => by omega, fun _ => ⟨⟨?_, fun h2 => absurd h2 hcl⟩, fun _ => hcl, fun _ => ⟨_, noRet_err r1⟩⟩,
      fun h' => by omega⟩
    rintro ⟨w2, h2⟩
    rw [show exec .restoreDataRead w = _ from noRet_err r1] at h2
    cases h2

/-- **C77**: a context has no data, or one set of values, which an array lent to it contains too, whatever was called. -/
theorem C77_lent_partial {w : W β} (hr : Reach w) (hw : Is w) : NoVals w ∨ ∃ n f, HasVals w n f ∧
    ∀ a, Lent w a → Gives w (some a) n f := by
  obtain ⟨x, hx⟩ := hw
  have hi := hr.good.inv hx
  rcases hi.vals with h | ⟨f, h1, h2⟩
  · exact Or.inl ⟨x, hx, h⟩
  · refine Or.inr ⟨x.size, f, hasVals_of hx h1, ?_⟩
    rintro a ⟨x0, k1, k2⟩
    rw [hx] at k1
    cases k1
    have := h2 .bor (Or.inr rfl) (by rw [k2]; simp)
    rw [k2] at this
    exact this

/-- **C77**: access is granted and given back as the calls say, and no other call that succeeds changes what is granted; in
particular data is not set, taken or changed through a field while access for writing is granted. -/
theorem C77_access_partial {w w' : W β} {x x' : KCtx} {p : Option Nat} {c : Call β} (hr : Reach w) (hl : Legal w c)
    (hx : w.ctx = some x) (h : exec c w = .ok w' p) (hx' : w'.ctx = some x') : Access x x' c := by
  have hi := hr.good.inv hx
  have key : ∀ {w1 : W β} {x1 : KCtx} {p1 : Option Nat}, exec c w = .ok w1 p1 → w1.ctx = some x1 → x' = x1 := by
    intro w1 x1 p1 h1 h2
    rw [h] at h1
    cases h1
    rw [hx'] at h2
    cases h2
    rfl
  have bad : ∀ {w1 : W β} {e : Err}, exec c w = .err w1 e → False := by
    intro w1 e h1
    rw [h] at h1
    cases h1
  cases c with
  | setData m mode n a =>
    obtain ⟨x0, b, l1, l2, l3, l4, l5, l6, _⟩ := hl
    rw [hx] at l1
    cases l1
    subst l3
    rcases setData_spec mode n a b hi l2 l4 l5 l6 with ⟨w1, x1, r1, r2, _, _, _, _, r3, _⟩ | ⟨e, r⟩
    · rw [key (noRet_ok r1) r2.si.ctx]
      exact ⟨r3.1, by omega, r3.2.2⟩
    · exact (bad (noRet_err r)).elim
  | takeData m =>
    obtain ⟨x0, l1, l2⟩ := hl
    rw [hx] at l1
    cases l1
    rcases takeData_spec m hi l2 with ⟨w1, x1, f, a, r1, r2, r3, r4, r5, r6, r7, r8, r9⟩ | ⟨e, r⟩
    · rw [key r1 r2.si.ctx]
      exact ⟨r7, by omega, r9⟩
    · exact (bad r).elim
  | getData m =>
    rcases getData_spec m hi with ⟨w1, x1, f, a, r1, r2, r3, r4, r5, r6, r7, _⟩ | ⟨e, r⟩
    · rw [key r1 r3.si.ctx]
      exact ⟨r5, r7, by omega, by omega⟩
    · exact (bad r).elim
  | getDataRead m =>
    rcases getDataRead_spec m hi with ⟨w1, x1, f, a, r1, r2, r3, r4, r5, r6, _⟩ | ⟨e, r⟩
    · rw [key r1 r3.si.ctx]
      exact ⟨r5, by omega, r6⟩
    · exact (bad r).elim
  | restoreData =>
    rcases restoreData_spec hi with ⟨w1, x1, g, r1, r2, r3, r4, r5, r6, r7, r8⟩ | ⟨_, e, r⟩
    · rw [key (noRet_ok r1) r2.si.ctx]
      exact ⟨r3, r8, r7⟩
    · exact (bad (noRet_err r)).elim
  | restoreDataRead =>
    rcases restoreDataRead_spec hi with ⟨_, r⟩ | ⟨r0, _, w1, x1, r1, r2, r3, r4, r5, r6, r7⟩ | ⟨_, _, x1, r1, _⟩
    · exact (bad (noRet_err r)).elim
    · rw [key (noRet_ok r1) r2.si.ctx]
      exact ⟨r0, r6, by rw [r7]⟩
    · exact (bad (noRet_err r1)).elim
  | setField o v =>
    obtain ⟨x0, l1, l2⟩ := hl
    rw [hx] at l1
    cases l1
    rcases setField_spec o v hi l2 with ⟨w1, x1, r1, r2, r3, r4, r5⟩ | ⟨w1, x1, e, r1, _⟩
    · rw [key (noRet_ok r1) r2.si.ctx]
      exact r5
    · exact (bad (noRet_err r1)).elim
  | setDestroy m =>
    have r1 : setDestroy m w = .ok { w with ctx := some { x with destroyFn := some m } } () := by
      simp [setDestroy, getC_eq hx, putC]
    rw [key (noRet_ok r1) rfl]
    exact ⟨rfl, rfl⟩
  | destroy =>
    obtain ⟨x0, l1, l2⟩ := hl
    rw [hx] at l1
    cases l1
    rcases destroy_spec hi l2 with ⟨w1, r1, r2, _⟩ | ⟨e, r⟩
    · rw [show exec .destroy w = _ from noRet_ok r1] at h
      cases h
      rw [r2.ctx] at hx'
      cases hx'
    · exact (bad (noRet_err r)).elim
  | malloc b =>
    rw [key (w1 := { w.setBlk w.next (some ⟨b, false⟩) with next := w.next + 1 }) rfl hx]
    exact ⟨rfl, rfl⟩
  | mfree a =>
    obtain ⟨⟨b, l1⟩, l2⟩ := hl
    rw [key (w1 := w.setBlk a none) (noRet_ok (by simp [mfree, l1])) hx]
    exact ⟨rfl, rfl⟩
  | store a i z =>
    obtain ⟨b, l1, l2, l3⟩ := hl
    rw [key (w1 := w.setBlk a (some { b with buf := ⟨b.buf.len, fun j => if j = i then z else b.buf.val j⟩ }))
      (noRet_ok (by simp [store, l1, l2])) hx]
    exact ⟨rfl, rfl⟩

/-- **C77**: access for reading and for writing exclude each other. -/
theorem C77_readers_partial {w : W β} {x : KCtx} (hr : Reach w) (hx : w.ctx = some x) (h : 0 < x.readers) : ¬ ∃ p, Writing w p := by
  rintro ⟨p, x0, k1, k2, _⟩
  rw [hx] at k1
  cases k1
  have := ((hr.good.inv hx).rd h).2
  omega

/-- **C77**: arrays that a program gets access to are never those that the context keeps its values in, nor arrays of the
program: a program that writes to them without access cannot change the data. -/
theorem C77_private_partial {w : W β} {x : KCtx} (hr : Reach w) (hx : w.ctx = some x) {s t : Slot} {a : Nat}
    (hs : x.ptr s = some a) (ht : x.ptr t = some a) : s = t :=
  (hr.good.inv hx).si.inj s t a hs ht

/-- **C77**: after a context was destroyed, no array remains that the library should have freed. -/
theorem C77_no_leak_partial {w : W β} (hr : Reach w) (hw : w.ctx = none) {a : Nat} {b : Blk β} (hb : w.heap a = some b) :
    b.lib = false := by
  rcases hr.good with ⟨x, hi⟩ | hg
  · have := hi.si.ctx
    rw [hw] at this
    cases this
  · exact hg.lib a b hb

/-- **C77**: a data destroy function is called once when data is replaced or the context destroyed, with the array that the
program has lent or given away, which contains the present values. -/
theorem C77_destroyed_partial {w w' : W β} {x : KCtx} {p : Option Nat} {c : Call β} (hr : Reach w) (hx : w.ctx = some x)
    (hd : x.destroyFn = some .host) (hl : Legal w c) (hc : c = .destroy ∨ ∃ m mode n a, c = .setData m mode n a)
    (h : exec c w = .ok w' p) : ∃ q, w'.log = w.log ++ [q] ∧
      ∀ a, x.ptr .bor = some a ∨ x.ptr .own = some a → q = some a ∧ ∃ n f, HasVals w n f ∧ Gives w q n f := by
  have hi := hr.good.inv hx
  have hlog : w'.log = w.log ++ [if (x.ptr .bor).isSome then x.ptr .bor else x.ptr .own] := by
    rcases hc with rfl | ⟨m, mode, n, a, rfl⟩
    · obtain ⟨x0, l1, l2⟩ := hl
      rw [hx] at l1
      cases l1
      rcases destroy_spec hi l2 with ⟨w1, r1, _, r3⟩ | ⟨e, r⟩
      · rw [show exec .destroy w = _ from noRet_ok r1] at h
        cases h
        rw [r3, if_pos hd]
      · rw [show exec .destroy w = _ from noRet_err r] at h
        cases h
    · obtain ⟨x0, b, l1, l2, l3, l4, l5, l6, _⟩ := hl
      rw [hx] at l1
      cases l1
      subst l3
      rcases setData_spec mode n a b hi l2 l4 l5 l6 with ⟨w1, x1, r1, _, _, _, _, _, _, r3⟩ | ⟨e, r⟩
      · rw [show exec (.setData .host mode n a) w = _ from noRet_ok r1] at h
        cases h
        rw [r3, if_pos hd]
      · rw [show exec (.setData .host mode n a) w = _ from noRet_err r] at h
        cases h
  refine ⟨_, hlog, ?_⟩
  intro a ha
  have hv : x.ptr .alloc ≠ none := by
    intro hn
    have := hi.base hn
    rcases ha with ha | ha
    · rw [this.2.2.2] at ha
      cases ha
    · rw [this.2.2.1] at ha
      cases ha
  obtain ⟨f, h1, h2⟩ := hi.get hv
  rcases ha with ha | ha
  · refine ⟨by simp [ha], x.size, f, hasVals_of hx h1, ?_⟩
    have := h2 .bor (Or.inr rfl) (by rw [ha]; simp)
    simpa [ha] using this
  · have hb : x.ptr .bor = none := by
      rcases hi.excl with h | h
      · rw [ha] at h
        cases h
      · exact h
    refine ⟨by simp [ha, hb], x.size, f, hasVals_of hx h1, ?_⟩
    have := h2 .own (Or.inl rfl) (by rw [ha]; simp)
    simpa [ha, hb] using this

end CheckCtx
end Verif
