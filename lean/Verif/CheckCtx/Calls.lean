import Verif.CheckCtx.Ops

/-!
# Contexts of the checking backend: every call
-/

namespace Verif
namespace CheckCtx

open Vector (Mem Mode)

variable {β : Type}

/-- The invariant. -/
structure Inv (w : W β) (x : KCtx) : Prop where
  si : SI w x
  odd : x.state % 2 = 1 ↔ x.ptr .wr ≠ none
  rd : 0 < x.readers → x.ptr .ro ≠ none ∧ x.state % 2 = 0
  base : x.ptr .alloc = none → x.ptr .wr = none ∧ x.ptr .ro = none ∧ x.ptr .own = none ∧ x.ptr .bor = none
  excl : x.ptr .own = none ∨ x.ptr .bor = none
  vals : x.ptr .alloc = none ∨ ∃ f, Gives w (x.ptr .alloc) x.size f ∧
    ∀ s, s = .own ∨ s = .bor → x.ptr s ≠ none → Gives w (x.ptr s) x.size f

theorem Inv.get {w : W β} {x : KCtx} (hi : Inv w x) (h : x.ptr .alloc ≠ none) : ∃ f, Gives w (x.ptr .alloc) x.size f ∧
    ∀ s, s = .own ∨ s = .bor → x.ptr s ≠ none → Gives w (x.ptr s) x.size f := by
  rcases hi.vals with h' | h'
  · exact absurd h' h
  · exact h'

/-- Two slots with pointers lead to different arrays. -/
theorem SI.ne {w : W β} {x : KCtx} (hi : SI w x) {s t : Slot} {a c : Nat} (hst : s ≠ t) (h1 : x.ptr s = some a)
    (h2 : x.ptr t = some c) : a ≠ c := by
  intro h
  subst h
  exact hst (hi.inj s t a h1 h2)

theorem hasVals_of {w : W β} {x : KCtx} {f : Nat → β} (h : w.ctx = some x) (hf : Gives w (x.ptr .alloc) x.size f) :
    HasVals w x.size f := ⟨x, h, rfl, hf⟩

theorem hasVals_inv {w : W β} {x : KCtx} {n : Nat} {f : Nat → β} (h : w.ctx = some x) (hf : HasVals w n f) :
    x.size = n ∧ Gives w (x.ptr .alloc) x.size f := by
  obtain ⟨x', h1, h2, h3⟩ := hf
  rw [h] at h1
  cases h1
  subst h2
  exact ⟨rfl, h3⟩

theorem keeps_refl (w : W β) : Keeps w w := ⟨fun _ _ h => h, fun h => h⟩

/-- The array with the values stays as it is. -/
theorem keeps_same {w w' : W β} {x x' : KCtx} (h : w.ctx = some x) (h' : w'.ctx = some x') (hs : x'.size = x.size)
    (hp : x'.ptr .alloc = x.ptr .alloc) (hw : ∀ a, x.ptr .alloc = some a → w'.heap a = w.heap a) : Keeps w w' := by
  refine ⟨?_, ?_⟩
  · intro n f hf
    obtain ⟨h1, h2⟩ := hasVals_inv h hf
    subst h1
    refine ⟨x', h', hs, ?_⟩
    rw [hp]
    exact h2.same hw
  · rintro ⟨x0, g1, g2⟩
    rw [h] at g1
    cases g1
    exact ⟨x', h', hp.trans g2⟩

/-- The invariant when values and arrays of the program stay as they are. -/
theorem Inv.keep {w w' : W β} {x x' : KCtx} (hi : Inv w x) (hs : SI w' x') (hz : x'.size = x.size)
    (hp : ∀ s, s = .alloc ∨ s = .own ∨ s = .bor → x'.ptr s = x.ptr s)
    (hw : ∀ s a, s = .alloc ∨ s = .own ∨ s = .bor → x.ptr s = some a → w'.heap a = w.heap a)
    (odd : x'.state % 2 = 1 ↔ x'.ptr .wr ≠ none) (rd : 0 < x'.readers → x'.ptr .ro ≠ none ∧ x'.state % 2 = 0)
    (base : x.ptr .alloc = none → x'.ptr .wr = none ∧ x'.ptr .ro = none) : Inv w' x' := by
  refine ⟨hs, odd, rd, ?_, ?_, ?_⟩
  · intro h
    rw [hp _ (Or.inl rfl)] at h
    have := hi.base h
    exact ⟨(base h).1, (base h).2, by rw [hp _ (Or.inr (Or.inl rfl))]; exact this.2.2.1,
      by rw [hp _ (Or.inr (Or.inr rfl))]; exact this.2.2.2⟩
  · rw [hp _ (Or.inr (Or.inl rfl)), hp _ (Or.inr (Or.inr rfl))]
    exact hi.excl
  · rcases hi.vals with h | ⟨f, h1, h2⟩
    · left
      rw [hp _ (Or.inl rfl)]
      exact h
    · right
      refine ⟨f, ?_, ?_⟩
      · rw [hp _ (Or.inl rfl), hz]
        exact h1.same fun a ha => hw _ a (Or.inl rfl) ha
      · intro s hs' hn
        rw [hp s (Or.inr hs')] at hn ⊢
        rw [hz]
        exact (h2 s hs' hn).same fun a ha => hw _ a (Or.inr hs') ha

/-- `CeedQFunctionContextGetData`. -/
theorem getData_spec {w : W β} {x : KCtx} (m : Mem) (hi : Inv w x) :
    (∃ w' x' f a, getData m w = .ok w' (some a) ∧ m = .host ∧ Inv w' x' ∧ x'.state = x.state + 1 ∧ x.state % 2 = 0 ∧
      x'.readers = x.readers ∧ x.readers = 0 ∧ x'.size = x.size ∧ x'.ptr .alloc = x.ptr .alloc ∧
      Gives w (x.ptr .alloc) x.size f ∧ Gives w' (x.ptr .alloc) x.size f ∧ Gives w' (some a) x.size f ∧
      x'.ptr .wr = some a ∧ w.heap a = none ∧ x'.ptr .bor = x.ptr .bor) ∨ ∃ e, getData m w = .err w e := by
  have hc := hi.si.ctx
  by_cases he : x.state % 2 = 0
  · by_cases hr : x.readers = 0
    · by_cases hv : x.ptr .alloc = none
      · exact Or.inr ⟨.backend, by simp [getData, getC_eq hc, he, hr, hv]⟩
      · by_cases hm : m = .host
        · left
          have hwr : x.ptr .wr = none := by
            by_contra h
            have := hi.odd.2 h
            omega
          obtain ⟨f, hf, _⟩ := hi.get hv
          obtain ⟨b, h1, h2, h3⟩ := look_eq hf
          obtain ⟨w1, n1, n2, n3, n4, n5, n6, n7⟩ := newSlot hi.si (s := .wr) (by decide) hwr b.val
          have hsame : ∀ s a, x.ptr s = some a → w1.heap a = w.heap a := by
            intro s a ha
            obtain ⟨d, g, _⟩ := hi.si.ok s a ha
            exact n6 a (by rw [g]; simp)
          let x' : KCtx := { (x.setPtr .wr (some w.next)) with state := x.state + 1 }
          have hx' : ∀ s, s ≠ .wr → x'.ptr s = x.ptr s := fun s hs => setPtr_ne x (s := .wr) (some w.next) hs
          have hxs : x'.ptr .wr = some w.next := setPtr_same x .wr (some w.next)
          have hsi : SI { w1 with ctx := some x' } x' := n4.flags (x' := x') rfl rfl w1.log
          refine ⟨{ w1 with ctx := some x' }, x', f, w.next, ?_, hm, ?_, rfl, he, rfl, hr, rfl, ?_, hf, ?_, ?_, ?_, n7, ?_⟩
          · cases hxa : x.ptr .alloc with
            | none => exact absurd hxa hv
            | some a0 =>
              rw [hxa] at h1
              simp [getData, getDataB, getC_eq hc, he, hr, hxa, hm, h1, n1, setP_eq n2, getC_eq n4.ctx, putC, x']
          · refine hi.keep hsi rfl ?_ (fun s a _ ha => hsame s a ha) ?_ ?_ ?_
            · rintro s (h | h | h) <;> subst h <;> exact hx' _ (by decide)
            · show (x.state + 1) % 2 = 1 ↔ (x.setPtr .wr (some w.next)).ptr .wr ≠ none
              simp
              omega
            · intro h
              have : 0 < x.readers := h
              omega
            · intro h
              exact absurd h hv
          · exact hx' _ (by decide)
          · exact hf.same fun a ha => hsame _ a ha
          · exact n5.congr h3
          · exact hxs
          · exact hx' _ (by decide)
        · refine Or.inr ⟨.backend, ?_⟩
          cases hxa : x.ptr .alloc with
          | none => exact absurd hxa hv
          | some a0 => simp [getData, getC_eq hc, he, hr, hxa, hm]
    · exact Or.inr ⟨.minor, by simp [getData, getC_eq hc, he, hr]⟩
  · exact Or.inr ⟨.minor, by simp [getData, getC_eq hc, he]⟩

/-- `CeedQFunctionContextGetDataRead`. -/
theorem getDataRead_spec {w : W β} {x : KCtx} (m : Mem) (hi : Inv w x) :
    (∃ w' x' f a, getDataRead m w = .ok w' (some a) ∧ m = .host ∧ Inv w' x' ∧ x'.state = x.state ∧ x.state % 2 = 0 ∧
      x'.readers = x.readers + 1 ∧ x'.size = x.size ∧ x'.ptr .alloc = x.ptr .alloc ∧
      Gives w (x.ptr .alloc) x.size f ∧ Gives w' (x.ptr .alloc) x.size f ∧ x'.ptr .ro = some a ∧
      (x.ptr .ro = none → Gives w' (some a) x.size f) ∧
      (x.ptr .ro ≠ none → x.ptr .ro = some a ∧ w'.heap a = w.heap a)) ∨ ∃ e, getDataRead m w = .err w e := by
  have hc := hi.si.ctx
  by_cases he : x.state % 2 = 0
  · by_cases hv : x.ptr .alloc = none
    · exact Or.inr ⟨.backend, by simp [getDataRead, getC_eq hc, he, hv]⟩
    · obtain ⟨a0, ha0⟩ : ∃ a0, x.ptr .alloc = some a0 := by
        cases hxa : x.ptr .alloc with
        | none => exact absurd hxa hv
        | some a0 => exact ⟨a0, rfl⟩
      by_cases hm : m = .host
      · left
        have hwr : x.ptr .wr = none := by
          by_contra h
          have := hi.odd.2 h
          omega
        obtain ⟨f, hf, _⟩ := hi.get hv
        obtain ⟨b, h1, h2, h3⟩ := look_eq hf
        cases hro : x.ptr .ro with
        | none =>
          obtain ⟨w1, n1, n2, n3, n4, n5, n6, n7⟩ := newSlot hi.si (s := .ro) (by decide) hro b.val
          have hsame : ∀ s a, x.ptr s = some a → w1.heap a = w.heap a := by
            intro s a ha
            obtain ⟨d, g, _⟩ := hi.si.ok s a ha
            exact n6 a (by rw [g]; simp)
          let x' : KCtx := { (x.setPtr .ro (some w.next)) with readers := x.readers + 1 }
          have hx' : ∀ s, s ≠ .ro → x'.ptr s = x.ptr s := fun s hs => setPtr_ne x (s := .ro) (some w.next) hs
          have hxs : x'.ptr .ro = some w.next := setPtr_same x .ro (some w.next)
          have hsi : SI { w1 with ctx := some x' } x' := n4.flags (x' := x') rfl rfl w1.log
          refine ⟨{ w1 with ctx := some x' }, x', f, w.next, ?_, hm, ?_, rfl, he, rfl, rfl, ?_, hf, ?_, ?_,
            fun _ => n5.congr h3, fun h => absurd rfl h⟩
          · rw [ha0] at h1
            simp [getDataRead, getDataReadB, makeRead, getC_eq hc, he, ha0, hm, h1, n1, setP_eq n2, getC_eq n4.ctx, putC, x', hro]
          · refine hi.keep hsi rfl ?_ (fun s a _ ha => hsame s a ha) ?_ ?_ ?_
            · rintro s (h | h | h) <;> subst h <;> exact hx' _ (by decide)
            · show x.state % 2 = 1 ↔ (x.setPtr .ro (some w.next)).ptr .wr ≠ none
              rw [setPtr_ne _ _ (by decide)]
              exact hi.odd
            · intro _
              exact ⟨by show (x.setPtr .ro (some w.next)).ptr .ro ≠ none; simp, he⟩
            · intro h
              exact absurd h hv
          · exact hx' _ (by decide)
          · exact hf.same fun a ha => hsame _ a ha
          · exact hxs
        | some r =>
          let x' : KCtx := { x with readers := x.readers + 1 }
          have hsi : SI { w with ctx := some x' } x' := hi.si.flags (x' := x') rfl rfl w.log
          refine ⟨{ w with ctx := some x' }, x', f, r, ?_, hm, ?_, rfl, he, rfl, rfl, rfl, hf, hf, hro,
            fun h => by simp at h, fun _ => ⟨rfl, rfl⟩⟩
          · simp [getDataRead, getDataReadB, getC_eq hc, he, ha0, hm, putC, x', hro]
          · refine hi.keep hsi rfl (fun _ _ => rfl) (fun s a _ ha => rfl) hi.odd ?_ ?_
            · intro _
              exact ⟨by show x.ptr .ro ≠ none; rw [hro]; simp, he⟩
            · intro h
              exact absurd h hv
      · exact Or.inr ⟨.backend, by simp [getDataRead, getC_eq hc, he, ha0, hm]⟩
  · exact Or.inr ⟨.minor, by simp [getDataRead, getC_eq hc, he]⟩

/-- `CeedQFunctionContextSyncData_Memcheck`. -/
theorem syncB_spec {w : W β} {x : KCtx} {f : Nat → β} (hi : SI w x) (hf : Gives w (x.ptr .alloc) x.size f) :
    ∃ w', syncB w = .ok w' () ∧ SI w' x ∧ (∀ c, x.ptr .own ≠ some c → x.ptr .bor ≠ some c → w'.heap c = w.heap c) ∧
      Gives w' (x.ptr .alloc) x.size f ∧
      (∀ s, s = .own ∨ s = .bor → x.ptr s ≠ none → Gives w' (x.ptr s) x.size f) ∧ w'.log = w.log := by
  obtain ⟨w1, h1, h2, h3, h4, h5⟩ := copyTo_spec hi hf (s := .own)
  have hf1 : Gives w1 (x.ptr .alloc) x.size f := hf.same fun a ha => h3 a (fun h => absurd (hi.inj _ _ a ha h) (by decide))
  obtain ⟨w2, g1, g2, g3, g4, g5⟩ := copyTo_spec h2 hf1 (s := .bor)
  refine ⟨w2, by simp [syncB, h1, g1], g2, fun c hc hc' => (g3 c hc').trans (h3 c hc), ?_, ?_, g5.trans h5⟩
  · exact hf1.same fun a ha => g3 a (fun h => absurd (hi.inj _ _ a ha h) (by decide))
  · rintro s (hs | hs) hn <;> subst hs
    · exact (h4 hn).same fun a ha => g3 a (fun h => absurd (hi.inj _ _ a ha h) (by decide))
    · exact g4 hn

/-- `CeedQFunctionContextRestoreData`. -/
theorem restoreData_spec {w : W β} {x : KCtx} (hi : Inv w x) :
    (∃ w' x' g, restoreData w = .ok w' () ∧ Inv w' x' ∧ x.state % 2 = 1 ∧ x'.size = x.size ∧
      Gives w (x.ptr .wr) x.size g ∧ Gives w' (x'.ptr .alloc) x.size g ∧ x'.readers = x.readers ∧ x'.state % 2 = 0) ∨
      (x.state % 2 = 0 ∧ ∃ e, restoreData w = .err w e) := by
  have hc := hi.si.ctx
  by_cases ho : x.state % 2 = 1
  · left
    have hwr := hi.odd.1 ho
    have hv : x.ptr .alloc ≠ none := fun h => hwr (hi.base h).1
    obtain ⟨g, hg⟩ := hi.si.gives hwr
    obtain ⟨b, h1, h2, h3⟩ := look_eq hg
    obtain ⟨a0, ha0⟩ : ∃ a0, x.ptr .alloc = some a0 := by
      cases hxa : x.ptr .alloc with
      | none => exact absurd hxa hv
      | some a0 => exact ⟨a0, rfl⟩
    obtain ⟨w1, f1, f2, f3, f4, f5⟩ := fill_spec hi.si ha0 (o := 0) (n := x.size) (by omega) b.val
    have hf1 : Gives w1 (x.ptr .alloc) x.size g := by
      obtain ⟨k, hk⟩ := hi.si.gives hv
      rw [ha0] at hk ⊢
      refine (f4 k hk).congr ?_
      intro i hi'
      rw [if_pos (by omega)]
      exact h3 i hi'
    obtain ⟨w2, s1, s2, s3, s4, s5, s6⟩ := syncB_spec f2 hf1
    obtain ⟨w3, t1, t2, t3, t4⟩ := freeSlot_spec s2 (s := .wr) (by decide)
    let x' : KCtx := { (x.setPtr .wr none) with state := x.state + 1 }
    have hsi : SI { w3 with ctx := some x' } x' := t2.flags (x' := x') rfl rfl w3.log
    have hal : x'.ptr .alloc = x.ptr .alloc := setPtr_ne x (s := .wr) (t := .alloc) none (by decide)
    have hg' : Gives { w3 with ctx := some x' } (x'.ptr .alloc) x.size g := by
      rw [hal]
      exact s4.same fun a ha => t3 a (fun h => absurd (hi.si.inj _ _ a ha h) (by decide))
    refine ⟨{ w3 with ctx := some x' }, x', g, ?_, ⟨hsi, ?_, ?_, ?_, ?_, Or.inr ⟨g, hg', ?_⟩⟩, ho, rfl, hg, hg', rfl, ?_⟩
    · simp [restoreData, restoreDataB, getC_eq hc, ho, h1, ha0, f1, s1, touchSlot_eq s2, t1, getC_eq t2.ctx, putC, x']
    · show (x.state + 1) % 2 = 1 ↔ (x.setPtr .wr none).ptr .wr ≠ none
      simp
      omega
    · intro h
      have := hi.rd h
      omega
    · intro h
      rw [hal] at h
      exact absurd h hv
    · show (x.setPtr .wr none).ptr .own = none ∨ (x.setPtr .wr none).ptr .bor = none
      rw [setPtr_ne _ _ (by decide), setPtr_ne _ _ (by decide)]
      exact hi.excl
    · rintro s hs hn
      have hsw : x'.ptr s = x.ptr s := setPtr_ne x (s := .wr) (t := s) none (by rcases hs with h | h <;> subst h <;> decide)
      rw [hsw] at hn ⊢
      refine (s5 s hs hn).same fun a ha => t3 a (fun h => ?_)
      have := hi.si.inj _ _ a ha h
      rcases hs with h | h <;> subst h <;> cases this
    · show (x.state + 1) % 2 = 0
      omega
  · exact Or.inr ⟨by omega, .minor, by simp [restoreData, getC_eq hc, ho]⟩

/-- `CeedQFunctionContextTakeData`. -/
theorem takeData_spec {w : W β} {x : KCtx} (m : Mem) (hi : Inv w x) (hro : x.ptr .ro = none) :
    (∃ w' x' f a, takeData m w = .ok w' (some a) ∧ Inv w' x' ∧ Gives w (x.ptr .alloc) x.size f ∧ x.ptr .bor = some a ∧
      Gives w' (some a) x.size f ∧ (∀ s, x'.ptr s = none) ∧ x.state % 2 = 0 ∧ x'.state = x.state ∧ x'.readers = x.readers) ∨
      ∃ e, takeData m w = .err w e := by
  have hc := hi.si.ctx
  cases ha0 : x.ptr .alloc with
  | none => exact Or.inr ⟨.backend, by simp [takeData, getC_eq hc, ha0]⟩
  | some a0 =>
    by_cases he : x.state % 2 = 0
    · by_cases hm : m = .host
      · cases hb : x.ptr .bor with
        | none => exact Or.inr ⟨.backend, by simp [takeData, getC_eq hc, he, ha0, hm, hb]⟩
        | some a =>
          left
          obtain ⟨f, hf, hf'⟩ := hi.get (by rw [ha0]; simp)
          obtain ⟨w1, s1, s2, s3, s4, s5, s6⟩ := syncB_spec hi.si hf
          let x1 : KCtx := x.setPtr .bor none
          have hsi1 : SI { w1 with ctx := some x1 } x1 :=
            dropBor s2 x.size (fun s hs => setPtr_ne _ _ hs) (setPtr_same ..) rfl (Or.inl rfl)
          obtain ⟨w2, t1, t2, t3, t4⟩ := freeSlot_spec hsi1 (s := .alloc) (by decide)
          have hwr : x.ptr .wr = none := by
            by_contra h
            have := hi.odd.2 h
            omega
          have hown : x.ptr .own = none := by
            rcases hi.excl with h | h
            · exact h
            · rw [hb] at h; cases h
          have hall : ∀ s, (x1.setPtr .alloc none).ptr s = none := by
            intro s
            cases s
            · exact setPtr_same ..
            · rw [setPtr_ne _ _ (by decide), show x1.ptr .own = x.ptr .own from setPtr_ne _ _ (by decide)]; exact hown
            · rw [setPtr_ne _ _ (by decide)]; exact setPtr_same ..
            · rw [setPtr_ne _ _ (by decide), show x1.ptr .ro = x.ptr .ro from setPtr_ne _ _ (by decide)]; exact hro
            · rw [setPtr_ne _ _ (by decide), show x1.ptr .wr = x.ptr .wr from setPtr_ne _ _ (by decide)]; exact hwr
          refine ⟨w2, _, f, a, ?_, ⟨t2, ?_, ?_, fun _ => ⟨hall _, hall _, hall _, hall _⟩, Or.inl (hall _), Or.inl (hall _)⟩,
            by rw [ha0] at hf; exact hf, rfl, ?_, hall, he, rfl, rfl⟩
          · simp [takeData, takeDataB, getC_eq hc, he, ha0, hm, hb, s1, getC_eq s2.ctx, setP_eq s2.ctx, touchSlot_eq hsi1, t1,
              x1]
          · show x.state % 2 = 1 ↔ _
            rw [hall]
            simp
            omega
          · intro h
            exact absurd hro (hi.rd h).1
          · have := s5 .bor (Or.inr rfl) (by rw [hb]; simp)
            rw [hb] at this
            refine this.same fun c hc' => ?_
            cases hc'
            refine t3 a ?_
            rw [show x1.ptr .alloc = x.ptr .alloc from setPtr_ne _ _ (by decide)]
            intro h
            exact absurd (hi.si.inj _ _ a hb h) (by decide)
      · exact Or.inr ⟨.backend, by simp [takeData, getC_eq hc, he, ha0, hm]⟩
    · exact Or.inr ⟨.minor, by simp [takeData, getC_eq hc, he, ha0]⟩

end CheckCtx
end Verif
