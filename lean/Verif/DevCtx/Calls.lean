import Verif.DevCtx.Inv

/-!
# Contexts on the host and on the device: every call
-/

namespace Verif
namespace DevCtx

open Vector (Mem Mode)

variable {β : Type}

theorem getC_mk (h : Nat → Option (Blk β)) (n : Nat) (x : DCtx) : getC ⟨h, n, some x⟩ = .ok ⟨h, n, some x⟩ x := rfl

/-- The invariant when arrays stay as they are, and pointers only become invalid. -/
theorem Inv.put {w : W β} {x x' : DCtx} (hi : Inv w x) (hs : x'.size = x.size)
    (ho : ∀ m, (x'.side m).own = (x.side m).own) (hb : ∀ m, (x'.side m).bor = (x.side m).bor)
    (ha : ∀ m, (x'.side m).arr = (x.side m).arr ∨ (x'.side m).arr = none)
    (hodd : x'.state % 2 = 1 → ∃ m, (x'.side m).arr ≠ none ∧ (x'.side (other m)).arr = none)
    (hrd : 0 < x'.readers → x'.state % 2 = 0) :
    Inv { w with ctx := some x' } x' := by
  refine ⟨rfl, ?_, ?_, hodd, hi.fresh, ?_, hrd⟩
  · intro m
    have h := hi.side m
    refine ⟨?_, ?_, ?_, ?_⟩
    · intro a h1
      rw [ho] at h1
      rw [hs]
      exact h.own a h1
    · intro a h1
      rw [hb] at h1
      rw [hs]
      exact h.bor a h1
    · rw [ho, hb]
      exact h.excl
    · intro a h1
      rw [ho, hb]
      rcases ha m with h2 | h2
      · rw [h2] at h1
        exact h.arr a h1
      · rw [h2] at h1
        cases h1
  · by_cases hn : ∀ m, (x'.side m).arr = none
    · exact Or.inl hn
    · refine Or.inr ?_
      push Not at hn
      obtain ⟨m0, hm0⟩ := hn
      rcases hi.coh with h | ⟨f, hf⟩
      · rcases ha m0 with h2 | h2
        · rw [h2] at hm0
          exact absurd (h m0) hm0
        · exact absurd h2 hm0
      · refine ⟨f, ⟨m0, hm0⟩, ?_⟩
        intro m hm
        rcases ha m with h2 | h2
        · rw [h2] at hm ⊢
          rw [hs]
          exact hf.2 m hm
        · exact absurd h2 hm
  · intro a b h1 h2
    obtain ⟨m, hm⟩ := hi.lib a b h1 h2
    exact ⟨m, by rw [ho]; exact hm⟩

theorem VX.put {w w' : W β} {x x' : DCtx} {f : Nat → β} (hf : VX w x f) (hw : w'.heap = w.heap) (hs : x'.size = x.size)
    (ha : ∀ m, (x'.side m).arr = (x.side m).arr ∨ (x'.side m).arr = none) (hv : ∃ m, (x'.side m).arr ≠ none) :
    VX w' x' f := by
  refine ⟨hv, ?_⟩
  intro m hm
  rcases ha m with h2 | h2
  · rw [h2] at hm ⊢
    rw [hs]
    obtain ⟨a, b, e⟩ := hf.2 m hm
    exact ⟨a, b, by rw [hw]; exact e⟩
  · exact absurd h2 hm

/-- A copy, then other flags. -/
theorem Synced.put {w w' w'' : W β} {x x' x'' : DCtx} {m : Mem} (h : Synced w w' x x' m) (hw : w''.heap = w'.heap)
    (hs : x''.size = x'.size) (hr : x''.readers = x'.readers) (hd : x''.destroyFn = x'.destroyFn)
    (ho : ∀ m, (x''.side m).own = (x'.side m).own) (hb : ∀ m, (x''.side m).bor = (x'.side m).bor) :
    Synced w w'' x x'' m := by
  refine ⟨hs.trans h.size, hr.trans h.readers, hd.trans h.destroyFn, fun m' => (hb m').trans (h.bor m'), ?_, ?_, ?_, ?_⟩
  · rintro a b ⟨m', h'⟩ h1
    rw [ho, hb] at h'
    exact h.own a b ⟨m', h'⟩ h1
  · rw [hw]
    exact h.heap
  · simp only [ho, hb, hw]
    exact h.len
  · simp only [ho, hb, hw]
    exact h.mine

/-- `CeedQFunctionContextGetData`. -/
theorem getData_spec {w : W β} {x : DCtx} (m : Mem) (hi : Inv w x) :
    (∃ w' x' f, getData m w = .ok w' (x'.side m).arr ∧ Inv w' x' ∧ x'.state = x.state + 1 ∧ x.state % 2 = 0 ∧
      x.readers = 0 ∧ VX w x f ∧ VX w' x' f ∧ (x'.side m).arr ≠ none ∧ (x'.side (other m)).arr = none ∧
      Synced w w' x x' m) ∨ ∃ e, getData m w = .err w e := by
  by_cases he : x.state % 2 = 0
  · by_cases hr : x.readers = 0
    · by_cases hv : validB x = true
      · left
        obtain ⟨f, hf⟩ := hi.vals hv
        obtain ⟨w1, s, h1, h2, h3, h4, h5, _⟩ := syncB_spec m hi hf he
        let x' : DCtx := { ((x.setSide m s).invalid.setSide m { s with arr := s.arr }) with state := x.state + 1 }
        have hrun : getData m w = .ok { w1 with ctx := some x' } s.arr := by
          simp [getData, getDataB, coreB, getC_eq hi.ctx, getC_eq h2.ctx, he, hr, hv, h1, putC, getC_mk, setSide_same, x']
          simp [DCtx.setSide, DCtx.invalid]
        have hxm : x'.side m = s := by simp [x', DCtx.setSide]
        have hxo : x'.side (other m) = { x.side (other m) with arr := none } := by simp [x', DCtx.setSide, DCtx.invalid]
        have hother : (x.setSide m s).side (other m) = x.side (other m) := setSide_other ..
        refine ⟨{ w1 with ctx := some x' }, x', f, by rw [hrun, hxm], ?_, rfl, he, hr, hf, ?_, by rw [hxm]; exact h4,
          by rw [hxo], ?_⟩
        · refine h2.put rfl ?_ ?_ ?_ ?_ (fun h => absurd (show 0 < x.readers from h) (by omega))
          · exact both m (by rw [hxm, setSide_same]) (by rw [hxo, hother])
          · exact both m (by rw [hxm, setSide_same]) (by rw [hxo, hother])
          · exact both m (Or.inl (by rw [hxm, setSide_same])) (Or.inr (by rw [hxo]))
          · intro _
            exact ⟨m, by rw [hxm]; exact h4, by rw [hxo]⟩
        · refine h3.put rfl rfl ?_ ⟨m, by rw [hxm]; exact h4⟩
          exact both m (Or.inl (by rw [hxm, setSide_same])) (Or.inr (by rw [hxo]))
        · refine h5.put rfl rfl rfl rfl ?_ ?_
          · exact both m (by rw [hxm, setSide_same]) (by rw [hxo, hother])
          · exact both m (by rw [hxm, setSide_same]) (by rw [hxo, hother])
      · exact Or.inr ⟨.backend, by simp [getData, getC_eq hi.ctx, he, hr, hv]⟩
    · exact Or.inr ⟨.minor, by simp [getData, getC_eq hi.ctx, he, hr]⟩
  · exact Or.inr ⟨.minor, by simp [getData, getC_eq hi.ctx, he]⟩

/-- `CeedQFunctionContextGetDataRead`. -/
theorem getDataRead_spec {w : W β} {x : DCtx} (m : Mem) (hi : Inv w x) :
    (∃ w' x' f, getDataRead m w = .ok w' (x'.side m).arr ∧ Inv w' x' ∧ x'.state = x.state ∧ x.state % 2 = 0 ∧
      x'.readers = x.readers + 1 ∧ x'.size = x.size ∧ x'.destroyFn = x.destroyFn ∧ VX w x f ∧ VX w' x' f ∧
      (x'.side m).arr ≠ none ∧ (∀ m' a, (x.side m').arr = some a → (x'.side m').arr = some a) ∧
      (∀ a b, w.heap a = some b → ((∃ m', (x.side m').arr = some a) ∨ ¬ HX x a) → w'.heap a = some b)) ∨
      ∃ e, getDataRead m w = .err w e := by
  by_cases he : x.state % 2 = 0
  · by_cases hv : validB x = true
    · left
      obtain ⟨f, hf⟩ := hi.vals hv
      obtain ⟨w1, s, h1, h2, h3, h4, h5, h6⟩ := syncB_spec m hi hf he
      let x' : DCtx := { (x.setSide m s) with readers := x.readers + 1 }
      have hrun : getDataRead m w = .ok { w1 with ctx := some x' } s.arr := by
        simp [getDataRead, coreB, getC_eq hi.ctx, getC_eq h2.ctx, he, hv, h1, putC, setSide_same, x']
      have hx' : x'.side = (x.setSide m s).side := rfl
      refine ⟨{ w1 with ctx := some x' }, x', f, by rw [hrun, hx', setSide_same], ?_, rfl, he, rfl, rfl, rfl, hf, ?_,
        by rw [hx', setSide_same]; exact h4, ?_, h5.heap⟩
      · exact h2.put rfl (fun _ => rfl) (fun _ => rfl) (fun _ => Or.inl rfl) (fun h => absurd h (by
          show ¬ (x.state % 2 = 1)
          omega)) (fun _ => he)
      · exact h3.put rfl rfl (fun _ => Or.inl rfl) h3.1
      · rw [hx']
        refine both m ?_ ?_
        · intro a ha
          have := h6 (by rw [ha]; simp)
          subst this
          rw [setSide_same]
          exact ha
        · intro a ha
          rw [setSide_other]
          exact ha
    · exact Or.inr ⟨.backend, by simp [getDataRead, getC_eq hi.ctx, he, hv]⟩
  · exact Or.inr ⟨.minor, by simp [getDataRead, getC_eq hi.ctx, he]⟩

/-- `CeedQFunctionContextTakeData`. -/
theorem takeData_spec {w : W β} {x : DCtx} (m : Mem) (hi : Inv w x) :
    (∃ w' x' f a, takeData m w = .ok w' (some a) ∧ Inv w' x' ∧ x'.size = x.size ∧ VX w x f ∧ (x.side m).bor = some a ∧
      Gives w' (some a) m x.size f ∧ ¬ HX x' a ∧ (VX w' x' f ∨ ∀ m, (x'.side m).arr = none)) ∨
      ∃ e, takeData m w = .err w e := by
  by_cases hv : validB x = true
  · by_cases he : x.state % 2 = 0
    · cases hb : (x.side m).bor with
      | none => exact Or.inr ⟨.backend, by simp [takeData, getC_eq hi.ctx, he, hv, hb]⟩
      | some a =>
        left
        obtain ⟨f, hf⟩ := hi.vals hv
        obtain ⟨w1, s, h1, h2, h3, h4, h5, h6⟩ := syncB_spec m hi hf he
        have hsb : s.bor = some a := by
          have := h5.bor m
          rw [setSide_same, hb] at this
          exact this
        have hso : s.own = none := by
          have := (h2.side m).excl
          rw [setSide_same, hsb] at this
          simpa using this
        have hsa : s.arr = some a := by
          cases h : s.arr with
          | none => exact absurd h h4
          | some c =>
            have := (h2.side m).arr c (by rw [setSide_same]; exact h)
            rw [setSide_same, hso, hsb] at this
            rcases this with this | this
            · cases this
            · exact this.symm
        let x' : DCtx := (x.setSide m s).setSide m { s with arr := none, bor := none }
        have hxm : x'.side m = ⟨none, none, none⟩ := by
          simp [x', hso]
        have hxo : x'.side (other m) = x.side (other m) := by simp [x']
        have hrun : takeData m w = .ok { w1 with ctx := some x' } (some a) := by
          simp [takeData, takeDataB, getC_eq hi.ctx, getC_eq h2.ctx, he, hv, hb, h1, putC, hsb, x']
        have hside := h2.side (other m)
        rw [setSide_other] at hside
        have hG := h3.2 m (by rw [setSide_same, hsa]; simp)
        rw [setSide_same, hsa] at hG
        have hcoh : VX { w1 with ctx := some x' } x' f ∨ ∀ m, (x'.side m).arr = none := by
          by_cases ho : (x.side (other m)).arr = none
          · exact Or.inr (both m (by rw [hxm]) (by rw [hxo]; exact ho))
          · refine Or.inl ⟨⟨other m, by rw [hxo]; exact ho⟩, both m ?_ ?_⟩
            · intro h
              rw [hxm] at h
              exact absurd rfl h
            · intro _
              rw [hxo]
              have := h3.2 (other m) (by rw [setSide_other]; exact ho)
              rw [setSide_other] at this
              exact this
        refine ⟨_, x', f, a, hrun, ⟨rfl, both m ?_ ?_, ?_, ?_, h2.fresh, ?_, fun _ => he⟩, rfl, hf, rfl, hG, ?_, hcoh⟩
        · rw [hxm]
          exact ⟨fun _ h => (by cases h), fun _ h => (by cases h), Or.inl rfl, fun _ h => by cases h⟩
        · rw [hxo]
          exact hside
        · rcases hcoh with h | h
          · exact Or.inr ⟨f, h⟩
          · exact Or.inl h
        · intro h
          exact absurd (show x.state % 2 = 1 from h) (by omega)
        · intro c d hc hd
          obtain ⟨m', h'⟩ := h2.lib c d hc hd
          rcases eq_or_other m m' with h | h <;> subst h
          · rw [setSide_same, hso] at h'
            cases h'
          · rw [setSide_other] at h'
            exact ⟨_, by rw [hxo]; exact h'⟩
        · rintro ⟨m', h'⟩
          rcases eq_or_other m m' with h | h <;> subst h
          · rw [hxm] at h'
            rcases h' with h' | h' <;> cases h'
          · rw [hxo] at h'
            obtain ⟨b1, g1, g2, _, g3⟩ := (h2.side m).bor a (by rw [setSide_same]; exact hsb)
            rcases h' with h' | h'
            · obtain ⟨b2, e1, e2, _, e3⟩ := hside.own a h'
              rw [g1] at e1
              cases e1
              rw [g2] at e2
              exact ne_other m e2
            · obtain ⟨b2, e1, e2, _, e3⟩ := hside.bor a h'
              rw [g1] at e1
              cases e1
              rw [g2] at e2
              exact ne_other m e2
    · exact Or.inr ⟨.minor, by simp [takeData, getC_eq hi.ctx, he, hv]⟩
  · exact Or.inr ⟨.backend, by simp [takeData, getC_eq hi.ctx, hv]⟩

/-- `CeedQFunctionContextRestoreData`. -/
theorem restoreData_spec {w : W β} {x : DCtx} (hi : Inv w x) :
    (restoreData w = .ok { w with ctx := some { x with state := x.state + 1 } } () ∧ x.state % 2 = 1 ∧
      Inv { w with ctx := some { x with state := x.state + 1 } } { x with state := x.state + 1 }) ∨
      ∃ e, restoreData w = .err w e := by
  by_cases he : x.state % 2 = 1
  · refine Or.inl ⟨by simp [restoreData, getC_eq hi.ctx, he, putC], he, ?_⟩
    exact hi.put rfl (fun _ => rfl) (fun _ => rfl) (fun _ => Or.inl rfl) (fun h => absurd (show (x.state + 1) % 2 = 1 from h)
      (by omega)) (fun _ => show (x.state + 1) % 2 = 0 by omega)
  · exact Or.inr ⟨.minor, by simp [restoreData, getC_eq hi.ctx, he]⟩

/-- `CeedQFunctionContextRestoreDataRead`. -/
theorem restoreDataRead_spec {w : W β} {x : DCtx} (hi : Inv w x) :
    (restoreDataRead w = .ok { w with ctx := some { x with readers := x.readers - 1 } } () ∧ 0 < x.readers ∧
      Inv { w with ctx := some { x with readers := x.readers - 1 } } { x with readers := x.readers - 1 }) ∨
      ∃ e, restoreDataRead w = .err w e := by
  by_cases he : 0 < x.readers
  · exact Or.inl ⟨by simp [restoreDataRead, getC_eq hi.ctx, he, putC], he,
      hi.put rfl (fun _ => rfl) (fun _ => rfl) (fun _ => Or.inl rfl) hi.odd (fun h => hi.rd (show 0 < x.readers by
        have : 0 < x.readers - 1 := h
        omega))⟩
  · exact Or.inr ⟨.minor, by simp [restoreDataRead, getC_eq hi.ctx, he]⟩

/-- `CeedQFunctionContextDestroyData`. -/
theorem destroyData_spec {w : W β} {x : DCtx} (hi : Inv w x) (he : x.state % 2 = 0) :
    (∃ w' x', destroyData w = .ok w' () ∧ Inv w' x' ∧ x'.state % 2 = 0 ∧
      ((x.destroyFn = none ∧ w' = w ∧ x' = x) ∨ ∃ m, x.destroyFn = some m ∧ Synced w w' x x' m)) ∨
      ∃ e, destroyData w = .err w e := by
  cases hd : x.destroyFn with
  | none => exact Or.inl ⟨w, x, by simp [destroyData, getC_eq hi.ctx, hd], hi, he, Or.inl ⟨rfl, rfl, rfl⟩⟩
  | some m =>
    rcases getData_spec m hi with ⟨w1, x1, f, h1, h2, h3, h4, h5, h6, h7, h8, h9, h10⟩ | ⟨e, h⟩
    · rcases restoreData_spec h2 with ⟨g1, g2, g3⟩ | ⟨e, g⟩
      · refine Or.inl ⟨_, _, ?_, g3, ?_, Or.inr ⟨m, rfl, h10.put rfl rfl rfl rfl (fun _ => rfl) (fun _ => rfl)⟩⟩
        · simp [destroyData, getC_eq hi.ctx, hd, h1, g1]
        · show (x1.state + 1) % 2 = 0
          omega
      · simp [restoreData, getC_eq h2.ctx, show x1.state % 2 = 1 by omega, putC] at g
    · exact Or.inr ⟨e, by simp [destroyData, getC_eq hi.ctx, hd, h]⟩

/-- The arrays after the owned array of one memory type was freed. -/
theorem freeOwn {w : W β} {x : DCtx} (m : Mem) (hi : Inv w x) (w0 : W β) (hw : w0.heap = w.heap) :
    ∃ h, freeA m (x.side m).own w0 = .ok { w0 with heap := h } () ∧ (∀ a b, h a = some b → w.heap a = some b) ∧
      (∀ a b, w.heap a = some b → (x.side m).own ≠ some a → h a = some b) ∧
      ∀ a, (x.side m).own = some a → h a = none := by
  cases hx : (x.side m).own with
  | none => exact ⟨w.heap, by simp [freeA, ← hw], fun _ _ h => h, fun _ _ h _ => h, fun _ h => by cases h⟩
  | some c =>
    obtain ⟨b, g1, g2, _⟩ := (hi.side m).own c hx
    refine ⟨fun a => if a = c then none else w.heap a, by simp [freeA, hw, g1, g2, W.setBlk], ?_, ?_, ?_⟩
    · intro a b hab
      by_cases h : a = c
      · simp [h] at hab
      · simpa [h] using hab
    · intro a b hab hne
      have : a ≠ c := fun h => hne (by rw [h])
      simp [this, hab]
    · intro a h
      cases h
      simp

/-- `CeedQFunctionContextSetData` after the old data was destroyed. -/
theorem setTail_spec {w : W β} {x : DCtx} (m : Mem) (mode : Mode) (n a : Nat) (b : Blk β) (hi : Inv w x)
    (he : x.state % 2 = 0) (hb : w.heap a = some b) (hbm : b.mem = m) (hbn : n ≤ b.buf.len) (hbl : b.lib = false)
    (hmode : mode ≠ .copyValues → HX x a → (x.side m).bor = some a)
    (hlen : ∀ c d, (x.side (other m)).own = some c ∨ (x.side (other m)).bor = some c → w.heap c = some d → n ≤ d.buf.len) :
    ∃ w' x', (setSize n >>= fun _ => setDataB m mode (some a) >>= fun _ => bumpState) w = .ok w' () ∧ Inv w' x' ∧
      x'.size = n ∧ VX w' x' b.buf.val ∧ (mode = .usePointer → (x'.side m).bor = some a) := by
  obtain ⟨h, f1, f2, f3, f4⟩ := freeOwn m hi { w with ctx := some { x with size := n } } rfl
  have hne : (x.side m).own ≠ some a := by
    intro h'
    obtain ⟨b', g1, _, _, g2⟩ := (hi.side m).own a h'
    rw [hb] at g1
    cases g1
    rw [hbl] at g2
    cases g2
  have hha := f3 a b hb hne
  have hso := hi.side (other m)
  have hoOwn : ∀ c, (x.side (other m)).own = some c → ∃ d, h c = some d ∧ d.mem = other m ∧ n ≤ d.buf.len ∧ d.lib = true := by
    intro c hc
    obtain ⟨d, g1, g2, g3, g4⟩ := hso.own c hc
    refine ⟨d, f3 c d g1 ?_, g2, hlen c d (Or.inl hc) g1, g4⟩
    intro h'
    obtain ⟨d', e1, e2, _⟩ := (hi.side m).own c h'
    rw [g1] at e1
    cases e1
    rw [g2] at e2
    exact other_ne m e2
  have hoBor : ∀ c, (x.side (other m)).bor = some c → ∃ d, h c = some d ∧ d.mem = other m ∧ n ≤ d.buf.len ∧ d.lib = false := by
    intro c hc
    obtain ⟨d, g1, g2, g3, g4⟩ := hso.bor c hc
    refine ⟨d, f3 c d g1 ?_, g2, hlen c d (Or.inr hc) g1, g4⟩
    intro h'
    obtain ⟨d', e1, e2, _⟩ := (hi.side m).own c h'
    rw [g1] at e1
    cases e1
    rw [g2] at e2
    exact other_ne m e2
  have hfresh : ∀ c, h c ≠ none → c < w.next := by
    intro c hc
    cases hd : h c with
    | none => exact absurd hd hc
    | some d => exact hi.fresh c (by rw [f2 c d hd]; simp)
  have hlib : ∀ c d, h c = some d → d.lib = true → (x.side (other m)).own = some c := by
    intro c d hc hd
    obtain ⟨m', h'⟩ := hi.lib c d (f2 c d hc) hd
    rcases eq_or_other m m' with e | e <;> subst e
    · rw [f4 c h'] at hc
      cases hc
    · exact h'
  have hodd : ¬ (x.state + 2) % 2 = 1 := by omega
  have hev : (x.state + 2) % 2 = 0 := by omega
  have haO : ∀ c, (x.side (other m)).own = some c ∨ (x.side (other m)).bor = some c → c ≠ a := by
    intro c hc hca
    subst hca
    rcases hc with hc | hc
    · obtain ⟨d, g1, g2, _⟩ := hoOwn c hc
      rw [hha] at g1
      cases g1
      rw [hbm] at g2
      exact ne_other m g2
    · obtain ⟨d, g1, g2, _⟩ := hoBor c hc
      rw [hha] at g1
      cases g1
      rw [hbm] at g2
      exact ne_other m g2
  cases mode with
  | copyValues =>
    let x' : DCtx := { (({ x with size := n } : DCtx).invalid.setSide m ⟨some w.next, none, some w.next⟩) with
      state := x.state + 2 }
    let h' : Nat → Option (Blk β) := fun c => if c = w.next then some ⟨m, ⟨n, b.buf.val⟩, true⟩ else h c
    have hnn : ∀ c, h c ≠ none → c ≠ w.next := fun c hc => Nat.ne_of_lt (hfresh c hc)
    have hxm : x'.side m = ⟨some w.next, none, some w.next⟩ := by simp [x', DCtx.setSide]
    have hxo : x'.side (other m) = { x.side (other m) with arr := none } := by simp [x', DCtx.setSide, DCtx.invalid]
    have hV : VX ⟨h', w.next + 1, some x'⟩ x' b.buf.val := by
      refine ⟨⟨m, by rw [hxm]; simp⟩, both m ?_ ?_⟩
      · intro _
        rw [hxm]
        exact ⟨w.next, ⟨m, ⟨n, b.buf.val⟩, true⟩, rfl, by simp [h'], rfl, Nat.le_refl _, fun _ _ => rfl⟩
      · intro hh
        rw [hxo] at hh
        exact absurd rfl hh
    refine ⟨⟨h', w.next + 1, some x'⟩, x', ?_, ⟨rfl, both m ?_ ?_, Or.inr ⟨_, hV⟩, fun hh => absurd hh hodd, ?_, ?_, fun _ => hev⟩, rfl,
      hV, fun hh => by cases hh⟩
    · simp only [setSize, setDataB, bumpState, M.bind_apply, getC_eq hi.ctx, Out.bind_ok, putC, getC_mk]
      rw [f1]
      simp [look, hha, hbm, hbn, alloc, W.setBlk, x', h', DCtx.setSide, DCtx.invalid, getC_mk]
    · rw [hxm]
      refine ⟨?_, fun _ hh => (by cases hh), Or.inr rfl, fun _ hh => Or.inl hh⟩
      intro c hc
      cases hc
      exact ⟨⟨m, ⟨n, b.buf.val⟩, true⟩, by simp [h'], rfl, Nat.le_refl _, rfl⟩
    · rw [hxo]
      refine ⟨?_, ?_, hso.excl, fun _ hh => by cases hh⟩
      · intro c hc
        obtain ⟨d, g1, g2⟩ := hoOwn c hc
        exact ⟨d, by simp [h', hnn c (by rw [g1]; simp), g1], g2⟩
      · intro c hc
        obtain ⟨d, g1, g2⟩ := hoBor c hc
        exact ⟨d, by simp [h', hnn c (by rw [g1]; simp), g1], g2⟩
    · intro c hc
      by_cases hcn : c = w.next
      · show c < w.next + 1
        omega
      · have := hfresh c (by simpa [h', hcn] using hc)
        show c < w.next + 1
        omega
    · intro c d hc hd
      by_cases hcn : c = w.next
      · exact ⟨m, by rw [hxm, hcn]⟩
      · exact ⟨other m, by rw [hxo]; exact hlib c d (by simpa [h', hcn] using hc) hd⟩
  | ownPointer =>
    let x' : DCtx := { (({ x with size := n } : DCtx).invalid.setSide m ⟨some a, none, some a⟩) with state := x.state + 2 }
    let h' : Nat → Option (Blk β) := fun c => if c = a then some { b with lib := true } else h c
    have hxm : x'.side m = ⟨some a, none, some a⟩ := by simp [x', DCtx.setSide]
    have hxo : x'.side (other m) = { x.side (other m) with arr := none } := by simp [x', DCtx.setSide, DCtx.invalid]
    have hV : VX ⟨h', w.next, some x'⟩ x' b.buf.val := by
      refine ⟨⟨m, by rw [hxm]; simp⟩, both m ?_ ?_⟩
      · intro _
        rw [hxm]
        exact ⟨a, { b with lib := true }, rfl, by simp [h'], hbm, hbn, fun _ _ => rfl⟩
      · intro hh
        rw [hxo] at hh
        exact absurd rfl hh
    refine ⟨⟨h', w.next, some x'⟩, x', ?_, ⟨rfl, both m ?_ ?_, Or.inr ⟨_, hV⟩, fun hh => absurd hh hodd, ?_, ?_, fun _ => hev⟩, rfl, hV,
      fun hh => by cases hh⟩
    · simp only [setSize, setDataB, bumpState, M.bind_apply, getC_eq hi.ctx, Out.bind_ok, putC, getC_mk]
      rw [f1]
      simp [adopt, hha, W.setBlk, x', h', DCtx.setSide, DCtx.invalid, getC_mk]
    · rw [hxm]
      refine ⟨?_, fun _ hh => (by cases hh), Or.inr rfl, fun _ hh => Or.inl hh⟩
      intro c hc
      cases hc
      exact ⟨{ b with lib := true }, by simp [h'], hbm, hbn, rfl⟩
    · rw [hxo]
      refine ⟨?_, ?_, hso.excl, fun _ hh => by cases hh⟩
      · intro c hc
        obtain ⟨d, g1, g2⟩ := hoOwn c hc
        exact ⟨d, by simp [h', haO c (Or.inl hc), g1], g2⟩
      · intro c hc
        obtain ⟨d, g1, g2⟩ := hoBor c hc
        exact ⟨d, by simp [h', haO c (Or.inr hc), g1], g2⟩
    · intro c hc
      by_cases hcn : c = a
      · exact hfresh c (by rw [hcn, hha]; simp)
      · exact hfresh c (by simpa [h', hcn] using hc)
    · intro c d hc hd
      by_cases hcn : c = a
      · exact ⟨m, by rw [hxm, hcn]⟩
      · exact ⟨other m, by rw [hxo]; exact hlib c d (by simpa [h', hcn] using hc) hd⟩
  | usePointer =>
    let x' : DCtx := { (({ x with size := n } : DCtx).invalid.setSide m ⟨some a, some a, none⟩) with state := x.state + 2 }
    have hxm : x'.side m = ⟨some a, some a, none⟩ := by simp [x', DCtx.setSide]
    have hxo : x'.side (other m) = { x.side (other m) with arr := none } := by simp [x', DCtx.setSide, DCtx.invalid]
    have hV : VX ⟨h, w.next, some x'⟩ x' b.buf.val := by
      refine ⟨⟨m, by rw [hxm]; simp⟩, both m ?_ ?_⟩
      · intro _
        rw [hxm]
        exact ⟨a, b, rfl, hha, hbm, hbn, fun _ _ => rfl⟩
      · intro hh
        rw [hxo] at hh
        exact absurd rfl hh
    refine ⟨⟨h, w.next, some x'⟩, x', ?_, ⟨rfl, both m ?_ ?_, Or.inr ⟨_, hV⟩, fun hh => absurd hh hodd, hfresh, ?_, fun _ => hev⟩, rfl, hV,
      fun _ => by rw [hxm]⟩
    · simp only [setSize, setDataB, bumpState, M.bind_apply, getC_eq hi.ctx, Out.bind_ok, putC, getC_mk]
      rw [f1]
      simp [x', DCtx.setSide, DCtx.invalid, getC_mk]
    · rw [hxm]
      refine ⟨fun _ hh => (by cases hh), ?_, Or.inl rfl, fun _ hh => Or.inr hh⟩
      intro c hc
      cases hc
      exact ⟨b, hha, hbm, hbn, hbl⟩
    · rw [hxo]
      exact ⟨hoOwn, hoBor, hso.excl, fun _ hh => by cases hh⟩
    · intro c d hc hd
      exact ⟨other m, by rw [hxo]; exact hlib c d hc hd⟩

end DevCtx
end Verif
