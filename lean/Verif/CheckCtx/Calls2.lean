import Verif.CheckCtx.Calls

/-!
# Contexts of the checking backend: reading, setting and destroying
-/

namespace Verif
namespace CheckCtx

open Vector (Mem Mode)

variable {β : Type}

/-- `CeedQFunctionContextRestoreDataRead`. -/
theorem restoreDataRead_spec [DecidableEq β] {w : W β} {x : KCtx} (hi : Inv w x) :
    (x.readers = 0 ∧ restoreDataRead w = .err w .minor) ∨
    (0 < x.readers ∧ (x.readers = 1 → Clean w) ∧ ∃ w' x', restoreDataRead w = .ok w' () ∧ Inv w' x' ∧ x'.size = x.size ∧
      x'.ptr .alloc = x.ptr .alloc ∧ (∀ a, x.ptr .alloc = some a → w'.heap a = w.heap a) ∧ x'.readers = x.readers - 1 ∧
      x'.state = x.state) ∨
    (x.readers = 1 ∧ ¬ Clean w ∧ ∃ x', restoreDataRead w = .err { w with ctx := some x' } .backend ∧
      Inv { w with ctx := some x' } x' ∧ x'.size = x.size ∧ x'.ptr = x.ptr) := by
  have hc := hi.si.ctx
  by_cases h0 : x.readers = 0
  · exact Or.inl ⟨h0, by simp [restoreDataRead, getC_eq hc, h0]⟩
  · right
    have hpos : 0 < x.readers := Nat.pos_of_ne_zero h0
    obtain ⟨hro, he⟩ := hi.rd hpos
    have hv : x.ptr .alloc ≠ none := fun h => hro (hi.base h).2.1
    let x1 : KCtx := { x with readers := x.readers - 1 }
    have hsi : SI { w with ctx := some x1 } x1 := hi.si.flags (x' := x1) rfl rfl w.log
    have hi1 : Inv { w with ctx := some x1 } x1 :=
      hi.keep hsi rfl (fun _ _ => rfl) (fun _ _ _ _ => rfl) hi.odd (fun _ => ⟨hro, he⟩) (fun h => absurd h hv)
    by_cases h1 : x.readers = 1
    · obtain ⟨f, hf, _⟩ := hi.get hv
      obtain ⟨g, hg⟩ := hi.si.gives hro
      obtain ⟨b, b1, b2, b3⟩ := look_eq (w := { w with ctx := some x1 }) (hf : Gives { w with ctx := some x1 } _ _ _)
      obtain ⟨c, c1, c2, c3⟩ := look_eq (w := { w with ctx := some x1 }) (hg : Gives { w with ctx := some x1 } _ _ _)
      have hclean : Clean w ↔ ∀ i : Fin x.size, b.val i = c.val i := by
        constructor
        · rintro ⟨x0, k1, k2⟩ i
          rw [hc] at k1
          cases k1
          rcases k2 with k2 | k2
          · exact absurd k2 hro
          · rw [b3 i i.2, c3 i i.2]
            exact (k2 f hf).agree hg i i.2
        · intro h
          refine ⟨x, hc, Or.inr fun f' hf' => hg.congr fun i hi' => ?_⟩
          rw [← c3 i hi', ← h ⟨i, hi'⟩, b3 i hi']
          exact hf.agree hf' i hi'
      by_cases hcl : Clean w
      · left
        obtain ⟨w2, t1, t2, t3, t4⟩ := freeSlot_spec hsi (s := .ro) (by decide)
        have hx' : ∀ s, s ≠ .ro → (x1.setPtr .ro none).ptr s = x.ptr s := fun s hs => setPtr_ne x1 (s := .ro) none hs
        have hheap : ∀ s a, s ≠ .ro → x.ptr s = some a → w2.heap a = w.heap a := fun s a hs ha =>
          t3 a (fun h => hs (hi.si.inj _ _ a ha h))
        refine ⟨hpos, fun _ => hcl, w2, x1.setPtr .ro none, ?_, ?_, rfl, hx' _ (by decide), fun a ha => hheap _ a (by decide) ha,
          rfl, rfl⟩
        · have hb := hclean.1 hcl
          simp only [restoreDataRead, M.bind_apply, getC_eq hc, Out.bind_ok, hpos, decide_true, M.check_true, putC, h1,
            Nat.sub_self, if_true]
          simp only [h1, Nat.sub_self, x1] at b1 c1 hsi t1
          rw [restoreReadB]
          have hts := touchSlot_eq hsi .ro
          simp [getC_eq hsi.ctx, b1, c1, hb, hts, t1]
        · refine hi.keep t2 rfl ?_ ?_ ?_ ?_ (fun h => absurd h hv)
          · rintro s (h | h | h) <;> subst h <;> exact hx' _ (by decide)
          · rintro s a (h | h | h) ha <;> subst h <;> exact hheap _ a (by decide) ha
          · rw [hx' _ (by decide)]
            exact hi.odd
          · intro h
            have : 0 < x.readers - 1 := h
            omega
      · right
        refine ⟨h1, hcl, x1, ?_, hi1, rfl, rfl⟩
        have hb : ¬ ∀ i : Fin x.size, b.val i = c.val i := fun h => hcl (hclean.2 h)
        simp only [h1, Nat.sub_self, x1] at b1 c1 hsi
        have hchk : ∀ s : W β, M.check (∀ i : Fin x.size, b.val i = c.val i) .backend s = .err s .backend := fun s =>
          M.check_false hb _ s
        simp only [restoreDataRead, restoreReadB, M.bind_apply, getC_eq hc, Out.bind_ok, hpos, M.check_true, putC]
        simp only [h1, Nat.sub_self, if_true, M.bind_apply, getC_eq hsi.ctx, Out.bind_ok, b1, c1, hchk, Out.bind_err, x1]
    · left
      have h2 : x.readers - 1 ≠ 0 := by omega
      refine ⟨hpos, fun h => absurd h h1, _, x1, ?_, hi1, rfl, rfl, fun _ _ => rfl, rfl, rfl⟩
      simp [restoreDataRead, getC_eq hc, hpos, putC, h2, x1]

/-- `CeedQFunctionContextDataDestroy_Memcheck`. -/
theorem destroyData_spec {w : W β} {x : KCtx} (hi : SI w x) :
    (x.destroyFn = some .device ∧ destroyData w = .err w .backend) ∨
    (x.destroyFn ≠ some .device ∧ ∃ w', destroyData w = .ok w' () ∧ SI w' ((x.setPtr .alloc none).setPtr .own none) ∧
      (∀ c, x.ptr .alloc ≠ some c → x.ptr .own ≠ some c → w'.heap c = w.heap c) ∧
      w'.log = if x.destroyFn = some .host then w.log ++ [if (x.ptr .bor).isSome then x.ptr .bor else x.ptr .own]
        else w.log) := by
  by_cases hd : x.destroyFn = some .device
  · exact Or.inl ⟨hd, by simp [destroyData, getC_eq hi.ctx, hd]⟩
  · right
    by_cases hh : x.destroyFn = some .host
    · have hsi : SI { w with ctx := some x, log := w.log ++ [if (x.ptr .bor).isSome then x.ptr .bor else x.ptr .own] } x :=
        hi.flags rfl rfl _
      obtain ⟨w1, a1, a2, a3, a4⟩ := freeSlot_spec hsi (s := .alloc) (by decide)
      obtain ⟨w2, t1, t2, t3, t4⟩ := freeSlot_spec a2 (s := .own) (by decide)
      refine ⟨hd, w2, ?_, t2, ?_, ?_⟩
      · have hw : ({ w with ctx := some x, log := w.log ++ [if (x.ptr .bor).isSome then x.ptr .bor else x.ptr .own] } : W β) =
            { w with log := w.log ++ [if (x.ptr .bor).isSome then x.ptr .bor else x.ptr .own] } := by
          rw [← hi.ctx]
        rw [hw] at a1
        simp [destroyData, getC_eq hi.ctx, hh, callDestroy, a1, t1]
      · intro c h1 h2
        exact (t3 c (by rw [setPtr_ne _ _ (by decide)]; exact h2)).trans (a3 c h1)
      · rw [t4, a4, if_pos hh]
    · obtain ⟨w1, a1, a2, a3, a4⟩ := freeSlot_spec hi (s := .alloc) (by decide)
      obtain ⟨w2, t1, t2, t3, t4⟩ := freeSlot_spec a2 (s := .own) (by decide)
      refine ⟨hd, w2, by simp [destroyData, getC_eq hi.ctx, hh, hd, a1, t1], t2, ?_, ?_⟩
      · intro c h1 h2
        exact (t3 c (by rw [setPtr_ne _ _ (by decide)]; exact h2)).trans (a3 c h1)
      · rw [t4, a4, if_neg hh]

/-- Only a lent array is left: no array of the library. -/
theorem SI.noLib {w : W β} {x : KCtx} (hi : SI w x) (h : ∀ s, s ≠ .bor → x.ptr s = none) {a : Nat} {b : Blk β}
    (hb : w.heap a = some b) : b.lib = false := by
  cases hl : b.lib with
  | false => rfl
  | true =>
    obtain ⟨s, h1, h2⟩ := hi.lib a b hb hl
    rw [h s h1] at h2
    cases h2

theorem touchSlot_none {w : W β} {x : KCtx} (h : w.ctx = some x) {s : Slot} (hs : x.ptr s = none) :
    touchSlot s w = .ok w () := by
  simp [touchSlot, getC_eq h, hs]

theorem setPtr_none {x : KCtx} {s : Slot} {p : Option Nat} (hs : x.ptr s = p) : x.setPtr s p = x := by
  cases x
  simp only [KCtx.setPtr]
  congr
  funext t
  by_cases h : t = s
  · subst h
    simpa using hs.symm
  · simp [h]

theorem freeSlot_none {w : W β} {x : KCtx} (h : w.ctx = some x) {s : Slot} (hs : x.ptr s = none) :
    freeSlot s w = .ok w () := by
  simp only [freeSlot, M.bind_apply, getC_eq h, Out.bind_ok, hs, freeA, setP_eq h, setPtr_none hs]
  rw [← h]

/-- The pointers to arrays of the program in `CeedQFunctionContextSetData_Memcheck`. -/
theorem external_spec {w : W β} {x : KCtx} (mode : Mode) {a : Nat} {b : Blk β} (hc : w.ctx = some x)
    (hfr : ∀ a, w.heap a ≠ none → a < w.next) (hlib : ∀ a b, w.heap a = some b → b.lib = false)
    (hx : ∀ s, s ≠ .bor → x.ptr s = none) (hb : w.heap a = some b) (hn : x.size ≤ b.buf.len) :
    ∃ w' x' b', external mode (some a) w = .ok w' () ∧ SI w' x' ∧ x'.size = x.size ∧ x'.state = x.state ∧
      x'.readers = x.readers ∧ w'.heap a = some b' ∧ b'.buf = b.buf ∧ x'.ptr .alloc = none ∧ x'.ptr .ro = none ∧
      x'.ptr .wr = none ∧ (∀ s, s = .own ∨ s = .bor → x'.ptr s ≠ none → x'.ptr s = some a) ∧
      (mode = .usePointer → x'.ptr .bor = some a) ∧ (mode = .ownPointer → x'.ptr .own = some a) ∧
      (x'.ptr .own = none ∨ x'.ptr .bor = none) ∧ w'.log = w.log ∧ (∀ c, c ≠ a → w'.heap c = w.heap c) ∧
      x'.destroyFn = x.destroyFn := by
  have ho : x.ptr .own = none := hx _ (by decide)
  cases mode with
  | copyValues =>
    have hp : ∀ s, (x.setPtr .bor none).ptr s = none := by
      intro s
      by_cases h : s = .bor
      · subst h; exact setPtr_same ..
      · rw [setPtr_ne _ _ h]; exact hx s h
    refine ⟨{ w with ctx := some (x.setPtr .bor none) }, x.setPtr .bor none, b, ?_, ⟨rfl, ?_, ?_, hfr, ?_⟩, rfl, rfl, rfl, hb,
      rfl, hp _, hp _, hp _, fun s _ h => absurd (hp s) h, fun h => (by cases h), fun h => (by cases h), Or.inl (hp _), rfl,
      fun _ _ => rfl, rfl⟩
    · have e : ({ w with ctx := some x } : W β) = w := by rw [← hc]
      simp [external, setP_eq hc, setPtr_none ho, e]
    · intro s c h
      rw [hp s] at h
      cases h
    · intro s t c h _
      rw [hp s] at h
      cases h
    · intro c d h1 h2
      have := hlib c d h1
      rw [h2] at this
      cases this
  | usePointer =>
    have hp : ∀ s, s ≠ .bor → (x.setPtr .bor (some a)).ptr s = none := by
      intro s h
      rw [setPtr_ne _ _ h]; exact hx s h
    have hpb : (x.setPtr .bor (some a)).ptr .bor = some a := setPtr_same ..
    refine ⟨{ w with ctx := some (x.setPtr .bor (some a)) }, x.setPtr .bor (some a), b, ?_, ⟨rfl, ?_, ?_, hfr, ?_⟩, rfl, rfl, rfl,
      hb, rfl, hp _ (by decide), hp _ (by decide), hp _ (by decide), ?_, fun _ => hpb, fun h => (by cases h),
      Or.inl (hp _ (by decide)), rfl, fun _ _ => rfl, rfl⟩
    · have e : ({ w with ctx := some x } : W β) = w := by rw [← hc]
      simp [external, setP_eq hc, setPtr_none ho, e]
    · intro s c h
      by_cases hs : s = .bor
      · subst hs
        rw [hpb] at h
        cases h
        exact ⟨b, hb, hn, by simp [hlib a b hb]⟩
      · rw [hp s hs] at h
        cases h
    · intro s t c h h'
      by_cases hs : s = .bor
      · by_cases ht : t = .bor
        · rw [hs, ht]
        · rw [hp t ht] at h'
          cases h'
      · rw [hp s hs] at h
        cases h
    · intro c d h1 h2
      have := hlib c d h1
      rw [h2] at this
      cases this
    · rintro s (h | h) h' <;> subst h
      · exact absurd (hp _ (by decide)) h'
      · exact hpb
  | ownPointer =>
    let w1 : W β := w.setBlk a (some { b with lib := true })
    have hc1 : w1.ctx = some x := hc
    let x1 : KCtx := (x.setPtr .own (some a)).setPtr .bor none
    have hpo : x1.ptr .own = some a := by
      show ((x.setPtr .own (some a)).setPtr .bor none).ptr .own = some a
      rw [setPtr_ne _ _ (by decide)]
      exact setPtr_same ..
    have hp : ∀ s, s ≠ .own → x1.ptr s = none := by
      intro s h
      by_cases hs : s = .bor
      · subst hs
        exact setPtr_same (x.setPtr .own (some a)) .bor none
      · show ((x.setPtr .own (some a)).setPtr .bor none).ptr s = none
        rw [setPtr_ne _ _ hs, setPtr_ne _ _ h]
        exact hx s hs
    have ha1 : w1.heap a = some { b with lib := true } := by simp [w1, W.setBlk]
    have hne : ∀ c, c ≠ a → w1.heap c = w.heap c := fun c h => by simp [w1, W.setBlk, h]
    refine ⟨{ w1 with ctx := some x1 }, x1, { b with lib := true }, ?_, ⟨rfl, ?_, ?_, ?_, ?_⟩, rfl, rfl, rfl, ha1, rfl,
      hp _ (by decide), hp _ (by decide), hp _ (by decide), ?_, fun h => (by cases h), fun _ => hpo,
      Or.inr (hp _ (by decide)), rfl, hne, rfl⟩
    · have e : adopt (some a) w = .ok w1 () := by simp [adopt, hb, w1]
      have e2 : setP .bor none { w1 with ctx := some (x.setPtr .own (some a)) } = .ok { w1 with ctx := some x1 } () :=
        setP_eq rfl ..
      simp [external, e, setP_eq hc1, e2]
    · intro s c h
      by_cases hs : s = .own
      · subst hs
        rw [hpo] at h
        cases h
        exact ⟨_, ha1, hn, by simp⟩
      · rw [hp s hs] at h
        cases h
    · intro s t c h h'
      by_cases hs : s = .own
      · by_cases ht : t = .own
        · rw [hs, ht]
        · rw [hp t ht] at h'
          cases h'
      · rw [hp s hs] at h
        cases h
    · intro c hcc
      by_cases h : c = a
      · subst h
        exact hfr c (by rw [hb]; simp)
      · exact hfr c (by rw [← hne c h]; exact hcc)
    · intro c d h1 h2
      by_cases h : c = a
      · subst h
        exact ⟨.own, by decide, hpo⟩
      · rw [show ({ w1 with ctx := some x1 } : W β).heap c = w1.heap c from rfl, hne c h] at h1
        have := hlib c d h1
        rw [h2] at this
        cases this
    · rintro s (h | h) h' <;> subst h
      · exact hpo
      · exact absurd (hp _ (by decide)) h'

/-- `CeedQFunctionContextSetData`. -/
theorem setData_spec {w : W β} {x : KCtx} (mode : Mode) (n a : Nat) (b : Blk β) (hi : Inv w x) (hro : x.ptr .ro = none)
    (hb : w.heap a = some b) (hn : n ≤ b.buf.len) (hl : b.lib = false) :
    (∃ w' x', setData .host mode n (some a) w = .ok w' () ∧ Inv w' x' ∧ x'.size = n ∧ Gives w' (x'.ptr .alloc) n b.buf.val ∧
      (mode = .usePointer → x'.ptr .bor = some a) ∧ (mode = .ownPointer → x'.ptr .own = some a) ∧
      (x.state % 2 = 0 ∧ x'.state = x.state + 2 ∧ x'.readers = x.readers) ∧ w'.log = if x.destroyFn = some .host then w.log ++ [if (x.ptr .bor).isSome then x.ptr .bor else x.ptr .own]
        else w.log) ∨ ∃ e, setData .host mode n (some a) w = .err w e := by
  have hc := hi.si.ctx
  by_cases he : x.state % 2 = 0
  · rcases destroyData_spec hi.si with ⟨_, hd⟩ | ⟨_, w1, d1, d2, d3, d4⟩
    · exact Or.inr ⟨.backend, by simp [setData, getC_eq hc, he, hd]⟩
    · left
      have hwr : x.ptr .wr = none := by
        by_contra h
        have := hi.odd.2 h
        omega
      have hrd : x.readers = 0 := by
        by_contra h
        exact (hi.rd (Nat.pos_of_ne_zero h)).1 hro
      let x1 : KCtx := (x.setPtr .alloc none).setPtr .own none
      have hx1 : ∀ s, s ≠ .bor → x1.ptr s = none := by
        intro s hs
        show ((x.setPtr .alloc none).setPtr .own none).ptr s = none
        cases s
        · rw [setPtr_ne _ _ (by decide)]; exact setPtr_same ..
        · exact setPtr_same ..
        · exact absurd rfl hs
        · rw [setPtr_ne _ _ (by decide), setPtr_ne _ _ (by decide)]; exact hro
        · rw [setPtr_ne _ _ (by decide), setPtr_ne _ _ (by decide)]; exact hwr
      have hb1 : w1.heap a = some b := by
        have hne : ∀ s, s ≠ .bor → x.ptr s ≠ some a := by
          intro s hs h
          obtain ⟨b', g1, _, g3⟩ := hi.si.ok s a h
          rw [hb] at g1
          cases g1
          rw [hl] at g3
          simp [hs] at g3
        rw [d3 a (hne _ (by decide)) (hne _ (by decide))]
        exact hb
      let x2 : KCtx := { x1 with size := n }
      let w2 : W β := { w1 with ctx := some x2 }
      have hc2 : w2.ctx = some x2 := rfl
      have hx2 : ∀ s, s ≠ .bor → x2.ptr s = none := hx1
      obtain ⟨w3, x3, b3, e1, e2, e3, e4, e5, e6, e7, e8, e9, e10, e11, e12, e13, e14, e15, e16, e17⟩ :=
        external_spec (w := w2) (x := x2) mode hc2 d2.fresh (fun a b h => d2.noLib hx1 h) hx2 hb1 hn
      obtain ⟨w4, n1, n2, n3, n4, n5, n6, n7⟩ := newSlot e2 (s := .alloc) (by decide) e8 b.buf.val
      let x4 : KCtx := { (x3.setPtr .alloc (some w3.next)) with state := x3.state + 2 }
      have hsi : SI { w4 with ctx := some x4 } x4 := n4.flags (x' := x4) rfl rfl w4.log
      have hx4 : ∀ s, s ≠ .alloc → x4.ptr s = x3.ptr s := fun s hs => setPtr_ne x3 (s := .alloc) _ hs
      have hx4a : x4.ptr .alloc = some w3.next := setPtr_same x3 .alloc _
      have hsz : x4.size = n := e3
      have hg4 : Gives { w4 with ctx := some x4 } (x4.ptr .alloc) x4.size b.buf.val := by
        rw [hx4a]
        exact n5
      have hrun : setData .host mode n (some a) w = .ok { w4 with ctx := some x4 } () := by
        have hss : setSize n w1 = .ok w2 () := by simp [setSize, getC_eq d2.ctx, putC, w2, x2, x1]
        have hlk : look (some a) x3.size w3 = .ok w3 b3.buf := by
          have : x3.size ≤ b3.buf.len := by rw [e7, e3]; exact hn
          simp [look, e6, this]
        have hB : setDataB .host mode (some a) w2 = .ok { w4 with ctx := some (x3.setPtr .alloc (some w3.next)) } () := by
          rw [← e7] at n1
          simp [setDataB, touchSlot_none hc2 (hx2 .alloc (by decide)), freeSlot_none hc2 (hx2 .alloc (by decide)),
            touchSlot_none hc2 (hx2 .own (by decide)), freeSlot_none hc2 (hx2 .own (by decide)), e1, getC_eq e2.ctx, hlk, n1,
            setP_eq n2]
        simp [setData, getC_eq hc, he, d1, hss, hB, bumpState, getC_eq n4.ctx, putC, x4]
      refine ⟨_, x4, hrun, ⟨hsi, ?_, ?_, ?_, ?_, Or.inr ⟨b.buf.val, hg4, ?_⟩⟩, hsz, by rw [← hsz]; exact hg4, ?_, ?_, ⟨he, ?_, ?_⟩, ?_⟩
      · show (x3.state + 2) % 2 = 1 ↔ x4.ptr .wr ≠ none
        rw [hx4 _ (by decide), e10, e4]
        show (x.state + 2) % 2 = 1 ↔ _
        simp
        omega
      · intro h
        have h' : 0 < x3.readers := h
        rw [e5] at h'
        have h'' : 0 < x.readers := h'
        omega
      · intro h
        rw [hx4a] at h
        cases h
      · rw [hx4 _ (by decide), hx4 _ (by decide)]
        exact e14
      · intro s hs hne
        have hsa : x4.ptr s = x3.ptr s := hx4 s (by rcases hs with h | h <;> subst h <;> decide)
        rw [hsa] at hne ⊢
        rw [e11 s hs hne, hsz]
        refine ⟨a, b3, rfl, ?_, by rw [e7]; exact hn, fun i _ => by rw [e7]⟩
        show w4.heap a = some b3
        rw [n6 a (by rw [e6]; simp)]
        exact e6
      · intro h
        rw [hx4 _ (by decide)]
        exact e12 h
      · intro h
        rw [hx4 _ (by decide)]
        exact e13 h
      · show x3.state + 2 = x.state + 2
        rw [e4]
        rfl
      · show x3.readers = x.readers
        rw [e5]
        rfl
      · show w4.log = _
        rw [n3, e15]
        exact d4
  · exact Or.inr ⟨.minor, by simp [setData, getC_eq hc, he]⟩

/-- The context was destroyed, and its arrays are freed. -/
structure Gone (w : W β) : Prop where
  ctx : w.ctx = none
  fresh : ∀ a, w.heap a ≠ none → a < w.next
  lib : ∀ a b, w.heap a = some b → b.lib = false

/-- `CeedQFunctionContextDestroy`. -/
theorem destroy_spec {w : W β} {x : KCtx} (hi : Inv w x) (hro : x.ptr .ro = none) :
    (∃ w', destroy w = .ok w' () ∧ Gone w' ∧
      w'.log = if x.destroyFn = some .host then w.log ++ [if (x.ptr .bor).isSome then x.ptr .bor else x.ptr .own]
        else w.log) ∨ ∃ e, destroy w = .err w e := by
  have hc := hi.si.ctx
  by_cases he : x.state % 2 = 0
  · rcases destroyData_spec hi.si with ⟨_, hd⟩ | ⟨_, w1, d1, d2, d3, d4⟩
    · exact Or.inr ⟨.backend, by simp [destroy, getC_eq hc, he, hd]⟩
    · left
      have hwr : x.ptr .wr = none := by
        by_contra h
        have := hi.odd.2 h
        omega
      have hx1 : ∀ s, s ≠ .bor → ((x.setPtr .alloc none).setPtr .own none).ptr s = none := by
        intro s hs
        cases s
        · rw [setPtr_ne _ _ (by decide)]; exact setPtr_same ..
        · exact setPtr_same ..
        · exact absurd rfl hs
        · rw [setPtr_ne _ _ (by decide), setPtr_ne _ _ (by decide)]; exact hro
        · rw [setPtr_ne _ _ (by decide), setPtr_ne _ _ (by decide)]; exact hwr
      refine ⟨{ w1 with ctx := none }, ?_, ⟨rfl, d2.fresh, fun a b h => d2.noLib hx1 h⟩, d4⟩
      simp [destroy, getC_eq hc, he, d1, destroyB, freeSlot_none d2.ctx (hx1 .alloc (by decide)),
        freeSlot_none d2.ctx (hx1 .own (by decide)), delC]
  · exact Or.inr ⟨.minor, by simp [destroy, getC_eq hc, he]⟩

/-- Writes to an array granted to a program. -/
theorem Inv.granted {w w' : W β} {x : KCtx} {s : Slot} {a : Nat} (hi : Inv w x) (hs : s = .wr ∨ s = .ro)
    (ha : x.ptr s = some a) (hsi : SI w' x) (hw : ∀ c, c ≠ a → w'.heap c = w.heap c) : Inv w' x ∧ Keeps w w' := by
  have hne : ∀ t c, t = .alloc ∨ t = .own ∨ t = .bor → x.ptr t = some c → w'.heap c = w.heap c := by
    intro t c ht hc
    refine hw c (hi.si.ne ?_ hc ha)
    rintro rfl
    rcases hs with rfl | rfl <;> simp at ht
  exact ⟨hi.keep hsi rfl (fun _ _ => rfl) hne hi.odd hi.rd (fun h => ⟨(hi.base h).1, (hi.base h).2.1⟩),
    keeps_same hi.si.ctx hsi.ctx rfl rfl fun c hc => hne _ c (Or.inl rfl) hc⟩

end CheckCtx
end Verif
