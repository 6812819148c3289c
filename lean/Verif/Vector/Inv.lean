import Verif.Vector.Effects

/-!
# Invariants of histories without a contract

`Inv1` relates what the program knows to the vector objects and holds for every program.
-/

namespace Verif
namespace Vector

set_option linter.unusedSectionVars false

variable {α : Type} [Field α] [LinearOrder α]

/-- What the program knows about a vector, compared with the vector. -/
structure VecInv (g : View) (v : Vid) (x : Vec) : Prop where
  len : g.len v = x.len
  lent : g.lent v = x.borrowed
  refs : x.refs ≤ g.handles v
  writes : (g.writes v).length ≤ x.state % 2
  reads : (g.reads v).length ≤ x.readers
  ptr : ∀ p ∈ g.writes v ++ g.reads v, p = x.ptr

structure Inv1 (g : View) (w : World α) : Prop where
  wf : WF w
  vec : ∀ v x, w.vecs v = some x → VecInv g v x
  dead : ∀ v, w.vecs v = none → g.writes v = [] ∧ g.reads v = []

theorem inv1_init : Inv1 View.init (World.init : World α) := by
  refine ⟨⟨?_, ?_, ?_, ?_⟩, ?_, ?_⟩ <;> simp [World.init, View.init]

variable {w w' : World α} {g : View} {d l : Vid → Nat}

theorem WF.trk (hw : WF w) (ht : Trk w d l w') : WF w' := by
  refine ⟨fun v x h => ht.slots hw h, ht.fresh, ?_, ?_⟩
  · intro v x h hodd
    obtain ⟨x0, h0, hs⟩ := ht.get0 h
    have hr := hs.readers
    by_cases hl : l v = 0
    · have he := hs.even hl
      have := hw.excl v x0 h0 (by omega)
      by_cases hd : d v = 0
      · omega
      · have := hs.reading hd; omega
    · have ho := hs.odd hl
      have := ho.2.2.1.2
      by_cases hd : d v = 0
      · omega
      · exact absurd (hs.rlock hd) hl
  · intro v h
    rw [ht.nextVec] at h
    exact (ht.dead v).1 (hw.freshVec v h)

/-- While the program holds an access the vector is locked. -/
theorem VecInv.free {v : Vid} {x : Vec} (h : VecInv g v x) (hf : x.free) : g.writes v = [] ∧ g.reads v = [] := by
  have h1 := h.writes
  have h2 := h.reads
  rw [hf.1] at h1
  rw [hf.2] at h2
  exact ⟨List.eq_nil_of_length_eq_zero (by omega), List.eq_nil_of_length_eq_zero (by omega)⟩

theorem VecInv.step {v : Vid} {x0 x : Vec} (h : VecInv g v x0) (hs : VStep w w' (d v) (l v) x0 x) : VecInv g v x := by
  have hr := hs.readers
  refine ⟨by rw [hs.len]; exact h.len, by rw [hs.borrowed]; exact h.lent, by rw [hs.refs]; exact h.refs, ?_,
    by have := h.reads; omega, ?_⟩
  · by_cases hl : l v = 0
    · rw [hs.even hl]; exact h.writes
    · have ho := hs.odd hl
      rw [(h.free ho.2.2.1).1]
      simp
  · intro p hp
    rw [h.ptr p hp]
    unfold Vec.ptr
    rw [hs.len]
    rcases hs.slot with ⟨e1, _⟩ | ⟨_, _, hf, _⟩
    · rw [e1]
    · obtain ⟨h1, h2⟩ := h.free hf
      rw [h1, h2] at hp
      cases hp

theorem Inv1.trk (h : Inv1 g w) (ht : Trk w d l w') : Inv1 g w' := by
  refine ⟨h.wf.trk ht, ?_, ?_⟩
  · intro v x hx
    obtain ⟨x0, h0, hs⟩ := ht.get0 hx
    exact (h.vec v x0 h0).step hs
  · intro v hv
    exact h.dead v ((ht.dead v).2 hv)

theorem Vec.slots_eq {x y : Vec} (h1 : y.array = x.array) (h2 : y.borrowed = x.borrowed) (h3 : y.owned = x.owned)
    (h : x.slots) : y.slots := by
  unfold Vec.slots at *
  rw [h1, h2, h3]
  exact h

/-- Change of one vector object, possibly with arrays freed. -/
theorem Inv1.setVec {g' : View} (h : Inv1 g w) {v : Vid} {x x' : Vec} {p : Option Addr} (hx : w.vecs v = some x)
    (hsl : x'.slots) (hex : x'.state % 2 = 1 → x'.readers = 0) (hv : VecInv g' v x')
    (hg : ∀ u, u ≠ v → g'.len u = g.len u ∧ g'.lent u = g.lent u ∧ g'.handles u = g.handles u ∧
      g'.writes u = g.writes u ∧ g'.reads u = g.reads u) :
    Inv1 g' ((w.dropBlk p).setVec v (some x')) := by
  refine ⟨⟨?_, ?_, ?_, ?_⟩, ?_, ?_⟩
  · intro u y hy
    by_cases hu : u = v
    · subst hu; simp at hy; subst hy; exact hsl
    · simp [hu] at hy; exact h.wf.slots u y hy
  · intro a ha
    have h1 := h.wf.fresh a ha
    simp [dropBlk_heap, h1]
  · intro u y hy
    by_cases hu : u = v
    · subst hu; simp at hy; subst hy; exact hex
    · simp [hu] at hy; exact h.wf.excl u y hy
  · intro u hu
    have h1 := h.wf.freshVec u hu
    have : u ≠ v := by rintro rfl; rw [h1] at hx; cases hx
    simp [this, h1]
  · intro u y hy
    by_cases hu : u = v
    · subst hu; simp at hy; subst hy; exact hv
    · simp [hu] at hy
      have h1 := h.vec u y hy
      obtain ⟨e1, e2, e3, e4, e5⟩ := hg u hu
      exact ⟨by rw [e1]; exact h1.len, by rw [e2]; exact h1.lent, by rw [e3]; exact h1.refs, by rw [e4]; exact h1.writes,
        by rw [e5]; exact h1.reads, by rw [e4, e5]; exact h1.ptr⟩
  · intro u hu
    by_cases huv : u = v
    · subst huv; simp at hu
    · simp [huv] at hu
      obtain ⟨_, _, _, e4, e5⟩ := hg u huv
      rw [e4, e5]
      exact h.dead u hu

theorem Inv1.setVec' {g' : View} (h : Inv1 g w) {v : Vid} {x x' : Vec} (hx : w.vecs v = some x)
    (hsl : x'.slots) (hex : x'.state % 2 = 1 → x'.readers = 0) (hv : VecInv g' v x')
    (hg : ∀ u, u ≠ v → g'.len u = g.len u ∧ g'.lent u = g.lent u ∧ g'.handles u = g.handles u ∧
      g'.writes u = g.writes u ∧ g'.reads u = g.reads u) :
    Inv1 g' (w.setVec v (some x')) := by
  have := h.setVec (p := none) hx hsl hex hv hg
  simpa using this

/-- Change of arrays only. -/
theorem Inv1.heap {g' : View} (h : Inv1 g w) (hv : w'.vecs = w.vecs) (hn : w'.nextVec = w.nextVec)
    (hf : ∀ a, w'.next ≤ a → w'.heap a = none)
    (hg : g'.len = g.len ∧ g'.lent = g.lent ∧ g'.handles = g.handles ∧ g'.writes = g.writes ∧ g'.reads = g.reads) :
    Inv1 g' w' := by
  obtain ⟨e1, e2, e3, e4, e5⟩ := hg
  refine ⟨⟨?_, hf, ?_, ?_⟩, ?_, ?_⟩
  · rw [hv]; exact h.wf.slots
  · rw [hv]; exact h.wf.excl
  · rw [hv, hn]; exact h.wf.freshVec
  · rw [hv]
    intro v x hx
    have h1 := h.vec v x hx
    exact ⟨by rw [e1]; exact h1.len, by rw [e2]; exact h1.lent, by rw [e3]; exact h1.refs, by rw [e4]; exact h1.writes,
      by rw [e5]; exact h1.reads, by rw [e4, e5]; exact h1.ptr⟩
  · rw [hv, e4, e5]; exact h.dead

theorem Inv1.grantW (h : Inv1 g w) {v : Vid} (ht : Trk w (fun _ => 0) (inc (fun _ => 0) v) w') {x' : Vec}
    (hx' : w'.vecs v = some x') :
    Inv1 { g with writes := upd g.writes v (x'.ptr :: g.writes v) } w' := by
  have h1 := h.trk ht
  obtain ⟨x0, h0, hs⟩ := ht.get0 hx'
  have ho := hs.odd (by simp)
  obtain ⟨f1, f2⟩ := (h.vec v x0 h0).free ho.2.2.1
  refine ⟨h1.wf, ?_, ?_⟩
  · intro u y hy
    have h2 := h1.vec u y hy
    by_cases hu : u = v
    · subst hu
      rw [hx'] at hy; cases hy
      refine ⟨h2.len, h2.lent, h2.refs, ?_, h2.reads, ?_⟩
      · simp [f1, ho.2.1]
      · simp [f1, f2]
    · exact ⟨h2.len, h2.lent, h2.refs, by simp [upd_ne _ _ hu]; exact h2.writes, h2.reads,
        by simp only [upd_ne _ _ hu]; exact h2.ptr⟩
  · intro u hu
    have huv : u ≠ v := by rintro rfl; rw [hx'] at hu; cases hu
    simp only [upd_ne _ _ huv]
    exact h1.dead u hu

theorem Inv1.grantR (h : Inv1 g w) {v : Vid} (ht : Trk w (inc (fun _ => 0) v) (fun _ => 0) w') {x' : Vec}
    (hx' : w'.vecs v = some x') :
    Inv1 { g with reads := upd g.reads v (x'.ptr :: g.reads v) } w' := by
  have h1 := h.trk ht
  obtain ⟨x0, h0, hs⟩ := ht.get0 hx'
  have hr := hs.readers
  have hv0 := h.vec v x0 h0
  refine ⟨h1.wf, ?_, ?_⟩
  · intro u y hy
    have h2 := h1.vec u y hy
    by_cases hu : u = v
    · subst hu
      rw [hx'] at hy; cases hy
      refine ⟨h2.len, h2.lent, h2.refs, h2.writes, ?_, ?_⟩
      · have := hv0.reads
        simp at hr
        simp; omega
      · intro p hp
        simp at hp
        rcases hp with hp | hp | hp
        · exact h2.ptr p (by simp [hp])
        · exact hp
        · exact h2.ptr p (by simp [hp])
    · exact ⟨h2.len, h2.lent, h2.refs, h2.writes, by simp [upd_ne _ _ hu]; exact h2.reads,
        by simp only [upd_ne _ _ hu]; exact h2.ptr⟩
  · intro u hu
    have huv : u ≠ v := by rintro rfl; rw [hx'] at hu; cases hu
    simp only [upd_ne _ _ huv]
    exact h1.dead u hu

theorem sameView (u : Vid) : g.len u = g.len u ∧ g.lent u = g.lent u ∧ g.handles u = g.handles u ∧
      g.writes u = g.writes u ∧ g.reads u = g.reads u := ⟨rfl, rfl, rfl, rfl, rfl⟩

theorem inv1_ok (h : Inv1 g w) {c : Call α} {r : Ret α} (he : OkEff w c w' r) : Inv1 (g.ok c r) w' := by
  cases c with
  | create p n =>
    obtain ⟨rfl, rfl⟩ := he
    have hf := h.wf.freshVec w.nextVec (Nat.le_refl _)
    refine ⟨⟨?_, h.wf.fresh, ?_, ?_⟩, ?_, ?_⟩
    · intro u y hy
      by_cases hu : u = w.nextVec
      · simp [hu] at hy; subst hy; simp [Vec.slots]
      · simp [hu] at hy; exact h.wf.slots u y hy
    · intro u y hy
      by_cases hu : u = w.nextVec
      · simp [hu] at hy; subst hy; simp
      · simp [hu] at hy; exact h.wf.excl u y hy
    · intro u hu
      have hu' : w.nextVec + 1 ≤ u := hu
      have : u ≠ w.nextVec := by omega
      simp [this]
      exact h.wf.freshVec u (by omega)
    · intro u y hy
      by_cases hu : u = w.nextVec
      · simp [hu] at hy; subst hy; subst hu
        constructor <;> simp [View.ok]
      · simp [hu] at hy
        have h1 := h.vec u y hy
        constructor <;> simp only [View.ok, upd_ne _ _ hu]
        exacts [h1.len, h1.lent, h1.refs, h1.writes, h1.reads, h1.ptr]
    · intro u hu
      by_cases hu' : u = w.nextVec
      · simp [hu'] at hu
      · simp [hu'] at hu
        simp only [View.ok, upd_ne _ _ hu']
        exact h.dead u hu
  | reference v =>
    obtain ⟨x, hx, rfl⟩ := he
    have h1 := h.vec v x hx
    refine h.setVec' hx (Vec.slots_eq rfl rfl rfl (h.wf.slots v x hx)) (h.wf.excl v x hx) ?_ ?_
    · refine ⟨h1.len, h1.lent, ?_, h1.writes, h1.reads, h1.ptr⟩
      have := h1.refs
      simp [View.ok]; omega
    · intro u hu
      simp [View.ok, upd_ne _ _ hu]
  | destroy v =>
    obtain ⟨x, hx, ⟨h0, rfl⟩ | ⟨h0, hf, rfl⟩⟩ := he
    · have h1 := h.vec v x hx
      have hr := h1.refs
      refine h.setVec' hx (Vec.slots_eq rfl rfl rfl (h.wf.slots v x hx)) (h.wf.excl v x hx) ?_ ?_
      · refine ⟨h1.len, ?_, ?_, h1.writes, h1.reads, h1.ptr⟩
        · simp only [View.ok]
          rw [if_neg (by omega)]
          exact h1.lent
        · simp [View.ok]; omega
      · intro u hu
        simp only [View.ok, upd_ne _ _ hu, true_and, and_true]
        split
        · exact upd_ne _ _ hu
        · rfl
    · have h1 := h.vec v x hx
      refine ⟨⟨?_, ?_, ?_, ?_⟩, ?_, ?_⟩
      · intro u y hy
        by_cases hu : u = v
        · simp [hu] at hy
        · simp [hu] at hy; exact h.wf.slots u y hy
      · intro a ha
        have := h.wf.fresh a ha
        simp [dropBlk_heap, this]
      · intro u y hy
        by_cases hu : u = v
        · simp [hu] at hy
        · simp [hu] at hy; exact h.wf.excl u y hy
      · intro u hu
        have := h.wf.freshVec u hu
        simp [this]
      · intro u y hy
        by_cases hu : u = v
        · simp [hu] at hy
        · simp [hu] at hy
          have h1 := h.vec u y hy
          refine ⟨h1.len, ?_, ?_, h1.writes, h1.reads, h1.ptr⟩
          · simp only [View.ok]
            split
            · rw [upd_ne _ _ hu]; exact h1.lent
            · exact h1.lent
          · simp only [View.ok, upd_ne _ _ hu]; exact h1.refs
      · intro u hu
        by_cases huv : u = v
        · subst huv
          exact (h.vec u x hx).free hf
        · simp [huv] at hu
          exact h.dead u hu
  | setArray v m mode src =>
    cases mode with
    | copyValues =>
      obtain ⟨x, hx, hf, ht⟩ := he
      exact h.trk ht
    | usePointer =>
      obtain ⟨x, hx, hf, rfl⟩ := he
      have h1 := h.vec v x hx
      obtain ⟨f1, f2⟩ := h1.free hf
      by_cases hl : 0 < x.len
      · have hl' : 0 < g.len v := by rw [h1.len]; exact hl
        rw [if_pos hl]
        have hg : g.ok (.setArray v m .usePointer src) r = { g with lent := upd g.lent v src } := by
          simp [View.ok, hl']
        rw [hg]
        refine h.setVec hx ?_ ?_ ?_ ?_
        · cases src <;> simp [Vec.slots]
        · intro _; exact hf.2
        · exact ⟨h1.len, by simp, h1.refs, by rw [f1]; simp, by rw [f2]; simp, by simp [f1, f2]⟩
        · intro u hu; simp [upd_ne _ _ hu]
      · have hl' : ¬ 0 < g.len v := by rw [h1.len]; exact hl
        rw [if_neg hl]
        have hg : g.ok (.setArray v m .usePointer src) r = g := by
          simp [View.ok, hl']
        rw [hg]
        refine h.setVec' hx (Vec.slots_eq rfl rfl rfl (h.wf.slots v x hx)) (fun _ => hf.2) ?_ (fun u _ => sameView u)
        exact ⟨h1.len, h1.lent, h1.refs, by rw [f1]; simp, by rw [f2]; simp, by simp [f1, f2]⟩
    | ownPointer =>
      obtain ⟨x, hx, hf, rfl⟩ := he
      have h1 := h.vec v x hx
      obtain ⟨f1, f2⟩ := h1.free hf
      by_cases hl : 0 < x.len
      · have hl' : 0 < g.len v := by rw [h1.len]; exact hl
        rw [if_pos hl]
        have hg : g.ok (.setArray v m .ownPointer src) r = { g with lent := upd g.lent v none, mine := fun a => if src = some a then none else g.mine a } := by
          simp [View.ok, hl']
        rw [hg]
        refine h.setVec hx ?_ ?_ ?_ ?_
        · simp [Vec.slots]
        · intro _; exact hf.2
        · exact ⟨h1.len, by simp, h1.refs, by rw [f1]; simp, by rw [f2]; simp, by simp [f1, f2]⟩
        · intro u hu; simp [upd_ne _ _ hu]
      · have hl' : ¬ 0 < g.len v := by rw [h1.len]; exact hl
        rw [if_neg hl]
        have hg : g.ok (.setArray v m .ownPointer src) r = g := by
          simp [View.ok, hl']
        rw [hg]
        refine h.setVec' hx (Vec.slots_eq rfl rfl rfl (h.wf.slots v x hx)) (fun _ => hf.2) ?_ (fun u _ => sameView u)
        exact ⟨h1.len, h1.lent, h1.refs, by rw [f1]; simp, by rw [f2]; simp, by simp [f1, f2]⟩
  | takeArray v m =>
    obtain ⟨x, hx, hf, ⟨hl, rfl, rfl, hb⟩ | ⟨hl, rfl, rfl⟩⟩ := he
    · have h1 := h.vec v x hx
      obtain ⟨f1, f2⟩ := h1.free hf
      have hl' : 0 < g.len v := by rw [h1.len]; exact hl
      have hg : g.ok (.takeArray v m : Call α) (.ptr x.borrowed) = { g with lent := upd g.lent v none } := by
        simp [View.ok, hl']
      rw [hg]
      have hs := h.wf.slots v x hx
      refine h.setVec' hx ?_ (fun _ => hf.2) ?_ ?_
      · unfold Vec.slots at *
        split at hs
        · simp [hs.2]
        · rename_i hn; rw [hn] at hb; cases hb
      · exact ⟨h1.len, by simp, h1.refs, by rw [f1]; simp, by rw [f2]; simp, by simp [f1, f2]⟩
      · intro u hu; simp [upd_ne _ _ hu]
    · have h1 := h.vec v x hx
      have hl' : ¬ 0 < g.len v := by rw [h1.len]; omega
      have hg : g.ok (.takeArray v m : Call α) (.ptr none) = g := by simp [View.ok, hl']
      rw [hg]
      exact h
  | getArray v m =>
    obtain ⟨ht, x', hx', rfl, _⟩ := he
    exact h.grantW ht hx'
  | getArrayWrite v m =>
    obtain ⟨ht, x', hx', rfl, _⟩ := he
    exact h.grantW ht hx'
  | getArrayRead v m =>
    obtain ⟨ht, x', hx', rfl, _⟩ := he
    exact h.grantR ht hx'
  | restoreArray v =>
    obtain ⟨x, hx, ho, rfl⟩ := he
    have h1 := h.vec v x hx
    have hr := h.wf.excl v x hx ho
    refine h.setVec' hx (Vec.slots_eq rfl rfl rfl (h.wf.slots v x hx)) (fun _ => hr) ?_ ?_
    · refine ⟨h1.len, h1.lent, h1.refs, ?_, h1.reads, ?_⟩
      · have := h1.writes
        simp [View.ok]; omega
      · intro p hp
        refine h1.ptr p ?_
        simp only [View.ok, upd_same, List.mem_append] at hp ⊢
        exact hp.imp List.mem_of_mem_tail id
    · intro u hu
      simp [View.ok, upd_ne _ _ hu]
  | restoreArrayRead v =>
    obtain ⟨x, hx, ho, rfl⟩ := he
    have h1 := h.vec v x hx
    refine h.setVec' hx (Vec.slots_eq rfl rfl rfl (h.wf.slots v x hx)) ?_ ?_ ?_
    · intro hh
      have := h.wf.excl v x hx hh
      omega
    · refine ⟨h1.len, h1.lent, h1.refs, h1.writes, ?_, ?_⟩
      · have := h1.reads
        simp [View.ok]; omega
      · intro p hp
        refine h1.ptr p ?_
        simp only [View.ok, upd_same, List.mem_append] at hp ⊢
        exact hp.imp id List.mem_of_mem_tail
    · intro u hu
      simp [View.ok, upd_ne _ _ hu]
  | malloc b =>
    obtain ⟨rfl, rfl⟩ := he
    refine h.heap rfl rfl ?_ ⟨rfl, rfl, rfl, rfl, rfl⟩
    intro a ha
    simp at ha
    have : a ≠ w.next := by omega
    simp [this, h.wf.fresh a (by omega)]
  | mfree a =>
    obtain ⟨b, hb, rfl⟩ := he
    refine h.heap rfl rfl ?_ ⟨rfl, rfl, rfl, rfl, rfl⟩
    intro c hc
    simp [dropBlk_heap, h.wf.fresh c hc]
  | load a i =>
    have he : w' = w := he
    subst he
    exact h
  | store a i z =>
    obtain ⟨b, b', hb, hl, rfl⟩ := he
    refine h.heap rfl rfl ?_ ⟨rfl, rfl, rfl, rfl, rfl⟩
    intro c hc
    have h1 := h.wf.fresh c hc
    have : c ≠ a := by rintro rfl; rw [h1] at hb; cases hb
    simp [this, h1]
  | syncArray v m => exact h.trk he
  | setValue v z => exact h.trk he
  | setValueStrided v s t u z => exact h.trk he
  | copy v c => exact h.trk he
  | copyStrided v s t u c => exact h.trk he
  | norm v t => exact h.trk he
  | scale v z => exact h.trk he
  | axpy y z x => exact h.trk he
  | axpby y z z' x => exact h.trk he
  | pointwiseMult v x y => exact h.trk he
  | reciprocal v => exact h.trk he

theorem inv1_err (h : Inv1 g w) {c : Call α} (he : ErrEff w c w') : Inv1 (g.err c) w' := by
  by_cases hc : ∃ v, c = .destroy v
  · obtain ⟨v, rfl⟩ := hc
    obtain ⟨x, hx, h0, hf, rfl⟩ := he
    have h1 := h.vec v x hx
    refine h.setVec' hx (Vec.slots_eq rfl rfl rfl (h.wf.slots v x hx)) (h.wf.excl v x hx) ?_ (fun u _ => sameView u)
    exact ⟨h1.len, h1.lent, by have := h1.refs; show x.refs - 1 ≤ _; simp only [View.err]; omega, h1.writes, h1.reads, h1.ptr⟩
  · have hg : g.err c = g := by
      cases c <;> first | rfl | exact absurd ⟨_, rfl⟩ hc
    have ht : ∃ d l, Trk w d l w' := by
      cases c <;> first | exact he.1 | exact absurd ⟨_, rfl⟩ hc
    obtain ⟨d, l, ht⟩ := ht
    rw [hg]
    exact h.trk ht

variable {L : View → Call α → Prop} {F : Prop} {sqrt : α → α} {eps : α}

theorem eff_ok (hw : WF w) {c : Call α} {r : Ret α} (e : exec sqrt eps c w = .ok w' r) : OkEff w c w' r :=
  M.wp_ok (exec_wp (S := False) hw c (fun h => h.elim)) e

theorem eff_err (hw : WF w) {c : Call α} {a : Err} (e : exec sqrt eps c w = .err w' a) : ErrEff w c w' :=
  M.wp_err (exec_wp (S := False) hw c (fun h => h.elim)) e

theorem inv1_step {s t : World α × View} (h : Inv1 s.2 s.1) (hs : Step L F sqrt eps s t) : Inv1 t.2 t.1 := by
  cases hs with
  | ok _ e => exact inv1_ok h (eff_ok h.wf e)
  | err _ _ e => exact inv1_err h (eff_err h.wf e)

theorem inv1_steps {s t : World α × View} (h : Inv1 s.2 s.1) (hs : Steps L F sqrt eps s t) : Inv1 t.2 t.1 := by
  induction hs with
  | refl => exact h
  | tail _ hs ih => exact inv1_step ih hs

theorem inv1_reach (h : Reach L F sqrt eps w g) : Inv1 g w :=
  inv1_steps (s := (World.init, View.init)) inv1_init h

end Vector
end Verif
