import Verif.Vector.Inv

/-!
# Invariants of histories that respect the contract
-/

namespace Verif
namespace Vector

set_option linter.unusedSectionVars false

variable {α : Type} [Field α] [LinearOrder α]

/-- Ownership of arrays. -/
structure Inv (g : View) (w : World α) : Prop where
  base : Inv1 g w
  mem : MemOK w
  alive : ∀ v x, w.vecs v = some x → 1 ≤ g.handles v ∧ (g.broken v = false → x.refs = g.handles v) ∧
    (g.broken v = true → x.refs ≤ 0 ∧ g.handles v = 1)
  gone : ∀ v, w.vecs v = none → g.handles v = 0 ∧ g.lent v = none
  mine : ∀ a n, g.mine a = some n → (∃ b, w.heap a = some b ∧ b.len = n) ∧
    ∀ v x, w.vecs v = some x → x.owned ≠ some a
  lentMine : ∀ v x a, w.vecs v = some x → x.borrowed = some a → ∃ n, g.mine a = some n
  cover : ∀ a b, w.heap a = some b → (∃ n, g.mine a = some n) ∨ ∃ v x, w.vecs v = some x ∧ x.owned = some a
  distinct : ∀ v u x y a, v ≠ u → w.vecs v = some x → w.vecs u = some y → x.array = some a → y.array ≠ some a

/-- What stays as long as the state counter of a vector does not change. -/
structure Keep (w w' : World α) : Prop where
  nextVec : w.nextVec ≤ w'.nextVec
  dead : ∀ v, v < w.nextVec → w.vecs v = none → w'.vecs v = none
  vec : ∀ v x x', w.vecs v = some x → w'.vecs v = some x' → x'.len = x.len ∧ x.state ≤ x'.state ∧
    (x'.state = x.state → x.state % 2 = 0 → ∀ a, x'.array = some a → x.array = some a ∧ w'.heap a = w.heap a)

theorem inv_init : Inv View.init (World.init : World α) := by
  refine ⟨inv1_init, ?_, ?_, ?_, ?_, ?_, ?_, ?_⟩ <;> simp [World.init, View.init, MemOK]

variable {w w' : World α} {g : View} {d l : Vid → Nat}

theorem Keep.refl (w : World α) : Keep w w := by
  refine ⟨Nat.le_refl _, fun _ _ h => h, ?_⟩
  intro v x x' h h'
  rw [h] at h'; cases h'
  exact ⟨rfl, Nat.le_refl _, fun _ _ a ha => ⟨ha, rfl⟩⟩

/-- The owned array is the one in use. -/
theorem owned_array (hw : WF w) {v : Vid} {x : Vec} (h : w.vecs v = some x) {a : Addr} (ha : x.owned = some a) :
    x.array = some a ∧ x.borrowed = none := by
  have hs := hw.slots v x h
  unfold Vec.slots at hs
  split at hs
  · rw [hs.2] at ha; cases ha
  · rename_i hb
    exact ⟨by rw [hs, ha], hb⟩

/-- The array in use is the lent one or the owned one. -/
theorem array_cases (hw : WF w) {v : Vid} {x : Vec} (h : w.vecs v = some x) {a : Addr} (ha : x.array = some a) :
    x.borrowed = some a ∨ x.owned = some a := by
  have hs := hw.slots v x h
  unfold Vec.slots at hs
  split at hs
  · rename_i b hb
    left; rw [hb, ← hs.1, ha]
  · right; rw [← hs, ha]

theorem lt_next (hw : WF w) {a : Addr} {b : Buf α} (h : w.heap a = some b) : a < w.next := by
  by_contra hc
  rw [hw.fresh a (by omega)] at h
  cases h

/-- A vector to which the program's array is not lent does not use it. -/
theorem Inv.notUsed (h : Inv g w) {a : Addr} {n : Nat} (hm : g.mine a = some n) {u : Vid} {y : Vec}
    (hy : w.vecs u = some y) (hl : g.lent u ≠ some a) : y.array ≠ some a := by
  intro ha
  rcases array_cases h.base.wf hy ha with hb | ho
  · exact hl (by rw [(h.base.vec u y hy).lent, hb])
  · exact (h.mine a n hm).2 u y hy ho

theorem Inv.has (h : Inv g w) {v : Vid} (hv : g.has v) : Alive w v := by
  cases hx : w.vecs v with
  | some x => exact ⟨x, hx⟩
  | none =>
    have := (h.gone v hx).1
    unfold View.has at hv
    omega

/-- An access held by the program. -/
theorem Inv.access (h : Inv g w) {u : Vid} {a : Addr} (ha : some a ∈ g.writes u ++ g.reads u) :
    ∃ y b, w.vecs u = some y ∧ y.array = some a ∧ ¬ y.free ∧ w.heap a = some b ∧ y.len ≤ b.len ∧ g.len u = y.len := by
  cases hy : w.vecs u with
  | none =>
    obtain ⟨h1, h2⟩ := h.base.dead u hy
    rw [h1, h2] at ha
    cases ha
  | some y =>
    have h1 := h.base.vec u y hy
    have h2 := h1.ptr _ ha
    have h3 : y.array = some a := by
      unfold Vec.ptr at h2
      split at h2
      · exact h2.symm
      · cases h2
    obtain ⟨b, hb, hl⟩ := h.mem u y a hy h3
    refine ⟨y, b, rfl, h3, ?_, hb, hl, h1.len⟩
    intro hf
    obtain ⟨f1, f2⟩ := h1.free hf
    rw [f1, f2] at ha
    cases ha

theorem legal_safe (h : Inv g w) {c : Call α} (hc : Legal g c) : Safe w c := by
  cases c with
  | create p n => trivial
  | reference v => exact h.has hc.1
  | setArray v m mode src =>
    refine ⟨h.has hc.1, ?_⟩
    intro x s hx hf hmode hs hl
    subst hmode
    obtain ⟨h1, h2⟩ := hc.2 s hs
    have hv := h.base.vec v x hx
    rcases h2 with ⟨n, h3, h4⟩ | ⟨u, h3, h4⟩
    · obtain ⟨⟨b, hb, hbl⟩, _⟩ := h.mine s n h3
      exact ⟨b, hb, by rw [hv.len] at h4; omega, h.notUsed h3 hx h1⟩
    · obtain ⟨y, b, hy, ha, hnf, hb, hbl, hgl⟩ := h.access h3
      refine ⟨b, hb, by rw [hv.len] at h4; omega, ?_⟩
      by_cases huv : u = v
      · subst huv
        rw [hx] at hy; cases hy
        exact absurd hf hnf
      · exact h.distinct u v y x s huv hy hx ha
  | setValueStrided v start stop step z => exact ⟨h.has hc.1, hc.2⟩
  | copy v c =>
    refine ⟨h.has hc.1, h.has hc.2, ?_⟩
    intro x y a hx hy hne ha
    exact h.distinct v c x y a (Ne.symm hne) hx hy ha
  | copyStrided v s t u c => exact ⟨h.has hc.1, h.has hc.2.1, hc.2.2⟩
  | axpy y z x => exact ⟨h.has hc.1, h.has hc.2⟩
  | axpby y z z' x => exact ⟨h.has hc.1, h.has hc.2⟩
  | pointwiseMult v x y => exact ⟨h.has hc.1, h.has hc.2.1, h.has hc.2.2⟩
  | malloc b => trivial
  | mfree a =>
    obtain ⟨⟨n, hn⟩, _⟩ := hc
    obtain ⟨⟨b, hb, _⟩, _⟩ := h.mine a n hn
    exact ⟨b, hb⟩
  | load a i =>
    obtain ⟨h0, ⟨n, hn, hi⟩ | ⟨u, hu, hi⟩⟩ := hc
    · obtain ⟨⟨b, hb, hl⟩, _⟩ := h.mine a n hn
      exact ⟨b, hb, h0, by omega⟩
    · obtain ⟨y, b, hy, ha, _, hb, hbl, hgl⟩ := h.access hu
      exact ⟨b, hb, h0, by omega⟩
  | store a i z =>
    obtain ⟨h0, ⟨n, hn, hi, _⟩ | ⟨u, hu, hi⟩⟩ := hc
    · obtain ⟨⟨b, hb, hl⟩, _⟩ := h.mine a n hn
      exact ⟨b, hb, h0, by omega⟩
    · obtain ⟨y, b, hy, ha, _, hb, hbl, hgl⟩ := h.access (List.mem_append_left _ hu)
      exact ⟨b, hb, h0, by omega⟩
  | destroy v => exact h.has hc
  | takeArray v m => exact h.has hc
  | getArray v m => exact h.has hc
  | getArrayRead v m => exact h.has hc
  | getArrayWrite v m => exact h.has hc
  | restoreArray v => exact h.has hc
  | restoreArrayRead v => exact h.has hc
  | syncArray v m => exact h.has hc
  | setValue v z => exact h.has hc
  | norm v t => exact h.has hc
  | scale v z => exact h.has hc
  | reciprocal v => exact h.has hc

/-! ## Calls that only follow accesses -/

theorem Inv.trk {g' : View} (h : Inv g w) (ht : Trk w d l w') (hb : Inv1 g' w')
    (hg : g'.handles = g.handles ∧ g'.broken = g.broken ∧ g'.mine = g.mine ∧ g'.lent = g.lent) : Inv g' w' := by
  obtain ⟨e1, e2, e3, e4⟩ := hg
  have hw := h.base.wf
  refine ⟨hb, fun v x a hx ha => ht.mem h.mem hx ha, ?_, ?_, ?_, ?_, ?_, ?_⟩
  · intro v x hx
    obtain ⟨x0, h0, hs⟩ := ht.get0 hx
    rw [e1, e2, hs.refs]
    exact h.alive v x0 h0
  · intro v hv
    rw [e1, e4]
    exact h.gone v ((ht.dead v).2 hv)
  · intro a n hn
    rw [e3] at hn
    obtain ⟨⟨b, hb, hl⟩, ho⟩ := h.mine a n hn
    obtain ⟨b', hb', hl', _⟩ := ht.heap a b hb
    refine ⟨⟨b', hb', by omega⟩, ?_⟩
    intro v x hx
    obtain ⟨x0, h0, hs⟩ := ht.get0 hx
    rcases hs.slot with ⟨_, e⟩ | ⟨_, _, _, _, a', _, _, e, hge, _⟩
    · rw [e]; exact ho v x0 h0
    · rw [e]
      rintro ⟨⟩
      have := lt_next hw hb
      omega
  · intro v x a hx ha
    obtain ⟨x0, h0, hs⟩ := ht.get0 hx
    rw [e3]
    exact h.lentMine v x0 a h0 (by rw [← hs.borrowed, ha])
  · intro a b hb
    cases hb0 : w.heap a with
    | some b0 =>
      rcases h.cover a b0 hb0 with ⟨n, hn⟩ | ⟨v, x0, h0, ho⟩
      · exact Or.inl ⟨n, by rw [e3]; exact hn⟩
      · obtain ⟨x, hx, hs⟩ := ht.get h0
        refine Or.inr ⟨v, x, hx, ?_⟩
        rcases hs.slot with ⟨_, e⟩ | ⟨_, e, _⟩
        · rw [e]; exact ho
        · rw [(owned_array hw h0 ho).1] at e; cases e
    | none =>
      obtain ⟨_, u, x0, x, _, hx, _, _, ho⟩ := ht.new a b hb0 hb
      exact Or.inr ⟨u, x, hx, ho⟩
  · intro v u x y a hne hx hy hxa hya
    obtain ⟨x0, hx0, hsx⟩ := ht.get0 hx
    obtain ⟨y0, hy0, hsy⟩ := ht.get0 hy
    obtain ⟨t, z0, hor, hz0, hza⟩ := ht.inj v u x y a hne hx hy hxa hya
    obtain ⟨b, hb, _⟩ := h.mem t z0 a hz0 hza
    have hlt := lt_next hw hb
    have hxo : x0.array = some a := by
      rcases hsx.slot with ⟨e, _⟩ | ⟨_, _, _, _, a', _, e, _, hge, _⟩
      · rw [← e, hxa]
      · rw [hxa] at e; cases e; omega
    have hyo : y0.array = some a := by
      rcases hsy.slot with ⟨e, _⟩ | ⟨_, _, _, _, a', _, e, _, hge, _⟩
      · rw [← e, hya]
      · rw [hya] at e; cases e; omega
    exact h.distinct v u x0 y0 a hne hx0 hy0 hxo hyo

theorem Keep.trk (h : Inv g w) (ht : Trk w d l w') : Keep w w' := by
  refine ⟨by rw [ht.nextVec], fun v _ hv => (ht.dead v).1 hv, ?_⟩
  intro v x x' hx hx'
  have hs := ht.vec v x x' hx hx'
  refine ⟨hs.len, hs.mono, ?_⟩
  intro hst _ a ha
  have ha0 : x.array = some a := by
    rcases hs.slot with ⟨e, _⟩ | ⟨_, _, _, hlt, _⟩
    · rw [← e, ha]
    · omega
  refine ⟨ha0, ?_⟩
  obtain ⟨b, hb, _⟩ := h.mem v x a hx ha0
  obtain ⟨b', hb', _, he | ⟨u, y0, y, hy0, hy, hya, _, hlt⟩⟩ := ht.heap a b hb
  · rw [hb', he, hb]
  · by_cases huv : u = v
    · subst huv
      rw [hx] at hy0; cases hy0
      rw [hx'] at hy; cases hy
      omega
    · exact absurd ha0 (h.distinct u v y0 x a huv hy0 hx hya)

/-! ## Calls that change one vector object -/

/-- The vector `v` gets the slots of `x'`; its owned array is freed if `p` says so. -/
theorem Inv.setVec {g' : View} (h : Inv g w) {v : Vid} {x x' : Vec} {p : Option Addr} (hx : w.vecs v = some x)
    (hp : p = none ∨ p = x.owned) (hb : Inv1 g' ((w.dropBlk p).setVec v (some x'))) (hlen : x'.len = x.len)
    (hal : 1 ≤ g'.handles v ∧ (g'.broken v = false → x'.refs = g'.handles v) ∧
      (g'.broken v = true → x'.refs ≤ 0 ∧ g'.handles v = 1))
    (hsame : ∀ u, u ≠ v → g'.handles u = g.handles u ∧ g'.broken u = g.broken u ∧ g'.lent u = g.lent u)
    (hmine : ∀ a n, g'.mine a = some n → g.mine a = some n ∧ x'.owned ≠ some a)
    (hmine' : ∀ a n, g.mine a = some n → g'.mine a = some n ∨ (x'.owned = some a ∧ ∀ u, u ≠ v → g.lent u ≠ some a))
    (hbor : ∀ a, x'.borrowed = some a → ∃ n, g'.mine a = some n)
    (how : ∀ a, x.owned = some a → p = some a ∨ x'.owned = some a)
    (harr : ∀ a, x'.array = some a → (∃ b, w.heap a = some b ∧ x.len ≤ b.len ∧ p ≠ some a) ∧
      ∀ u y, u ≠ v → w.vecs u = some y → y.array ≠ some a) :
    Inv g' ((w.dropBlk p).setVec v (some x')) := by
  have hw := h.base.wf
  have hpa : ∀ a, p = some a → x.array = some a ∧ x.owned = some a := by
    intro a ha
    rcases hp with hp | hp
    · rw [hp] at ha; cases ha
    · have : x.owned = some a := by rw [← hp, ha]
      exact ⟨(owned_array hw hx this).1, this⟩
  refine ⟨hb, ?_, ?_, ?_, ?_, ?_, ?_, ?_⟩
  · intro u y a hy ha
    by_cases hu : u = v
    · subst hu
      simp at hy; subst hy
      obtain ⟨⟨b, hb, hl, hpn⟩, _⟩ := harr a ha
      refine ⟨b, ?_, by rw [hlen]; exact hl⟩
      simp [dropBlk_heap, hpn, hb]
    · simp [hu] at hy
      obtain ⟨b, hb, hl⟩ := h.mem u y a hy ha
      refine ⟨b, ?_, hl⟩
      have : p ≠ some a := by
        intro hpp
        exact h.distinct v u x y a (Ne.symm hu) hx hy (hpa a hpp).1 ha
      simp [dropBlk_heap, this, hb]
  · intro u y hy
    by_cases hu : u = v
    · subst hu
      simp at hy; subst hy
      exact hal
    · simp [hu] at hy
      obtain ⟨e1, e2, _⟩ := hsame u hu
      rw [e1, e2]
      exact h.alive u y hy
  · intro u hu
    by_cases huv : u = v
    · subst huv; simp at hu
    · simp [huv] at hu
      obtain ⟨e1, _, e3⟩ := hsame u huv
      rw [e1, e3]
      exact h.gone u hu
  · intro a n hn
    obtain ⟨h1, h2⟩ := hmine a n hn
    obtain ⟨⟨b, hb, hl⟩, ho⟩ := h.mine a n h1
    refine ⟨⟨b, ?_, hl⟩, ?_⟩
    · have : p ≠ some a := fun hpp => ho v x hx (hpa a hpp).2
      simp [dropBlk_heap, this, hb]
    · intro u y hy
      by_cases hu : u = v
      · subst hu; simp at hy; subst hy; exact h2
      · simp [hu] at hy; exact ho u y hy
  · intro u y a hy ha
    by_cases hu : u = v
    · subst hu; simp at hy; subst hy; exact hbor a ha
    · simp [hu] at hy
      obtain ⟨n, hn⟩ := h.lentMine u y a hy ha
      rcases hmine' a n hn with h1 | ⟨_, h2⟩
      · exact ⟨n, h1⟩
      · exact absurd (by rw [(h.base.vec u y hy).lent, ha]) (h2 u hu)
  · intro a b hb
    rw [setVec_heap, dropBlk_heap] at hb
    by_cases hpp : p = some a
    · simp [hpp] at hb
    · simp [hpp] at hb
      rcases h.cover a b hb with ⟨n, hn⟩ | ⟨u, y, hy, ho⟩
      · rcases hmine' a n hn with h1 | ⟨h1, _⟩
        · exact Or.inl ⟨n, h1⟩
        · exact Or.inr ⟨v, x', by simp, h1⟩
      · by_cases hu : u = v
        · subst hu
          rw [hx] at hy; cases hy
          rcases how a ho with h1 | h1
          · exact absurd h1 hpp
          · exact Or.inr ⟨u, x', by simp, h1⟩
        · exact Or.inr ⟨u, y, by simp [hu, hy], ho⟩
  · intro u t y z a hne hy hz hya hza
    by_cases hu : u = v
    · subst hu
      simp at hy; subst hy
      have ht : t ≠ u := Ne.symm hne
      simp [ht] at hz
      exact (harr a hya).2 t z ht hz hza
    · simp [hu] at hy
      by_cases ht : t = v
      · subst ht
        simp at hz; subst hz
        exact (harr a hza).2 u y hu hy hya
      · simp [ht] at hz
        exact h.distinct u t y z a hne hy hz hya hza

theorem Keep.setVec (h : Inv g w) {v : Vid} {x x' : Vec} {p : Option Addr} (hx : w.vecs v = some x)
    (hp : p = none ∨ p = x.owned) (hlen : x'.len = x.len) (hst : x.state ≤ x'.state)
    (harr : x'.state = x.state → x.state % 2 = 0 → p = none ∧ ∀ a, x'.array = some a → x.array = some a) :
    Keep w ((w.dropBlk p).setVec v (some x')) := by
  have hw := h.base.wf
  refine ⟨Nat.le_refl _, ?_, ?_⟩
  · intro u _ hu
    have : u ≠ v := by rintro rfl; rw [hx] at hu; cases hu
    simp [this, hu]
  · intro u y y' hy hy'
    by_cases hu : u = v
    · subst hu
      simp at hy'; subst hy'
      rw [hx] at hy; cases hy
      refine ⟨hlen, hst, fun h1 h2 a ha => ?_⟩
      obtain ⟨h3, h4⟩ := harr h1 h2
      subst h3
      exact ⟨h4 a ha, by simp⟩
    · simp [hu] at hy'
      rw [hy] at hy'; cases hy'
      refine ⟨rfl, Nat.le_refl _, fun _ _ a ha => ⟨ha, ?_⟩⟩
      have : p ≠ some a := by
        intro hpp
        rcases hp with hp | hp
        · rw [hp] at hpp; cases hpp
        · exact h.distinct v u x y a (Ne.symm hu) hx hy (owned_array hw hx (by rw [← hp, hpp])).1 ha
      simp [dropBlk_heap, this]

/-- Changes of counters only. -/
theorem Inv.count {g' : View} (h : Inv g w) {v : Vid} {x x' : Vec} (hx : w.vecs v = some x)
    (hb : Inv1 g' (w.setVec v (some x'))) (hlen : x'.len = x.len)
    (hs : x'.array = x.array ∧ x'.owned = x.owned ∧ x'.borrowed = x.borrowed)
    (hal : 1 ≤ g'.handles v ∧ (g'.broken v = false → x'.refs = g'.handles v) ∧
      (g'.broken v = true → x'.refs ≤ 0 ∧ g'.handles v = 1))
    (hsame : ∀ u, u ≠ v → g'.handles u = g.handles u ∧ g'.broken u = g.broken u ∧ g'.lent u = g.lent u)
    (hmine : g'.mine = g.mine) : Inv g' (w.setVec v (some x')) := by
  obtain ⟨e1, e2, e3⟩ := hs
  have := h.setVec (p := none) (x' := x') (g' := g') hx (Or.inl rfl) (by simpa using hb) hlen hal hsame
    (fun a n hn => by
      rw [hmine] at hn
      exact ⟨hn, by rw [e2]; exact (h.mine a n hn).2 v x hx⟩)
    (fun a n hn => by rw [hmine]; exact Or.inl hn)
    (fun a ha => by rw [hmine]; exact h.lentMine v x a hx (by rw [← e3, ha]))
    (fun a ha => Or.inr (by rw [e2, ha]))
    (fun a ha => by
      rw [e1] at ha
      obtain ⟨b, hb, hl⟩ := h.mem v x a hx ha
      exact ⟨⟨b, hb, hl, by simp⟩, fun u y hu hy => h.distinct v u x y a (Ne.symm hu) hx hy ha⟩)
  simpa using this

theorem Keep.count (h : Inv g w) {v : Vid} {x x' : Vec} (hx : w.vecs v = some x) (hlen : x'.len = x.len)
    (hst : x.state ≤ x'.state) (ha : x'.array = x.array) : Keep w (w.setVec v (some x')) := by
  have := Keep.setVec (p := none) h hx (Or.inl rfl) hlen hst (fun _ _ => ⟨rfl, fun a h1 => by rw [← ha, h1]⟩)
  simpa using this

/-- Steps of the contract: invariant and preservation. -/
theorem inv_ok (h : Inv g w) {c : Call α} {r : Ret α} (hc : Legal g c) (he : OkEff w c w' r) :
    Inv (g.ok c r) w' ∧ Keep w w' := by
  have hb := inv1_ok h.base he
  have hw := h.base.wf
  cases c with
  | create p n =>
    obtain ⟨rfl, rfl⟩ := he
    have hf := hw.freshVec w.nextVec (Nat.le_refl _)
    constructor
    · refine ⟨hb, ?_, ?_, ?_, ?_, ?_, ?_, ?_⟩
      · intro u y a hy ha
        by_cases hu : u = w.nextVec
        · simp [hu] at hy; subst hy; cases ha
        · simp [hu] at hy; exact h.mem u y a hy ha
      · intro u y hy
        by_cases hu : u = w.nextVec
        · simp [hu] at hy; subst hy; subst hu; simp [View.ok]
        · simp [hu] at hy
          simp only [View.ok, upd_ne _ _ hu]
          exact h.alive u y hy
      · intro u hu
        by_cases hu' : u = w.nextVec
        · simp [hu'] at hu
        · simp [hu'] at hu
          simp only [View.ok, upd_ne _ _ hu']
          exact h.gone u hu
      · intro a n hn
        obtain ⟨h1, h2⟩ := h.mine a n hn
        refine ⟨h1, ?_⟩
        intro u y hy
        by_cases hu : u = w.nextVec
        · simp [hu] at hy; subst hy; simp
        · simp [hu] at hy; exact h2 u y hy
      · intro u y a hy ha
        by_cases hu : u = w.nextVec
        · simp [hu] at hy; subst hy; cases ha
        · simp [hu] at hy; exact h.lentMine u y a hy ha
      · intro a b hb
        rcases h.cover a b hb with h1 | ⟨u, y, hy, ho⟩
        · exact Or.inl h1
        · have hu : u ≠ w.nextVec := by rintro rfl; rw [hf] at hy; cases hy
          exact Or.inr ⟨u, y, by simp [hu, hy], ho⟩
      · intro u t y z a hne hy hz hya hza
        by_cases hu : u = w.nextVec
        · simp [hu] at hy; subst hy; cases hya
        · simp [hu] at hy
          by_cases ht : t = w.nextVec
          · simp [ht] at hz; subst hz; cases hza
          · simp [ht] at hz
            exact h.distinct u t y z a hne hy hz hya hza
    · refine ⟨by simp, ?_, ?_⟩
      · intro u hu hn
        have : u ≠ w.nextVec := by omega
        simp [this, hn]
      · intro u y y' hy hy'
        have hu : u ≠ w.nextVec := by rintro rfl; rw [hf] at hy; cases hy
        simp [hu] at hy'
        rw [hy] at hy'; cases hy'
        exact ⟨rfl, Nat.le_refl _, fun _ _ a ha => ⟨ha, rfl⟩⟩
  | reference v =>
    obtain ⟨x, hx, rfl⟩ := he
    obtain ⟨h1, h2, h3⟩ := h.alive v x hx
    have hbr : g.broken v = false := hc.2
    refine ⟨h.count hx hb rfl ⟨rfl, rfl, rfl⟩ ?_ ?_ rfl, Keep.count h hx rfl (Nat.le_refl _) rfl⟩
    · simp only [View.ok, upd_same, hbr]
      refine ⟨by omega, fun _ => by rw [h2 hbr]; simp, by simp⟩
    · intro u hu
      simp [View.ok, upd_ne _ _ hu]
  | destroy v =>
    obtain ⟨x, hx, ⟨h0, rfl⟩ | ⟨h0, hf, rfl⟩⟩ := he
    · obtain ⟨h1, h2, h3⟩ := h.alive v x hx
      have hbr : g.broken v = false := by
        cases hbb : g.broken v with
        | false => rfl
        | true => have := (h3 hbb).1; omega
      have hr := h2 hbr
      refine ⟨h.count hx hb rfl ⟨rfl, rfl, rfl⟩ ?_ ?_ rfl, Keep.count h hx rfl (Nat.le_refl _) rfl⟩
      · simp only [View.ok, upd_same, hbr]
        refine ⟨by omega, fun _ => by omega, by simp⟩
      · intro u hu
        simp only [View.ok, upd_ne _ _ hu, true_and]
        rw [if_neg (by omega)]
    · obtain ⟨h1, h2, h3⟩ := h.alive v x hx
      have hone : g.handles v = 1 := by
        cases hbb : g.broken v with
        | false => have := h2 hbb; omega
        | true => exact (h3 hbb).2
      have hdrop : ∀ a, x.owned = some a → x.array = some a := fun a ha => (owned_array hw hx ha).1
      have hheap : ∀ u y a, u ≠ v → w.vecs u = some y → y.array = some a → x.owned ≠ some a := by
        intro u y a hu hy hya ho
        exact h.distinct v u x y a (Ne.symm hu) hx hy (hdrop a ho) hya
      constructor
      · refine ⟨hb, ?_, ?_, ?_, ?_, ?_, ?_, ?_⟩
        · intro u y a hy ha
          by_cases hu : u = v
          · simp [hu] at hy
          · simp [hu] at hy
            obtain ⟨b, hb, hl⟩ := h.mem u y a hy ha
            exact ⟨b, by simp [dropBlk_heap, hheap u y a hu hy ha, hb], hl⟩
        · intro u y hy
          by_cases hu : u = v
          · simp [hu] at hy
          · simp [hu] at hy
            simp only [View.ok, upd_ne _ _ hu]
            exact h.alive u y hy
        · intro u hu
          by_cases huv : u = v
          · subst huv; simp [View.ok, hone]
          · simp [huv] at hu
            simp only [View.ok, upd_ne _ _ huv, if_pos hone]
            exact h.gone u hu
        · intro a n hn
          obtain ⟨⟨b, hb, hl⟩, ho⟩ := h.mine a n hn
          refine ⟨⟨b, by simp [dropBlk_heap, ho v x hx, hb], hl⟩, ?_⟩
          intro u y hy
          by_cases hu : u = v
          · simp [hu] at hy
          · simp [hu] at hy; exact ho u y hy
        · intro u y a hy ha
          by_cases hu : u = v
          · simp [hu] at hy
          · simp [hu] at hy; exact h.lentMine u y a hy ha
        · intro a b hb
          rw [setVec_heap, dropBlk_heap] at hb
          by_cases hpp : x.owned = some a
          · simp [hpp] at hb
          · simp [hpp] at hb
            rcases h.cover a b hb with h1 | ⟨u, y, hy, ho⟩
            · exact Or.inl h1
            · have hu : u ≠ v := by rintro rfl; rw [hx] at hy; cases hy; exact hpp ho
              exact Or.inr ⟨u, y, by simp [hu, hy], ho⟩
        · intro u t y z a hne hy hz hya hza
          by_cases hu : u = v
          · simp [hu] at hy
          · simp [hu] at hy
            by_cases ht : t = v
            · simp [ht] at hz
            · simp [ht] at hz
              exact h.distinct u t y z a hne hy hz hya hza
      · refine ⟨Nat.le_refl _, ?_, ?_⟩
        · intro u _ hn
          simp [hn]
        · intro u y y' hy hy'
          by_cases hu : u = v
          · simp [hu] at hy'
          · simp [hu] at hy'
            rw [hy] at hy'; cases hy'
            exact ⟨rfl, Nat.le_refl _, fun _ _ a ha => ⟨ha, by simp [dropBlk_heap, hheap u y a hu hy ha]⟩⟩
  | setArray v m mode src =>
    obtain ⟨hv, hsrc⟩ := hc
    cases mode with
    | copyValues =>
      obtain ⟨x, hx, hf, ht⟩ := he
      exact ⟨h.trk ht hb ⟨rfl, rfl, rfl, rfl⟩, Keep.trk h ht⟩
    | usePointer =>
      obtain ⟨x, hx, hf, rfl⟩ := he
      have h1 := h.base.vec v x hx
      have h2 := h.alive v x hx
      by_cases hl : 0 < x.len
      · have hl' : 0 < g.len v := by rw [h1.len]; exact hl
        have hg : g.ok (.setArray v m .usePointer src) r = { g with lent := upd g.lent v src } := by
          simp [View.ok, hl']
        rw [hg] at hb ⊢
        rw [if_pos hl] at hb ⊢
        constructor
        · refine h.setVec hx (Or.inr rfl) hb rfl h2 (fun u hu => ⟨rfl, rfl, by simp [upd_ne _ _ hu]⟩)
            (fun a n hn => ⟨hn, by simp⟩) (fun a n hn => Or.inl hn) ?_ (fun a ha => Or.inl ha) ?_
          · intro a ha
            simp at ha
            obtain ⟨n, hn, _⟩ := hsrc a ha
            exact ⟨n, hn⟩
          · intro a ha
            obtain ⟨n, hn, hln, hto⟩ := hsrc a ha
            obtain ⟨⟨b, hb, hbl⟩, ho⟩ := h.mine a n hn
            refine ⟨⟨b, hb, by rw [h1.len] at hln; omega, ho v x hx⟩, fun u y hu hy => h.notUsed hn hy (hto u hu)⟩
        · exact Keep.setVec h hx (Or.inr rfl) rfl (by simp) (by simp)
      · have hl' : ¬ 0 < g.len v := by rw [h1.len]; exact hl
        have hg : g.ok (.setArray v m .usePointer src) r = g := by
          simp [View.ok, hl']
        rw [hg] at hb ⊢
        rw [if_neg hl] at hb ⊢
        exact ⟨h.count hx hb rfl ⟨rfl, rfl, rfl⟩ h2 (fun u _ => ⟨rfl, rfl, rfl⟩) rfl, Keep.count h hx rfl (by simp) rfl⟩
    | ownPointer =>
      obtain ⟨x, hx, hf, rfl⟩ := he
      have h1 := h.base.vec v x hx
      have h2 := h.alive v x hx
      by_cases hl : 0 < x.len
      · have hl' : 0 < g.len v := by rw [h1.len]; exact hl
        have hg : g.ok (.setArray v m .ownPointer src) r = { g with lent := upd g.lent v none, mine := fun a => if src = some a then none else g.mine a } := by
          simp [View.ok, hl']
        rw [hg] at hb ⊢
        rw [if_pos hl] at hb ⊢
        constructor
        · refine h.setVec hx (Or.inr rfl) hb rfl h2 (fun u hu => ⟨rfl, rfl, by simp [upd_ne _ _ hu]⟩)
            ?_ ?_ ?_ (fun a ha => Or.inl ha) ?_
          · intro a n hn
            simp only at hn
            by_cases hs : src = some a
            · simp [hs] at hn
            · rw [if_neg hs] at hn
              exact ⟨hn, by simpa using hs⟩
          · intro a n hn
            by_cases hs : src = some a
            · right
              obtain ⟨_, _, _, hto, _⟩ := hsrc a hs
              exact ⟨by simpa using hs, hto⟩
            · left
              simp only
              rw [if_neg hs]; exact hn
          · intro a ha
            simp at ha
          · intro a ha
            obtain ⟨n, hn, hln, hto, _⟩ := hsrc a ha
            obtain ⟨⟨b, hb, hbl⟩, ho⟩ := h.mine a n hn
            refine ⟨⟨b, hb, by rw [h1.len] at hln; omega, ho v x hx⟩, fun u y hu hy => h.notUsed hn hy (hto u hu)⟩
        · exact Keep.setVec h hx (Or.inr rfl) rfl (by simp) (by simp)
      · have hl' : ¬ 0 < g.len v := by rw [h1.len]; exact hl
        have hg : g.ok (.setArray v m .ownPointer src) r = g := by
          simp [View.ok, hl']
        rw [hg] at hb ⊢
        rw [if_neg hl] at hb ⊢
        exact ⟨h.count hx hb rfl ⟨rfl, rfl, rfl⟩ h2 (fun u _ => ⟨rfl, rfl, rfl⟩) rfl, Keep.count h hx rfl (by simp) rfl⟩
  | takeArray v m =>
    obtain ⟨x, hx, hf, ⟨hl, rfl, rfl, hbo⟩ | ⟨hl, rfl, rfl⟩⟩ := he
    · have h1 := h.base.vec v x hx
      have h2 := h.alive v x hx
      have hl' : 0 < g.len v := by rw [h1.len]; exact hl
      have hg : g.ok (.takeArray v m : Call α) (.ptr x.borrowed) = { g with lent := upd g.lent v none } := by
        simp [View.ok, hl']
      rw [hg] at hb ⊢
      constructor
      · have := h.setVec (p := none) (x' := { x with borrowed := none, array := none })
          (g' := { g with lent := upd g.lent v none }) hx (Or.inl rfl) (by simpa using hb) rfl h2 (fun u hu => ⟨rfl, rfl, by simp [upd_ne _ _ hu]⟩)
            (fun a n hn => ⟨hn, (h.mine a n hn).2 v x hx⟩) (fun a n hn => Or.inl hn) (by simp)
            (fun a ha => Or.inr ha) (by simp)
        simpa using this
      · have := Keep.setVec (p := none) (x' := { x with borrowed := none, array := none }) h hx (Or.inl rfl) rfl
          (Nat.le_refl _) (by simp)
        simpa using this
    · have h1 := h.base.vec v x hx
      have hl' : ¬ 0 < g.len v := by rw [h1.len]; omega
      have hg : g.ok (.takeArray v m : Call α) (.ptr none) = g := by simp [View.ok, hl']
      rw [hg]
      exact ⟨h, Keep.refl _⟩
  | getArray v m =>
    obtain ⟨ht, x', hx', rfl, _⟩ := he
    exact ⟨h.trk ht hb ⟨rfl, rfl, rfl, rfl⟩, Keep.trk h ht⟩
  | getArrayWrite v m =>
    obtain ⟨ht, x', hx', rfl, _⟩ := he
    exact ⟨h.trk ht hb ⟨rfl, rfl, rfl, rfl⟩, Keep.trk h ht⟩
  | getArrayRead v m =>
    obtain ⟨ht, x', hx', rfl, _⟩ := he
    exact ⟨h.trk ht hb ⟨rfl, rfl, rfl, rfl⟩, Keep.trk h ht⟩
  | restoreArray v =>
    obtain ⟨x, hx, ho, rfl⟩ := he
    exact ⟨h.count hx hb rfl ⟨rfl, rfl, rfl⟩ (h.alive v x hx) (fun u _ => ⟨rfl, rfl, rfl⟩) rfl,
      Keep.count h hx rfl (by simp) rfl⟩
  | restoreArrayRead v =>
    obtain ⟨x, hx, ho, rfl⟩ := he
    exact ⟨h.count hx hb rfl ⟨rfl, rfl, rfl⟩ (h.alive v x hx) (fun u _ => ⟨rfl, rfl, rfl⟩) rfl,
      Keep.count h hx rfl (by simp) rfl⟩
  | malloc b =>
    obtain ⟨rfl, rfl⟩ := he
    have hn := hw.fresh w.next (Nat.le_refl _)
    have hne : ∀ a c, w.heap a = some c → a ≠ w.next := by
      intro a c hc; have := lt_next hw hc; omega
    constructor
    · refine ⟨hb, ?_, h.alive, h.gone, ?_, ?_, ?_, h.distinct⟩
      · intro u y a hy ha
        obtain ⟨c, hc, hl⟩ := h.mem u y a hy ha
        exact ⟨c, by simp [hne a c hc, hc], hl⟩
      · intro a n hm
        by_cases han : a = w.next
        · subst han
          simp [View.ok] at hm
          refine ⟨⟨b, by simp, hm⟩, ?_⟩
          intro u y hy ho
          obtain ⟨c, hc⟩ := owned_alloc hw h.mem hy ho
          rw [hn] at hc; cases hc
        · simp only [View.ok, upd_ne _ _ han] at hm
          obtain ⟨⟨c, hc, hl⟩, ho⟩ := h.mine a n hm
          exact ⟨⟨c, by simp [han, hc], hl⟩, ho⟩
      · intro u y a hy ha
        obtain ⟨n, hm⟩ := h.lentMine u y a hy ha
        obtain ⟨⟨c, hc, _⟩, _⟩ := h.mine a n hm
        exact ⟨n, by simp only [View.ok, upd_ne _ _ (hne a c hc)]; exact hm⟩
      · intro a c hc
        by_cases han : a = w.next
        · left; subst han; exact ⟨b.len, by simp [View.ok]⟩
        · simp [han] at hc
          rcases h.cover a c hc with ⟨n, hm⟩ | h1
          · exact Or.inl ⟨n, by simp only [View.ok, upd_ne _ _ han]; exact hm⟩
          · exact Or.inr h1
    · refine ⟨Nat.le_refl _, fun _ _ h => h, ?_⟩
      intro v x x' hx hx'
      have : w.vecs v = some x' := hx'
      rw [hx] at this; cases this
      refine ⟨rfl, Nat.le_refl _, fun _ _ a ha => ⟨ha, ?_⟩⟩
      obtain ⟨c, hc, _⟩ := h.mem v x a hx ha
      simp [hne a c hc]
  | mfree a =>
    obtain ⟨b, hbb, rfl⟩ := he
    obtain ⟨⟨n, hn⟩, hnl⟩ := hc
    have hnu : ∀ u y c, w.vecs u = some y → y.array = some c → c ≠ a := by
      rintro u y c hy hc rfl
      exact h.notUsed hn hy (hnl u) hc
    constructor
    · refine ⟨hb, ?_, h.alive, h.gone, ?_, ?_, ?_, h.distinct⟩
      · intro u y c hy hc
        obtain ⟨e, he, hl⟩ := h.mem u y c hy hc
        exact ⟨e, by simp [dropBlk_heap, Ne.symm (hnu u y c hy hc), he], hl⟩
      · intro c m hm
        by_cases hca : c = a
        · subst hca; simp [View.ok] at hm
        · simp only [View.ok, upd_ne _ _ hca] at hm
          obtain ⟨⟨e, he, hl⟩, ho⟩ := h.mine c m hm
          exact ⟨⟨e, by simp [dropBlk_heap, Ne.symm hca, he], hl⟩, ho⟩
      · intro u y c hy hc
        obtain ⟨m, hm⟩ := h.lentMine u y c hy hc
        have hca : c ≠ a := by
          rintro rfl
          exact hnl u (by rw [(h.base.vec u y hy).lent, hc])
        exact ⟨m, by simp only [View.ok, upd_ne _ _ hca]; exact hm⟩
      · intro c e he
        rw [dropBlk_heap] at he
        by_cases hca : c = a
        · simp [hca] at he
        · simp [Ne.symm hca] at he
          rcases h.cover c e he with ⟨m, hm⟩ | h1
          · exact Or.inl ⟨m, by simp only [View.ok, upd_ne _ _ hca]; exact hm⟩
          · exact Or.inr h1
    · refine ⟨Nat.le_refl _, fun _ _ h => h, ?_⟩
      intro v x x' hx hx'
      have : w.vecs v = some x' := hx'
      rw [hx] at this; cases this
      refine ⟨rfl, Nat.le_refl _, fun _ _ c hc => ⟨hc, ?_⟩⟩
      simp [dropBlk_heap, Ne.symm (hnu v x c hx hc)]
  | load a i =>
    have he : w' = w := he
    subst he
    exact ⟨h, Keep.refl _⟩
  | store a i z =>
    obtain ⟨b, b', hbb, hl, rfl⟩ := he
    have hg : g.ok (.store a i z) r = g := rfl
    rw [hg] at hb ⊢
    constructor
    · refine ⟨hb, ?_, h.alive, h.gone, ?_, h.lentMine, ?_, h.distinct⟩
      · intro u y c hy hc
        obtain ⟨e, he, hel⟩ := h.mem u y c hy hc
        by_cases hca : c = a
        · subst hca
          rw [hbb] at he; cases he
          exact ⟨b', by simp, by omega⟩
        · exact ⟨e, by simp [hca, he], hel⟩
      · intro c m hm
        obtain ⟨⟨e, he, hel⟩, ho⟩ := h.mine c m hm
        refine ⟨?_, ho⟩
        by_cases hca : c = a
        · subst hca
          rw [hbb] at he; cases he
          exact ⟨b', by simp, by omega⟩
        · exact ⟨e, by simp [hca, he], hel⟩
      · intro c e he
        by_cases hca : c = a
        · subst hca; exact h.cover c b hbb
        · simp [hca] at he; exact h.cover c e he
    · refine ⟨Nat.le_refl _, fun _ _ h => h, ?_⟩
      intro v x x' hx hx'
      have : w.vecs v = some x' := hx'
      rw [hx] at this; cases this
      refine ⟨rfl, Nat.le_refl _, fun _ hev c hc2 => ⟨hc2, ?_⟩⟩
      have hca : c ≠ a := by
        rintro rfl
        obtain ⟨_, ⟨n, hn, _, hnl⟩ | ⟨u, hu, _⟩⟩ := hc
        · exact h.notUsed hn hx (hnl v) hc2
        · obtain ⟨y, _, hy, hya, _⟩ := h.access (List.mem_append_left _ hu)
          by_cases huv : u = v
          · subst huv
            have hle := (h.base.vec u x hx).writes
            have : 0 < (g.writes u).length := List.length_pos_of_mem hu
            omega
          · exact h.distinct u v y x c huv hy hx hya hc2
      simp [hca]
  | syncArray v m => exact ⟨h.trk he hb ⟨rfl, rfl, rfl, rfl⟩, Keep.trk h he⟩
  | setValue v z => exact ⟨h.trk he hb ⟨rfl, rfl, rfl, rfl⟩, Keep.trk h he⟩
  | setValueStrided v s t u z => exact ⟨h.trk he hb ⟨rfl, rfl, rfl, rfl⟩, Keep.trk h he⟩
  | copy v c => exact ⟨h.trk he hb ⟨rfl, rfl, rfl, rfl⟩, Keep.trk h he⟩
  | copyStrided v s t u c => exact ⟨h.trk he hb ⟨rfl, rfl, rfl, rfl⟩, Keep.trk h he⟩
  | norm v t => exact ⟨h.trk he hb ⟨rfl, rfl, rfl, rfl⟩, Keep.trk h he⟩
  | scale v z => exact ⟨h.trk he hb ⟨rfl, rfl, rfl, rfl⟩, Keep.trk h he⟩
  | axpy y z x => exact ⟨h.trk he hb ⟨rfl, rfl, rfl, rfl⟩, Keep.trk h he⟩
  | axpby y z z' x => exact ⟨h.trk he hb ⟨rfl, rfl, rfl, rfl⟩, Keep.trk h he⟩
  | pointwiseMult v x y => exact ⟨h.trk he hb ⟨rfl, rfl, rfl, rfl⟩, Keep.trk h he⟩
  | reciprocal v => exact ⟨h.trk he hb ⟨rfl, rfl, rfl, rfl⟩, Keep.trk h he⟩

theorem inv_err (h : Inv g w) {c : Call α} (he : ErrEff w c w') : Inv (g.err c) w' ∧ Keep w w' := by
  have hb := inv1_err h.base he
  by_cases hc : ∃ v, c = .destroy v
  · obtain ⟨v, rfl⟩ := hc
    obtain ⟨x, hx, h0, hf, rfl⟩ := he
    obtain ⟨h1, h2, h3⟩ := h.alive v x hx
    refine ⟨h.count hx hb rfl ⟨rfl, rfl, rfl⟩ ?_ (fun u hu => ⟨rfl, by simp [View.err, upd_ne _ _ hu], rfl⟩) rfl,
      Keep.count h hx rfl (Nat.le_refl _) rfl⟩
    refine ⟨h1, by simp [View.err], fun _ => ⟨h0, ?_⟩⟩
    show g.handles v = 1
    cases hbb : g.broken v with
    | false => have := h2 hbb; omega
    | true => exact (h3 hbb).2
  · have hg : g.err c = g := by
      cases c <;> first | rfl | exact absurd ⟨_, rfl⟩ hc
    have ht : ∃ d l, Trk w d l w' := by
      cases c <;> first | exact he.1 | exact absurd ⟨_, rfl⟩ hc
    obtain ⟨d, l, ht⟩ := ht
    rw [hg] at hb ⊢
    exact ⟨h.trk ht hb ⟨rfl, rfl, rfl, rfl⟩, Keep.trk h ht⟩

variable {F : Prop} {sqrt : α → α} {eps : α}

theorem inv_step {s t : World α × View} (h : Inv s.2 s.1) (hs : Step Legal F sqrt eps s t) :
    Inv t.2 t.1 ∧ Keep s.1 t.1 := by
  cases hs with
  | ok hl e => exact inv_ok h hl (eff_ok h.base.wf e)
  | err hl _ e => exact inv_err h (eff_err h.base.wf e)

theorem Keep.trans {w1 w2 w3 : World α} (hw : WF w1) (h1 : Keep w1 w2) (h2 : Keep w2 w3) : Keep w1 w3 := by
  refine ⟨Nat.le_trans h1.nextVec h2.nextVec,
    fun v hv hn => h2.dead v (Nat.lt_of_lt_of_le hv h1.nextVec) (h1.dead v hv hn), ?_⟩
  intro v x z hx hz
  have hlt : v < w1.nextVec := by
    by_contra hc
    rw [hw.freshVec v (by omega)] at hx; cases hx
  cases hy : w2.vecs v with
  | none =>
    rw [h2.dead v (Nat.lt_of_lt_of_le hlt h1.nextVec) hy] at hz
    cases hz
  | some y =>
    obtain ⟨a1, a2, a3⟩ := h1.vec v x y hx hy
    obtain ⟨b1, b2, b3⟩ := h2.vec v y z hy hz
    refine ⟨by omega, by omega, ?_⟩
    intro he hev a ha
    obtain ⟨c1, c2⟩ := b3 (by omega) (by omega) a ha
    obtain ⟨c3, c4⟩ := a3 (by omega) hev a c1
    exact ⟨c3, by rw [c2, c4]⟩

theorem inv_steps {s t : World α × View} (h : Inv s.2 s.1) (hs : Steps Legal F sqrt eps s t) :
    Inv t.2 t.1 ∧ Keep s.1 t.1 := by
  induction hs with
  | refl => exact ⟨h, Keep.refl _⟩
  | tail _ hs ih =>
    obtain ⟨h1, h2⟩ := inv_step ih.1 hs
    exact ⟨h1, Keep.trans h.base.wf ih.2 h2⟩

theorem inv_reach (h : Reach Legal F sqrt eps w g) : Inv g w :=
  (inv_steps (s := (World.init, View.init)) inv_init h).1

theorem legal_defined (h : Inv g w) {c : Call α} (hc : Legal g c) : exec sqrt eps c w ≠ .ub := by
  intro e
  exact M.wp_ub (exec_wp (S := True) h.base.wf c (fun _ => ⟨h.mem, legal_safe h hc⟩)) e trivial

end Vector
end Verif
