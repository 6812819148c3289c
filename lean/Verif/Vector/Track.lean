import Verif.Vector.Exec

/-!
# Tracking accesses through a call

`Trk w0 d l w`: the state `w` is reached inside a call started in `w0`; at this point the call itself holds `d u` read
accesses and `l u` write accesses of the vector `u`. All calls that do arithmetic on vectors keep this relation.
-/

namespace Verif
namespace Vector

set_option linter.unusedSectionVars false

variable {α : Type _} [Zero α]

/-- Structural facts that hold in every reachable state. -/
structure WF (w : World α) : Prop where
  slots : ∀ v x, w.vecs v = some x → x.slots
  fresh : ∀ a, w.next ≤ a → w.heap a = none
  excl : ∀ v x, w.vecs v = some x → x.state % 2 = 1 → x.readers = 0
  freshVec : ∀ v, w.nextVec ≤ v → w.vecs v = none

/-- Arrays in use by vectors are allocated and long enough. -/
def MemOK (w : World α) : Prop :=
  ∀ v x a, w.vecs v = some x → x.array = some a → ∃ b, w.heap a = some b ∧ x.len ≤ b.len

/-- Slots of `x` compared with those of `x0`: the same, or an array was allocated for an unlocked vector without one. -/
def SlotStep (w0 w : World α) (x0 x : Vec) : Prop :=
  (x.array = x0.array ∧ x.owned = x0.owned) ∨
  (0 < x0.len ∧ x0.array = none ∧ x0.free ∧ x0.state + 2 ≤ x.state ∧
    ∃ a b, x.array = some a ∧ x.owned = some a ∧ w0.next ≤ a ∧ a < w.next ∧ w.heap a = some b ∧ x.len ≤ b.len)

structure VStep (w0 w : World α) (d l : Nat) (x0 x : Vec) : Prop where
  parent : x.parent = x0.parent
  refs : x.refs = x0.refs
  len : x.len = x0.len
  borrowed : x.borrowed = x0.borrowed
  readers : x.readers = x0.readers + d
  mono : x0.state ≤ x.state
  even : l = 0 → x.state % 2 = x0.state % 2
  odd : l ≠ 0 → l = 1 ∧ x.state % 2 = 1 ∧ x0.free ∧ x0.state < x.state
  changed : x.state ≠ x0.state → x0.free
  reading : d ≠ 0 → x0.state % 2 = 0
  rlock : d ≠ 0 → l = 0
  slot : SlotStep w0 w x0 x

structure Trk (w0 : World α) (d l : Vid → Nat) (w : World α) : Prop where
  nextVec : w.nextVec = w0.nextVec
  next : w0.next ≤ w.next
  fresh : ∀ a, w.next ≤ a → w.heap a = none
  dead : ∀ u, w0.vecs u = none ↔ w.vecs u = none
  vec : ∀ u x0 x, w0.vecs u = some x0 → w.vecs u = some x → VStep w0 w (d u) (l u) x0 x
  heap : ∀ a b, w0.heap a = some b → ∃ b', w.heap a = some b' ∧ b'.len = b.len ∧
    (b' = b ∨ ∃ u x0 x, w0.vecs u = some x0 ∧ w.vecs u = some x ∧ x0.array = some a ∧ x0.free ∧ x0.state < x.state)
  new : ∀ a b, w0.heap a = none → w.heap a = some b → w0.next ≤ a ∧
    ∃ u x0 x, w0.vecs u = some x0 ∧ w.vecs u = some x ∧ x0.array = none ∧ x.array = some a ∧ x.owned = some a
  inj : ∀ u1 u2 x1 x2 a, u1 ≠ u2 → w.vecs u1 = some x1 → w.vecs u2 = some x2 → x1.array = some a → x2.array = some a →
    ∃ u y0, (u = u1 ∨ u = u2) ∧ w0.vecs u = some y0 ∧ y0.array = some a

/-- One more access to `v`. -/
def inc (d : Vid → Nat) (v : Vid) : Vid → Nat := fun u => if u = v then d u + 1 else d u
/-- One access to `v` less. -/
def dec (d : Vid → Nat) (v : Vid) : Vid → Nat := fun u => if u = v then d u - 1 else d u

theorem VStep.refl (w : World α) (x : Vec) : VStep w w 0 0 x x := by
  constructor <;> simp [SlotStep]

theorem Trk.refl {w : World α} (hw : WF w) : Trk w (fun _ => 0) (fun _ => 0) w := by
  refine ⟨rfl, Nat.le_refl _, hw.fresh, fun u => Iff.rfl, ?_, ?_, ?_,
    fun u1 u2 x1 x2 a _ h1 _ h3 _ => ⟨u1, x1, Or.inl rfl, h1, h3⟩⟩
  · intro u x0 x h1 h2
    rw [h1] at h2; cases h2
    exact VStep.refl w x0
  · intro a b h
    exact ⟨b, h, rfl, Or.inl rfl⟩
  · intro a b h1 h2
    rw [h1] at h2; cases h2

variable {w0 w : World α} {d l : Vid → Nat} {v : Vid} {x : Vec}

theorem Trk.get0 (ht : Trk w0 d l w) (h : w.vecs v = some x) :
    ∃ x0, w0.vecs v = some x0 ∧ VStep w0 w (d v) (l v) x0 x := by
  cases h0 : w0.vecs v with
  | none => rw [(ht.dead v).1 h0] at h; cases h
  | some x0 => exact ⟨x0, rfl, ht.vec v x0 x h0 h⟩

theorem Trk.get {x0 : Vec} (ht : Trk w0 d l w) (h : w0.vecs v = some x0) :
    ∃ x, w.vecs v = some x ∧ VStep w0 w (d v) (l v) x0 x := by
  cases h1 : w.vecs v with
  | none => rw [(ht.dead v).2 h1] at h; cases h
  | some x => exact ⟨x, rfl, ht.vec v x0 x h h1⟩

/-- The array of a vector stays allocated during a call. -/
theorem Trk.mem (ht : Trk w0 d l w) (hm : MemOK w0) (h : w.vecs v = some x) {a : Addr} (ha : x.array = some a) :
    ∃ b, w.heap a = some b ∧ x.len ≤ b.len := by
  obtain ⟨x0, h0, hs⟩ := ht.get0 h
  rcases hs.slot with ⟨e1, e2⟩ | ⟨_, _, _, _, a', b, e1, _, _, _, hb, hl⟩
  · rw [e1] at ha
    obtain ⟨b, hb, hl⟩ := hm v x0 a h0 ha
    obtain ⟨b', hb', hl', _⟩ := ht.heap a b hb
    exact ⟨b', hb', by rw [hl', hs.len]; exact hl⟩
  · rw [ha] at e1; cases e1
    exact ⟨b, hb, hl⟩

theorem Trk.slots (ht : Trk w0 d l w) (hw : WF w0) (h : w.vecs v = some x) : x.slots := by
  obtain ⟨x0, h0, hs⟩ := ht.get0 h
  have h1 := hw.slots v x0 h0
  unfold Vec.slots at *
  rw [hs.borrowed]
  rcases hs.slot with ⟨e1, e2⟩ | ⟨_, e0, _, _, a', b, e1, e2, _⟩
  · rw [e1, e2]; exact h1
  · cases hb : x0.borrowed with
    | some c => simp [hb, e0] at h1
    | none => simp [e1, e2]

/-- Change of lock counters of one vector. -/
theorem Trk.setVec {d' l' : Vid → Nat} {x' : Vec} (ht : Trk w0 d l w) (h : w.vecs v = some x)
    (hd : ∀ u, u ≠ v → d' u = d u) (hl : ∀ u, u ≠ v → l' u = l u) (hmono : x.state ≤ x'.state)
    (harr : x'.array = x.array) (how : x'.owned = x.owned)
    (hv : ∀ x0, w0.vecs v = some x0 → VStep w0 w (d v) (l v) x0 x → VStep w0 w (d' v) (l' v) x0 x') :
    Trk w0 d' l' (w.setVec v (some x')) := by
  have hslot : ∀ y0 y, SlotStep w0 w y0 y → SlotStep w0 (w.setVec v (some x')) y0 y := fun _ _ h => h
  have hsame : ∀ u y a, (w.setVec v (some x')).vecs u = some y → y.array = some a →
      ∃ y', w.vecs u = some y' ∧ y'.array = some a := by
    intro u y a hu hy
    by_cases huv : u = v
    · subst huv
      simp at hu; subst hu
      exact ⟨x, h, by rw [← harr]; exact hy⟩
    · simp [huv] at hu
      exact ⟨y, hu, hy⟩
  refine ⟨ht.nextVec, ht.next, ht.fresh, ?_, ?_, ?_, ?_, ?_⟩
  · intro u
    by_cases hu : u = v
    · subst hu
      simp [ht.dead u, h]
    · simp [hu, ht.dead u]
  · intro u y0 y h0 hy
    by_cases hu : u = v
    · subst hu
      simp at hy; subst hy
      have := hv y0 h0 (ht.vec u y0 x h0 h)
      exact { this with }
    · simp [hu] at hy
      rw [hd u hu, hl u hu]
      exact { ht.vec u y0 y h0 hy with }
  · intro a b hb
    obtain ⟨b', h1, h2, h3⟩ := ht.heap a b hb
    refine ⟨b', h1, h2, h3.imp id ?_⟩
    rintro ⟨u, y0, y, e0, e1, e2, e3, e4⟩
    by_cases hu : u = v
    · subst hu
      rw [h] at e1; cases e1
      exact ⟨u, y0, x', e0, by simp, e2, e3, by omega⟩
    · exact ⟨u, y0, y, e0, by simp [hu, e1], e2, e3, e4⟩
  · intro a b h1 h2
    obtain ⟨h3, u, y0, y, e0, e1, e2, e3, e4⟩ := ht.new a b h1 h2
    refine ⟨h3, ?_⟩
    by_cases hu : u = v
    · subst hu
      rw [h] at e1; cases e1
      exact ⟨u, y0, x', e0, by simp, e2, by rw [harr]; exact e3, by rw [how]; exact e4⟩
    · exact ⟨u, y0, y, e0, by simp [hu, e1], e2, e3, e4⟩
  · intro u1 u2 x1 x2 a hne h1 h2 h3 h4
    obtain ⟨y1, g1, g2⟩ := hsame u1 x1 a h1 h3
    obtain ⟨y2, g3, g4⟩ := hsame u2 x2 a h2 h4
    exact ht.inj u1 u2 y1 y2 a hne g1 g3 g2 g4

theorem Trk.lock (ht : Trk w0 d l w) (h : w.vecs v = some x) (hf : x.free) :
    Trk w0 d (inc l v) (w.setVec v (some { x with state := x.state + 1 })) := by
  refine ht.setVec h (by simp) (fun u hu => by simp [inc, hu]) (by simp) rfl rfl ?_
  intro x0 h0 hs
  obtain ⟨f1, f2⟩ := hf
  have hr := hs.readers
  have hl0 : l v = 0 := by
    by_contra hl
    have := (hs.odd hl).2.1
    omega
  have he := hs.even hl0
  have f0 : x0.free := ⟨by omega, by omega⟩
  have hm := hs.mono
  have hslot := hs.slot
  refine ⟨hs.parent, hs.refs, hs.len, hs.borrowed, hs.readers, by show x0.state ≤ x.state + 1; omega, ?_, ?_, fun _ => f0,
    hs.reading, ?_, ?_⟩
  · simp [inc]
  · intro _
    refine ⟨by simp [inc, hl0], ?_, f0, ?_⟩
    · show (x.state + 1) % 2 = 1; omega
    · show x0.state < x.state + 1; omega
  · intro hd; omega
  · exact hslot.imp id (fun ⟨a1, a2, a3, a4, a5⟩ => ⟨a1, a2, a3, by show x0.state + 2 ≤ x.state + 1; omega, a5⟩)

theorem Trk.unlock (ht : Trk w0 d l w) (h : w.vecs v = some x) (hl : l v = 1) :
    x.state % 2 = 1 ∧ Trk w0 d (dec l v) (w.setVec v (some { x with state := x.state + 1 })) := by
  obtain ⟨x0, h0, hs⟩ := ht.get0 h
  have ho := hs.odd (by omega)
  refine ⟨ho.2.1, ht.setVec h (by simp) (fun u hu => by simp [dec, hu]) (by simp) rfl rfl ?_⟩
  intro x0' h0' hs'
  rw [h0] at h0'; cases h0'
  have hm := hs.mono
  have f0 := ho.2.2.1
  refine ⟨hs.parent, hs.refs, hs.len, hs.borrowed, hs.readers, by show x0.state ≤ x.state + 1; omega, ?_, ?_, fun _ => f0,
    hs.reading, ?_, ?_⟩
  · intro _
    have := f0.1
    show (x.state + 1) % 2 = x0.state % 2
    omega
  · simp [dec, hl]
  · intro hd
    simp [dec, hl]
  · exact hs.slot.imp id (fun ⟨a1, a2, a3, a4, a5⟩ => ⟨a1, a2, a3, by show x0.state + 2 ≤ x.state + 1; omega, a5⟩)

theorem Trk.rlock (ht : Trk w0 d l w) (h : w.vecs v = some x) (hf : x.state % 2 = 0) :
    Trk w0 (inc d v) l (w.setVec v (some { x with readers := x.readers + 1 })) := by
  refine ht.setVec h (fun u hu => by simp [inc, hu]) (by simp) (by simp) rfl rfl ?_
  intro x0 h0 hs
  have hl0 : l v = 0 := by
    by_contra hl
    have := (hs.odd hl).2.1
    omega
  have he := hs.even hl0
  refine ⟨hs.parent, hs.refs, hs.len, hs.borrowed, ?_, hs.mono, hs.even, hs.odd, hs.changed,
    fun _ => by omega, fun _ => hl0, hs.slot⟩
  have := hs.readers
  simp [inc]; omega

theorem Trk.runlock (ht : Trk w0 d l w) (h : w.vecs v = some x) (hd : d v ≠ 0) :
    0 < x.readers ∧ Trk w0 (dec d v) l (w.setVec v (some { x with readers := x.readers - 1 })) := by
  obtain ⟨x0, h0, hs⟩ := ht.get0 h
  have hr := hs.readers
  refine ⟨by omega, ht.setVec h (fun u hu => by simp [dec, hu]) (by simp) (by simp) rfl rfl ?_⟩
  intro x0' h0' hs'
  rw [h0] at h0'; cases h0'
  refine ⟨hs.parent, hs.refs, hs.len, hs.borrowed, ?_, hs.mono, hs.even, hs.odd, hs.changed,
    fun _ => hs.reading hd, fun _ => hs.rlock hd, hs.slot⟩
  show x.readers - 1 = x0.readers + dec d v v
  simp [dec]; omega

/-- Writing to the array of a vector that the call has locked, or whose array it has allocated. -/
theorem Trk.write (ht : Trk w0 d l w) (hw : WF w0) (h : w.vecs v = some x) {a : Addr} (ha : x.array = some a) {b b' : Buf α}
    (hb : w.heap a = some b) (hl : b'.len = b.len)
    (hs : ∀ x0, w0.vecs v = some x0 → x0.free ∧ x0.state < x.state) :
    Trk w0 d l (w.setBlk a (some b')) := by
  have hslot : ∀ y0 y, SlotStep w0 w y0 y → SlotStep w0 (w.setBlk a (some b')) y0 y := by
    intro y0 y hy
    refine hy.imp id ?_
    rintro ⟨h1, h2, h3, h4, c, e, h5, h6, h7, h8, h9, h10⟩
    by_cases hc : c = a
    · subst hc
      rw [hb] at h9; cases h9
      exact ⟨h1, h2, h3, h4, c, b', h5, h6, h7, h8, by simp, by rw [hl]; exact h10⟩
    · exact ⟨h1, h2, h3, h4, c, e, h5, h6, h7, h8, by simp [hc, h9], h10⟩
  refine ⟨ht.nextVec, ht.next, ?_, ht.dead, ?_, ?_, ?_, ht.inj⟩
  · intro c hc
    have := ht.fresh c hc
    have hca : c ≠ a := by rintro rfl; rw [hb] at this; cases this
    simp [hca, this]
  · intro u y0 y h0 hy
    have := ht.vec u y0 y h0 hy
    exact { this with slot := hslot _ _ this.slot }
  · intro c e he
    obtain ⟨e', h1, h2, h3⟩ := ht.heap c e he
    by_cases hc : c = a
    · subst hc
      rw [hb] at h1; cases h1
      refine ⟨b', by simp, by omega, ?_⟩
      obtain ⟨x0, h0, hv⟩ := ht.get0 h
      obtain ⟨f0, f1⟩ := hs x0 h0
      rcases hv.slot with ⟨e1, _⟩ | ⟨_, _, _, _, a', _, e1, _, e3, _⟩
      · exact Or.inr ⟨v, x0, x, h0, h, by rw [← e1, ha], f0, f1⟩
      · rw [ha] at e1; cases e1
        rw [hw.fresh c e3] at he; cases he
    · exact ⟨e', by simp [hc, h1], h2, h3⟩
  · intro c e h1 h2
    by_cases hc : c = a
    · subst hc
      exact ht.new c b h1 hb
    · simp [hc] at h2
      exact ht.new c e h1 h2

end Vector
end Verif
