import Verif.DevVec.Steps

/-!
# Vectors with arrays on the host and on the device: what a sequence of steps leaves alone
-/

set_option linter.unusedSectionVars false

namespace Verif
namespace DevVec

open Vector (Mem Mode NormType)
open M (wp)

variable {α : Type} [CommRing α] [DecidableEq α] {E : Env α}

/-- The first entries of an array. -/
def Contains (w : W α) (a n : Nat) (f : Nat → α) : Prop := ∃ b, w.heap a = some b ∧ ∀ i < n, b.buf.val i = f i

/-- An array granted for writing stays the array of the vector, and the vector stays locked. -/
def Writes (w w' : W α) (v : Nat) : Prop := ∀ x m a, w.vecs v = some x → x.state % 2 = 1 → (x.side m).arr = some a →
  ∃ x', w'.vecs v = some x' ∧ x'.state = x.state ∧ (x'.side m).arr = some a

/-- Arrays of a vector that readers have keep their contents. -/
def Reads (w w' : W α) (v : Nat) : Prop := ∀ x m a f, w.vecs v = some x → 0 < x.readers → (x.side m).slot = some a → Contains w a x.len f →
  HasVals w v f → ∃ x', w'.vecs v = some x' ∧ x.readers ≤ x'.readers ∧ x'.len = x.len ∧ (x'.side m).slot = some a ∧ Contains w' a x.len f ∧ HasVals w' v f

theorem Writes.trans {w w' w'' : W α} {v : Nat} (h : Writes w w' v) (h' : Writes w' w'' v) : Writes w w'' v := fun x m a hx ho ha => by
  obtain ⟨x', h1, h2, h3⟩ := h x m a hx ho ha
  obtain ⟨x'', h4, h5, h6⟩ := h' x' m a h1 (h2 ▸ ho) h3
  exact ⟨x'', h4, h5.trans h2, h6⟩

theorem Reads.trans {w w' w'' : W α} {v : Nat} (h : Reads w w' v) (h' : Reads w' w'' v) : Reads w w'' v := fun x m a f hx hr ha hc hf => by
  obtain ⟨x', h1, h2, h3, h4, h5, h6⟩ := h x m a f hx hr ha hc hf
  obtain ⟨x'', g1, g2, g3, g4, g5, g6⟩ := h' x' m a f h1 (by omega) h4 (h3 ▸ h5) h6
  exact ⟨x'', g1, h2.trans g2, g3.trans h3, g4, h3 ▸ g5, g6⟩

/-- The vector keeps its length and the arrays lent to it. -/
def Kept (w w' : W α) (v : Nat) : Prop := ∀ x, w.vecs v = some x → ∃ x', w'.vecs v = some x' ∧ x'.len = x.len ∧ ∀ m, (x'.side m).bor = (x.side m).bor

theorem Kept.trans {w w' w'' : W α} {v : Nat} (h : Kept w w' v) (h' : Kept w' w'' v) : Kept w w'' v := fun x hx => by
  obtain ⟨x', h1, h2, h3⟩ := h x hx
  obtain ⟨x'', g1, g2, g3⟩ := h' x' h1
  exact ⟨x'', g1, g2.trans h2, fun m => (g3 m).trans (h3 m)⟩

theorem Kept.refl (w : W α) (v : Nat) : Kept w w v := fun x hx => ⟨x, hx, rfl, fun _ => rfl⟩

theorem Kept.mk {w w' : W α} {v : Nat} {x x' : DVec} (hx : w.vecs v = some x) (hx' : w'.vecs v = some x') (hl : x'.len = x.len)
    (hb : ∀ m, (x'.side m).bor = (x.side m).bor) : Kept w w' v := fun y hy => by
  rw [hx] at hy
  cases hy
  exact ⟨x', hx', hl, hb⟩

/-- What a sequence of steps leaves alone: vectors not in `A` and their arrays; values of vectors not in `T`; granted access for writing of
vectors not in `X`; arrays of readers of vectors not in `Y`. -/
structure Rel (w w' : W α) (A T X Y : Nat → Prop) : Prop where
  vecs : ∀ u, ¬ A u → w'.vecs u = w.vecs u
  next : w.next ≤ w'.next
  heap : ∀ a, a < w.next → (∀ u, A u → ¬ HeldBy w u a) → w'.heap a = w.heap a
  held : ∀ u a, A u → HeldBy w' u a → HeldBy w u a ∨ w.next ≤ a
  keeps : ∀ u, ¬ T u → Keeps w w' u
  writes : ∀ u, ¬ X u → Writes w w' u
  reads : ∀ u, ¬ Y u → Reads w w' u
  kept : ∀ u, Kept w w' u

theorem Rel.refl (w : W α) (A T X Y : Nat → Prop) : Rel w w A T X Y :=
  ⟨fun _ _ => rfl, Nat.le_refl _, fun _ _ _ => rfl, fun _ _ _ h => .inl h, fun u _ => Keeps.refl w u, fun _ _ x _ _ hx _ ha => ⟨x, hx, rfl, ha⟩,
    fun _ _ x _ _ _ hx _ ha hc hf => ⟨x, hx, Nat.le_refl _, rfl, ha, hc, hf⟩, fun u => Kept.refl w u⟩

theorem Rel.trans {w w' w'' : W α} {A T X Y A' T' X' Y' : Nat → Prop} (h : Rel w w' A T X Y) (h' : Rel w' w'' A' T' X' Y') :
    Rel w w'' (fun u => A u ∨ A' u) (fun u => T u ∨ T' u) (fun u => X u ∨ X' u) (fun u => Y u ∨ Y' u) := by
  have hheld : ∀ u a, HeldBy w' u a → HeldBy w u a ∨ (A u ∧ w.next ≤ a) := by
    intro u a ha
    by_cases hu : A u
    · exact (h.held u a hu ha).imp_right fun h => ⟨hu, h⟩
    · refine .inl ?_
      unfold HeldBy at ha ⊢
      rw [h.vecs u hu] at ha
      exact ha
  refine ⟨fun u hu => ?_, h.next.trans h'.next, fun a ha hn => ?_, fun u a hu ha => ?_, fun u hu => ?_, fun u hu => ?_, fun u hu => ?_, fun u => (h.kept u).trans (h'.kept u)⟩
  · rw [h'.vecs u fun hc => hu (.inr hc), h.vecs u fun hc => hu (.inl hc)]
  · rw [h'.heap a (lt_of_lt_of_le ha h.next), h.heap a ha fun u hu => hn u (.inl hu)]
    intro u hu hc
    rcases hheld u a hc with h1 | ⟨-, h1⟩
    · exact hn u (.inr hu) h1
    · omega
  · have : HeldBy w' u a ∨ w'.next ≤ a := by
      by_cases hA : A' u
      · exact h'.held u a hA ha
      · refine .inl ?_
        unfold HeldBy at ha ⊢
        rw [h'.vecs u hA] at ha
        exact ha
    rcases this with h1 | h1
    · exact (hheld u a h1).imp_right And.right
    · exact .inr (h.next.trans h1)
  · exact (h.keeps u fun hc => hu (.inl hc)).trans (h'.keeps u fun hc => hu (.inr hc))
  · exact (h.writes u fun hc => hu (.inl hc)).trans (h'.writes u fun hc => hu (.inr hc))
  · exact (h.reads u fun hc => hu (.inl hc)).trans (h'.reads u fun hc => hu (.inr hc))

theorem Rel.mono {w w' : W α} (hi : Inv w) {A T X Y A' T' X' Y' : Nat → Prop} (h : Rel w w' A T X Y) (hA : ∀ u, A u → A' u) (hT : ∀ u, T u → T' u)
    (hX : ∀ u, X u → X' u) (hY : ∀ u, Y u → Y' u) : Rel w w' A' T' X' Y' := by
  refine ⟨fun u hu => h.vecs u fun hc => hu (hA u hc), h.next, fun a ha hn => h.heap a ha fun u hu => hn u (hA u hu), fun u a hu ha => ?_,
    fun u hu => h.keeps u fun hc => hu (hT u hc), fun u hu => h.writes u fun hc => hu (hX u hc), fun u hu => h.reads u fun hc => hu (hY u hc), h.kept⟩
  by_cases hc : A u
  · exact h.held u a hc ha
  · refine .inl ?_
    unfold HeldBy at ha ⊢
    rw [h.vecs u hc] at ha
    exact ha

/-- Writes and values need not be claimed for vectors that are not locked, and readers not for vectors without. -/
theorem Rel.relax {w w' : W α} {A T X Y X' Y' : Nat → Prop} (h : Rel w w' A T X Y) (hX : ∀ u, X u → X' u ∨ ∀ x, w.vecs u = some x → x.state % 2 = 0)
    (hY : ∀ u, Y u → Y' u ∨ ∀ x, w.vecs u = some x → x.readers = 0) : Rel w w' A T X' Y' := by
  refine ⟨h.vecs, h.next, h.heap, h.held, h.keeps, fun u hu => ?_, fun u hu => ?_, h.kept⟩
  · by_cases hc : X u
    · rcases hX u hc with h1 | h1
      · exact absurd h1 hu
      · intro x m a hx ho ha
        have := h1 x hx
        omega
    · exact h.writes u hc
  · by_cases hc : Y u
    · rcases hY u hc with h1 | h1
      · exact absurd h1 hu
      · intro x m a f hx hr
        have := h1 x hx
        omega
    · exact h.reads u hc

/-- Other vectors. -/
theorem Ext.writes {w w' : W α} {v : Nat} (h : Ext w w' v) {u : Nat} (hu : u ≠ v) : Writes w w' u := fun x m a hx _ ha =>
  ⟨x, by rw [h.vecs u hu]; exact hx, rfl, ha⟩

theorem Ext.reads {w w' : W α} {v : Nat} (hi : Inv w) (h : Ext w w' v) {u : Nat} (hu : u ≠ v) : Reads w w' u := fun x m a f hx _ ha hc hf =>
  ⟨x, by rw [h.vecs u hu]; exact hx, Nat.le_refl _, rfl, ha, by
    unfold Contains; rw [h.heap_other hi hu (heldBy_slot hx ha)]; exact hc, (h.keeps hi hu).1 f hf⟩

/-- A step on one vector. -/
theorem Rel.of_grow {w w' : W α} {v : Nat} (hi : Inv w) (hg : Grow w w' v) {T X Y : Nat → Prop} (hT : T v ∨ Keeps w w' v) (hX : X v ∨ Writes w w' v)
    (hY : Y v ∨ Reads w w' v) (hK : Kept w w' v) : Rel w w' (· = v) T X Y := by
  have he := hg.ext hi
  refine ⟨fun u hu => hg.vecs u hu, hg.next, fun a ha hn => hg.heap a ha (hn v rfl), fun u a hu ha => ?_, fun u hu => ?_, fun u hu => ?_, fun u hu => ?_, fun u => ?_⟩
  · subst hu; exact hg.held a ha
  · by_cases h : u = v
    · subst h; exact hT.resolve_left hu
    · exact he.keeps hi h
  · by_cases h : u = v
    · subst h; exact hX.resolve_left hu
    · exact he.writes h
  · by_cases h : u = v
    · subst h; exact hY.resolve_left hu
    · exact he.reads hi h
  · by_cases h : u = v
    · subst h; exact hK
    · exact fun x hx => ⟨x, by rw [hg.vecs u h]; exact hx, rfl, fun _ => rfl⟩

/-- Nothing. -/
abbrev No : Nat → Prop := fun _ => False

theorem Synced.rel {w w' : W α} (hi : Inv w) {v : Nat} {x x' : DVec} (hx : w.vecs v = some x) {m : Mem} (he : x.state % 2 = 0) (h : Synced w v x m w' x') :
    Rel w w' (· = v) No No No := by
  refine Rel.of_grow hi h.grow (.inr (h.keeps hi hx v)) (.inr fun y m' a hy ho _ => ?_) (.inr fun y m' a f hy hr ha hc hf => ?_)
    (Kept.mk hx h.vec h.len h.bor)
  · rw [hx] at hy; cases hy; omega
  · rw [hx] at hy
    cases hy
    have hf' := (h.keeps hi hx v).1 f hf
    refine ⟨x', h.vec, h.readers.ge, h.len, h.slot m' a ha, ?_, hf'⟩
    by_cases hc' : (x'.side m).arr = some a
    · obtain ⟨b, hb, hb'⟩ := ((h.inv.hasVals_iff h.vec).1 hf').2 m a hc'
      exact ⟨b, hb, fun i hi' => hb' i (by rw [h.len]; exact hi')⟩
    · unfold Contains
      rw [h.heap a hc']
      exact hc

theorem Rel.grow {w w' : W α} (_hi : Inv w) {v : Nat} {T X Y : Nat → Prop} (h : Rel w w' (· = v) T X Y) : Grow w w' v :=
  ⟨fun u hu => h.vecs u hu, fun a ha hn => h.heap a ha fun u hu => by subst hu; exact hn, h.next, fun a ha => h.held v a rfl ha⟩

end DevVec
end Verif
