import Verif.DevVec.Own

/-!
# Vectors with arrays on the host and on the device: every call
-/

set_option linter.unusedSectionVars false

namespace Verif
namespace DevVec

open Vector (Mem Mode NormType)
open M (wp)

variable {α : Type} [CommRing α] [DecidableEq α] {E : Env α}

/-- After a successful call. -/
structure Post (E : Env α) (w : W α) (c : Call α) (w' : W α) (r : Ret α) : Prop where
  inv : Inv w'
  vecs : ∀ u, ¬ Args c u → w'.vecs u = w.vecs u
  data : ∀ a b, w.heap a = some b → (∀ u, Args c u → ¬ HeldBy w u a) → (∀ i z, c ≠ .store a i z) → c ≠ .mfree a →
    ∃ b', w'.heap a = some b' ∧ b'.mem = b.mem ∧ b'.buf = b.buf
  keeps : ∀ u, ¬ Target w c u → Keeps w w' u
  doc : Doc E w w' c
  ret : Returns E w w' c r
  writes : ∀ u, c ≠ .restoreArray u → Writes w w' u
  reads : ∀ u, ¬ Arithmetic u c → c ≠ .restoreArrayRead u → Reads w w' u
  len : ∀ u n, Len w u n → c ≠ .destroy u → Len w' u n
  lent : ∀ u m a, Lent w u m a → c ≠ .destroy u → c ≠ .takeArray u m → (∀ mode src, mode ≠ .copyValues → c ≠ .setArray u m mode src) → Lent w' u m a

/-- After a failed call. -/
structure Fail (w : W α) (c : Call α) (w' : W α) : Prop where
  inv : Inv w'
  rel : Rel w w' (Args c) (fun u => ∃ s t, c = .pointwiseMult u s t) No No
  vals : ∀ u f, HasVals w u f → HasVals w' u f
  same : (∀ x y, c ≠ .copy x y) → (∀ u x y, c ≠ .pointwiseMult u x y) → w' = w

theorem Fail.refl {w : W α} (hi : Inv w) (c : Call α) : Fail w c w := ⟨hi, Rel.refl _ _ _ _ _, fun _ _ h => h, fun _ _ => rfl⟩

theorem Kept.len {w w' : W α} {u : Nat} (h : Kept w w' u) {n : Nat} (hl : Len w u n) : Len w' u n := by
  obtain ⟨x, hx, rfl⟩ := hl
  obtain ⟨x', h1, h2, -⟩ := h x hx
  exact ⟨x', h1, h2⟩

theorem Kept.lent {w w' : W α} {u : Nat} (h : Kept w w' u) {m : Mem} {a : Nat} (hl : Lent w u m a) : Lent w' u m a := by
  obtain ⟨x, hx, hb⟩ := hl
  obtain ⟨x', h1, -, h3⟩ := h x hx
  exact ⟨x', h1, (h3 m).trans hb⟩

theorem Len.eq {w : W α} {v n : Nat} {x : DVec} (h : Len w v n) (hx : w.vecs v = some x) : n = x.len := by
  obtain ⟨y, hy, rfl⟩ := h
  rw [hx] at hy
  cases hy
  rfl

theorem Post.of_rel {w w' : W α} (hi : Inv w) (hI : Inv w') {c : Call α} {r : Ret α} {A T X Y : Nat → Prop} (h : Rel w w' A T X Y) (hA : ∀ u, A u → Args c u)
    (hT : ∀ u, T u → Target w c u) (hX : ∀ u, X u → c = .restoreArray u) (hY : ∀ u, Y u → Arithmetic u c ∨ c = .restoreArrayRead u) (hd : Doc E w w' c)
    (hr : Returns E w w' c r) : Post E w c w' r :=
  ⟨hI, fun u hu => h.vecs u fun ha => hu (hA u ha), fun a b hb hn _ _ => ⟨b, by rw [h.heap a (hi.lt_next hb) fun u hu => hn u (hA u hu)]; exact hb, rfl, rfl⟩,
    fun u hu => h.keeps u fun ht => hu (hT u ht), hd, hr, fun u hu => h.writes u fun hx => hu (hX u hx),
    fun u hu hu' => h.reads u fun hy => (hY u hy).elim hu hu', fun u _ hl _ => (h.kept u).len hl, fun u _ _ hl _ _ _ => (h.kept u).lent hl⟩

/-- Calls on a vector that is neither locked nor read, or does not exist. -/
theorem Post.of_ext {w w' : W α} (hi : Inv w) (hI : Inv w') {c : Call α} {r : Ret α} {v : Nat} (h : Ext w w' v) (hD : Data w w' v)
    (hf : ∀ x, w.vecs v = some x → x.state % 2 = 0 ∧ x.readers = 0) (hA : Args c v) (hT : Target w c v) (hd : Doc E w w' c) (hr : Returns E w w' c r)
    (hl : ∀ n, Len w v n → c ≠ .destroy v → Len w' v n)
    (hb : ∀ m a, Lent w v m a → c ≠ .destroy v → c ≠ .takeArray v m → (∀ mode src, mode ≠ .copyValues → c ≠ .setArray v m mode src) → Lent w' v m a) :
    Post E w c w' r := by
  refine ⟨hI, fun u hu => h.vecs u fun hc => hu (hc ▸ hA), fun a b hb hn _ _ => hD a b hb (hn v hA), fun u hu => h.keeps hi fun hc => hu (hc ▸ hT), hd, hr,
    fun u _ => ?_, fun u _ _ => ?_, fun u n hl' hc => ?_, fun u m a hl' h1 h2 h3 => ?_⟩
  · by_cases hu : u = v
    · subst hu
      intro x m a hx ho
      have := (hf x hx).1
      omega
    · exact h.writes hu
  · by_cases hu : u = v
    · subst hu
      intro x m a f hx ho
      have := (hf x hx).2
      omega
    · exact h.reads hi hu
  · by_cases hu : u = v
    · subst hu; exact hl n hl' hc
    · obtain ⟨x, hx, e⟩ := hl'
      exact ⟨x, by rw [h.vecs u hu]; exact hx, e⟩
  · by_cases hu : u = v
    · subst hu; exact hb m a hl' h1 h2 h3
    · obtain ⟨x, hx, e⟩ := hl'
      exact ⟨x, by rw [h.vecs u hu]; exact hx, e⟩

theorem Granted.gives {w w' : W α} {v : Nat} {x x' : DVec} {m : Mem} {p : Option Nat} (h : Granted w v x m p w' x') (h0 : 0 < x.len) :
    ∃ f, HasVals w' v f ∧ Gives w' p m x.len f := by
  have hV := h.inv.vec v x' h.vec
  obtain ⟨a, ha⟩ := Option.ne_none_iff_exists'.1 (h.nonnull h0)
  have harr : (x'.side m).arr = some a := h.arr.trans ha
  obtain ⟨f, hf⟩ := hV.coh
  obtain ⟨b, hb, hbm, hbl, -⟩ := hV.slot m a (hV.arr m a harr)
  obtain ⟨b', hb', hbf⟩ := hf m a harr
  rw [hb] at hb'
  cases hb'
  rw [h.len] at hbl hbf
  exact ⟨f, (h.inv.hasVals_iff h.vec).2 ⟨⟨m, by rw [harr]; simp⟩, hf⟩, a, b, ha, hb, hbm, hbl, hbf⟩

theorem Granted.writable {w w' : W α} {v : Nat} {x x' : DVec} {m : Mem} {p : Option Nat} (h : Granted w v x m p w' x') {a : Nat} (ha : p = some a) : Writable w' v a :=
  ⟨x', m, h.vec, h.odd, h.arr.trans ha⟩

/-- Every legal call either succeeds and does what it should, or fails and leaves values as they were. -/
theorem exec_wp' {w : W α} (hi : Inv w) {c : Call α} (hE : ∀ v, c = .reciprocal v → E.big .host = E.big .device) (hl : Legal E w c) :
    Wp (exec E c) w (fun w' r => Post E w c w' r) (fun w' _ => Fail w c w') := by
  have same : ∀ {w' : W α}, w' = w → Fail w c w' := fun h => h ▸ Fail.refl hi c
  cases c with
  | create v n =>
    refine M.wp_bind.2 (M.wp_mono (create_wp hi hl (R := fun _ _ => False)) (fun w' _ h => M.wp_pure.2 ?_) fun _ _ h => h.elim)
    obtain ⟨h1, h2, h3, h4, h5⟩ := h
    have hv : w.vecs v = none := hl
    refine Post.of_ext hi h1 h2 h3 (fun x hx => by rw [hv] at hx; cases hx) rfl rfl ⟨h4, h5⟩ rfl (fun n hn _ => ?_) fun m a ha _ _ _ => ?_
    · obtain ⟨x, hx, -⟩ := hn
      rw [hv] at hx; cases hx
    · obtain ⟨x, hx, -⟩ := ha
      rw [hv] at hx; cases hx
  | destroy v =>
    obtain ⟨x, hx⟩ := hl
    refine M.wp_bind.2 (M.wp_mono (destroy_wp hi hx) (fun w' _ h => M.wp_pure.2 ?_) fun _ _ h => same h)
    obtain ⟨he, hr, h1, h2, h3, h4⟩ := h
    exact Post.of_ext hi h1 h2 h3 (fun y hy => by rw [hx] at hy; cases hy; exact ⟨he, hr⟩) rfl rfl h4 rfl (fun n _ h => absurd rfl h) fun m a _ h => absurd rfl h
  | setArray v m mode src =>
    obtain ⟨x, hx, hsrc⟩ : ∃ x, w.vecs v = some x ∧ ∀ a, src = some a → ∃ b, w.heap a = some b ∧ b.mem = m ∧ x.len ≤ b.buf.len ∧
        (mode = .copyValues → ¬ HeldBy w v a) ∧ (mode ≠ .copyValues → ∀ u, HeldBy w u a → u = v ∧ (x.side m).bor = some a) := by
      cases src with
      | none =>
        obtain ⟨x, hx⟩ := hl
        exact ⟨x, hx, fun a h => by cases h⟩
      | some a =>
        obtain ⟨x, b, hx, h⟩ := hl
        exact ⟨x, hx, fun c hc => by cases hc; exact ⟨b, h⟩⟩
    by_cases hm : mode = .copyValues
    · subst hm
      refine M.wp_bind.2 (M.wp_mono (setCopy_wp hi hx fun _ c hc => ?_) (fun w' _ h => M.wp_pure.2 ?_) fun _ _ h => same h.1)
      · obtain ⟨b, h1, h2, h3, h4, -⟩ := hsrc c hc
        exact ⟨b, h1, h2, h3, h4 rfl⟩
      obtain ⟨he, hr, x', h1, h2, h3, h4, h5, h6, h7, h8, h9⟩ := h
      refine Post.of_rel hi h1 (Rel.free hi hx h2 he hr (Kept.mk hx h3 h4 h7) (T := (· = v)) (.inl rfl)) (fun _ h => h) (fun _ h => h) (fun _ h => h.elim)
        (fun _ h => h.elim) ?_ rfl
      cases src with
      | none =>
        intro n h0 hn _
        have hn := hn.eq hx
        obtain ⟨f, hf⟩ := (h1.vec v x' h3).coh
        exact ⟨f, (h1.hasVals_iff h3).2 ⟨⟨m, (h8 (by omega)).1⟩, hf⟩⟩
      | some a =>
        intro n h0 hn
        have hn := hn.eq hx
        obtain ⟨b, hb, -⟩ := hsrc a rfl
        exact ⟨⟨b, hb, h9 a b (by omega) rfl hb⟩, fun h => by cases h⟩
    · refine M.wp_bind.2 (M.wp_mono (setPtr_wp hi hx hm fun a ha => ?_) (fun w' _ h => M.wp_pure.2 ?_) fun _ _ h => same h)
      · obtain ⟨b, h1, h2, h3, -, h5⟩ := hsrc a ha
        exact ⟨b, h1, h2, h3, h5 hm⟩
      obtain ⟨he, hr, h1, h2, h3, ⟨x', h4, h5, h6⟩, h7⟩ := h
      refine Post.of_ext hi h1 h2 h3 (fun y hy => by rw [hx] at hy; cases hy; exact ⟨he, hr⟩) rfl rfl ?_ rfl (fun n hn _ => ?_) fun m' a ha _ _ hc => ?_
      · cases src with
        | none => exact fun _ _ _ h => absurd h hm
        | some a =>
          intro n h0 hn
          have hn := hn.eq hx
          exact h7 a (by omega) rfl
      · exact ⟨x', h4, h5.trans (hn.eq hx).symm⟩
      · have hmm : m' ≠ m := by
          rintro rfl
          exact hc mode src hm rfl
        obtain ⟨y, hy, hb⟩ := ha
        rw [hx] at hy
        cases hy
        exact ⟨x', h4, (h6 m' hmm).trans hb⟩
  | takeArray v m =>
    obtain ⟨x, hx⟩ := hl
    refine M.wp_bind.2 (M.wp_mono (takeArray_wp hi hx) (fun w' p h => M.wp_pure.2 ?_) fun _ _ h => same h)
    obtain ⟨he, hr, h1, h2, h3, ⟨x', h4, h5, h6, h6'⟩, h7, h8⟩ := h
    refine Post.of_ext hi h1 h2 h3 (fun y hy => by rw [hx] at hy; cases hy; exact ⟨he, hr⟩) rfl rfl ⟨h7, fun a ha => ?_⟩ (fun n h0 hn => ?_) (fun n hn _ => ?_) fun m' a ha _ hc _ => ?_
    · obtain ⟨y, hy, hb⟩ := ha
      rw [h4] at hy
      cases hy
      rw [h6] at hb
      cases hb
    · have hn := hn.eq hx
      subst hn
      obtain ⟨a, ha, hb, hh, ⟨f, hf⟩, hg⟩ := h8 h0
      obtain ⟨b, g1, g2, g3, g4⟩ := hg f hf
      refine ⟨⟨f, hf, a, b, ha, g1, g2, g3, g4⟩, fun c hc => ?_⟩
      rw [ha] at hc
      cases hc
      exact ⟨⟨x, hx, hb⟩, hh⟩
    · exact ⟨x', h4, h5.trans (hn.eq hx).symm⟩
    · have hmm : m' ≠ m := by
        rintro rfl
        exact hc rfl
      obtain ⟨y, hy, hb⟩ := ha
      rw [hx] at hy
      cases hy
      exact ⟨x', h4, (h6' m' hmm).trans hb⟩
  | getArray v m =>
    obtain ⟨x, hx⟩ := hl
    refine M.wp_bind.2 (M.wp_mono (getArray_wp hi hx) (fun w' p h => M.wp_pure.2 ?_) fun _ _ h => same h)
    obtain ⟨x', h1, h2⟩ := h
    refine Post.of_rel hi h1.inv (h1.rel hi hx (T := No) (.inr h2)) (fun _ h => h) (fun _ h => h.elim) (fun _ h => h.elim) (fun _ h => h.elim) h2 fun n h0 hn => ?_
    have hn := hn.eq hx
    subst hn
    refine ⟨?_, fun a ha => h1.writable ha⟩
    obtain ⟨f, hf, hg⟩ := h1.gives h0
    by_cases hv : Valid x
    · obtain ⟨k, hk⟩ := (hi.vec v x hx).coh
      have hk' : HasVals w v k := (hi.hasVals_iff hx).2 ⟨hv, hk⟩
      have heq := h1.inv.vals_unique h1.vec hf (h2.1 k hk')
      rw [h1.len] at heq
      obtain ⟨a, b, g1, g2, g3, g4, g5⟩ := hg
      exact ⟨k, hk', a, b, g1, g2, g3, g4, fun i hi' => (g5 i hi').trans (heq i hi')⟩
    · have h3 := h2.2 ((noVals_iff hx).2 hv)
      obtain ⟨y, hy, hno⟩ := h3
      obtain ⟨z, hz, ⟨m', hm'⟩, -⟩ := hf
      rw [hy] at hz
      cases hz
      exact absurd (hno m') hm'
  | getArrayRead v m =>
    obtain ⟨x, hx⟩ := hl
    refine M.wp_bind.2 (M.wp_mono (getArrayRead_wp hi hx) (fun w' p h => M.wp_pure.2 ?_) fun _ _ h => same h)
    obtain ⟨he, hv, w1, x1, h1, hp, hw, h2, h3⟩ := h
    refine Post.of_rel hi h2 h3 (fun _ h => h) (fun _ h => h.elim) (fun _ h => h.elim) (fun _ h => h.elim) (h3.keeps v id) fun n h0 hn => ?_
    have hn := hn.eq hx
    subst hn
    have hv := hv h0
    obtain ⟨k, hk⟩ := (hi.vec v x hx).coh
    have hV1 := h1.inv.vec v x1 h1.vec
    obtain ⟨a, ha⟩ := Option.ne_none_iff_exists'.1 (h1.arr hv)
    have hs := hV1.arr m a ha
    obtain ⟨b, hb, hbm, hbl, -⟩ := hV1.slot m a hs
    obtain ⟨b', hb', hbf⟩ := h1.val k hk m a ha
    rw [hb] at hb'
    cases hb'
    rw [h1.len] at hbl hbf
    refine ⟨⟨k, (hi.hasVals_iff hx).2 ⟨hv, hk⟩, a, b, hp.trans ha, by rw [hw]; exact hb, hbm, hbl, hbf⟩, fun c hc => ?_⟩
    rw [hp, ha] at hc
    cases hc
    exact ⟨{ x1 with readers := x.readers + 1 }, m, by rw [hw]; exact setVec_same _ _ _, Nat.succ_pos _, (slot_some hs).symm⟩
  | getArrayWrite v m =>
    obtain ⟨x, hx⟩ := hl
    refine M.wp_bind.2 (M.wp_mono (getArrayWrite_wp hi hx) (fun w' p h => M.wp_pure.2 ?_) fun _ _ h => same h)
    obtain ⟨x', h1⟩ := h
    refine Post.of_rel hi h1.inv (h1.rel hi hx (T := (· = v)) (.inl rfl)) (fun _ h => h) (fun _ h => h) (fun _ h => h.elim) (fun _ h => h.elim) (fun n h0 hn => ?_) fun n h0 hn => ?_
    · have hn := hn.eq hx
      subst hn
      obtain ⟨f, hf, -⟩ := h1.gives h0
      exact ⟨f, hf⟩
    · have hn := hn.eq hx
      subst hn
      exact ⟨h1.gives h0, fun a ha => h1.writable ha⟩
  | restoreArray v =>
    obtain ⟨x, hx⟩ := hl
    refine M.wp_bind.2 (M.wp_mono (restoreArray_wp hi hx) (fun w' p h => M.wp_pure.2 ?_) fun _ _ h => same h.1)
    exact Post.of_rel hi h.2.1 h.2.2.1 (fun _ h => h) (fun _ h => h.elim) (fun u h => by rw [h]) (fun _ h => h.elim) (h.2.2.1.keeps v id) rfl
  | restoreArrayRead v =>
    obtain ⟨x, hx⟩ := hl
    refine M.wp_bind.2 (M.wp_mono (restoreArrayRead_wp hi hx) (fun w' p h => M.wp_pure.2 ?_) fun _ _ h => same h.1)
    exact Post.of_rel hi h.1 h.2.1 (fun _ h => h) (fun _ h => h.elim) (fun u h => h.elim) (fun u h => .inr (by rw [h])) (h.2.1.keeps v id) rfl
  | syncArray v m =>
    obtain ⟨x, hx⟩ := hl
    refine M.wp_bind.2 (M.wp_mono (syncArray_wp hi hx) (fun w' p h => M.wp_pure.2 ?_) fun _ _ h => same h.1)
    obtain ⟨he, x', h⟩ := h
    have hrel := h.rel hi hx he
    refine Post.of_rel hi h.inv hrel (fun _ h => h) (fun _ h => h.elim) (fun _ h => h.elim) (fun _ h => h.elim) (hrel.keeps v id) fun n f a hn hf ha => ?_
    have hn := hn.eq hx
    subst hn
    rw [hi.hasVals_iff hx] at hf
    obtain ⟨y, hy, hb⟩ := ha
    rw [hx] at hy
    cases hy
    have hV1 := h.inv.vec v x' h.vec
    have hs := hV1.slot_of (.inr ((h.bor m).trans hb))
    obtain ⟨c, hc⟩ := Option.ne_none_iff_exists'.1 (h.arr hf.1)
    have : c = a := by
      have h' := hV1.arr m c hc
      rw [hs] at h'
      cases h'
      rfl
    subst this
    obtain ⟨b, hb, hbm, hbl, -⟩ := hV1.slot m c hs
    obtain ⟨b', hb', hbf⟩ := h.val f hf.2 m c hc
    rw [hb] at hb'
    cases hb'
    rw [h.len] at hbl hbf
    exact ⟨c, b, rfl, hb, hbm, hbl, hbf⟩
  | setValue v z =>
    obtain ⟨x, hx⟩ := hl
    refine M.wp_bind.2 (M.wp_mono (setValue_wp hi hx) (fun w' p h => M.wp_pure.2 ?_) fun _ _ h => same h.1)
    obtain ⟨-, -, x', h1, h2, -, -, -, -, h3⟩ := h
    exact Post.of_rel hi h1 h2 (fun _ h => h) (fun _ h => h) (fun _ h => h.elim) (fun _ h => h.elim) (fun n h0 hn => h3 (hn.eq hx ▸ h0)) rfl
  | setValueStrided v start stop step z =>
    obtain ⟨⟨x, hx⟩, hs, ht⟩ := hl
    refine M.wp_bind.2 (M.wp_mono (setValueStrided_wp hi hx hs ht) (fun w' p h => M.wp_pure.2 ?_) fun _ _ h => same h)
    refine Post.of_rel hi h.1 h.2.1 (fun _ h => h) (fun _ h => h) (fun _ h => h.elim) (fun _ h => h.elim) (fun n f hn hf => ?_) rfl
    have hn := hn.eq hx
    subst hn
    exact h.2.2 f hf
  | norm v ty =>
    obtain ⟨x, hx⟩ := hl
    refine M.wp_bind.2 (M.wp_mono (norm_wp hi hx) (fun w' p h => M.wp_pure.2 ?_) fun _ _ h => same h)
    refine Post.of_rel hi h.1 h.2.1 (fun _ h => h) (fun _ h => h.elim) (fun _ h => h.elim) (fun _ h => h.elim) (h.2.1.keeps v id) ⟨fun hn => h.2.2.1 (hn.eq hx).symm, fun n f hn hf => ?_⟩
    have hn := hn.eq hx
    subst hn
    exact h.2.2.2 f hf
  | scale v k =>
    obtain ⟨x, hx⟩ := hl
    refine M.wp_bind.2 (M.wp_mono (scale_wp hi hx) (fun w' p h => M.wp_pure.2 ?_) fun _ _ h => same h)
    exact Post.of_rel hi h.1 h.2.1 (fun _ h => h) (fun _ h => h) (fun _ h => h.elim) (fun _ h => .inl h.symm) h.2.2 rfl
  | axpy v k u =>
    obtain ⟨⟨y, hy⟩, x, hx⟩ := hl
    refine M.wp_bind.2 (M.wp_mono (axpy_wp hi hy hx) (fun w' p h => M.wp_pure.2 ?_) fun _ _ h => same h)
    exact Post.of_rel hi h.1 h.2.1 (fun _ h => h) (fun _ h => h) (fun _ h => h.elim) (fun _ h => .inl h.symm) h.2.2 rfl
  | axpby v k l u =>
    obtain ⟨⟨y, hy⟩, x, hx⟩ := hl
    refine M.wp_bind.2 (M.wp_mono (axpby_wp hi hy hx) (fun w' p h => M.wp_pure.2 ?_) fun _ _ h => same h)
    exact Post.of_rel hi h.1 h.2.1 (fun _ h => h) (fun _ h => h) (fun _ h => h.elim) (fun _ h => .inl h.symm) h.2.2 rfl
  | pointwiseMult v u t =>
    obtain ⟨⟨x, hx⟩, ⟨xu, hu⟩, xt, ht⟩ := hl
    refine M.wp_bind.2 (M.wp_mono (pointwiseMult_wp hi hx hu ht) (fun w' p h => M.wp_pure.2 ?_) fun w' _ h => ?_)
    · refine Post.of_rel hi h.1 h.2.1 (fun _ h => h) (fun _ h => h) (fun _ h => h.elim) (fun _ h => .inl h.symm) (fun f g n h0 hn hf hg => ?_) rfl
      exact h.2.2 f g (hn.eq hx ▸ h0) hf hg
    · refine ⟨h.1, h.2.1.mono hi (fun _ h => h) (fun s hs => ⟨u, t, by rw [hs]⟩) (fun _ h => h) (fun _ h => h), fun s f hf => ?_, fun _ h' => absurd rfl (h' v u t)⟩
      by_cases hs : s = v
      · subst hs; exact h.2.2 f hf
      · exact (h.2.1.keeps s hs).1 f hf
  | reciprocal v =>
    obtain ⟨x, hx⟩ := hl
    refine M.wp_bind.2 (M.wp_mono (reciprocal_wp (hE v rfl) hi hx) (fun w' p h => M.wp_pure.2 ?_) fun _ _ h => same h)
    exact Post.of_rel hi h.1 h.2.1 (fun _ h => h) (fun _ h => h) (fun _ h => h.elim) (fun _ h => .inl h.symm) h.2.2 rfl
  | copy v u =>
    obtain ⟨⟨y, hy⟩, x, hx⟩ := hl
    refine M.wp_bind.2 (M.wp_mono (copy_wp hi hx hy) (fun w' p h => M.wp_pure.2 ?_) fun w' _ h => ?_)
    · exact Post.of_rel hi h.1 h.2.1 (fun _ h => h) (fun _ h => h) (fun _ h => h.elim) (fun _ h => h.elim) h.2.2 rfl
    · exact ⟨h.1, h.2.mono hi (fun _ h => h) (fun _ h => h.elim) (fun _ h => h) (fun _ h => h), fun s f hf => (h.2.keeps s id).1 f hf, fun h' _ => absurd rfl (h' v u)⟩
  | copyStrided v start stop step u =>
    obtain ⟨⟨y, hy⟩, ⟨x, hx⟩, hne, hs, hb⟩ := hl
    refine M.wp_bind.2 (M.wp_mono (copyStrided_wp hi hx hy hne hs hb) (fun w' p h => M.wp_pure.2 ?_) fun _ _ h => same h)
    refine Post.of_rel hi h.1 h.2.1 (fun _ h => h) (fun _ h => h) (fun _ h => h.elim) (fun _ h => h.elim) (fun f g n k hn hk hf hg => ?_) rfl
    have hn := hn.eq hx
    have hk := hk.eq hy
    subst hn hk
    exact h.2.2 f g hf hg
  | malloc m n =>
    set w' : W α := ⟨fun c => if c = w.next then some ⟨m, ⟨n, fun _ => 0⟩, false⟩ else w.heap c, w.next + 1, w.vecs⟩ with hw'
    have hn : ∀ {a}, Held w a → a ≠ w.next := fun ⟨u, hu⟩ h => absurd (hi.held_lt hu) (by omega)
    have hh : ∀ a, Held w a → w'.heap a = w.heap a := fun a ha => if_neg (hn ha)
    have hr := fun u => hi.outside_rel (w' := w') rfl hh u
    refine M.wp_bind.2 (wp_ok (w' := w') (r := w.next) rfl (M.wp_pure.2 ⟨hi.outside rfl hh (fun a ha => ?_) (fun a b ha hb => ?_), fun _ _ => rfl, fun a b hb _ _ _ => ⟨b, ?_, rfl, rfl⟩,
      fun u _ => (hr u).1, trivial, ⟨hi.top _ (Nat.le_refl _), if_pos rfl⟩, fun u _ => (hr u).2.1, fun u _ _ => (hr u).2.2.1, fun u _ h _ => (hr u).2.2.2.len h,
      fun u _ _ h _ _ _ => (hr u).2.2.2.lent h⟩))
    · have ha : w.next + 1 ≤ a := ha
      show (if a = w.next then _ else _) = _
      rw [if_neg (by omega)]
      exact hi.top a (by omega)
    · have hb : (if a = w.next then _ else _) = some b := hb
      by_cases h : a = w.next
      · rw [if_pos h] at hb
        cases hb
        rfl
      · rw [if_neg h] at hb
        exact hi.not_lib ha hb
    · show (if a = w.next then _ else _) = _
      have := hi.lt_next hb
      rw [if_neg (by omega)]
      exact hb
  | mfree a =>
    obtain ⟨⟨b, hb⟩, hn⟩ := hl
    have hh : ∀ c, Held w c → (w.setArr a none).heap c = w.heap c := fun c hc => setArr_ne _ _ fun h => hn (h ▸ hc)
    have hr := fun u => hi.outside_rel (w' := w.setArr a none) rfl hh u
    refine M.wp_bind.2 (wp_ok (w' := w.setArr a none) (r := ()) (by unfold mfree; rw [hb]) (M.wp_pure.2 ⟨hi.outside rfl hh (fun c hc => ?_) (fun c d hc hd => ?_), fun _ _ => rfl,
      fun c d hd _ _ hne => ⟨d, ?_, rfl, rfl⟩, fun u _ => (hr u).1, trivial, rfl, fun u _ => (hr u).2.1, fun u _ _ => (hr u).2.2.1, fun u _ h _ => (hr u).2.2.2.len h,
      fun u _ _ h _ _ _ => (hr u).2.2.2.lent h⟩))
    · by_cases h : c = a
      · subst h; exact setArr_same _ _ _
      · rw [setArr_ne _ _ h]; exact hi.top c hc
    · by_cases h : c = a
      · subst h; rw [setArr_same] at hd; cases hd
      · rw [setArr_ne _ _ h] at hd; exact hi.not_lib hc hd
    · have h : c ≠ a := fun h => hne (by rw [h])
      rw [setArr_ne _ _ h]; exact hd
  | store a i z =>
    obtain ⟨b, hb, hib, hor⟩ := hl
    set g : Buf α := ⟨b.buf.len, fun j => if j = i then z else b.buf.val j⟩ with hg
    have hex : store a i z w = .ok (w.setArr a (some { b with buf := g })) () := by
      unfold store
      rw [hb]
      exact if_pos hib
    refine M.wp_bind.2 (wp_ok hex (M.wp_pure.2 ?_))
    have hdata : ∀ c d, w.heap c = some d → (∀ j z', Call.store a i z ≠ .store c j z') → (w.setArr a (some { b with buf := g })).heap c = some d := fun c d hd hne => by
      have h : c ≠ a := fun h => hne i z (by rw [h])
      rw [setArr_ne _ _ h]; exact hd
    rcases hor with hn | ⟨v, x, m, hx, ho, ha⟩
    · have hh : ∀ c, Held w c → (w.setArr a (some { b with buf := g })).heap c = w.heap c := fun c hc => setArr_ne _ _ fun h => hn (h ▸ hc)
      have hr := fun u => hi.outside_rel (w' := w.setArr a (some { b with buf := g })) rfl hh u
      refine ⟨hi.outside rfl hh (fun c hc => ?_) (fun c d hc hd => ?_), fun _ _ => rfl, fun c d hd _ hne _ => ⟨d, hdata c d hd hne, rfl, rfl⟩, fun u _ => (hr u).1, ?_, rfl,
        fun u _ => (hr u).2.1, fun u _ _ => (hr u).2.2.1, fun u _ h _ => (hr u).2.2.2.len h, fun u _ _ h _ _ _ => (hr u).2.2.2.lent h⟩
      · have : a < w.next := hi.lt_next hb
        have hc : w.next ≤ c := hc
        rw [setArr_ne _ _ (by omega)]; exact hi.top c hc
      · by_cases h : c = a
        · subst h
          rw [setArr_same] at hd
          cases hd
          have := hi.not_lib hn hb
          exact this
        · rw [setArr_ne _ _ h] at hd; exact hi.not_lib hc hd
      · intro v x m f hx ha
        exact absurd ⟨v, heldBy_slot hx ((hi.vec v x hx).arr m a ha)⟩ hn
    · have hheld : HeldBy w v a := heldBy_slot hx ((hi.vec v x hx).arr m a ha)
      obtain ⟨h1, h2, -⟩ := hi.writeTo hx ho ha hb (g := g) rfl (f := g.val) fun _ _ => rfl
      refine ⟨h1, fun u _ => rfl, fun c d hd _ hne _ => ⟨d, hdata c d hd hne, rfl, rfl⟩, fun u hu => h2.keeps u fun h => hu (h ▸ hheld), ?_, rfl, fun u _ => h2.writes u id,
        fun u _ _ => h2.reads u id, fun u _ h _ => (h2.kept u).len h, fun u _ _ h _ _ _ => (h2.kept u).lent h⟩
      intro v' x' m' f hx' ha' hf
      have hvv : v' = v := hi.excl v' v a (heldBy_slot hx' ((hi.vec v' x' hx').arr m' a ha')) hheld
      subst hvv
      rw [hx] at hx'
      cases hx'
      refine (hi.writeTo hx ho ha hb (g := g) rfl (f := fun j => if j = i then z else f j) fun j hj => ?_).2.2
      · rw [hi.hasVals_iff hx] at hf
        obtain ⟨d, hd, hdf⟩ := hf.2 m a ha
        rw [hb] at hd
        cases hd
        show (if j = i then z else b.buf.val j) = if j = i then z else f j
        rw [hdf j hj]

theorem exec_wp (hE : E.big .host = E.big .device) {w : W α} (hi : Inv w) {c : Call α} (hl : Legal E w c) :
    Wp (exec E c) w (fun w' r => Post E w c w' r) (fun w' _ => Fail w c w') := exec_wp' hi (fun _ _ => hE) hl

theorem Inv.init : Inv (W.init : W α) := by
  refine ⟨fun v x h => ?_, fun u v a h => ?_, fun _ _ => rfl, fun a b h => ?_⟩
  · cases h
  · obtain ⟨x, m, h, -⟩ := h
    cases h
  · cases h

theorem Step.inv (hE : E.big .host = E.big .device) {w w' : W α} {c : Call α} (hi : Inv w) (hl : Legal E w c) (h : Step E w c w') : Inv w' := by
  have := exec_wp hE hi hl
  cases h with
  | ok h => exact (M.wp_ok this h).inv
  | err h => exact (M.wp_err this h).inv

theorem Reach.inv (hE : E.big .host = E.big .device) {w : W α} (h : Reach E w) : Inv w := by
  induction h with
  | init => exact Inv.init
  | step _ hl hs ih => exact hs.inv hE ih hl

end DevVec
end Verif
