import Verif.DevVec.Arith

/-!
# Vectors with arrays on the host and on the device: calls that keep to the arrays of their arguments
-/

set_option linter.unusedSectionVars false

namespace Verif
namespace DevVec

open Vector (Mem Mode NormType)
open M (wp)

variable {α : Type} [CommRing α] [DecidableEq α] {E : Env α}

/-- Changes of state and readers only. -/
theorem Rel.counts {w : W α} (hi : Inv w) {v : Nat} {x : DVec} (hx : w.vecs v = some x) {st rd : Nat}
    (hodd : st % 2 = 1 → ∀ m, (x.side m).arr ≠ none → (x.side (other m)).arr = none) (hrd : 0 < rd → st % 2 = 0) {X Y : Nat → Prop}
    (hX : X v ∨ st = x.state ∨ x.state % 2 = 0) (hY : Y v ∨ x.readers ≤ rd) :
    Inv (w.setVec v (some { x with state := st, readers := rd })) ∧ Rel w (w.setVec v (some { x with state := st, readers := rd })) (· = v) No X Y := by
  obtain ⟨h1, h2⟩ := hi.counts hx hodd hrd
  have hk := keeps_counts hx st rd
  refine ⟨h1, Rel.of_grow hi h2 (.inr hk) (hX.imp_right fun h => ?_) (hY.imp_right fun h => ?_) (Kept.mk hx (setVec_same _ _ _) rfl fun _ => rfl)⟩
  · intro y m a hy ho ha
    rw [hx] at hy
    cases hy
    rcases h with h | h
    · exact ⟨_, setVec_same _ _ _, h, ha⟩
    · omega
  · intro y m a f hy _ ha hc hf
    rw [hx] at hy
    cases hy
    exact ⟨_, setVec_same _ _ _, h, rfl, ha, hc, hk.1 f hf⟩

/-- A change of a vector that was neither locked nor read. -/
theorem Rel.free {w w' : W α} (hi : Inv w) {v : Nat} {x : DVec} (hx : w.vecs v = some x) (hg : Grow w w' v) (he : x.state % 2 = 0) (hr : x.readers = 0)
    (hK : Kept w w' v) {T : Nat → Prop} (hT : T v ∨ Keeps w w' v) : Rel w w' (· = v) T No No := by
  refine Rel.of_grow hi hg hT (.inr ?_) (.inr ?_) hK
  · intro y m a hy ho
    rw [hx] at hy
    cases hy
    omega
  · intro y m a f hy hr'
    rw [hx] at hy
    cases hy
    omega

theorem Granted.rel {w w' : W α} (hi : Inv w) {v : Nat} {x x' : DVec} (hx : w.vecs v = some x) {m : Mem} {p : Option Nat} (h : Granted w v x m p w' x')
    {T : Nat → Prop} (hT : T v ∨ Keeps w w' v) : Rel w w' (· = v) T No No :=
  Rel.free hi hx h.grow h.even h.readers (Kept.mk hx h.vec h.len h.bor) hT

theorem restoreArray_wp {w : W α} (hi : Inv w) {v : Nat} {x : DVec} (hx : w.vecs v = some x) :
    Wp (restoreArray v) w (fun w' _ => x.state % 2 = 1 ∧ Inv w' ∧ Rel w w' (· = v) No (· = v) No ∧ w'.vecs v = some { x with state := x.state + 1 } ∧ w'.heap = w.heap)
      (fun w' _ => w' = w ∧ x.state % 2 = 0) := by
  unfold restoreArray
  refine M.wp_bind.2 (wp_getV hx (M.wp_bind.2 (M.wp_check (fun ho => ?_) fun h => ⟨rfl, by omega⟩)))
  refine wp_bump hx ⟨ho, ?_⟩
  obtain ⟨h1, h2⟩ := Rel.counts hi hx (st := x.state + 1) (rd := x.readers) (X := (· = v)) (Y := No) (fun h => by omega) (fun _ => by omega) (.inl rfl) (.inr (Nat.le_refl _))
  exact ⟨h1, h2, setVec_same _ _ _, rfl⟩

theorem restoreArrayRead_wp {w : W α} (hi : Inv w) {v : Nat} {x : DVec} (hx : w.vecs v = some x) :
    Wp (restoreArrayRead v) w (fun w' _ => Inv w' ∧ Rel w w' (· = v) No No (· = v) ∧ 0 < x.readers ∧ w' = w.setVec v (some { x with readers := x.readers - 1 }))
      (fun w' _ => w' = w ∧ x.readers = 0) := by
  unfold restoreArrayRead
  refine M.wp_bind.2 (wp_getV hx (M.wp_bind.2 (M.wp_check (fun ho => ?_) fun h => ⟨rfl, by omega⟩)))
  refine wp_setReaders hx ?_
  obtain ⟨h1, h2⟩ := Rel.counts hi hx (st := x.state) (rd := x.readers - 1) (X := No) (Y := (· = v)) (hi.vec v x hx).odd (fun _ => (hi.vec v x hx).rd ho)
    (.inr (.inl rfl)) (.inl rfl)
  exact ⟨h1, h2, ho, rfl⟩

theorem getArrayRead_wp {w : W α} (hi : Inv w) {v : Nat} {x : DVec} (hx : w.vecs v = some x) {m : Mem} :
    Wp (getArrayRead E v m) w (fun w' p => x.state % 2 = 0 ∧ (0 < x.len → Valid x) ∧ ∃ w1 x1, Synced w v x m w1 x1 ∧ p = (x1.side m).arr ∧
      w' = w1.setVec v (some { x1 with readers := x.readers + 1 }) ∧ Inv w' ∧ Rel w w' (· = v) No No No) (fun w' _ => w' = w) := by
  unfold getArrayRead
  refine M.wp_bind.2 (wp_getV hx (M.wp_bind.2 (M.wp_check (fun he => ?_) fun _ => rfl)))
  have fin : ∀ w1 x1, Synced w v x m w1 x1 → Inv (w1.setVec v (some { x1 with readers := x.readers + 1 })) ∧
      Rel w (w1.setVec v (some { x1 with readers := x.readers + 1 })) (· = v) No No No := by
    intro w1 x1 h
    obtain ⟨h1, h2⟩ := Rel.counts h.inv h.vec (st := x1.state) (rd := x.readers + 1) (X := No) (Y := No) (h.inv.vec v x1 h.vec).odd
      (fun _ => by rw [h.state]; exact he) (.inr (.inl rfl)) (.inr (by rw [h.readers]; omega))
    exact ⟨h1, Rel.mono hi ((h.rel hi hx he).trans h2) (fun u h => h.elim id id) (fun u h => h.elim id id) (fun u h => h.elim id id) (fun u h => h.elim id id)⟩
  by_cases h0 : 0 < x.len
  · rw [if_pos h0]
    refine M.wp_bind.2 (M.wp_check (fun hv => ?_) fun _ => rfl)
    have hv := (validB_iff h0).1 hv
    refine M.wp_bind.2 (M.wp_mono (getCore_wp (R := fun _ _ => False) hi hx he) ?_ fun _ _ h => h.elim)
    rintro w1 p ⟨x1, h, rfl⟩
    exact M.wp_bind.2 (wp_setReaders h.vec ⟨he, fun _ => hv, w1, x1, h, rfl, rfl, fin w1 x1 h⟩)
  · rw [if_neg h0]
    have hem := (hi.vec v x hx).empty (by omega)
    have hS : Synced w v x m w x := Synced.refl hi hx fun ⟨m', h⟩ => absurd (by rw [hem]) h
    exact M.wp_bind.2 (wp_setReaders hx ⟨he, fun h => absurd h h0, w, x, hS, by rw [hem], rfl, fin w x hS⟩)

theorem syncArray_noop {w : W α} {v : Nat} {x : DVec} (hx : w.vecs v = some x) {m : Mem} (he : x.state % 2 = 0) (ha : (x.side m).arr ≠ none) :
    syncArray E v m w = .ok w () := by
  unfold syncArray
  have hg : getV v w = .ok w x := by unfold getV; rw [hx]
  rw [M.bind_apply, hg, Out.bind_ok, M.bind_apply]
  have hc : (M.check (x.state % 2 = 0) .access : M (W α) Unit) w = .ok w () := by unfold M.check; rw [if_pos he]
  rw [hc, Out.bind_ok]
  by_cases h0 : x.len = 0
  · rw [if_pos h0]; rfl
  · rw [if_neg h0]
    unfold syncB
    rw [M.bind_apply, hg, Out.bind_ok, if_neg fun h => ha h.2]
    rfl

/-- `CeedVectorGetArrayWrite`. -/
theorem getArrayWrite_wp {w : W α} (hi : Inv w) {v : Nat} {x : DVec} (hx : w.vecs v = some x) {m : Mem} :
    Wp (getArrayWrite E v m) w (fun w' p => ∃ x', Granted w v x m p w' x') (fun w' _ => w' = w) := by
  unfold getArrayWrite
  refine M.wp_bind.2 (wp_getV hx (M.wp_bind.2 (wp_lock (fun he hr => ?_) fun _ _ => rfl)))
  have hV := hi.vec v x hx
  by_cases h0 : 0 < x.len
  swap
  · rw [if_neg h0]
    exact M.wp_bind.2 (wp_bump hx ⟨_, hi.granted_empty hx h0 m he hr⟩)
  rw [if_pos h0]
  unfold getArrayWriteB
  refine M.wp_bind.2 (M.wp_bind.2 (wp_getV hx ?_))
  by_cases hs : (x.side m).bor.isSome = true ∨ (x.side m).own.isSome = true
  · rw [if_pos hs]
    have : ∃ a, (x.side m).slot = some a ∧ (if (x.side m).bor.isSome then (x.side m).bor else (x.side m).own) = some a := by
      unfold Side.slot
      cases hb : (x.side m).bor with
      | some a => exact ⟨a, rfl, rfl⟩
      | none =>
        rw [hb] at hs
        obtain ⟨a, ha⟩ := Option.isSome_iff_exists.1 (hs.resolve_left (by simp))
        rw [ha]
        exact ⟨a, rfl, rfl⟩
    obtain ⟨a, ha, ha'⟩ := this
    rw [ha']
    refine M.wp_bind.2 ?_
    unfold useArr
    refine M.wp_bind.2 (wp_getV hx (wp_putV ?_))
    set x1 := x.setSide m { x.side m with arr := some a } with hx1
    unfold getArrayB getCore
    refine M.wp_bind.2 (M.wp_bind.2 (wp_ok (syncArray_noop (x := x1) (setVec_same _ _ _) he (by rw [setSide_same]; simp)) ?_))
    refine M.wp_bind.2 (wp_getV (setVec_same _ _ _) ?_)
    refine M.wp_pure.2 ?_
    refine M.wp_bind.2 (wp_getV (setVec_same _ _ _) (M.wp_bind.2 (wp_putV ?_)))
    refine M.wp_pure.2 ?_
    rw [setVec_setVec]
    set x' : DVec := { x1 with side := fun m' => { x1.side m' with arr := if m' = m then (x1.side m).arr else none } } with hx'
    have e0 : (x1.side m).arr = some a := by rw [setSide_same]
    have e1 : (x'.side m).arr = some a := (if_pos rfl).trans e0
    have e2 : ∀ m', m' ≠ m → (x'.side m').arr = none := fun m' h => if_neg h
    have hs : ∀ m', (x'.side m').bor = (x.side m').bor ∧ (x'.side m').own = (x.side m').own := fun m' => by
      show (x1.side m').bor = _ ∧ (x1.side m').own = _
      by_cases h : m' = m
      · subst h; rw [setSide_same]; exact ⟨rfl, rfl⟩
      · rw [setSide_ne _ _ h]; exact ⟨rfl, rfl⟩
    have harr : ∀ m' e, (x'.side m').arr = some e → m' = m ∧ e = a := by
      intro m' e h
      by_cases hm : m' = m
      · subst hm; rw [e1] at h; cases h; exact ⟨rfl, rfl⟩
      · rw [e2 m' hm] at h; cases h
    obtain ⟨b, hb, -⟩ := hV.slot m a ha
    obtain ⟨h1, h2⟩ := hi.flags (x' := x') (f := b.buf.val) hx hs (fun m' e h => by rw [(harr m' e h).1, (harr m' e h).2]; exact ha) rfl
      (fun m' e h => ⟨b, by rw [(harr m' e h).2]; exact hb, fun _ _ => rfl⟩) (fun ho => by have : x.state % 2 = 1 := ho; omega) hV.rd
    have hP : Placed w v x m (w.setVec v (some x')) x' := ⟨h1, h2, setVec_same _ _ _, rfl, rfl, rfl, fun m' => (hs m').1,
      fun m' e h => by rw [slot_congr (hs m')]; exact h, by rw [e1]; simp, e2 _ (other_ne m)⟩
    refine M.wp_bind.2 (wp_bump (setVec_same _ _ _) ?_)
    refine M.wp_pure.2 ?_
    have hG := hP.granted he hr
    rw [e1] at hG
    rw [e0]
    exact ⟨_, hG⟩
  · rw [if_neg hs]
    refine M.wp_bind.2 (M.wp_mono (setCopy_wp (E := E) hi hx (m := m) (src := none) fun _ c h => by cases h) ?_ fun _ _ h => h.1)
    rintro w1 - ⟨-, -, x1, hi1, hg1, hv1, hl1, hs1, hr1, hb1, ha1, -⟩
    have hvd : Valid x1 := ⟨m, (ha1 h0).1⟩
    refine M.wp_mono (getArrayB_wp (R := fun _ _ => False) hi1 hv1 (by rw [hs1]; omega) hvd) ?_ fun _ _ h => h.elim
    rintro w2 p ⟨x2, h, rfl, -⟩
    refine M.wp_bind.2 (wp_bump h.vec ?_)
    refine M.wp_pure.2 ?_
    have hG := h.granted (by rw [hs1]; omega) hr1
    exact ⟨_, hG.inv, hg1.trans hG.grow, hG.vec, he, hr, hG.len.trans hl1, hG.odd, hG.readers', fun m' => (hG.bor m').trans (hb1 m'), hG.arr, hG.oth,
      fun h => hG.nonnull (by rw [hl1]; exact h)⟩

/-- A vector without valid values gets an array. -/
theorem chooseArr_wp {w : W α} (hi : Inv w) {v : Nat} {x : DVec} (hx : w.vecs v = some x) (he : x.state % 2 = 0) (hr : x.readers = 0) {R : W α → Err → Prop} :
    Wp (chooseArr E v) w (fun w' _ => ∃ x', Inv w' ∧ Grow w w' v ∧ w'.vecs v = some x' ∧ x'.len = x.len ∧ x'.state % 2 = 0 ∧ x'.readers = 0 ∧
      (∀ m, (x'.side m).bor = (x.side m).bor) ∧ (0 < x.len → Valid x')) R := by
  have hV := hi.vec v x hx
  unfold chooseArr
  refine M.wp_bind.2 (wp_getV hx ?_)
  by_cases hn : (x.side .device).arr = none ∧ (x.side .host).arr = none
  swap
  · rw [if_neg hn]
    refine ⟨x, hi, Grow.refl w v, hx, rfl, he, hr, fun _ => rfl, fun _ => ?_⟩
    by_contra hc
    exact hn ⟨by by_contra h; exact hc ⟨_, h⟩, by by_contra h; exact hc ⟨_, h⟩⟩
  rw [if_pos hn]
  have use : ∀ m p, p = (x.side m).slot → p.isSome = true → (x.side (other m)).arr = none → Wp (useArr v m p) w (fun w' _ => ∃ x', Inv w' ∧ Grow w w' v ∧ w'.vecs v = some x' ∧ x'.len = x.len ∧ x'.state % 2 = 0 ∧ x'.readers = 0 ∧
      (∀ m, (x'.side m).bor = (x.side m).bor) ∧ (0 < x.len → Valid x')) R := by
    intro m p hp hs ho
    obtain ⟨a, ha⟩ := Option.isSome_iff_exists.1 hs
    refine M.wp_mono (useArr_wp (R := R) hi hx (a := a) (hp ▸ ha) ho ha) ?_ fun _ _ h => h
    rintro w' - ⟨x', h⟩
    exact ⟨x', h.inv, h.grow, h.vec, h.len, by rw [h.state]; exact he, h.readers.trans hr, h.bor, fun _ => h.valid⟩
  have bor : ∀ m, (x.side m).bor.isSome = true → (x.side m).bor = (x.side m).slot := fun m h => by
    obtain ⟨a, ha⟩ := Option.isSome_iff_exists.1 h
    unfold Side.slot; rw [ha]; rfl
  have own : ∀ m, ¬ (x.side m).bor.isSome = true → (x.side m).own = (x.side m).slot := fun m h => by
    have : (x.side m).bor = none := by simpa using h
    unfold Side.slot; rw [this]; rfl
  by_cases h1 : (x.side .device).bor.isSome = true
  · rw [if_pos h1]; exact use _ _ (bor _ h1) h1 hn.2
  rw [if_neg h1]
  by_cases h2 : (x.side .host).bor.isSome = true
  · rw [if_pos h2]; exact use _ _ (bor _ h2) h2 hn.1
  rw [if_neg h2]
  by_cases h3 : (x.side .device).own.isSome = true
  · rw [if_pos h3]; exact use _ _ (own _ h1) h3 hn.2
  rw [if_neg h3]
  by_cases h4 : (x.side .host).own.isSome = true
  · rw [if_pos h4]; exact use _ _ (own _ h2) h4 hn.1
  rw [if_neg h4]
  refine M.wp_mono (setCopy_wp (E := E) hi hx (m := .device) (src := none) fun _ c h => by cases h) ?_ fun _ _ h => h.2.elim (absurd he) (absurd hr)
  rintro w1 - ⟨-, -, x1, hi1, hg1, hv1, hl1, hs1, hr1, hb1, ha1, -⟩
  exact ⟨x1, hi1, hg1, hv1, hl1, by rw [hs1]; omega, hr1, hb1, fun h0 => ⟨_, (ha1 h0).1⟩⟩

end DevVec
end Verif
