import Verif.DevVec.Calls

/-!
# Vectors with arrays on the host and on the device: setting values and arithmetic
-/

set_option linter.unusedSectionVars false

namespace Verif
namespace DevVec

open Vector (Mem Mode NormType)
open M (wp)

variable {α : Type} [CommRing α] [DecidableEq α] {E : Env α}

theorem HasVals.congr {w : W α} {v : Nat} {f g : Nat → α} (h : HasVals w v f) (hfg : ∀ x, w.vecs v = some x → ∀ i < x.len, f i = g i) : HasVals w v g := by
  obtain ⟨x, hx, h1, h2⟩ := h
  refine ⟨x, hx, h1, fun m a ha => ?_⟩
  obtain ⟨b, hb, h3, h4, h5⟩ := h2 m a ha
  exact ⟨b, hb, h3, h4, fun i hi => (h5 i hi).trans (hfg x hx i hi)⟩

theorem HasVals.ext {w : W α} {v : Nat} {f g : Nat → α} (h : HasVals w v f) (hfg : ∀ i, f i = g i) : HasVals w v g := h.congr fun _ _ i _ => hfg i

theorem validB_cases {x : DVec} (hv : Valid x) : (x.side .device).arr.isSome = true ∨ ((x.side .device).arr.isSome = true → False) ∧ (x.side .host).arr.isSome = true := by
  by_cases h : (x.side .device).arr.isSome = true
  · exact .inl h
  · refine .inr ⟨h, ?_⟩
    obtain ⟨m, hm⟩ := hv
    cases m
    · exact Option.isSome_iff_ne_none.2 hm
    · exact absurd (Option.isSome_iff_ne_none.2 hm) h

theorem not_valid {x : DVec} (hv : ¬ Valid x) (m : Mem) : ¬ (x.side m).arr.isSome = true := fun h => hv ⟨m, Option.isSome_iff_ne_none.1 h⟩

theorem setValue_wp {w : W α} (hi : Inv w) {v : Nat} {x : DVec} (hx : w.vecs v = some x) {z : α} :
    Wp (setValue E v z) w (fun w' _ => x.state % 2 = 0 ∧ x.readers = 0 ∧ ∃ x', Inv w' ∧ Rel w w' (· = v) (· = v) No No ∧ w'.vecs v = some x' ∧
      x'.len = x.len ∧ x'.state % 2 = 0 ∧ x'.readers = 0 ∧ (0 < x.len → HasVals w' v fun _ => z))
      (fun w' _ => w' = w ∧ (x.state % 2 ≠ 0 ∨ x.readers ≠ 0)) := by
  unfold setValue
  refine M.wp_bind.2 (wp_getV hx (M.wp_bind.2 (wp_lock (fun he hr => ?_) fun h _ => ⟨rfl, h⟩)))
  unfold setValueB
  refine M.wp_bind.2 (M.wp_bind.2 (M.wp_mono (chooseArr_wp (E := E) (R := fun _ _ => False) hi hx he hr) ?_ fun _ _ h => h.elim))
  rintro w1 - ⟨x1, hi1, hg1, hv1, hl1, hs1, hr1, hb1, hval1⟩
  refine M.wp_bind.2 (wp_getV hv1 ?_)
  have hrel1 : Rel w w1 (· = v) (· = v) No No := Rel.free hi hx hg1 he hr (Kept.mk hx hv1 hl1 hb1) (.inl rfl)
  have hV1 := hi1.vec v x1 hv1
  -- the state
  have fin : ∀ w2 x2, Inv w2 → Rel w1 w2 (· = v) (· = v) No No → w2.vecs v = some x2 → x2.len = x1.len → x2.state % 2 = 0 → x2.readers = 0 → (0 < x.len → HasVals w2 v fun _ => z) →
      Wp (bump v 2) w2 (fun w' _ => x.state % 2 = 0 ∧ x.readers = 0 ∧ ∃ x', Inv w' ∧ Rel w w' (· = v) (· = v) No No ∧ w'.vecs v = some x' ∧
      x'.len = x.len ∧ x'.state % 2 = 0 ∧ x'.readers = 0 ∧ (0 < x.len → HasVals w' v fun _ => z)) (fun w' _ => w' = w ∧ (x.state % 2 ≠ 0 ∨ x.readers ≠ 0)) := by
    intro w2 x2 hi2 hr2 hv2 hl2 hs2 hrd2 hval2
    refine wp_bump hv2 ⟨he, hr, { x2 with state := x2.state + 2 }, ?_⟩
    obtain ⟨h1, h2⟩ := Rel.counts hi2 hv2 (st := x2.state + 2) (rd := x2.readers) (X := No) (Y := No) (fun h => by omega) (fun _ => by omega) (.inr (.inr hs2)) (.inr (Nat.le_refl _))
    refine ⟨h1, Rel.mono hi ((hrel1.trans hr2).trans h2) (fun u h => h.elim (fun h => h.elim id id) id) (fun u h => h.elim (fun h => h.elim id id) fun h => h.elim)
      (fun u h => h.elim (fun h => h.elim id id) id) (fun u h => h.elim (fun h => h.elim id id) id), setVec_same _ _ _, hl2.trans hl1, by show (x2.state + 2) % 2 = 0; omega, hrd2,
      fun h0 => (keeps_counts hv2 _ _).1 _ (hval2 h0)⟩
  obtain ⟨f, hf⟩ := hV1.coh
  have upd : ∀ m m' (g : Nat → α → α), m' = other m → (∀ i y, g i y = z) → (x1.side m).arr.isSome = true → M.wp True (do mapA m (x1.side m).arr x1.len g; dropArr v m') w1
      (fun w' a => M.wp True (bump v 2) w' (fun w' _ => x.state % 2 = 0 ∧ x.readers = 0 ∧ ∃ x', Inv w' ∧ Rel w w' (· = v) (· = v) No No ∧ w'.vecs v = some x' ∧
      x'.len = x.len ∧ x'.state % 2 = 0 ∧ x'.readers = 0 ∧ (0 < x.len → HasVals w' v fun _ => z)) (fun w' _ => w' = w ∧ (x.state % 2 ≠ 0 ∨ x.readers ≠ 0)))
      (fun w' _ => w' = w ∧ (x.state % 2 ≠ 0 ∨ x.readers ≠ 0)) := by
    intro m m' g hm hg ha
    refine M.wp_mono (upd_wp (R := fun _ _ => False) hi1 hv1 ha hf hm) ?_ fun _ _ h => h.elim
    rintro w2 - ⟨x2, hU⟩
    refine fin w2 x2 hU.inv ?_ hU.vec hU.len (by rw [hU.state]; exact hs1) (hU.readers.trans hr1) fun _ => hU.hasVals.ext fun i => hg i _
    exact Rel.free hi1 hv1 hU.grow hs1 hr1 (Kept.mk hv1 hU.vec hU.len fun m => (hU.same m).1) (.inl rfl)
  by_cases hd : (x1.side .device).arr.isSome = true
  · rw [if_pos hd]
    exact upd _ _ _ rfl (fun _ _ => by by_cases hz : z = 0 <;> simp [hz]) hd
  · rw [if_neg hd]
    by_cases hh : (x1.side .host).arr.isSome = true
    · rw [if_pos hh]
      exact upd _ _ _ rfl (fun _ _ => rfl) hh
    · rw [if_neg hh]
      refine M.wp_pure.2 (fin w1 x1 hi1 (Rel.refl _ _ _ _ _) hv1 rfl hs1 hr1 fun h0 => ?_)
      rcases validB_cases (hval1 h0) with h | h
      · exact absurd h hd
      · exact absurd h.2 hh

/-! ## Windows -/

theorem strided_ok {m : Mem} {start stop step : Int} {lim : Nat} {g : Nat → α} {b : Buf α} (h1 : 0 ≤ start) (h2 : stop ≤ b.len) (h3 : stop ≤ lim) (h4 : 0 < step) :
    ∃ b', strided m start stop step lim g b = .ok b' ∧ b'.len = b.len ∧ ∀ i, (InWindow start stop step i → b'.val i = g i) ∧ (¬ InWindow start stop step i → b'.val i = b.val i) := by
  unfold strided
  have key : ∀ i : Nat, InWindow start stop step i ↔ start ≤ i ∧ (i : Int) < stop ∧ step ∣ (i : Int) - start := by
    intro i
    constructor
    · rintro ⟨k, hk, hlt⟩
      have : 0 ≤ (k : Int) * step := Int.mul_nonneg (Int.natCast_nonneg k) h4.le
      exact ⟨by omega, hlt, ⟨k, by rw [hk, add_sub_cancel_left, mul_comm]⟩⟩
    · rintro ⟨hs, hlt, c, hc⟩
      have hc0 : 0 ≤ c := by
        by_contra hneg
        have : step * c < 0 := Int.mul_neg_of_pos_of_neg h4 (by omega)
        omega
      refine ⟨c.toNat, ?_, hlt⟩
      rw [Int.toNat_of_nonneg hc0, mul_comm]
      omega
  by_cases hlt : start < stop
  · rw [if_pos hlt, if_neg (by rintro (h | h | h | h | ⟨-, h⟩) <;> omega)]
    refine ⟨_, rfl, rfl, fun i => ?_⟩
    rw [key]
    exact ⟨fun h => if_pos h, fun h => if_neg h⟩
  · rw [if_neg hlt]
    refine ⟨b, rfl, rfl, fun i => ⟨fun h => ?_, fun _ => rfl⟩⟩
    rw [key] at h
    omega

theorem blasCopy_ok {start stop step : Int} {lim : Nat} {g : Nat → α} {b : Buf α} (h1 : 0 ≤ start) (h2 : stop ≤ b.len) (h3 : stop ≤ lim) (h4 : step = 1) :
    ∃ b', blasCopy start stop step lim g b = .ok b' ∧ b'.len = b.len ∧ ∀ i, (InWindow start stop step i → b'.val i = g i) ∧ (¬ InWindow start stop step i → b'.val i = b.val i) := by
  subst h4
  unfold blasCopy
  have key : ∀ i : Nat, InWindow start stop 1 i ↔ start ≤ i ∧ (i : Int) ≤ start + (stop - start - 1) * |1| ∧ (1 : Int) ∣ (i : Int) - start := by
    intro i
    rw [abs_one]
    constructor
    · rintro ⟨k, hk, hlt⟩
      exact ⟨by omega, by omega, one_dvd _⟩
    · rintro ⟨hs, hlt, -⟩
      exact ⟨((i : Int) - start).toNat, by rw [Int.toNat_of_nonneg (by omega)]; omega, by omega⟩
  by_cases hlt : start < stop
  · rw [if_pos hlt, if_neg (by rw [abs_one]; rintro (h | h | h) <;> omega)]
    refine ⟨_, rfl, rfl, fun i => ?_⟩
    rw [key]
    exact ⟨fun h => if_pos h, fun h => if_neg h⟩
  · rw [if_neg hlt]
    refine ⟨b, rfl, rfl, fun i => ⟨fun h => ?_, fun _ => rfl⟩⟩
    obtain ⟨k, hk, h⟩ := h
    omega

theorem wp_liftok {β : Type} {r : Res β} {a : β} {w : W α} {Q : W α → β → Prop} {R : W α → Err → Prop} (h : r = .ok a) (hq : Q w a) : Wp (M.lift r : M (W α) β) w Q R := by
  subst h
  exact hq

open Classical in
theorem setStridedOn_wp {w : W α} (hi : Inv w) {v : Nat} {x : DVec} (hx : w.vecs v = some x) {m : Mem} (hm : (x.side m).arr.isSome = true) {start stop step : Int} {z : α}
    (h1 : 0 ≤ start) (h2 : stop ≤ x.len) (h3 : 0 < step) {f : Nat → α} (hf : Val w x f) {R : W α → Err → Prop} :
    Wp (setStridedOn v m start stop step z) w (fun w' _ => ∃ x', Upd w v x w' x' fun i => if InWindow start stop step i then z else f i) R := by
  obtain ⟨a, ha⟩ := Option.isSome_iff_exists.1 hm
  have hV := hi.vec v x hx
  obtain ⟨b, hb, hbm, hbl, -⟩ := hV.slot m a (hV.arr m a ha)
  unfold setStridedOn
  obtain ⟨b', hb', hbl', hw⟩ := strided_ok (m := m) (stop := stop) (lim := b.buf.len) (g := fun _ => z) (b := b.buf) h1 (by omega) (by omega) h3
  refine M.wp_bind.2 (wp_getV hx (M.wp_bind.2 (wp_look ha hb hbm hbl (M.wp_bind.2 (wp_liftok hb' (M.wp_bind.2 (wp_save ha hb hbm ?_)))))))
  refine dropArr_wp (w := w.setArr a _) (x := x) hx ?_
  refine ⟨_, hi.upd hx ha hb hbl' fun i hi' => ?_⟩
  obtain ⟨b0, hb0, h⟩ := hf m a ha
  rw [hb] at hb0
  cases hb0
  by_cases hc : InWindow start stop step i
  · rw [if_pos hc]; exact (hw i).1 hc
  · rw [if_neg hc, (hw i).2 hc]; exact h i hi'

open Classical in
theorem setValueStrided_wp {w : W α} (hi : Inv w) {v : Nat} {x : DVec} (hx : w.vecs v = some x) {start stop step : Int} {z : α} (h1 : 0 ≤ start) (h3 : 0 < step) :
    Wp (setValueStrided v start stop step z) w (fun w' _ => Inv w' ∧ Rel w w' (· = v) (· = v) No No ∧
      ∀ f, HasVals w v f → HasVals w' v fun i => if InWindow start (if stop = -1 then (x.len : Int) else stop) step i then z else f i) (fun w' _ => w' = w) := by
  unfold setValueStrided
  refine M.wp_bind.2 (wp_getV hx (M.wp_bind.2 (wp_lock (fun he hr => ?_) fun h _ => rfl)))
  refine M.wp_bind.2 (M.wp_check (fun hst => ?_) fun _ => rfl)
  unfold setValueStridedB
  refine M.wp_bind.2 (M.wp_bind.2 (wp_getV hx ?_))
  obtain ⟨g, hg⟩ := (hi.vec v x hx).coh
  have h2 : (if stop = -1 then (x.len : Int) else stop) ≤ x.len := by
    by_cases h : stop = -1
    · rw [if_pos h]
    · rw [if_neg h]; exact hst.2
  have on : ∀ m, (x.side m).arr.isSome = true → M.wp True (setStridedOn v m start (if stop = -1 then (x.len : Int) else stop) step z) w
      (fun w' a => M.wp True (bump v 2) w' (fun w' _ => Inv w' ∧ Rel w w' (· = v) (· = v) No No ∧
      ∀ f, HasVals w v f → HasVals w' v fun i => if InWindow start (if stop = -1 then (x.len : Int) else stop) step i then z else f i) (fun w' _ => w' = w)) (fun w' _ => w' = w) := by
    intro m hm
    refine M.wp_mono (setStridedOn_wp (R := fun _ _ => False) hi hx hm h1 h2 h3 hg) ?_ fun _ _ h => h.elim
    rintro w1 - ⟨x1, hU⟩
    refine wp_bump hU.vec ?_
    have hr1 : Rel w w1 (· = v) (· = v) No No := Rel.free hi hx hU.grow he hr (Kept.mk hx hU.vec hU.len fun m => (hU.same m).1) (.inl rfl)
    obtain ⟨k1, k2⟩ := Rel.counts hU.inv hU.vec (st := x1.state + 2) (rd := x1.readers) (X := No) (Y := No) (fun h => by rw [hU.state] at h; omega) (fun h => by rw [hU.readers] at h; omega)
      (.inr (.inr (by rw [hU.state]; exact he))) (.inr (Nat.le_refl _))
    refine ⟨k1, Rel.mono hi (hr1.trans k2) (fun u h => h.elim id id) (fun u h => h.elim id fun h => h.elim) (fun u h => h.elim id id) (fun u h => h.elim id id), fun f hf => ?_⟩
    refine (keeps_counts hU.vec _ _).1 _ (hU.hasVals.congr fun y hy i hi' => ?_)
    have hy' : y.len = x.len := by
      rw [hU.vec] at hy
      cases hy
      exact hU.len
    have : g i = f i := by
      obtain ⟨a, ha⟩ := Option.isSome_iff_exists.1 hm
      obtain ⟨b, hb, e1⟩ := hg m a ha
      obtain ⟨b', hb', e2⟩ := ((hi.hasVals_iff hx).1 hf).2 m a ha
      rw [hb] at hb'
      cases hb'
      rw [← e1 i (by omega), e2 i (by omega)]
    rw [this]
  by_cases hd : (x.side .device).arr.isSome = true
  · rw [if_pos hd]
    exact on _ hd
  · rw [if_neg hd]
    by_cases hh : (x.side .host).arr.isSome = true
    · rw [if_pos hh]
      exact on _ hh
    · rw [if_neg hh]
      exact rfl

theorem Inv.vals_unique {w : W α} (hi : Inv w) {v : Nat} {x : DVec} (hx : w.vecs v = some x) {f g : Nat → α} (hf : HasVals w v f) (hg : HasVals w v g) : ∀ i < x.len, f i = g i := by
  obtain ⟨⟨m, hm⟩, h1⟩ := (hi.hasVals_iff hx).1 hf
  obtain ⟨-, h2⟩ := (hi.hasVals_iff hx).1 hg
  obtain ⟨a, ha⟩ := Option.ne_none_iff_exists'.1 hm
  obtain ⟨b, hb, e1⟩ := h1 m a ha
  obtain ⟨b', hb', e2⟩ := h2 m a ha
  rw [hb] at hb'
  cases hb'
  exact fun i h => (e1 i h).symm.trans (e2 i h)

theorem scale_wp {w : W α} (hi : Inv w) {v : Nat} {x : DVec} (hx : w.vecs v = some x) {k : α} :
    Wp (scale v k) w (fun w' _ => Inv w' ∧ Rel w w' (· = v) (· = v) No (· = v) ∧ ∀ f, HasVals w v f → HasVals w' v fun i => k * f i) (fun w' _ => w' = w) := by
  unfold scale
  refine M.wp_bind.2 (wp_getV hx (M.wp_bind.2 (M.wp_check (fun hv => ?_) fun _ => rfl)))
  by_cases h0 : x.len = 0
  · rw [if_pos h0]
    exact M.wp_pure.2 ⟨hi, Rel.refl _ _ _ _ _, fun f hf => absurd (hi.len_pos hx hf) (by omega)⟩
  rw [if_neg h0]
  have hv := (validB_iff (by omega)).1 hv
  obtain ⟨g, hg⟩ := (hi.vec v x hx).coh
  unfold scaleB
  refine M.wp_bind.2 (wp_getV hx ?_)
  have on : ∀ m m', m' = other m → (x.side m).arr.isSome = true → Wp (do mapA m (x.side m).arr x.len (fun _ z => z * k); dropArr v m') w
      (fun w' _ => Inv w' ∧ Rel w w' (· = v) (· = v) No (· = v) ∧ ∀ f, HasVals w v f → HasVals w' v fun i => k * f i) (fun w' _ => w' = w) := by
    intro m m' hm ha
    refine M.wp_mono (upd_wp (R := fun _ _ => False) hi hx ha hg hm) ?_ fun _ _ h => h.elim
    rintro w1 - ⟨x1, hU⟩
    refine ⟨hU.inv, hU.rel hi hx, fun f hf => hU.hasVals.congr fun y hy i hi' => ?_⟩
    rw [hU.vec] at hy
    cases hy
    rw [hi.vals_unique hx hf ((hi.hasVals_iff hx).2 ⟨hv, hg⟩) i (by rw [← hU.len]; exact hi'), mul_comm]
  by_cases hd : (x.side .device).arr.isSome = true
  · rw [if_pos hd]; exact on _ _ rfl hd
  · rw [if_neg hd]
    rcases validB_cases hv with h | h
    · exact absurd h hd
    · rw [if_pos h.2]; exact on _ _ rfl h.2

end DevVec
end Verif
