import Verif.DevVec.Calls3

/-!
# Vectors with arrays on the host and on the device: norms and copies
-/

set_option linter.unusedSectionVars false

namespace Verif
namespace DevVec

open Vector (Mem Mode NormType)
open M (wp)

variable {α : Type} [CommRing α] [DecidableEq α] {E : Env α}

theorem norm_wp {w : W α} (hi : Inv w) {v : Nat} {x : DVec} (hx : w.vecs v = some x) {ty : NormType} :
    Wp (norm E v ty) w (fun w' z => Inv w' ∧ Rel w w' (· = v) No No No ∧ (x.len = 0 → z = 0) ∧ ∀ f, HasVals w v f → ∃ g, z = E.norm ty x.len g ∧ ∀ i < x.len, g i = f i)
      (fun w' _ => w' = w) := by
  unfold norm
  refine M.wp_bind.2 (wp_getV hx (M.wp_bind.2 (M.wp_check (fun hv => ?_) fun _ => rfl)))
  by_cases h0 : x.len = 0
  · rw [if_pos h0]
    exact M.wp_pure.2 ⟨hi, Rel.refl _ _ _ _ _, fun _ => rfl, fun f hf => absurd (hi.len_pos hx hf) (by omega)⟩
  rw [if_neg h0]
  refine M.wp_bind.2 (M.wp_mono (getArrayRead_wp hi hx) ?_ fun _ _ h => h)
  rintro w2 p ⟨he, hv2, w1, x1, hS, rfl, rfl, hi2, -⟩
  obtain ⟨a, ha⟩ := Option.ne_none_iff_exists'.1 (hS.arr (hv2 (by omega)))
  have hV := hS.inv.vec v x1 hS.vec
  obtain ⟨b, hb, hbm, hbl, -⟩ := hV.slot _ a (hV.arr _ a ha)
  refine M.wp_bind.2 (wp_look ha hb hbm (by rw [← hS.len]; exact hbl) ?_)
  refine M.wp_bind.2 (M.wp_mono (restoreArrayRead_wp hi2 (setVec_same _ _ _)) ?_ fun _ _ h => absurd h.2 (Nat.succ_ne_zero _))
  · rintro w3 - ⟨-, -, -, rfl⟩
    have e : (w1.setVec v (some { x1 with readers := x.readers + 1 })).setVec v (some { x1 with readers := x.readers + 1 - 1 }) = w1 := by
      rw [setVec_setVec, Nat.add_sub_cancel, ← hS.readers]
      exact setVec_self hS.vec
    refine M.wp_pure.2 ?_
    rw [e]
    refine ⟨hS.inv, hS.rel hi hx he, fun h => absurd h h0, fun f hf => ⟨_, rfl, fun i hlt => ?_⟩⟩
    obtain ⟨b', hb', h⟩ := hS.val f ((hi.hasVals_iff hx).1 hf).2 _ a ha
    rw [hb] at hb'
    cases hb'
    exact h i (by rw [hS.len]; exact hlt)

/-- New contents of the array of a vector that is being written. -/
theorem Inv.writeTo {w : W α} (hi : Inv w) {v : Nat} {x : DVec} (hx : w.vecs v = some x) (ho : x.state % 2 = 1) {m : Mem} {a : Nat} (ha : (x.side m).arr = some a) {b : Blk α}
    (hb : w.heap a = some b) {g : Buf α} (hg : g.len = b.buf.len) {f : Nat → α} (hf : ∀ i < x.len, g.val i = f i) :
    Inv (w.setArr a (some { b with buf := g })) ∧ Rel w (w.setArr a (some { b with buf := g })) (· = v) (· = v) No No ∧ HasVals (w.setArr a (some { b with buf := g })) v f := by
  have hV := hi.vec v x hx
  have hval : Val (w.setArr a (some { b with buf := g })) x f := by
    intro m' c hc
    have : m' = m := by
      rcases eq_or_other m m' with h | h
      · exact h
      · subst h
        rw [hV.odd ho m (by rw [ha]; simp)] at hc
        cases hc
    subst this
    rw [ha] at hc
    cases hc
    exact ⟨_, setArr_same _ _ _, hf⟩
  obtain ⟨h1, h2⟩ := hi.store (x' := x) hx (hV.arr m a ha) hb hg (fun _ => ⟨rfl, rfl⟩) hV.arr rfl hval hV.odd hV.rd
  have e : (w.setArr a (some { b with buf := g })).setVec v (some x) = w.setArr a (some { b with buf := g }) := setVec_self hx
  rw [e] at h1 h2
  refine ⟨h1, Rel.of_grow hi h2 (.inl rfl) (.inr fun y m' c hy _ hc => ⟨y, hy, rfl, hc⟩) (.inr fun y m' c f' hy hr => ?_) (Kept.mk hx hx rfl fun _ => rfl),
    (h1.hasVals_iff hx).2 ⟨⟨m, by rw [ha]; simp⟩, hval⟩⟩
  rw [hx] at hy
  cases hy
  have := hV.rd hr
  omega

theorem copy_wp {w : W α} (hi : Inv w) {v u : Nat} {x y : DVec} (hx : w.vecs v = some x) (hy : w.vecs u = some y) :
    Wp (copy E v u) w (fun w' _ => Inv w' ∧ Rel w w' (fun t => t = v ∨ t = u) (· = u) No No ∧ ∀ f, HasVals w v f → HasVals w' u f)
      (fun w' _ => Inv w' ∧ Rel w w' (fun t => t = v ∨ t = u) No No No) := by
  unfold copy
  have same : Inv w ∧ Rel w w (fun t => t = v ∨ t = u) No No No := ⟨hi, Rel.refl _ _ _ _ _⟩
  refine M.wp_bind.2 (wp_getV hx (M.wp_bind.2 (wp_getV hy (M.wp_bind.2 (M.wp_check (fun hl => ?_) fun _ => same)))))
  refine M.wp_bind.2 (M.wp_mono (getArray_wp hi hx) ?_ fun _ _ h => by rw [h]; exact same)
  rintro w1 p ⟨x1, hG, hk⟩
  have hr1 : Rel w w1 (· = v) No No No := hG.rel hi hx (.inr hk)
  have err1 : Inv w1 ∧ Rel w w1 (fun t => t = v ∨ t = u) No No No := ⟨hG.inv, Rel.mono hi hr1 (fun t h => .inl h) (fun _ h => h) (fun _ h => h) (fun _ h => h)⟩
  by_cases huv : u = v
  · subst huv
    unfold setArray
    refine M.wp_bind.2 (M.wp_bind.2 (wp_getV hG.vec (M.wp_bind.2 (wp_lock (fun he _ => ?_) fun _ _ => err1))))
    have := hG.odd
    omega
  have hy1 : w1.vecs u = some y := by rw [hr1.vecs u huv]; exact hy
  have hV1 := hG.inv.vec v x1 hG.vec
  have hsrc : 0 < y.len → ∀ c, p = some c → ∃ d, w1.heap c = some d ∧ d.mem = .device ∧ y.len ≤ d.buf.len ∧ ¬ HeldBy w1 u c := by
    rintro - c rfl
    have hs := hV1.arr _ c hG.arr
    obtain ⟨d, h1, h2, h3, -⟩ := hV1.slot _ c hs
    exact ⟨d, h1, h2, by rw [hG.len] at h3; omega, fun h => huv (hG.inv.excl u v c h (heldBy_slot hG.vec hs))⟩
  refine M.wp_bind.2 (M.wp_mono (setCopy_wp (E := E) hG.inv hy1 hsrc) ?_ fun _ _ h => by rw [h.1]; exact err1)
  rintro w2 - ⟨hey, hry, y2, hi2, hg2, hy2, hl2, -, -, hb2, -, hv2⟩
  have hr2 : Rel w1 w2 (· = u) (· = u) No No := Rel.free hG.inv hy1 hg2 hey hry (Kept.mk hy1 hy2 hl2 hb2) (.inl rfl)
  have hx2 : w2.vecs v = some x1 := by rw [hr2.vecs v (Ne.symm huv)]; exact hG.vec
  refine M.wp_mono (restoreArray_wp hi2 hx2) ?_ fun _ _ h => absurd h.2 (by rw [hG.odd]; simp)
  rintro w3 - ⟨-, hi3, hr3, -, -⟩
  refine ⟨hi3, ?_, fun f hf => (hr3.keeps u (by simp)).1 _ ?_⟩
  · refine Rel.relax (X := (· = v)) (Y := No) (Rel.mono hi ((hr1.trans hr2).trans hr3) ?_ ?_ ?_ ?_) (fun t h => .inr fun z hz => ?_) (fun _ h => .inl h)
    · rintro t ((h | h) | h)
      · exact .inl h
      · exact .inr h
      · exact .inl h
    · rintro t ((h | h) | h)
      · exact h.elim
      · exact h
      · exact h.elim
    · rintro t ((h | h) | h)
      · exact h.elim
      · exact h.elim
      · exact h
    · rintro t ((h | h) | h) <;> exact h.elim
    · subst h
      rw [hx] at hz
      cases hz
      exact hG.even
  · have h0 := hi.len_pos hx hf
    obtain ⟨c, hc⟩ := Option.ne_none_iff_exists'.1 (hG.nonnull h0)
    obtain ⟨d, hd, h1⟩ := ((hG.inv.hasVals_iff hG.vec).1 (hk.1 f hf)).2 _ c (hG.arr.trans hc)
    refine (hv2 c d (by omega) hc hd).congr fun z hz i hlt => ?_
    rw [hy2] at hz
    cases hz
    exact h1 i (by rw [hG.len]; omega)

/-- Dropping the array of one memory type while that of the other one is valid. -/
theorem dropKeep_wp {w : W α} (hi : Inv w) {v : Nat} {x : DVec} (hx : w.vecs v = some x) {m : Mem} (ha : (x.side m).arr ≠ none) {R : W α → Err → Prop} :
    Wp (dropArr v (other m)) w (fun w' _ => Inv w' ∧ Rel w w' (· = v) No No No) R := by
  have hV := hi.vec v x hx
  obtain ⟨h1, h2, h3⟩ := dropSide x (other m)
  refine dropArr_wp hx ?_
  set x' := x.setSide (other m) { x.side (other m) with arr := none } with hx'
  have hm : x'.side m = x.side m := h3 m (other_ne m).symm
  have harr : ∀ m' e, (x'.side m').arr = some e → (x.side m').arr = some e := by
    intro m' e h
    rcases eq_or_other m m' with rfl | rfl
    · rw [hm] at h; exact h
    · rw [h2] at h; cases h
  obtain ⟨f, hf⟩ := hV.coh
  have hodd : x'.state % 2 = 1 → ∀ m', (x'.side m').arr ≠ none → (x'.side (other m')).arr = none := by
    intro ho m' h
    obtain ⟨e, he⟩ := Option.ne_none_iff_exists'.1 h
    have := hV.odd ho m' (by rw [harr m' e he]; simp)
    cases hc : (x'.side (other m')).arr with
    | none => rfl
    | some c => rw [harr _ c hc] at this; cases this
  obtain ⟨g1, g2⟩ := hi.flags (x' := x') hx h1 (fun m' e h => hV.arr m' e (harr m' e h)) rfl (f := f) (fun m' e h => hf m' e (harr m' e h)) hodd hV.rd
  have hk : Keeps w (w.setVec v (some x')) v := by
    refine ⟨fun f' hf' => ?_, fun hn => absurd ⟨m, ha⟩ ((noVals_iff hx).1 hn)⟩
    exact (g1.hasVals_iff (setVec_same _ _ _)).2 ⟨⟨m, by rw [hm]; exact ha⟩, fun m' e h => ((hi.hasVals_iff hx).1 hf').2 m' e (harr m' e h)⟩
  refine ⟨g1, Rel.of_grow hi g2 (.inr hk) (.inr fun y m' e hy ho he => ?_) (.inr fun y m' e f' hy _ hs hc hf' => ?_) (Kept.mk hx (setVec_same _ _ _) rfl fun m' => (h1 m').1)⟩
  · rw [hx] at hy
    cases hy
    refine ⟨x', setVec_same _ _ _, rfl, ?_⟩
    rcases eq_or_other m m' with rfl | rfl
    · rw [hm]; exact he
    · rw [hV.odd ho m ha] at he; cases he
  · rw [hx] at hy
    cases hy
    exact ⟨x', setVec_same _ _ _, Nat.le_refl _, rfl, by rw [slot_congr (h1 m')]; exact hs, hc, hk.1 f' hf'⟩

open Classical in
theorem copyStridedOn_wp {w : W α} (hi : Inv w) {v u : Nat} {x y : DVec} (hx : w.vecs v = some x) (hy : w.vecs u = some y) (hne : v ≠ u) {m : Mem}
    (ha : (x.side m).arr.isSome = true) {start stop step : Int} (h1 : 0 ≤ start) (h2 : stop ≤ (min x.len y.len : Nat)) (h0 : 0 < y.len) (h3 : 0 < step) (h4 : E.blas64 = true → step = 1) :
    Wp (copyStridedOn E m v u start stop step) w (fun w' _ => Inv w' ∧ Rel w w' (fun t => t = v ∨ t = u) (· = u) No No ∧
      (∃ y', w'.vecs u = some y' ∧ y'.state % 2 = 0 ∧ y'.readers = 0) ∧
      ∀ f g, HasVals w v f → HasVals w u g → HasVals w' u fun i => if InWindow start stop step i then f i else g i)
      (fun w' _ => w' = w) := by
  unfold copyStridedOn
  refine M.wp_bind.2 (M.wp_mono (getArray_wp hi hy) ?_ fun _ _ h => h)
  rintro w1 p ⟨y1, hG, hk⟩
  have hr1 : Rel w w1 (· = u) No No No := hG.rel hi hy (.inr hk)
  have hx1 : w1.vecs v = some x := by rw [hr1.vecs v hne]; exact hx
  refine M.wp_bind.2 (wp_getV hx1 ?_)
  obtain ⟨a, ha⟩ := Option.isSome_iff_exists.1 ha
  have hV := hG.inv.vec v x hx1
  obtain ⟨b, hb, hbm, hbl, -⟩ := hV.slot _ a (hV.arr _ a ha)
  refine M.wp_bind.2 (wp_look ha hb hbm hbl ?_)
  obtain ⟨c, hc⟩ := Option.ne_none_iff_exists'.1 (hG.nonnull h0)
  have hVy := hG.inv.vec u y1 hG.vec
  obtain ⟨d, hd, hdm, hdl, -⟩ := hVy.slot _ c (hVy.arr _ c (hG.arr.trans hc))
  rw [hG.len] at hdl
  refine M.wp_bind.2 (wp_look hc hd hdm (Nat.zero_le _) ?_)
  have key : ∃ b', (if m = .device ∧ E.blas64 = true then blasCopy start stop step b.buf.len b.buf.val d.buf else strided m start stop step b.buf.len b.buf.val d.buf) = .ok b' ∧
      b'.len = d.buf.len ∧ ∀ i, (InWindow start stop step i → b'.val i = b.buf.val i) ∧ (¬ InWindow start stop step i → b'.val i = d.buf.val i) := by
    by_cases hm : m = .device ∧ E.blas64 = true
    · rw [if_pos hm]
      exact blasCopy_ok h1 (by omega) (by omega) (h4 hm.2)
    · rw [if_neg hm]
      exact strided_ok h1 (by omega) (by omega) h3
  obtain ⟨b', hb', hbl', hw⟩ := key
  refine M.wp_bind.2 (wp_liftok hb' (M.wp_bind.2 (wp_save hc hd hdm ?_)))
  obtain ⟨hi2, hr2, hv2⟩ := hG.inv.writeTo hG.vec hG.odd (hG.arr.trans hc) hd hbl' (f := b'.val) (fun _ _ => rfl)
  refine M.wp_bind.2 (M.wp_mono (restoreArray_wp hi2 (x := y1) hG.vec) ?_ fun _ _ h => absurd h.2 (by rw [hG.odd]; simp))
  rintro w3 - ⟨-, hi3, hr3, hy3, -⟩
  have hx3 : w3.vecs v = some x := by rw [hr3.vecs v hne]; exact hx1
  refine M.wp_mono (dropKeep_wp (R := fun _ _ => False) hi3 hx3 (m := m) (by rw [ha]; simp)) ?_ fun _ _ h => h.elim
  rintro w4 - ⟨hi4, hr4⟩
  refine ⟨hi4, ?_, ?_, fun f g hf hg => (hr4.keeps u (by simp)).1 _ ((hr3.keeps u (by simp)).1 _ (hv2.congr fun z hz i hlt => ?_))⟩
  · refine Rel.relax (X := (· = u)) (Y := No) (Rel.mono hi (((hr1.trans hr2).trans hr3).trans hr4) ?_ ?_ ?_ ?_) (fun t h => .inr fun z hz => ?_) (fun _ h => .inl h)
    · rintro t (((h | h) | h) | h)
      · exact .inr h
      · exact .inr h
      · exact .inr h
      · exact .inl h
    · rintro t (((h | h) | h) | h)
      · exact h.elim
      · exact h
      · exact h.elim
      · exact h.elim
    · rintro t (((h | h) | h) | h)
      · exact h.elim
      · exact h.elim
      · exact h
      · exact h.elim
    · rintro t (((h | h) | h) | h) <;> exact h.elim
    · subst h
      rw [hy] at hz
      cases hz
      exact hG.even
  · refine ⟨{ y1 with state := y1.state + 1 }, by rw [hr4.vecs u (Ne.symm hne)]; exact hy3, ?_, hG.readers'⟩
    show (y1.state + 1) % 2 = 0
    have := hG.odd
    omega
  · have hzl : z.len = y.len := by
      have : z = y1 := by
        rw [setArr_vecs, hG.vec] at hz
        cases hz
        rfl
      rw [this, hG.len]
    by_cases hin : InWindow start stop step i
    · rw [if_pos hin, (hw i).1 hin]
      obtain ⟨k, hk', hlt'⟩ := hin
      obtain ⟨b2, hb2, e⟩ := ((hG.inv.hasVals_iff hx1).1 ((hr1.keeps v (by simp)).1 f hf)).2 _ a ha
      rw [hb] at hb2
      cases hb2
      exact e i (by omega)
    · rw [if_neg hin, (hw i).2 hin]
      obtain ⟨d2, hd2, e⟩ := ((hG.inv.hasVals_iff hG.vec).1 (hk.1 g hg)).2 _ c (hG.arr.trans hc)
      rw [hd] at hd2
      cases hd2
      exact e i (by rw [hG.len]; omega)

open Classical in
theorem copyStrided_wp {w : W α} (hi : Inv w) {v u : Nat} {x y : DVec} (hx : w.vecs v = some x) (hy : w.vecs u = some y) (hne : v ≠ u) {start stop step : Int}
    (h3 : 0 < step) (h4 : E.blas64 = true → step = 1) :
    Wp (copyStrided E v start stop step u) w (fun w' _ => Inv w' ∧ Rel w w' (fun t => t = v ∨ t = u) (· = u) No No ∧
      ∀ f g, HasVals w v f → HasVals w u g → HasVals w' u fun i => if InWindow start (if stop = -1 then ((min x.len y.len : Nat) : Int) else stop) step i then f i else g i)
      (fun w' _ => w' = w) := by
  unfold copyStrided
  refine M.wp_bind.2 (wp_getV hx (M.wp_bind.2 (wp_getV hy ?_)))
  by_cases h0 : x.len = 0 ∨ y.len = 0
  · rw [if_pos h0]
    refine M.wp_pure.2 ⟨hi, Rel.refl _ _ _ _ _, fun f g hf hg => ?_⟩
    have := hi.len_pos hx hf
    have := hi.len_pos hy hg
    omega
  rw [if_neg h0]
  refine M.wp_bind.2 (M.wp_check (fun hst => ?_) fun _ => rfl)
  refine M.wp_bind.2 (M.wp_check (fun hsa => ?_) fun _ => rfl)
  have h2 : (if stop = -1 then ((min x.len y.len : Nat) : Int) else stop) ≤ (min x.len y.len : Nat) := by
    by_cases h : stop = -1
    · rw [if_pos h]
    · rw [if_neg h]; exact hst.2
  have on : ∀ m, (x.side m).arr.isSome = true → M.wp True (copyStridedOn E m v u start (if stop = -1 then ((min x.len y.len : Nat) : Int) else stop) step) w
      (fun w' a => M.wp True (bump u 2) w' (fun w' _ => Inv w' ∧ Rel w w' (fun t => t = v ∨ t = u) (· = u) No No ∧
      ∀ f g, HasVals w v f → HasVals w u g → HasVals w' u fun i => if InWindow start (if stop = -1 then ((min x.len y.len : Nat) : Int) else stop) step i then f i else g i)
      (fun w' _ => w' = w)) (fun w' _ => w' = w) := by
    intro m hm
    refine M.wp_mono (copyStridedOn_wp hi hx hy hne hm hsa.1 h2 (by omega) h3 h4) ?_ fun _ _ h => h
    rintro w1 - ⟨hi1, hr1, ⟨y1, hy1, he1, hrd1⟩, hv1⟩
    refine wp_bump hy1 ?_
    obtain ⟨k1, k2⟩ := Rel.counts hi1 hy1 (st := y1.state + 2) (rd := y1.readers) (X := No) (Y := No) (fun h => by omega) (fun h => by omega)
      (.inr (.inr he1)) (.inr (Nat.le_refl _))
    exact ⟨k1, Rel.mono hi (hr1.trans k2) (fun t h => h.elim id .inr) (fun u h => h.elim id fun h => h.elim) (fun u h => h.elim id id) (fun u h => h.elim id id),
      fun f g hf hg => (keeps_counts hy1 _ _).1 _ (hv1 f g hf hg)⟩
  by_cases hd : (x.side .device).arr.isSome = true
  · rw [if_pos hd]
    exact M.wp_bind.2 (on _ hd)
  · rw [if_neg hd]
    by_cases hh : (x.side .host).arr.isSome = true
    · rw [if_pos hh]
      exact M.wp_bind.2 (on _ hh)
    · rw [if_neg hh]
      exact rfl

end DevVec
end Verif
