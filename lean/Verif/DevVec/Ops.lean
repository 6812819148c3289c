import Verif.DevVec.Rel

/-!
# Vectors with arrays on the host and on the device: setting arrays and granting access
-/

set_option linter.unusedSectionVars false

namespace Verif
namespace DevVec

open Vector (Mem Mode NormType)
open M (wp)

variable {α : Type} [CommRing α] [DecidableEq α] {E : Env α}

theorem setVec_eq {w w' : W α} {v : Nat} (h1 : w.heap = w'.heap) (h2 : w.next = w'.next) (h3 : ∀ u, u ≠ v → w.vecs u = w'.vecs u) (y : Option DVec) :
    w.setVec v y = w'.setVec v y := by
  unfold W.setVec
  rw [h1, h2]
  congr 1
  funext u
  by_cases h : u = v
  · rw [if_pos h, if_pos h]
  · rw [if_neg h, if_neg h, h3 u h]

theorem slot_congr {s s' : Side} (h : s'.bor = s.bor ∧ s'.own = s.own) : s'.slot = s.slot := by
  unfold Side.slot; rw [h.1, h.2]

/-- What choosing an array leaves. -/
theorem pick_ok {w : W α} (hi : Inv w) {v : Nat} {x : DVec} (hx : w.vecs v = some x) (h0 : 0 < x.len) (m : Mem) {s : Side} (hb : s.bor = (x.side m).bor)
    (ho : s.own = (x.side m).own) :
    ∃ w0 w1 x1 a b, pick E m x.len s w = .ok w0 ⟨some a, (x1.side m).bor, (x1.side m).own⟩ ∧ Inv w1 ∧ Grow w w1 v ∧ w1.vecs v = some x1 ∧
      x1.len = x.len ∧ x1.state = x.state ∧ x1.readers = x.readers ∧ (x1.side m).slot = some a ∧ (∀ m', m' ≠ m → x1.side m' = x.side m') ∧
      (∀ m', (x1.side m').bor = (x.side m').bor) ∧ (∀ m' a, (x.side m').slot = some a → (x1.side m').slot = some a) ∧
      w1.heap a = some b ∧ b.mem = m ∧ x.len ≤ b.buf.len ∧ w0.heap = w1.heap ∧ w0.next = w1.next ∧ (∀ u, u ≠ v → w0.vecs u = w1.vecs u) ∧
      (∀ c d, w.heap c = some d → w1.heap c = some d) ∧ (∀ c, c ≠ a → w1.heap c = w.heap c) := by
  have hV := hi.vec v x hx
  have hss : s.slot = (x.side m).slot := slot_congr ⟨hb, ho⟩
  cases hs : (x.side m).slot with
  | some a =>
    obtain ⟨b, hb', hbm, hbl, -⟩ := hV.slot m a hs
    refine ⟨w, w, x, a, b, ?_, hi, Grow.refl w v, hx, rfl, rfl, rfl, hs, fun _ _ => rfl, fun _ => rfl, fun _ _ h => h, hb', hbm, hbl, rfl, rfl,
      fun _ _ => rfl, fun _ _ h => h, fun _ _ => rfl⟩
    rw [pick_some (hss.trans hs), ← hb, ← ho]
  | none =>
    have hso : (x.side m).bor = none ∧ (x.side m).own = none := by
      unfold Side.slot at hs
      cases hbo : (x.side m).bor <;> simp_all
    obtain ⟨hi1, hg1⟩ := hi.alloc hx hs h0 (if m = .host then fun _ => 0 else E.junk w.next)
    refine ⟨⟨fun c => if c = w.next then some ⟨m, ⟨x.len, if m = .host then fun _ => 0 else E.junk w.next⟩, true⟩ else w.heap c, w.next + 1, w.vecs⟩,
      _, _, w.next, ⟨m, ⟨x.len, if m = .host then fun _ => 0 else E.junk w.next⟩, true⟩, ?_, hi1, hg1, setVec_same _ _ _, rfl, rfl, rfl,
      by rw [setSide_same]; rfl, fun m' h => setSide_ne _ _ h, fun m' => ?_, fun m' a h => ?_, if_pos rfl, rfl, Nat.le_refl _, ?_⟩
    · unfold pick
      rw [hb, ho, hso.1, hso.2, setSide_same]
      rfl
    · by_cases h : m' = m
      · subst h; rw [setSide_same, hso.1]
      · rw [setSide_ne _ _ h]
    · by_cases hm : m' = m
      · subst hm; rw [hs] at h; cases h
      · rw [setSide_ne _ _ hm]; exact h
    · exact ⟨rfl, rfl, fun u hu => (setVec_ne _ _ hu).symm, fun c d h => (if_neg (by have := hi.lt_next h; omega)).trans h, fun c h => if_neg h⟩

/-- A vector after one of its arrays was made the valid one. -/
structure Placed (w : W α) (v : Nat) (x : DVec) (m : Mem) (w' : W α) (x' : DVec) : Prop where
  inv : Inv w'
  grow : Grow w w' v
  vec : w'.vecs v = some x'
  len : x'.len = x.len
  state : x'.state = x.state
  readers : x'.readers = x.readers
  bor : ∀ m', (x'.side m').bor = (x.side m').bor
  slot : ∀ m' a, (x.side m').slot = some a → (x'.side m').slot = some a
  arr : (x'.side m).arr ≠ none
  oth : (x'.side (other m)).arr = none

theorem setCopyB_wp {w : W α} (hi : Inv w) {v : Nat} {x : DVec} (hx : w.vecs v = some x) (h0 : 0 < x.len) {m : Mem} {src : Option Nat}
    (hsrc : ∀ c, src = some c → ∃ d, w.heap c = some d ∧ d.mem = m ∧ x.len ≤ d.buf.len ∧ ¬ HeldBy w v c) {R : W α → Err → Prop} :
    Wp (setArrayB E v m .copyValues src) w (fun w' _ => ∃ x', Placed w v x m w' x' ∧ ∀ c d, src = some c → w.heap c = some d → Val w' x' d.buf.val) R := by
  unfold setArrayB
  refine M.wp_bind.2 (wp_getV hx (M.wp_bind.2 ?_))
  obtain ⟨w0, w1, x1, a, b, hp, hi1, hg1, hv1, hl1, hst1, hr1, hs1, ho1, hb1, hsl1, hba, hbm, hbl, hw1, hw2, hw3, hheap, hheap'⟩ :=
    pick_ok (E := E) hi hx h0 m (s := { x.side m with arr := none }) rfl rfl
  set x' : DVec := { x with side := fun m' => if m' = m then ⟨some a, (x1.side m).bor, (x1.side m).own⟩ else { x.side m' with arr := none } } with hx'
  have e1 : x'.side m = ⟨some a, (x1.side m).bor, (x1.side m).own⟩ := if_pos rfl
  have e2 : ∀ m', m' ≠ m → x'.side m' = { x.side m' with arr := none } := fun m' h => if_neg h
  have hs : ∀ m', (x'.side m').bor = (x1.side m').bor ∧ (x'.side m').own = (x1.side m').own := by
    intro m'
    by_cases h : m' = m
    · subst h; rw [e1]; exact ⟨rfl, rfl⟩
    · rw [e2 m' h, ho1 m' h]; exact ⟨rfl, rfl⟩
  have harr : ∀ m' e, (x'.side m').arr = some e → m' = m ∧ e = a := by
    intro m' e h
    by_cases hm : m' = m
    · subst hm; rw [e1] at h; cases h; exact ⟨rfl, rfl⟩
    · rw [e2 m' hm] at h; cases h
  have hoth : (x'.side (other m)).arr = none := by rw [e2 _ (other_ne m)]
  have hodd : x'.state % 2 = 1 → ∀ m', (x'.side m').arr ≠ none → (x'.side (other m')).arr = none := by
    intro _ m' h
    obtain ⟨e, he⟩ := Option.ne_none_iff_exists'.1 h
    rw [(harr m' e he).1]; exact hoth
  have hrd : 0 < x'.readers → x'.state % 2 = 0 := (hi.vec v x hx).rd
  have fin : ∀ w', Inv w' → Grow w1 w' v → w'.vecs v = some x' → Placed w v x m w' x' := fun w' h1 h2 h3 =>
    ⟨h1, hg1.trans h2, h3, rfl, rfl, rfl, fun m' => (hs m').1.trans (hb1 m'), fun m' e h => by rw [slot_congr (hs m')]; exact hsl1 m' e h,
      by rw [e1]; simp, hoth⟩
  cases hsr : src with
  | none =>
    have hr : setGeneric E m .copyValues none x.len { x.side m with arr := none } w = .ok w0 ⟨some a, (x1.side m).bor, (x1.side m).own⟩ := by
      unfold setGeneric
      simp only [M.bind_apply, hp, Out.bind_ok]
      rfl
    refine wp_ok hr (M.wp_bind.2 (wp_ok (w' := w0) (r := ()) rfl (wp_putV ?_)))
    rw [setVec_eq hw1 hw2 hw3]
    obtain ⟨h1, h2⟩ := hi1.flags (x' := x') (f := b.buf.val) hv1 hs (fun m' e h => by rw [(harr m' e h).1, (harr m' e h).2]; exact hs1) hl1.symm
      (fun m' e h => ⟨b, by rw [(harr m' e h).2]; exact hba, fun _ _ => rfl⟩) hodd hrd
    exact ⟨x', fin _ h1 h2 (setVec_same _ _ _), fun c d h => by cases h⟩
  | some c =>
    obtain ⟨d, hd, hdm, hdl, hdh⟩ := hsrc c hsr
    have hac : a ≠ c := by
      rintro rfl
      rcases hg1.held a (heldBy_slot hv1 hs1) with h | h
      · exact hdh h
      · have := hi.lt_next hd; omega
    unfold setGeneric
    refine M.wp_bind.2 (wp_ok hp ?_)
    rw [if_pos (show (some c).isSome = true from rfl)]
    refine M.wp_bind.2 (wp_copyN (a := a) (c := c) (b := b) (d := d) rfl rfl (by rw [hw1]; exact hba) (by rw [hw1]; exact hheap c d hd) hbm hdm hbl hdl hac ?_)
    refine M.wp_pure.2 ?_
    refine (M.wp_bind.2 (wp_ok (w' := w0.setArr a (some { b with buf := over b.buf x.len d.buf.val })) (r := ()) rfl ?_))
    refine wp_putV ?_
    rw [setVec_eq (w := w0.setArr a (some { b with buf := over b.buf x.len d.buf.val })) (w' := w1.setArr a (some { b with buf := over b.buf x.len d.buf.val }))
      (by unfold W.setArr; rw [hw1]) hw2 hw3]
    have hval : Val (w1.setArr a (some { b with buf := over b.buf x.len d.buf.val })) x' d.buf.val := by
      intro m' e h
      obtain ⟨-, rfl⟩ := harr m' e h
      exact ⟨_, setArr_same _ _ _, fun i hi' => if_pos hi'⟩
    obtain ⟨h1, h2⟩ := hi1.store (x' := x') hv1 hs1 hba (g := over b.buf x.len d.buf.val) rfl hs
      (fun m' e h => by rw [(harr m' e h).1, (harr m' e h).2]; exact hs1) hl1.symm hval hodd hrd
    refine ⟨x', fin _ h1 h2 (setVec_same _ _ _), fun c' d' h hd' => ?_⟩
    cases h
    rw [hd] at hd'
    cases hd'
    exact hval

/-- Changes of state and readers only. -/
theorem Inv.counts {w : W α} (hi : Inv w) {v : Nat} {x : DVec} (hx : w.vecs v = some x) {st rd : Nat}
    (hodd : st % 2 = 1 → ∀ m, (x.side m).arr ≠ none → (x.side (other m)).arr = none) (hrd : 0 < rd → st % 2 = 0) :
    Inv (w.setVec v (some { x with state := st, readers := rd })) ∧ Grow w (w.setVec v (some { x with state := st, readers := rd })) v := by
  obtain ⟨f, hf⟩ := (hi.vec v x hx).coh
  exact hi.flags hx (x' := { x with state := st, readers := rd }) (fun _ => ⟨rfl, rfl⟩) (hi.vec v x hx).arr rfl hf hodd hrd

theorem keeps_counts {w : W α} {v : Nat} {x : DVec} (hx : w.vecs v = some x) (st rd : Nat) :
    Keeps w (w.setVec v (some { x with state := st, readers := rd })) v := by
  refine ⟨?_, ?_⟩
  · rintro f ⟨y, hy, h1, h2⟩
    rw [hx] at hy
    cases hy
    exact ⟨_, setVec_same _ _ _, h1, h2⟩
  · rintro ⟨y, hy, h⟩
    rw [hx] at hy
    cases hy
    exact ⟨_, setVec_same _ _ _, h⟩

theorem Placed.valid {w w' : W α} {v : Nat} {x x' : DVec} {m : Mem} (h : Placed w v x m w' x') : Valid x' := ⟨m, h.arr⟩

theorem Placed.hasVals {w w' : W α} {v : Nat} {x x' : DVec} {m : Mem} (h : Placed w v x m w' x') : ∃ f, HasVals w' v f := by
  obtain ⟨f, hf⟩ := (h.inv.vec v x' h.vec).coh
  exact ⟨f, (h.inv.hasVals_iff h.vec).2 ⟨h.valid, hf⟩⟩

/-- `CeedVectorSetArray` with `CEED_COPY_VALUES`: what it leaves, besides the state. -/
theorem setCopy_wp {w : W α} (hi : Inv w) {v : Nat} {x : DVec} (hx : w.vecs v = some x) {m : Mem} {src : Option Nat}
    (hsrc : 0 < x.len → ∀ c, src = some c → ∃ d, w.heap c = some d ∧ d.mem = m ∧ x.len ≤ d.buf.len ∧ ¬ HeldBy w v c) :
    Wp (setArray E v m .copyValues src) w (fun w' _ => x.state % 2 = 0 ∧ x.readers = 0 ∧ ∃ x', Inv w' ∧ Grow w w' v ∧ w'.vecs v = some x' ∧
        x'.len = x.len ∧ x'.state = x.state + 2 ∧ x'.readers = 0 ∧ (∀ m', (x'.side m').bor = (x.side m').bor) ∧
        (0 < x.len → (x'.side m).arr ≠ none ∧ (x'.side (other m)).arr = none) ∧
        ∀ c d, 0 < x.len → src = some c → w.heap c = some d → HasVals w' v d.buf.val) (fun w' _ => w' = w ∧ (x.state % 2 ≠ 0 ∨ x.readers ≠ 0)) := by
  unfold setArray
  refine M.wp_bind.2 (wp_getV hx (M.wp_bind.2 (wp_lock (fun he hr => ?_) fun h _ => ⟨rfl, h⟩)))
  by_cases h0 : 0 < x.len
  · rw [if_pos h0]
    refine M.wp_bind.2 (M.wp_mono (setCopyB_wp (R := fun _ _ => False) hi hx h0 (hsrc h0)) ?_ fun _ _ h => h.elim)
    rintro w' - ⟨x', hp, hv⟩
    refine wp_bump hp.vec ⟨he, hr, ?_⟩
    have hk := keeps_counts hp.vec (x'.state + 2) x'.readers
    obtain ⟨h1, h2⟩ := hp.inv.counts hp.vec (st := x'.state + 2) (rd := x'.readers) (fun h => by rw [hp.state] at h; omega) (fun h => by rw [hp.readers] at h; omega)
    refine ⟨{ x' with state := x'.state + 2 }, h1, hp.grow.trans h2, setVec_same _ _ _, hp.len, by rw [← hp.state], hp.readers.trans hr, hp.bor,
      fun _ => ⟨hp.arr, hp.oth⟩, fun c d _ hc hd => hk.1 _ ((hp.inv.hasVals_iff hp.vec).2 ⟨hp.valid, hv c d hc hd⟩)⟩
  · rw [if_neg h0]
    refine wp_bump hx ⟨he, hr, ?_⟩
    obtain ⟨h1, h2⟩ := hi.counts hx (st := x.state + 2) (rd := x.readers) (fun h => by omega) (fun h => by omega)
    exact ⟨{ x with state := x.state + 2 }, h1, h2, setVec_same _ _ _, rfl, rfl, hr, fun _ => rfl, fun h => absurd h h0, fun _ _ h => absurd h h0⟩

/-- `CeedVectorGetArrayCore`: the array has been synchronised. -/
theorem getCore_wp {w : W α} (hi : Inv w) {v : Nat} {x : DVec} (hx : w.vecs v = some x) (he : x.state % 2 = 0) {m : Mem} {R : W α → Err → Prop} :
    Wp (getCore E v m) w (fun w' p => ∃ x', Synced w v x m w' x' ∧ p = (x'.side m).arr) R := by
  unfold getCore
  refine M.wp_bind.2 (M.wp_mono (syncArray_wp hi hx) ?_ fun _ _ h => absurd he h.2)
  rintro w' - ⟨-, x', h⟩
  exact M.wp_bind.2 (wp_getV h.vec ⟨x', h, rfl⟩)

/-- The backend grants access for writing. -/
theorem getArrayB_wp {w : W α} (hi : Inv w) {v : Nat} {x : DVec} (hx : w.vecs v = some x) (he : x.state % 2 = 0) (hv : Valid x) {m : Mem}
    {R : W α → Err → Prop} :
    Wp (getArrayB E v m) w (fun w' p => ∃ x', Placed w v x m w' x' ∧ p = (x'.side m).arr ∧ ∀ f, Val w x f → Val w' x' f) R := by
  unfold getArrayB
  refine M.wp_bind.2 (M.wp_mono (getCore_wp (R := R) hi hx he) ?_ fun _ _ h => h)
  rintro w' p ⟨x1, h, rfl⟩
  refine M.wp_bind.2 (wp_getV h.vec (M.wp_bind.2 (wp_putV ?_)))
  set x' : DVec := { x1 with side := fun m' => { x1.side m' with arr := if m' = m then (x1.side m).arr else none } } with hx'
  have e1 : (x'.side m).arr = (x1.side m).arr := if_pos rfl
  have e2 : ∀ m', m' ≠ m → (x'.side m').arr = none := fun m' h => if_neg h
  have hs : ∀ m', (x'.side m').bor = (x1.side m').bor ∧ (x'.side m').own = (x1.side m').own := fun m' => ⟨rfl, rfl⟩
  have harr : ∀ m' e, (x'.side m').arr = some e → m' = m ∧ (x1.side m').arr = some e := by
    intro m' e hh
    by_cases hm : m' = m
    · subst hm; rw [e1] at hh; exact ⟨rfl, hh⟩
    · rw [e2 m' hm] at hh; cases hh
  have hval : ∀ f, Val w' x1 f → Val w' x' f := fun f hf m' e hh => hf m' e (harr m' e hh).2
  obtain ⟨f, hf⟩ := (h.inv.vec v x1 h.vec).coh
  obtain ⟨h1, h2⟩ := h.inv.flags (x' := x') h.vec hs (fun m' e hh => (h.inv.vec v x1 h.vec).arr m' e (harr m' e hh).2) rfl (hval f hf)
    (fun ho => by have : x1.state % 2 = 1 := ho; rw [h.state] at this; omega) (h.inv.vec v x1 h.vec).rd
  refine ⟨x', ⟨h1, h.grow.trans h2, setVec_same _ _ _, h.len, h.state, h.readers, fun m' => (hs m').1.trans (h.bor m'),
    fun m' e hh => by rw [slot_congr (hs m')]; exact h.slot m' e hh, by rw [e1]; exact h.arr hv, e2 _ (other_ne m)⟩, e1.symm, fun f hf => hval f (h.val f hf)⟩

/-- A vector to which access for writing was granted. -/
structure Granted (w : W α) (v : Nat) (x : DVec) (m : Mem) (p : Option Nat) (w' : W α) (x' : DVec) : Prop where
  inv : Inv w'
  grow : Grow w w' v
  vec : w'.vecs v = some x'
  even : x.state % 2 = 0
  readers : x.readers = 0
  len : x'.len = x.len
  odd : x'.state % 2 = 1
  readers' : x'.readers = 0
  bor : ∀ m', (x'.side m').bor = (x.side m').bor
  arr : (x'.side m).arr = p
  oth : (x'.side (other m)).arr = none
  nonnull : 0 < x.len → p ≠ none

theorem Placed.granted {w w' : W α} {v : Nat} {x x' : DVec} {m : Mem} (h : Placed w v x m w' x') (he : x.state % 2 = 0) (hr : x.readers = 0) :
    Granted w v x m (x'.side m).arr (w'.setVec v (some { x' with state := x'.state + 1 })) { x' with state := x'.state + 1 } := by
  obtain ⟨h1, h2⟩ := h.inv.counts h.vec (st := x'.state + 1) (rd := x'.readers) (fun _ m' hm' => by
    rcases eq_or_other m m' with rfl | rfl
    · exact h.oth
    · exact absurd h.oth hm') (fun hh => by rw [h.readers] at hh; omega)
  exact ⟨h1, h.grow.trans h2, setVec_same _ _ _, he, hr, h.len, by show (x'.state + 1) % 2 = 1; rw [h.state]; omega, h.readers.trans hr, h.bor, rfl,
    h.oth, fun _ => h.arr⟩

theorem Inv.granted_empty {w : W α} (hi : Inv w) {v : Nat} {x : DVec} (hx : w.vecs v = some x) (h0 : ¬ 0 < x.len) (m : Mem) (he : x.state % 2 = 0) (hr : x.readers = 0) :
    Granted w v x m none (w.setVec v (some { x with state := x.state + 1 })) { x with state := x.state + 1 } := by
  have hem := (hi.vec v x hx).empty (by omega)
  obtain ⟨h1, h2⟩ := hi.counts hx (st := x.state + 1) (rd := x.readers) (fun _ m' hm' => by rw [hem] at hm'; exact absurd rfl hm') (fun hh => by omega)
  exact ⟨h1, h2, setVec_same _ _ _, he, hr, rfl, by show (x.state + 1) % 2 = 1; omega, hr, fun _ => rfl, by show (x.side m).arr = none; rw [hem],
    by show (x.side (other m)).arr = none; rw [hem], fun h => absurd h h0⟩

theorem getArray_wp {w : W α} (hi : Inv w) {v : Nat} {x : DVec} (hx : w.vecs v = some x) {m : Mem} :
    Wp (getArray E v m) w (fun w' p => ∃ x', Granted w v x m p w' x' ∧ Keeps w w' v) (fun w' _ => w' = w) := by
  unfold getArray
  refine M.wp_bind.2 (wp_getV hx (M.wp_bind.2 (wp_lock (fun he hr => ?_) fun _ _ => rfl)))
  by_cases h0 : 0 < x.len
  · rw [if_pos h0]
    refine M.wp_bind.2 (M.wp_check (fun hv => ?_) fun _ => rfl)
    have hv := (validB_iff h0).1 hv
    refine M.wp_bind.2 (M.wp_mono (getArrayB_wp (R := fun _ _ => False) hi hx he hv) ?_ fun _ _ h => h.elim)
    rintro w' p ⟨x', h, rfl, hval⟩
    refine M.wp_bind.2 (wp_bump h.vec ⟨_, h.granted he hr, ?_⟩)
    refine Keeps.trans ⟨fun f hf => ?_, fun hn => absurd hv ((noVals_iff hx).1 hn)⟩ (keeps_counts h.vec (x'.state + 1) x'.readers)
    exact (h.inv.hasVals_iff h.vec).2 ⟨h.valid, hval f ((hi.hasVals_iff hx).1 hf).2⟩
  · rw [if_neg h0]
    exact M.wp_bind.2 (wp_bump hx ⟨_, hi.granted_empty hx h0 m he hr, keeps_counts hx (x.state + 1) x.readers⟩)

theorem useArr_wp {w : W α} (hi : Inv w) {v : Nat} {x : DVec} (hx : w.vecs v = some x) {m : Mem} {a : Nat} (ha : (x.side m).slot = some a)
    (hn : (x.side (other m)).arr = none) {R : W α → Err → Prop} {p : Option Nat} (hp : p = some a) :
    Wp (useArr v m p) w (fun w' _ => ∃ x', Placed w v x m w' x') R := by
  subst hp
  unfold useArr
  refine M.wp_bind.2 (wp_getV hx (wp_putV ?_))
  have hV := hi.vec v x hx
  obtain ⟨b, hb, -⟩ := hV.slot m a ha
  have hs : ∀ m', ((x.setSide m { x.side m with arr := some a }).side m').bor = (x.side m').bor ∧
      ((x.setSide m { x.side m with arr := some a }).side m').own = (x.side m').own := by
    intro m'
    by_cases h : m' = m
    · subst h; rw [setSide_same]; exact ⟨rfl, rfl⟩
    · rw [setSide_ne _ _ h]; exact ⟨rfl, rfl⟩
  have harr : ∀ m' e, ((x.setSide m { x.side m with arr := some a }).side m').arr = some e → m' = m ∧ e = a := by
    intro m' e h
    rcases eq_or_other m m' with hm | hm
    · subst hm; rw [setSide_same] at h; cases h; exact ⟨rfl, rfl⟩
    · subst hm; rw [setSide_ne _ _ (other_ne m), hn] at h; cases h
  have hoth : ((x.setSide m { x.side m with arr := some a }).side (other m)).arr = none := by rw [setSide_ne _ _ (other_ne m)]; exact hn
  obtain ⟨h1, h2⟩ := hi.flags (x' := x.setSide m { x.side m with arr := some a }) (f := b.buf.val) hx hs
    (fun m' e h => by rw [(harr m' e h).1, (harr m' e h).2]; exact ha) rfl (fun m' e h => ⟨b, by rw [(harr m' e h).2]; exact hb, fun _ _ => rfl⟩)
    (fun _ m' h => by
      obtain ⟨e, he⟩ := Option.ne_none_iff_exists'.1 h
      rw [(harr m' e he).1]; exact hoth) hV.rd
  exact ⟨_, h1, h2, setVec_same _ _ _, rfl, rfl, rfl, fun m' => (hs m').1, fun m' e h => by rw [slot_congr (hs m')]; exact h, by rw [setSide_same]; simp, hoth⟩

end DevVec
end Verif
