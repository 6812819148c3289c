import Verif.DevVec.Lemmas

/-!
# Vectors with arrays on the host and on the device: single steps
-/

set_option linter.unusedSectionVars false

namespace Verif
namespace DevVec

open Vector (Mem Mode NormType)
open M (wp)

variable {α : Type} [CommRing α] [DecidableEq α] {E : Env α}

/-- Defined behaviour, and the outcome is as stated. -/
abbrev Wp {β : Type} (m : M (W α) β) (w : W α) (Q : W α → β → Prop) (R : W α → Err → Prop) : Prop := M.wp True m w Q R

section Prim
variable {β : Type} {w : W α} {R : W α → Err → Prop}

theorem wp_ok {m : M (W α) β} {w' : W α} {r : β} {Q : W α → β → Prop} (h : m w = .ok w' r) (hq : Q w' r) : Wp m w Q R := by
  unfold Wp M.wp; rw [h]; exact hq

theorem wp_getV {v : Nat} {x : DVec} {Q : W α → DVec → Prop} (hx : w.vecs v = some x) (h : Q w x) : Wp (getV v) w Q R :=
  wp_ok (by unfold getV; rw [hx]) h

theorem wp_putV {v : Nat} {x : DVec} {Q : W α → Unit → Prop} (h : Q (w.setVec v (some x)) ()) : Wp (putV v x) w Q R := h

theorem wp_look {m : Mem} {p : Option Nat} {n : Nat} {Q : W α → Buf α → Prop} {a : Nat} {b : Blk α} (hp : p = some a) (hb : w.heap a = some b)
    (hm : b.mem = m) (hn : n ≤ b.buf.len) (h : Q w b.buf) : Wp (look m p n) w Q R :=
  wp_ok (by unfold look; rw [hp]; simp only [hb, hm, hn, and_self, if_true]) h

theorem wp_save {m : Mem} {p : Option Nat} {f : Buf α} {Q : W α → Unit → Prop} {a : Nat} {b : Blk α} (hp : p = some a) (hb : w.heap a = some b)
    (hm : b.mem = m) (h : Q (w.setArr a (some { b with buf := f })) ()) : Wp (save m p f) w Q R :=
  wp_ok (by unfold save; rw [hp]; simp only [hb, hm, if_true]) h

theorem wp_copyN {md ms : Mem} {p q : Option Nat} {n : Nat} {Q : W α → Unit → Prop} {a c : Nat} {b d : Blk α} (hp : p = some a) (hq : q = some c)
    (hb : w.heap a = some b) (hd : w.heap c = some d) (hmb : b.mem = md) (hmd : d.mem = ms) (hnb : n ≤ b.buf.len) (hnd : n ≤ d.buf.len) (hne : a ≠ c)
    (h : Q (w.setArr a (some { b with buf := over b.buf n d.buf.val })) ()) : Wp (copyN md p ms q n) w Q R := by
  unfold copyN
  refine M.wp_bind.2 (wp_look hq hd hmd hnd (M.wp_bind.2 (wp_look hp hb hmb hnb ?_)))
  rw [if_neg (by rw [hp, hq]; simpa using hne)]
  exact wp_save hp hb hmb h

theorem wp_mapA {m : Mem} {p : Option Nat} {n : Nat} {f : Nat → α → α} {Q : W α → Unit → Prop} {a : Nat} {b : Blk α} (hp : p = some a)
    (hb : w.heap a = some b) (hm : b.mem = m) (hn : n ≤ b.buf.len)
    (h : Q (w.setArr a (some { b with buf := over b.buf n fun i => f i (b.buf.val i) })) ()) : Wp (mapA m p n f) w Q R := by
  unfold mapA
  exact M.wp_bind.2 (wp_look hp hb hm hn (wp_save hp hb hm h))

theorem wp_lock {x : DVec} {Q : W α → Unit → Prop} (h : x.state % 2 = 0 → x.readers = 0 → Q w ()) (hr : x.state % 2 ≠ 0 ∨ x.readers ≠ 0 → ∀ e, R w e) : Wp (lockChecks x) w Q R := by
  unfold lockChecks
  exact M.wp_bind.2 (M.wp_check (fun h1 => M.wp_check (fun h2 => h h1 h2) fun h2 => hr (.inr h2) _) fun h1 => hr (.inl h1) _)

theorem wp_bump {v k : Nat} {x : DVec} {Q : W α → Unit → Prop} (hx : w.vecs v = some x)
    (h : Q (w.setVec v (some { x with state := x.state + k })) ()) : Wp (bump v k) w Q R := by
  unfold bump
  exact M.wp_bind.2 (wp_getV hx h)

theorem wp_setReaders {v k : Nat} {x : DVec} {Q : W α → Unit → Prop} (hx : w.vecs v = some x)
    (h : Q (w.setVec v (some { x with readers := k })) ()) : Wp (setReaders v k) w Q R := by
  unfold setReaders
  exact M.wp_bind.2 (wp_getV hx h)

end Prim

/-- A change of the state, of the number of readers, and of which arrays are valid. -/
theorem Inv.flags {w : W α} (hi : Inv w) {v : Nat} {x x' : DVec} (hx : w.vecs v = some x)
    (hs : ∀ m, (x'.side m).bor = (x.side m).bor ∧ (x'.side m).own = (x.side m).own)
    (ha : ∀ m a, (x'.side m).arr = some a → (x.side m).slot = some a) (hl : x'.len = x.len) {f : Nat → α} (hf : Val w x' f)
    (hodd : x'.state % 2 = 1 → ∀ m, (x'.side m).arr ≠ none → (x'.side (other m)).arr = none)
    (hrd : 0 < x'.readers → x'.state % 2 = 0) : Inv (w.setVec v (some x')) ∧ Grow w (w.setVec v (some x')) v :=
  hi.write hx (setVec_same _ _ _) (fun _ hu => setVec_ne _ _ hu) rfl (fun _ => rfl) (fun _ _ => rfl) hs ha hl hf hodd hrd

/-- A change of the contents of one array and of which arrays are valid. -/
theorem Inv.store {w : W α} (hi : Inv w) {v : Nat} {x x' : DVec} (hx : w.vecs v = some x) {m : Mem} {a : Nat} (hm : (x.side m).slot = some a)
    {b : Blk α} (hb : w.heap a = some b) {g : Buf α} (hg : g.len = b.buf.len)
    (hs : ∀ m, (x'.side m).bor = (x.side m).bor ∧ (x'.side m).own = (x.side m).own)
    (ha : ∀ m a, (x'.side m).arr = some a → (x.side m).slot = some a) (hl : x'.len = x.len) {f : Nat → α}
    (hf : Val (w.setArr a (some { b with buf := g })) x' f)
    (hodd : x'.state % 2 = 1 → ∀ m, (x'.side m).arr ≠ none → (x'.side (other m)).arr = none)
    (hrd : 0 < x'.readers → x'.state % 2 = 0) :
    Inv ((w.setArr a (some { b with buf := g })).setVec v (some x')) ∧ Grow w ((w.setArr a (some { b with buf := g })).setVec v (some x')) v := by
  refine hi.write hx (setVec_same _ _ _) (fun _ hu => setVec_ne _ _ hu) rfl (fun c => ?_) (fun c hc => ?_) hs ha hl hf hodd hrd
  · by_cases h : c = a
    · subst h
      rw [setVec_heap, setArr_same, hb]
      simp only [Option.map_some, Option.some.injEq]
      unfold Blk.shape
      simp only [hg]
    · rw [setVec_heap, setArr_ne _ _ h]
  · rw [setVec_heap, setArr_ne]
    rintro rfl
    exact hc (heldBy_slot hx hm)

/-- What a synchronisation leaves. -/
structure Synced (w : W α) (v : Nat) (x : DVec) (m : Mem) (w' : W α) (x' : DVec) : Prop where
  inv : Inv w'
  grow : Grow w w' v
  vec : w'.vecs v = some x'
  len : x'.len = x.len
  state : x'.state = x.state
  readers : x'.readers = x.readers
  bor : ∀ m', (x'.side m').bor = (x.side m').bor
  oth : ∀ m', m' ≠ m → x'.side m' = x.side m'
  slot : ∀ m' a, (x.side m').slot = some a → (x'.side m').slot = some a
  same : (x.side m).arr ≠ none → w' = w ∧ x' = x
  arr : Valid x → (x'.side m).arr ≠ none
  valid : Valid x' ↔ Valid x
  val : ∀ f, Val w x f → Val w' x' f
  heap : ∀ a, (x'.side m).arr ≠ some a → w'.heap a = w.heap a

theorem Synced.refl {w : W α} (hi : Inv w) {v : Nat} {x : DVec} (hx : w.vecs v = some x) {m : Mem} (h : Valid x → (x.side m).arr ≠ none) :
    Synced w v x m w x :=
  ⟨hi, Grow.refl w v, hx, rfl, rfl, rfl, fun _ => rfl, fun _ _ => rfl, fun _ _ h => h, fun _ => ⟨rfl, rfl⟩, h, Iff.rfl, fun _ h => h, fun _ _ => rfl⟩

theorem VInv.other_of {x : DVec} (hv : Valid x) {m : Mem} (h : (x.side m).arr = none) : ∃ c, (x.side (other m)).arr = some c := by
  obtain ⟨m', hm'⟩ := hv
  rcases eq_or_other m m' with rfl | rfl
  · exact absurd h hm'
  · exact Option.ne_none_iff_exists'.1 hm'

/-- The copy of a synchronisation, for an array the vector has. -/
theorem Synced.copy {w : W α} (hi : Inv w) {v : Nat} {x : DVec} (hx : w.vecs v = some x) {m : Mem} (hn : (x.side m).arr = none)
    (he : x.state % 2 = 0) {a c : Nat} {b d : Blk α} (ha : (x.side m).slot = some a) (hc : (x.side (other m)).arr = some c)
    (hb : w.heap a = some b) (hd : w.heap c = some d) (hac : a ≠ c) :
    Synced w v x m ((w.setVec v (some (x.setSide m { x.side m with arr := some a }))).setArr a (some { b with buf := over b.buf x.len d.buf.val }))
      (x.setSide m { x.side m with arr := some a }) := by
  have hV := hi.vec v x hx
  have hval : ∀ f, Val w x f → Val (w.setArr a (some { b with buf := over b.buf x.len d.buf.val })) (x.setSide m { x.side m with arr := some a }) f := by
    intro f hf m' e he'
    rcases eq_or_other m m' with h | h
    · subst h
      rw [setSide_same] at he'
      cases he'
      refine ⟨_, setArr_same _ _ _, fun i hi' => ?_⟩
      obtain ⟨d', hd', h⟩ := hf _ c hc
      rw [hd] at hd'
      cases hd'
      show (if i < x.len then d.buf.val i else _) = _
      rw [if_pos (show i < x.len from hi')]
      exact h i hi'
    · subst h
      rw [setSide_ne _ _ (other_ne m), hc] at he'
      cases he'
      rw [setArr_ne _ _ (Ne.symm hac)]
      exact hf _ c hc
  obtain ⟨f, hf⟩ := hV.coh
  have hs : ∀ m', ((x.setSide m { x.side m with arr := some a }).side m').bor = (x.side m').bor ∧
      ((x.setSide m { x.side m with arr := some a }).side m').own = (x.side m').own := by
    intro m'
    by_cases h : m' = m
    · subst h; rw [setSide_same]; exact ⟨rfl, rfl⟩
    · rw [setSide_ne _ _ h]; exact ⟨rfl, rfl⟩
  obtain ⟨h1, h2⟩ := hi.store (x' := x.setSide m { x.side m with arr := some a }) hx ha hb (g := over b.buf x.len d.buf.val) rfl hs
    (fun m' e h => by
      by_cases hm : m' = m
      · subst hm; rw [setSide_same] at h; cases h; exact ha
      · rw [setSide_ne _ _ hm] at h; exact hV.arr m' e h) rfl (hval f hf) (fun ho => by rw [setSide_state] at ho; omega) hV.rd
  refine ⟨h1, h2, setVec_same _ _ _, rfl, rfl, rfl, fun m' => (hs m').1, fun m' hm => setSide_ne _ _ hm, fun m' e h => ?_, fun h => absurd hn h,
    fun _ => by rw [setSide_same]; simp, ⟨fun _ => ⟨_, by rw [hc]; simp⟩, fun _ => ⟨m, by rw [setSide_same]; simp⟩⟩, hval, fun e h => ?_⟩
  · unfold Side.slot at h ⊢
    rw [(hs m').1, (hs m').2]; exact h
  · rw [setSide_same] at h
    exact setArr_ne _ _ fun hc => h (by rw [hc])

theorem pick_some {w : W α} {m : Mem} {n : Nat} {s : Side} {a : Nat} (h : s.slot = some a) : pick E m n s w = .ok w { s with arr := some a } := by
  obtain ⟨p, b, o⟩ := s
  unfold Side.slot at h
  cases b with
  | some b => cases h; rfl
  | none =>
    cases o with
    | some o => cases h; rfl
    | none => cases h

theorem syncB_wp {w : W α} (hi : Inv w) {v : Nat} {x : DVec} (hx : w.vecs v = some x) (h0 : 0 < x.len) (he : x.state % 2 = 0) {m : Mem}
    {R : W α → Err → Prop} : Wp (syncB E v m) w (fun w' _ => ∃ x', Synced w v x m w' x') R := by
  unfold syncB
  refine M.wp_bind.2 (wp_getV hx ?_)
  have hV := hi.vec v x hx
  by_cases hc : validB x = true ∧ (x.side m).arr = none
  swap
  · rw [if_neg hc]
    refine ⟨x, Synced.refl hi hx fun hv ha => hc ⟨(validB_iff h0).2 hv, ha⟩⟩
  rw [if_pos hc]
  have hv := (validB_iff h0).1 hc.1
  obtain ⟨c, hcc⟩ := VInv.other_of hv hc.2
  obtain ⟨d, hd, hdm, hdl, -⟩ := hV.slot _ c (hV.arr _ c hcc)
  refine M.wp_bind.2 (M.wp_check (fun _ => ?_) fun h => absurd (by rw [hcc]; rfl) h)
  cases hs : (x.side m).slot with
  | some a =>
    obtain ⟨b, hb, hbm, hbl, -⟩ := hV.slot _ a hs
    have hac : a ≠ c := by
      rintro rfl
      rw [hb] at hd
      cases hd
      exact other_ne m (hdm.symm.trans hbm)
    have hp : pick E m x.len (x.side m) w = .ok w { x.side m with arr := some a } := pick_some hs
    refine M.wp_bind.2 (wp_ok hp (M.wp_bind.2 (wp_putV (wp_copyN (a := a) (c := c) rfl hcc hb hd hbm hdm hbl hdl hac ?_))))
    exact ⟨_, Synced.copy hi hx hc.2 he hs hcc hb hd hac⟩
  | none =>
    have hso : (x.side m).bor = none ∧ (x.side m).own = none := by
      unfold Side.slot at hs
      cases hbo : (x.side m).bor <;> simp_all
    obtain ⟨hi1, hg1⟩ := hi.alloc hx hs h0 (if m = .host then fun _ => 0 else E.junk w.next)
    set w1 := allocW w v x m (if m = .host then fun _ => 0 else E.junk w.next) with hw1
    have hv1 : w1.vecs v = some (x.setSide m ⟨none, none, some w.next⟩) := setVec_same _ _ _
    have hcn : c ≠ w.next := by have := hi.lt_next hd; omega
    have hp : pick E m x.len (x.side m) w = .ok ⟨fun c => if c = w.next then some ⟨m, ⟨x.len, if m = .host then fun _ => 0 else E.junk w.next⟩, true⟩ else w.heap c, w.next + 1, w.vecs⟩ ⟨some w.next, none, some w.next⟩ := by
      unfold pick
      rw [hso.1, hso.2]
      rfl
    refine M.wp_bind.2 (wp_ok hp (M.wp_bind.2 (wp_putV (wp_copyN (a := w.next) (c := c) (b := ⟨m, ⟨x.len, if m = .host then fun _ => 0 else E.junk w.next⟩, true⟩) (d := d) rfl hcc (if_pos rfl) (by rw [setVec_heap]; exact (if_neg hcn).trans hd) rfl hdm (Nat.le_refl _) hdl (Ne.symm hcn) ?_))))
    have hx2 : (x.setSide m ⟨none, none, some w.next⟩).setSide m ⟨some w.next, none, some w.next⟩ = x.setSide m ⟨some w.next, none, some w.next⟩ := by
      unfold DVec.setSide
      congr 1
      funext m'
      by_cases h : m' = m <;> simp [h]
    have key := Synced.copy hi1 hv1 (m := m) (a := w.next) (c := c) (b := ⟨m, ⟨x.len, if m = .host then fun _ => 0 else E.junk w.next⟩, true⟩) (d := d)
      (by rw [setSide_same]) he (by rw [setSide_same]; rfl) (by rw [setSide_ne _ _ (other_ne m)]; exact hcc) (if_pos rfl)
      ((if_neg hcn).trans hd) (Ne.symm hcn)
    rw [setSide_same, hx2] at key
    have hw2 : w1.setVec v (some (x.setSide m ⟨some w.next, none, some w.next⟩)) =
        W.setVec ⟨fun c => if c = w.next then some ⟨m, ⟨x.len, if m = .host then fun _ => 0 else E.junk w.next⟩, true⟩ else w.heap c, w.next + 1, w.vecs⟩ v (some (x.setSide m ⟨some w.next, none, some w.next⟩)) := by
      rw [hw1]
      unfold allocW W.setVec
      congr 1
      funext u
      by_cases h : u = v <;> simp [h]
    rw [hw2] at key
    refine ⟨_, key.inv, hg1.trans key.grow, key.vec, rfl, rfl, rfl, fun m' => ?_, fun m' hm => setSide_ne _ _ hm, fun m' e h => ?_, fun h => absurd hc.2 h,
      fun _ => by rw [setSide_same]; simp, ⟨fun _ => hv, fun _ => ⟨m, by rw [setSide_same]; simp⟩⟩, fun f hf => key.val f ?_, fun a h => ?_⟩
    · by_cases h : m' = m
      · subst h; rw [setSide_same, hso.1]
      · rw [setSide_ne _ _ h]
    · by_cases hm : m' = m
      · subst hm; rw [hs] at h; cases h
      · rw [setSide_ne _ _ hm]; exact h
    · intro m' e he'
      by_cases hm : m' = m
      · subst hm; rw [setSide_same] at he'; cases he'
      · rw [setSide_ne _ _ hm] at he'
        obtain ⟨b', hb', h⟩ := hf m' e he'
        exact ⟨b', (if_neg (by have := hi.lt_next hb'; omega)).trans hb', h⟩
    · rw [setSide_same] at h
      have hne : a ≠ w.next := fun hc => h (by rw [hc])
      rw [setArr_ne _ _ hne]
      exact if_neg hne

/-- `CeedVectorSyncArray`: an error changes nothing. -/
theorem syncArray_wp {w : W α} (hi : Inv w) {v : Nat} {x : DVec} (hx : w.vecs v = some x) {m : Mem} :
    Wp (syncArray E v m) w (fun w' _ => x.state % 2 = 0 ∧ ∃ x', Synced w v x m w' x') (fun w' _ => w' = w ∧ x.state % 2 ≠ 0) := by
  unfold syncArray
  refine M.wp_bind.2 (wp_getV hx (M.wp_bind.2 (M.wp_check (fun he => ?_) fun h => ⟨rfl, h⟩)))
  by_cases h0 : x.len = 0
  · rw [if_pos h0]
    refine ⟨he, x, Synced.refl hi hx ?_⟩
    rintro ⟨m', h⟩
    rw [(hi.vec v x hx).empty h0] at h
    exact absurd rfl h
  · rw [if_neg h0]
    exact M.wp_mono (syncB_wp hi hx (by omega) he (R := fun _ _ => False)) (fun _ _ h => ⟨he, h⟩) fun _ _ h => h.elim

theorem Synced.keeps {w w' : W α} (hi : Inv w) {v : Nat} {x x' : DVec} (hx : w.vecs v = some x) {m : Mem} (h : Synced w v x m w' x') (u : Nat) :
    Keeps w w' u := by
  by_cases hu : u = v
  · subst hu
    refine ⟨fun f hf => ?_, fun hn => ?_⟩
    · rw [hi.hasVals_iff hx] at hf
      exact (h.inv.hasVals_iff h.vec).2 ⟨h.valid.2 hf.1, h.val f hf.2⟩
    · rw [noVals_iff hx] at hn
      exact (noVals_iff h.vec).2 fun hc => hn (h.valid.1 hc)
  · exact (h.grow.ext hi).keeps hi hu

end DevVec
end Verif
