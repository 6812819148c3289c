import Verif.Memcheck.Lemmas

/-!
# Vectors of the memcheck backend: single steps
-/

set_option linter.unusedSectionVars false

namespace Verif
namespace Memcheck

open Vector (Mem Mode)

variable {α : Type} {A : Arith α}

theorem vals_eq {w : W α} {v : Nat} {x : MVec α} (h : w.vecs v = some x) : vals w v = x.alloc.map (·.val) := by
  unfold vals; rw [h]; rfl

theorem lenOf_eq {w : W α} {v : Nat} {x : MVec α} (h : w.vecs v = some x) : lenOf w v = x.len := by
  unfold lenOf; rw [h]; rfl

theorem SameOn.refl (n : Nat) (f : Option (Nat → α)) : SameOn n f f := by
  unfold SameOn; cases f <;> simp

theorem SameOn.zero (f g : Option (Nat → α)) : SameOn 0 f g := by
  unfold SameOn; cases f <;> cases g <;> simp

/-- Arrays a call on `v` may write to. -/
def Touches (w : W α) (c : Call α) (a : Nat) : Prop :=
  match c with
  | .malloc b _ | .mfree b | .store b _ _ => a = b
  | .restoreArray v | .syncArray v _ | .takeArray v _ => ∃ x, w.vecs v = some x ∧ (x.owned = some a ∨ x.borrowed = some a)
  | .setArray v _ _ _ | .destroy v => ∃ x, w.vecs v = some x ∧ x.owned = some a
  | _ => False

/-- What a successful call leaves. -/
structure Post (A : Arith α) (w : W α) (c : Call α) (w' : W α) : Prop where
  inv : Inv w'
  vals : ∀ u, SameOn (lenOf w' u) (vals w' u) (newVals A w c u)
  heap : ∀ a, ¬ Touches w c a → w'.heap a = w.heap a
  clean : ∀ u x', w'.vecs u = some x' → 0 < x'.len → x'.readers = 0 → x'.rcopy.isSome → ∃ x, w.vecs u = some x ∧ 0 < x.len ∧ x.readers = 0 ∧ x.rcopy.isSome
  state : ∀ u x, w.vecs u = some x → c ≠ .destroy u → ∃ x', w'.vecs u = some x' ∧ x'.len = x.len ∧ x.state ≤ x'.state ∧
    (x'.state = x.state → ¬ Arithmetic u c → x'.alloc = x.alloc ∨ x'.alloc = none)
  reading : ∀ u x x', w.vecs u = some x → 0 < x.readers → ¬ Arithmetic u c → w'.vecs u = some x' → x'.alloc = x.alloc
  lent : ∀ u, lent w' u = newLent w c u

theorem lent_eq {w : W α} {v : Nat} {x : MVec α} (h : w.vecs v = some x) : lent w v = x.borrowed := by
  unfold lent; rw [h]; rfl

/-- A successful call that changes one vector and no array. -/
theorem Post.of_vec' {w : W α} (hi : Inv w) {c : Call α} {v : Nat} {x x' : MVec α} (hx : w.vecs v = some x) (hv : VInv w x')
    (hs : x'.owned = x.owned ∧ x'.borrowed = x.borrowed) (hl : x'.len = x.len)
    (hval : SameOn x.len (x'.alloc.map (·.val)) (newVals A w c v)) (hnv : ∀ u, u ≠ v → newVals A w c u = Memcheck.vals w u)
    (hcl : 0 < x.len → x'.readers = 0 → x'.rcopy.isSome → x.readers = 0 ∧ x.rcopy.isSome) (hst : x.state ≤ x'.state)
    (hst' : x'.state = x.state → ¬ Arithmetic v c → x'.alloc = x.alloc ∨ x'.alloc = none)
    (hrd : 0 < x.readers → ¬ Arithmetic v c → x'.alloc = x.alloc) (hnl : ∀ u, newLent w c u = Memcheck.lent w u) :
    Post A w c (w.setVec v (some x')) := by
  refine ⟨hi.setVec hx hv (fun a => by rw [hs.1, hs.2]; exact id), fun u => ?_, fun a _ => rfl, fun u y hy => ?_, fun u y hy _ => ?_,
    fun u y y' hy hr hna hy' => ?_, fun u => ?_⟩
  · by_cases hu : u = v
    · subst hu
      rw [vals_eq (setVec_same _ _ _), lenOf_eq (setVec_same _ _ _), hl]
      exact hval
    · rw [hnv u hu]
      have : Memcheck.vals (w.setVec v (some x')) u = Memcheck.vals w u := by
        unfold Memcheck.vals; rw [setVec_ne _ _ hu]
      rw [this]
      exact SameOn.refl _ _
  · by_cases hu : u = v
    · subst hu
      rw [setVec_same] at hy
      cases hy
      intro h0 h1 h2
      obtain ⟨h3, h4⟩ := hcl (by rw [hl] at h0; exact h0) h1 h2
      exact ⟨x, hx, by rw [hl] at h0; exact h0, h3, h4⟩
    · rw [setVec_ne _ _ hu] at hy
      exact fun h0 h1 h2 => ⟨y, hy, h0, h1, h2⟩
  · by_cases hu : u = v
    · subst hu
      rw [hx] at hy
      cases hy
      exact ⟨x', setVec_same _ _ _, hl, hst, hst'⟩
    · exact ⟨y, by rw [setVec_ne _ _ hu]; exact hy, rfl, Nat.le_refl _, fun _ _ => Or.inl rfl⟩
  · by_cases hu : u = v
    · subst hu
      rw [hx] at hy
      cases hy
      rw [setVec_same] at hy'
      cases hy'
      exact hrd hr hna
    · rw [setVec_ne _ _ hu, hy] at hy'
      cases hy'
      rfl
  · rw [hnl]
    by_cases hu : u = v
    · subst hu
      rw [lent_eq (setVec_same _ _ _), lent_eq hx, hs.2]
    · unfold Memcheck.lent
      rw [setVec_ne _ _ hu]

theorem newLent_arith {w : W α} {c : Call α} {v : Nat} (h : Arithmetic v c) (u : Nat) : newLent w c u = lent w u := by
  cases c <;> first | rfl | exact h.elim

theorem Post.of_vec {w : W α} (hi : Inv w) {c : Call α} {v : Nat} {x x' : MVec α} (hx : w.vecs v = some x) (hv : VInv w x')
    (hs : x'.owned = x.owned ∧ x'.borrowed = x.borrowed) (hl : x'.len = x.len)
    (hval : SameOn x.len (x'.alloc.map (·.val)) (newVals A w c v)) (hnv : ∀ u, u ≠ v → newVals A w c u = Memcheck.vals w u)
    (hcl : x'.readers = 0 → x'.rcopy.isSome → x.readers = 0 ∧ x.rcopy.isSome) (hst : x.state ≤ x'.state)
    (hst' : x'.state = x.state → ¬ Arithmetic v c → x'.alloc = x.alloc ∨ x'.alloc = none)
    (hrd : 0 < x.readers → ¬ Arithmetic v c → x'.alloc = x.alloc) (hnl : ∀ u, newLent w c u = Memcheck.lent w u := by first | (intro u; rfl) | (exact fun u => newLent_arith (by assumption) u)) :
    Post A w c (w.setVec v (some x')) :=
  Post.of_vec' hi hx hv hs hl hval hnv (fun _ => hcl) hst hst' hrd hnl

/-- Result of a call: an error that changes nothing, or success. -/
def Step (A : Arith α) (w : W α) (c : Call α) {β : Type} (o : Out (W α) β) (f : β → Option Nat) : Prop :=
  match o with
  | .ok w' r => Post A w c w' ∧ (∀ v m, c = .takeArray v m → 0 < lenOf w v →
      f r = lent w v ∧ (f r).isSome ∧ ∀ a, f r = some a → ∃ b g, w'.heap a = some b ∧ vals w v = some g ∧
        ∀ i < lenOf w v, b.val i = g i)
  | .err w' _ => w' = w
  | .ub => False

theorem put_ne {β : Type} {f : Nat → β} {v u : Nat} {x : β} (h : u ≠ v) : put f v x u = f u := if_neg h
@[simp] theorem put_same {β : Type} (f : Nat → β) (v : Nat) (x : β) : put f v x v = x := if_pos rfl

theorem step_ok {w w' : W α} {c : Call α} (h : Post A w c w') (hc : ∀ v m, c ≠ .takeArray v m) {β : Type} {r : β} {f : β → Option Nat} :
    Step A w c (.ok w' r) f := ⟨h, fun v m e => absurd e (hc v m)⟩

theorem lock_out {w : W α} (x : MVec α) :
    lockChecks x w = .err w .access ∨ (lockChecks x w = .ok w () ∧ x.state % 2 = 0 ∧ x.readers = 0) := by
  unfold lockChecks
  simp only [M.bind_apply]
  by_cases h1 : x.state % 2 = 0
  · rw [M.check_true h1, Out.bind_ok]
    by_cases h2 : x.readers = 0
    · exact Or.inr ⟨M.check_true h2 _ _, h1, h2⟩
    · exact Or.inl (M.check_false h2 _ _)
  · exact Or.inl (by rw [M.check_false h1]; rfl)

/-- The array of a vector after `ensure`. -/
def ensured (nan : α) (x : MVec α) : MVec α :=
  match x.alloc with
  | some _ => x
  | none => { x with alloc := some ⟨x.len, fun _ => nan⟩ }

theorem ensure_ok {w : W α} {v : Nat} {x : MVec α} (hx : w.vecs v = some x) :
    ensure A v .host w = .ok (w.setVec v (some (ensured A.nan x))) () ∨
    (ensure A v .host w = .ok w () ∧ x = ensured A.nan x) := by
  unfold ensure ensured
  simp only [M.bind_apply, getV_eq hx, Out.bind_ok]
  cases ha : x.alloc with
  | some b => exact Or.inr ⟨by simp, rfl⟩
  | none =>
    left
    simp [setArrayMc, getV_eq hx, freeOwned, takeIn, M.check_true]

theorem setVec_self {w : W α} {v : Nat} {x : MVec α} (hx : w.vecs v = some x) : w.setVec v (some x) = w := by
  unfold W.setVec
  cases w with
  | mk h vs =>
    congr 1
    funext u
    by_cases hu : u = v
    · subst hu; simp only [if_true]; exact hx.symm
    · simp [hu]

theorem ensure_eq {w : W α} {v : Nat} {x : MVec α} (hx : w.vecs v = some x) :
    ensure A v .host w = .ok (w.setVec v (some (ensured A.nan x))) () := by
  rcases ensure_ok (A := A) hx with h | ⟨h, he⟩
  · exact h
  · rw [h, ← he, setVec_self hx]

theorem ensured_spec {w : W α} {x : MVec α} (h : VInv w x) (nan : α) :
    ∃ b, (ensured nan x).alloc = some b ∧ b.len = x.len ∧ b.val = ((x.alloc.map (·.val)).getD fun _ => nan) ∧
      (ensured nan x) = { x with alloc := some b } := by
  unfold ensured
  cases ha : x.alloc with
  | some b => exact ⟨b, by simp only [ha], h.al b ha, rfl, by simp only [ha]; cases x; simp only at ha; subst ha; rfl⟩
  | none => exact ⟨_, rfl, rfl, rfl, rfl⟩

/-- New values, and a new state, for a vector. -/
theorem VInv.newAlloc {w : W α} {x : MVec α} (h : VInv w x) {b : Buf α} (hb : b.len = x.len) {s : Nat} (hs : s % 2 = x.state % 2) :
    VInv w { x with alloc := some b, state := s } := by
  refine ⟨fun c hc => (by cases hc; exact hb), h.wl, h.rl, fun hl => ?_, fun _ => rfl, fun h1 h2 => ⟨(h.rc h1 h2).1, rfl⟩,
    fun hc => (by cases hc), h.one, h.arr, fun hh => h.lock (hs ▸ hh)⟩
  show s % 2 = 1 ↔ _
  rw [hs]
  exact h.wc hl

theorem setValue_step {w : W α} (hi : Inv w) {v : Nat} (z : α) (hv : Is w v) (f : Unit → Option Nat) :
    Step A w (.setValue v z) (setValue A v z w) f := by
  obtain ⟨x, hx⟩ := hv
  have hV := hi.each v x hx
  unfold setValue
  simp only [M.bind_apply, getV_eq hx, Out.bind_ok]
  rcases lock_out (w := w) x with e | ⟨e, h1, h2⟩
  · rw [e]; exact rfl
  rw [e, Out.bind_ok]
  obtain ⟨b, hb, hbl, hbv, hE⟩ := ensured_spec hV A.nan
  simp only [setValueMc, M.bind_apply, ensure_eq hx, Out.bind_ok, getV_put, theAlloc, hE, M.lift_ok,
    mapLoop_ok (fun _ => z) (le_of_eq hbl.symm), putV_eq, setVec_setVec, bump]
  refine step_ok (w' := w.setVec v (some { x with alloc := some (over b x.len fun _ => z), state := x.state + 2 })) ?_ (by simp)
  refine Post.of_vec hi hx (hV.newAlloc (b := over b x.len fun _ => z) hbl (by omega)) ⟨rfl, rfl⟩ rfl ?_ (fun u hu => put_ne hu)
    (fun _ hh => ⟨h2, hh⟩) (by simp) (fun hh => by simp at hh) (fun hh => by omega)
  simp only [newVals, put_same]
  intro i hi'
  simp [over, hi']

theorem setValueStrided_step {w : W α} (hi : Inv w) {v : Nat} {start stop step : Int} (z : α) (hv : Is w v) (h0 : 0 ≤ start) (hs : 0 < step)
    (f : Unit → Option Nat) :
    Step A w (.setValueStrided v start stop step z) (setValueStrided A v start stop step z w) f := by
  obtain ⟨x, hx⟩ := hv
  have hV := hi.each v x hx
  unfold setValueStrided
  simp only [M.bind_apply, getV_eq hx, Out.bind_ok]
  rcases lock_out (w := w) x with e | ⟨e, h1, h2⟩
  · rw [e]; exact rfl
  rw [e, Out.bind_ok]
  by_cases hst : -1 ≤ stop ∧ stop ≤ x.len
  swap
  · rw [M.check_false hst]; exact rfl
  rw [M.check_true hst, Out.bind_ok]
  obtain ⟨b, hb, hbl, hbv, hE⟩ := ensured_spec hV A.nan
  obtain ⟨c, hc, hcl, hcv⟩ := strideFill_ok (start := start) (stop := if stop = -1 then x.len else stop) h0 hs z (b := b)
    (by rw [hbl]; split <;> omega)
  simp only [setValueStridedMc, M.bind_apply, ensure_eq hx, Out.bind_ok, getV_put, theAlloc, hE, M.lift_ok,
    hc, putV_eq, setVec_setVec, bump]
  refine step_ok (w' := w.setVec v (some { x with alloc := some c, state := x.state + 2 })) ?_ (by simp)
  refine Post.of_vec hi hx (hV.newAlloc (b := c) (by omega) (by omega)) ⟨rfl, rfl⟩ rfl ?_ (fun u hu => put_ne hu)
    (fun _ hh => ⟨h2, hh⟩) (by simp) (fun hh => by simp at hh) (fun hh => by omega)
  simp only [newVals, put_same]
  intro i hi'
  show c.val i = _
  rw [hcv i, vals_eq hx, lenOf_eq hx, hbv]
  rfl

theorem map_step {w : W α} (hi : Inv w) {v : Nat} {x : MVec α} (hx : w.vecs v = some x) (g : α → α) {c : Call α}
    (hc : ∀ u m, c ≠ .takeArray u m) (ha : Arithmetic v c) (hl : 0 < x.len) (hva : validB x = true)
    (hn : newVals A w c = put (vals w) v ((vals w v).map fun f i => g (f i))) (f : Unit → Option Nat) :
    Step A w c (mapMc v g w) f := by
  have hV := hi.each v x hx
  obtain ⟨b, hb⟩ : ∃ b, x.alloc = some b := by
    unfold validB at hva
    simp only [Bool.or_eq_true, decide_eq_true_eq] at hva
    exact Option.isSome_iff_exists.1 (hva.resolve_left (by omega))
  have hbl := hV.al b hb
  simp only [mapMc, M.bind_apply, getV_eq hx, Out.bind_ok, theAlloc, hb, M.lift_ok, mapLoop_ok g (le_of_eq hbl.symm), putV_eq]
  refine step_ok (w' := w.setVec v (some { x with alloc := some (over b x.len fun i => g (b.val i)) })) ?_ hc
  refine Post.of_vec hi hx (hV.newAlloc (b := over b x.len fun i => g (b.val i)) hbl rfl) ⟨rfl, rfl⟩ rfl ?_
    (fun u hu => by rw [hn]; exact put_ne hu) (fun h1 h2 => ⟨h1, h2⟩) (Nat.le_refl _) (fun _ hh => absurd ha hh) (fun _ hh => absurd ha hh)
  rw [hn, put_same, vals_eq hx, hb]
  intro i hi'
  simp [over, hi']

theorem scale_step {w : W α} (hi : Inv w) {v : Nat} (z : α) (hv : Is w v) (f : Unit → Option Nat) :
    Step A w (.scale v z) (scale A v z w) f := by
  obtain ⟨x, hx⟩ := hv
  unfold scale
  simp only [M.bind_apply, getV_eq hx, Out.bind_ok]
  by_cases h1 : validB x = true
  swap
  · rw [M.check_false h1]; exact rfl
  rw [M.check_true h1, Out.bind_ok]
  by_cases h2 : x.len = 0
  · rw [if_pos h2]
    have := Post.of_vec (A := A) (c := .scale v z) hi hx (hi.each v x hx) ⟨rfl, rfl⟩ rfl (by rw [h2]; exact SameOn.zero _ _) (fun u hu => put_ne hu)
      (fun h1 h2 => ⟨h1, h2⟩) (Nat.le_refl _) (fun _ _ => Or.inl rfl) (fun _ _ => rfl)
    rw [setVec_self hx] at this
    exact step_ok this (by simp)
  · rw [if_neg h2]
    exact map_step (c := .scale v z) hi hx _ (by simp) rfl (by omega) h1 rfl f

theorem reciprocal_step {w : W α} (hi : Inv w) {v : Nat} (hv : Is w v) (f : Unit → Option Nat) :
    Step A w (.reciprocal v) (reciprocal A v w) f := by
  obtain ⟨x, hx⟩ := hv
  unfold reciprocal
  simp only [M.bind_apply, getV_eq hx, Out.bind_ok]
  by_cases h1 : validB x = true
  swap
  · rw [M.check_false h1]; exact rfl
  rw [M.check_true h1, Out.bind_ok]
  by_cases h3 : 0 < x.state
  swap
  · rw [M.check_false h3]; exact rfl
  rw [M.check_true h3, Out.bind_ok]
  by_cases h2 : x.len = 0
  · rw [if_pos h2]
    have := Post.of_vec (A := A) (c := .reciprocal v) hi hx (hi.each v x hx) ⟨rfl, rfl⟩ rfl (by rw [h2]; exact SameOn.zero _ _) (fun u hu => put_ne hu)
      (fun h1 h2 => ⟨h1, h2⟩) (Nat.le_refl _) (fun _ _ => Or.inl rfl) (fun _ _ => rfl)
    rw [setVec_self hx] at this
    exact step_ok this (by simp)
  · rw [if_neg h2]
    exact map_step (c := .reciprocal v) hi hx _ (by simp) rfl (by omega) h1 rfl f

theorem valid_alloc {x : MVec α} (h : validB x = true) (hl : x.len ≠ 0) : ∃ b, x.alloc = some b := by
  unfold validB at h
  simp only [Bool.or_eq_true, decide_eq_true_eq] at h
  exact Option.isSome_iff_exists.1 (h.resolve_left hl)

theorem axp_step {w : W α} (hi : Inv w) {y x : Nat} (g : α → α → α) {c : Call α} (hc : ∀ u m, c ≠ .takeArray u m)
    (ha : Arithmetic y c) (hn : newVals A w c = put (vals w) y ((vals w x).bind fun f => (vals w y).map fun k i => g (f i) (k i)))
    (hy : Is w y) (hx : Is w x) (f : Unit → Option Nat) : Step A w c (axp y g x w) f := by
  obtain ⟨vy, hy⟩ := hy
  obtain ⟨vx, hx⟩ := hx
  have hV := hi.each y vy hy
  have hX := hi.each x vx hx
  unfold axp
  simp only [M.bind_apply, getV_eq hx, getV_eq hy, Out.bind_ok]
  by_cases h1 : vx.len = vy.len
  swap
  · rw [M.check_false h1]; exact rfl
  rw [M.check_true h1, Out.bind_ok]
  by_cases h2 : x ≠ y
  swap
  · rw [M.check_false h2]; exact rfl
  rw [M.check_true h2, Out.bind_ok]
  by_cases h3 : validB vx = true
  swap
  · rw [M.check_false h3]; exact rfl
  rw [M.check_true h3, Out.bind_ok]
  by_cases h4 : validB vy = true
  swap
  · rw [M.check_false h4]; exact rfl
  rw [M.check_true h4, Out.bind_ok]
  by_cases h5 : vy.len = 0
  · rw [if_pos h5]
    have := Post.of_vec (A := A) (c := c) hi hy hV ⟨rfl, rfl⟩ rfl (by rw [h5]; exact SameOn.zero _ _)
      (fun u hu => by rw [hn]; exact put_ne hu)
      (fun h1 h2 => ⟨h1, h2⟩) (Nat.le_refl _) (fun _ _ => Or.inl rfl) (fun _ _ => rfl)
    rw [setVec_self hy] at this
    exact step_ok this hc
  rw [if_neg h5]
  obtain ⟨a, hxa⟩ := valid_alloc h3 (by omega)
  obtain ⟨b, hyb⟩ := valid_alloc h4 h5
  have hal := hX.al a hxa
  have hbl := hV.al b hyb
  simp only [axpMc, M.bind_apply, getV_eq hx, getV_eq hy, Out.bind_ok, theAlloc, hxa, hyb, M.lift_ok,
    zipLoop_ok g (show vy.len ≤ a.len by omega) (show vy.len ≤ b.len by omega), putV_eq]
  refine step_ok (w' := w.setVec y (some { vy with alloc := some (over b vy.len fun i => g (a.val i) (b.val i)) })) ?_ hc
  refine Post.of_vec hi hy (hV.newAlloc (b := over b vy.len fun i => g (a.val i) (b.val i)) hbl rfl) ⟨rfl, rfl⟩ rfl ?_
    (fun u hu => by rw [hn]; exact put_ne hu) (fun h1 h2 => ⟨h1, h2⟩) (Nat.le_refl _) (fun _ hh => absurd ha hh) (fun _ hh => absurd ha hh)
  rw [hn, put_same, vals_eq hx, vals_eq hy, hxa, hyb]
  intro i hi'
  simp [over, hi']

theorem pointwiseMult_step {w : W α} (hi : Inv w) {u x y : Nat} (hu : Is w u) (hx : Is w x) (hy : Is w y) (f : Unit → Option Nat) :
    Step A w (.pointwiseMult u x y) (pointwiseMult A u x y w) f := by
  obtain ⟨vu, hu⟩ := hu
  obtain ⟨vy, hy⟩ := hy
  obtain ⟨vx, hx⟩ := hx
  have hU := hi.each u vu hu
  have hY := hi.each y vy hy
  have hX := hi.each x vx hx
  unfold pointwiseMult
  simp only [M.bind_apply, getV_eq hx, getV_eq hy, getV_eq hu, Out.bind_ok]
  by_cases h1 : vu.len ≤ vx.len ∧ vu.len ≤ vy.len
  swap
  · rw [M.check_false h1]; exact rfl
  rw [M.check_true h1, Out.bind_ok]
  by_cases h3 : validB vx = true
  swap
  · rw [M.check_false h3]; exact rfl
  rw [M.check_true h3, Out.bind_ok]
  by_cases h4 : validB vy = true
  swap
  · rw [M.check_false h4]; exact rfl
  rw [M.check_true h4, Out.bind_ok]
  by_cases h5 : vu.len = 0
  · rw [if_pos h5]
    have := Post.of_vec (A := A) (c := .pointwiseMult u x y) hi hu hU ⟨rfl, rfl⟩ rfl (by rw [h5]; exact SameOn.zero _ _)
      (fun u hu => put_ne hu)
      (fun h1 h2 => ⟨h1, h2⟩) (Nat.le_refl _) (fun _ _ => Or.inl rfl) (fun _ _ => rfl)
    rw [setVec_self hu] at this
    exact step_ok this (by simp)
  rw [if_neg h5]
  obtain ⟨a, hxa⟩ := valid_alloc h3 (by omega)
  obtain ⟨b, hyb⟩ := valid_alloc h4 (by omega)
  have hal := hX.al a hxa
  have hbl := hY.al b hyb
  obtain ⟨e, he, hel, hev, hE⟩ := ensured_spec hU A.nan
  have hw1x : ∃ vx', (w.setVec u (some (ensured A.nan vu))).vecs x = some vx' ∧ vx'.alloc = some a := by
    by_cases h : x = u
    · subst h
      rw [hx] at hu
      cases hu
      refine ⟨_, setVec_same _ _ _, ?_⟩
      unfold ensured
      simp only [hxa]
    · exact ⟨vx, by rw [setVec_ne _ _ h]; exact hx, hxa⟩
  have hw1y : ∃ vy', (w.setVec u (some (ensured A.nan vu))).vecs y = some vy' ∧ vy'.alloc = some b := by
    by_cases h : y = u
    · subst h
      rw [hy] at hu
      cases hu
      refine ⟨_, setVec_same _ _ _, ?_⟩
      unfold ensured
      simp only [hyb]
    · exact ⟨vy, by rw [setVec_ne _ _ h]; exact hy, hyb⟩
  obtain ⟨vx', hx', hxa'⟩ := hw1x
  obtain ⟨vy', hy', hyb'⟩ := hw1y
  have hlu : (ensured A.nan vu).len = vu.len := by rw [hE]
  simp only [pointwiseMultMc, M.bind_apply, ensure_eq hu, getV_eq hx', getV_eq hy', getV_put, Out.bind_ok, theAlloc, hxa', hyb', he, M.lift_ok,
    hlu, zip3Loop_ok A.mul (show vu.len ≤ a.len by omega) (show vu.len ≤ b.len by omega) (show vu.len ≤ e.len by omega), putV_eq, setVec_setVec]
  rw [hE]
  refine step_ok (w' := w.setVec u (some { vu with alloc := some (over e vu.len fun i => A.mul (a.val i) (b.val i)) })) ?_ (by simp)
  refine Post.of_vec hi hu (hU.newAlloc (b := over e vu.len fun i => A.mul (a.val i) (b.val i)) hel rfl) ⟨rfl, rfl⟩ rfl ?_
    (fun u hu => put_ne hu) (fun h1 h2 => ⟨h1, h2⟩) (Nat.le_refl _) (fun _ hh => absurd (rfl : u = u) hh) (fun _ hh => absurd (rfl : u = u) hh)
  show SameOn _ _ (put _ _ _ _)
  rw [put_same, vals_eq hx, vals_eq hy, hxa, hyb]
  intro i hi'
  simp [over, hi']

/-! ## Accesses -/

theorem getArray_step {w : W α} (hi : Inv w) {v : Nat} (m : Mem) (hv : Is w v) (f : Unit → Option Nat) :
    Step A w (.getArray v m) (getArray v m w) f := by
  obtain ⟨x, hx⟩ := hv
  have hV := hi.each v x hx
  unfold getArray
  simp only [M.bind_apply, getV_eq hx, Out.bind_ok]
  rcases lock_out (w := w) x with e | ⟨e, h1, h2⟩
  · rw [e]; exact rfl
  rw [e, Out.bind_ok]
  by_cases h3 : 0 < x.len
  · rw [if_pos h3]
    simp only [M.bind_apply]
    by_cases h4 : validB x = true
    swap
    · rw [M.check_false h4]; exact rfl
    rw [M.check_true h4, Out.bind_ok]
    obtain ⟨b, hb⟩ := valid_alloc h4 (by omega)
    have hbl := hV.al b hb
    unfold getMc
    simp only [M.bind_apply]
    by_cases h5 : m = .host
    swap
    · rw [M.check_false h5]; exact rfl
    rw [M.check_true h5, Out.bind_ok]
    simp only [getV_eq hx, Out.bind_ok, dup, hb, if_pos (le_of_eq hbl.symm), M.lift_ok, putV_eq, bump, M.bind_apply, getV_put, setVec_setVec]
    rw [← hb]
    refine step_ok (c := .getArray v m) (w' := w.setVec v (some { x with wcopy := some ⟨x.len, b.val⟩, state := x.state + 1 })) ?_ (by simp)
    refine Post.of_vec hi hx ?_ ⟨rfl, rfl⟩ rfl ?_ (fun u hu => rfl)
      (fun _ hh => ⟨h2, hh⟩) (by simp) (fun hh => by simp at hh) (fun _ _ => rfl)
    · exact ⟨hV.al, fun c hc => (by cases hc; rfl), hV.rl, fun _ => ⟨fun _ => rfl, fun _ => (by show (x.state + 1) % 2 = 1; omega)⟩,
        fun _ => (by show x.alloc.isSome; rw [hb]; rfl), hV.rc, hV.slots, hV.one, hV.arr, fun _ => h2⟩
    · show SameOn _ _ (vals w v)
      rw [vals_eq hx]
      exact SameOn.refl _ _
  · rw [if_neg h3]
    simp only [bump, M.bind_apply, getV_eq hx, Out.bind_ok, putV_eq]
    refine step_ok (w' := w.setVec v (some { x with state := x.state + 1 })) ?_ (by simp)
    refine Post.of_vec hi hx ?_ ⟨rfl, rfl⟩ rfl ?_ (fun u hu => rfl)
      (fun _ hh => ⟨h2, hh⟩) (by simp) (fun hh => by simp at hh) (fun _ _ => rfl)
    · exact ⟨hV.al, hV.wl, hV.rl, fun hh => absurd hh h3, hV.wa, hV.rc, hV.slots, hV.one, hV.arr, fun _ => h2⟩
    · show SameOn _ _ (vals w v)
      rw [vals_eq hx]
      exact SameOn.refl _ _

theorem getArrayWrite_step {w : W α} (hi : Inv w) {v : Nat} (m : Mem) (hv : Is w v) (f : Unit → Option Nat) :
    Step A w (.getArrayWrite v m) (getArrayWrite A v m w) f := by
  obtain ⟨x, hx⟩ := hv
  have hV := hi.each v x hx
  unfold getArrayWrite
  simp only [M.bind_apply, getV_eq hx, Out.bind_ok]
  rcases lock_out (w := w) x with e | ⟨e, h1, h2⟩
  · rw [e]; exact rfl
  rw [e, Out.bind_ok]
  by_cases h3 : 0 < x.len
  · rw [if_pos h3]
    unfold getWriteMc
    simp only [M.bind_apply]
    by_cases h5 : m = .host
    swap
    · rw [M.check_false h5]; exact rfl
    subst h5
    obtain ⟨b, hb, hbl, hbv, hE⟩ := ensured_spec hV A.nan
    rw [M.check_true rfl, Out.bind_ok, ensure_eq hx, Out.bind_ok]
    simp only [getMc, M.bind_apply, M.check_true, getV_put, Out.bind_ok, hE, dup, if_pos (le_of_eq hbl.symm), M.lift_ok, putV_eq, bump, setVec_setVec,
      le_refl, if_true, mapLoop_ok (fun _ => A.nan) (b := ⟨x.len, b.val⟩) (Nat.le_refl x.len)]
    refine step_ok (w' := w.setVec v (some { x with alloc := some b, wcopy := some (over ⟨x.len, b.val⟩ x.len fun _ => A.nan), writeOnly := true, state := x.state + 1 })) ?_ (by simp)
    refine Post.of_vec hi hx ?_ ⟨rfl, rfl⟩ rfl ?_ (fun u hu => put_ne hu)
      (fun _ hh => ⟨h2, hh⟩) (by simp) (fun hh => by simp at hh) (fun hh => by omega)
    · exact ⟨fun c hc => (by cases hc; exact hbl), fun c hc => (by cases hc; rfl), hV.rl,
        fun _ => ⟨fun _ => rfl, fun _ => (by show (x.state + 1) % 2 = 1; omega)⟩,
        fun _ => rfl, fun h1 h2 => ⟨(hV.rc h1 h2).1, rfl⟩, fun hc => (by cases hc), hV.one, hV.arr, fun _ => h2⟩
    · show SameOn _ _ (put _ _ _ _)
      rw [put_same, vals_eq hx, ← hbv]
      exact SameOn.refl _ _
  · rw [if_neg h3]
    simp only [bump, M.bind_apply, getV_eq hx, Out.bind_ok, putV_eq]
    refine step_ok (w' := w.setVec v (some { x with state := x.state + 1 })) ?_ (by simp)
    refine Post.of_vec hi hx ?_ ⟨rfl, rfl⟩ rfl ?_ (fun u hu => put_ne hu)
      (fun _ hh => ⟨h2, hh⟩) (by simp) (fun hh => by simp at hh) (fun _ _ => rfl)
    · exact ⟨hV.al, hV.wl, hV.rl, fun hh => absurd hh h3, hV.wa, hV.rc, hV.slots, hV.one, hV.arr, fun _ => h2⟩
    · rw [show x.len = 0 by omega]
      exact SameOn.zero _ _

theorem getArrayRead_step {w : W α} (hi : Inv w) {v : Nat} (m : Mem) (hv : Is w v) (f : Unit → Option Nat) :
    Step A w (.getArrayRead v m) (getArrayRead v m w) f := by
  obtain ⟨x, hx⟩ := hv
  have hV := hi.each v x hx
  unfold getArrayRead
  simp only [M.bind_apply, getV_eq hx, Out.bind_ok]
  by_cases h1 : x.state % 2 = 0
  swap
  · rw [M.check_false h1]; exact rfl
  rw [M.check_true h1, Out.bind_ok]
  by_cases h3 : 0 < x.len
  · rw [if_pos h3]
    simp only [M.bind_apply]
    by_cases h4 : validB x = true
    swap
    · rw [M.check_false h4]; exact rfl
    rw [M.check_true h4, Out.bind_ok]
    obtain ⟨b, hb⟩ := valid_alloc h4 (by omega)
    have hbl := hV.al b hb
    unfold getReadMc
    simp only [M.bind_apply]
    by_cases h5 : m = .host
    swap
    · rw [M.check_false h5]; exact rfl
    rw [M.check_true h5, Out.bind_ok]
    simp only [getV_eq hx, Out.bind_ok]
    by_cases hr : x.rcopy.isSome = true
    · rw [if_pos hr]
      simp only [M.pure_apply, Out.bind_ok, addReader, M.bind_apply, getV_eq hx, putV_eq]
      refine step_ok (w' := w.setVec v (some { x with readers := x.readers + 1 })) ?_ (by simp)
      refine Post.of_vec hi hx ?_ ⟨rfl, rfl⟩ rfl ?_ (fun u hu => rfl)
        (fun hh _ => by simp at hh) (Nat.le_refl _) (fun _ _ => Or.inl rfl) (fun _ _ => rfl)
      · exact ⟨hV.al, hV.wl, hV.rl, hV.wc, hV.wa, fun _ _ => ⟨hr, (by show x.alloc.isSome; rw [hb]; rfl)⟩, hV.slots, hV.one, hV.arr,
          fun hh => absurd hh (by show ¬ x.state % 2 = 1; omega)⟩
      · show SameOn _ _ (vals w v)
        rw [vals_eq hx]
        exact SameOn.refl _ _
    · rw [if_neg hr]
      simp only [M.bind_apply, dup, hb, if_pos (le_of_eq hbl.symm), M.lift_ok, Out.bind_ok, addReader, getV_put, putV_eq, setVec_setVec]
      rw [← hb]
      refine step_ok (c := .getArrayRead v m) (w' := w.setVec v (some { x with rcopy := some ⟨x.len, b.val⟩, readers := x.readers + 1 })) ?_ (by simp)
      refine Post.of_vec hi hx ?_ ⟨rfl, rfl⟩ rfl ?_ (fun u hu => rfl)
        (fun hh _ => by simp at hh) (Nat.le_refl _) (fun _ _ => Or.inl rfl) (fun _ _ => rfl)
      · exact ⟨hV.al, hV.wl, fun c hc => (by cases hc; rfl), hV.wc, hV.wa, fun _ _ => ⟨rfl, (by show x.alloc.isSome; rw [hb]; rfl)⟩, hV.slots, hV.one, hV.arr,
          fun hh => absurd hh (by show ¬ x.state % 2 = 1; omega)⟩
      · show SameOn _ _ (vals w v)
        rw [vals_eq hx]
        exact SameOn.refl _ _
  · rw [if_neg h3]
    simp only [addReader, M.bind_apply, getV_eq hx, Out.bind_ok, putV_eq]
    refine step_ok (w' := w.setVec v (some { x with readers := x.readers + 1 })) ?_ (by simp)
    refine Post.of_vec hi hx ?_ ⟨rfl, rfl⟩ rfl ?_ (fun u hu => rfl)
      (fun hh _ => by simp at hh) (Nat.le_refl _) (fun _ _ => Or.inl rfl) (fun _ _ => rfl)
    · exact ⟨hV.al, hV.wl, hV.rl, hV.wc, hV.wa, fun hh => absurd hh h3, hV.slots, hV.one, hV.arr,
        fun hh => absurd hh (by show ¬ x.state % 2 = 1; omega)⟩
    · show SameOn _ _ (vals w v)
      rw [vals_eq hx]
      exact SameOn.refl _ _

theorem storeW_step {w : W α} (hi : Inv w) {v i : Nat} (z : α) {x : MVec α} (hx : w.vecs v = some x) (h1 : x.state % 2 = 1) (h2 : i < x.len)
    (f : Unit → Option Nat) : Step A w (.storeWrite v i z) (storeW v i z w) f := by
  have hV := hi.each v x hx
  obtain ⟨b, hb⟩ := Option.isSome_iff_exists.1 ((hV.wc (by omega)).1 h1)
  have hbl := hV.wl b hb
  simp only [storeW, M.bind_apply, getV_eq hx, Out.bind_ok, stB, hb, Buf.wr_lt (show i < b.len by omega), M.lift_ok, putV_eq]
  refine step_ok ?_ (by simp)
  refine Post.of_vec hi hx ?_ ⟨rfl, rfl⟩ rfl ?_ (fun u hu => rfl)
    (fun h1 h2 => ⟨h1, h2⟩) (Nat.le_refl _) (fun _ _ => Or.inl rfl) (fun _ _ => rfl)
  · exact ⟨hV.al, fun c hc => (by cases hc; exact hbl), hV.rl, fun _ => ⟨fun _ => rfl, fun _ => h1⟩,
      fun _ => hV.wa (by rw [hb]; rfl), hV.rc, hV.slots, hV.one, hV.arr, hV.lock⟩
  · show SameOn _ _ (vals w v)
    rw [vals_eq hx]
    exact SameOn.refl _ _

theorem storeR_step {w : W α} (hi : Inv w) {v i : Nat} (z : α) {x : MVec α} (hx : w.vecs v = some x) (h1 : 0 < x.readers) (h2 : i < x.len)
    (f : Unit → Option Nat) : Step A w (.storeRead v i z) (storeR v i z w) f := by
  have hV := hi.each v x hx
  obtain ⟨b, hb⟩ := Option.isSome_iff_exists.1 (hV.rc (by omega) h1).1
  have hbl := hV.rl b hb
  simp only [storeR, M.bind_apply, getV_eq hx, Out.bind_ok, stB, hb, Buf.wr_lt (show i < b.len by omega), M.lift_ok, putV_eq]
  refine step_ok ?_ (by simp)
  refine Post.of_vec hi hx ?_ ⟨rfl, rfl⟩ rfl ?_ (fun u hu => rfl)
    (fun hh _ => absurd hh (by show ¬ x.readers = 0; omega)) (Nat.le_refl _) (fun _ _ => Or.inl rfl) (fun _ _ => rfl)
  · exact ⟨hV.al, hV.wl, fun c hc => (by cases hc; exact hbl), hV.wc, hV.wa, fun _ _ => ⟨rfl, (hV.rc (by omega) h1).2⟩, hV.slots, hV.one, hV.arr,
      hV.lock⟩
  · show SameOn _ _ (vals w v)
    rw [vals_eq hx]
    exact SameOn.refl _ _

end Memcheck
end Verif
