import Verif.DevVec.Calls2

/-!
# Vectors with arrays on the host and on the device: arithmetic with several vectors
-/

set_option linter.unusedSectionVars false

namespace Verif
namespace DevVec

open Vector (Mem Mode NormType)
open M (wp)

variable {α : Type} [CommRing α] [DecidableEq α] {E : Env α}

theorem fetch_wp {w : W α} (hi : Inv w) {u : Nat} {x : DVec} (hx : w.vecs u = some x) {m : Mem} (ha : (x.side m).arr ≠ none) {n : Nat} (hn : n ≤ x.len)
    {f : Nat → α} (hf : HasVals w u f) {R : W α → Err → Prop} : Wp (fetch u m n) w (fun w' g => w' = w ∧ ∀ i < n, g.val i = f i) R := by
  obtain ⟨a, ha⟩ := Option.ne_none_iff_exists'.1 ha
  have hV := hi.vec u x hx
  obtain ⟨b, hb, hbm, hbl, -⟩ := hV.slot m a (hV.arr m a ha)
  unfold fetch
  refine M.wp_bind.2 (wp_getV hx (wp_look ha hb hbm (by omega) ⟨rfl, fun i h => ?_⟩))
  obtain ⟨b', hb', h'⟩ := ((hi.hasVals_iff hx).1 hf).2 m a ha
  rw [hb] at hb'
  cases hb'
  exact h' i (by omega)

/-- A vector with values is synchronised. -/
theorem bring_wp {w : W α} (hi : Inv w) {u : Nat} {x : DVec} (hx : w.vecs u = some x) {m : Mem} (he : x.state % 2 = 0) {f : Nat → α} (hf : HasVals w u f)
    {R : W α → Err → Prop} : Wp (syncArray E u m) w (fun w' _ => Inv w' ∧ Rel w w' (· = u) No No No ∧ HasVals w' u f ∧
      ∃ x', w'.vecs u = some x' ∧ x'.len = x.len ∧ x'.state = x.state ∧ (x'.side m).arr ≠ none) R := by
  refine M.wp_mono (syncArray_wp hi hx) ?_ fun _ _ h => absurd he h.2
  rintro w' - ⟨-, x', h⟩
  exact ⟨h.inv, h.rel hi hx he, (h.keeps hi hx u).1 f hf, x', h.vec, h.len, h.state, h.arr ((hi.hasVals_iff hx).1 hf).1⟩

theorem HasVals.vec {w : W α} {v : Nat} {f : Nat → α} (h : HasVals w v f) : ∃ x, w.vecs v = some x := by
  obtain ⟨x, hx, -⟩ := h
  exact ⟨x, hx⟩

theorem wp_pair {v u : Nat} {y x : DVec} {w : W α} {Q : W α → Unit → Prop} {R : W α → Err → Prop}
    (h : x.len = y.len → u ≠ v → validB x = true → validB y = true → Q w ()) (hr : ∀ e, R w e) : Wp (pairChecks v u y x) w Q R := by
  unfold pairChecks
  exact M.wp_bind.2 (M.wp_check (fun h1 => M.wp_bind.2 (M.wp_check (fun h2 => M.wp_bind.2 (M.wp_check (fun h3 => M.wp_check (fun h4 => h h1 h2 h3 h4) fun _ => hr _) fun _ => hr _)) fun _ => hr _)) fun _ => hr _)

theorem axpy_wp {w : W α} (hi : Inv w) {v u : Nat} {y x : DVec} (hy : w.vecs v = some y) (hx : w.vecs u = some x) {k : α} :
    Wp (axpy E v k u) w (fun w' _ => Inv w' ∧ Rel w w' (fun t => t = v ∨ t = u) (· = v) No (· = v) ∧
      ∀ f g, HasVals w u f → HasVals w v g → HasVals w' v fun i => k * f i + g i) (fun w' _ => w' = w) := by
  unfold axpy
  refine M.wp_bind.2 (wp_getV hy (M.wp_bind.2 (wp_getV hx (M.wp_bind.2 (wp_pair (fun hl hne hvx hvy => ?_) fun _ => rfl)))))
  by_cases h0 : y.len = 0
  · rw [if_pos h0]
    exact M.wp_pure.2 ⟨hi, Rel.refl _ _ _ _ _, fun f g _ hg => absurd (hi.len_pos hy hg) (by omega)⟩
  rw [if_neg h0]
  have hvx := (validB_iff (by omega)).1 hvx
  have hvy := (validB_iff (by omega)).1 hvy
  unfold axpyB
  refine M.wp_bind.2 (wp_getV hy ?_)
  obtain ⟨fx, hfx⟩ := (hi.vec u x hx).coh
  obtain ⟨fy, hfy⟩ := (hi.vec v y hy).coh
  have hfx : HasVals w u fx := (hi.hasVals_iff hx).2 ⟨hvx, hfx⟩
  have hfy : HasVals w v fy := (hi.hasVals_iff hy).2 ⟨hvy, hfy⟩
  have on : ∀ m m', m' = other m → (y.side m).arr.isSome = true → Wp (do
        syncArray E u m
        let g ← fetch u m y.len
        mapA m (y.side m).arr y.len (fun i z => z + k * g.val i)
        dropArr v m') w
      (fun w' _ => Inv w' ∧ Rel w w' (fun t => t = v ∨ t = u) (· = v) No (· = v) ∧ ∀ f g, HasVals w u f → HasVals w v g → HasVals w' v fun i => k * f i + g i)
      (fun w' _ => w' = w) := by
    intro m m' hm ha
    by_cases he : x.state % 2 = 0
    swap
    · exact M.wp_bind.2 (M.wp_mono (syncArray_wp hi hx) (fun _ _ h => absurd h.1 he) fun _ _ h => h.1)
    refine M.wp_bind.2 (M.wp_mono (bring_wp (R := fun _ _ => False) hi hx he hfx) ?_ fun _ _ h => h.elim)
    rintro w1 - ⟨hi1, hr1, hf1, x1, hx1, hl1, -, ha1⟩
    refine M.wp_bind.2 (M.wp_mono (fetch_wp (R := fun _ _ => False) hi1 hx1 ha1 (n := y.len) (by omega) hf1) ?_ fun _ _ h => h.elim)
    rintro w2 g ⟨rfl, hg⟩
    have hy1 : w2.vecs v = some y := by rw [hr1.vecs v (Ne.symm hne)]; exact hy
    have hfy1 := (hr1.keeps v (by simp)).1 _ hfy
    refine M.wp_mono (upd_wp (R := fun _ _ => False) hi1 hy1 ha ((hi1.hasVals_iff hy1).1 hfy1).2 hm) ?_ fun _ _ h => h.elim
    rintro w3 - ⟨y3, hU⟩
    refine ⟨hU.inv, Rel.mono hi (hr1.trans (hU.rel hi1 hy1)) (fun t h => h.symm) (fun t h => h.elim (fun h => h.elim) id) (fun t h => h.elim id id)
      (fun t h => h.elim (fun h => h.elim) id), fun f g' hf hg' => hU.hasVals.congr fun z hz i hi' => ?_⟩
    rw [hU.vec] at hz
    cases hz
    have hlt : i < y.len := by rw [← hU.len]; exact hi'
    rw [hg i hlt, hi.vals_unique hx hf hfx i (by omega), hi.vals_unique hy hg' hfy i hlt, add_comm]
  by_cases hd : (y.side .device).arr.isSome = true
  · rw [if_pos hd]; exact on _ _ rfl hd
  · rw [if_neg hd]
    rcases validB_cases hvy with h | h
    · exact absurd h hd
    · rw [if_pos h.2]; exact on _ _ rfl h.2

/-! ## Both sides in turn -/

theorem M_bind_assoc {σ β γ δ : Type} (m : M σ β) (f : β → M σ γ) (g : γ → M σ δ) : (m >>= f) >>= g = m >>= fun a => f a >>= g := by
  funext s
  rw [M.bind_apply, M.bind_apply, M.bind_apply]
  cases m s <;> rfl

theorem M_pure_bind {σ β γ : Type} (a : β) (f : β → M σ γ) : (pure a : M σ β) >>= f = f a := rfl

theorem axpbyOn_half (m : Mem) (v : Nat) (k l : α) (u : Nat) : axpbyOn E m v k l u = half m v (fun n => do
    syncArray E u m
    let g ← fetch u m n
    pure fun i z => k * g.val i + l * z) := by
  unfold axpbyOn half
  simp only [M_bind_assoc, M_pure_bind]

theorem multOn_half (m : Mem) (v u t : Nat) : multOn E m v u t = half m v (fun n => do
    syncArray E u m
    syncArray E t m
    let f ← fetch u m n
    let g ← fetch t m n
    pure fun i _ => f.val i * g.val i) := by
  unfold multOn half
  simp only [M_bind_assoc, M_pure_bind]

theorem reciprocalOn_half (m : Mem) (v : Nat) : reciprocalOn E m v = half m v (fun _ => pure fun _ z => if E.big m z = true then E.inv z else z) := rfl

theorem axpby_wp {w : W α} (hi : Inv w) {v u : Nat} {y x : DVec} (hy : w.vecs v = some y) (hx : w.vecs u = some x) {k l : α} :
    Wp (axpby E v k l u) w (fun w' _ => Inv w' ∧ Rel w w' (fun t => t = v ∨ t = u) (· = v) No (· = v) ∧
      ∀ f g, HasVals w u f → HasVals w v g → HasVals w' v fun i => k * f i + l * g i) (fun w' _ => w' = w) := by
  unfold axpby
  refine M.wp_bind.2 (wp_getV hy (M.wp_bind.2 (wp_getV hx (M.wp_bind.2 (wp_pair (fun hl hne hvx hvy => ?_) fun _ => rfl)))))
  by_cases h0 : y.len = 0
  · rw [if_pos h0]
    exact M.wp_pure.2 ⟨hi, Rel.refl _ _ _ _ _, fun f g _ hg => absurd (hi.len_pos hy hg) (by omega)⟩
  rw [if_neg h0]
  have hvx := (validB_iff (by omega)).1 hvx
  have hvy := (validB_iff (by omega)).1 hvy
  by_cases he : x.state % 2 = 0
  swap
  · -- the first half that is run fails
    have bad : ∀ m, Wp (axpbyOn E m v k l u) w (fun w' _ => w' = w ∧ ¬ (y.side m).arr.isSome = true) (fun w' _ => w' = w) := by
      intro m
      unfold axpbyOn
      refine M.wp_bind.2 (wp_getV hy ?_)
      by_cases ha : (y.side m).arr.isSome = true
      · rw [if_pos ha]
        exact M.wp_bind.2 (M.wp_mono (syncArray_wp hi hx) (fun _ _ h => absurd h.1 he) fun _ _ h => h.1)
      · rw [if_neg ha]
        exact ⟨rfl, ha⟩
    refine M.wp_bind.2 (M.wp_mono (bad .device) ?_ fun _ _ h => h)
    rintro w' - ⟨rfl, h1⟩
    refine M.wp_mono (bad .host) ?_ fun _ _ h => h
    rintro w' - ⟨rfl, h2⟩
    rcases validB_cases hvy with h | h
    · exact absurd h h1
    · exact absurd h.2 h2
  obtain ⟨fx, hfx⟩ := (hi.vec u x hx).coh
  obtain ⟨fy, hfy⟩ := (hi.vec v y hy).coh
  have hfx : HasVals w u fx := (hi.hasVals_iff hx).2 ⟨hvx, hfx⟩
  rw [axpbyOn_half, axpbyOn_half]
  have hp : PrepOk (fun g => ∃ xu, g.vecs u = some xu ∧ xu.state % 2 = 0 ∧ xu.len = x.len ∧ HasVals g u fx) (· = u) v y fy (fun i => k * fx i + l * fy i)
      (fun m n => do
        syncArray E u m
        let g ← fetch u m n
        pure fun i z => k * g.val i + l * z) := by
    rintro m a g xg hg hgv ⟨xu, hxu, heu, hlu, hfu⟩ - - - -
    refine Comm.wp ((Comm.syncArray hne m).bind fun _ => (Comm.fetch hne m _).bind fun _ => Comm.pure _) ?_
    refine M.wp_bind.2 (M.wp_mono (bring_wp (R := fun _ _ => False) hg hxu heu hfu) ?_ fun _ _ h => h)
    rintro g1 - ⟨hi1, hr1, hf1, x1, hx1, hl1, hs1, ha1⟩
    refine M.wp_bind.2 (M.wp_mono (fetch_wp (R := fun _ _ => False) hi1 hx1 ha1 (n := y.len) (by omega) hf1) ?_ fun _ _ h => h)
    rintro g2 b ⟨rfl, hb⟩
    exact M.wp_pure.2 ⟨g2, rfl, hi1, ⟨x1, hx1, by rw [hs1]; exact heu, hl1.trans hlu, hf1⟩, hr1, fun i h => by dsimp only; rw [hb i h]⟩
  refine M.wp_mono (two_wp (R := fun _ _ => False) hi hy hfy hvy (Ev := fun g => ∃ xu, g.vecs u = some xu ∧ xu.state % 2 = 0 ∧ xu.len = x.len ∧ HasVals g u fx)
    ⟨x, hx, he, rfl, hfx⟩ ?_ (B := (· = u)) (Ne.symm hne) hp) ?_ fun _ _ h => h.elim
  · rintro g g' - ⟨xu, hxu, heu, hlu, hfu⟩ hr
    exact ⟨xu, by rw [hr.vecs u hne]; exact hxu, heu, hlu, (hr.keeps u hne).1 _ hfu⟩
  · rintro w' - ⟨hi', hr', hv'⟩
    refine ⟨hi', Rel.mono hi hr' (fun t h => h.symm) (fun _ h => h) (fun _ h => h) (fun _ h => h), fun f g hf hg => hv'.congr fun z hz i hi'' => ?_⟩
    obtain ⟨z', hz', hzl, -⟩ := hr'.kept v y hy
    rw [hz] at hz'
    cases hz'
    have hlt : i < y.len := by rw [← hzl]; exact hi''
    rw [hi.vals_unique hx hf hfx i (by omega), hi.vals_unique hy hg ((hi.hasVals_iff hy).2 ⟨hvy, hfy⟩) i hlt]

theorem reciprocal_wp (hE : E.big .host = E.big .device) {w : W α} (hi : Inv w) {v : Nat} {x : DVec} (hx : w.vecs v = some x) :
    Wp (reciprocal E v) w (fun w' _ => Inv w' ∧ Rel w w' (· = v) (· = v) No (· = v) ∧
      ∀ f, HasVals w v f → HasVals w' v fun i => if E.big .host (f i) = true then E.inv (f i) else f i) (fun w' _ => w' = w) := by
  unfold reciprocal
  refine M.wp_bind.2 (wp_getV hx (M.wp_bind.2 (M.wp_check (fun hv => ?_) fun _ => rfl)))
  refine M.wp_bind.2 (M.wp_check (fun _ => ?_) fun _ => rfl)
  by_cases h0 : x.len = 0
  · rw [if_pos h0]
    exact M.wp_pure.2 ⟨hi, Rel.refl _ _ _ _ _, fun f hf => absurd (hi.len_pos hx hf) (by omega)⟩
  rw [if_neg h0]
  have hv := (validB_iff (by omega)).1 hv
  obtain ⟨g, hg⟩ := (hi.vec v x hx).coh
  rw [reciprocalOn_half, reciprocalOn_half]
  have hp : PrepOk (fun _ => True) No v x g (fun i => if E.big .host (g i) = true then E.inv (g i) else g i)
      (fun m _ => (pure fun _ z => if E.big m z = true then E.inv z else z : M (W α) (Nat → α → α))) := by
    rintro m a g' xg hg' hgv - - - - -
    refine ⟨g', rfl, hg', trivial, Rel.refl _ _ _ _ _, fun i _ => ?_⟩
    cases m
    · rfl
    · dsimp only; rw [hE]
  refine M.wp_mono (two_wp (R := fun _ _ => False) hi hx hg hv (Ev := fun _ => True) trivial (fun _ _ _ _ _ => trivial) (fun h => h) hp) ?_ fun _ _ h => h.elim
  rintro w' - ⟨hi', hr', hv'⟩
  refine ⟨hi', Rel.mono hi hr' (fun t h => h.elim (fun h => h.elim) id) (fun _ h => h) (fun _ h => h) (fun _ h => h), fun f hf => hv'.congr fun z hz i hi'' => ?_⟩
  obtain ⟨z', hz', hzl, -⟩ := hr'.kept v x hx
  rw [hz] at hz'
  cases hz'
  rw [hi.vals_unique hx hf ((hi.hasVals_iff hx).2 ⟨hv, hg⟩) i (by rw [← hzl]; exact hi'')]

/-- A factor of a product: another vector that is not locked, or the result itself. -/
def Factor (v : Nat) (x : DVec) (f : Nat → α) (g : W α) (s : Nat) (fs : Nat → α) : Prop :=
  (s = v ∧ x.state % 2 = 0 ∧ ∀ i < x.len, fs i = f i) ∨ (s ≠ v ∧ ∃ xs, g.vecs s = some xs ∧ xs.state % 2 = 0 ∧ x.len ≤ xs.len ∧ HasVals g s fs)

theorem Factor.mono {v : Nat} {x : DVec} {f : Nat → α} {g g' : W α} {s : Nat} {fs : Nat → α} (h : Factor v x f g s fs)
    {A T X Y : Nat → Prop} (hr : Rel g g' A T X Y) (hs : s ≠ v → ¬ T s) (hst : ∀ xs, s ≠ v → g.vecs s = some xs → ∃ xs', g'.vecs s = some xs' ∧ xs'.state = xs.state) : Factor v x f g' s fs := by
  rcases h with h | ⟨hne, xs, h1, h2, h3, h4⟩
  · exact .inl h
  · obtain ⟨xs', h5, h6⟩ := hst xs hne h1
    obtain ⟨xs2, h7, h8, -⟩ := hr.kept s xs h1
    rw [h5] at h7
    cases h7
    exact .inr ⟨hne, xs', h5, by rw [h6]; exact h2, by rw [h8]; exact h3, (hr.keeps s (hs hne)).1 _ h4⟩

/-- Synchronise one factor. -/
theorem Factor.sync {v : Nat} {x : DVec} {f : Nat → α} {g : W α} {s : Nat} {fs : Nat → α} (h : Factor v x f g s fs) (hi : Inv g) {m : Mem}
    (ha : (x.side m).arr ≠ none) {R : W α → Err → Prop} :
    Wp (syncArray E s m) (g.setVec v (some x)) (fun r _ => ∃ g', r = g'.setVec v (some x) ∧ Inv g' ∧ Rel g g' (fun t => t = s ∧ t ≠ v) No No No ∧
      (∀ t xt, t ≠ v → g.vecs t = some xt → ∃ xt', g'.vecs t = some xt' ∧ xt'.state = xt.state ∧ ((xt.side m).arr ≠ none → (xt'.side m).arr ≠ none)) ∧
      (s ≠ v → ∃ xs', g'.vecs s = some xs' ∧ (xs'.side m).arr ≠ none)) R := by
  rcases h with ⟨rfl, h1, -⟩ | ⟨hne, xs, h1, h2, h3, h4⟩
  · refine wp_ok (syncArray_noop (setVec_same _ _ _) h1 ha) ⟨g, rfl, hi, Rel.refl _ _ _ _ _, fun t xt _ ht => ⟨xt, ht, rfl, id⟩, fun h => absurd rfl h⟩
  · refine Comm.wp (Comm.syncArray hne m) (M.wp_mono (bring_wp (R := fun _ _ => False) hi h1 h2 h4) ?_ fun _ _ h => h.elim)
    · rintro g1 - ⟨hi1, hr1, hf1, x1, hx1, hl1, hs1, ha1⟩
      refine ⟨g1, rfl, hi1, Rel.mono hi hr1 (fun t h => ⟨h, by rw [h]; exact hne⟩) (fun _ h => h) (fun _ h => h) (fun _ h => h), fun t xt _ ht => ?_, fun _ => ⟨x1, hx1, ha1⟩⟩
      by_cases hts : t = s
      · subst hts
        rw [h1] at ht
        cases ht
        exact ⟨x1, hx1, hs1, fun _ => ha1⟩
      · exact ⟨xt, by rw [hr1.vecs t hts]; exact ht, rfl, id⟩

/-- Read one factor. -/
theorem Factor.fetch {v : Nat} {x : DVec} {f : Nat → α} {g : W α} {s : Nat} {fs : Nat → α} (h : Factor v x f g s fs) (hi : Inv g) {xg : DVec} (hg : g.vecs v = some xg)
    (hl : x.len = xg.len) {m : Mem} {a : Nat} (ha : (x.side m).arr = some a) (hs : (xg.side m).slot = some a) (hc : Contains g a x.len f)
    (hr : s ≠ v → ∃ xs', g.vecs s = some xs' ∧ (xs'.side m).arr ≠ none) {R : W α → Err → Prop} :
    Wp (DevVec.fetch s m x.len) (g.setVec v (some x)) (fun r b => r = g.setVec v (some x) ∧ ∀ i < x.len, b.val i = fs i) R := by
  rcases h with ⟨rfl, h1, h2⟩ | ⟨hne, xs, h1, h2, h3, h4⟩
  · obtain ⟨b, hb, hbm, hbl, -⟩ := (hi.vec s xg hg).slot m a hs
    obtain ⟨b', hb', h⟩ := hc
    rw [hb] at hb'
    cases hb'
    unfold DevVec.fetch
    exact M.wp_bind.2 (wp_getV (setVec_same _ _ _) (wp_look ha hb hbm (by omega) ⟨rfl, fun i h' => (h i h').trans (h2 i h').symm⟩))
  · obtain ⟨xs', hx', ha'⟩ := hr hne
    rw [h1] at hx'
    cases hx'
    refine Comm.wp (Comm.fetch hne m _) (M.wp_mono (fetch_wp (R := fun _ _ => False) hi h1 ha' h3 h4) ?_ fun _ _ h => h.elim)
    rintro g1 b ⟨rfl, h⟩
    exact ⟨rfl, h⟩

theorem mult_ok {w : W α} (hi : Inv w) {v u t : Nat} {x : DVec} (hx : w.vecs v = some x) {f : Nat → α} (hf : Val w x f) (hv : Valid x) {fu ft : Nat → α}
    (hu : Factor v x f w u fu) (ht : Factor v x f w t ft) {R : W α → Err → Prop} :
    Wp (do multOn E .device v u t; multOn E .host v u t) w
      (fun w' _ => Inv w' ∧ Rel w w' (fun s => s = v ∨ s = u ∨ s = t) (· = v) No (· = v) ∧ HasVals w' v fun i => fu i * ft i) R := by
  rw [multOn_half, multOn_half]
  have hp : PrepOk (fun g => Factor v x f g u fu ∧ Factor v x f g t ft) (fun s => (s = u ∨ s = t) ∧ s ≠ v) v x f (fun i => fu i * ft i)
      (fun m n => do
        syncArray E u m
        syncArray E t m
        let f ← DevVec.fetch u m n
        let g ← DevVec.fetch t m n
        pure fun i _ => f.val i * g.val i) := by
    rintro m a g xg hg hgv ⟨hu, ht⟩ ha hs hc hl
    refine M.wp_bind.2 (M.wp_mono (hu.sync (R := fun _ _ => False) hg (by rw [ha]; simp)) ?_ fun _ _ h => h)
    rintro r - ⟨g1, rfl, hi1, hr1, hst1, hrd1⟩
    have hu1 : Factor v x f g1 u fu := hu.mono hr1 (fun _ h => h) fun xs hne hxs => (hst1 u xs hne hxs).imp fun _ h => ⟨h.1, h.2.1⟩
    have ht1 : Factor v x f g1 t ft := ht.mono hr1 (fun _ h => h) fun xs hne hxs => (hst1 t xs hne hxs).imp fun _ h => ⟨h.1, h.2.1⟩
    refine M.wp_bind.2 (M.wp_mono (ht1.sync (R := fun _ _ => False) hi1 (by rw [ha]; simp)) ?_ fun _ _ h => h)
    rintro r - ⟨g2, rfl, hi2, hr2, hst2, hrd2⟩
    have hu2 : Factor v x f g2 u fu := hu1.mono hr2 (fun _ h => h) fun xs hne hxs => (hst2 u xs hne hxs).imp fun _ h => ⟨h.1, h.2.1⟩
    have ht2 : Factor v x f g2 t ft := ht1.mono hr2 (fun _ h => h) fun xs hne hxs => (hst2 t xs hne hxs).imp fun _ h => ⟨h.1, h.2.1⟩
    have hr : Rel g g2 (fun s => (s = u ∨ s = t) ∧ s ≠ v) No No No := Rel.mono hg (hr1.trans hr2) (fun s h => h.elim (fun h => ⟨.inl h.1, h.2⟩) fun h => ⟨.inr h.1, h.2⟩)
      (fun s h => h.elim id id) (fun s h => h.elim id id) (fun s h => h.elim id id)
    have hg2 : g2.vecs v = some xg := by rw [hr.vecs v fun h => h.2 rfl]; exact hgv
    have hc2 : Contains g2 a x.len f := by
      unfold Contains
      rw [hr.heap_slot hg hgv (fun h => h.2 rfl) hs]
      exact hc
    have hru : u ≠ v → ∃ xs', g2.vecs u = some xs' ∧ (xs'.side m).arr ≠ none := fun hne => by
      obtain ⟨xs, h1, h2⟩ := hrd1 hne
      obtain ⟨xs', h3, -, h4⟩ := hst2 u xs hne h1
      exact ⟨xs', h3, h4 h2⟩
    refine M.wp_bind.2 (M.wp_mono (hu2.fetch (R := fun _ _ => False) hi2 hg2 hl ha hs hc2 hru) ?_ fun _ _ h => h)
    rintro r bu ⟨rfl, hbu⟩
    refine M.wp_bind.2 (M.wp_mono (ht2.fetch (R := fun _ _ => False) hi2 hg2 hl ha hs hc2 hrd2) ?_ fun _ _ h => h)
    rintro r bt ⟨rfl, hbt⟩
    exact M.wp_pure.2 ⟨g2, rfl, hi2, ⟨hu2, ht2⟩, hr, fun i h => by dsimp only; rw [hbu i h, hbt i h]⟩
  refine M.wp_mono (two_wp (R := fun _ _ => False) hi hx hf hv (Ev := fun g => Factor v x f g u fu ∧ Factor v x f g t ft) ⟨hu, ht⟩ ?_
    (B := fun s => (s = u ∨ s = t) ∧ s ≠ v) (fun h => h.2 rfl) hp) ?_ fun _ _ h => h.elim
  · rintro g g' - ⟨hu, ht⟩ hr
    have : ∀ s, s ≠ v → ∀ xs, g.vecs s = some xs → ∃ xs', g'.vecs s = some xs' ∧ xs'.state = xs.state := fun s hs xs hxs => ⟨xs, by rw [hr.vecs s hs]; exact hxs, rfl⟩
    exact ⟨hu.mono hr (fun h => h) fun xs hne => this u hne xs, ht.mono hr (fun h => h) fun xs hne => this t hne xs⟩
  · rintro w' - ⟨h1, h2, h3⟩
    exact ⟨h1, Rel.mono hi h2 (fun s h => h.elim (fun h => .inr h.1) .inl) (fun _ h => h) (fun _ h => h) (fun _ h => h), h3⟩

/-- A factor is locked. -/
theorem mult_err {w : W α} (hi : Inv w) {v u t : Nat} {x xu xt : DVec} (hx : w.vecs v = some x) (hv : Valid x) (hu : w.vecs u = some xu) (ht : w.vecs t = some xt)
    (hodd : ¬ (xu.state % 2 = 0 ∧ xt.state % 2 = 0)) {Q : W α → Unit → Prop} :
    Wp (do multOn E .device v u t; multOn E .host v u t) w Q (fun w' _ => Inv w' ∧ Rel w w' (fun s => s = v ∨ s = u ∨ s = t) No No No) := by
  have bad : ∀ m, Wp (multOn E m v u t) w (fun w' _ => w' = w ∧ ¬ (x.side m).arr.isSome = true) (fun w' _ => Inv w' ∧ Rel w w' (fun s => s = v ∨ s = u ∨ s = t) No No No) := by
    intro m
    unfold multOn
    refine M.wp_bind.2 (wp_getV hx ?_)
    by_cases ha : (x.side m).arr.isSome = true
    swap
    · rw [if_neg ha]
      exact ⟨rfl, ha⟩
    rw [if_pos ha]
    refine M.wp_bind.2 (M.wp_mono (syncArray_wp hi hu) ?_ fun w' _ h => by rw [h.1]; exact ⟨hi, Rel.refl _ _ _ _ _⟩)
    rintro w1 - ⟨he, x1, h⟩
    have hr := h.rel hi hu he
    have ht1 : ∃ xt1, w1.vecs t = some xt1 ∧ xt1.state = xt.state := by
      by_cases htu : t = u
      · subst htu
        rw [hu] at ht
        cases ht
        exact ⟨x1, h.vec, h.state⟩
      · exact ⟨xt, by rw [hr.vecs t htu]; exact ht, rfl⟩
    obtain ⟨xt1, ht1, hs1⟩ := ht1
    refine M.wp_bind.2 (M.wp_mono (syncArray_wp h.inv ht1) ?_ fun w' _ h' => ?_)
    · rintro w2 - ⟨he2, -⟩
      exact absurd ⟨he, hs1 ▸ he2⟩ hodd
    · rw [h'.1]
      exact ⟨h.inv, Rel.mono hi hr (fun s h => .inr (.inl h)) (fun _ h => h) (fun _ h => h) (fun _ h => h)⟩
  refine M.wp_bind.2 (M.wp_mono (bad .device) ?_ fun _ _ h => h)
  rintro w' - ⟨rfl, h1⟩
  refine M.wp_mono (bad .host) ?_ fun _ _ h => h
  rintro w' - ⟨rfl, h2⟩
  rcases validB_cases hv with h | h
  · exact absurd h h1
  · exact absurd h.2 h2

theorem pointwiseMult_wp {w : W α} (hi : Inv w) {v u t : Nat} {x xu xt : DVec} (hx : w.vecs v = some x) (hu : w.vecs u = some xu) (ht : w.vecs t = some xt) :
    Wp (pointwiseMult E v u t) w (fun w' _ => Inv w' ∧ Rel w w' (fun s => s = v ∨ s = u ∨ s = t) (· = v) No (· = v) ∧
      ∀ f g, 0 < x.len → HasVals w u f → HasVals w t g → HasVals w' v fun i => f i * g i)
      (fun w' _ => Inv w' ∧ Rel w w' (fun s => s = v ∨ s = u ∨ s = t) (· = v) No No ∧ ∀ f, HasVals w v f → HasVals w' v f) := by
  unfold pointwiseMult
  have same : Inv w ∧ Rel w w (fun s => s = v ∨ s = u ∨ s = t) (· = v) No No ∧ ∀ f, HasVals w v f → HasVals w v f := ⟨hi, Rel.refl _ _ _ _ _, fun _ h => h⟩
  refine M.wp_bind.2 (wp_getV hx (M.wp_bind.2 (wp_getV hu (M.wp_bind.2 (wp_getV ht (M.wp_bind.2 (M.wp_check (fun hl => ?_) fun _ => same)))))))
  refine M.wp_bind.2 (M.wp_check (fun hvu => ?_) fun _ => same)
  refine M.wp_bind.2 (M.wp_check (fun hvt => ?_) fun _ => same)
  by_cases h0 : x.len = 0
  · rw [if_pos h0]
    exact M.wp_pure.2 ⟨hi, Rel.refl _ _ _ _ _, fun f g h => absurd h (by omega)⟩
  rw [if_neg h0]
  have hvu := (validB_iff (by omega)).1 hvu
  have hvt := (validB_iff (by omega)).1 hvt
  -- after the target has got values
  have main : ∀ w1 x1, Inv w1 → w1.vecs v = some x1 → Valid x1 → x1.len = x.len → Rel w w1 (· = v) (· = v) No No → (∀ f, HasVals w v f → HasVals w1 v f) →
      (∀ s xs, w.vecs s = some xs → Valid xs → ∃ xs1, w1.vecs s = some xs1 ∧ xs1.state = xs.state ∧ Keeps w w1 s) →
      Wp (do multOn E .device v u t; multOn E .host v u t) w1 (fun w' _ => Inv w' ∧ Rel w w' (fun s => s = v ∨ s = u ∨ s = t) (· = v) No (· = v) ∧
      ∀ f g, 0 < x.len → HasVals w u f → HasVals w t g → HasVals w' v fun i => f i * g i)
      (fun w' _ => Inv w' ∧ Rel w w' (fun s => s = v ∨ s = u ∨ s = t) (· = v) No No ∧ ∀ f, HasVals w v f → HasVals w' v f) := by
    intro w1 x1 hi1 hx1 hv1 hl1 hr1 hk1 hs1
    obtain ⟨xu1, hu1, hsu, hku⟩ := hs1 u xu hu hvu
    obtain ⟨xt1, ht1, hst, hkt⟩ := hs1 t xt ht hvt
    by_cases hodd : xu1.state % 2 = 0 ∧ xt1.state % 2 = 0
    swap
    · refine M.wp_mono (mult_err (Q := fun _ _ => False) hi1 hx1 hv1 hu1 ht1 hodd) (fun _ _ h => h.elim) ?_
      rintro w' - ⟨h1, h2⟩
      exact ⟨h1, Rel.mono hi (hr1.trans h2) (fun s h => h.elim .inl id) (fun s h => h.elim id fun h => h.elim) (fun s h => h.elim id id) (fun s h => h.elim id id),
        fun f hf => (h2.keeps v (fun h => h)).1 f (hk1 f hf)⟩
    obtain ⟨fu, hfu⟩ := (hi.vec u xu hu).coh
    obtain ⟨ft, hft⟩ := (hi.vec t xt ht).coh
    obtain ⟨fv, hfv⟩ := (hi1.vec v x1 hx1).coh
    have hfu : HasVals w u fu := (hi.hasVals_iff hu).2 ⟨hvu, hfu⟩
    have hft : HasVals w t ft := (hi.hasVals_iff ht).2 ⟨hvt, hft⟩
    have hfv1 : HasVals w1 v fv := (hi1.hasVals_iff hx1).2 ⟨hv1, hfv⟩
    have fac : ∀ s xs xs1 fs, w.vecs s = some xs → w1.vecs s = some xs1 → xs1.state % 2 = 0 → x.len ≤ xs.len → HasVals w s fs → Keeps w w1 s → Factor v x1 fv w1 s fs := by
      intro s xs xs1 fs h1 h2 h3 h4 h5 h6
      by_cases hs : s = v
      · subst hs
        rw [hx1] at h2
        cases h2
        exact .inl ⟨rfl, h3, hi1.vals_unique hx1 (h6.1 _ h5) hfv1⟩
      · refine .inr ⟨hs, xs1, h2, h3, ?_, h6.1 _ h5⟩
        rw [hr1.vecs s hs, h1] at h2
        cases h2
        omega
    refine M.wp_mono (mult_ok (R := fun _ _ => False) hi1 hx1 hfv hv1 (fac u xu xu1 fu hu hu1 hodd.1 hl.1 hfu hku) (fac t xt xt1 ft ht ht1 hodd.2 hl.2 hft hkt)) ?_ fun _ _ h => h.elim
    rintro w' - ⟨h1, h2, h3⟩
    refine ⟨h1, Rel.mono hi (hr1.trans h2) (fun s h => h.elim .inl id) (fun s h => h.elim id id) (fun s h => h.elim id id) (fun s h => h.elim (fun h => h.elim) id),
      fun f g _ hf hg => h3.congr fun z hz i hi' => ?_⟩
    obtain ⟨z', hz', hzl, -⟩ := h2.kept v x1 hx1
    rw [hz] at hz'
    cases hz'
    rw [hi.vals_unique hu hf hfu i (by omega), hi.vals_unique ht hg hft i (by omega)]
  by_cases hn : (x.side .device).arr = none ∧ (x.side .host).arr = none
  · rw [if_pos hn]
    have hnv : ¬ Valid x := by
      rintro ⟨m, hm⟩
      cases m
      · exact hm hn.2
      · exact hm hn.1
    refine M.wp_bind.2 (M.wp_mono (setValue_wp (E := E) hi hx) ?_ fun w' _ h => by rw [h.1]; exact same)
    rintro w1 - ⟨-, -, x1, hi1, hr1, hx1, hl1, -, -, hv1⟩
    refine main w1 x1 hi1 hx1 ((hi1.hasVals_iff hx1).1 (hv1 (by omega))).1 hl1 hr1 (fun f hf => absurd ((hi.hasVals_iff hx).1 hf).1 hnv) fun s xs hs hvs => ?_
    have hsv : s ≠ v := by
      rintro rfl
      rw [hx] at hs
      cases hs
      exact hnv hvs
    exact ⟨xs, by rw [hr1.vecs s hsv]; exact hs, rfl, hr1.keeps s hsv⟩
  · rw [if_neg hn]
    show Wp (do multOn E .device v u t; multOn E .host v u t) w _ _
    refine main w x hi hx ?_ rfl (Rel.refl _ _ _ _ _) (fun _ h => h) fun s xs hs _ => ⟨xs, hs, rfl, Keeps.refl w s⟩
    by_contra hc
    exact hn ⟨by by_contra h; exact hc ⟨_, h⟩, by by_contra h; exact hc ⟨_, h⟩⟩

end DevVec
end Verif
