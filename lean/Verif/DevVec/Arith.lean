import Verif.DevVec.Ops

/-!
# Vectors with arrays on the host and on the device: arithmetic
-/

set_option linter.unusedSectionVars false

namespace Verif
namespace DevVec

open Vector (Mem Mode NormType)
open M (wp)

variable {α : Type} [CommRing α] [DecidableEq α] {E : Env α}

/-- A vector whose arrays were written in place. -/
structure Upd (w : W α) (v : Nat) (x : DVec) (w' : W α) (x' : DVec) (f : Nat → α) : Prop where
  inv : Inv w'
  grow : Grow w w' v
  vec : w'.vecs v = some x'
  len : x'.len = x.len
  state : x'.state = x.state
  readers : x'.readers = x.readers
  same : ∀ m, (x'.side m).bor = (x.side m).bor ∧ (x'.side m).own = (x.side m).own
  arr : ∀ m, (x'.side m).arr = none ∨ (x'.side m).arr = (x.side m).arr
  keep : x.state % 2 = 1 → ∀ m, (x'.side m).arr = (x.side m).arr
  valid : Valid x'
  val : Val w' x' f

theorem Upd.hasVals {w w' : W α} {v : Nat} {x x' : DVec} {f : Nat → α} (h : Upd w v x w' x' f) : HasVals w' v f :=
  (h.inv.hasVals_iff h.vec).2 ⟨h.valid, h.val⟩

theorem Upd.rel {w w' : W α} (hi : Inv w) {v : Nat} {x x' : DVec} (hx : w.vecs v = some x) {f : Nat → α} (h : Upd w v x w' x' f) :
    Rel w w' (· = v) (· = v) No (· = v) := by
  refine Rel.of_grow hi h.grow (.inl rfl) (.inr fun y m a hy ho ha => ?_) (.inl rfl) (Kept.mk hx h.vec h.len fun m => (h.same m).1)
  rw [hx] at hy
  cases hy
  exact ⟨x', h.vec, h.state, (h.keep ho m).trans ha⟩

theorem dropSide (x : DVec) (m : Mem) :
    (∀ m', ((x.setSide m { x.side m with arr := none }).side m').bor = (x.side m').bor ∧ ((x.setSide m { x.side m with arr := none }).side m').own = (x.side m').own) ∧
    ((x.setSide m { x.side m with arr := none }).side m).arr = none ∧
    ∀ m', m' ≠ m → (x.setSide m { x.side m with arr := none }).side m' = x.side m' := by
  refine ⟨fun m' => ?_, by rw [setSide_same], fun m' h => setSide_ne _ _ h⟩
  by_cases h : m' = m
  · subst h; rw [setSide_same]; exact ⟨rfl, rfl⟩
  · rw [setSide_ne _ _ h]; exact ⟨rfl, rfl⟩

/-- New contents of one array, while the other one is no longer valid. -/
theorem Inv.upd {w : W α} (hi : Inv w) {v : Nat} {x : DVec} (hx : w.vecs v = some x) {m : Mem} {a : Nat} (ha : (x.side m).arr = some a) {b : Blk α}
    (hb : w.heap a = some b) {g : Buf α} (hg : g.len = b.buf.len) {f : Nat → α} (hf : ∀ i < x.len, g.val i = f i) :
    Upd w v x ((w.setArr a (some { b with buf := g })).setVec v (some (x.setSide (other m) { x.side (other m) with arr := none })))
      (x.setSide (other m) { x.side (other m) with arr := none }) f := by
  have hV := hi.vec v x hx
  obtain ⟨h1, h2, h3⟩ := dropSide x (other m)
  set x' := x.setSide (other m) { x.side (other m) with arr := none } with hx'
  have hm : x'.side m = x.side m := h3 m (other_ne m).symm
  have harr : ∀ m' e, (x'.side m').arr = some e → m' = m ∧ e = a := by
    intro m' e h
    rcases eq_or_other m m' with rfl | rfl
    · rw [hm, ha] at h; cases h; exact ⟨rfl, rfl⟩
    · rw [h2] at h; cases h
  have hodd : x'.state % 2 = 1 → ∀ m', (x'.side m').arr ≠ none → (x'.side (other m')).arr = none := by
    intro _ m' h
    obtain ⟨e, he⟩ := Option.ne_none_iff_exists'.1 h
    rw [(harr m' e he).1]; exact h2
  have hval : Val (w.setArr a (some { b with buf := g })) x' f := by
    intro m' e h
    obtain ⟨-, rfl⟩ := harr m' e h
    exact ⟨_, setArr_same _ _ _, hf⟩
  obtain ⟨g1, g2⟩ := hi.store (x' := x') hx (hV.arr m a ha) hb hg h1 (fun m' e h => by rw [(harr m' e h).1, (harr m' e h).2]; exact hV.arr m a ha) rfl hval hodd hV.rd
  refine ⟨g1, g2, setVec_same _ _ _, rfl, rfl, rfl, h1, fun m' => ?_, fun ho m' => ?_, ⟨m, by rw [hm, ha]; simp⟩, hval⟩
  · rcases eq_or_other m m' with rfl | rfl
    · exact .inr (by rw [hm])
    · exact .inl h2
  · rcases eq_or_other m m' with rfl | rfl
    · rw [hm]
    · rw [h2, hV.odd ho m (by rw [ha]; simp)]

theorem dropArr_wp {w : W α} {v : Nat} {x : DVec} (hx : w.vecs v = some x) {m : Mem} {R : W α → Err → Prop} {Q : W α → Unit → Prop}
    (h : Q (w.setVec v (some (x.setSide m { x.side m with arr := none }))) ()) : Wp (dropArr v m) w Q R := by
  unfold dropArr
  exact M.wp_bind.2 (wp_getV hx h)

/-- In place on one side, as in `CeedVectorScale`. -/
theorem upd_wp {w : W α} (hi : Inv w) {v : Nat} {x : DVec} (hx : w.vecs v = some x) {m : Mem} (hm : (x.side m).arr.isSome = true) {f : Nat → α}
    (hf : Val w x f) {g : Nat → α → α} {R : W α → Err → Prop} {m' : Mem} (hm' : m' = other m) :
    Wp (do mapA m (x.side m).arr x.len g; dropArr v m') w (fun w' _ => ∃ x', Upd w v x w' x' fun i => g i (f i)) R := by
  subst hm'
  obtain ⟨a, ha⟩ := Option.isSome_iff_exists.1 hm
  have hV := hi.vec v x hx
  obtain ⟨b, hb, hbm, hbl, -⟩ := hV.slot m a (hV.arr m a ha)
  refine M.wp_bind.2 (wp_mapA ha hb hbm hbl ?_)
  refine dropArr_wp (w := w.setArr a _) (x := x) hx ?_
  refine ⟨_, hi.upd (g := over b.buf x.len fun i => g i (b.buf.val i)) hx ha hb rfl fun i hi' => ?_⟩
  obtain ⟨b', hb', h⟩ := hf m a ha
  rw [hb] at hb'
  cases hb'
  show (if i < x.len then _ else _) = _
  rw [if_pos hi', h i hi']

/-! ## Steps that do not touch a vector commute with changes of its record -/

/-- Change the state left behind. -/
def mapS {β : Type} (g : W α → W α) : Out (W α) β → Out (W α) β
  | .ok s a => .ok (g s) a
  | .err s e => .err (g s) e
  | .ub => .ub

/-- The step neither looks at the record of `v` nor changes it. -/
def Comm {β : Type} (v : Nat) (m : M (W α) β) : Prop := ∀ w r, m (W.setVec w v r) = mapS (fun w => w.setVec v r) (m w)

section Comm
variable {β γ : Type} {v : Nat}

theorem Comm.bind {m : M (W α) β} {f : β → M (W α) γ} (hm : Comm v m) (hf : ∀ a, Comm v (f a)) : Comm v (m >>= f) := by
  intro w r
  rw [M.bind_apply, M.bind_apply, hm w r]
  cases m w with
  | ok s a => exact hf a s r
  | err s e => rfl
  | ub => rfl

theorem Comm.pure (a : β) : Comm v (Pure.pure a : M (W α) β) := fun _ _ => rfl
theorem Comm.check (c : Prop) [Decidable c] (e : Err) : Comm v (M.check c e : M (W α) Unit) := by
  intro w r
  unfold M.check
  by_cases h : c
  · rw [if_pos h, if_pos h]; rfl
  · rw [if_neg h, if_neg h]; rfl
theorem Comm.ite {c : Prop} [Decidable c] {m n : M (W α) β} (hm : Comm v m) (hn : Comm v n) : Comm v (if c then m else n) := by
  split
  · exact hm
  · exact hn
theorem Comm.undef : Comm v (M.undef : M (W α) β) := fun _ _ => rfl

theorem Comm.getV {u : Nat} (h : u ≠ v) : Comm (α := α) v (getV u) := by
  intro w r
  unfold DevVec.getV
  rw [setVec_ne _ _ h]
  cases w.vecs u <;> rfl

theorem setVec_comm (w : W α) {u v : Nat} (h : u ≠ v) (x y : Option DVec) : (w.setVec v y).setVec u x = (w.setVec u x).setVec v y := by
  unfold W.setVec
  congr 1
  funext t
  by_cases h1 : t = u
  · subst h1; simp [h]
  · by_cases h2 : t = v <;> simp [h1, h2, Ne.symm h]

theorem Comm.putV {u : Nat} (h : u ≠ v) (x : DVec) : Comm (α := α) v (putV u x) := by
  intro w r
  unfold DevVec.putV mapS
  rw [setVec_comm w h]

theorem Comm.alloc (m : Mem) (n : Nat) : Comm v (alloc E m n) := fun _ _ => rfl

theorem Comm.look (m : Mem) (p : Option Nat) (n : Nat) : Comm (α := α) v (look m p n) := by
  intro w r
  unfold DevVec.look
  rw [setVec_heap]
  cases p with
  | none => rfl
  | some a =>
    cases hb : w.heap a with
    | none => simp only [hb]; rfl
    | some b =>
      simp only [hb]
      by_cases h : b.mem = m ∧ n ≤ b.buf.len
      · rw [if_pos h, if_pos h]; rfl
      · rw [if_neg h, if_neg h]; rfl

theorem Comm.save (m : Mem) (p : Option Nat) (f : Buf α) : Comm (α := α) v (save m p f) := by
  intro w r
  unfold DevVec.save
  rw [setVec_heap]
  cases p with
  | none => rfl
  | some a =>
    cases hb : w.heap a with
    | none => simp only [hb]; rfl
    | some b =>
      simp only [hb]
      by_cases h : b.mem = m
      · rw [if_pos h, if_pos h]; rfl
      · rw [if_neg h, if_neg h]; rfl

theorem Comm.copyN (md : Mem) (p : Option Nat) (ms : Mem) (q : Option Nat) (n : Nat) : Comm (α := α) v (copyN md p ms q n) :=
  (Comm.look ms q n).bind fun _ => (Comm.look md p n).bind fun _ => Comm.ite Comm.undef (Comm.save _ _ _)

theorem Comm.pick (m : Mem) (n : Nat) (s : Side) : Comm v (pick E m n s) := by
  unfold DevVec.pick
  split
  · exact Comm.pure _
  · exact Comm.pure _
  · exact (Comm.alloc m n).bind fun _ => Comm.pure _

theorem Comm.syncB {u : Nat} (h : u ≠ v) (m : Mem) : Comm v (syncB E u m) :=
  (Comm.getV h).bind fun _ => Comm.ite ((Comm.check _ _).bind fun _ => (Comm.pick _ _ _).bind fun _ => (Comm.putV h _).bind fun _ => Comm.copyN _ _ _ _ _) (Comm.pure _)

theorem Comm.syncArray {u : Nat} (h : u ≠ v) (m : Mem) : Comm v (syncArray E u m) :=
  (Comm.getV h).bind fun _ => (Comm.check _ _).bind fun _ => Comm.ite (Comm.pure _) (Comm.syncB h m)

theorem Comm.fetch {u : Nat} (h : u ≠ v) (m : Mem) (n : Nat) : Comm (α := α) v (fetch u m n) :=
  (Comm.getV h).bind fun _ => Comm.look _ _ _

theorem Comm.wp {m : M (W α) β} (h : Comm v m) {w : W α} {r : Option DVec} {Q : W α → β → Prop} {R : W α → Err → Prop}
    (hw : Wp m w (fun w' a => Q (w'.setVec v r) a) (fun w' e => R (w'.setVec v r) e)) : Wp m (w.setVec v r) Q R := by
  unfold Wp M.wp at hw ⊢
  rw [h w r]
  cases hm : m w with
  | ok s a => rw [hm] at hw; exact hw
  | err s e => rw [hm] at hw; exact hw
  | ub => rw [hm] at hw; exact hw
end Comm

theorem setVec_self {w : W α} {v : Nat} {r : Option DVec} (h : w.vecs v = r) : w.setVec v r = w := by
  unfold W.setVec
  obtain ⟨hp, n, vs⟩ := w
  congr 1
  funext u
  by_cases hu : u = v
  · subst hu; rw [if_pos rfl]; exact h.symm
  · rw [if_neg hu]

theorem setVec_setVec (w : W α) (v : Nat) (r r' : Option DVec) : (w.setVec v r).setVec v r' = w.setVec v r' := by
  unfold W.setVec
  congr 1
  funext u
  by_cases hu : u = v <;> simp [hu]

theorem setArr_setVec (w : W α) (v a : Nat) (r : Option DVec) (b : Option (Blk α)) : (w.setVec v r).setArr a b = (w.setArr a b).setVec v r := rfl

/-! ## Both sides in turn -/

/-- Half of an operation that treats both valid arrays. -/
def half (m : Mem) (v : Nat) (prep : Nat → M (W α) (Nat → α → α)) : M (W α) Unit := do
  let y ← getV v
  if (y.side m).arr.isSome then do
    let k ← prep y.len
    mapA m (y.side m).arr y.len k
  else pure ()

/-- What is needed of the preparation: it leaves `v` alone, and the function computed is right. -/
def PrepOk (Ev : W α → Prop) (B : Nat → Prop) (v : Nat) (x : DVec) (f f' : Nat → α) (prep : Mem → Nat → M (W α) (Nat → α → α)) : Prop :=
  ∀ m a g xg, Inv g → g.vecs v = some xg → Ev g → (x.side m).arr = some a → (xg.side m).slot = some a → Contains g a x.len f → x.len = xg.len →
    Wp (prep m x.len) (g.setVec v (some x)) (fun r k => ∃ g', r = g'.setVec v (some x) ∧ Inv g' ∧ Ev g' ∧ Rel g g' B No No No ∧ ∀ i < x.len, k i (f i) = f' i) fun _ _ => False

theorem Rel.heap_slot {w w' : W α} {B T X Y : Nat → Prop} (hi : Inv w) (h : Rel w w' B T X Y) {v : Nat} {x : DVec} (hx : w.vecs v = some x) (hB : ¬ B v) {m : Mem}
    {a : Nat} (ha : (x.side m).slot = some a) : w'.heap a = w.heap a := by
  have hv := heldBy_slot hx ha
  refine h.heap a (hi.held_lt hv) fun u hu hc => ?_
  exact hB (hi.excl u v a hc hv ▸ hu)

theorem two_wp {w : W α} (hi : Inv w) {v : Nat} {x : DVec} (hx : w.vecs v = some x) {f f' : Nat → α} (hf : Val w x f) (hv : Valid x) {Ev : W α → Prop} (hE : Ev w)
    (hEs : ∀ g g', Inv g → Ev g → Rel g g' (· = v) (· = v) No (· = v) → Ev g')
    {B : Nat → Prop} (hB : ¬ B v) {prep : Mem → Nat → M (W α) (Nat → α → α)} (hp : PrepOk Ev B v x f f' prep) {R : W α → Err → Prop} :
    Wp (do half .device v (prep .device); half .host v (prep .host)) w
      (fun w' _ => Inv w' ∧ Rel w w' (fun u => B u ∨ u = v) (· = v) No (· = v) ∧ HasVals w' v f') R := by
  have hV := hi.vec v x hx
  -- the device half: the real world is `g` but for the record of `v`
  have dev : Wp (half .device v (prep .device)) w (fun r _ => ∃ g xg, r = g.setVec v (some x) ∧ Inv g ∧ Ev g ∧ Rel w g (fun u => B u ∨ u = v) (· = v) No (· = v) ∧
      g.vecs v = some xg ∧ (∀ m, (xg.side m).bor = (x.side m).bor ∧ (xg.side m).own = (x.side m).own) ∧ xg.len = x.len ∧
      (xg.side .device).arr = (x.side .device).arr ∧ ((x.side .device).arr = none → g = w ∧ xg = x) ∧
      ((x.side .device).arr ≠ none → Val g xg f' ∧ (xg.side .host).arr = none) ∧
      (∀ a, (x.side .host).slot = some a → g.heap a = w.heap a) ∧ (x.state % 2 = 1 → xg = x)) R := by
    unfold half
    refine M.wp_bind.2 (wp_getV hx ?_)
    cases ha : (x.side .device).arr with
    | none =>
      rw [if_neg (by simp)]
      exact ⟨w, x, (setVec_self hx).symm, hi, hE, Rel.refl _ _ _ _ _, hx, fun _ => ⟨rfl, rfl⟩, rfl, ha, fun _ => ⟨rfl, rfl⟩, fun h => absurd rfl h, fun _ _ => rfl, fun _ => rfl⟩
    | some a =>
      rw [if_pos (by simp)]
      have hsl := hV.arr _ a ha
      obtain ⟨b, hb, hbm, hbl, -⟩ := hV.slot _ a hsl
      have hcon : Contains w a x.len f := hf _ a ha
      have key := hp .device a w x hi hx hE ha hsl hcon rfl
      rw [setVec_self hx] at key
      refine M.wp_bind.2 (M.wp_mono key ?_ fun _ _ h => h.elim)
      rintro r k ⟨g', rfl, hi', hE', hr', hk⟩
      have hg'v : g'.vecs v = some x := by rw [hr'.vecs v hB]; exact hx
      rw [setVec_self hg'v]
      have hb' : g'.heap a = some b := by rw [hr'.heap_slot hi hx hB hsl]; exact hb
      refine wp_mapA rfl hb' hbm hbl ?_
      have hU := hi'.upd (f := f') hg'v ha hb' (g := over b.buf x.len fun i => k i (b.buf.val i)) rfl (fun i hlt => by
        obtain ⟨b0, hb0, h0⟩ := hcon
        rw [hb] at hb0
        cases hb0
        show (if i < x.len then _ else _) = _
        rw [if_pos hlt, h0 i hlt, hk i hlt])
      refine ⟨_, _, ?_, hU.inv, hEs _ _ hi' hE' (hU.rel hi' hg'v), ?_, hU.vec, hU.same, rfl, ?_, fun h => (Option.some_ne_none _ h).elim, fun _ => ⟨hU.val, ?_⟩, fun c hc => ?_, fun ho => ?_⟩
      · rw [setVec_setVec, setVec_self]
        exact hg'v
      · refine Rel.mono hi (hr'.trans (hU.rel hi' hg'v)) (fun u h => h) (fun u h => h.elim (fun h => h.elim) id) (fun u h => h.elim id id)
          (fun u h => h.elim (fun h => h.elim) id)
      · rw [setSide_ne _ _ (by decide)]; exact ha
      · exact (dropSide x .host).2.1
      · have hca : c ≠ a := by
          rintro rfl
          obtain ⟨b2, hb2, hm2, -⟩ := hV.slot _ c hc
          rw [hb] at hb2
          cases hb2
          rw [hbm] at hm2
          cases hm2
        show (g'.setArr a _).heap c = _
        rw [setArr_ne _ _ hca, hr'.heap_slot hi hx hB hc]
      · have : (x.side .host).arr = none := hV.odd ho .device (by rw [ha]; simp)
        show x.setSide .host { x.side .host with arr := none } = x
        unfold DVec.setSide
        obtain ⟨l, s, rd, sd⟩ := x
        congr 1
        funext m'
        by_cases h : m' = .host
        · subst h
          rw [if_pos rfl]
          dsimp only at this
          rw [← this]
        · rw [if_neg h]
  refine M.wp_bind.2 (M.wp_mono dev ?_ fun _ _ h => h)
  rintro r - ⟨g, xg, rfl, hig, hEg, hrg, hgv, hgs, hgl, hga, hgn, hgd, hgh, hgo⟩
  have hsl : ∀ m, (xg.side m).slot = (x.side m).slot := fun m => slot_congr (hgs m)
  unfold half
  refine M.wp_bind.2 (wp_getV (setVec_same _ _ _) ?_)
  cases hh : (x.side .host).arr with
  | none =>
    rw [if_neg (by simp)]
    have hd : (x.side .device).arr ≠ none := by
      obtain ⟨m, hm⟩ := hv
      cases m
      · exact absurd hh hm
      · exact hm
    have hxg : xg = x ∨ True := .inr trivial
    -- the record is the same
    have hflag := hig.flags (x' := x) (f := f') hgv (fun m => ⟨(hgs m).1.symm, (hgs m).2.symm⟩) (fun m a ha => by rw [hsl]; exact hV.arr m a ha) hgl.symm
      (fun m a ha => by
        cases m
        · rw [hh] at ha; cases ha
        · obtain ⟨b, hb, h⟩ := (hgd hd).1 .device a (by rw [hga]; exact ha)
          exact ⟨b, hb, fun i hi' => h i (by rw [hgl]; exact hi')⟩) hV.odd hV.rd
    have hval : Val (g.setVec v (some x)) x f' := fun m a ha => by
      cases m
      · rw [hh] at ha; cases ha
      · obtain ⟨b, hb, h⟩ := (hgd hd).1 .device a (by rw [hga]; exact ha)
        exact ⟨b, hb, fun i hi' => h i (by rw [hgl]; exact hi')⟩
    refine ⟨hflag.1, ?_, (hflag.1.hasVals_iff (setVec_same _ _ _)).2 ⟨hv, hval⟩⟩
    have hrel : Rel g (g.setVec v (some x)) (· = v) (· = v) (· = v) (· = v) := Rel.of_grow hig hflag.2 (.inl rfl) (.inl rfl) (.inl rfl)
      (Kept.mk hgv (setVec_same _ _ _) hgl.symm fun m => (hgs m).1.symm)
    have := Rel.mono hi (hrg.trans hrel) (A' := fun u => B u ∨ u = v) (T' := (· = v)) (X' := (· = v)) (Y' := (· = v)) (fun u h => h.elim id .inr)
      (fun u h => h.elim id id) (fun u h => h.elim (fun h => h.elim) id) (fun u h => h.elim id id)
    refine ⟨this.vecs, this.next, this.heap, this.held, this.keeps, fun u _ => ?_, this.reads, this.kept⟩
    by_cases hu : u = v
    · subst hu
      intro y m a hy ho ha
      rw [hx] at hy
      cases hy
      exact ⟨x, setVec_same _ _ _, rfl, ha⟩
    · exact this.writes u hu
  | some a =>
    rw [if_pos (by simp)]
    have hsx := hV.arr _ a hh
    obtain ⟨b, hb, hbm, hbl, -⟩ := hV.slot _ a hsx
    have hbg : g.heap a = some b := by rw [hgh a hsx]; exact hb
    have hcon : Contains g a x.len f := by
      obtain ⟨b0, hb0, h0⟩ := hf _ a hh
      exact ⟨b0, by rw [hgh a hsx]; exact hb0, h0⟩
    refine M.wp_bind.2 (M.wp_mono (hp .host a g xg hig hgv hEg hh (by rw [hsl]; exact hsx) hcon hgl.symm) ?_ fun _ _ h => h.elim)
    rintro r k ⟨g', rfl, hi', hE', hr', hk⟩
    have hg'v : g'.vecs v = some xg := by rw [hr'.vecs v hB]; exact hgv
    have hb' : g'.heap a = some b := by rw [hr'.heap_slot hig hgv hB (by rw [hsl]; exact hsx)]; exact hbg
    refine wp_mapA (b := b) rfl hb' hbm hbl ?_
    rw [setArr_setVec]
    have hbuf : ∀ i < x.len, (over b.buf x.len fun i => k i (b.buf.val i)).val i = f' i := by
      intro i hlt
      obtain ⟨b0, hb0, h0⟩ := hcon
      rw [hbg] at hb0
      cases hb0
      show (if i < x.len then _ else _) = _
      rw [if_pos hlt, h0 i hlt, hk i hlt]
    have hval : Val (g'.setArr a (some { b with buf := over b.buf x.len fun i => k i (b.buf.val i) })) x f' := by
      intro m c hc
      by_cases hca : c = a
      · subst hca
        exact ⟨_, setArr_same _ _ _, hbuf⟩
      · cases m
        · rw [hh] at hc; cases hc; exact absurd rfl hca
        · obtain ⟨b1, hb1, h1⟩ := (hgd (by rw [hc]; simp)).1 .device c (by rw [hga]; exact hc)
          refine ⟨b1, ?_, fun i hi' => h1 i (by rw [hgl]; exact hi')⟩
          rw [setArr_ne _ _ hca, hr'.heap_slot hig hgv hB (by rw [hsl]; exact hV.arr _ c hc)]
          exact hb1
    obtain ⟨h1, h2⟩ := hi'.store (x' := x) hg'v (by rw [hsl]; exact hsx) hb' (g := over b.buf x.len fun i => k i (b.buf.val i)) rfl
      (fun m => ⟨(hgs m).1.symm, (hgs m).2.symm⟩) (fun m c hc => by rw [hsl]; exact hV.arr m c hc) hgl.symm hval hV.odd hV.rd
    refine ⟨h1, ?_, (h1.hasVals_iff (setVec_same _ _ _)).2 ⟨hv, hval⟩⟩
    have hrel : Rel g' ((g'.setArr a (some { b with buf := over b.buf x.len fun i => k i (b.buf.val i) })).setVec v (some x)) (· = v) (· = v) (· = v) (· = v) :=
      Rel.of_grow hi' h2 (.inl rfl) (.inl rfl) (.inl rfl) (Kept.mk hg'v (setVec_same _ _ _) hgl.symm fun m => (hgs m).1.symm)
    have := Rel.mono hi ((hrg.trans hr').trans hrel) (A' := fun u => B u ∨ u = v) (T' := (· = v)) (X' := (· = v)) (Y' := (· = v))
      (fun u h => h.elim (fun h => h.elim id .inl) .inr) (fun u h => h.elim (fun h => h.elim id fun h => h.elim) id)
      (fun u h => h.elim (fun h => h.elim (fun h => h.elim) fun h => h.elim) id) (fun u h => h.elim (fun h => h.elim id fun h => h.elim) id)
    refine ⟨this.vecs, this.next, this.heap, this.held, this.keeps, fun u _ => ?_, this.reads, this.kept⟩
    by_cases hu : u = v
    · subst hu
      intro y m c hy ho hc
      rw [hx] at hy
      cases hy
      exact ⟨x, setVec_same _ _ _, rfl, hc⟩
    · exact this.writes u hu

end DevVec
end Verif
