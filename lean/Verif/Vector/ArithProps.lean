import Verif.Vector.Arith

/-!
# C07-C09: vector arithmetic, norms, strided access

Statements are about what read accesses see before and after the call, in every state reached by a program that respects
the contract of `Verif/Vector/Calls.lean`.
-/

namespace Verif
namespace Vector

set_option linter.unusedSectionVars false
set_option linter.unusedSimpArgs false

section
variable {α : Type} [Field α] [LinearOrder α]

/-! ## Specification -/

/-- The vector can be read and its first `n` entries are given by `f`. -/
def Contents (w : World α) (v : Vid) (n : Int) (f : Int → α) : Prop :=
  CanRead w v ∧ ∀ i, 0 ≤ i → i < n → Readable w v i (f i)

/-- A read-write access is granted now. -/
def CanWrite (w : World α) (v : Vid) : Prop := ∃ w1 p, getArray v .host w = .ok w1 p

/-- A write-only access is granted now. -/
def CanOverwrite (w : World α) (v : Vid) : Prop := ∃ w1 p, getArrayWrite v .host w = .ok w1 p

/-- Nothing changed except the first `n` entries of `v`: other vectors read the same, entries beyond read the same, arrays of
the program that are not lent are the same. -/
structure OnlyChanges (g : View) (w w' : World α) (v : Vid) (n : Int) : Prop where
  others : ∀ u, u ≠ v → ∀ i z, Readable w u i z ↔ Readable w' u i z
  beyond : ∀ i, n ≤ i → ∀ z, Readable w v i z → Readable w' v i z
  program : ∀ a m, g.mine a = some m → g.notLent a → w'.heap a = w.heap a

/-- The vectors were created with the same `Ceed`. -/
def SameCeed (w : World α) (v u : Vid) : Prop := (w.vecs v).map Vec.parent = (w.vecs u).map Vec.parent

/-! ## Tools -/

variable {sqrt : α → α} {eps : α} {w w' : World α} {g : View} {v : Vid} {x : Vec} {a : Addr} {b : Buf α}

theorem canRead_iff (hx : w.vecs v = some x) : CanRead w v ↔ x.canRead .host := by
  constructor
  · intro h
    obtain ⟨y, hy, hc, _⟩ := canRead_cases h
    rw [hx] at hy; cases hy
    exact hc
  · rintro ⟨h1, h2⟩
    unfold CanRead
    rw [getArrayRead_eq hx, if_pos h1]
    by_cases hl : 0 < x.len
    · rw [if_pos hl, if_pos (h2 hl)]; exact ⟨_, _, rfl⟩
    · rw [if_neg hl]; exact ⟨_, _, rfl⟩

theorem canRead_vec (h : CanRead w v) : ∃ x, w.vecs v = some x ∧ x.canRead .host := by
  obtain ⟨x, hx, hc, _⟩ := canRead_cases h
  exact ⟨x, hx, hc⟩

theorem canWrite_vec (h : CanWrite w v) : ∃ x, w.vecs v = some x ∧ x.canWrite .host := by
  obtain ⟨w1, p, e⟩ := h
  cases hx : w.vecs v with
  | none => simp [getArray, hx] at e
  | some x =>
    refine ⟨x, rfl, ?_⟩
    rw [getArray_eq hx] at e
    split at e
    · rename_i h1
      split at e
      · split at e
        · rename_i h2; exact ⟨h1, fun _ => h2⟩
        · cases e
      · rename_i h2; exact ⟨h1, fun h => absurd h h2⟩
    · cases e

theorem canOverwrite_vec (h : CanOverwrite w v) : ∃ x, w.vecs v = some x ∧ x.free := by
  obtain ⟨w1, p, e⟩ := h
  cases hx : w.vecs v with
  | none => simp [getArrayWrite, hx] at e
  | some x =>
    refine ⟨x, rfl, ?_⟩
    by_contra hf
    simp only [getArrayWrite, M.bind_apply, getV_some hx, Out.bind_ok, lockChecks_eq, if_neg hf, Out.bind_err] at e
    cases e

theorem ld_iff {i : Int} {z : α} : ld (some a) i w = .ok w z ↔ ∃ b, w.heap a = some b ∧ 0 ≤ i ∧ i < b.len ∧ b.val i.toNat = z := by
  unfold ld
  simp only [M.bind_apply]
  cases hb : w.heap a with
  | none => simp [getB, hb]
  | some b =>
    have e : getB (some a) w = .ok w b := by simp [getB, hb]
    rw [e]
    simp only [Out.bind_ok]
    by_cases h0 : 0 ≤ i
    · by_cases h1 : i < b.len
      · rw [Buf.rdI_lt h0 h1]; simp [h0, h1]
      · have : ¬ i.toNat < b.len := by omega
        simp [Buf.rdI, h0, this, h1]
    · simp [Buf.rdI, h0]

theorem readable_iff (hx : w.vecs v = some x) {i : Int} {z : α} :
    Readable w v i z ↔ x.state % 2 = 0 ∧ 0 < x.len ∧ ∃ a b, x.array = some a ∧ w.heap a = some b ∧ 0 ≤ i ∧ i < b.len ∧
      b.val i.toNat = z := by
  unfold Readable
  rw [getArrayRead_eq hx]
  by_cases h1 : x.state % 2 = 0
  · rw [if_pos h1]
    by_cases hl : 0 < x.len
    · rw [if_pos hl]
      cases ha : x.array with
      | none => simp
      | some a =>
        rw [if_pos ⟨by simp, rfl⟩]
        simp only [h1, hl, true_and]
        constructor
        · rintro ⟨w1, p, e, e1⟩
          cases e
          obtain ⟨b, hb⟩ := ld_iff.1 e1
          exact ⟨a, b, rfl, hb⟩
        · rintro ⟨a', b, ha', hb⟩
          cases ha'
          exact ⟨_, _, rfl, ld_iff.2 ⟨b, hb⟩⟩
    · rw [if_neg hl]
      simp only [h1, hl, false_and, and_false, iff_false]
      rintro ⟨w1, p, e, e1⟩
      cases e
      simp [ld, getB] at e1
  · rw [if_neg h1]
    simp [h1]

theorem not_readable (hx : w.vecs v = none) {i : Int} {z : α} : ¬ Readable w v i z := by
  rintro ⟨w1, p, e, _⟩
  simp [getArrayRead, hx] at e

theorem Inv.data (hi : Inv g w) (hx : w.vecs v = some x) (hl : 0 < x.len) (ha : x.array.isSome) :
    ∃ a b, Data w v x a b := by
  obtain ⟨a, ha⟩ := Option.isSome_iff_exists.1 ha
  obtain ⟨b, hb, hn⟩ := hi.mem v x a hx ha
  exact ⟨a, b, hx, hl, ha, hb, hn⟩

theorem Data.readable (h : Data w v x a b) {i : Int} {z : α} (hr : x.state % 2 = 0) (h0 : 0 ≤ i) (hn : i < x.len) :
    Readable w v i z ↔ b.val i.toNat = z := by
  rw [readable_iff h.vec]
  have := h.long
  constructor
  · rintro ⟨_, _, a', b', ha, hb, _, _, e⟩
    rw [h.arr] at ha; cases ha
    rw [h.heap] at hb; cases hb
    exact e
  · intro e
    exact ⟨hr, h.pos, a, b, h.arr, h.heap, h0, by omega, e⟩

/-- Entries of a vector with data. -/
theorem Contents.val {n : Int} {f : Int → α} (hc : Contents w v n f) (h : Data w v x a b) {i : Nat} (hi : (i : Int) < n)
    (hn : n ≤ x.len) : b.val i = f i := by
  obtain ⟨y, hy, hr⟩ := canRead_vec hc.1
  rw [h.vec] at hy; cases hy
  have := (h.readable hr.1 (by omega) (by omega)).1 (hc.2 i (by omega) hi)
  simpa using this

theorem contents_exists (h : Reach Legal True sqrt eps w g) (hr : CanRead w v) : ∃ f : Int → α, Contents w v (g.len v) f := by
  have hi := inv_reach h
  obtain ⟨x, hx, hc⟩ := canRead_vec hr
  have hlen := (hi.base.vec v x hx).len
  by_cases hl : 0 < x.len
  · obtain ⟨a, b, hd⟩ := hi.data hx hl (hc.2 hl).1
    exact ⟨fun i => b.val i.toNat, hr, fun i h0 hn => (hd.readable hc.1 h0 (by omega)).2 rfl⟩
  · exact ⟨fun _ => 0, hr, fun i h0 hn => by omega⟩

theorem put_data (h : Data w v x a b) (f : Nat → α) :
    Data (put w v x a b f) v { x with state := x.state + 2 } a (over b x.len.toNat f) :=
  ⟨by simp [put], h.pos, h.arr, by simp [put], h.long⟩

theorem put_contents (h : Data w v x a b) (hf : x.free) (f : Nat → α) :
    Contents (put w v x a b f) v x.len (fun i => f i.toNat) := by
  have hd := put_data h f
  have hs : (x.state + 2) % 2 = 0 := by have := hf.1; omega
  constructor
  · rw [canRead_iff hd.vec]
    exact ⟨hs, fun _ => ⟨by simp [h.arr], rfl⟩⟩
  · intro i h0 hn
    rw [hd.readable hs h0 hn]
    simp only [over]
    rw [if_pos (by omega)]

/-- Changes of one array of one vector. -/
theorem blk_only (hi : Inv g w) (h : Data w v x a b) {b' : Buf α} {s : Nat} (hs : s % 2 = 0) (hb : b'.len = b.len)
    {n : Int} (hv : ∀ i : Nat, n ≤ i → b'.val i = b.val i) :
    OnlyChanges g w ((w.setBlk a (some b')).setVec v (some { x with state := s })) v n := by
  refine ⟨?_, ?_, ?_⟩
  · intro u hu i z
    cases hy : w.vecs u with
    | none => exact ⟨fun h => absurd h (not_readable hy), fun h => absurd h (not_readable (by simp [hu, hy]))⟩
    | some y =>
      rw [readable_iff hy, readable_iff (w := (w.setBlk a (some b')).setVec v (some { x with state := s })) (x := y)
        (by simp [hu, hy])]
      have hne : ∀ c, y.array = some c → c ≠ a := by
        rintro c hc rfl
        exact hi.distinct v u x y c (Ne.symm hu) h.vec hy h.arr hc
      constructor
      · rintro ⟨h1, h2, c, d, hc, hd, h3⟩
        exact ⟨h1, h2, c, d, hc, by simp [hne c hc, hd], h3⟩
      · rintro ⟨h1, h2, c, d, hc, hd, h3⟩
        refine ⟨h1, h2, c, d, hc, ?_, h3⟩
        simpa [hne c hc] using hd
  · intro i hn z hz
    obtain ⟨h1, h2, c, d, hc, hd, h3, h4, h5⟩ := (readable_iff h.vec).1 hz
    rw [h.arr] at hc; cases hc
    rw [h.heap] at hd; cases hd
    rw [readable_iff (x := { x with state := s }) (by simp)]
    refine ⟨hs, h2, a, b', h.arr, by simp, h3, by omega, ?_⟩
    rw [hv _ (by omega), h5]
  · intro c m hm hnl
    have hca : c ≠ a := by
      rintro rfl
      rcases array_cases hi.base.wf h.vec h.arr with hb | ho
      · exact hnl v (by rw [(hi.base.vec v x h.vec).lent, hb])
      · exact (hi.mine c m hm).2 v x h.vec ho
    simp [hca]

theorem put_only (hi : Inv g w) (h : Data w v x a b) (hf : x.free) (f : Nat → α) :
    OnlyChanges g w (put w v x a b f) v x.len := by
  refine blk_only hi h (b' := over b x.len.toNat f) (s := x.state + 2) (by have := hf.1; omega) rfl ?_
  intro i hn
  have := h.pos
  simp only [over]
  rw [if_neg (by omega)]

/-- Changes of the lock counters only. -/
theorem touch_only (hx : w.vecs v = some x) {s : Nat} (hs : s % 2 = x.state % 2) (n : Int) :
    OnlyChanges g w (w.setVec v (some { x with state := s })) v n := by
  have key : ∀ u i z, Readable w u i z ↔ Readable (w.setVec v (some { x with state := s })) u i z := by
    intro u i z
    by_cases hu : u = v
    · subst hu
      rw [readable_iff hx, readable_iff (x := { x with state := s }) (by simp)]
      simp only [hs, setVec_heap]
    · cases hy : w.vecs u with
      | none => exact ⟨fun h => absurd h (not_readable hy), fun h => absurd h (not_readable (by simp [hu, hy]))⟩
      | some y =>
        rw [readable_iff hy, readable_iff (w := w.setVec v (some { x with state := s })) (x := y) (by simp [hu, hy])]
        simp
  exact ⟨fun u _ => key u, fun i _ z => (key v i z).1, fun _ _ _ _ => rfl⟩

theorem only_refl (n : Int) : OnlyChanges g w w v n := ⟨fun _ _ _ _ => Iff.rfl, fun _ _ _ h => h, fun _ _ _ _ => rfl⟩

theorem touch_contents (hl : ¬ 0 < x.len) {s : Nat} (hs : s % 2 = 0) {n : Int} (hn : n ≤ x.len) (f : Int → α) :
    Contents (w.setVec v (some { x with state := s })) v n f := by
  constructor
  · rw [canRead_iff (x := { x with state := s }) (by simp)]
    exact ⟨hs, fun h => absurd h hl⟩
  · intro i h0 h1; omega

theorem empty_contents (hx : w.vecs v = some x) (hl : ¬ 0 < x.len) (hs : x.state % 2 = 0) {n : Int} (hn : n ≤ x.len) (f : Int → α) :
    Contents w v n f := by
  constructor
  · rw [canRead_iff hx]
    exact ⟨hs, fun h => absurd h hl⟩
  · intro i h0 h1; omega

theorem Contents.congr {n : Int} {f h : Int → α} (hc : Contents w v n f) (he : ∀ i, 0 ≤ i → i < n → f i = h i) :
    Contents w v n h := ⟨hc.1, fun i h0 h1 => by rw [← he i h0 h1]; exact hc.2 i h0 h1⟩

/-! ## C07 -/

/-- C07, `CeedVectorScale`. -/
theorem C07_scale (h : Reach Legal True sqrt eps w g) (hn : 0 ≤ g.len v) (hw : CanWrite w v) {f : Int → α}
    (hc : Contents w v (g.len v) f) (z : α) :
    ∃ w', exec sqrt eps (.scale v z) w = .ok w' .unit ∧ Contents w' v (g.len v) (fun i => f i * z) ∧
      OnlyChanges g w w' v (g.len v) := by
  have hi := inv_reach h
  obtain ⟨x, hx, hf, ha⟩ := canWrite_vec hw
  have hlen := (hi.base.vec v x hx).len
  simp only [exec, M.bind_apply]
  by_cases hl : 0 < x.len
  · obtain ⟨a, b, hd⟩ := hi.data hx hl (ha hl).1
    rw [scale_eq hd hf]
    refine ⟨_, rfl, ?_, ?_⟩
    · rw [hlen]
      refine (put_contents hd hf _).congr fun i h0 h1 => ?_
      have := hc.val hd (i := i.toNat) (by omega) (by omega)
      rw [this, Int.toNat_of_nonneg h0]
    · rw [hlen]; exact put_only hi hd hf _
  · have h0 : x.len = 0 := by omega
    refine ⟨w, ?_, empty_contents hx hl hf.1 (by omega) _, only_refl _⟩
    simp [scale, hasValid_eq hx, hx, h0, Vec.valid, M.check_apply]

/-- C07, `CeedVectorReciprocal` (the call wants that the vector was changed once, `state > 0`): entries not above `eps` in
size stay. -/
theorem C07_reciprocal (h : Reach Legal True sqrt eps w g) (hn : 0 ≤ g.len v) (hw : CanWrite w v) {f : Int → α}
    (hc : Contents w v (g.len v) f) {s : Nat} (hs : getState v w = .ok w s) (hs0 : 0 < s) :
    ∃ w', exec sqrt eps (.reciprocal v) w = .ok w' .unit ∧
      Contents w' v (g.len v) (fun i => if eps < |f i| then 1 / f i else f i) ∧ OnlyChanges g w w' v (g.len v) := by
  have hi := inv_reach h
  obtain ⟨x, hx, hf, ha⟩ := canWrite_vec hw
  have hlen := (hi.base.vec v x hx).len
  have hst : 0 < x.state := by simp [getState, hx] at hs; omega
  simp only [exec, M.bind_apply]
  by_cases hl : 0 < x.len
  · obtain ⟨a, b, hd⟩ := hi.data hx hl (ha hl).1
    rw [reciprocal_eq hd hf hst]
    refine ⟨_, rfl, ?_, ?_⟩
    · rw [hlen]
      refine (put_contents hd hf _).congr fun i h0 h1 => ?_
      have := hc.val hd (i := i.toNat) (by omega) (by omega)
      rw [this, Int.toNat_of_nonneg h0]
    · rw [hlen]; exact put_only hi hd hf _
  · have h0 : x.len = 0 := by omega
    refine ⟨w, ?_, empty_contents hx hl hf.1 (by omega) _, only_refl _⟩
    simp [reciprocal, hasValid_eq hx, hx, h0, Vec.valid, M.check_apply, hst]

theorem fresh_free (hf : x.free) : ({ x with state := x.state + 2, owned := some w.next, array := some w.next } : Vec).free := by
  obtain ⟨h1, h2⟩ := hf
  exact ⟨by dsimp only; omega, h2⟩

/-- Changes of a vector that got a new array. -/
theorem fresh_only (hi : Inv g w) (hx : w.vecs v = some x) (ha : x.array = none) {x' : Vec} {b' : Buf α} (n : Int) :
    OnlyChanges g w ((((w.push ⟨x.len.toNat, fun _ => 0⟩).setBlk w.next (some b'))).setVec v (some x')) v n := by
  have hnext : w.heap w.next = none := hi.base.wf.fresh _ (Nat.le_refl _)
  refine ⟨?_, ?_, ?_⟩
  · intro u hu i z
    cases hy : w.vecs u with
    | none => exact ⟨fun h => absurd h (not_readable hy), fun h => absurd h (not_readable (by simp [hu, hy]))⟩
    | some y =>
      rw [readable_iff hy, readable_iff (x := y) (by simp [hu, hy])]
      have hne : ∀ c, y.array = some c → c ≠ w.next := by
        rintro c hc rfl
        obtain ⟨b, hb, _⟩ := hi.mem u y _ hy hc
        rw [hnext] at hb; cases hb
      constructor
      · rintro ⟨h1, h2, c, d, hc, hd, h3⟩
        exact ⟨h1, h2, c, d, hc, by simp [hne c hc, hd], h3⟩
      · rintro ⟨h1, h2, c, d, hc, hd, h3⟩
        refine ⟨h1, h2, c, d, hc, ?_, h3⟩
        simpa [hne c hc] using hd
  · intro i _ z hz
    obtain ⟨_, _, c, _, hc, _⟩ := (readable_iff hx).1 hz
    rw [ha] at hc; cases hc
  · intro c m hm _
    obtain ⟨⟨b, hb, _⟩, _⟩ := hi.mine c m hm
    have : c ≠ w.next := by rintro rfl; rw [hnext] at hb; cases hb
    simp [this]

/-- C07, `CeedVectorSetValue`. -/
theorem C07_setValue (h : Reach Legal True sqrt eps w g) (hn : 0 ≤ g.len v) (hw : CanOverwrite w v) (z : α) :
    ∃ w', exec sqrt eps (.setValue v z) w = .ok w' .unit ∧ Contents w' v (g.len v) (fun _ => z) ∧
      OnlyChanges g w w' v (g.len v) := by
  have hi := inv_reach h
  obtain ⟨x, hx, hf⟩ := canOverwrite_vec hw
  have hlen := (hi.base.vec v x hx).len
  simp only [exec, M.bind_apply]
  by_cases hl : 0 < x.len
  · cases ha : x.array with
    | some a =>
      obtain ⟨a, b, hd⟩ := hi.data hx hl (by simp [ha])
      rw [setValue_eq hd hf]
      refine ⟨_, rfl, ?_, ?_⟩
      · rw [hlen]; exact put_contents hd hf _
      · rw [hlen]; exact put_only hi hd hf _
    | none =>
      rw [setValue_fresh hx (hi.base.wf.slots v x hx) hf hl ha, setValue_eq (fresh_data w v hl) (fresh_free hf)]
      refine ⟨_, rfl, ?_, ?_⟩
      · rw [hlen]; exact put_contents (fresh_data w v hl) (fresh_free hf) _
      · unfold put fresh
        rw [setVec_setBlk, setVec_setVec]
        exact fresh_only hi hx ha _
  · have h0 : x.len = 0 := by omega
    refine ⟨w.setVec v (some { x with state := x.state + 2 }), ?_, touch_contents hl (by have := hf.1; omega) (by omega) _,
      touch_only hx (by omega) _⟩
    have e : getArrayWrite v .host w = .ok (w.setVec v (some { x with state := x.state + 1 })) none := by
      unfold getArrayWrite
      simp only [M.bind_apply, getV_some hx, Out.bind_ok, lockChecks_eq, if_pos hf, if_neg hl, bump_eq hx, M.pure_apply]
    have hz : x.len.toNat = 0 := by omega
    unfold setValue
    simp only [M.bind_apply, getV_some hx, Out.bind_ok, lockChecks_eq, if_pos hf, e, hz, M.loop_zero, restore_written w v x hf,
      M.pure_apply]

theorem axp_prop (h : Reach Legal True sqrt eps w g) {y x : Vid} (hne : x ≠ y) (hlen : g.len x = g.len y) (hn : 0 ≤ g.len y)
    (hp : SameCeed w x y) (hw : CanWrite w y) {f k : Int → α} (hy : Contents w y (g.len y) f) (hx : Contents w x (g.len y) k)
    (F : α → α → α) :
    ∃ w', axp y F x w = .ok w' () ∧ Contents w' y (g.len y) (fun i => F (k i) (f i)) ∧
      OnlyChanges g w w' y (g.len y) := by
  have hi := inv_reach h
  obtain ⟨vy, hvy, hf, ha⟩ := canWrite_vec hw
  obtain ⟨vx, hvx, hr, hax⟩ := canRead_vec hx.1
  have hly := (hi.base.vec y vy hvy).len
  have hlx := (hi.base.vec x vx hvx).len
  have hpp : vx.parent = vy.parent := by simpa [SameCeed, hvx, hvy] using hp
  by_cases hl : 0 < vy.len
  · obtain ⟨a, b, hd⟩ := hi.data hvy hl (ha hl).1
    obtain ⟨ax, bx, hdx⟩ := hi.data hvx (by omega) (hax (by omega)).1
    rw [axp_eq hd hdx hf hr hne (by omega) hpp]
    refine ⟨_, rfl, ?_, ?_⟩
    · rw [hly]
      refine (put_contents hd hf _).congr fun i h0 h1 => ?_
      have e1 := hy.val hd (i := i.toNat) (by omega) (by omega)
      have e2 := hx.val hdx (i := i.toNat) (by omega) (by omega)
      rw [e1, e2, Int.toNat_of_nonneg h0]
    · rw [hly]; exact put_only hi hd hf _
  · have h0 : vy.len = 0 := by omega
    have h1 : vx.len = 0 := by omega
    refine ⟨w, ?_, empty_contents hvy hl hf.1 (by omega) _, only_refl _⟩
    simp [axp, hasValid_eq hvx, hasValid_eq hvy, hvx, hvy, h0, h1, Vec.valid, M.check_apply, hpp, hne]

/-- C07, `CeedVectorAXPY`: `y[i] += alpha x[i]`. The vectors are different (the call refuses the same one). -/
theorem C07_axpy (h : Reach Legal True sqrt eps w g) {y x : Vid} (hne : x ≠ y) (hlen : g.len x = g.len y) (hn : 0 ≤ g.len y)
    (hp : SameCeed w x y) (hw : CanWrite w y) {f k : Int → α} (hy : Contents w y (g.len y) f) (hx : Contents w x (g.len y) k)
    (alpha : α) :
    ∃ w', exec sqrt eps (.axpy y alpha x) w = .ok w' .unit ∧ Contents w' y (g.len y) (fun i => f i + alpha * k i) ∧
      OnlyChanges g w w' y (g.len y) := by
  obtain ⟨w', e, h1⟩ := axp_prop h hne hlen hn hp hw hy hx (fun a b => b + alpha * a)
  refine ⟨w', ?_, h1⟩
  simp only [exec, axpy, M.bind_apply, e, Out.bind_ok, M.pure_apply]

/-- C07, `CeedVectorAXPBY`: `y[i] = alpha x[i] + beta y[i]`. -/
theorem C07_axpby (h : Reach Legal True sqrt eps w g) {y x : Vid} (hne : x ≠ y) (hlen : g.len x = g.len y) (hn : 0 ≤ g.len y)
    (hp : SameCeed w x y) (hw : CanWrite w y) {f k : Int → α} (hy : Contents w y (g.len y) f) (hx : Contents w x (g.len y) k)
    (alpha beta : α) :
    ∃ w', exec sqrt eps (.axpby y alpha beta x) w = .ok w' .unit ∧ Contents w' y (g.len y) (fun i => alpha * k i + beta * f i) ∧
      OnlyChanges g w w' y (g.len y) := by
  obtain ⟨w', e, h1⟩ := axp_prop h hne hlen hn hp hw hy hx (fun a b => alpha * a + beta * b)
  refine ⟨w', ?_, h1⟩
  simp only [exec, axpby, M.bind_apply, e, Out.bind_ok, M.pure_apply]

/-- C07, `CeedVectorPointwiseMult`: `u[i] = x[i] y[i]`, for every way in which the three vectors may coincide. The factors
may be longer than the result, which needs no values unless it is also a factor. -/
theorem C07_pointwiseMult (h : Reach Legal True sqrt eps w g) {u x y : Vid} (hn : 0 ≤ g.len u) (hlx : g.len u ≤ g.len x)
    (hly : g.len u ≤ g.len y) (hpx : SameCeed w u x) (hpy : SameCeed w u y) (hw : CanOverwrite w u) {f k : Int → α}
    (hx : Contents w x (g.len u) f) (hy : Contents w y (g.len u) k) :
    ∃ w', exec sqrt eps (.pointwiseMult u x y) w = .ok w' .unit ∧ Contents w' u (g.len u) (fun i => f i * k i) ∧
      OnlyChanges g w w' u (g.len u) := by
  have hi := inv_reach h
  obtain ⟨vu, hvu, hf⟩ := canOverwrite_vec hw
  obtain ⟨vx, hvx, hrx, hax⟩ := canRead_vec hx.1
  obtain ⟨vy, hvy, hry, hay⟩ := canRead_vec hy.1
  have hlu := (hi.base.vec u vu hvu).len
  have hlx' := (hi.base.vec x vx hvx).len
  have hly' := (hi.base.vec y vy hvy).len
  have hpx' : vu.parent = vx.parent := by simpa [SameCeed, hvx, hvu] using hpx
  have hpy' : vu.parent = vy.parent := by simpa [SameCeed, hvy, hvu] using hpy
  simp only [exec, M.bind_apply]
  by_cases hl : 0 < vu.len
  · obtain ⟨ax, bx, hdx⟩ := hi.data hvx (by omega) (hax (by omega)).1
    obtain ⟨ay, by', hdy⟩ := hi.data hvy (by omega) (hay (by omega)).1
    cases ha : vu.array with
    | some a =>
      obtain ⟨a, b, hd⟩ := hi.data hvu hl (by simp [ha])
      rw [pointwiseMult_eq hd hdx hdy hf hrx hry (by omega) (by omega) hpx' hpy']
      refine ⟨_, rfl, ?_, ?_⟩
      · rw [hlu]
        refine (put_contents hd hf _).congr fun i h0 h1 => ?_
        have e1 := hx.val hdx (i := i.toNat) (by omega) (by omega)
        have e2 := hy.val hdy (i := i.toNat) (by omega) (by omega)
        rw [e1, e2, Int.toNat_of_nonneg h0]
      · rw [hlu]; exact put_only hi hd hf _
    | none =>
      have hxu : x ≠ u := by
        rintro rfl
        rw [hvu] at hvx; cases hvx
        have := hdx.arr
        rw [ha] at this; cases this
      have hyu : y ≠ u := by
        rintro rfl
        rw [hvu] at hvy; cases hvy
        have := hdy.arr
        rw [ha] at this; cases this
      have hnext : w.heap w.next = none := hi.base.wf.fresh _ (Nat.le_refl _)
      have nx : ax ≠ w.next := by
        rintro rfl; have := hdx.heap; rw [hnext] at this; cases this
      have ny : ay ≠ w.next := by
        rintro rfl; have := hdy.heap; rw [hnext] at this; cases this
      have hdx' : Data (fresh w u vu) x vx ax bx :=
        ⟨by simp [fresh, hxu, hvx], hdx.pos, hdx.arr, by simp [fresh, nx, hdx.heap], hdx.long⟩
      have hdy' : Data (fresh w u vu) y vy ay by' :=
        ⟨by simp [fresh, hyu, hvy], hdy.pos, hdy.arr, by simp [fresh, ny, hdy.heap], hdy.long⟩
      have e := pointwiseMult_eq (fresh_data w u hl) hdx' hdy' (fresh_free hf) hrx hry (by dsimp only; omega)
        (by dsimp only; omega) hpx' hpy'
      have e' : pointwiseMult u x y w = pointwiseMult u x y (fresh w u vu) :=
        pointwiseMult_fresh hvu (hi.base.wf.slots u vu hvu) hf hl ha hxu hyu hvx hvy ⟨by omega, by omega⟩ ⟨hpx', hpy'⟩
          hdx.valid hdy.valid
      rw [e', e]
      refine ⟨_, rfl, ?_, ?_⟩
      · rw [hlu]
        refine (put_contents (fresh_data w u hl) (fresh_free hf) _).congr fun i h0 h1 => ?_
        have e1 := hx.val hdx (i := i.toNat) (by dsimp only at h1; omega) (by omega)
        have e2 := hy.val hdy (i := i.toNat) (by dsimp only at h1; omega) (by omega)
        rw [e1, e2, Int.toNat_of_nonneg h0]
      · unfold put fresh
        rw [setVec_setBlk, setVec_setVec]
        exact fresh_only hi hvu ha _
  · have h0 : vu.len = 0 := by omega
    have vx' : vx.valid := by
      by_cases h1 : vx.len = 0
      · exact Or.inl h1
      · exact Or.inr (hax (by omega)).1
    have vy' : vy.valid := by
      by_cases h1 : vy.len = 0
      · exact Or.inl h1
      · exact Or.inr (hay (by omega)).1
    refine ⟨w, ?_, empty_contents hvu hl hf.1 (by omega) _, only_refl _⟩
    have hc1 : 0 ≤ vx.len ∧ 0 ≤ vy.len := ⟨by omega, by omega⟩
    simp [pointwiseMult, hasValid_eq hvx, hasValid_eq hvy, hvx, hvy, hvu, h0, vx', vy', M.check_apply, hc1, ← hpx', ← hpy']

end

end Vector
end Verif
