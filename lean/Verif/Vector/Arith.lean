import Verif.Vector.HistoryProps

/-!
# Arithmetic calls, exactly

Symbolic execution of the arithmetic calls, used by the proofs of C07-C09.
-/

namespace Verif

/-- A loop whose states are known. -/
theorem M.loop_exact {σ : Type _} {n : Nat} {body : Nat → M σ Unit} {s : σ} (W : Nat → σ) (h0 : W 0 = s)
    (h : ∀ i < n, body i (W i) = .ok (W (i + 1)) ()) : M.loop n body s = .ok (W n) () := by
  induction n with
  | zero => subst h0; rfl
  | succ n ih =>
    rw [M.loop_succ, ih (fun i hi => h i (by omega))]
    exact h n (by omega)

namespace Vector

set_option linter.unusedSectionVars false
set_option linter.unusedSimpArgs false

section
variable {α : Type} {w : World α} {v : Vid} {x : Vec} {a : Addr} {b : Buf α}

theorem ld_eq {i : Nat} (hb : w.heap a = some b) (hi : i < b.len) : ld (some a) i w = .ok w (b.val i) := by
  have e : getB (some a) w = .ok w b := by simp [getB, hb]
  unfold ld
  simp only [M.bind_apply, e, Out.bind_ok]
  rw [Buf.rdI_lt (by omega) (by omega)]
  simp

theorem st_eq {i : Nat} (hb : w.heap a = some b) (hi : i < b.len) (z : α) :
    st (some a) i z w = .ok (w.setBlk a (some ⟨b.len, fun j => if j = i then z else b.val j⟩)) () := by
  unfold st
  simp only [hb, Buf.wrI, Int.toNat_natCast]
  rw [if_pos (by omega), Buf.wr_lt hi]

/-- Contents of an array of which the first `n` entries were replaced. -/
def over (b : Buf α) (n : Nat) (f : Nat → α) : Buf α := ⟨b.len, fun i => if i < n then f i else b.val i⟩

theorem over_zero (b : Buf α) (f : Nat → α) : over b 0 f = b := by simp [over]

theorem over_set (b : Buf α) (i : Nat) (f : Nat → α) {z : α} (hz : z = f i) :
    (⟨(over b i f).len, fun j => if j = i then z else (over b i f).val j⟩ : Buf α) = over b (i + 1) f := by
  subst hz
  simp only [over, Buf.mk.injEq, true_and]
  funext j
  by_cases h1 : j = i
  · subst h1; simp
  · by_cases h2 : j < i
    · simp [h1, h2, show j < i + 1 by omega]
    · simp [h1, h2, show ¬ j < i + 1 by omega]

theorem over_skip (b : Buf α) (i : Nat) (f : Nat → α) (hz : b.val i = f i) : over b i f = over b (i + 1) f := by
  simp only [over, Buf.mk.injEq, true_and]
  funext j
  by_cases h1 : j = i
  · subst h1; simp [hz]
  · by_cases h2 : j < i
    · simp [h2, show j < i + 1 by omega]
    · simp [h2, show ¬ j < i + 1 by omega]

/-- A loop that sets the entries of one array from left to right. -/
theorem set_loop {n : Nat} {f : Nat → α} {body : Nat → M (World α) Unit} (hb : w.heap a = some b)
    (h : ∀ i < n, body i (w.setBlk a (some (over b i f))) = .ok (w.setBlk a (some (over b (i + 1) f))) ()) :
    M.loop n body w = .ok (w.setBlk a (some (over b n f))) () :=
  M.loop_exact (fun i => w.setBlk a (some (over b i f))) (by rw [over_zero]; exact setBlk_self w hb) h

/-- Same, when the body is a store. -/
theorem st_loop {n : Nat} {f : Nat → α} {body : Nat → M (World α) Unit} (hb : w.heap a = some b) (hn : n ≤ b.len)
    (h : ∀ i < n, body i (w.setBlk a (some (over b i f))) = st (some a) i (f i) (w.setBlk a (some (over b i f)))) :
    M.loop n body w = .ok (w.setBlk a (some (over b n f))) () := by
  refine set_loop hb fun i hi => ?_
  rw [h i hi, st_eq (b := over b i f) (by simp) (by show i < b.len; omega), setBlk_setBlk, over_set b i f rfl]

end

section
variable {α : Type} [Zero α] {w : World α} {v : Vid} {x : Vec} {a : Addr} {b : Buf α}

/-- A vector with data in an array that is long enough. -/
structure Data (w : World α) (v : Vid) (x : Vec) (a : Addr) (b : Buf α) : Prop where
  vec : w.vecs v = some x
  pos : 0 < x.len
  arr : x.array = some a
  heap : w.heap a = some b
  long : x.len ≤ b.len

theorem Data.n (h : Data w v x a b) : x.len.toNat ≤ b.len := by have := h.long; have := h.pos; omega

theorem Data.valid (h : Data w v x a b) : x.valid := (Vec.valid_iff h.pos).2 (by simp [h.arr])

theorem Data.getArray (h : Data w v x a b) (hf : x.free) :
    getArray v .host w = .ok (w.setVec v (some { x with state := x.state + 1 })) (some a) := by
  rw [getArray_eq h.vec, if_pos hf, if_pos h.pos, if_pos ⟨by simp [h.arr], rfl⟩, h.arr]

theorem Data.getArrayRead (h : Data w v x a b) (hf : x.state % 2 = 0) :
    getArrayRead v .host w = .ok (w.setVec v (some { x with readers := x.readers + 1 })) (some a) := by
  rw [getArrayRead_eq h.vec, if_pos hf, if_pos h.pos, if_pos ⟨by simp [h.arr], rfl⟩, h.arr]

theorem Data.getArrayWrite (h : Data w v x a b) (hf : x.free) :
    getArrayWrite v .host w = .ok (w.setVec v (some { x with state := x.state + 1 })) (some a) := by
  unfold Vector.getArrayWrite getArrayWriteRef
  simp only [M.bind_apply, getV_some h.vec, Out.bind_ok, lockChecks_eq, if_pos hf, if_pos h.pos, h.arr, Option.isSome_some,
    if_true, getArrayCore_eq h.vec, bump_eq h.vec, M.pure_apply]

/-- Return write access in a state in which the vector is held for writing. -/
theorem restore_written (w : World α) (v : Vid) (x : Vec) (hf : x.free) :
    restoreArray v (w.setVec v (some { x with state := x.state + 1 })) =
      .ok (w.setVec v (some { x with state := x.state + 2 })) () := by
  rw [restoreArray_eq (x := { x with state := x.state + 1 }) (by simp), if_pos (by have := hf.1; dsimp only; omega)]
  simp

/-- State of the world after the entries of a vector were replaced. -/
def put (w : World α) (v : Vid) (x : Vec) (a : Addr) (b : Buf α) (f : Nat → α) : World α :=
  (w.setBlk a (some (over b x.len.toNat f))).setVec v (some { x with state := x.state + 2 })

end

section
variable {α : Type} [Field α] [LinearOrder α] {w : World α} {v : Vid} {x : Vec} {a : Addr} {b : Buf α}

theorem scale_eq (h : Data w v x a b) (hf : x.free) (z : α) :
    scale v z w = .ok (put w v x a b (fun i => b.val i * z)) () := by
  unfold scale
  simp only [M.bind_apply, hasValid_eq h.vec, Out.bind_ok, h.valid, decide_true, M.check_apply, if_true, getV_some h.vec]
  rw [if_neg (by have := h.pos; omega)]
  simp only [M.bind_apply, h.getArray hf, Out.bind_ok]
  rw [st_loop (a := a) (b := b) (f := fun i => b.val i * z) (by exact h.heap) h.n]
  · simp only [Out.bind_ok]
    exact restore_written (w.setBlk a (some (over b x.len.toNat fun i => b.val i * z))) v x hf
  · intro i hi
    have := h.n
    simp only [M.bind_apply]
    rw [ld_eq (b := over b i fun i => b.val i * z) (by simp) (by show i < b.len; omega)]
    simp [over]

theorem setValue_eq (h : Data w v x a b) (hf : x.free) (z : α) :
    setValue v z w = .ok (put w v x a b (fun _ => z)) () := by
  unfold setValue
  simp only [M.bind_apply, getV_some h.vec, Out.bind_ok, lockChecks_eq, if_pos hf, h.getArrayWrite hf]
  rw [st_loop (a := a) (b := b) (f := fun _ => z) (by exact h.heap) h.n]
  · simp only [Out.bind_ok]
    exact restore_written (w.setBlk a (some (over b x.len.toNat fun _ => z))) v x hf
  · intro i hi; rfl

theorem reciprocal_eq (h : Data w v x a b) (hf : x.free) (hs : 0 < x.state) (eps : α) :
    reciprocal eps v w = .ok (put w v x a b (fun i => if eps < |b.val i| then 1 / b.val i else b.val i)) () := by
  unfold reciprocal
  simp only [M.bind_apply, hasValid_eq h.vec, Out.bind_ok, h.valid, decide_true, M.check_apply, if_true, getV_some h.vec, hs]
  rw [if_neg (by have := h.pos; omega)]
  simp only [M.bind_apply, h.getArray hf, Out.bind_ok]
  rw [set_loop (a := a) (b := b) (f := fun i => if eps < |b.val i| then 1 / b.val i else b.val i) (by exact h.heap)]
  · simp only [Out.bind_ok]
    exact restore_written (w.setBlk a (some (over b x.len.toNat _))) v x hf
  · intro i hi
    have := h.n
    simp only [M.bind_apply]
    rw [ld_eq (b := over b i fun i => if eps < |b.val i| then 1 / b.val i else b.val i) (by simp) (by show i < b.len; omega)]
    have e : (over b i fun i => if eps < |b.val i| then 1 / b.val i else b.val i).val i = b.val i := by simp [over]
    simp only [Out.bind_ok, e]
    split
    · rename_i hz
      rw [st_eq (b := over b i fun i => if eps < |b.val i| then 1 / b.val i else b.val i) (by simp) (by show i < b.len; omega),
        setBlk_setBlk, over_set _ _ _ (by simp [hz])]
    · rename_i hz
      rw [M.pure_apply, over_skip _ _ _ (by simp [hz])]

theorem axp_eq {y x' : Vid} {ax : Addr} {bx : Buf α} {vy vx : Vec} (hy : Data w y vy a b) (hx : Data w x' vx ax bx)
    (hf : vy.free) (hr : vx.state % 2 = 0) (hne : x' ≠ y) (hlen : vx.len = vy.len) (hp : vx.parent = vy.parent) (f : α → α → α) :
    axp y f x' w = .ok (put w y vy a b (fun i => f (bx.val i) (b.val i))) () := by
  have hd : Data (w.setVec y (some { vy with state := vy.state + 1 })) x' vx ax bx :=
    ⟨by simp [hne, hx.vec], hx.pos, hx.arr, hx.heap, hx.long⟩
  unfold axp
  simp only [M.bind_apply, getV_some hy.vec, getV_some hx.vec, Out.bind_ok, M.check_apply, hlen, hne, ne_eq, not_false_eq_true,
    if_true, hasValid_eq hx.vec, hasValid_eq hy.vec, hx.valid, hy.valid, decide_true, hp]
  rw [if_neg (by have := hy.pos; omega)]
  simp only [M.bind_apply, hy.getArray hf, Out.bind_ok, hd.getArrayRead hr]
  rw [st_loop (a := a) (b := b) (f := fun i => f (bx.val i) (b.val i)) (by exact hy.heap) hy.n]
  · simp only [Out.bind_ok]
    rw [setVec_setBlk, setVec_setBlk, setVec_comm _ (Ne.symm hne), restoreArray_eq (x := { vy with state := vy.state + 1 }) (by simp),
      if_pos (by have := hf.1; dsimp only; omega)]
    simp only [Out.bind_ok, setVec_setVec]
    rw [setVec_comm _ hne, restoreArrayRead_eq (x := { vx with readers := vx.readers + 1 }) (by simp),
      if_pos (by dsimp only; omega)]
    simp only [setVec_setVec]
    rw [setVec_self (v := x')]
    · rfl
    · simp [hne, hx.vec]
  · intro i hi
    have h1 := hy.n
    have h2 := hx.n
    have e : ∀ (u : World α), u.heap = w.heap → ∀ c, ld (some ax) i (u.setBlk a (some (over b i c))) =
        .ok (u.setBlk a (some (over b i c))) (bx.val i) := by
      intro u hu c
      by_cases hax : ax = a
      · subst hax
        have hbb : bx = b := Option.some.inj (hx.heap.symm.trans hy.heap)
        subst hbb
        rw [ld_eq (b := over bx i c) (by simp) (by show i < bx.len; omega)]
        simp [over]
      · rw [ld_eq (b := bx) (by simp [hax, hu, hx.heap]) (by rw [← hlen] at hi; omega)]
    simp only [M.bind_apply]
    rw [e _ (by simp)]
    simp only [Out.bind_ok]
    rw [ld_eq (b := over b i fun i => f (bx.val i) (b.val i)) (by simp) (by show i < b.len; omega)]
    simp [over]

/-- Give back read access in a state in which the vector is held for reading. -/
theorem restore_read (w : World α) (v : Vid) (x : Vec) :
    restoreArrayRead v (w.setVec v (some { x with readers := x.readers + 1 })) = .ok (w.setVec v (some x)) () := by
  rw [restoreArrayRead_eq (x := { x with readers := x.readers + 1 }) (by simp), if_pos (by dsimp only; omega)]
  simp

/-- The loop of `CeedVectorPointwiseMult`, whatever arrays coincide. -/
theorem pm_loop {w' : World α} {a ax ay : Addr} {b bx by' : Buf α} {n : Nat} (hh : w'.heap a = some b) (hx : w'.heap ax = some bx)
    (hy : w'.heap ay = some by') (hn : n ≤ b.len) (hnx : n ≤ bx.len) (hny : n ≤ by'.len) :
    M.loop n (fun i => do
      let p ← ld (some ax) i
      let q ← ld (some ay) i
      st (some a) i (p * q)) w' = .ok (w'.setBlk a (some (over b n fun i => bx.val i * by'.val i))) () := by
  have e : ∀ ac bc i c, w'.heap ac = some bc → i < b.len → i < bc.len →
      ld (some ac) i (w'.setBlk a (some (over b i c))) = .ok (w'.setBlk a (some (over b i c))) (bc.val i) := by
    intro ac bc i c hc hi hi'
    by_cases hax : ac = a
    · subst hax
      have hbb : bc = b := Option.some.inj (hc.symm.trans hh)
      subst hbb
      rw [ld_eq (b := over bc i c) (by simp) hi]
      simp [over]
    · rw [ld_eq (b := bc) (by simp [hax, hc]) hi']
  refine st_loop hh hn fun i hi => ?_
  simp only [M.bind_apply]
  rw [e _ _ _ _ hx (by omega) (by omega)]
  simp only [Out.bind_ok]
  rw [e _ _ _ _ hy (by omega) (by omega)]
  rfl

theorem pointwiseMult_eq {u x y : Vid} {vu vx vy : Vec} {a ax ay : Addr} {b bx by' : Buf α} (hu : Data w u vu a b)
    (hx : Data w x vx ax bx) (hy : Data w y vy ay by') (hf : vu.free) (hfx : vx.state % 2 = 0) (hfy : vy.state % 2 = 0)
    (hlx : vu.len ≤ vx.len) (hly : vu.len ≤ vy.len) (hpx : vu.parent = vx.parent) (hpy : vu.parent = vy.parent) :
    pointwiseMult u x y w = .ok (put w u vu a b (fun i => bx.val i * by'.val i)) () := by
  have n1 := hu.n
  have n2 := hx.long
  have n3 := hy.long
  have n4 := hu.pos
  have hl : vu.len.toNat ≤ bx.len ∧ vu.len.toNat ≤ by'.len := by omega
  unfold pointwiseMult
  simp only [M.bind_apply, getV_some hu.vec, getV_some hx.vec, getV_some hy.vec, Out.bind_ok, M.check_apply]
  rw [if_pos ⟨hlx, hly⟩]
  simp only [Out.bind_ok, M.bind_apply, M.pure_apply]
  rw [if_pos ⟨hpx, hpy⟩]
  simp only [Out.bind_ok, hasValid_eq hx.vec, hasValid_eq hy.vec, hx.valid, hy.valid, decide_true, if_true]
  rw [if_neg (by omega)]
  have hq : pmW u x y w = .ok (w.setVec u (some { vu with state := vu.state + 1 })) (some a) := by
    unfold pmW
    split
    · exact hu.getArray hf
    · exact hu.getArrayWrite hf
  simp only [M.bind_apply, hq, Out.bind_ok]
  by_cases hxu : x = u
  · subst hxu
    have hv : vx = vu := Option.some.inj (hx.vec.symm.trans hu.vec)
    subst hv
    have ha : ax = a := Option.some.inj (hx.arr.symm.trans hu.arr)
    subst ha
    have hb : bx = b := Option.some.inj (hx.heap.symm.trans hu.heap)
    subst hb
    unfold pmX
    simp only [ne_eq, not_true_eq_false, if_false, M.pure_apply, Out.bind_ok]
    by_cases hyx : y = x
    · subst hyx
      have hv : vy = vx := Option.some.inj (hy.vec.symm.trans hx.vec)
      subst hv
      have ha : ay = ax := Option.some.inj (hy.arr.symm.trans hx.arr)
      subst ha
      have hb : by' = bx := Option.some.inj (hy.heap.symm.trans hx.heap)
      subst hb
      unfold pmY
      simp only [ne_eq, not_true_eq_false, false_and, if_false, if_true, M.pure_apply, Out.bind_ok]
      rw [pm_loop (b := by') (bx := by') (by' := by') (by exact hy.heap) (by exact hy.heap) (by exact hy.heap) n1 n1 n1]
      simp only [Out.bind_ok, M.bind_apply, M.pure_apply]
      exact restore_written (w.setBlk ay (some (over by' vy.len.toNat _))) y vy hf
    · have hd : Data (w.setVec x (some { vx with state := vx.state + 1 })) y vy ay by' :=
        ⟨by simp [hyx, hy.vec], hy.pos, hy.arr, hy.heap, hy.long⟩
      unfold pmY
      simp only [ne_eq, hyx, not_false_eq_true, true_and, if_true, hd.getArrayRead hfy, Out.bind_ok]
      rw [pm_loop (b := bx) (bx := bx) (by' := by') (by exact hx.heap) (by exact hx.heap) (by exact hy.heap) n1 n1 hl.2]
      simp only [Out.bind_ok, M.bind_apply, M.pure_apply]
      rw [setVec_setBlk, setVec_setBlk, restore_read]
      simp only [M.pure_apply, Out.bind_ok]
      rw [setVec_self]
      · exact restore_written (w.setBlk ax (some (over bx vx.len.toNat _))) x vx hf
      · simp [hyx, hy.vec]
  · have hd : Data (w.setVec u (some { vu with state := vu.state + 1 })) x vx ax bx :=
      ⟨by simp [hxu, hx.vec], hx.pos, hx.arr, hx.heap, hx.long⟩
    unfold pmX
    simp only [ne_eq, hxu, not_false_eq_true, if_true, hd.getArrayRead hfx, Out.bind_ok]
    by_cases hyx : y = x
    · subst hyx
      have hv : vy = vx := Option.some.inj (hy.vec.symm.trans hx.vec)
      subst hv
      have ha : ay = ax := Option.some.inj (hy.arr.symm.trans hx.arr)
      subst ha
      have hb : by' = bx := Option.some.inj (hy.heap.symm.trans hx.heap)
      subst hb
      unfold pmY
      simp only [ne_eq, not_true_eq_false, and_false, if_false, if_true, M.pure_apply, Out.bind_ok]
      rw [pm_loop (b := b) (bx := by') (by' := by') (by exact hu.heap) (by exact hx.heap) (by exact hx.heap) n1 hl.1 hl.1]
      simp only [Out.bind_ok, M.bind_apply, M.pure_apply]
      rw [setVec_setBlk, setVec_setBlk, restore_read]
      simp only [Out.bind_ok, M.bind_apply, M.pure_apply]
      rw [setVec_self (v := y)]
      · exact restore_written (w.setBlk a (some (over b vu.len.toNat _))) u vu hf
      · simp [hxu, hx.vec]
    · by_cases hyu : y = u
      · subst hyu
        have hv : vy = vu := Option.some.inj (hy.vec.symm.trans hu.vec)
        subst hv
        have ha : ay = a := Option.some.inj (hy.arr.symm.trans hu.arr)
        subst ha
        have hb : by' = b := Option.some.inj (hy.heap.symm.trans hu.heap)
        subst hb
        unfold pmY
        simp only [ne_eq, not_true_eq_false, false_and, if_false, hyx, M.pure_apply, Out.bind_ok]
        rw [pm_loop (b := by') (bx := bx) (by' := by') (by exact hu.heap) (by exact hx.heap) (by exact hu.heap) n1 hl.1 n1]
        simp only [Out.bind_ok, M.bind_apply, M.pure_apply]
        rw [setVec_setBlk, setVec_setBlk, restore_read]
        simp only [Out.bind_ok, M.bind_apply, M.pure_apply]
        rw [setVec_self (v := x)]
        · exact restore_written (w.setBlk ay (some (over by' vy.len.toNat _))) y vy hf
        · simp [hxu, hx.vec]
      · have hd' : Data ((w.setVec u (some { vu with state := vu.state + 1 })).setVec x (some { vx with readers := vx.readers + 1 }))
            y vy ay by' := ⟨by simp [hyx, hyu, hy.vec], hy.pos, hy.arr, hy.heap, hy.long⟩
        unfold pmY
        simp only [ne_eq, hyx, hyu, not_false_eq_true, and_self, if_true, hd'.getArrayRead hfy, Out.bind_ok]
        rw [pm_loop (b := b) (bx := bx) (by' := by') (by exact hu.heap) (by exact hx.heap) (by exact hy.heap) n1 hl.1 hl.2]
        simp only [Out.bind_ok, M.bind_apply, M.pure_apply]
        rw [setVec_setBlk, setVec_setBlk, setVec_setBlk, restore_read]
        simp only [Out.bind_ok, M.bind_apply, M.pure_apply]
        rw [setVec_self (v := y), restore_read]
        · simp only [Out.bind_ok, M.bind_apply, M.pure_apply]
          rw [setVec_self (v := x)]
          · exact restore_written (w.setBlk a (some (over b vu.len.toNat _))) u vu hf
          · simp [hxu, hx.vec]
        · simp [hyx, hyu, hy.vec]

/-- The vector after it got an array of zeros. -/
def fresh (w : World α) (v : Vid) (x : Vec) : World α :=
  (w.push ⟨x.len.toNat, fun _ => 0⟩).setVec v
    (some { x with state := x.state + 2, owned := some w.next, array := some w.next })

theorem fresh_data (w : World α) (v : Vid) {x : Vec} (hl : 0 < x.len) :
    Data (fresh w v x) v { x with state := x.state + 2, owned := some w.next, array := some w.next } w.next
      ⟨x.len.toNat, fun _ => 0⟩ :=
  ⟨by simp [fresh], hl, rfl, by simp [fresh], by dsimp only; omega⟩

theorem getArrayWrite_fresh (h : w.vecs v = some x) (hs : x.slots) (hf : x.free) (hl : 0 < x.len) (ha : x.array = none) :
    getArrayWrite v .host w = getArrayWrite v .host (fresh w v x) := by
  have e := setArray_copy h hs hf hl none
  rw [ha] at e
  have hf' : ({ x with state := x.state + 2, owned := some w.next, array := some w.next } : Vec).free := by
    obtain ⟨h1, h2⟩ := hf
    exact ⟨by dsimp only; omega, h2⟩
  rw [(fresh_data w v hl).getArrayWrite hf']
  unfold getArrayWrite getArrayWriteRef
  simp only [M.bind_apply, getV_some h, Out.bind_ok, lockChecks_eq, if_pos hf, if_pos hl, ha, Option.isSome_none,
    Bool.false_eq_true, if_false, e]
  rw [getArrayCore_eq (x := { x with state := x.state + 2, owned := some w.next, array := some w.next }) (by simp)]
  simp only [if_true, Out.bind_ok]
  rw [bump_eq (x := { x with state := x.state + 2, owned := some w.next, array := some w.next }) (by simp)]
  rfl

theorem setValue_fresh (h : w.vecs v = some x) (hs : x.slots) (hf : x.free) (hl : 0 < x.len) (ha : x.array = none) (z : α) :
    setValue v z w = setValue v z (fresh w v x) := by
  have hf' : ({ x with state := x.state + 2, owned := some w.next, array := some w.next } : Vec).free := by
    obtain ⟨h1, h2⟩ := hf
    exact ⟨by dsimp only; omega, h2⟩
  unfold setValue
  simp only [M.bind_apply, getV_some h, Out.bind_ok, lockChecks_eq, if_pos hf, getArrayWrite_fresh h hs hf hl ha,
    getV_some (fresh_data w v hl).vec, if_pos hf']

theorem pointwiseMult_fresh {u x y : Vid} {vu vx vy : Vec} (h : w.vecs u = some vu) (hs : vu.slots) (hf : vu.free)
    (hl : 0 < vu.len) (ha : vu.array = none) (hxu : x ≠ u) (hyu : y ≠ u) (hx : w.vecs x = some vx) (hy : w.vecs y = some vy)
    (h1 : vu.len ≤ vx.len ∧ vu.len ≤ vy.len) (h2 : vu.parent = vx.parent ∧ vu.parent = vy.parent) (h3 : vx.valid)
    (h4 : vy.valid) : pointwiseMult u x y w = pointwiseMult u x y (fresh w u vu) := by
  have hx' : (fresh w u vu).vecs x = some vx := by simp [fresh, hxu, hx]
  have hy' : (fresh w u vu).vecs y = some vy := by simp [fresh, hyu, hy]
  unfold pointwiseMult
  simp only [M.bind_apply, getV_some h, getV_some hx, getV_some hy, getV_some (fresh_data w u hl).vec, getV_some hx',
    getV_some hy', Out.bind_ok, M.check_apply, if_pos h1, if_pos h2]
  simp only [Out.bind_ok, hasValid_eq hx, hasValid_eq hx', hasValid_eq hy, hasValid_eq hy', h3, h4, decide_true, if_true]
  have h5 : ¬ vu.len = 0 := by omega
  simp only [if_neg h5]
  unfold pmW
  simp only [M.bind_apply, hxu, hyu, or_self, if_false, getArrayWrite_fresh h hs hf hl ha]

/-- Running value of the loops of `CeedVectorNorm` on known values. -/
def normVal (t : NormType) (f : Nat → α) : Nat → α
  | 0 => 0
  | n + 1 => normStep t (normVal t f n) (f n)

theorem normLoop_eq {t : NormType} {n : Nat} (hb : w.heap a = some b) (hn : n ≤ b.len) :
    normLoop t (some a) n w = .ok w (normVal t b.val n) := by
  induction n with
  | zero => rfl
  | succ n ih =>
    unfold normLoop
    simp only [M.bind_apply, ih (by omega), Out.bind_ok, ld_eq hb (show n < b.len by omega), M.pure_apply]
    rfl

theorem norm_eq (h : Data w v x a b) (hr : x.state % 2 = 0) (sqrt : α → α) (t : NormType) :
    norm sqrt v t w = .ok w (if t = .two then sqrt (normVal t b.val x.len.toNat) else normVal t b.val x.len.toNat) := by
  unfold norm
  simp only [M.bind_apply, hasValid_eq h.vec, Out.bind_ok, h.valid, decide_true, M.check_apply, if_true, getV_some h.vec]
  rw [if_neg (by have := h.pos; omega)]
  simp only [M.bind_apply, h.getArrayRead hr, Out.bind_ok]
  rw [normLoop_eq (w := w.setVec v (some { x with readers := x.readers + 1 })) h.heap h.n]
  simp only [Out.bind_ok, restore_read, M.pure_apply]
  rw [setVec_self _ h.vec]

end

end Vector
end Verif
