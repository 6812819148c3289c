import Verif.Vector.ArithProps

/-!
# C09: strided set and copy
-/

namespace Verif
namespace Vector

set_option linter.unusedSectionVars false
set_option linter.unusedSimpArgs false

section
variable {α : Type} [Field α] [LinearOrder α]

/-- The indices `start, start + step, ...` below `stop`. -/
def InWindow (start stop step i : Int) : Prop := ∃ k : Nat, i = start + step * k ∧ i < stop

/-- The stop bound that is meant: `-1` stands for the end. -/
def stopOf (stop n : Int) : Int := if stop = -1 then n else stop

variable {sqrt : α → α} {eps : α} {w w' : World α} {g : View} {v : Vid} {x : Vec} {a : Addr} {b : Buf α}

theorem lt_strideCount {start stop step : Int} (hs : 0 < step) (k : Nat) :
    k < strideCount start stop step ↔ start + step * k < stop := by
  unfold strideCount
  have h1 : step * ((stop - start + step - 1) / step) + (stop - start + step - 1) % step = stop - start + step - 1 :=
    Int.mul_ediv_add_emod _ _
  have h2 := Int.emod_nonneg (stop - start + step - 1) (by omega : step ≠ 0)
  have h3 := Int.emod_lt_of_pos (stop - start + step - 1) hs
  generalize hq : (stop - start + step - 1) / step = q at *
  generalize (stop - start + step - 1) % step = r at *
  constructor
  · intro h
    have h4 : (k : Int) + 1 ≤ q := by omega
    have h5 : step * (k + 1) ≤ step * q := Int.mul_le_mul_of_nonneg_left h4 (by omega)
    rw [mul_add] at h5
    omega
  · intro h
    by_contra hk
    have h4 : q ≤ (k : Int) := by omega
    have h5 : step * q ≤ step * k := Int.mul_le_mul_of_nonneg_left h4 (by omega)
    omega

/-- The indices written by the first `n` iterations. -/
def hit (start step : Int) (n : Nat) (i : Nat) : Prop := ∃ k < n, (i : Int) = start + step * (k : Nat)

open Classical in
/-- Contents of an array of which the entries of the first `n` iterations were replaced. -/
noncomputable def overS (b : Buf α) (start step : Int) (n : Nat) (f : Nat → α) : Buf α :=
  ⟨b.len, fun i => if hit start step n i then f i else b.val i⟩

theorem overS_zero (b : Buf α) (start step : Int) (f : Nat → α) : overS b start step 0 f = b := by simp [overS, hit]

theorem ld_eqI {i : Int} (hb : w.heap a = some b) (h0 : 0 ≤ i) (hi : i < b.len) : ld (some a) i w = .ok w (b.val i.toNat) :=
  ld_iff.2 ⟨b, hb, h0, hi, rfl⟩

theorem st_eqI {i : Int} (hb : w.heap a = some b) (h0 : 0 ≤ i) (hi : i < b.len) (z : α) :
    st (some a) i z w = .ok (w.setBlk a (some ⟨b.len, fun j => if j = i.toNat then z else b.val j⟩)) () := by
  have := st_eq (i := i.toNat) hb (by omega) z
  rwa [Int.toNat_of_nonneg h0] at this

theorem hit_succ {start step : Int} (hs : 0 ≤ start) (hst : 0 < step) (n j : Nat) :
    hit start step (n + 1) j ↔ j = (start + step * n).toNat ∨ hit start step n j := by
  have h0 : 0 ≤ step * (n : Int) := Int.mul_nonneg (by omega) (by omega)
  constructor
  · rintro ⟨k, hk, e⟩
    by_cases hkn : k = n
    · subst hkn; left; omega
    · right; exact ⟨k, by omega, e⟩
  · rintro (h | ⟨k, hk, e⟩)
    · exact ⟨n, by omega, by omega⟩
    · exact ⟨k, by omega, e⟩

/-- A strided loop of stores to one array. -/
theorem stride_loop {start stop step : Int} (hs : 0 ≤ start) (hst : 0 < step) (hb : w.heap a = some b) (hn : stop ≤ b.len)
    {f : Nat → α} {body : Int → M (World α) Unit}
    (h : ∀ k : Nat, start + step * k < stop → body (start + step * k) (w.setBlk a (some (overS b start step k f))) =
      st (some a) (start + step * k) (f (start + step * k).toNat) (w.setBlk a (some (overS b start step k f)))) :
    strideLoop start stop step body w =
      .ok (w.setBlk a (some (overS b start step (strideCount start stop step) f))) () := by
  unfold strideLoop
  by_cases h1 : start < stop
  · rw [if_pos h1, if_pos hst]
    refine M.loop_exact (fun k => w.setBlk a (some (overS b start step k f))) ?_ ?_
    · rw [overS_zero]; exact setBlk_self w hb
    · intro k hk
      have hk' := (lt_strideCount hst k).1 hk
      have h0 : 0 ≤ step * (k : Int) := Int.mul_nonneg (by omega) (by omega)
      rw [h k hk', st_eqI (b := overS b start step k f) (by simp) (by omega) (by show _ < (b.len : Int); omega), setBlk_setBlk]
      congr 3
      simp only [overS, Buf.mk.injEq, true_and]
      funext j
      rw [hit_succ hs hst]
      by_cases hj : j = (start + step * k).toNat
      · simp [hj]
      · by_cases hh : hit start step k j
        · simp [hj, hh]
        · simp [hj, hh]
  · rw [if_neg h1]
    have : strideCount start stop step = 0 := by
      by_contra hne
      have := (lt_strideCount (start := start) (stop := stop) hst 0).1 (by omega)
      simp at this
      omega
    rw [this, overS_zero, setBlk_self w hb]
    rfl

theorem hit_iff {start stop step : Int} (hst : 0 < step) (i : Nat) :
    hit start step (strideCount start stop step) i ↔ InWindow start stop step i := by
  constructor
  · rintro ⟨k, hk, e⟩
    exact ⟨k, e, by rw [e]; exact (lt_strideCount hst k).1 hk⟩
  · rintro ⟨k, e, hk⟩
    exact ⟨k, (lt_strideCount hst k).2 (by omega), e⟩

open Classical in
theorem overS_contents (h : Data w v x a b) {s : Nat} (hs : s % 2 = 0) {start stop step : Int} (hst : 0 < step) {f : Nat → α}
    {k F : Int → α} {n : Int} (hn : n ≤ x.len) (hc : Contents w v n k) (hF : ∀ i : Nat, InWindow start stop step i → f i = F i) :
    Contents ((w.setBlk a (some (overS b start step (strideCount start stop step) f))).setVec v (some { x with state := s }))
      v n (fun i => if InWindow start stop step i then F i else k i) := by
  have hd : Data ((w.setBlk a (some (overS b start step (strideCount start stop step) f))).setVec v (some { x with state := s }))
      v { x with state := s } a (overS b start step (strideCount start stop step) f) :=
    ⟨by simp, h.pos, h.arr, by simp, h.long⟩
  constructor
  · rw [canRead_iff hd.vec]
    exact ⟨hs, fun _ => ⟨by simp [h.arr], rfl⟩⟩
  · intro i h0 hin
    rw [hd.readable hs h0 (by dsimp only; omega)]
    have e := hc.val h (i := i.toNat) (by omega) (by omega)
    have hi : ((i.toNat : Nat) : Int) = i := Int.toNat_of_nonneg h0
    simp only [overS, hit_iff hst, hi, e]
    by_cases hw : InWindow start stop step i
    · have := hF i.toNat (by rw [hi]; exact hw)
      rw [if_pos hw, if_pos hw, this, hi]
    · rw [if_neg hw, if_neg hw]

open Classical in
/-- C09, `CeedVectorSetValueStrided`, for `start ≥ 0` and `step > 0` (which the call does not check): exactly the entries in
the window change. A window with `stop` beyond the length is refused. -/
theorem C09_setValueStrided_partial (h : Reach Legal True sqrt eps w g) (hn : 0 < g.len v) (hw : CanWrite w v) {f : Int → α}
    (hc : Contents w v (g.len v) f) {start stop step : Int} (hs : 0 ≤ start) (hst : 0 < step) (z : α) :
    (-1 ≤ stop ∧ stop ≤ g.len v → ∃ w', exec sqrt eps (.setValueStrided v start stop step z) w = .ok w' .unit ∧
      Contents w' v (g.len v) (fun i => if InWindow start (stopOf stop (g.len v)) step i then z else f i) ∧
      OnlyChanges g w w' v (g.len v)) ∧
    (¬ (-1 ≤ stop ∧ stop ≤ g.len v) → exec sqrt eps (.setValueStrided v start stop step z) w = .err w .access) := by
  have hi := inv_reach h
  obtain ⟨x, hx, hf, ha⟩ := canWrite_vec hw
  have hlen := (hi.base.vec v x hx).len
  obtain ⟨a, b, hd⟩ := hi.data hx (by omega) (ha (by omega)).1
  have hlong := hd.long
  simp only [exec, setValueStrided, M.bind_apply, getV_some hx, Out.bind_ok, lockChecks_eq, if_pos hf, M.check_apply]
  rw [← hlen]
  constructor
  · intro hstop
    rw [if_pos hstop]
    simp only [Out.bind_ok]
    rw [if_neg (by omega)]
    have hsd : stopOf stop (g.len v) ≤ b.len := by unfold stopOf; split <;> omega
    simp only [M.bind_apply, hd.getArray hf, Out.bind_ok]
    rw [show (if stop = -1 then g.len v else stop) = stopOf stop (g.len v) from rfl]
    rw [stride_loop (w := w.setVec v (some { x with state := x.state + 1 })) (f := fun _ => z) hs hst hd.heap hsd
      (fun k hk => rfl)]
    simp only [Out.bind_ok, setVec_setBlk]
    rw [restore_written _ v x hf]
    refine ⟨_, rfl, ?_, ?_⟩
    · exact overS_contents hd (by have := hf.1; omega) hst (by omega) hc (fun _ _ => rfl)
    · refine blk_only (b' := overS b start step (strideCount start (stopOf stop (g.len v)) step) fun _ => z) (s := x.state + 2)
        hi hd (by have := hf.1; omega) rfl ?_
      intro i hin
      simp only [overS, hit_iff hst]
      rw [if_neg]
      rintro ⟨k, e, hlt⟩
      unfold stopOf at hlt
      split at hlt <;> omega
  · intro hstop
    rw [if_neg hstop]
    rfl

open Classical in
/-- C09, `CeedVectorCopyStrided`, for `step > 0` (which the call does not check): exactly the entries in the window change,
to those of the first vector. A window beyond one of the lengths, or below zero, is refused. -/
theorem C09_copyStrided_partial (h : Reach Legal True sqrt eps w g) {u c : Vid} (hne : c ≠ u) (hnu : 0 < g.len u)
    (hnc : 0 < g.len c) (hw : CanWrite w c) {f k : Int → α} (hu : Contents w u (g.len u) f) (hc : Contents w c (g.len c) k)
    {start stop step : Int} (hst : 0 < step) :
    ((-1 ≤ stop ∧ stop ≤ min (g.len u) (g.len c)) ∧ (0 ≤ start ∧ start ≤ min (g.len u) (g.len c) ∧ (start ≤ stop ∨ stop = -1)) →
      ∃ w', exec sqrt eps (.copyStrided u start stop step c) w = .ok w' .unit ∧
      Contents w' c (g.len c) (fun i => if InWindow start (stopOf stop (min (g.len u) (g.len c))) step i then f i else k i) ∧
      OnlyChanges g w w' c (g.len c)) ∧
    (¬ ((-1 ≤ stop ∧ stop ≤ min (g.len u) (g.len c)) ∧
      (0 ≤ start ∧ start ≤ min (g.len u) (g.len c) ∧ (start ≤ stop ∨ stop = -1))) →
      exec sqrt eps (.copyStrided u start stop step c) w = .err w .access) := by
  have hi := inv_reach h
  obtain ⟨y, hy, hf, ha⟩ := canWrite_vec hw
  obtain ⟨x, hx, hr, hax⟩ := canRead_vec hu.1
  have hlc := (hi.base.vec c y hy).len
  have hlu := (hi.base.vec u x hx).len
  obtain ⟨aq, bq, hd⟩ := hi.data hy (by omega) (ha (by omega)).1
  obtain ⟨ap, bp, hdp⟩ := hi.data hx (by omega) (hax (by omega)).1
  have hlong := hd.long
  have hlongp := hdp.long
  have hmin : (if x.len < y.len then x.len else y.len) = min (g.len u) (g.len c) := by
    rw [hlu, hlc]; split <;> omega
  have hm1 : min (g.len u) (g.len c) ≤ g.len u := min_le_left _ _
  have hm2 : min (g.len u) (g.len c) ≤ g.len c := min_le_right _ _
  simp only [exec, copyStrided, M.bind_apply, getV_some hx, getV_some hy, Out.bind_ok]
  rw [if_neg (by omega)]
  simp only [M.bind_apply, M.check_apply, hmin]
  generalize min (g.len u) (g.len c) = m at *
  constructor
  · rintro ⟨h1, h2⟩
    rw [if_pos h1]
    simp only [Out.bind_ok]
    rw [if_pos h2]
    have hd' : Data (w.setVec u (some { x with readers := x.readers + 1 })) c y aq bq :=
      ⟨by simp [hne, hy], hd.pos, hd.arr, hd.heap, hd.long⟩
    simp only [Out.bind_ok, hdp.getArrayRead hr, hd'.getArray hf]
    rw [show (if stop = -1 then m else stop) = stopOf stop m from rfl]
    have hsd : stopOf stop m ≤ bq.len := by unfold stopOf; split <;> omega
    have hsp : stopOf stop m ≤ bp.len := by unfold stopOf; split <;> omega
    have hap : ap ≠ aq := fun e => hi.distinct u c x y ap (Ne.symm hne) hx hy hdp.arr (by rw [e]; exact hd.arr)
    rw [stride_loop (w := (w.setVec u (some { x with readers := x.readers + 1 })).setVec c (some { y with state := y.state + 1 }))
      (f := bp.val) h2.1 hst hd.heap hsd]
    · simp only [Out.bind_ok]
      rw [setVec_setBlk, setVec_setBlk, setVec_comm _ (Ne.symm hne), restore_read]
      simp only [Out.bind_ok]
      rw [setVec_self (v := u) (x := some x) _ (by simp [Ne.symm hne, hx]), restore_written _ c y hf]
      refine ⟨_, rfl, ?_, ?_⟩
      · refine overS_contents hd (by have := hf.1; omega) hst (by omega) hc (fun i hw => ?_)
        obtain ⟨j, e, hlt⟩ := hw
        refine hu.val hdp ?_ (by omega)
        unfold stopOf at hlt
        split at hlt <;> omega
      · refine blk_only (b' := overS bq start step (strideCount start (stopOf stop m) step) bp.val) (s := y.state + 2)
          hi hd (by have := hf.1; omega) rfl ?_
        intro i hin
        simp only [overS, hit_iff hst]
        rw [if_neg]
        rintro ⟨k, e, hlt⟩
        unfold stopOf at hlt
        split at hlt <;> omega
    · intro j hj
      have h0 : 0 ≤ step * (j : Int) := Int.mul_nonneg (by omega) (by omega)
      simp only [M.bind_apply]
      rw [ld_eqI (b := bp) (by simp [hap, hdp.heap]) (by omega) (by omega)]
      rfl
  · intro h1
    by_cases h2 : -1 ≤ stop ∧ stop ≤ m
    · rw [if_pos h2]
      simp only [Out.bind_ok]
      rw [if_neg (fun h3 => h1 ⟨h2, h3⟩)]
      rfl
    · rw [if_neg h2]
      rfl

end

section Witness

/-- C09, a case: a legal program with two vectors that have data. -/
example : ∃ (w : World ℚ) (g : View), Reach Legal True id 0 w g ∧ g.len 0 = 3 ∧ g.len 1 = 4 ∧ CanWrite w 1 ∧ CanRead w 0 ∧
    CanRead w 1 :=
  ⟨_, _, (((Reach.start.ok (c := .create 0 3) trivial rfl).ok (c := .create 0 4) trivial rfl).ok
    (c := .setArray 0 .host .copyValues none) ⟨Nat.le_refl 1, by simp⟩ rfl).ok (c := .setArray 1 .host .copyValues none)
    ⟨Nat.le_refl 1, by simp⟩ rfl, rfl, rfl, ⟨_, _, rfl⟩, ⟨_, _, rfl⟩, ⟨_, _, rfl⟩⟩

/-- C09 fails: `CeedVectorSetValueStrided` accepts a negative start and writes before the array. -/
theorem C09_negative_start_witness : ∃ (w : World ℚ) (g : View), R w g ∧ g.len 0 = 3 ∧ CanWrite w 0 ∧
    exec id 0 (.setValueStrided 0 (-1) 2 1 7) w = .ub :=
  ⟨_, _, (Reach.start.ok (c := .create 0 3) trivial rfl).ok (c := .setArray 0 .host .copyValues none) trivial rfl, rfl,
    ⟨_, _, rfl⟩, rfl⟩

/-- C09 fails: `CeedVectorCopyStrided` and `CeedVectorSetValueStrided` accept a zero step (an endless loop). -/
theorem C09_zero_step_witness : ∃ (w : World ℚ) (g : View), R w g ∧ CanWrite w 0 ∧ CanWrite w 1 ∧
    exec id 0 (.setValueStrided 0 0 2 0 7) w = .ub ∧ exec id 0 (.copyStrided 0 0 2 0 1) w = .ub :=
  ⟨_, _, (((Reach.start.ok (c := .create 0 3) trivial rfl).ok (c := .create 0 4) trivial rfl).ok
    (c := .setArray 0 .host .copyValues none) trivial rfl).ok (c := .setArray 1 .host .copyValues none)
    trivial rfl, ⟨_, _, rfl⟩, ⟨_, _, rfl⟩, rfl, rfl⟩

end Witness

end Vector
end Verif
