import Verif.Vector.Specs

/-!
# Arithmetic calls keep track of accesses
-/

namespace Verif
namespace Vector

set_option linter.unusedSectionVars false

section
variable {α : Type _} [Zero α]
variable {w0 w : World α} {d l : Vid → Nat} {v : Vid} {x : Vec} {S : Prop}
variable {E : World α → Err → Prop}

/-- No accesses held by the call. -/
abbrev nul : Vid → Nat := fun _ => 0

theorem wp_ld {Q : World α → α → Prop} {i : Int} (ht : Trk w0 d l w) (h : w.vecs v = some x) (hS : S → MemOK w0)
    (ha : x.array.isSome) (hi : S → 0 ≤ i ∧ i < x.len) (hQ : ∀ z, Q w z) : M.wp S (ld x.array i) w Q E := by
  obtain ⟨a, ha⟩ := Option.isSome_iff_exists.1 ha
  unfold ld M.wp
  simp only [M.bind_apply, ha, getB]
  cases hb : w.heap a with
  | none =>
    simp only [Out.bind_ub]
    intro hs
    obtain ⟨b, hb', _⟩ := ht.mem (hS hs) h ha
    rw [hb] at hb'; cases hb'
  | some b =>
    simp only [Out.bind_ok]
    unfold Buf.rdI Buf.rd
    by_cases h0 : 0 ≤ i
    · by_cases h1 : i.toNat < b.len
      · simp only [if_pos h0, if_pos h1, M.lift_ok]
        exact hQ _
      · simp only [if_pos h0, if_neg h1, M.lift_ub]
        intro hs
        obtain ⟨b', hb', hl⟩ := ht.mem (hS hs) h ha
        rw [hb] at hb'; cases hb'
        have := hi hs
        omega
    · simp only [if_neg h0, M.lift_ub]
      intro hs
      have := hi hs
      omega

theorem wp_st {Q : World α → Unit → Prop} {i : Int} {z : α} (ht : Trk w0 d l w) (hw : WF w0) (h : w.vecs v = some x)
    (hS : S → MemOK w0) (ha : x.array.isSome) (hi : S → 0 ≤ i ∧ i < x.len)
    (hs : ∀ x0, w0.vecs v = some x0 → x0.free ∧ x0.state < x.state)
    (hQ : ∀ w', Trk w0 d l w' → w'.vecs = w.vecs → Q w' ()) : M.wp S (st x.array i z) w Q E := by
  obtain ⟨a, ha⟩ := Option.isSome_iff_exists.1 ha
  unfold st M.wp
  simp only [ha]
  cases hb : w.heap a with
  | none =>
    simp only
    intro hs
    obtain ⟨b, hb', _⟩ := ht.mem (hS hs) h ha
    rw [hb] at hb'; cases hb'
  | some b =>
    simp only
    unfold Buf.wrI Buf.wr
    by_cases h0 : 0 ≤ i
    · by_cases h1 : i.toNat < b.len
      · simp only [if_pos h0, if_pos h1]
        exact hQ _ (ht.write hw h ha hb rfl hs) rfl
      · simp only [if_pos h0, if_neg h1]
        intro hs
        obtain ⟨b', hb', hl⟩ := ht.mem (hS hs) h ha
        rw [hb] at hb'; cases hb'
        have := hi hs
        omega
    · simp only [if_neg h0]
      intro hs
      have := hi hs
      omega

/-- State of a vector locked by the call. -/
theorem Trk.locked (ht : Trk w0 d l w) (h : w.vecs v = some x) (hl : l v ≠ 0) :
    ∀ x0, w0.vecs v = some x0 → x0.free ∧ x0.state < x.state := by
  intro x0 h0
  have := (ht.vec v x0 x h0 h).odd hl
  exact ⟨this.2.2.1, this.2.2.2⟩

/-- Loop rule: the body keeps the accesses and the vector objects. -/
theorem wp_loopT {Q : World α → Unit → Prop} {n : Nat} {body : Nat → M (World α) Unit} (ht : Trk w0 d l w)
    (hb : ∀ i < n, ∀ w1, Trk w0 d l w1 → w1.vecs = w.vecs →
      M.wp S (body i) w1 (fun w' _ => Trk w0 d l w' ∧ w'.vecs = w.vecs) E)
    (hQ : ∀ w', Trk w0 d l w' → w'.vecs = w.vecs → Q w' ()) : M.wp S (M.loop n body) w Q E := by
  refine M.wp_mono (M.wp_loop (fun _ w' => Trk w0 d l w' ∧ w'.vecs = w.vecs) ⟨ht, rfl⟩ ?_) ?_ (fun _ _ h => h)
  · intro i hi s hs
    exact hb i hi s hs.1 hs.2
  · intro s _ h
    exact hQ s h.1 h.2

theorem strideCount_lt {start stop step : Int} (h : 0 < step) {k : Nat} (hk : k < strideCount start stop step) :
    start + step * k < stop := by
  unfold strideCount at hk
  have h1 : (k : Int) + 1 ≤ (stop - start + step - 1) / step := by omega
  have h2 := (Int.le_ediv_iff_mul_le h).1 h1
  have h3 : ((k : Int) + 1) * step = step * k + step := by
    rw [Int.add_mul, Int.one_mul, Int.mul_comm]
  omega

theorem wp_strideLoopT {Q : World α → Unit → Prop} {start stop step : Int} {body : Int → M (World α) Unit}
    (ht : Trk w0 d l w) (hS : S → start < stop → 0 < step)
    (hb : ∀ i, ∀ w1, Trk w0 d l w1 → w1.vecs = w.vecs → start ≤ i → i < stop →
      M.wp S (body i) w1 (fun w' _ => Trk w0 d l w' ∧ w'.vecs = w.vecs) E)
    (hQ : ∀ w', Trk w0 d l w' → w'.vecs = w.vecs → Q w' ()) : M.wp S (strideLoop start stop step body) w Q E := by
  unfold strideLoop
  refine M.wp_ite (fun h1 => M.wp_ite (fun h2 => ?_) (fun h2 => ?_)) (fun h1 => hQ w ht rfl)
  · refine wp_loopT ht ?_ hQ
    intro k hk w1 t1 v1
    refine hb _ w1 t1 v1 ?_ (strideCount_lt h2 hk)
    have : 0 ≤ step * (k : Int) := Int.mul_nonneg (by omega) (by omega)
    omega
  · exact fun hs => h2 (hS hs h1)

variable {Q : World α → Unit → Prop}

theorem wp_setValue {value : α} (hw : WF w) (hS : S → MemOK w ∧ ∃ x, w.vecs v = some x)
    (hQ : ∀ w', Trk w nul nul w' → Q w' ()) (hE : E w .access) : M.wp S (setValue v value) w Q E := by
  have t0 := Trk.refl hw
  unfold setValue
  rw [M.wp_bind]
  refine wp_getV (fun h => (hS h).2) (fun x h => ?_)
  rw [M.wp_bind]
  refine wp_lockChecks (fun hf => ?_) (fun _ => hE)
  rw [M.wp_bind]
  refine wp_getArrayWrite t0 hw h ?_ (fun _ => hE) (fun _ _ hm => absurd rfl hm)
  intro w1 x1 p _ _ hv hlen hsome hp _ t1
  have h1 : w1.vecs v = some x1 := by rw [hv]; simp
  rw [M.wp_bind]
  refine wp_loopT t1 ?_ ?_
  · intro i hi w2 t2 v2
    have hl : 0 < x.len := by omega
    have h2 : w2.vecs v = some x1 := by rw [v2, h1]
    have hpp : p = x1.array := by rw [hp]; unfold Vec.ptr; rw [if_pos (by omega)]
    subst hpp
    exact wp_st t2 hw h2 (fun s => (hS s).1) (hsome hl) (fun _ => by omega) (t2.locked h2 (by simp))
      (fun w' t' v' => ⟨t', by rw [v', v2]⟩)
  · intro w2 t2 v2
    refine wp_restoreArray t2 (v := v) (x := x1) (by rw [v2, h1]) (by simp) (fun t3 => hQ _ ?_)
    simpa using t3

theorem wp_setValueStrided {start stop step : Int} {value : α} (hw : WF w)
    (hS : S → MemOK w ∧ (∃ x, w.vecs v = some x) ∧ 0 ≤ start ∧ 0 < step)
    (hQ : ∀ w', Trk w nul nul w' → Q w' ()) (hE : ∀ e, E w e) :
    M.wp S (setValueStrided v start stop step value) w Q E := by
  have t0 := Trk.refl hw
  unfold setValueStrided
  rw [M.wp_bind]
  refine wp_getV (fun h => (hS h).2.1) (fun x h => ?_)
  rw [M.wp_bind]
  refine wp_lockChecks (fun hf => ?_) (fun _ => hE _)
  rw [M.wp_bind]
  refine M.wp_check (fun hc => ?_) (fun _ => hE _)
  refine M.wp_ite (fun _ => hQ w t0) (fun hl => ?_)
  have hl : 0 < x.len := by omega
  dsimp only
  rw [M.wp_bind]
  refine wp_getArray t0 h (fun hcw t1 => ?_) (fun e _ => hE e)
  have hsome := (hcw.2 hl).1
  rw [show x.ptr = ({ x with state := x.state + 1 } : Vec).array by unfold Vec.ptr; rw [if_pos hl]]
  rw [M.wp_bind]
  refine wp_strideLoopT t1 (fun s _ => (hS s).2.2.2) ?_ ?_
  · intro i w2 t2 v2 hi2 hi1
    have h2 : w2.vecs v = some { x with state := x.state + 1 } := by rw [v2]; simp
    refine wp_st t2 hw h2 (fun s => (hS s).1) hsome ?_ (t2.locked h2 (by simp))
      (fun w' t' v' => ⟨t', by rw [v', v2]⟩)
    intro s
    obtain ⟨_, _, s1, s2⟩ := hS s
    have hstop : i < x.len := by
      split at hi1
      · exact hi1
      · omega
    exact ⟨by omega, hstop⟩
  · intro w2 t2 v2
    refine wp_restoreArray t2 (v := v) (x := { x with state := x.state + 1 }) (by rw [v2]; simp) (by simp)
      (fun t3 => hQ _ ?_)
    simpa using t3

theorem wp_syncArray {m : Mem} (hw : WF w) (hS : S → ∃ x, w.vecs v = some x)
    (hQ : ∀ w', Trk w nul nul w' → Q w' ()) (hE : ∀ e, E w e) : M.wp S (syncArray v m) w Q E := by
  have t0 := Trk.refl hw
  unfold syncArray
  rw [M.wp_bind]
  refine wp_getV hS (fun x h => ?_)
  rw [M.wp_bind]
  refine M.wp_check (fun hc => ?_) (fun _ => hE _)
  refine M.wp_ite (fun _ => hQ w t0) (fun hl => ?_)
  rw [M.wp_bind]
  refine wp_getArrayRead t0 h (fun hcw t1 => ?_) (fun e _ => hE e)
  refine wp_restoreArrayRead t1 (v := v) (x := { x with readers := x.readers + 1 }) (by simp) (by simp)
    (fun t3 => hQ _ ?_)
  simpa using t3

theorem wp_copy {c : Vid} (hw : WF w)
    (hS : S → MemOK w ∧ (∃ x, w.vecs v = some x) ∧ (∃ y, w.vecs c = some y) ∧
      ∀ x y a, w.vecs v = some x → w.vecs c = some y → c ≠ v → x.array = some a → y.array ≠ some a)
    (hQ : ∀ w', Trk w nul nul w' → Q w' ()) (hE : ∀ e, E w e)
    (hL : ∀ w' y, w.vecs c = some y → (c = v ∨ ¬ y.free) → Trk w nul (inc nul v) w' → E w' .access) :
    M.wp S (copy v c) w Q E := by
  have t0 := Trk.refl hw
  unfold copy
  rw [M.wp_bind]
  refine wp_getV (fun s => (hS s).2.1) (fun x h => ?_)
  rw [M.wp_bind]
  refine wp_getV (fun s => (hS s).2.2.1) (fun y hy => ?_)
  rw [M.wp_bind]
  refine M.wp_check (fun hc => ?_) (fun _ => hE _)
  rw [M.wp_bind]
  refine wp_getArray t0 h (fun hcw t1 => ?_) (fun e _ => hE e)
  rw [M.wp_bind]
  by_cases hcv : c = v
  · subst hcv
    refine wp_setArrayCopy t1 hw (v := c) (x := { x with state := x.state + 1 }) (by simp) ?_ ?_ ?_ ?_
    · exact fun s _ => (hS s).1
    · intro s hf
      have := hcw.1.1
      have := hf.1
      simp at this
      omega
    · intro w2 x2 hf
      have := hcw.1.1
      have := hf.1
      simp at this
      omega
    · intro _
      exact hL _ x h (Or.inl rfl) t1
  · refine wp_setArrayCopy t1 hw (v := c) (x := y) (by simp [hcv, hy]) ?_ ?_ ?_ ?_
    · exact fun s _ => (hS s).1
    · intro s _ a ha hl
      have hx : x.array = some a := by
        unfold Vec.ptr at ha
        rwa [if_pos (by omega)] at ha
      obtain ⟨b, h1, h2⟩ := (hS s).1 v x a h hx
      exact ⟨b, h1, by omega, (hS s).2.2.2 x y a h hy hcv hx⟩
    · intro w2 y2 hf hv _ _ _ _ _ t2
      refine wp_restoreArray t2 (v := v) (x := { x with state := x.state + 1 }) ?_ (by simp) (fun t3 => hQ _ ?_)
      · rw [hv]; simp [Ne.symm hcv]
      · simpa using t3
    · intro hf
      exact hL _ y hy (Or.inr hf) t1

theorem wp_copyStrided {c : Vid} {start stop step : Int} (hw : WF w)
    (hS : S → MemOK w ∧ (∃ x, w.vecs v = some x) ∧ (∃ y, w.vecs c = some y) ∧ 0 < step)
    (hQ : ∀ w', Trk w nul nul w' → Q w' ()) (hE : ∀ e, E w e)
    (hL : ∀ w' y e, w.vecs c = some y → (c = v ∨ ¬ y.canWrite .host) → Trk w (inc nul v) nul w' → E w' e) :
    M.wp S (copyStrided v start stop step c) w Q E := by
  have t0 := Trk.refl hw
  unfold copyStrided
  rw [M.wp_bind]
  refine wp_getV (fun s => (hS s).2.1) (fun x h => ?_)
  rw [M.wp_bind]
  refine wp_getV (fun s => (hS s).2.2.1) (fun y hy => ?_)
  refine M.wp_ite (fun _ => hQ w t0) (fun hlen => ?_)
  dsimp only
  rw [M.wp_bind]
  refine M.wp_check (fun hc1 => ?_) (fun _ => hE _)
  rw [M.wp_bind]
  refine M.wp_check (fun hc2 => ?_) (fun _ => hE _)
  rw [M.wp_bind]
  refine wp_getArrayRead t0 h (fun hcr t1 => ?_) (fun e _ => hE e)
  rw [M.wp_bind]
  have hx : 0 < x.len := by omega
  have hyl : 0 < y.len := by omega
  by_cases hcv : c = v
  · subst hcv
    refine wp_getArray t1 (v := c) (x := { x with readers := x.readers + 1 }) (by simp) (fun hcw t2 => ?_) (fun e _ => ?_)
    · have := hcw.1.2
      simp at this
    · exact hL _ x e h (Or.inl rfl) t1
  · refine wp_getArray t1 (v := c) (x := y) (by simp [hcv, hy]) (fun hcw t2 => ?_) (fun e hcw => ?_)
    swap
    · exact hL _ y e hy (Or.inr hcw) t1
    rw [M.wp_bind]
    have hxs := (hcr.2 hx).1
    have hys := (hcw.2 hyl).1
    have hvx : ((w.setVec v (some { x with readers := x.readers + 1 })).setVec c
        (some { y with state := y.state + 1 })).vecs v = some { x with readers := x.readers + 1 } := by
      simp [Ne.symm hcv]
    have hvy : ((w.setVec v (some { x with readers := x.readers + 1 })).setVec c
        (some { y with state := y.state + 1 })).vecs c = some { y with state := y.state + 1 } := by
      simp
    rw [show x.ptr = ({ x with readers := x.readers + 1 } : Vec).array by unfold Vec.ptr; rw [if_pos hx],
      show y.ptr = ({ y with state := y.state + 1 } : Vec).array by unfold Vec.ptr; rw [if_pos hyl]]
    have hmin : ∀ i : Int, i < (if stop = -1 then (if x.len < y.len then x.len else y.len) else stop) →
        i < x.len ∧ i < y.len := by
      intro i hi
      split at hi
      · split at hi <;> omega
      · have := hc1.2
        split at this <;> omega
    refine wp_strideLoopT t2 (fun s _ => (hS s).2.2.2) ?_ ?_
    · intro i w3 t3 v3 hi1 hi2
      obtain ⟨l1, l2⟩ := hmin i hi2
      have h0 : 0 ≤ i := by omega
      rw [M.wp_bind]
      refine wp_ld t3 (by rw [v3, hvx]) (fun s => (hS s).1) hxs (fun _ => ⟨h0, l1⟩) (fun z => ?_)
      have h3 : w3.vecs c = some { y with state := y.state + 1 } := by rw [v3, hvy]
      exact wp_st t3 hw h3 (fun s => (hS s).1) hys (fun _ => ⟨h0, l2⟩) (t3.locked h3 (by simp))
        (fun w' t' v' => ⟨t', by rw [v', v3]⟩)
    · intro w3 t3 v3
      rw [M.wp_bind]
      refine wp_restoreArrayRead t3 (by rw [v3, hvx]) (by simp) (fun t4 => ?_)
      refine wp_restoreArray t4 (v := c) (x := { y with state := y.state + 1 }) ?_ (by simp) (fun t5 => hQ _ ?_)
      · rw [setVec_vecs, if_neg hcv, v3, hvy]
      · simpa using t5

end

section
variable {α : Type _} [Field α] [LinearOrder α]
variable {w : World α} {v : Vid} {S : Prop}
variable {E : World α → Err → Prop} {Q : World α → Unit → Prop}

theorem valid_some {x : Vec} (hv : decide x.valid = true) (hl : x.len ≠ 0) : x.array.isSome = true :=
  (of_decide_eq_true hv).resolve_left hl

theorem wp_scale {alpha : α} (hw : WF w) (hS : S → MemOK w ∧ ∃ x, w.vecs v = some x)
    (hQ : ∀ w', Trk w nul nul w' → Q w' ()) (hE : ∀ e, E w e) : M.wp S (scale v alpha) w Q E := by
  have t0 := Trk.refl hw
  unfold scale
  rw [M.wp_bind]
  refine wp_hasValid' (fun s => (hS s).2) (fun x h => ?_)
  rw [M.wp_bind]
  refine M.wp_check (fun hv => ?_) (fun _ => hE _)
  rw [M.wp_bind]
  refine M.wp_of_eq_ok (getV_some h) ?_
  refine M.wp_ite (fun _ => hQ w t0) (fun hl => ?_)
  have hsome := valid_some hv hl
  rw [M.wp_bind]
  refine wp_getArray t0 h (fun hcw t1 => ?_) (fun e _ => hE e)
  rw [M.wp_bind]
  refine wp_loopT t1 ?_ ?_
  · intro i hi w2 t2 v2
    have h2 : w2.vecs v = some { x with state := x.state + 1 } := by rw [v2]; simp
    rw [show x.ptr = ({ x with state := x.state + 1 } : Vec).array by unfold Vec.ptr; rw [if_pos (by omega)]]
    rw [M.wp_bind]
    refine wp_ld t2 h2 (fun s => (hS s).1) hsome (fun _ => by show 0 ≤ (i : Int) ∧ (i : Int) < x.len; omega) (fun z => ?_)
    exact wp_st t2 hw h2 (fun s => (hS s).1) hsome (fun _ => by show 0 ≤ (i : Int) ∧ (i : Int) < x.len; omega)
      (t2.locked h2 (by simp)) (fun w' t' v' => ⟨t', by rw [v', v2]⟩)
  · intro w2 t2 v2
    refine wp_restoreArray t2 (v := v) (x := { x with state := x.state + 1 }) (by rw [v2]; simp) (by simp)
      (fun t3 => hQ _ ?_)
    simpa using t3

theorem wp_reciprocal {eps : α} (hw : WF w) (hS : S → MemOK w ∧ ∃ x, w.vecs v = some x)
    (hQ : ∀ w', Trk w nul nul w' → Q w' ()) (hE : ∀ e, E w e) : M.wp S (reciprocal eps v) w Q E := by
  have t0 := Trk.refl hw
  unfold reciprocal
  rw [M.wp_bind]
  refine wp_hasValid' (fun s => (hS s).2) (fun x h => ?_)
  rw [M.wp_bind]
  refine M.wp_check (fun hv => ?_) (fun _ => hE _)
  rw [M.wp_bind]
  refine M.wp_of_eq_ok (getV_some h) ?_
  rw [M.wp_bind]
  refine M.wp_check (fun _ => ?_) (fun _ => hE _)
  refine M.wp_ite (fun _ => hQ w t0) (fun hl => ?_)
  have hsome := valid_some hv hl
  rw [M.wp_bind]
  refine wp_getArray t0 h (fun hcw t1 => ?_) (fun e _ => hE e)
  rw [M.wp_bind]
  refine wp_loopT t1 ?_ ?_
  · intro i hi w2 t2 v2
    have h2 : w2.vecs v = some { x with state := x.state + 1 } := by rw [v2]; simp
    rw [show x.ptr = ({ x with state := x.state + 1 } : Vec).array by unfold Vec.ptr; rw [if_pos (by omega)]]
    rw [M.wp_bind]
    refine wp_ld t2 h2 (fun s => (hS s).1) hsome (fun _ => by show 0 ≤ (i : Int) ∧ (i : Int) < x.len; omega) (fun z => ?_)
    refine M.wp_ite (fun _ => ?_) (fun _ => ⟨t2, v2⟩)
    exact wp_st t2 hw h2 (fun s => (hS s).1) hsome (fun _ => by show 0 ≤ (i : Int) ∧ (i : Int) < x.len; omega)
      (t2.locked h2 (by simp)) (fun w' t' v' => ⟨t', by rw [v', v2]⟩)
  · intro w2 t2 v2
    refine wp_restoreArray t2 (v := v) (x := { x with state := x.state + 1 }) (by rw [v2]; simp) (by simp)
      (fun t3 => hQ _ ?_)
    simpa using t3

theorem wp_normLoop {w0 w1 : World α} {d l : Vid → Nat} {x : Vec} {t : NormType} (ht : Trk w0 d l w1)
    (h : w1.vecs v = some x) (hS : S → MemOK w0) (ha : x.array.isSome) (n : Nat) (hn : (n : Int) ≤ x.len)
    {Q : World α → α → Prop} (hQ : ∀ z, Q w1 z) : M.wp S (normLoop t x.array n) w1 Q E := by
  induction n generalizing Q with
  | zero => exact hQ 0
  | succ n ih =>
    unfold normLoop
    rw [M.wp_bind]
    refine ih (by omega) (fun z => ?_)
    rw [M.wp_bind]
    exact wp_ld ht h hS ha (fun _ => by omega) (fun z => hQ _)

theorem wp_norm {sqrt : α → α} {t : NormType} {Q : World α → α → Prop} (hw : WF w)
    (hS : S → MemOK w ∧ ∃ x, w.vecs v = some x)
    (hQ : ∀ w' z, Trk w nul nul w' → Q w' z) (hE : ∀ e, E w e) : M.wp S (norm sqrt v t) w Q E := by
  have t0 := Trk.refl hw
  unfold norm
  rw [M.wp_bind]
  refine wp_hasValid' (fun s => (hS s).2) (fun x h => ?_)
  rw [M.wp_bind]
  refine M.wp_check (fun hv => ?_) (fun _ => hE _)
  rw [M.wp_bind]
  refine M.wp_of_eq_ok (getV_some h) ?_
  refine M.wp_ite (fun _ => hQ w _ t0) (fun hl => ?_)
  have hsome := valid_some hv hl
  rw [M.wp_bind]
  refine wp_getArrayRead t0 h (fun hcw t1 => ?_) (fun e _ => hE e)
  rw [M.wp_bind]
  have fin : ∀ z : α, M.wp S (do restoreArrayRead v; pure (if t = .two then sqrt z else z))
      (w.setVec v (some { x with readers := x.readers + 1 })) Q E := by
    intro z
    rw [M.wp_bind]
    refine wp_restoreArrayRead t1 (v := v) (x := { x with readers := x.readers + 1 }) (by simp) (by simp)
      (fun t3 => hQ _ _ ?_)
    simpa using t3
  by_cases hp : 0 < x.len
  · rw [show x.ptr = ({ x with readers := x.readers + 1 } : Vec).array by unfold Vec.ptr; rw [if_pos hp]]
    exact wp_normLoop (v := v) (x := { x with readers := x.readers + 1 }) t1 (by simp) (fun s => (hS s).1) hsome _
      (by show ((x.len.toNat : Nat) : Int) ≤ x.len; omega) fin
  · rw [show x.len.toNat = 0 by omega]
    exact fin 0

theorem wp_axp {x : Vid} {f : α → α → α} (hw : WF w)
    (hS : S → MemOK w ∧ (∃ y, w.vecs v = some y) ∧ ∃ y, w.vecs x = some y)
    (hQ : ∀ w', Trk w nul nul w' → Q w' ()) (hE : ∀ e, E w e)
    (hL : ∀ w' y e, w.vecs x = some y → ¬ y.canRead .host → Trk w nul (inc nul v) w' → E w' e) :
    M.wp S (axp v f x) w Q E := by
  have t0 := Trk.refl hw
  unfold axp
  rw [M.wp_bind]
  refine wp_getV (fun s => (hS s).2.1) (fun vy hy => ?_)
  rw [M.wp_bind]
  refine wp_getV (fun s => (hS s).2.2) (fun vx hx => ?_)
  rw [M.wp_bind]
  refine M.wp_check (fun hlen => ?_) (fun _ => hE _)
  rw [M.wp_bind]
  refine M.wp_check (fun hne => ?_) (fun _ => hE _)
  rw [M.wp_bind]
  refine wp_hasValid hx ?_
  rw [M.wp_bind]
  refine M.wp_check (fun hvx => ?_) (fun _ => hE _)
  rw [M.wp_bind]
  refine wp_hasValid hy ?_
  rw [M.wp_bind]
  refine M.wp_check (fun hvy => ?_) (fun _ => hE _)
  rw [M.wp_bind]
  refine M.wp_check (fun _ => ?_) (fun _ => hE _)
  refine M.wp_ite (fun _ => hQ w t0) (fun hl => ?_)
  have hys := valid_some hvy hl
  have hxs := valid_some hvx (by omega)
  rw [M.wp_bind]
  refine wp_getArray t0 hy (fun hcw t1 => ?_) (fun e _ => hE e)
  rw [M.wp_bind]
  refine wp_getArrayRead t1 (v := x) (x := vx) (by simp [hne, hx]) (fun hcr t2 => ?_) (fun e hcr => hL _ vx e hx hcr t1)
  rw [M.wp_bind]
  have hvx' : ((w.setVec v (some { vy with state := vy.state + 1 })).setVec x
      (some { vx with readers := vx.readers + 1 })).vecs x = some { vx with readers := vx.readers + 1 } := by simp
  have hvy' : ((w.setVec v (some { vy with state := vy.state + 1 })).setVec x
      (some { vx with readers := vx.readers + 1 })).vecs v = some { vy with state := vy.state + 1 } := by
    simp [Ne.symm hne]
  refine wp_loopT t2 ?_ ?_
  · intro i hi w3 t3 v3
    have h3x : w3.vecs x = some { vx with readers := vx.readers + 1 } := by rw [v3, hvx']
    have h3y : w3.vecs v = some { vy with state := vy.state + 1 } := by rw [v3, hvy']
    rw [show vx.ptr = ({ vx with readers := vx.readers + 1 } : Vec).array by unfold Vec.ptr; rw [if_pos (by omega)],
      show vy.ptr = ({ vy with state := vy.state + 1 } : Vec).array by unfold Vec.ptr; rw [if_pos (by omega)]]
    rw [M.wp_bind]
    refine wp_ld t3 h3x (fun s => (hS s).1) hxs (fun _ => by show 0 ≤ (i : Int) ∧ (i : Int) < vx.len; omega) (fun a => ?_)
    rw [M.wp_bind]
    refine wp_ld t3 h3y (fun s => (hS s).1) hys (fun _ => by show 0 ≤ (i : Int) ∧ (i : Int) < vy.len; omega) (fun b => ?_)
    exact wp_st t3 hw h3y (fun s => (hS s).1) hys (fun _ => by show 0 ≤ (i : Int) ∧ (i : Int) < vy.len; omega)
      (t3.locked h3y (by simp)) (fun w' t' v' => ⟨t', by rw [v', v3]⟩)
  · intro w3 t3 v3
    rw [M.wp_bind]
    refine wp_restoreArray t3 (v := v) (x := { vy with state := vy.state + 1 }) (by rw [v3, hvy']) (by simp) (fun t4 => ?_)
    refine wp_restoreArrayRead t4 (v := x) (x := { vx with readers := vx.readers + 1 }) ?_ (by simp) (fun t5 => hQ _ ?_)
    · rw [setVec_vecs, if_neg hne, v3, hvx']
    · simpa using t5

/-- The vector `u` has the array `p` of at least `n` entries. -/
def Has (w : World α) (u : Vid) (p : Option Addr) (n : Int) : Prop :=
  0 < n → ∃ U, w.vecs u = some U ∧ U.array = p ∧ U.array.isSome ∧ n ≤ U.len

theorem Has.setVec {w : World α} {u : Vid} {p : Option Addr} {n : Int} (h : Has w u p n) {v : Vid} {x x' : Vec}
    (hx : w.vecs v = some x) (ha : x'.array = x.array) (hl : x'.len = x.len) : Has (w.setVec v (some x')) u p n := by
  intro hn
  obtain ⟨U, h1, h2, h3, h4⟩ := h hn
  by_cases hu : u = v
  · subst hu
    rw [hx] at h1; cases h1
    exact ⟨x', by simp, by rw [ha, h2], by rw [ha]; exact h3, by rw [hl]; exact h4⟩
  · exact ⟨U, by simp [hu, h1], h2, h3, h4⟩

theorem wp_ldH {w0 w : World α} {d l : Vid → Nat} {Q : World α → α → Prop} {i : Nat} {n : Int} {p : Option Addr}
    (ht : Trk w0 d l w) (h : Has w v p n) (hS : S → MemOK w0) (hi : (i : Int) < n) (hQ : ∀ z, Q w z) :
    M.wp S (ld p i) w Q E := by
  obtain ⟨U, h1, rfl, h3, h4⟩ := h (by omega)
  exact wp_ld ht h1 hS h3 (fun _ => by omega) hQ

/-- Read access to `x`, also while other vectors are locked. -/
theorem wp_readH {w0 w1 : World α} {d l : Vid → Nat} {x : Vid} {vx : Vec} {n : Int} {Q : World α → Option Addr → Prop}
    (ht : Trk w0 d l w1) (hx : w1.vecs x = some vx) (hn : n ≤ vx.len)
    (hQ : ∀ w2 px, Trk w0 (inc d x) l w2 → Has w2 x px n → (∀ u p m, Has w1 u p m → Has w2 u p m) →
      w2.vecs = (w1.setVec x (some { vx with readers := vx.readers + 1 })).vecs → Q w2 px)
    (hE : ∀ e, ¬ vx.canRead .host → E w1 e) : M.wp S (getArrayRead x .host) w1 Q E := by
  refine wp_getArrayRead ht hx (fun hcr t2 => ?_) (fun e hcr => hE e hcr)
  refine hQ _ _ t2 ?_ ?_ rfl
  · intro h0
    exact ⟨{ vx with readers := vx.readers + 1 }, by simp, by unfold Vec.ptr; rw [if_pos (by omega)],
      (hcr.2 (by omega)).1, hn⟩
  · intro u p m h; exact h.setVec hx rfl rfl

theorem wp_pointwiseMult {x y : Vid} (hw : WF w)
    (hS : S → MemOK w ∧ (∃ z, w.vecs v = some z) ∧ (∃ z, w.vecs x = some z) ∧ ∃ z, w.vecs y = some z)
    (hQ : ∀ w', Trk w nul nul w' → Q w' ()) (hE : ∀ e, E w e)
    (hL : ∀ w' d zx zy e, w.vecs x = some zx → w.vecs y = some zy →
      (x ≠ v ∧ ¬ zx.canRead .host ∨ y ≠ v ∧ ¬ zy.canRead .host) → Trk w d (inc nul v) w' → E w' e) :
    M.wp S (pointwiseMult v x y) w Q E := by
  have t0 := Trk.refl hw
  unfold pointwiseMult
  rw [M.wp_bind]
  refine wp_getV (fun s => (hS s).2.1) (fun vw hv => ?_)
  rw [M.wp_bind]
  refine wp_getV (fun s => (hS s).2.2.1) (fun vx hx => ?_)
  rw [M.wp_bind]
  refine wp_getV (fun s => (hS s).2.2.2) (fun vy hy => ?_)
  rw [M.wp_bind]
  refine M.wp_check (fun hlen => ?_) (fun _ => hE _)
  rw [M.wp_bind]
  refine M.wp_check (fun _ => ?_) (fun _ => hE _)
  rw [M.wp_bind]
  refine wp_hasValid hx ?_
  rw [M.wp_bind]
  refine M.wp_check (fun hvx => ?_) (fun _ => hE _)
  rw [M.wp_bind]
  refine wp_hasValid hy ?_
  rw [M.wp_bind]
  refine M.wp_check (fun hvy => ?_) (fun _ => hE _)
  refine M.wp_ite (fun _ => hQ w t0) (fun hl => ?_)
  rw [M.wp_bind]
  -- everything after the access to the result
  have main : ∀ w1 W1 q, Trk w nul (inc nul v) w1 → w1.vecs = (w.setVec v (some W1)).vecs → W1.len = vw.len →
      (0 < vw.len → q = W1.array ∧ W1.array.isSome) →
      M.wp S (do
        let px ← pmX v x q
        let py ← pmY v x y q px
        M.loop vw.len.toNat (fun i => do
          let a ← ld px i
          let b ← ld py i
          st q i (a * b))
        if y ≠ v ∧ y ≠ x then restoreArrayRead y else pure ()
        if x ≠ v then restoreArrayRead x else pure ()
        restoreArray v) w1 Q E := by
    intro w1 W1 q t1 hv1 hW1 hq
    have g1 : w1.vecs v = some W1 := by rw [hv1]; simp
    have gne : ∀ u, u ≠ v → w1.vecs u = w.vecs u := by intro u hu; rw [hv1]; simp [hu]
    have H1 : Has w1 v q vw.len := fun hp => ⟨W1, g1, (hq hp).1.symm, (hq hp).2, by omega⟩
    -- what remains after the three accesses
    have fin : ∀ w3 d px py, Trk w d (inc nul v) w3 → Has w3 v q vw.len → Has w3 x px vw.len → Has w3 y py vw.len →
        d = (if y ≠ v ∧ y ≠ x then inc (if x ≠ v then inc nul x else nul) y else (if x ≠ v then inc nul x else nul)) →
        M.wp S (do
          M.loop vw.len.toNat (fun i => do
            let a ← ld px i
            let b ← ld py i
            st q i (a * b))
          if y ≠ v ∧ y ≠ x then restoreArrayRead y else pure ()
          if x ≠ v then restoreArrayRead x else pure ()
          restoreArray v) w3 Q E := by
      intro w3 d px py t3 Hv Hx Hy hd
      rw [M.wp_bind]
      refine wp_loopT t3 ?_ ?_
      · intro i hi w4 t4 v4
        have hp : 0 < vw.len := by omega
        have Hv4 : Has w4 v q vw.len := by unfold Has; rw [v4]; exact Hv
        have Hx4 : Has w4 x px vw.len := by unfold Has; rw [v4]; exact Hx
        have Hy4 : Has w4 y py vw.len := by unfold Has; rw [v4]; exact Hy
        rw [M.wp_bind]
        refine wp_ldH t4 Hx4 (fun s => (hS s).1) (by omega) (fun a => ?_)
        rw [M.wp_bind]
        refine wp_ldH t4 Hy4 (fun s => (hS s).1) (by omega) (fun b => ?_)
        obtain ⟨V, e1, e2, e3, e4⟩ := Hv4 hp
        subst e2
        exact wp_st t4 hw e1 (fun s => (hS s).1) e3 (fun _ => by omega)
          (t4.locked e1 (by simp)) (fun w' t' v' => ⟨t', by rw [v', v4]⟩)
      · intro w4 t4 v4
        subst hd
        have ex4 : ∃ X4, w4.vecs x = some X4 := by
          obtain ⟨X, hX, _⟩ := t4.get hx; exact ⟨X, hX⟩
        have ey4 : ∃ Y4, w4.vecs y = some Y4 := by
          obtain ⟨X, hX, _⟩ := t4.get hy; exact ⟨X, hX⟩
        obtain ⟨Y4, hY4⟩ := ey4
        -- the last two steps
        have last : ∀ w5, Trk w (if x ≠ v then inc nul x else nul) (inc nul v) w5 →
            M.wp S (do
              if x ≠ v then restoreArrayRead x else pure ()
              restoreArray v) w5 Q E := by
          intro w5 t5
          obtain ⟨V5, hV5, _⟩ := t5.get hv
          obtain ⟨X5, hX5, _⟩ := t5.get hx
          by_cases hxv : x ≠ v
          · rw [if_pos hxv] at t5
            simp only [if_pos hxv]
            rw [M.wp_bind]
            refine wp_restoreArrayRead t5 hX5 (by simp) (fun t6 => ?_)
            refine wp_restoreArray t6 (v := v) (x := V5) ?_ (by simp) (fun t7 => hQ _ ?_)
            · rw [setVec_vecs, if_neg (Ne.symm hxv), hV5]
            · simpa using t7
          · rw [if_neg hxv] at t5
            simp only [if_neg hxv]
            refine wp_restoreArray t5 hV5 (by simp) (fun t7 => hQ _ ?_)
            simpa using t7
        by_cases hyy : y ≠ v ∧ y ≠ x
        · rw [if_pos hyy] at t4
          simp only [if_pos hyy]
          rw [M.wp_bind]
          refine wp_restoreArrayRead t4 hY4 (by simp) (fun t5 => ?_)
          rw [dec_inc] at t5
          exact last _ t5
        · rw [if_neg hyy] at t4
          simp only [if_neg hyy]
          exact last _ t4
    -- access to the second factor
    have second : ∀ w2 px, Trk w (if x ≠ v then inc nul x else nul) (inc nul v) w2 → Has w2 v q vw.len →
        Has w2 x px vw.len → (y ≠ v ∧ y ≠ x → w2.vecs y = some vy) →
        M.wp S (do
          let py ← pmY v x y q px
          M.loop vw.len.toNat (fun i => do
            let a ← ld px i
            let b ← ld py i
            st q i (a * b))
          if y ≠ v ∧ y ≠ x then restoreArrayRead y else pure ()
          if x ≠ v then restoreArrayRead x else pure ()
          restoreArray v) w2 Q E := by
      intro w2 px t2 Hv Hx hy2
      rw [M.wp_bind]
      unfold pmY
      refine M.wp_ite (fun hyy => ?_) (fun hyy => M.wp_ite (fun hyx => ?_) (fun hyx => ?_))
      · refine wp_readH t2 (hy2 hyy) hlen.2 ?_ (fun e hcr => hL _ _ vx vy e hx hy (Or.inr ⟨hyy.1, hcr⟩) t2)
        intro w3 py t3 H3 keep _
        exact fin w3 _ px py t3 (keep _ _ _ Hv) (keep _ _ _ Hx) H3 (by rw [if_pos hyy])
      · subst hyx
        exact fin w2 _ px px t2 Hv Hx Hx (by rw [if_neg hyy])
      · have hyv : y = v := by
          by_contra h; exact hyy ⟨h, hyx⟩
        have hd : (if y ≠ v ∧ y ≠ x then inc (if x ≠ v then inc nul x else nul) y
          else (if x ≠ v then inc nul x else nul)) = (if x ≠ v then inc nul x else nul) := by rw [if_neg hyy]
        exact fin w2 _ px q t2 Hv Hx (by rw [hyv]; exact Hv) hd.symm
    rw [M.wp_bind]
    unfold pmX
    refine M.wp_ite (fun hxv => ?_) (fun hxv => ?_)
    · refine wp_readH t1 (vx := vx) (by rw [gne x hxv, hx]) hlen.1 ?_
        (fun e hcr => hL _ _ vx vy e hx hy (Or.inl ⟨hxv, hcr⟩) t1)
      intro w2 px t2 H2 keep hv2
      refine second w2 px (by rw [if_pos hxv]; exact t2) (keep _ _ _ H1) H2 ?_
      intro hyy
      rw [hv2, setVec_vecs, if_neg hyy.2, gne y hyy.1, hy]
    · have hxv' : x = v := by simpa using hxv
      refine second w1 q (by rw [if_neg hxv]; exact t1) H1 (by rw [hxv']; exact H1) ?_
      intro hyy
      rw [gne y hyy.1, hy]
  unfold pmW
  refine M.wp_ite (fun h => ?_) (fun h => ?_)
  · refine wp_getArray t0 hv (fun hcw t1 => ?_) (fun e _ => hE e)
    refine main _ _ _ t1 rfl rfl (fun hp => ⟨?_, (hcw.2 hp).1⟩)
    unfold Vec.ptr; rw [if_pos hp]
  · refine wp_getArrayWrite t0 hw hv ?_ (fun _ => hE _) (fun _ _ hm => absurd rfl hm)
    intro w1 x1 p _ _ hvv hlen1 hsome hp _ t1
    refine main w1 x1 p t1 hvv hlen1 (fun hp' => ⟨?_, hsome hp'⟩)
    rw [hp]; unfold Vec.ptr; rw [if_pos (by omega)]

end
end Vector
end Verif
