import Verif.CheckQF.Lemmas

/-!
# QFunction application of the checking backend: outputs and reports
-/

namespace Verif
namespace CheckQF

variable {S T : Type}

/-- The context with access for the user function. -/
def gx (writable : Bool) (c : Cx T) : Cx T :=
  if writable then { c with state := c.state + 1, wr := c.data } else { c with readers := 1, ro := c.data }

/-- The context after the user function. -/
def sx (writable : Bool) (t : Option T) (c : Cx T) : Cx T := if writable then { c with wr := t } else { c with ro := t }

theorem getCtx_spec (b : Bool) (w : W S T) (h : ∀ c, w.ctx = some c → c.Idle) :
    getCtx b w = .ok { w with ctx := w.ctx.map (gx b) } (ctxData w) := by
  cases hc : w.ctx with
  | none =>
    cases w
    simp_all [getCtx, getX, ctxData]
  | some c =>
    obtain ⟨h1, h2, h3, h4, h5⟩ := h c hc
    cases b <;> simp [getCtx, getX, ctxData, hc, h1, h2, h3, h5, setX, gx]

theorem storeCtx_spec (b : Bool) (t : Option T) (w : W S T) :
    storeCtx b t w = .ok { w with ctx := w.ctx.map (sx b t) } () := by
  cases hc : w.ctx with
  | none =>
    cases w
    simp_all [storeCtx, getX]
  | some c => cases b <;> simp [storeCtx, getX, hc, setX, sx]

variable [DecidableEq S] [DecidableEq T]

theorem wv_len (bad : S) (x : Vec S) : (wv bad x).len = x.len := by unfold wv; split <;> rfl

/-- Up to the user function. -/
theorem apply_start (bad : S) (nan : S → Bool) {w : W S T} {q : QF S T} {Q : Nat} {us vs : List Nat} {r : UserOut S T}
    (hr : Ready w q Q us vs) (hu : Runs bad w q Q us vs r) :
    apply bad nan q Q us vs w = finish nan q Q us vs r
      (mkR ⟨w.vec, w.ctx.map (gx q.writable)⟩ (fun u => if u ∈ vs then wv bad (w.vec u) else w.vec u) fun u => us.count u) := by
  have hv : q.vecLen ≠ 0 := Nat.pos_iff_ne_zero.1 hr.vecLen
  let w1 : W S T := ⟨w.vec, w.ctx.map (gx q.writable)⟩
  have e1 : getCtx q.writable w = .ok (mkR w1 w.vec fun _ => 0) (ctxData w) := by
    rw [getCtx_spec _ _ hr.ctx]
    rfl
  have e2 := getReads_rd bad w1 w.vec us hr.ins fun _ => 0
  simp only [Nat.zero_add] at e2
  have e3 := getWrites_spec bad vs hr.nodup (mkR w1 w.vec fun u => us.count u) (by
    intro v hv
    obtain ⟨⟨k1, k2, _⟩, k3⟩ := hr.outs v hv
    have : us.count v = 0 := List.count_eq_zero.2 k3
    simp only [mkR, rd, this, if_true]
    exact ⟨k1, k2⟩)
  have e4 : (⟨fun u => if u ∈ vs then wv bad ((mkR w1 w.vec fun u => us.count u).vec u) else
      (mkR w1 w.vec fun u => us.count u).vec u, (mkR w1 w.vec fun u => us.count u).ctx⟩ : W S T) =
      mkR w1 (fun u => if u ∈ vs then wv bad (w.vec u) else w.vec u) fun u => us.count u := by
    unfold mkR
    congr 1
    funext u
    by_cases h : u ∈ vs
    · have : us.count u = 0 := List.count_eq_zero.2 (hr.outs u h).2
      simp [h, rd, this]
    · simp [h]
  rw [e4] at e3
  have e5 : (us.map fun v => val bad (w.vec v)) = us.map (inVal bad w) := rfl
  rw [e5] at e2
  simp only [apply, hv, if_false, M.bind_apply, M.pure_apply, Out.bind_ok, hr.points, M.check_true, e1, e2, e3, hu.1]
  rfl

theorem val_ro {bad : S} {x : Vec S} {g : Nat → S} (ha : x.len = 0 ∨ x.arr.isSome) (hg : ∀ i < x.len, g i = val bad x i) :
    (if x.len = 0 then none else x.arr).map (mask x.len g) = if x.len = 0 then none else x.arr := by
  by_cases hl : x.len = 0
  · simp [hl]
  · obtain ⟨a, haa⟩ : ∃ a, x.arr = some a := by
      rcases ha with h | h
      · exact absurd h hl
      · exact Option.isSome_iff_exists.1 h
    simp only [hl, if_false, haa, Option.map_some, Option.some.injEq]
    funext i
    unfold mask
    by_cases hi : i < x.len
    · rw [if_pos hi, hg i hi]
      simp [val, hl, haa]
    · rw [if_neg hi]

/-- Up to the context. -/
theorem apply_mid (bad : S) (nan : S → Bool) {w : W S T} {q : QF S T} {Q : Nat} {us vs : List Nat} {r : UserOut S T}
    (hr : Ready w q Q us vs) (hu : Runs bad w q Q us vs r)
    (hi : List.Forall₂ (fun v g => ∀ i < (w.vec v).len, g i = inVal bad w v i) us r.ins) :
    (AllSet nan q Q r ∧ ∃ w5, apply bad nan q Q us vs w = restoreCtx q.writable w5 ∧
      w5.ctx = (w.ctx.map (gx q.writable)).map (sx q.writable r.ctx) ∧ (∀ u, u ∉ vs → w5.vec u = w.vec u) ∧
      List.Forall₂ (fun v g => w5.vec v = done (sw (wv bad (w.vec v)) g)) vs r.outs) ∨
    (¬ AllSet nan q Q r ∧ ∃ w', apply bad nan q Q us vs w = .err w' .backend) := by
  rw [apply_start bad nan hr hu]
  let X : Nat → Vec S := fun u => if u ∈ vs then wv bad (w.vec u) else w.vec u
  let w2 : W S T := mkR ⟨w.vec, (w.ctx.map (gx q.writable)).map (sx q.writable r.ctx)⟩ X fun u => us.count u
  have hus : ∀ v ∈ us, v ∉ vs := fun v h h' => (hr.outs v h').2 h
  have e1 : storeCtx q.writable r.ctx (mkR ⟨w.vec, w.ctx.map (gx q.writable)⟩ X fun u => us.count u) = .ok w2 () := by
    rw [storeCtx_spec]
    rfl
  have e2 : storeIns us r.ins w2 = .ok w2 () := by
    refine storeIns_same _ _ _ (forall₂_mem hi fun v hv g hg => ?_)
    have hc : us.count v ≠ 0 := fun h => (List.count_eq_zero.1 h) hv
    have hX : w2.vec v = { w.vec v with readers := us.count v, ro := if (w.vec v).len = 0 then none else (w.vec v).arr } := by
      show rd (X v) (us.count v) = _
      simp [rd, hc, X, hus v hv]
    rw [hX]
    exact val_ro (hr.ins v hv).2 hg
  obtain ⟨w3, s1, s2, s3, s4⟩ := storeOuts_spec vs r.outs hr.nodup hu.2 w2
  have hw2 : ∀ v ∈ vs, w2.vec v = wv bad (w.vec v) := by
    intro v hv
    show rd (X v) (us.count v) = _
    have : us.count v = 0 := List.count_eq_zero.2 (hr.outs v hv).2
    simp [rd, this, X, hv]
  have s4' := forall₂_mem (R' := fun v g => w3.vec v = sw (wv bad (w.vec v)) g) s4 (by
    intro v hv g hg
    rw [hg, hw2 v hv])
  let X' : Nat → Vec S := fun u => if u ∈ vs then w3.vec u else w.vec u
  have hw3 : w3 = mkR w3 X' fun u => us.count u := by
    cases hw : w3 with
    | mk vec ctx =>
      unfold mkR
      congr 1
      funext u
      by_cases h : u ∈ vs
      · have : us.count u = 0 := List.count_eq_zero.2 (hr.outs u h).2
        simp [rd, this, X', h, hw]
      · have := s3 u h
        rw [hw] at this
        simp only at this
        rw [this]
        show rd (X u) (us.count u) = _
        simp [X, X', h]
  have s5 : restoreReads us w3 = .ok (mkR w3 X' fun _ => 0) () := by
    have := restoreReads_rd w3 X' us (fun v hv => by
      simp only [X', hus v hv, if_false]
      exact hr.ins v hv) fun _ => 0
    simp only [Nat.zero_add] at this
    rw [← hw3] at this
    exact this
  have hX' : ∀ u, (mkR w3 X' fun _ => 0).vec u = X' u := fun u => rfl
  have hsz : List.Forall₂ (fun n v => n * Q ≤ ((mkR w3 X' fun _ => 0).vec v).len) q.sizes vs := by
    have h1 := List.forall₂_iff_get.1 hr.sizes
    have h2 := List.forall₂_iff_get.1 s4'
    refine List.forall₂_iff_get.2 ⟨h1.1, fun i hi hi' => ?_⟩
    have hm : vs.get ⟨i, hi'⟩ ∈ vs := List.get_mem ..
    rw [hX']
    simp only [X', hm, if_true]
    have := h2.2 i hi' (by rw [← h2.1]; exact hi')
    rw [this, show (sw (wv bad (w.vec (vs.get ⟨i, hi'⟩))) (r.outs.get ⟨i, by rw [← h2.1]; exact hi'⟩)).len =
      (wv bad (w.vec (vs.get ⟨i, hi'⟩))).len from rfl, wv_len]
    exact h1.2 i hi hi'
  have hout := forall₂_mem (R' := fun v g => ((mkR w3 X' fun _ => 0).vec v).state % 2 = 1 ∧
      (((mkR w3 X' fun _ => 0).vec v).len = 0 ∧ ((mkR w3 X' fun _ => 0).vec v).wr = none ∨
      ((mkR w3 X' fun _ => 0).vec v).len ≠ 0 ∧ ∃ h, ((mkR w3 X' fun _ => 0).vec v).wr = some h ∧
        ∀ i < ((mkR w3 X' fun _ => 0).vec v).len, h i = g i)) s4' (by
    intro v hv g hg
    obtain ⟨⟨k1, k2, k3, k4⟩, _⟩ := hr.outs v hv
    rw [hX']
    simp only [X', hv, if_true]
    rw [hg]
    by_cases hl : (w.vec v).len = 0
    · simp [sw, wv, hl, k4]
      omega
    · simp only [sw, wv, hl, if_false, Option.map_some]
      refine ⟨by omega, Or.inr ⟨by first | exact hl | exact not_false, _, rfl, fun i hi => ?_⟩⟩
      simp [mask, hi])
  rcases checkOuts_spec nan Q q.sizes vs r.outs hr.nodup _ hsz hout with ⟨c1, w5, c2, c3, c4, c5⟩ | ⟨c1, w5, c2⟩
  · refine Or.inl ⟨c1, w5, ?_, ?_, ?_, ?_⟩
    · show finish nan q Q us vs r (mkR ⟨w.vec, w.ctx.map (gx q.writable)⟩ X fun u => us.count u) = _
      simp only [finish, M.bind_apply, e1, e2, s1, s5, c2, Out.bind_ok]
    · rw [c3]
      exact s2
    · intro u hu'
      rw [c4 u hu', hX']
      simp [X', hu']
    · refine forall₂_mem s4' fun v hv g hg => ?_
      rw [c5 v hv, hX']
      simp only [X', hv, if_true]
      rw [hg]
  · refine Or.inr ⟨c1, w5, ?_⟩
    show finish nan q Q us vs r (mkR ⟨w.vec, w.ctx.map (gx q.writable)⟩ X fun u => us.count u) = _
    simp only [finish, M.bind_apply, e1, e2, s1, s5, c2, Out.bind_ok, Out.bind_err]

/-- **C78**: a user function that leaves alone what it should only read and sets every entry of its outputs is applied: the
outputs hold what it has written, whatever the vectors held before, nothing else changes, and all access is given back. -/
theorem C78_applied_partial (bad : S) (nan : S → Bool) {w : W S T} {q : QF S T} {Q : Nat} {us vs : List Nat} {r : UserOut S T}
    (hr : Ready w q Q us vs) (hu : Runs bad w q Q us vs r) (ho : ReadsOnly bad w q us r) (ha : AllSet nan q Q r) :
    ∃ w', apply bad nan q Q us vs w = .ok w' () ∧ Applied w w' q vs r := by
  rcases apply_mid bad nan hr hu ho.ins with ⟨_, w5, h1, h2, h3, h4⟩ | ⟨h, _⟩
  · have houts : ∀ w' : W S T, w'.vec = w5.vec → List.Forall₂ (fun v g => (w'.vec v).Idle ∧ (w'.vec v).len = (w.vec v).len ∧
        (w'.vec v).Has g ∧ (w'.vec v).state = (w.vec v).state + 2) vs r.outs := by
      intro w' hw
      refine forall₂_mem h4 fun v hv g hg => ?_
      obtain ⟨⟨k1, k2, k3, k4⟩, _⟩ := hr.outs v hv
      rw [hw, hg]
      by_cases hl : (w.vec v).len = 0
      · simp [sw, wv, hl, k4, done, Vec.Idle, Vec.Has, k2, k3]
        omega
      · simp only [sw, wv, hl, if_false, Option.map_some, done, Vec.Idle, Vec.Has]
        exact ⟨⟨by omega, k2, k3, trivial⟩, trivial, Or.inr ⟨_, rfl, fun i hi => by simp [mask, hi]⟩, trivial⟩
    cases hc : w.ctx with
    | none =>
      rw [hc] at h2
      refine ⟨w5, ?_, houts _ rfl, h3, fun c h => (by rw [hc] at h; cases h), fun _ => h2⟩
      rw [h1]
      simp only [restoreCtx, getX, M.bind_apply, Out.bind_ok, h2, Option.map_none, M.pure_apply]
    | some c =>
      rw [hc] at h2
      simp only [Option.map_some] at h2
      obtain ⟨k1, k2, k3, k4, k5⟩ := hr.ctx c hc
      cases hb : q.writable with
      | true =>
        rw [hb] at h2 h1
        have hst : (c.state + 1) % 2 = 1 := by omega
        refine ⟨{ w5 with ctx := some { c with state := c.state + 1 + 1, data := r.ctx, wr := none } }, ?_, houts _ rfl, h3, ?_,
          fun h => (by rw [hc] at h; cases h)⟩
        · rw [h1]
          simp [restoreCtx, getX, h2, gx, sx, hst, setX]
        · intro c' hc'
          rw [hc] at hc'
          cases hc'
          have hv := ho.valid (by rw [hc]; rfl)
          exact ⟨_, rfl, ⟨by show (c.state + 1 + 1) % 2 = 0; omega, k2, k3, rfl, hv⟩, by simp [hb]⟩
      | false =>
        rw [hb] at h2 h1
        have hd : r.ctx = c.data := by
          rw [ho.ctx hb, ctxData, hc]
          rfl
        refine ⟨{ w5 with ctx := some { c with readers := 0, ro := none } }, ?_, houts _ rfl, h3, ?_,
          fun h => (by rw [hc] at h; cases h)⟩
        · rw [h1]
          simp [restoreCtx, getX, h2, gx, sx, setX, hd]
        · intro c' hc'
          rw [hc] at hc'
          cases hc'
          exact ⟨_, rfl, ⟨k1, rfl, rfl, k4, k5⟩, by simp [hb]⟩
  · exact absurd ha h

/-- **C78**: if an entry of an output is not set, an error is reported. -/
theorem C78_reports_partial (bad : S) (nan : S → Bool) {w : W S T} {q : QF S T} {Q : Nat} {us vs : List Nat} {r : UserOut S T}
    (hr : Ready w q Q us vs) (hu : Runs bad w q Q us vs r)
    (hi : List.Forall₂ (fun v g => ∀ i < (w.vec v).len, g i = inVal bad w v i) us r.ins) (ha : ¬ AllSet nan q Q r) :
    ∃ w', apply bad nan q Q us vs w = .err w' .backend := by
  rcases apply_mid bad nan hr hu hi with ⟨h, _⟩ | ⟨_, h⟩
  · exact absurd h ha
  · exact h

/-- **C78**: a user function that does not touch one of the entries of one of its outputs is reported, whatever the vector held
before. -/
theorem C78_unset_partial (bad : S) (nan : S → Bool) (hb : nan bad = true) {w : W S T} {q : QF S T} {Q : Nat} {us vs : List Nat}
    {r : UserOut S T} (hr : Ready w q Q us vs) (hu : Runs bad w q Q us vs r)
    (hi : List.Forall₂ (fun v g => ∀ i < (w.vec v).len, g i = inVal bad w v i) us r.ins) {k n j : Nat} {g : Nat → S}
    (hn : q.sizes[k]? = some n) (hg : r.outs[k]? = some g) (hj : j < n * Q) (hbad : g j = bad) :
    ∃ w', apply bad nan q Q us vs w = .err w' .backend := by
  refine C78_reports_partial bad nan hr hu hi fun ha => ?_
  obtain ⟨_, h⟩ := List.forall₂_iff_get.1 ha
  obtain ⟨k1, e1⟩ := List.getElem?_eq_some_iff.1 hn
  obtain ⟨k2, e2⟩ := List.getElem?_eq_some_iff.1 hg
  have := h k k1 k2
  simp only [List.get_eq_getElem, e1, e2] at this
  rw [← hbad, this j hj] at hb
  cases hb

/-- **C78**: a user function that changes a context it should only read is reported. -/
theorem C78_context_partial (bad : S) (nan : S → Bool) {w : W S T} {q : QF S T} {Q : Nat} {us vs : List Nat} {r : UserOut S T}
    {c : Cx T} (hr : Ready w q Q us vs) (hu : Runs bad w q Q us vs r)
    (hi : List.Forall₂ (fun v g => ∀ i < (w.vec v).len, g i = inVal bad w v i) us r.ins) (hc : w.ctx = some c)
    (hb : q.writable = false) (hd : r.ctx ≠ c.data) : ∃ w', apply bad nan q Q us vs w = .err w' .backend := by
  rcases apply_mid bad nan hr hu hi with ⟨_, w5, h1, h2, h3, h4⟩ | ⟨_, h⟩
  · rw [hc] at h2
    rw [hb] at h1 h2
    have hne : ¬ c.data = r.ctx := fun h => hd h.symm
    refine ⟨{ w5 with ctx := some { c with readers := 0, ro := r.ctx } }, ?_⟩
    rw [h1]
    simp [restoreCtx, getX, h2, gx, sx, setX, hne]
  · exact h

end CheckQF
end Verif
