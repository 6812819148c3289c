import Verif.CheckQF.Main

/-!
# QFunction application of the checking backend: inputs that are changed
-/

namespace Verif
namespace CheckQF

variable {S T : Type}

/-- A vector after a write to the copy for readers. -/
def si (x : Vec S) (g : Nat → S) : Vec S := { x with ro := x.ro.map (mask x.len g) }

theorem storeIns_spec (vs : List Nat) (gs : List (Nat → S)) (hn : vs.Nodup) (hl : gs.length = vs.length) (w : W S T) :
    ∃ w', storeIns vs gs w = .ok w' () ∧ w'.ctx = w.ctx ∧ (∀ u, u ∉ vs → w'.vec u = w.vec u) ∧
      List.Forall₂ (fun v g => w'.vec v = si (w.vec v) g) vs gs := by
  induction vs generalizing gs w with
  | nil =>
    cases gs with
    | nil => exact ⟨w, rfl, rfl, fun _ _ => rfl, .nil⟩
    | cons g gs => simp at hl
  | cons v vs ih =>
    cases gs with
    | nil => simp at hl
    | cons g gs =>
      have hnv : v ∉ vs := (List.nodup_cons.1 hn).1
      obtain ⟨w', h1, h2, h3, h4⟩ := ih gs (List.nodup_cons.1 hn).2 (by simpa using hl)
        { w with vec := fun u => if u = v then si (w.vec v) g else w.vec u }
      refine ⟨w', ?_, h2, ?_, .cons ?_ ?_⟩
      · simp only [storeIns, storeIn, getV, setV, M.bind_apply, Out.bind_ok]
        exact h1
      · intro u hu
        rw [List.mem_cons, not_or] at hu
        rw [h3 u hu.2]
        simp [hu.1]
      · rw [h3 v hnv]
        simp
      · refine forall₂_mem h4 fun u hu g' hg' => ?_
        have : u ≠ v := fun e => hnv (e ▸ hu)
        rw [hg']
        simp [this]

variable [DecidableEq S]

theorem restoreRead_one (w : W S T) (v : Nat) (g : Nat → S) (h1 : (w.vec v).readers = 1)
    (h2 : (w.vec v).len = 0 ∨ ∃ a, (w.vec v).arr = some a ∧ (w.vec v).ro = some (mask (w.vec v).len g a)) :
    ((∀ i < (w.vec v).len, ∀ a, (w.vec v).arr = some a → g i = a i) ∧ ∃ w', restoreRead v w = .ok w' () ∧
      ∀ u, u ≠ v → w'.vec u = w.vec u) ∨
    (¬ (∀ i < (w.vec v).len, ∀ a, (w.vec v).arr = some a → g i = a i) ∧ ∃ w', restoreRead v w = .err w' .backend) := by
  have hp : ∀ s : W S T, M.check (0 < (w.vec v).readers) .access s = .ok s () := fun s => M.check_true (by omega) _ s
  by_cases hl : (w.vec v).len = 0
  · refine Or.inl ⟨fun i hi => by omega,
      { w with vec := fun u => if u = v then { w.vec v with readers := (w.vec v).readers - 1 } else w.vec u }, ?_, ?_⟩
    · simp only [restoreRead, getV, setV, M.bind_apply, Out.bind_ok, hp, hl, if_true, M.pure_apply]
    · intro u hu
      simp [hu]
  · obtain ⟨a, ha, hr⟩ := h2.resolve_left hl
    have hz : (w.vec v).readers - 1 = 0 := by omega
    have hall : (∀ i : Fin (w.vec v).len, a i = mask (w.vec v).len g a i) ↔
        ∀ i < (w.vec v).len, ∀ b, (w.vec v).arr = some b → g i = b i := by
      constructor
      · intro h i hi b hb
        rw [ha] at hb
        cases hb
        have := h ⟨i, hi⟩
        simp only [mask, hi, if_true] at this
        exact this.symm
      · intro h i
        simp only [mask, i.2, if_true]
        exact (h i i.2 a ha).symm
    by_cases hc : ∀ i : Fin (w.vec v).len, a i = mask (w.vec v).len g a i
    · have hk : ∀ s : W S T, M.check (∀ i : Fin (w.vec v).len, a i = mask (w.vec v).len g a i) .backend s = .ok s () :=
        fun s => M.check_true hc _ s
      refine Or.inl ⟨hall.1 hc, { w with vec := fun u => if u = v then
        { w.vec v with readers := (w.vec v).readers - 1, ro := none } else
        if u = v then { w.vec v with readers := (w.vec v).readers - 1 } else w.vec u }, ?_, fun u hu => by simp [hu]⟩
      simp only [restoreRead, getV, setV, M.bind_apply, Out.bind_ok, hp, hl, if_false, hz, if_true, ha, hr, hk]
    · have hk : ∀ s : W S T, M.check (∀ i : Fin (w.vec v).len, a i = mask (w.vec v).len g a i) .backend s = .err s .backend :=
        fun s => M.check_false hc _ s
      refine Or.inr ⟨fun h => hc (hall.2 h),
        { w with vec := fun u => if u = v then { w.vec v with readers := (w.vec v).readers - 1 } else w.vec u }, ?_⟩
      simp only [restoreRead, getV, setV, M.bind_apply, Out.bind_ok, Out.bind_err, hp, hl, if_false, hz, if_true, ha, hr, hk]

theorem restoreReads_changed (us : List Nat) (gs : List (Nat → S)) (hn : us.Nodup) (w : W S T)
    (h : List.Forall₂ (fun v g => (w.vec v).readers = 1 ∧
      ((w.vec v).len = 0 ∨ ∃ a, (w.vec v).arr = some a ∧ (w.vec v).ro = some (mask (w.vec v).len g a))) us gs)
    (hne : ¬ List.Forall₂ (fun v g => ∀ i < (w.vec v).len, ∀ a, (w.vec v).arr = some a → g i = a i) us gs) :
    ∃ w', restoreReads us w = .err w' .backend := by
  induction us generalizing gs w with
  | nil =>
    cases h
    exact absurd .nil hne
  | cons v us ih =>
    cases h with
    | cons h0 ht =>
      have hnv : v ∉ us := (List.nodup_cons.1 hn).1
      rcases restoreRead_one w v _ h0.1 h0.2 with ⟨k1, w1, k2, k3⟩ | ⟨_, w1, k2⟩
      · have hne' : ∀ u ∈ us, w1.vec u = w.vec u := fun u hu => k3 u fun e => hnv (e ▸ hu)
        obtain ⟨w2, k4⟩ := ih _ (List.nodup_cons.1 hn).2 w1
          (forall₂_mem ht fun u hu g hg => by rw [hne' u hu]; exact hg)
          (fun hf => hne (.cons k1 (forall₂_mem hf fun u hu g hg => by rw [hne' u hu] at hg; exact hg)))
        exact ⟨w2, by simp only [restoreReads, M.bind_apply, k2, Out.bind_ok, k4]⟩
      · exact ⟨w1, by simp only [restoreReads, M.bind_apply, k2, Out.bind_err]⟩

variable [DecidableEq T]

/-- **C78**: a user function that changes one of the entries of one of its inputs is reported. -/
theorem C78_changed_partial (bad : S) (nan : S → Bool) {w : W S T} {q : QF S T} {Q : Nat} {us vs : List Nat} {r : UserOut S T}
    (hr : Ready w q Q us vs) (hu : Runs bad w q Q us vs r) (hn : us.Nodup) (hl : r.ins.length = us.length)
    (hi : ¬ List.Forall₂ (fun v g => ∀ i < (w.vec v).len, g i = inVal bad w v i) us r.ins) :
    ∃ w', apply bad nan q Q us vs w = .err w' .backend := by
  rw [apply_start bad nan hr hu]
  let X : Nat → Vec S := fun u => if u ∈ vs then wv bad (w.vec u) else w.vec u
  let w2 : W S T := mkR ⟨w.vec, (w.ctx.map (gx q.writable)).map (sx q.writable r.ctx)⟩ X fun u => us.count u
  have hus : ∀ v ∈ us, v ∉ vs := fun v h h' => (hr.outs v h').2 h
  have e1 : storeCtx q.writable r.ctx (mkR ⟨w.vec, w.ctx.map (gx q.writable)⟩ X fun u => us.count u) = .ok w2 () := by
    rw [storeCtx_spec]
    rfl
  have hw2 : ∀ v ∈ us, w2.vec v = { w.vec v with readers := 1, ro := if (w.vec v).len = 0 then none else (w.vec v).arr } := by
    intro v hv
    have hc : us.count v = 1 := List.count_eq_one_of_mem hn hv
    show rd (X v) (us.count v) = _
    simp [rd, hc, X, hus v hv]
  obtain ⟨w3, s1, s2, s3, s4⟩ := storeIns_spec us r.ins hn hl w2
  obtain ⟨w4, t1, t2, t3, t4⟩ := storeOuts_spec vs r.outs hr.nodup hu.2 w3
  have hw4 := forall₂_mem (R' := fun v g => w4.vec v = si { w.vec v with
      readers := 1, ro := if (w.vec v).len = 0 then none else (w.vec v).arr } g) s4 (by
    intro v hv g hg
    rw [t3 v (hus v hv), hg, hw2 v hv])
  obtain ⟨w5, h5⟩ := restoreReads_changed us r.ins hn w4 (forall₂_mem hw4 fun v hv g hg => by
    rw [hg]
    refine ⟨rfl, ?_⟩
    by_cases hl : (w.vec v).len = 0
    · exact Or.inl hl
    · obtain ⟨a, ha⟩ : ∃ a, (w.vec v).arr = some a := by
        rcases (hr.ins v hv).2 with h | h
        · exact absurd h hl
        · exact Option.isSome_iff_exists.1 h
      exact Or.inr ⟨a, ha, by simp [si, hl, ha]⟩) (fun hf => hi (by
    have h1 := List.forall₂_iff_get.1 hf
    have h2 := List.forall₂_iff_get.1 hw4
    refine List.forall₂_iff_get.2 ⟨h1.1, fun k hk hk' i hi' => ?_⟩
    have k1 := h1.2 k hk hk'
    rw [h2.2 k hk hk'] at k1
    have hv : us.get ⟨k, hk⟩ ∈ us := List.get_mem ..
    have hne : (w.vec (us.get ⟨k, hk⟩)).len ≠ 0 := by omega
    obtain ⟨a, ha⟩ : ∃ a, (w.vec (us.get ⟨k, hk⟩)).arr = some a := by
      rcases (hr.ins _ hv).2 with h | h
      · exact absurd h hne
      · exact Option.isSome_iff_exists.1 h
    rw [k1 i hi' a ha]
    simp only [inVal, hne, if_false, ha, Option.getD_some]))
  refine ⟨w5, ?_⟩
  show finish nan q Q us vs r (mkR ⟨w.vec, w.ctx.map (gx q.writable)⟩ X fun u => us.count u) = _
  simp only [finish, M.bind_apply, e1, s1, t1, h5, Out.bind_ok, Out.bind_err]

/-- **C78**: a number of points that is no multiple of the vector length is refused, and nothing is changed. -/
theorem C78_points_partial (bad : S) (nan : S → Bool) {w : W S T} {q : QF S T} {Q : Nat} (us vs : List Nat) (hv : 0 < q.vecLen)
    (hq : Q % q.vecLen ≠ 0) : apply bad nan q Q us vs w = .err w .dimension := by
  have hv' : q.vecLen ≠ 0 := Nat.pos_iff_ne_zero.1 hv
  simp only [apply, hv', if_false, M.bind_apply, M.pure_apply, Out.bind_ok, M.check_false hq, Out.bind_err]

end CheckQF
end Verif
