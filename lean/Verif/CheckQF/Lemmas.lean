import Verif.CheckQF.Spec

/-!
# QFunction application of the checking backend: every step
-/

namespace Verif
namespace CheckQF

variable {S T : Type}

/-- A vector with `k` readers. -/
def rd (x : Vec S) (k : Nat) : Vec S := if k = 0 then x else { x with readers := k, ro := if x.len = 0 then none else x.arr }

/-- Vectors with readers. -/
def mkR (w : W S T) (X : Nat → Vec S) (k : Nat → Nat) : W S T := { w with vec := fun v => rd (X v) (k v) }

/-- The contents a reader gets. -/
def val (bad : S) (x : Vec S) : Nat → S := if x.len = 0 then fun _ => bad else x.arr.getD fun _ => bad

theorem getRead_rd (bad : S) (w : W S T) (X : Nat → Vec S) (k : Nat → Nat) (v : Nat) (h : (X v).Idle)
    (ha : (X v).len = 0 ∨ (X v).arr.isSome) :
    getRead bad v (mkR w X k) = .ok (mkR w X fun u => k u + if u = v then 1 else 0) (val bad (X v)) := by
  obtain ⟨h1, h2, h3, h4⟩ := h
  have hst : (rd (X v) (k v)).state = (X v).state := by unfold rd; split <;> rfl
  have hln : (rd (X v) (k v)).len = (X v).len := by unfold rd; split <;> rfl
  have har : (rd (X v) (k v)).arr = (X v).arr := by unfold rd; split <;> rfl
  have hvec : (mkR w X k).vec v = rd (X v) (k v) := rfl
  have hrd : (rd (X v) (k v)).readers = k v := by
    unfold rd
    split
    · rename_i h; rw [h, h2]
    · rfl
  by_cases hl : (X v).len = 0
  · simp only [getRead, getV, M.bind_apply, Out.bind_ok, hvec, hst, h1, M.check_true, hln, hl, if_true, setV, M.pure_apply, val]
    congr 1
    unfold mkR
    congr 1
    funext u
    by_cases hu : u = v
    · subst hu
      simp only [if_true, hrd]
      unfold rd
      by_cases hk : k u = 0 <;> simp [hk, hl, h3]
    · simp [hu]
  · obtain ⟨a, haa⟩ : ∃ a, (X v).arr = some a := by
      rcases ha with h | h
      · exact absurd h hl
      · exact Option.isSome_iff_exists.1 h
    have hro : (if (rd (X v) (k v)).ro.isSome then (rd (X v) (k v)).ro else (X v).arr) = (X v).arr := by
      unfold rd
      by_cases hk : k v = 0 <;> simp [hk, hl, h3, haa]
    have hs : (X v).arr.isSome = true := by rw [haa]; rfl
    simp only [getRead, getV, M.bind_apply, Out.bind_ok, hvec, hst, h1, M.check_true, hln, hl, if_false, setV, M.pure_apply, val,
      har, hro, hs]
    congr 1
    unfold mkR
    congr 1
    funext u
    by_cases hu : u = v
    · subst hu
      simp only [if_true, hrd]
      unfold rd
      by_cases hk : k u = 0 <;> simp [hk, hl]
    · simp [hu]

theorem getReads_rd (bad : S) (w : W S T) (X : Nat → Vec S) (us : List Nat)
    (h : ∀ v ∈ us, (X v).Idle ∧ ((X v).len = 0 ∨ (X v).arr.isSome)) (k : Nat → Nat) :
    getReads bad us (mkR w X k) = .ok (mkR w X fun u => k u + us.count u) (us.map fun v => val bad (X v)) := by
  induction us generalizing k with
  | nil => rfl
  | cons v us ih =>
    obtain ⟨h1, h2⟩ := h v (List.mem_cons_self ..)
    simp only [getReads, M.bind_apply, getRead_rd bad w X k v h1 h2, Out.bind_ok,
      ih (fun u hu => h u (List.mem_cons_of_mem _ hu)), M.pure_apply, List.map_cons]
    congr 2
    funext u
    rw [List.count_cons]
    by_cases hu : u = v
    · subst hu; simp; omega
    · have : ¬ v = u := fun h => hu h.symm
      simp [hu, this]

theorem restoreRead_rd [DecidableEq S] (w : W S T) (X : Nat → Vec S) (k : Nat → Nat) (v : Nat) (h : (X v).Idle)
    (ha : (X v).len = 0 ∨ (X v).arr.isSome) :
    restoreRead v (mkR w X fun u => k u + if u = v then 1 else 0) = .ok (mkR w X k) () := by
  obtain ⟨h1, h2, h3, h4⟩ := h
  have hvec : (mkR w X fun u => k u + if u = v then 1 else 0).vec v =
      { X v with readers := k v + 1, ro := if (X v).len = 0 then none else (X v).arr } := by
    simp [mkR, rd]
  have hpos : 0 < k v + 1 := by omega
  have hsub : k v + 1 - 1 = k v := by omega
  by_cases hl : (X v).len = 0
  · simp only [restoreRead, getV, M.bind_apply, Out.bind_ok, hvec, hpos, M.check_true, setV, hl, if_true, M.pure_apply, hsub]
    congr 1
    unfold mkR
    congr 1
    funext u
    by_cases hu : u = v
    · subst hu
      simp only [if_true]
      unfold rd
      by_cases hk : k u = 0
      · simp only [hk, if_true]
        cases hx : X u
        simp_all
      · simp [hk, hl]
    · simp [hu]
  · obtain ⟨a, haa⟩ : ∃ a, (X v).arr = some a := by
      rcases ha with h | h
      · exact absurd h hl
      · exact Option.isSome_iff_exists.1 h
    by_cases hk : k v = 0
    · have hk1 : k v + 1 - 1 = 0 := by omega
      simp only [restoreRead, getV, M.bind_apply, Out.bind_ok, hvec, hpos, M.check_true, setV, hl, if_false, hk1, if_true, haa]
      simp only [M.bind_apply, implies_true, M.check_true, Out.bind_ok]
      congr 1
      unfold mkR
      congr 1
      funext u
      by_cases hu : u = v
      · subst hu
        simp only [if_true]
        unfold rd
        simp only [hk, if_true]
        cases hx : X u
        simp_all
      · simp [hu]
    · simp only [restoreRead, getV, M.bind_apply, Out.bind_ok, hvec, hpos, M.check_true, setV, hl, if_false, hsub, hk,
        M.pure_apply]
      congr 1
      unfold mkR
      congr 1
      funext u
      by_cases hu : u = v
      · subst hu
        simp only [if_true]
        unfold rd
        simp [hk, hl]
      · simp [hu]

theorem restoreReads_rd [DecidableEq S] (w : W S T) (X : Nat → Vec S) (us : List Nat)
    (h : ∀ v ∈ us, (X v).Idle ∧ ((X v).len = 0 ∨ (X v).arr.isSome)) (k : Nat → Nat) :
    restoreReads us (mkR w X fun u => k u + us.count u) = .ok (mkR w X k) () := by
  induction us with
  | nil => simp [restoreReads, mkR]
  | cons v us ih =>
    obtain ⟨h1, h2⟩ := h v (List.mem_cons_self ..)
    have e : (fun u => k u + (v :: us).count u) = fun u => (fun u => k u + us.count u) u + if u = v then 1 else 0 := by
      funext u
      rw [List.count_cons]
      by_cases hu : u = v
      · subst hu; simp; omega
      · have : ¬ v = u := fun h => hu h.symm
        simp [hu, this]
    rw [e]
    simp only [restoreReads, M.bind_apply, restoreRead_rd w X _ v h1 h2, Out.bind_ok,
      ih (fun u hu => h u (List.mem_cons_of_mem _ hu))]

/-- A vector with access for writing. -/
def wv (bad : S) (x : Vec S) : Vec S :=
  if x.len = 0 then { x with state := x.state + 1 }
  else { x with state := x.state + 1, arr := if x.arr.isSome then x.arr else some fun _ => bad, wr := some fun _ => bad }

theorem getWrites_spec (bad : S) (vs : List Nat) (hn : vs.Nodup) (w : W S T)
    (h : ∀ v ∈ vs, (w.vec v).state % 2 = 0 ∧ (w.vec v).readers = 0) :
    getWrites bad vs w = .ok { w with vec := fun u => if u ∈ vs then wv bad (w.vec u) else w.vec u }
      (vs.map fun _ => fun _ => bad) := by
  induction vs generalizing w with
  | nil => simp [getWrites]
  | cons v vs ih =>
    obtain ⟨h1, h2⟩ := h v (List.mem_cons_self ..)
    have hnv : v ∉ vs := (List.nodup_cons.1 hn).1
    have hstep : getWrite bad v w = .ok { w with vec := fun u => if u = v then wv bad (w.vec v) else w.vec u } fun _ => bad := by
      by_cases hl : (w.vec v).len = 0 <;> simp [getWrite, getV, h1, h2, hl, setV, wv]
    simp only [getWrites, M.bind_apply, hstep, Out.bind_ok]
    rw [ih (List.nodup_cons.1 hn).2 _ (by
      intro u hu
      have : u ≠ v := fun e => hnv (e ▸ hu)
      simp only [this, if_false]
      exact h u (List.mem_cons_of_mem _ hu))]
    simp only [Out.bind_ok, M.pure_apply, List.map_cons]
    congr 2
    funext u
    by_cases hu : u = v
    · subst hu
      simp [hnv]
    · simp [hu]

theorem storeIns_same (us : List Nat) (gs : List (Nat → S)) (w : W S T)
    (h : List.Forall₂ (fun v g => (w.vec v).ro.map (mask (w.vec v).len g) = (w.vec v).ro) us gs) :
    storeIns us gs w = .ok w () := by
  induction h with
  | nil => rfl
  | cons h _ ih =>
    have e : ∀ v g, (w.vec v).ro.map (mask (w.vec v).len g) = (w.vec v).ro → storeIn v g w = .ok w () := by
      intro v g hg
      simp only [storeIn, getV, M.bind_apply, Out.bind_ok, hg, setV]
      congr 1
      have : (fun u => if u = v then w.vec v else w.vec u) = w.vec := by
        funext u
        by_cases hu : u = v
        · subst hu; simp
        · simp [hu]
      rw [this]
    simp only [storeIns, M.bind_apply, e _ _ h, Out.bind_ok, ih]

/-- A relation that holds for the members of a list. -/
theorem forall₂_mem {A B : Type} {R R' : A → B → Prop} {l : List A} {l' : List B} (h : List.Forall₂ R l l')
    (hr : ∀ a ∈ l, ∀ b, R a b → R' a b) : List.Forall₂ R' l l' := by
  induction h with
  | nil => exact .nil
  | cons h _ ih =>
    exact .cons (hr _ (List.mem_cons_self ..) _ h) (ih fun a ha b => hr a (List.mem_cons_of_mem _ ha) b)

/-- A vector after a write to its copy. -/
def sw (x : Vec S) (g : Nat → S) : Vec S := { x with wr := x.wr.map (mask x.len g) }

theorem storeOuts_spec (vs : List Nat) (gs : List (Nat → S)) (hn : vs.Nodup) (hl : gs.length = vs.length) (w : W S T) :
    ∃ w', storeOuts vs gs w = .ok w' () ∧ w'.ctx = w.ctx ∧ (∀ u, u ∉ vs → w'.vec u = w.vec u) ∧
      List.Forall₂ (fun v g => w'.vec v = sw (w.vec v) g) vs gs := by
  induction vs generalizing gs w with
  | nil =>
    cases gs with
    | nil => exact ⟨w, rfl, rfl, fun _ _ => rfl, .nil⟩
    | cons g gs => simp at hl
  | cons v vs ih =>
    cases gs with
    | nil => simp at hl
    | cons g gs =>
      have hnv : v ∉ vs := (List.nodup_cons.1 hn).1
      obtain ⟨w', h1, h2, h3, h4⟩ := ih gs (List.nodup_cons.1 hn).2 (by simpa using hl)
        { w with vec := fun u => if u = v then sw (w.vec v) g else w.vec u }
      refine ⟨w', ?_, h2, ?_, .cons ?_ ?_⟩
      · simp only [storeOuts, storeOut, getV, setV, M.bind_apply, Out.bind_ok]
        exact h1
      · intro u hu
        rw [List.mem_cons, not_or] at hu
        rw [h3 u hu.2]
        simp [hu.1]
      · rw [h3 v hnv]
        simp
      · refine forall₂_mem h4 fun u hu g' hg' => ?_
        have : u ≠ v := fun e => hnv (e ▸ hu)
        rw [hg']
        simp [this]

/-- A vector after access for writing was given back. -/
def done (x : Vec S) : Vec S :=
  if x.len = 0 then { x with state := x.state + 1 } else { x with state := x.state + 1, arr := x.wr, wr := none }

theorem checkOuts_spec (nan : S → Bool) (Q : Nat) (ns vs : List Nat) (gs : List (Nat → S)) (hn : vs.Nodup) (w : W S T)
    (h1 : List.Forall₂ (fun n v => n * Q ≤ (w.vec v).len) ns vs)
    (h2 : List.Forall₂ (fun v g => (w.vec v).state % 2 = 1 ∧ ((w.vec v).len = 0 ∧ (w.vec v).wr = none ∨
      (w.vec v).len ≠ 0 ∧ ∃ h, (w.vec v).wr = some h ∧ ∀ i < (w.vec v).len, h i = g i)) vs gs) :
    (List.Forall₂ (fun n g => ∀ j < n * Q, nan (g j) = false) ns gs ∧ ∃ w', checkOuts nan Q ns vs w = .ok w' () ∧
      w'.ctx = w.ctx ∧ (∀ u, u ∉ vs → w'.vec u = w.vec u) ∧ ∀ v ∈ vs, w'.vec v = done (w.vec v)) ∨
    (¬ List.Forall₂ (fun n g => ∀ j < n * Q, nan (g j) = false) ns gs ∧ ∃ w', checkOuts nan Q ns vs w = .err w' .backend) := by
  induction vs generalizing ns gs w with
  | nil =>
    cases h1
    cases h2
    exact Or.inl ⟨.nil, w, rfl, rfl, fun _ _ => rfl, fun _ h => absurd h (List.not_mem_nil)⟩
  | cons v vs ih =>
    cases h1 with
    | @cons n _ ns _ a1 h1 =>
      cases h2 with
      | @cons _ g _ gs a2 h2 =>
        have hnv : v ∉ vs := (List.nodup_cons.1 hn).1
        obtain ⟨a2, a3⟩ := a2
        by_cases hset : ∀ j < n * Q, nan (g j) = false
        · have hchk : checkOut nan (n * Q) v w = .ok w () := by
            rcases a3 with ⟨b1, b2⟩ | ⟨b1, h, b2, b3⟩
            · have : n * Q = 0 := by omega
              simp only [checkOut, getV, M.bind_apply, Out.bind_ok, a1, if_true, b2, this, M.pure_apply, Nat.zero_le]
            · have : ∀ j : Fin (n * Q), nan (h j) = false := fun j => by
                rw [b3 j (Nat.lt_of_lt_of_le j.2 a1)]
                exact hset j j.2
              simp only [checkOut, getV, M.bind_apply, Out.bind_ok, a1, if_true, b2]
              exact M.check_true this _ _
          let w1 : W S T := { w with vec := fun u => if u = v then done (w.vec v) else w.vec u }
          have hres : restore v w = .ok w1 () := by
            rcases a3 with ⟨b1, b2⟩ | ⟨b1, h, b2, b3⟩
            · simp [restore, getV, a2, b1, setV, w1, done]
            · simp [restore, getV, a2, b1, b2, setV, w1, done]
          have hne : ∀ u, u ∈ vs → w1.vec u = w.vec u := by
            intro u hu
            have : u ≠ v := fun e => hnv (e ▸ hu)
            simp [w1, this]
          have hrun : checkOuts nan Q (n :: ns) (v :: vs) w = checkOuts nan Q ns vs w1 := by
            simp only [checkOuts, M.bind_apply, hchk, Out.bind_ok, hres]
          have e1 : List.Forall₂ (fun n v => n * Q ≤ (w1.vec v).len) ns vs := by
            have := (List.forall₂_iff_get.1 h1)
            refine List.forall₂_iff_get.2 ⟨this.1, fun i hi hi' => ?_⟩
            rw [hne _ (List.get_mem ..)]
            exact this.2 i hi hi'
          have e2 := forall₂_mem (R' := fun v g => (w1.vec v).state % 2 = 1 ∧ ((w1.vec v).len = 0 ∧ (w1.vec v).wr = none ∨
            (w1.vec v).len ≠ 0 ∧ ∃ h, (w1.vec v).wr = some h ∧ ∀ i < (w1.vec v).len, h i = g i)) h2 (by
              intro u hu g' hg'
              rw [hne u hu]
              exact hg')
          rcases ih ns gs (List.nodup_cons.1 hn).2 w1 e1 e2 with ⟨c1, w', c2, c3, c4, c5⟩ | ⟨c1, w', c2⟩
          · refine Or.inl ⟨.cons hset c1, w', hrun.trans c2, c3, ?_, ?_⟩
            · intro u hu
              rw [List.mem_cons, not_or] at hu
              rw [c4 u hu.2]
              simp [w1, hu.1]
            · intro u hu
              rcases List.mem_cons.1 hu with h | h
              · subst h
                rw [c4 u hnv]
                simp [w1]
              · rw [c5 u h, hne u h]
          · refine Or.inr ⟨fun h => ?_, w', hrun.trans c2⟩
            cases h with
            | cons _ h => exact c1 h
        · right
          refine ⟨fun h => ?_, w, ?_⟩
          · cases h with
            | cons h _ => exact hset h
          · rcases a3 with ⟨b1, b2⟩ | ⟨b1, h, b2, b3⟩
            · exact absurd (fun j hj => by omega) hset
            · have : ¬ ∀ j : Fin (n * Q), nan (h j) = false := fun hh => hset fun j hj => by
                rw [← b3 j (Nat.lt_of_lt_of_le hj a1)]
                exact hh ⟨j, hj⟩
              have hchk : checkOut nan (n * Q) v w = .err w .backend := by
                simp only [checkOut, getV, M.bind_apply, Out.bind_ok, a1, if_true, b2]
                exact M.check_false this _ _
              simp only [checkOuts, M.bind_apply, hchk, Out.bind_err]

end CheckQF
end Verif
