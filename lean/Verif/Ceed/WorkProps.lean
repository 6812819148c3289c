import Verif.Ceed.Work

/-!
# C35: work vectors
-/

namespace Verif.Ceed

/-! ### Specification -/

/-- Histories: `H` lists the work vectors handed out and not yet restored (one entry per hand-out), `u` counts the
references to the Ceed held by everyone else. -/
inductive Hist (own : Bool) : Work → List Nat → Nat → Prop
  | start (n : Nat) (hn : 0 < n) : Hist own (Work.start own n) [] n
  | get {w w' : Work} {H : List Nat} {u len v : Nat} (h : Hist own w H u) (hr : getWork len w = .ok w' v) :
      Hist own w' (v :: H) u
  | restore {w w' : Work} {H : List Nat} {u v : Nat} (h : Hist own w H u) (hr : restoreWork v w = .ok w' ()) :
      Hist own w' (H.erase v) u
  | restoreErr {w w' : Work} {H : List Nat} {u v : Nat} {e : Err} (h : Hist own w H u)
      (hr : restoreWork v w = .err w' e) : Hist own w' H u
  | reference {w w' : Work} {H : List Nat} {u : Nat} (h : Hist own w H u) (hr : referenceCeed w = .ok w' ()) :
      Hist own w' H (u + 1)
  | destroy {w w' : Work} {H : List Nat} {u : Nat} (h : Hist own w H u) (hu : 2 ≤ u) (hr : destroyCeed w = .ok w' ()) :
      Hist own w' H (u - 1)

/-! ### Invariant -/

/-- Facts about a pool whose Ceed makes its own vectors. -/
structure WInv (w : Work) (H : List Nat) (u : Nat) : Prop where
  own : w.own = true
  alive : w.alive = true
  pos : 0 < u
  refs : w.refs = u + H.length
  nodupH : H.Nodup
  tabH : w.tab = none → H = []
  nodup : ((w.tab.getD []).map Prod.fst).Nodup
  cap : (w.tab.getD []).length ≤ w.cap
  row : ∀ v b, (v, b) ∈ w.tab.getD [] → (b = true ↔ v ∈ H) ∧ v < w.next ∧
    ∃ l, w.vec v = some (l, if b then 2 else 1)
  held : ∀ v ∈ H, (v, true) ∈ w.tab.getD []
  only : ∀ v x, w.vec v = some x → ∃ b, (v, b) ∈ w.tab.getD []

theorem start_inv (n : Nat) (hn : 0 < n) : WInv (Work.start true n) [] n := by
  refine ⟨rfl, rfl, hn, by simp [Work.start], List.nodup_nil, fun _ => rfl, by simp [Work.start], by simp [Work.start],
    ?_, ?_, ?_⟩
  · intro v b h; simp [Work.start] at h
  · intro v h; simp at h
  · intro v x h; simp [Work.start] at h

/-- The search finds an idle vector that is long enough, or reports that there is none. -/
theorem search_spec (vec : Nat → Option (Nat × Int)) (len : Nat) (t : List (Nat × Bool)) (i : Nat)
    (hv : ∀ v b, (v, b) ∈ t → ∃ x, vec v = some x) :
    ∃ j, search vec len t i = .ok (i + j) ∧ j ≤ t.length ∧
      (j < t.length → ∃ v l c, t[j]? = some (v, false) ∧ vec v = some (l, c) ∧ len ≤ l) ∧
      (j = t.length → ∀ v l c, (v, false) ∈ t → vec v = some (l, c) → l < len) := by
  induction t generalizing i with
  | nil => exact ⟨0, rfl, le_refl _, by intro h; simp at h, by intro _ v l c h; simp at h⟩
  | cons a t ih =>
    obtain ⟨v, b⟩ := a
    obtain ⟨j, h1, h2, h3, h4⟩ := ih (i + 1) (fun v b h => hv v b (List.mem_cons_of_mem _ h))
    have shift : ∀ (_ : search vec len ((v, b) :: t) i = search vec len t (i + 1))
        (_ : ∀ l c, b = false → vec v = some (l, c) → l < len),
        ∃ j, search vec len ((v, b) :: t) i = .ok (i + j) ∧ j ≤ ((v, b) :: t).length ∧
          (j < ((v, b) :: t).length → ∃ v' l c, ((v, b) :: t)[j]? = some (v', false) ∧ vec v' = some (l, c) ∧ len ≤ l) ∧
          (j = ((v, b) :: t).length → ∀ v' l c, (v', false) ∈ (v, b) :: t → vec v' = some (l, c) → l < len) := by
      intro hs hb
      refine ⟨j + 1, by rw [hs, h1]; congr 1; omega, by simpa using h2, ?_, ?_⟩
      · intro hj
        simpa using h3 (by simpa using hj)
      · intro hj v' l c hm hl
        rcases List.mem_cons.1 hm with hm | hm
        · cases hm; exact hb l c rfl hl
        · exact h4 (by simpa using hj) v' l c hm hl
    cases b with
    | true => exact shift (by simp [search]) (by intro l c h; cases h)
    | false =>
      obtain ⟨⟨l, c⟩, hx⟩ := hv v false (by simp)
      by_cases hl : len ≤ l
      · refine ⟨0, by simp [search, hx, hl], by omega, ?_, ?_⟩
        · intro _
          exact ⟨v, l, c, rfl, hx, hl⟩
        · intro h; simp at h
      · refine shift (by simp [search, hx, hl]) ?_
        intro l' c' _ h'
        rw [hx] at h'
        cases h'
        omega

theorem rowOf_none {v : Nat} {t : List (Nat × Bool)} {i : Nat} (h : rowOf v t i = none) : ∀ b, (v, b) ∉ t := by
  induction t generalizing i with
  | nil => intro b; simp
  | cons a t ih =>
    obtain ⟨u, c⟩ := a
    unfold rowOf at h
    by_cases hv : v = u
    · rw [if_pos hv] at h; cases h
    · rw [if_neg hv] at h
      intro b hb
      rcases List.mem_cons.1 hb with hb | hb
      · cases hb; exact hv rfl
      · exact ih h b hb

theorem rowOf_some {v : Nat} {t : List (Nat × Bool)} {i j : Nat} {b : Bool} (h : rowOf v t i = some (j, b)) :
    i ≤ j ∧ t[j - i]? = some (v, b) := by
  induction t generalizing i with
  | nil => cases h
  | cons a t ih =>
    obtain ⟨u, c⟩ := a
    unfold rowOf at h
    by_cases hv : v = u
    · rw [if_pos hv] at h
      cases h
      subst hv
      simp
    · rw [if_neg hv] at h
      obtain ⟨h1, h2⟩ := ih h
      refine ⟨by omega, ?_⟩
      obtain ⟨k, hk⟩ : ∃ k, j - i = k + 1 := ⟨j - i - 1, by omega⟩
      rw [hk, List.getElem?_cons_succ]
      rw [show k = j - (i + 1) by omega]
      exact h2

theorem map_fst_set {t : List (Nat × Bool)} {i v : Nat} {b b' : Bool} (h : t[i]? = some (v, b)) :
    (t.set i (v, b')).map Prod.fst = t.map Prod.fst := by
  rw [List.map_set]
  apply List.ext_getElem?
  intro k
  rw [List.getElem?_set]
  by_cases hk : i = k
  · subst hk
    have : i < t.length := by
      by_contra hge
      rw [List.getElem?_eq_none (by omega)] at h
      cases h
    have he : t[i] = (v, b) := by
      rw [List.getElem?_eq_getElem this] at h
      exact Option.some.inj h
    simp [this, he]
  · simp [hk]

theorem mem_set_row {t : List (Nat × Bool)} {i v : Nat} {b b' : Bool} (h : t[i]? = some (v, b))
    (hn : (t.map Prod.fst).Nodup) (x : Nat) (c : Bool) :
    (x, c) ∈ t.set i (v, b') ↔ (x = v ∧ c = b') ∨ (x ≠ v ∧ (x, c) ∈ t) := by
  have hi : i < t.length := by
    by_contra hge
    rw [List.getElem?_eq_none (by omega)] at h
    cases h
  have uniq : ∀ k y, t[k]? = some (v, y) → k = i := by
    intro k y hk
    have hk' : k < t.length := by
      by_contra hge
      rw [List.getElem?_eq_none (by omega)] at hk
      cases hk
    have := hn.getElem_inj_iff (i := k) (j := i) (hi := by simpa using hk') (hj := by simpa using hi)
    apply this.1
    rw [List.getElem?_eq_getElem hk'] at hk
    rw [List.getElem?_eq_getElem hi] at h
    simp only [Option.some.injEq] at hk h
    simp [hk, h]
  constructor
  · intro hm
    obtain ⟨k, hk⟩ := List.mem_iff_getElem?.1 hm
    rw [List.getElem?_set] at hk
    by_cases hik : i = k
    · rw [if_pos hik, if_pos (by omega)] at hk
      cases hk
      exact Or.inl ⟨rfl, rfl⟩
    · rw [if_neg hik] at hk
      refine Or.inr ⟨?_, List.mem_of_getElem? hk⟩
      rintro rfl
      exact hik (uniq k c hk).symm
  · rintro (⟨rfl, rfl⟩ | ⟨hx, hm⟩)
    · apply List.mem_iff_getElem?.2
      exact ⟨i, by rw [List.getElem?_set, if_pos rfl, if_pos hi]⟩
    · obtain ⟨k, hk⟩ := List.mem_iff_getElem?.1 hm
      apply List.mem_iff_getElem?.2
      refine ⟨k, ?_⟩
      rw [List.getElem?_set, if_neg, hk]
      rintro rfl
      rw [h] at hk
      cases hk
      exact hx rfl

/-- Handing out an idle row keeps the invariant. -/
theorem handOut_inv {w : Work} {H : List Nat} {u : Nat} (h : WInv w H u) {t : List (Nat × Bool)} (ht : w.tab = some t)
    {i v : Nat} (hi : t[i]? = some (v, false)) :
    ∃ w', handOut i t w = .ok w' v ∧ WInv w' (v :: H) u ∧ v ∉ H ∧ w'.next = w.next ∧
      (∀ k, (w'.vec k).map Prod.fst = (w.vec k).map Prod.fst) := by
  have hg : w.tab.getD [] = t := by rw [ht]; rfl
  have hmem : (v, false) ∈ w.tab.getD [] := by rw [hg]; exact List.mem_of_getElem? hi
  obtain ⟨hb, hlt, l, hl⟩ := h.row v false hmem
  have hvH : v ∉ H := fun hm => by have := hb.2 hm; cases this
  have hnd := h.nodup
  rw [hg] at hnd
  refine ⟨{ w with tab := some (t.set i (v, true)), refs := w.refs + 1,
                   vec := fun k => if k = v then some (l, 2) else w.vec k }, by simp only [handOut, hi, hl]; rfl, ?_, hvH, rfl, ?_⟩
  · refine ⟨h.own, h.alive, h.pos, ?_, List.nodup_cons.2 ⟨hvH, h.nodupH⟩, ?_, ?_, ?_, ?_, ?_, ?_⟩
    · simp only [List.length_cons]
      have := h.refs
      push_cast
      omega
    · intro hc; cases hc
    · simp only [Option.getD_some]
      rw [map_fst_set hi]
      exact hnd
    · simp only [Option.getD_some, List.length_set]
      have := h.cap
      rw [hg] at this
      exact this
    · intro x c hx
      simp only [Option.getD_some] at hx
      rw [mem_set_row hi hnd] at hx
      rcases hx with ⟨rfl, rfl⟩ | ⟨hxv, hx⟩
      · exact ⟨by simp, hlt, l, by simp⟩
      · obtain ⟨h1, h2, l', h3⟩ := h.row x c (by rw [hg]; exact hx)
        refine ⟨?_, h2, l', by simp [hxv, h3]⟩
        rw [h1]
        simp [hxv]
    · intro x hx
      simp only [Option.getD_some]
      rw [mem_set_row hi hnd]
      rcases List.mem_cons.1 hx with hx | hx
      · exact Or.inl ⟨hx, rfl⟩
      · have := h.held x hx
        rw [hg] at this
        exact Or.inr ⟨fun hxv => hvH (hxv ▸ hx), this⟩
    · intro x y hy
      simp only [Option.getD_some]
      dsimp only at hy
      by_cases hxv : x = v
      · exact ⟨true, by rw [mem_set_row hi hnd]; exact Or.inl ⟨hxv, rfl⟩⟩
      · rw [if_neg hxv] at hy
        obtain ⟨b, hb⟩ := h.only x y hy
        rw [hg] at hb
        exact ⟨b, by rw [mem_set_row hi hnd]; exact Or.inr ⟨hxv, hb⟩⟩
  · intro k
    dsimp only
    by_cases hk : k = v
    · subst hk; simp [hl]
    · simp [hk]

theorem ensureTab_inv {w : Work} {H : List Nat} {u : Nat} (h : WInv w H u) :
    ∃ w' t, ensureTab w = .ok w' t ∧ w'.tab = some t ∧ WInv w' H u ∧ w'.vec = w.vec ∧ w'.next = w.next ∧
      t = w.tab.getD [] := by
  unfold ensureTab
  rw [if_pos h.alive]
  cases ht : w.tab with
  | some t => exact ⟨w, t, rfl, ht, h, rfl, rfl, rfl⟩
  | none =>
    refine ⟨{ w with tab := some [], cap := 0 }, [], rfl, rfl, ?_, rfl, rfl, rfl⟩
    have hH := h.tabH ht
    subst hH
    have hrow : ∀ v, w.vec v = none := by
      intro v
      cases hv : w.vec v with
      | none => rfl
      | some x =>
        obtain ⟨b, hb⟩ := h.only v x hv
        rw [ht] at hb
        simp at hb
    refine ⟨h.own, h.alive, h.pos, h.refs, List.nodup_nil, (fun hc => by cases hc), by simp, by simp, ?_, ?_, ?_⟩
    · intro v b hm; simp at hm
    · intro v hm; simp at hm
    · intro v x hv; dsimp only at hv; rw [hrow v] at hv; cases hv

/-- Adding a vector keeps the invariant. -/
theorem addVec_inv {w : Work} {H : List Nat} {u : Nat} (h : WInv w H u) {t : List (Nat × Bool)} (ht : w.tab = some t)
    (len : Nat) :
    ∃ w', addVec len t.length t w = .ok w' (t ++ [(w.next, false)]) ∧
      WInv { w' with tab := some (t ++ [(w.next, false)]) } H u ∧ w'.vec w.next = some (len, 1) ∧
      (∀ k, k ≠ w.next → w'.vec k = w.vec k) ∧ w'.tab = w.tab ∧ w'.next = w.next + 1 := by
  have hg : w.tab.getD [] = t := by rw [ht]; rfl
  have hcap := h.cap
  rw [hg] at hcap
  have hgrow : t.length < growCap w.cap t.length := by
    unfold growCap
    by_cases h0 : w.cap = 0
    · rw [if_pos h0]; omega
    · rw [if_neg h0]
      by_cases h1 : w.cap = t.length
      · rw [if_pos h1]; omega
      · rw [if_neg h1]; omega
  have hfresh : ∀ b, (w.next, b) ∉ t := by
    intro b hb
    have := (h.row w.next b (by rw [hg]; exact hb)).2.1
    omega
  have hHn : w.next ∉ H := by
    intro hm
    have := h.held _ hm
    rw [hg] at this
    exact hfresh _ this
  refine ⟨{ createVec { w with cap := growCap w.cap t.length } len with
      refs := (createVec { w with cap := growCap w.cap t.length } len).refs - 1 }, by unfold addVec; rw [if_pos hgrow], ?_, by simp [createVec], ?_, rfl, rfl⟩
  · refine ⟨h.own, h.alive, h.pos, ?_, h.nodupH, (fun hc => by cases hc), ?_, ?_, ?_, ?_, ?_⟩
    · simp only [createVec, h.own, if_true]
      have := h.refs
      omega
    · simp only [Option.getD_some, List.map_append, List.map_cons, List.map_nil]
      rw [List.nodup_append]
      have hnd := h.nodup
      rw [hg] at hnd
      refine ⟨hnd, by simp, ?_⟩
      intro a ha b hb
      simp only [List.mem_singleton] at hb
      subst hb
      rintro rfl
      obtain ⟨⟨x, c⟩, h1, h2⟩ := List.mem_map.1 ha
      simp only at h2
      subst h2
      exact hfresh _ h1
    · simp only [Option.getD_some, List.length_append, List.length_cons, List.length_nil, createVec]
      omega
    · intro x c hx
      simp only [Option.getD_some, List.mem_append, List.mem_singleton] at hx
      rcases hx with hx | hx
      · obtain ⟨h1, h2, l, h3⟩ := h.row x c (by rw [hg]; exact hx)
        refine ⟨h1, by simp only [createVec]; omega, l, ?_⟩
        simp only [createVec]
        rw [if_neg (by omega)]
        exact h3
      · cases hx
        refine ⟨by simp [hHn], by simp [createVec], len, by simp [createVec]⟩
    · intro x hx
      simp only [Option.getD_some, List.mem_append]
      have := h.held x hx
      rw [hg] at this
      exact Or.inl this
    · intro x y hy
      simp only [Option.getD_some, List.mem_append, List.mem_singleton]
      simp only [createVec] at hy
      by_cases hx : x = w.next
      · exact ⟨false, Or.inr (by rw [hx])⟩
      · rw [if_neg hx] at hy
        obtain ⟨b, hb⟩ := h.only x y hy
        rw [hg] at hb
        exact ⟨b, Or.inl hb⟩
  · intro k hk
    simp [createVec, hk]

theorem handOut_tab (i : Nat) (t : List (Nat × Bool)) (w : Work) (t' : Option (List (Nat × Bool))) :
    handOut i t { w with tab := t' } = handOut i t w := by
  unfold handOut
  cases t[i]? with
  | none => rfl
  | some p => cases h : w.vec p.1 <;> simp [h]

/-- `CeedGetWorkVector` keeps the invariant. -/
theorem getWork_inv {w : Work} {H : List Nat} {u : Nat} (h : WInv w H u) (len : Nat) :
    ∃ w' v l, getWork len w = .ok w' v ∧ WInv w' (v :: H) u ∧ v ∉ H ∧ (w'.vec v).map Prod.fst = some l ∧ len ≤ l ∧
      (∀ k, k < w.next → (w'.vec k).map Prod.fst = (w.vec k).map Prod.fst) ∧ w.next ≤ w'.next ∧
      ((∃ x l' c, (x, false) ∈ w.tab.getD [] ∧ w.vec x = some (l', c) ∧ len ≤ l') → w'.next = w.next) := by
  obtain ⟨w1, t, e1, e2, i1, e3, e4, e5⟩ := ensureTab_inv h
  have hg : w1.tab.getD [] = t := by rw [e2]; rfl
  obtain ⟨j, s1, s2, s3, s4⟩ := search_spec w1.vec len t 0 (fun v b hm => by
    obtain ⟨_, _, l, hl⟩ := i1.row v b (by rw [hg]; exact hm)
    exact ⟨_, hl⟩)
  have hw : getWork len w = (if j = t.length then
      (addVec len j t w1).bind (fun w t' => handOut j t' w) else handOut j t w1) := by
    have hs : searchTab len t w1 = .ok w1 j := by
      unfold searchTab
      rw [s1, Nat.zero_add]
    simp only [getWork, M.bind_apply, e1, Out.bind_ok, hs]
    by_cases hj : j = t.length
    · rw [if_pos hj, if_pos hj]; rfl
    · rw [if_neg hj, if_neg hj]
  rw [hw]
  by_cases hj : j = t.length
  · rw [if_pos hj]
    subst hj
    obtain ⟨w2, a1, a2, a3, a4, a5, a6⟩ := addVec_inv i1 e2 len
    have hrow : (t ++ [(w1.next, false)])[t.length]? = some (w1.next, false) := by simp
    obtain ⟨w3, b1, b2, b3, b4, b5⟩ := handOut_inv a2 rfl hrow
    rw [handOut_tab] at b1
    refine ⟨w3, w1.next, len, by rw [a1]; exact b1, b2, b3, ?_, le_refl _, ?_, ?_, ?_⟩
    · rw [b5]
      simp [a3]
    · intro k hk
      rw [b5]
      dsimp only
      rw [a4 k (by omega), e3]
    · rw [b4]; dsimp only; omega
    · rintro ⟨x, l', c, h1, h2, h3⟩
      rw [← e5] at h1
      rw [← e3] at h2
      have := s4 rfl x l' c h1 h2
      omega
  · rw [if_neg hj]
    obtain ⟨v, l, c, h1, h2, h3⟩ := s3 (by omega)
    obtain ⟨w3, b1, b2, b3, b4, b5⟩ := handOut_inv i1 e2 h1
    refine ⟨w3, v, l, b1, b2, b3, by rw [b5, h2]; rfl, h3, ?_, by omega, fun _ => by omega⟩
    intro k _
    rw [b5, e3]

/-- What `CeedRestoreWorkVector` does. -/
theorem restoreWork_inv {w : Work} {H : List Nat} {u : Nat} (h : WInv w H u) (v : Nat) :
    (v ∈ H → ∃ w', restoreWork v w = .ok w' () ∧ WInv w' (H.erase v) u ∧ w'.next = w.next ∧ (v, false) ∈ w'.tab.getD [] ∧
      ∀ k, (w'.vec k).map Prod.fst = (w.vec k).map Prod.fst) ∧
    (v ∉ H → restoreWork v w = .err w .major ∨ restoreWork v w = .err w .access ∨ (w.tab = none ∧ restoreWork v w = .ub)) := by
  unfold restoreWork
  rw [if_pos h.alive]
  constructor
  · intro hv
    cases ht : w.tab with
    | none =>
      have := h.tabH ht
      subst this
      cases hv
    | some t =>
      have hg : w.tab.getD [] = t := by rw [ht]; rfl
      have hnd := h.nodup
      rw [hg] at hnd
      have hm := h.held v hv
      rw [hg] at hm
      cases hr : rowOf v t 0 with
      | none => exact absurd hm (rowOf_none hr true)
      | some p =>
        obtain ⟨i, b⟩ := p
        obtain ⟨_, hi⟩ := rowOf_some hr
        rw [Nat.sub_zero] at hi
        obtain ⟨h1, h2, l, h3⟩ := h.row v b (by rw [hg]; exact List.mem_of_getElem? hi)
        have hb : b = true := h1.2 hv
        subst hb
        simp only [if_true, dropVec, h3]
        rw [if_pos (by decide)]
        refine ⟨{ w with tab := some (t.set i (v, false)), refs := w.refs - 1,
                         vec := fun k => if k = v then some (l, 1) else w.vec k }, by rw [hr]; rfl, ?_, rfl, ?_, ?_⟩
        · have hlen : (H.erase v).length = H.length - 1 := List.length_erase_of_mem hv
          have hpos : 0 < H.length := List.length_pos_of_mem hv
          refine ⟨h.own, h.alive, h.pos, ?_, h.nodupH.erase v, (fun hc => by cases hc), ?_, ?_, ?_, ?_, ?_⟩
          · dsimp only
            have := h.refs
            rw [hlen]
            omega
          · simp only [Option.getD_some]
            rw [map_fst_set hi]
            exact hnd
          · simp only [Option.getD_some, List.length_set]
            have := h.cap
            rw [hg] at this
            exact this
          · intro x c hx
            simp only [Option.getD_some] at hx
            rw [mem_set_row hi hnd] at hx
            rcases hx with ⟨rfl, rfl⟩ | ⟨hxv, hx⟩
            · refine ⟨?_, h2, l, by simp⟩
              simp only [Bool.false_eq_true, false_iff]
              exact h.nodupH.not_mem_erase
            · obtain ⟨k1, k2, l', k3⟩ := h.row x c (by rw [hg]; exact hx)
              refine ⟨?_, k2, l', by simp [hxv, k3]⟩
              rw [k1, List.mem_erase_of_ne hxv]
          · intro x hx
            have hxv : x ≠ v := by
              rintro rfl
              exact h.nodupH.not_mem_erase hx
            simp only [Option.getD_some]
            rw [mem_set_row hi hnd]
            have := h.held x (List.mem_of_mem_erase hx)
            rw [hg] at this
            exact Or.inr ⟨hxv, this⟩
          · intro x y hy
            simp only [Option.getD_some]
            dsimp only at hy
            by_cases hxv : x = v
            · exact ⟨false, by rw [mem_set_row hi hnd]; exact Or.inl ⟨hxv, rfl⟩⟩
            · rw [if_neg hxv] at hy
              obtain ⟨b, hb⟩ := h.only x y hy
              rw [hg] at hb
              exact ⟨b, by rw [mem_set_row hi hnd]; exact Or.inr ⟨hxv, hb⟩⟩
        · simp only [Option.getD_some]
          rw [mem_set_row hi hnd]
          exact Or.inl ⟨rfl, rfl⟩
        · intro k
          dsimp only
          by_cases hk : k = v
          · subst hk; simp [h3]
          · simp [hk]
  · intro hv
    cases ht : w.tab with
    | none => exact Or.inr (Or.inr ⟨rfl, rfl⟩)
    | some t =>
      have hg : w.tab.getD [] = t := by rw [ht]; rfl
      dsimp only
      cases hr : rowOf v t 0 with
      | none => exact Or.inl rfl
      | some p =>
        obtain ⟨i, b⟩ := p
        obtain ⟨_, hi⟩ := rowOf_some hr
        rw [Nat.sub_zero] at hi
        obtain ⟨h1, _, _, _⟩ := h.row v b (by rw [hg]; exact List.mem_of_getElem? hi)
        have hb : b = false := by
          cases b with
          | true => exact absurd (h1.1 rfl) hv
          | false => rfl
        subst hb
        exact Or.inr (Or.inl rfl)

theorem WInv.withRefs {w : Work} {H : List Nat} {u u' : Nat} (h : WInv w H u) (r : Int) (hr : r = u' + H.length)
    (hp : 0 < u') : WInv { w with refs := r } H u' :=
  ⟨h.own, h.alive, hp, hr, h.nodupH, h.tabH, h.nodup, h.cap, h.row, h.held, h.only⟩

theorem Hist.inv {w : Work} {H : List Nat} {u : Nat} (h : Hist true w H u) : WInv w H u := by
  induction h with
  | start n hn => exact start_inv n hn
  | @get w w' H u len v _ hr ih =>
    obtain ⟨w1, v1, l, h1, h2, _⟩ := getWork_inv ih len
    rw [hr] at h1
    cases h1
    exact h2
  | @restore w w' H u v _ hr ih =>
    by_cases hv : v ∈ H
    · obtain ⟨w1, h1, h2, _⟩ := (restoreWork_inv ih v).1 hv
      rw [hr] at h1
      cases h1
      exact h2
    · rcases (restoreWork_inv ih v).2 hv with h1 | h1 | ⟨_, h1⟩
      all_goals rw [hr] at h1; cases h1
  | @restoreErr w w' H u v e _ hr ih =>
    by_cases hv : v ∈ H
    · obtain ⟨w1, h1, h2, _⟩ := (restoreWork_inv ih v).1 hv
      rw [hr] at h1
      cases h1
    · rcases (restoreWork_inv ih v).2 hv with h1 | h1 | ⟨_, h1⟩
      · rw [hr] at h1; cases h1; exact ih
      · rw [hr] at h1; cases h1; exact ih
      · rw [hr] at h1; cases h1
  | @reference w w' H u _ hr ih =>
    unfold referenceCeed at hr
    rw [if_pos ih.alive] at hr
    cases hr
    refine ih.withRefs _ ?_ (by omega)
    have := ih.refs
    push_cast
    omega
  | @destroy w w' H u _ hu hr ih =>
    have := ih.refs
    unfold destroyCeed at hr
    rw [if_pos ih.alive, if_pos (by omega)] at hr
    cases hr
    exact ih.withRefs _ (by omega) (by omega)

/-! ### Theorems -/

/-- **C35, for a Ceed that makes its own vectors.** After every history, `CeedGetWorkVector` succeeds and returns a
vector of at least the requested length that no caller holds; all vectors keep their length. Missing: Ceeds whose
vectors are made by a delegate, see `C35_delegate_witness`. -/
theorem C35_get_partial {w : Work} {H : List Nat} {u : Nat} (h : Hist true w H u) (len : Nat) :
    ∃ w' v l, getWork len w = .ok w' v ∧ v ∉ H ∧ (w'.vec v).map Prod.fst = some l ∧ len ≤ l ∧
      ∀ x ∈ H, (w'.vec x).map Prod.fst = (w.vec x).map Prod.fst ∧ (w'.vec x).isSome := by
  obtain ⟨w', v, l, h1, h2, h3, h4, h5, h6, h7, _⟩ := getWork_inv h.inv len
  refine ⟨w', v, l, h1, h3, h4, h5, ?_⟩
  intro x hx
  obtain ⟨_, hlt, lx, hlx⟩ := h.inv.row x true (h.inv.held x hx)
  obtain ⟨_, _, ly, hly⟩ := h2.row x true (h2.held x (List.mem_cons_of_mem _ hx))
  exact ⟨h6 x hlt, by rw [hly]; rfl⟩

/-- **C35.** No vector is handed out twice at the same time. -/
theorem C35_exclusive {w : Work} {H : List Nat} {u : Nat} (h : Hist true w H u) : H.Nodup := h.inv.nodupH

/-- **C35.** A held vector can be restored. It is then back in the pool: the next request it is long enough for makes no
new vector. -/
theorem C35_restore {w : Work} {H : List Nat} {u v : Nat} (h : Hist true w H u) (hv : v ∈ H) :
    ∃ w', restoreWork v w = .ok w' () ∧
      ∀ l len, (w.vec v).map Prod.fst = some l → len ≤ l →
        ∃ w'' v', getWork len w' = .ok w'' v' ∧ w''.next = w'.next := by
  obtain ⟨w', h1, h2, h3, h4, h5⟩ := (restoreWork_inv h.inv v).1 hv
  refine ⟨w', h1, ?_⟩
  intro l len hl hle
  obtain ⟨w'', v', l', g1, _, _, _, _, _, _, g2⟩ := getWork_inv h2 len
  refine ⟨w'', v', g1, g2 ?_⟩
  obtain ⟨_, _, lv, hlv⟩ := h2.row v false h4
  have := h5 v
  rw [hlv, hl] at this
  simp only [Option.map_some, Option.some.injEq] at this
  exact ⟨v, lv, _, h4, hlv, by omega⟩

/-- **C35.** Restoring a vector that is not held is an error and changes nothing, once the pool exists. -/
theorem C35_restore_foreign {w : Work} {H : List Nat} {u v : Nat} (h : Hist true w H u) (hv : v ∉ H)
    (ht : w.tab ≠ none) : ∃ e, restoreWork v w = .err w e := by
  rcases (restoreWork_inv h.inv v).2 hv with h1 | h1 | ⟨h0, _⟩
  · exact ⟨_, h1⟩
  · exact ⟨_, h1⟩
  · exact absurd h0 ht

/-- **C35, disagreement.** Restoring a vector before any work vector was requested dereferences `NULL`. -/
theorem C35_null_witness (v n : Nat) (hn : 0 < n) :
    Hist true (Work.start true n) [] n ∧ restoreWork v (Work.start true n) = .ub := ⟨Hist.start n hn, rfl⟩

/-- **C35, for a Ceed that makes its own vectors.** The count of the Ceed is the number of references others hold plus
the number of work vectors handed out. -/
theorem C35_lifetime_partial {w : Work} {H : List Nat} {u : Nat} (h : Hist true w H u) : w.refs = u + H.length := h.inv.refs

/-- **C35.** A request followed by the return of the vector leaves the count of the Ceed as it was. -/
theorem C35_pair {w w' w'' : Work} {H : List Nat} {u len v : Nat} (h : Hist true w H u) (hg : getWork len w = .ok w' v)
    (hr : restoreWork v w' = .ok w'' ()) : w''.refs = w.refs := by
  have h1 := C35_lifetime_partial h
  have h2 := C35_lifetime_partial (Hist.restore (Hist.get h hg) hr)
  simp only [List.erase_cons_head] at h2
  omega

theorem dropAll_spec (t : List (Nat × Bool)) (w : Work) (ho : w.own = true) (hr : w.refs = 0)
    (hnd : (t.map Prod.fst).Nodup) (ht : ∀ v b, (v, b) ∈ t → b = false ∧ ∃ l, w.vec v = some (l, 1)) :
    ∃ w', dropAll t w = .ok w' () ∧ w'.refs = 0 ∧
      (∀ v, (∃ b, (v, b) ∈ t) → w'.vec v = none) ∧ (∀ v, (∀ b, (v, b) ∉ t) → w'.vec v = w.vec v) := by
  induction t generalizing w with
  | nil => exact ⟨w, rfl, hr, by rintro v ⟨b, h⟩; simp at h, fun v _ => rfl⟩
  | cons a t ih =>
    obtain ⟨v, b⟩ := a
    obtain ⟨hb, l, hl⟩ := ht v b (by simp)
    subst hb
    simp only [List.map_cons, List.nodup_cons] at hnd
    have hd : dropVec v { w with refs := w.refs + 2 } =
        .ok { w with vec := fun k => if k = v then none else w.vec k, refs := w.refs + 2 - 1 } () := by
      simp only [dropVec, hl]
      rw [if_neg (by decide), if_pos ho, if_pos (by omega)]
    have hvt : ∀ b, (v, b) ∉ t := by
      intro b hb
      exact hnd.1 (List.mem_map.2 ⟨(v, b), hb, rfl⟩)
    obtain ⟨w', h1, h2, h3, h4⟩ := ih { w with vec := fun k => if k = v then none else w.vec k, refs := w.refs + 2 - 1 - 1 }
      ho (by dsimp only; omega) hnd.2 (by
        intro x c hx
        obtain ⟨e1, l', e2⟩ := ht x c (List.mem_cons_of_mem _ hx)
        refine ⟨e1, l', ?_⟩
        have : x ≠ v := by rintro rfl; exact hvt _ hx
        simp [this, e2])
    refine ⟨w', ?_, h2, ?_, ?_⟩
    · simp only [dropAll, Bool.false_eq_true, if_false]
      rw [hd]
      simp only [Out.bind_ok]
      exact h1
    · rintro x ⟨c, hx⟩
      by_cases hxt : ∃ c, (x, c) ∈ t
      · exact h3 x hxt
      · rw [h4 x (fun c hc => hxt ⟨c, hc⟩)]
        rcases List.mem_cons.1 hx with hx | hx
        · cases hx; simp
        · exact absurd ⟨c, hx⟩ hxt
    · intro x hx
      rw [h4 x (fun c hc => hx c (List.mem_cons_of_mem _ hc))]
      have : x ≠ v := by rintro rfl; exact hx false (by simp)
      simp [this]

/-- **C35.** When the last reference to the Ceed goes, with no work vector handed out, the Ceed and every vector of its
pool are freed, without error; while a work vector is handed out the Ceed stays alive. -/
theorem C35_destroy {w : Work} {H : List Nat} (h : Hist true w H 1) :
    (H = [] → ∃ w', destroyCeed w = .ok w' () ∧ w'.alive = false ∧ ∀ v, w'.vec v = none) ∧
    (H ≠ [] → ∃ w', destroyCeed w = .ok w' () ∧ w'.alive = true ∧ w'.vec = w.vec) := by
  have i := h.inv
  have hr := i.refs
  constructor
  · rintro rfl
    simp only [List.length_nil] at hr
    obtain ⟨w', h1, h2, h3, h4⟩ := dropAll_spec (w.tab.getD []) { w with refs := w.refs - 1, deleg := w.deleg }
      i.own (by dsimp only; omega) i.nodup (by
        intro v b hm
        obtain ⟨e1, _, l, e2⟩ := i.row v b hm
        have hb : b = false := by
          cases b with
          | true => have := e1.1 rfl; simp at this
          | false => rfl
        subst hb
        exact ⟨rfl, l, e2⟩)
    refine ⟨{ w' with tab := none, cap := 0, alive := false }, ?_, rfl, ?_⟩
    · unfold destroyCeed
      rw [if_pos i.alive, if_neg (by omega)]
      simp only [i.own, if_true]
      rw [i.own] at h1
      rw [h1]
      rfl
    · intro v
      dsimp only
      by_cases hv : ∃ b, (v, b) ∈ w.tab.getD []
      · exact h3 v hv
      · rw [h4 v (fun b hb => hv ⟨b, hb⟩)]
        dsimp only
        cases hx : w.vec v with
        | none => rfl
        | some x => exact absurd (i.only v x hx) hv
  · intro hne
    have : 0 < H.length := List.length_pos_of_ne_nil hne
    refine ⟨{ w with refs := w.refs - 1 }, ?_, i.alive, rfl⟩
    unfold destroyCeed
    rw [if_pos i.alive, if_pos (by omega)]

/-! ### Concrete cases -/

/-- The state left by a successful call. -/
def workAfter {β : Type} (m : M Work β) (w : Work) : Work :=
  match m w with
  | .ok w' _ => w'
  | _ => w

/-- A history with one vector returned and one still handed out: the hypotheses of the theorems above are met. -/
example : Hist true (workAfter (restoreWork 0) (workAfter (getWork 5) (workAfter (getWork 3) (Work.start true 1)))) [1] 1 :=
  Hist.restore (H := [1, 0]) (v := 0) (Hist.get (v := 1) (Hist.get (v := 0) (Hist.start 1 Nat.one_pos) (len := 3) rfl) (len := 5) rfl) rfl

/-- The returned vector is handed out again for length 2. -/
example : ∃ w', getWork 2 (workAfter (restoreWork 0) (workAfter (getWork 5) (workAfter (getWork 3) (Work.start true 1)))) =
    .ok w' 0 := ⟨_, rfl⟩

/-- **C35, disagreement.** A Ceed whose vectors are made by a delegate, with two references to it: after one work vector
was requested and returned, one `CeedDestroy` frees the Ceed although the other reference is still held. -/
theorem C35_delegate_witness :
    let w := workAfter (restoreWork 0) (workAfter (getWork 3) (Work.start false 2))
    Hist false w [] 2 ∧ w.refs = 1 ∧ ∃ w', destroyCeed w = .ok w' () ∧ w'.alive = false :=
  ⟨Hist.restore (H := [0]) (v := 0) (Hist.get (v := 0) (Hist.start 2 (by decide)) (len := 3) rfl) rfl, rfl, _, rfl, rfl⟩

theorem dropAll_used {t : List (Nat × Bool)} {v : Nat} (h : (v, true) ∈ t) (w w' : Work) : dropAll t w ≠ .ok w' () := by
  induction t generalizing w with
  | nil => simp at h
  | cons a t ih =>
    obtain ⟨x, used⟩ := a
    intro e
    cases used with
    | true => simp [dropAll] at e
    | false =>
      have hm : (v, true) ∈ t := by simpa using h
      simp only [dropAll, Bool.false_eq_true, if_false] at e
      obtain ⟨w1, _, _, e1⟩ := Out.bind_eq_ok.1 e
      exact ih hm _ e1

/-- **C35.** Destroying the last reference of a Ceed while a work vector is handed out never succeeds. -/
theorem C35_destroy_outstanding {w : Work} {t : List (Nat × Bool)} {v : Nat} (ht : w.tab = some t) (hv : (v, true) ∈ t)
    (hr : w.refs ≤ 1) (w' : Work) : destroyCeed w ≠ .ok w' () := by
  intro e
  unfold destroyCeed at e
  split at e
  · rw [if_neg (by omega)] at e
    obtain ⟨w1, _, e1, _⟩ := Out.bind_eq_ok.1 e
    rw [ht] at e1
    exact dropAll_used hv _ _ e1
  · cases e

/-- Such a state: a Ceed whose vectors are made by its delegate, one vector handed out. -/
example : ∃ w t, Hist false w [0] 1 ∧ w.tab = some t ∧ (0, true) ∈ t ∧ w.refs ≤ 1 ∧ ∃ w', destroyCeed w = .err w' .access :=
  ⟨_, _, Hist.get (v := 0) (Hist.start 1 (by decide)) (len := 3) rfl, rfl, by decide, by decide, _, rfl⟩

end Verif.Ceed
