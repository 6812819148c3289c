import Verif.Ceed.TreeInv

/-!
# C34 and C49: parents, delegates and error routing
-/

namespace Verif.Ceed

variable {μ : Type}

/-! ### Specification -/

/-- `r` is the root above `c`: following the parent, or else the fallback parent, leads from `c` to `r`, and `r` has
neither. -/
def Root (w : Forest μ) (c r : Nat) : Prop := ∃ l, Chain w c r l

/-- A Ceed nobody delegates or falls back to. -/
def IsRoot (w : Forest μ) (c : Nat) : Prop := ∃ n, w.node c = some n ∧ n.parent = none ∧ n.fbParent = none

/-- The calls that build and use a tree of Ceeds. -/
inductive TCall (μ : Type)
  | new
  | reference (c : Nat)
  | setDelegate (c d : Nat)
  | setObjectDelegate (c d : Nat) (name : List Char)
  | setFallbackResource (c : Nat) (valid : Bool)
  | getFallback (c made : Nat)
  | getParent (c : Nat)
  | getDelegate (c : Nat)
  | getObjectDelegate (c : Nat) (name : List Char)
  | raise (c : Nat) (x : μ)
  | getMessage (c : Nat)
  | resetMessage (c : Nat)
  | setHandler (c : Nat) (h : Handler)

/-- Run a call, dropping its value. -/
def drop {β : Type} (m : M (Forest μ) β) : M (Forest μ) Unit := do let _ ← m; pure ()

/-- Run a call. -/
def texec : TCall μ → M (Forest μ) Unit
  | .new => drop newCeed
  | .reference c => reference c
  | .setDelegate c d => setDelegate c d
  | .setObjectDelegate c d x => setObjectDelegate c d x
  | .setFallbackResource c v => setFallbackResource c v
  | .getFallback c m => drop (getFallback c m)
  | .getParent c => drop (getParent c)
  | .getDelegate c => drop (getDelegate c)
  | .getObjectDelegate c x => drop (getObjectDelegate c x)
  | .raise c x => drop (raise c x)
  | .getMessage c => drop (getMessage c)
  | .resetMessage c => resetMessage c
  | .setHandler c h => setHandler c h

/-- What backends observe when building trees: a delegate, or the Ceed made for a fallback, comes from a `CeedInit` of
its own and is not the root of the tree it is put into; a Ceed gets its (default) delegate once. -/
def TLegal (w : Forest μ) : TCall μ → Prop
  | .setDelegate c d => (∀ n, w.node c = some n → n.delegate = none) ∧ IsRoot w d ∧ ¬ Root w c d
  | .setObjectDelegate c d _ => IsRoot w d ∧ ¬ Root w c d
  | .getFallback c m => IsRoot w m ∧ ¬ Root w c m
  | _ => True

/-- Trees of Ceeds built by any history of such calls. -/
inductive Grown : Forest μ → Prop
  | init (env : Handler) : Grown (Forest.init env)
  | call {w w' : Forest μ} (h : Grown w) (k : TCall μ) (hl : TLegal w k) (hr : texec k w = .ok w' ()) : Grown w'

/-! ### Helpers -/

theorem isRoot_up {w : Forest μ} {c : Nat} (h : IsRoot w c) : ∃ n, w.node c = some n ∧ n.up = none := by
  obtain ⟨n, h1, h2, h3⟩ := h
  exact ⟨n, h1, by unfold Node.up; rw [h2, h3]⟩

theorem isRoot_iff {w : Forest μ} {c : Nat} : IsRoot w c ↔ Root w c c := by
  constructor
  · intro h
    obtain ⟨n, h1, h2⟩ := isRoot_up h
    exact ⟨0, Chain.root h1 h2⟩
  · rintro ⟨l, h⟩
    obtain ⟨n, h1, h2⟩ := h.top
    refine ⟨n, h1, ?_⟩
    unfold Node.up at h2
    cases hp : n.parent with
    | some p => rw [hp] at h2; cases h2
    | none => rw [hp] at h2; exact ⟨rfl, h2⟩

theorem reference_same {w w' : Forest μ} {c : Nat} (h : reference c w = .ok w' ()) : Same w w' :=
  modify_same h (fun _ => rfl)

theorem drop_ok {β : Type} {m : M (Forest μ) β} {w w' : Forest μ} (h : drop m w = .ok w' ()) : ∃ a, m w = .ok w' a := by
  unfold drop at h
  simp only [M.bind_apply] at h
  cases hm : m w with
  | ok s a => rw [hm] at h; cases h; exact ⟨a, rfl⟩
  | err s e => rw [hm] at h; cases h
  | ub => rw [hm] at h; cases h

theorem getDelegate_same {w w' : Forest μ} {c : Nat} {a : Option Nat} (h : getDelegate c w = .ok w' a) : Same w w' := by
  unfold getDelegate at h
  simp only [M.bind_apply, get] at h
  cases hn : w.node c with
  | none => rw [hn] at h; cases h
  | some n =>
    rw [hn] at h
    simp only [Out.bind_ok] at h
    cases hd : n.delegate with
    | none => rw [hd] at h; cases h; exact Same.refl _
    | some d =>
      rw [hd] at h
      simp only [M.bind_apply] at h
      obtain ⟨s, u, h1, h2⟩ := Out.bind_eq_ok.1 h
      cases h2
      exact reference_same h1

theorem parentFrom_same : ∀ (f : Nat) {w w' : Forest μ} {c a : Nat}, parentFrom f c w = .ok w' a → Same w w'
  | 0, _, _, _, _, h => by cases h
  | f + 1, w, w', c, a, h => by
    simp only [parentFrom, M.bind_apply, get] at h
    cases hn : w.node c with
    | none => rw [hn] at h; cases h
    | some n =>
      rw [hn] at h
      simp only [Out.bind_ok] at h
      cases hp : n.parent with
      | some p => rw [hp] at h; exact parentFrom_same f h
      | none =>
        rw [hp] at h
        simp only [M.bind_apply] at h
        obtain ⟨s, u, h1, h2⟩ := Out.bind_eq_ok.1 h
        cases h2
        exact reference_same h1

theorem topFrom_same : ∀ (f : Nat) {w w' : Forest μ} {c a : Nat}, topFrom f c w = .ok w' a → w' = w
  | 0, _, _, _, _, h => by cases h
  | f + 1, w, w', c, a, h => by
    simp only [topFrom, M.bind_apply, get] at h
    cases hn : w.node c with
    | none => rw [hn] at h; cases h
    | some n =>
      rw [hn] at h
      simp only [Out.bind_ok] at h
      cases hp : n.parent with
      | some p => rw [hp] at h; exact topFrom_same f h
      | none =>
        rw [hp] at h
        simp only at h
        cases hq : n.fbParent with
        | some p => rw [hq] at h; exact topFrom_same f h
        | none => rw [hq] at h; cases h; rfl

theorem loop_same {n : Nat} {body : Nat → M (Forest μ) Unit} (hb : ∀ i w w', body i w = .ok w' () → Same w w')
    {w w' : Forest μ} (h : M.loop n body w = .ok w' ()) : Same w w' := by
  induction n generalizing w' with
  | zero => cases h; exact Same.refl _
  | succ n ih =>
    rw [M.loop_succ] at h
    obtain ⟨s, u, h1, h2⟩ := Out.bind_eq_ok.1 h
    exact (ih h1).trans (hb _ _ _ h2)

theorem setHandlerFrom_same (h : Handler) : ∀ (f : Nat) {w w' : Forest μ} {c : Nat},
    setHandlerFrom h f c w = .ok w' () → Same w w'
  | 0, _, _, _, hr => by cases hr
  | f + 1, w, w', c, hr => by
    simp only [setHandlerFrom, M.bind_apply] at hr
    obtain ⟨w1, u1, h1, hr1⟩ := Out.bind_eq_ok.1 hr
    obtain ⟨w2, n, h2, hr2⟩ := Out.bind_eq_ok.1 hr1
    obtain ⟨w3, u3, h3, hr3⟩ := Out.bind_eq_ok.1 hr2
    have s1 : Same w w1 := modify_same h1 (fun _ => rfl)
    have e2 : w2 = w1 := by
      unfold get at h2
      cases hn : w1.node c with
      | none => rw [hn] at h2; cases h2
      | some m => rw [hn] at h2; cases h2; rfl
    subst e2
    have s3 : Same w2 w3 := by
      cases hd : n.delegate with
      | none => rw [hd] at h3; cases h3; exact Same.refl _
      | some d => rw [hd] at h3; simp only [onSome] at h3; exact setHandlerFrom_same h f h3
    refine (s1.trans s3).trans (loop_same ?_ hr3)
    intro i a b hab
    cases ho : n.objs[i]? with
    | none => rw [ho] at hab; cases hab; exact Same.refl _
    | some p => rw [ho] at hab; simp only [onSome, Option.map_some] at hab; exact setHandlerFrom_same h f hab

/-- Putting a root `d` below `c`, in the two ways in which a default or object delegate is set. -/
theorem TInv.link_delegate {w : Forest μ} (i : TInv w) {c d : Nat} {n m : Node μ} (hn : w.node c = some n)
    (hm : w.node d = some m) (hup : m.up = none) (hnr : ¬ Root w c d) (n' m' : Node μ)
    (hn' : n'.parent = n.parent ∧ n'.fbParent = n.fbParent ∧ n'.fallback = n.fallback)
    (hch : ∀ e, (n'.delegate = some e ∨ ∃ x, (x, e) ∈ n'.objs) → e = d ∨ (n.delegate = some e ∨ ∃ x, (x, e) ∈ n.objs))
    (hm' : m'.parent = some c ∧ m'.fbParent = m.fbParent ∧ m'.delegate = m.delegate ∧ m'.objs = m.objs ∧
      m'.fallback = m.fallback)
    {w' : Forest μ} (hnext : w'.next = w.next)
    (hw' : ∀ k, w'.node k = if k = d then some m' else if k = c then some n' else w.node k) : TInv w' := by
  have hcd : c ≠ d := by
    rintro rfl
    exact hnr ⟨0, Chain.root hm hup⟩
  have hnc : w'.node c = some n' := by rw [hw', if_neg hcd, if_pos rfl]
  have hnd : w'.node d = some m' := by rw [hw', if_pos rfl]
  have hno : ∀ k, k ≠ d → k ≠ c → w'.node k = w.node k := by
    intro k h1 h2; rw [hw', if_neg h1, if_neg h2]
  have mup : m.parent = none ∧ m.fbParent = none := by
    unfold Node.up at hup
    cases hp : m.parent with
    | some p => rw [hp] at hup; cases hup
    | none => rw [hp] at hup; exact ⟨rfl, hup⟩
  -- every old node with its parents
  have old : ∀ k x, k ≠ d → w.node k = some x → ∃ x', w'.node k = some x' ∧ x'.parent = x.parent ∧
      x'.fbParent = x.fbParent := by
    intro k x h1 h2
    by_cases hk : k = c
    · subst hk
      rw [hn] at h2; cases h2
      exact ⟨n', hnc, hn'.1, hn'.2.1⟩
    · exact ⟨x, by rw [hno k h1 hk]; exact h2, rfl, rfl⟩
  have notd : ∀ e, Child w e d → False := by
    intro e he
    obtain ⟨q, h1, h2⟩ := i.child e d he
    rw [hm] at h1; cases h1; rw [mup.1] at h2; cases h2
  refine ⟨?_, ?_, ?_, ?_⟩
  · intro k x hx
    rw [hnext]
    by_cases h1 : k = d
    · subst h1; exact i.fresh _ _ hm
    · by_cases h2 : k = c
      · subst h2; exact i.fresh _ _ hn
      · rw [hno k h1 h2] at hx; exact i.fresh _ _ hx
  · intro a e ⟨x, hx, he⟩
    have hold : e = d ∧ a = c ∨ Child w a e := by
      by_cases h1 : a = d
      · subst h1
        rw [hnd] at hx; cases hx
        rw [hm'.2.2.1, hm'.2.2.2.1] at he
        exact Or.inr ⟨m, hm, he⟩
      · by_cases h2 : a = c
        · subst h2
          rw [hnc] at hx; cases hx
          rcases hch e he with h3 | h3
          · exact Or.inl ⟨h3, rfl⟩
          · exact Or.inr ⟨n, hn, h3⟩
        · rw [hno a h1 h2] at hx
          exact Or.inr ⟨x, hx, he⟩
    rcases hold with ⟨rfl, rfl⟩ | hce
    · exact ⟨m', hnd, hm'.1⟩
    · have hed : e ≠ d := by rintro rfl; exact notd a hce
      obtain ⟨q, h1, h2⟩ := i.child a e hce
      obtain ⟨q', h3, h4, _⟩ := old e q hed h1
      exact ⟨q', h3, h4.trans h2⟩
  · intro a e x hx he
    have hold : ∃ y, w.node a = some y ∧ y.fallback = some e := by
      by_cases h1 : a = d
      · subst h1
        rw [hnd] at hx; cases hx
        exact ⟨m, hm, by rw [← hm'.2.2.2.2]; exact he⟩
      · by_cases h2 : a = c
        · subst h2
          rw [hnc] at hx; cases hx
          exact ⟨n, hn, by rw [← hn'.2.2]; exact he⟩
        · rw [hno a h1 h2] at hx
          exact ⟨x, hx, he⟩
    obtain ⟨y, hy, hye⟩ := hold
    obtain ⟨q, h1, h2, h3⟩ := i.fall a e y hy hye
    have hed : e ≠ d := by
      rintro rfl
      rw [hm] at h1; cases h1; rw [mup.2] at h3; cases h3
    obtain ⟨q', h4, h5, h6⟩ := old e q hed h1
    exact ⟨q', h4, h5.trans h2, h6.trans h3⟩
  · intro k x hx
    have hold : ∃ y, w.node k = some y := by
      by_cases h1 : k = d
      · subst h1; exact ⟨m, hm⟩
      · by_cases h2 : k = c
        · subst h2; exact ⟨n, hn⟩
        · rw [hno k h1 h2] at hx; exact ⟨x, hx⟩
    obtain ⟨y, hy⟩ := hold
    obtain ⟨r, l, hc⟩ := i.chain k y hy
    obtain ⟨rc, lc, hcc⟩ := i.chain c n hn
    have hne : rc ≠ d := by rintro rfl; exact hnr ⟨lc, hcc⟩
    have hl := link_chain (w' := w') (c := c) (d := d) (rc := rc) (lc := lc)
      (fun k x h1 h2 => by
        obtain ⟨x', h3, h4, h5⟩ := old k x h1 h2
        exact ⟨x', h3, by unfold Node.up; rw [h4, h5]⟩)
      ⟨m', hnd, by unfold Node.up; rw [hm'.1]⟩ ⟨m, hm, hup⟩ hcc hne hc
    by_cases hr : r = d
    · exact ⟨rc, _, hl.2 hr⟩
    · exact ⟨r, _, hl.1 hr⟩

/-- Putting a root `d` below `c` as its operator fallback. -/
theorem TInv.link_fallback {w : Forest μ} (i : TInv w) {c d : Nat} {n m : Node μ} (hn : w.node c = some n)
    (hm : w.node d = some m) (hup : m.up = none) (hnr : ¬ Root w c d) (n' m' : Node μ)
    (hn' : n'.parent = n.parent ∧ n'.fbParent = n.fbParent ∧ n'.delegate = n.delegate ∧ n'.objs = n.objs ∧
      n'.fallback = some d)
    (hm' : m'.parent = none ∧ m'.fbParent = some c ∧ m'.delegate = m.delegate ∧ m'.objs = m.objs ∧
      m'.fallback = m.fallback)
    {w' : Forest μ} (hnext : w'.next = w.next)
    (hw' : ∀ k, w'.node k = if k = d then some m' else if k = c then some n' else w.node k) : TInv w' := by
  have hcd : c ≠ d := by
    rintro rfl
    exact hnr ⟨0, Chain.root hm hup⟩
  have hnc : w'.node c = some n' := by rw [hw', if_neg hcd, if_pos rfl]
  have hnd : w'.node d = some m' := by rw [hw', if_pos rfl]
  have hno : ∀ k, k ≠ d → k ≠ c → w'.node k = w.node k := by
    intro k h1 h2; rw [hw', if_neg h1, if_neg h2]
  have mup : m.parent = none ∧ m.fbParent = none := by
    unfold Node.up at hup
    cases hp : m.parent with
    | some p => rw [hp] at hup; cases hup
    | none => rw [hp] at hup; exact ⟨rfl, hup⟩
  have old : ∀ k x, k ≠ d → w.node k = some x → ∃ x', w'.node k = some x' ∧ x'.parent = x.parent ∧
      x'.fbParent = x.fbParent := by
    intro k x h1 h2
    by_cases hk : k = c
    · subst hk
      rw [hn] at h2; cases h2
      exact ⟨n', hnc, hn'.1, hn'.2.1⟩
    · exact ⟨x, by rw [hno k h1 hk]; exact h2, rfl, rfl⟩
  refine ⟨?_, ?_, ?_, ?_⟩
  · intro k x hx
    rw [hnext]
    by_cases h1 : k = d
    · subst h1; exact i.fresh _ _ hm
    · by_cases h2 : k = c
      · subst h2; exact i.fresh _ _ hn
      · rw [hno k h1 h2] at hx; exact i.fresh _ _ hx
  · intro a e ⟨x, hx, he⟩
    have hch : Child w a e := by
      by_cases h1 : a = d
      · subst h1
        rw [hnd] at hx; cases hx
        rw [hm'.2.2.1, hm'.2.2.2.1] at he
        exact ⟨m, hm, he⟩
      · by_cases h2 : a = c
        · subst h2
          rw [hnc] at hx; cases hx
          rw [hn'.2.2.1, hn'.2.2.2.1] at he
          exact ⟨n, hn, he⟩
        · rw [hno a h1 h2] at hx
          exact ⟨x, hx, he⟩
    obtain ⟨q, h1, h2⟩ := i.child a e hch
    have hed : e ≠ d := by
      rintro rfl
      rw [hm] at h1; cases h1; rw [mup.1] at h2; cases h2
    obtain ⟨q', h3, h4, _⟩ := old e q hed h1
    exact ⟨q', h3, h4.trans h2⟩
  · intro a e x hx he
    have hold : (e = d ∧ a = c) ∨ ∃ y, w.node a = some y ∧ y.fallback = some e := by
      by_cases h1 : a = d
      · subst h1
        rw [hnd] at hx; cases hx
        exact Or.inr ⟨m, hm, by rw [← hm'.2.2.2.2]; exact he⟩
      · by_cases h2 : a = c
        · subst h2
          rw [hnc] at hx; cases hx
          rw [hn'.2.2.2.2] at he; cases he
          exact Or.inl ⟨rfl, rfl⟩
        · rw [hno a h1 h2] at hx
          exact Or.inr ⟨x, hx, he⟩
    rcases hold with ⟨rfl, rfl⟩ | ⟨y, hy, hye⟩
    · exact ⟨m', hnd, hm'.1, hm'.2.1⟩
    · obtain ⟨q, h1, h2, h3⟩ := i.fall a e y hy hye
      have hed : e ≠ d := by
        rintro rfl
        rw [hm] at h1; cases h1; rw [mup.2] at h3; cases h3
      obtain ⟨q', h4, h5, h6⟩ := old e q hed h1
      exact ⟨q', h4, h5.trans h2, h6.trans h3⟩
  · intro k x hx
    have hold : ∃ y, w.node k = some y := by
      by_cases h1 : k = d
      · subst h1; exact ⟨m, hm⟩
      · by_cases h2 : k = c
        · subst h2; exact ⟨n, hn⟩
        · rw [hno k h1 h2] at hx; exact ⟨x, hx⟩
    obtain ⟨y, hy⟩ := hold
    obtain ⟨r, l, hc⟩ := i.chain k y hy
    obtain ⟨rc, lc, hcc⟩ := i.chain c n hn
    have hne : rc ≠ d := by rintro rfl; exact hnr ⟨lc, hcc⟩
    have hl := link_chain (w' := w') (c := c) (d := d) (rc := rc) (lc := lc)
      (fun k x h1 h2 => by
        obtain ⟨x', h3, h4, h5⟩ := old k x h1 h2
        exact ⟨x', h3, by unfold Node.up; rw [h4, h5]⟩)
      ⟨m', hnd, by unfold Node.up; rw [hm'.1]; exact hm'.2.1⟩ ⟨m, hm, hup⟩ hcc hne hc
    by_cases hr : r = d
    · exact ⟨rc, _, hl.2 hr⟩
    · exact ⟨r, _, hl.1 hr⟩

theorem setDelegate_eq {w : Forest μ} {c d : Nat} {n m : Node μ} (hn : w.node c = some n) (hm : w.node d = some m)
    (hcd : c ≠ d) (hd : n.delegate = none) :
    setDelegate c d w = .ok (((w.set d (some { m with refs := m.refs + 1 })).set c (some { n with delegate := some d })).set d
      (some { m with refs := m.refs + 1, parent := some c })) () := by
  simp only [setDelegate, M.bind_apply, reference]
  rw [modify_eq _ hm]
  simp only [Out.bind_ok]
  rw [get_eq (n := n) (by simp [hcd, hn])]
  simp only [Out.bind_ok, hd, onSome, M.pure_apply]
  rw [modify_eq (n := n) _ (by simp [hcd, hn])]
  simp only [Out.bind_ok]
  rw [modify_eq (n := { m with refs := m.refs + 1 }) _ (by simp [Ne.symm hcd])]

theorem setObjectDelegate_eq {w : Forest μ} {c d : Nat} {n m : Node μ} (hn : w.node c = some n) (hm : w.node d = some m)
    (hcd : c ≠ d) (ho : n.objs = []) (x : List Char) :
    setObjectDelegate c d x w = .ok (((w.set d (some { m with refs := m.refs + 1 })).set c (some { n with objs := [(x, d)] })).set d
      (some { m with refs := m.refs + 1, parent := some c })) () := by
  simp only [setObjectDelegate, M.bind_apply, reference]
  rw [get_eq hn]
  simp only [Out.bind_ok, ho, List.length_nil, if_true, M.bind_apply]
  rw [modify_eq _ hm]
  simp only [Out.bind_ok]
  rw [modify_eq (n := n) _ (by simp [hcd, hn])]
  simp only [Out.bind_ok]
  rw [modify_eq (n := { m with refs := m.refs + 1 }) _ (by simp [Ne.symm hcd])]
  simp [ho]

theorem getFallback_new {w : Forest μ} {c d : Nat} {n m : Node μ} (hn : w.node c = some n) (hm : w.node d = some m)
    (hcd : c ≠ d) (hf : n.fallback = none) (hv : n.fbValid = true) :
    getFallback c d w = .ok (((w.set d (some { m with fbParent := some c, handler := n.handler })).set c
        (some { n with fallback := some d })).set d
      (some { m with fbParent := some c, handler := n.handler, refs := m.refs + 1 })) (some d) := by
  simp only [getFallback, makeFallback, M.bind_apply, reference]
  rw [get_eq hn]
  simp only [Out.bind_ok, hf, hv, and_self, if_true, M.bind_apply]
  rw [modify_eq _ hm]
  simp only [Out.bind_ok]
  rw [modify_eq (n := n) _ (by simp [hcd, hn])]
  simp only [Out.bind_ok]
  rw [get_eq (n := { n with fallback := some d }) (by simp)]
  simp only [Out.bind_ok, M.bind_apply]
  rw [modify_eq (n := { m with fbParent := some c, handler := n.handler }) _ (by simp [Ne.symm hcd])]
  simp [hv]

theorem getFallback_old {w w' : Forest μ} {c d : Nat} {a : Option Nat} {n : Node μ} (hn : w.node c = some n)
    (h : ¬ (n.fallback = none ∧ n.fbValid = true)) (hr : getFallback c d w = .ok w' a) : Same w w' ∧ a = n.fallback := by
  simp only [getFallback, makeFallback, M.bind_apply] at hr
  rw [get_eq hn] at hr
  simp only [Out.bind_ok] at hr
  rw [if_neg h] at hr
  simp only [M.pure_apply, Out.bind_ok] at hr
  rw [get_eq hn] at hr
  simp only [Out.bind_ok] at hr
  cases hf : n.fallback with
  | none => rw [hf] at hr; cases hr; exact ⟨Same.refl _, rfl⟩
  | some e =>
    rw [hf] at hr
    simp only [M.bind_apply] at hr
    obtain ⟨s, u, h1, h2⟩ := Out.bind_eq_ok.1 hr
    cases h2
    exact ⟨reference_same h1, rfl⟩

theorem newCeed_tinv {w : Forest μ} (i : TInv w) {w' : Forest μ} {a : Nat} (h : newCeed w = .ok w' a) : TInv w' := by
  cases h
  have hne : ∀ k n, w.node k = some n → k ≠ w.next := fun k n hn => by have := i.fresh k n hn; omega
  have old : ∀ k n, w.node k = some n → (fun k => if k = w.next then some (⟨none, none, none, [], none, false, w.env, none, 1⟩ : Node μ)
      else w.node k) k = some n := by
    intro k n hn; dsimp only; rw [if_neg (hne k n hn)]; exact hn
  refine ⟨?_, ?_, ?_, ?_⟩
  · intro k n hn
    dsimp only at hn ⊢
    by_cases hk : k = w.next
    · omega
    · rw [if_neg hk] at hn
      have := i.fresh k n hn
      omega
  · intro c d ⟨n, hn, hd⟩
    dsimp only at hn
    by_cases hk : c = w.next
    · rw [if_pos hk] at hn; cases hn
      rcases hd with hd | ⟨x, hd⟩
      · cases hd
      · cases hd
    · rw [if_neg hk] at hn
      obtain ⟨m, h1, h2⟩ := i.child c d ⟨n, hn, hd⟩
      exact ⟨m, old d m h1, h2⟩
  · intro c d n hn hd
    dsimp only at hn
    by_cases hk : c = w.next
    · rw [if_pos hk] at hn; cases hn
      cases hd
    · rw [if_neg hk] at hn
      obtain ⟨m, h1, h2⟩ := i.fall c d n hn hd
      exact ⟨m, old d m h1, h2⟩
  · intro c n hn
    dsimp only at hn
    by_cases hk : c = w.next
    · exact ⟨c, 0, Chain.root (n := n) (by dsimp only; exact hn) (by rw [if_pos hk] at hn; cases hn; rfl)⟩
    · rw [if_neg hk] at hn
      obtain ⟨r, l, hc⟩ := i.chain c n hn
      refine ⟨r, l, ?_⟩
      clear hn hk
      induction hc with
      | root hn hu => exact Chain.root (old _ _ hn) hu
      | step hn hu _ ih => exact Chain.step (old _ _ hn) hu ih

theorem Grown.inv {w : Forest μ} (h : Grown w) : TInv w := by
  induction h with
  | init env =>
    refine ⟨?_, ?_, ?_, ?_⟩
    · intro k n hn; cases hn
    · rintro c d ⟨n, hn, _⟩; cases hn
    · intro c d n hn; cases hn
    · intro c n hn; cases hn
  | @call w w' _ k hl hr i =>
    cases k with
    | new =>
      obtain ⟨a, ha⟩ := drop_ok hr
      exact newCeed_tinv i ha
    | reference c => exact (reference_same hr).tinv i
    | setDelegate c d =>
      obtain ⟨h1, h2, h3⟩ := hl
      obtain ⟨m, hm, hup⟩ := isRoot_up h2
      cases hn : w.node c with
      | none =>
        exfalso
        simp only [texec, setDelegate, M.bind_apply, reference] at hr
        rw [modify_eq _ hm] at hr
        simp only [Out.bind_ok] at hr
        by_cases hcd : c = d
        · subst hcd; rw [hm] at hn; cases hn
        · simp [get, hcd, hn] at hr
      | some n =>
        have hcd : c ≠ d := by rintro rfl; exact h3 (isRoot_iff.1 h2)
        simp only [texec] at hr
        rw [setDelegate_eq hn hm hcd (h1 n hn)] at hr
        cases hr
        refine i.link_delegate hn hm hup h3 { n with delegate := some d } { m with refs := m.refs + 1, parent := some c }
          ⟨rfl, rfl, rfl⟩ ?_ ⟨rfl, rfl, rfl, rfl, rfl⟩ rfl ?_
        · intro e he
          rcases he with he | he
          · cases he; exact Or.inl rfl
          · exact Or.inr (Or.inr he)
        · intro k
          by_cases h1 : k = d <;> by_cases h2 : k = c <;> simp [h1, h2]
    | setObjectDelegate c d x =>
      obtain ⟨h2, h3⟩ := hl
      obtain ⟨m, hm, hup⟩ := isRoot_up h2
      cases hn : w.node c with
      | none => simp [texec, setObjectDelegate, get, hn] at hr
      | some n =>
        have hcd : c ≠ d := by rintro rfl; exact h3 (isRoot_iff.1 h2)
        have ho : n.objs = [] := by
          by_contra hne
          simp [texec, setObjectDelegate, get, hn, hne, M.undef] at hr
        simp only [texec] at hr
        rw [setObjectDelegate_eq hn hm hcd ho x] at hr
        cases hr
        refine i.link_delegate hn hm hup h3 { n with objs := [(x, d)] } { m with refs := m.refs + 1, parent := some c }
          ⟨rfl, rfl, rfl⟩ ?_ ⟨rfl, rfl, rfl, rfl, rfl⟩ rfl ?_
        · intro e he
          rcases he with he | ⟨y, hy⟩
          · exact Or.inr (Or.inl he)
          · simp only [List.mem_singleton, Prod.mk.injEq] at hy
            exact Or.inl hy.2
        · intro k
          by_cases h1 : k = d <;> by_cases h2 : k = c <;> simp [h1, h2]
    | setFallbackResource c v => exact (modify_same hr (fun _ => rfl)).tinv i
    | getFallback c d =>
      obtain ⟨h2, h3⟩ := hl
      obtain ⟨a, ha⟩ := drop_ok hr
      obtain ⟨m, hm, hup⟩ := isRoot_up h2
      cases hn : w.node c with
      | none => simp [getFallback, makeFallback, get, hn] at ha
      | some n =>
        by_cases hf : n.fallback = none ∧ n.fbValid = true
        · have hcd : c ≠ d := by rintro rfl; exact h3 (isRoot_iff.1 h2)
          rw [getFallback_new hn hm hcd hf.1 hf.2] at ha
          cases ha
          have mup : m.parent = none := by
            unfold Node.up at hup
            cases hp : m.parent with
            | some p => rw [hp] at hup; cases hup
            | none => rfl
          refine i.link_fallback hn hm hup h3 { n with fallback := some d }
            { m with fbParent := some c, handler := n.handler, refs := m.refs + 1 }
            ⟨rfl, rfl, rfl, rfl, rfl⟩ ⟨mup, rfl, rfl, rfl, rfl⟩ rfl ?_
          intro k
          by_cases h1 : k = d <;> by_cases h2 : k = c <;> simp [h1, h2]
        · exact (getFallback_old hn hf ha).1.tinv i
    | getParent c =>
      obtain ⟨a, ha⟩ := drop_ok hr
      exact (parentFrom_same _ ha).tinv i
    | getDelegate c =>
      obtain ⟨a, ha⟩ := drop_ok hr
      exact (getDelegate_same ha).tinv i
    | getObjectDelegate c x =>
      obtain ⟨a, ha⟩ := drop_ok hr
      refine Same.tinv ?_ i
      simp only [getObjectDelegate, M.bind_apply] at ha
      cases hn : w.node c with
      | none => simp [get, hn] at ha
      | some n =>
        rw [get_eq hn] at ha
        simp only [Out.bind_ok] at ha
        cases ho : n.objs with
        | nil => rw [ho] at ha; exact getDelegate_same ha
        | cons p t =>
          rw [ho] at ha
          obtain ⟨y, d⟩ := p
          dsimp only at ha
          by_cases hx : x = y
          · rw [if_pos hx] at ha
            simp only [M.bind_apply] at ha
            obtain ⟨s, u, h1, h2⟩ := Out.bind_eq_ok.1 ha
            cases h2
            exact reference_same h1
          · rw [if_neg hx] at ha
            exact getDelegate_same ha
    | raise c x =>
      obtain ⟨a, ha⟩ := drop_ok hr
      refine Same.tinv ?_ i
      simp only [raise, M.bind_apply] at ha
      cases hn : w.node c with
      | none => simp [get, hn] at ha
      | some n =>
        rw [get_eq hn] at ha
        simp only [Out.bind_ok] at ha
        cases hh : n.handler with
        | store =>
          rw [hh] at ha
          simp only [M.bind_apply] at ha
          obtain ⟨s, t, h1, h2⟩ := Out.bind_eq_ok.1 ha
          obtain ⟨s2, u, h3, h4⟩ := Out.bind_eq_ok.1 h2
          cases h4
          have := topFrom_same _ h1
          subst this
          exact modify_same h3 (fun _ => rfl)
        | ret => rw [hh] at ha; cases ha; exact Same.refl _
        | stop => rw [hh] at ha; cases ha; exact Same.refl _
    | getMessage c =>
      obtain ⟨a, ha⟩ := drop_ok hr
      refine Same.tinv ?_ i
      simp only [getMessage, M.bind_apply] at ha
      obtain ⟨s, t, h1, h2⟩ := Out.bind_eq_ok.1 ha
      have := topFrom_same _ h1
      subst this
      cases hn : s.node t with
      | none => simp [get, hn] at h2
      | some n => rw [get_eq hn] at h2; cases h2; exact Same.refl _
    | resetMessage c =>
      refine Same.tinv ?_ i
      simp only [texec, resetMessage, M.bind_apply] at hr
      obtain ⟨s, t, h1, h2⟩ := Out.bind_eq_ok.1 hr
      have := topFrom_same _ h1
      subst this
      exact modify_same h2 (fun _ => rfl)
    | setHandler c h => exact (setHandlerFrom_same h _ hr).tinv i

/-! ### Theorems -/

/-- **C34.** In every tree of Ceeds, every Ceed has exactly one root above it, which is a Ceed nobody delegates or falls
back to. -/
theorem C34_root {w : Forest μ} (h : Grown w) {c : Nat} {n : Node μ} (hc : w.node c = some n) :
    ∃ r, Root w c r ∧ IsRoot w r ∧ ∀ r', Root w c r' → r' = r := by
  obtain ⟨r, l, hr⟩ := h.inv.chain c n hc
  refine ⟨r, ⟨l, hr⟩, ?_, ?_⟩
  · rw [isRoot_iff]
    obtain ⟨m, h1, h2⟩ := hr.top
    exact ⟨0, Chain.root h1 h2⟩
  · rintro r' ⟨l', hr'⟩
    exact (hr'.unique hr).1

/-- **C34.** Delegates, object delegates and operator fallbacks of a Ceed have the same root as the Ceed. -/
theorem C34_same_root {w : Forest μ} (h : Grown w) {c d : Nat} {n : Node μ} (hc : w.node c = some n)
    (hd : n.delegate = some d ∨ (∃ x, (x, d) ∈ n.objs) ∨ n.fallback = some d) (r : Nat) :
    Root w d r ↔ Root w c r := by
  have hup : ∃ m, w.node d = some m ∧ m.up = some c := by
    have : Child w c d ∨ n.fallback = some d := by
      rcases hd with hd | hd | hd
      · exact Or.inl ⟨n, hc, Or.inl hd⟩
      · exact Or.inl ⟨n, hc, Or.inr hd⟩
      · exact Or.inr hd
    rcases this with h1 | h1
    · obtain ⟨m, h2, h3⟩ := h.inv.child c d h1
      exact ⟨m, h2, by unfold Node.up; rw [h3]⟩
    · obtain ⟨m, h2, h3, h4⟩ := h.inv.fall c d n hc h1
      exact ⟨m, h2, by unfold Node.up; rw [h3]; exact h4⟩
  obtain ⟨m, h1, h2⟩ := hup
  constructor
  · rintro ⟨l, hl⟩
    cases hl with
    | root h3 h4 => rw [h1] at h3; cases h3; rw [h2] at h4; cases h4
    | step h3 h4 h5 => rw [h1] at h3; cases h3; rw [h2] at h4; cases h4; exact ⟨_, h5⟩
  · rintro ⟨l, hl⟩
    exact ⟨l + 1, Chain.step h1 h2 hl⟩

/-- **C34.** An error raised, under the storing handler, on any Ceed of a tree is the message read from the root, and
from every other Ceed of that tree; other trees keep their message. -/
theorem C34_error {w : Forest μ} (h : Grown w) {c r : Nat} {n : Node μ} (hc : w.node c = some n)
    (hs : n.handler = .store) (hr : Root w c r) (x : μ) :
    ∃ w', raise c x w = .ok w' true ∧ getMessage r w' = .ok w' (some x) ∧
      (∀ m, Root w m r → getMessage m w' = .ok w' (some x)) ∧
      (∀ m r' v, Root w m r' → r' ≠ r → getMessage m w = .ok w v → getMessage m w' = .ok w' v) := by
  have hf := h.inv.fresh
  obtain ⟨l, hl⟩ := hr
  obtain ⟨nr, h1, h2⟩ := hl.top
  have hw : raise c x w = .ok (w.set r (some { nr with msg := some x })) true := by
    simp only [raise, M.bind_apply]
    rw [get_eq hc]
    simp only [Out.bind_ok, hs, M.bind_apply]
    rw [top_eq hf hl]
    simp only [Out.bind_ok]
    rw [modify_eq _ h1]
    rfl
  have hsame : Same w (w.set r (some { nr with msg := some x })) := by
    refine modify_same (c := r) (f := fun n => { n with msg := some x }) ?_ (fun _ => rfl)
    rw [modify_eq _ h1]
  have read : ∀ m, Root w m r → getMessage m (w.set r (some { nr with msg := some x })) =
      .ok (w.set r (some { nr with msg := some x })) (some x) := by
    rintro m ⟨lm, hm⟩
    simp only [getMessage, M.bind_apply]
    rw [top_eq (hsame.fresh hf) (hsame.chain hm)]
    simp only [Out.bind_ok]
    rw [get_eq (n := { nr with msg := some x }) (by simp)]
    rfl
  refine ⟨_, hw, read r ⟨0, Chain.root h1 h2⟩, read, ?_⟩
  rintro m r' v ⟨lm, hm⟩ hne hv
  obtain ⟨nr', h3, _⟩ := hm.top
  simp only [getMessage, M.bind_apply] at hv ⊢
  rw [top_eq hf hm] at hv
  rw [top_eq (hsame.fresh hf) (hsame.chain hm)]
  simp only [Out.bind_ok] at hv ⊢
  rw [get_eq h3] at hv
  rw [get_eq (n := nr') (by simp [hne, h3])]
  cases hv
  rfl

/-- **C34.** Resetting the message on any Ceed of a tree resets what is read from the root. -/
theorem C34_reset {w : Forest μ} (h : Grown w) {c r : Nat} (hr : Root w c r) :
    ∃ w', resetMessage c w = .ok w' () ∧ ∀ m, Root w m r → getMessage m w' = .ok w' none := by
  have hf := h.inv.fresh
  obtain ⟨l, hl⟩ := hr
  obtain ⟨nr, h1, h2⟩ := hl.top
  have hw : resetMessage c w = .ok (w.set r (some { nr with msg := none })) () := by
    simp only [resetMessage, M.bind_apply]
    rw [top_eq hf hl]
    simp only [Out.bind_ok]
    rw [modify_eq _ h1]
  have hsame : Same w (w.set r (some { nr with msg := none })) := by
    refine modify_same (c := r) (f := fun n => { n with msg := none }) ?_ (fun _ => rfl)
    rw [modify_eq _ h1]
  refine ⟨_, hw, ?_⟩
  rintro m ⟨lm, hm⟩
  simp only [getMessage, M.bind_apply]
  rw [top_eq (hsame.fresh hf) (hsame.chain hm)]
  simp only [Out.bind_ok]
  rw [get_eq (n := { nr with msg := none }) (by simp)]
  rfl

theorem Below.chain {w : Forest μ} (i : TInv w) {r c k l : Nat} (hb : Below w c k) (hc : Chain w c r l) :
    ∃ l', Chain w k r l' ∧ l ≤ l' := by
  induction hb generalizing l with
  | refl => exact ⟨l, hc, le_refl _⟩
  | step h1 _ ih =>
    obtain ⟨m, h2, h3⟩ := i.child _ _ h1
    obtain ⟨l', h4, h5⟩ := ih (Chain.step h2 (by unfold Node.up; rw [h3]) hc)
    exact ⟨l', h4, by omega⟩

theorem Below.snoc {w : Forest μ} {c d k : Nat} (h : Below w c d) (hk : Child w d k) : Below w c k := by
  induction h with
  | refl => exact Below.step hk (Below.refl _)
  | step h1 _ ih => exact Below.step h1 (ih hk)

theorem Below.split {w : Forest μ} {a k : Nat} (hb : Below w a k) (hne : a ≠ k) : ∃ b, Below w a b ∧ Child w b k := by
  induction hb with
  | refl => exact absurd rfl hne
  | @step a d k h1 h2 ih =>
    by_cases hd : d = k
    · subst hd; exact ⟨a, Below.refl _, h1⟩
    · obtain ⟨b, h3, h4⟩ := ih hd
      exact ⟨b, Below.step h1 h3, h4⟩

/-- The number of steps is the length of the chain. -/
theorem parentFrom_below {w : Forest μ} (i : TInv w) {k r l : Nat} (hl : Chain w k r l) (hk : Below w r k) :
    ∀ f, l < f → ∃ w', parentFrom f k w = .ok w' r := by
  induction hl with
  | @root c0 n hn hu =>
    intro f hf
    obtain ⟨g, rfl⟩ : ∃ g, f = g + 1 := ⟨f - 1, by omega⟩
    have hp : n.parent = none := by
      unfold Node.up at hu
      cases hp : n.parent with
      | some p => rw [hp] at hu; cases hu
      | none => rfl
    simp only [parentFrom, M.bind_apply]
    rw [get_eq hn]
    simp only [Out.bind_ok, hp, M.bind_apply, reference]
    rw [modify_eq _ hn]
    exact ⟨_, rfl⟩
  | @step c0 p r0 l n hn hu hp ih =>
    intro f hf
    obtain ⟨g, rfl⟩ : ∃ g, f = g + 1 := ⟨f - 1, by omega⟩
    -- a Ceed below the root, not the root itself, has a parent below the root
    have hne : r0 ≠ c0 := by
      rintro rfl
      obtain ⟨m, h1, h2⟩ := hp.top
      rw [hn] at h1; cases h1; rw [hu] at h2; cases h2
    obtain ⟨b, h3, h4⟩ := hk.split hne
    obtain ⟨m, h5, h6⟩ := i.child _ _ h4
    rw [hn] at h5; cases h5
    unfold Node.up at hu
    rw [h6] at hu; cases hu
    simp only [parentFrom, M.bind_apply]
    rw [get_eq hn]
    simp only [Out.bind_ok, h6]
    exact ih h3 g (by omega)

/-- **C34, partly.** The parent of a Ceed reached from a root through delegates and object delegates, at any depth, is
that root. Missing: Ceeds reached through an operator fallback, see `C34_parent_witness`. -/
theorem C34_parent_partial {w : Forest μ} (h : Grown w) {r c : Nat} (hr : IsRoot w r) (hb : Below w r c) :
    ∃ w', getParent c w = .ok w' r := by
  have i := h.inv
  obtain ⟨nr, h1, h2⟩ := isRoot_up hr
  obtain ⟨l, hl, _⟩ := hb.chain i (Chain.root h1 h2)
  exact parentFrom_below i hl hb _ (hl.lt_next i.fresh)

/-! ### Error handlers -/

open Classical in
/-- The forest with handler `h` on the Ceeds in `P`. -/
noncomputable def paint (h : Handler) (P : Nat → Prop) (w : Forest μ) : Forest μ :=
  { w with node := fun k => if P k then (w.node k).map (fun n => { n with handler := h }) else w.node k }

theorem paint_same (h : Handler) (P : Nat → Prop) (w : Forest μ) : Same w (paint h P w) := by
  refine ⟨rfl, fun k => ?_⟩
  unfold paint
  dsimp only
  split
  · cases w.node k <;> rfl
  · rfl

theorem paint_paint (h : Handler) (P Q : Nat → Prop) (w : Forest μ) :
    paint h P (paint h Q w) = paint h (fun k => Q k ∨ P k) w := by
  unfold paint
  dsimp only
  congr 1
  funext k
  by_cases hP : P k <;> by_cases hQ : Q k <;> simp [hP, hQ]
  cases w.node k <;> rfl

theorem paint_congr (h : Handler) {P Q : Nat → Prop} (w : Forest μ) (hPQ : ∀ k, P k ↔ Q k) : paint h P w = paint h Q w := by
  have : P = Q := funext fun k => propext (hPQ k)
  rw [this]

theorem paint_empty (h : Handler) {P : Nat → Prop} (w : Forest μ) (hP : ∀ k, ¬ P k) : paint h P w = w := by
  unfold paint
  simp [hP]

theorem paint_below (h : Handler) (P : Nat → Prop) (w : Forest μ) (a k : Nat) : Below (paint h P w) a k ↔ Below w a k :=
  ⟨fun hb => (paint_same h P w).symm.below hb, fun hb => (paint_same h P w).below hb⟩

theorem setHandlerFrom_eq (h : Handler) : ∀ (f : Nat) {w : Forest μ} (_ : TInv w) {c r l : Nat} (_ : Chain w c r l)
    (_ : w.next ≤ l + f), setHandlerFrom h f c w = .ok (paint h (Below w c) w) () := by
  intro f
  induction f with
  | zero =>
    intro w i c r l hc hf
    have := hc.lt_next i.fresh
    omega
  | succ f ih =>
    intro w i c r l hc hf
    obtain ⟨n, hn⟩ := hc.alive
    have e1 : w.set c (some { n with handler := h }) = paint h (fun k => k = c) w := by
      unfold Forest.set paint
      congr 1
      funext k
      by_cases hk : k = c
      · subst hk; simp [hn]
      · simp [hk]
    have e2 : (paint h (fun k => k = c) w).node c = some { n with handler := h } := by simp [paint, hn]
    -- the effect on one delegate
    have one : ∀ P d, Child w c d → setHandlerFrom h f d (paint h P w) = .ok (paint h (fun k => P k ∨ Below w d k) w) () := by
      intro P d hd
      have s := paint_same h P w
      obtain ⟨m, h1, h2⟩ := i.child _ _ hd
      have hcd : Chain w d r (l + 1) := Chain.step h1 (by unfold Node.up; rw [h2]) hc
      rw [ih (s.tinv i) (s.chain hcd) (by rw [s.1]; omega), paint_paint]
      rw [paint_congr h w (fun k => by rw [paint_below])]
    simp only [setHandlerFrom, M.bind_apply]
    rw [modify_eq _ hn, e1]
    simp only [Out.bind_ok]
    rw [get_eq e2]
    simp only [Out.bind_ok]
    have step2 : onSome n.delegate (setHandlerFrom h f) (paint h (fun k => k = c) w) =
        .ok (paint h (fun k => k = c ∨ ∃ d, n.delegate = some d ∧ Below w d k) w) () := by
      cases hd : n.delegate with
      | none =>
        simp only [onSome, M.pure_apply]
        refine congrArg (fun z => Out.ok z ()) (paint_congr h w fun k => ?_)
        simp
      | some d =>
        simp only [onSome]
        rw [one _ d ⟨n, hn, Or.inl hd⟩]
        refine congrArg (fun z => Out.ok z ()) (paint_congr h w fun k => ?_)
        simp
    rw [step2]
    simp only [Out.bind_ok]
    have step3 : ∀ j, j ≤ n.objs.length →
        M.loop j (fun i => onSome (n.objs[i]?.map Prod.snd) (setHandlerFrom h f))
          (paint h (fun k => k = c ∨ ∃ d, n.delegate = some d ∧ Below w d k) w) =
        .ok (paint h (fun k => (k = c ∨ ∃ d, n.delegate = some d ∧ Below w d k) ∨
          ∃ i, i < j ∧ ∃ x d, n.objs[i]? = some (x, d) ∧ Below w d k) w) () := by
      intro j
      induction j with
      | zero =>
        intro _
        rw [M.loop_zero]
        refine congrArg (fun z => Out.ok z ()) (paint_congr h w fun k => ?_)
        simp
      | succ j ihj =>
        intro hj
        rw [M.loop_succ, ihj (by omega)]
        simp only [Out.bind_ok]
        obtain ⟨x, d, hx⟩ : ∃ x d, n.objs[j]? = some (x, d) := ⟨_, _, List.getElem?_eq_getElem (by omega)⟩
        rw [hx]
        simp only [onSome, Option.map_some]
        rw [one _ d ⟨n, hn, Or.inr ⟨x, List.mem_of_getElem? hx⟩⟩]
        refine congrArg (fun z => Out.ok z ()) (paint_congr h w fun k => ?_)
        rw [or_assoc]
        apply or_congr_right
        constructor
        · rintro (⟨i, h1, h2⟩ | h1)
          · exact ⟨i, by omega, h2⟩
          · exact ⟨j, by omega, x, d, hx, h1⟩
        · rintro ⟨i, h1, y, e, h2, h3⟩
          by_cases hij : i = j
          · subst hij
            rw [hx] at h2; cases h2
            exact Or.inr h3
          · exact Or.inl ⟨i, by omega, y, e, h2, h3⟩
    rw [step3 _ (le_refl _)]
    refine congrArg (fun z => Out.ok z ()) (paint_congr h w fun k => ?_)
    constructor
    · rintro ((rfl | ⟨d, h1, h2⟩) | ⟨i, h1, x, d, h2, h3⟩)
      · exact Below.refl _
      · exact Below.step ⟨n, hn, Or.inl h1⟩ h2
      · exact Below.step ⟨n, hn, Or.inr ⟨x, List.mem_of_getElem? h2⟩⟩ h3
    · intro hb
      cases hb with
      | refl => exact Or.inl (Or.inl rfl)
      | step h1 h2 =>
        obtain ⟨n', h3, h4⟩ := h1
        rw [hn] at h3; cases h3
        rcases h4 with h4 | ⟨x, h4⟩
        · exact Or.inl (Or.inr ⟨_, h4, h2⟩)
        · obtain ⟨i, hi⟩ := List.mem_iff_getElem?.1 h4
          have : i < n.objs.length := by
            by_contra hge
            rw [List.getElem?_eq_none (by omega)] at hi
            cases hi
          exact Or.inr ⟨i, this, x, _, hi, h2⟩

/-- **C34.** `CeedSetErrorHandler` on a Ceed sets the handler of exactly this Ceed and the Ceeds reached from it through
delegates and object delegates, at any depth, and changes nothing else. -/
theorem C34_handler {w : Forest μ} (hw : Grown w) {c : Nat} {n : Node μ} (hc : w.node c = some n) (h : Handler) :
    ∃ w', setHandler c h w = .ok w' () ∧
      (∀ k m, w.node k = some m → Below w c k → w'.node k = some { m with handler := h }) ∧
      (∀ k, ¬ Below w c k → w'.node k = w.node k) := by
  obtain ⟨r, l, hl⟩ := hw.inv.chain c n hc
  refine ⟨_, setHandlerFrom_eq h _ hw.inv hl (by omega), ?_, ?_⟩
  · intro k m hm hb
    simp [paint, hb, hm]
  · intro k hb
    simp [paint, hb]

end Verif.Ceed
