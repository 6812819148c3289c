import Verif.Ceed.Tree

/-!
# Invariants of trees of Ceeds
-/

namespace Verif.Ceed

variable {μ : Type}

/-- Where errors of a Ceed go next. -/
def Node.up (n : Node μ) : Option Nat :=
  match n.parent with
  | some p => some p
  | none => n.fbParent

/-- `c` leads to `r` in `l` steps along `up`, all Ceeds on the way being allocated. -/
inductive Chain (w : Forest μ) : Nat → Nat → Nat → Prop
  | root {c : Nat} {n : Node μ} (h : w.node c = some n) (hu : n.up = none) : Chain w c c 0
  | step {c p r l : Nat} {n : Node μ} (h : w.node c = some n) (hu : n.up = some p) (hp : Chain w p r l) :
      Chain w c r (l + 1)

/-- `d` is a delegate or an object delegate of `c`. -/
def Child (w : Forest μ) (c d : Nat) : Prop :=
  ∃ n, w.node c = some n ∧ (n.delegate = some d ∨ ∃ x, (x, d) ∈ n.objs)

/-- `c` is reached from `r` through delegates. -/
inductive Below (w : Forest μ) : Nat → Nat → Prop
  | refl (c : Nat) : Below w c c
  | step {c d k : Nat} (h : Child w c d) (hd : Below w d k) : Below w c k

theorem Chain.unique {w : Forest μ} {c r r' l l' : Nat} (h : Chain w c r l) (h' : Chain w c r' l') : r = r' ∧ l = l' := by
  induction h generalizing l' with
  | root h hu =>
    cases h' with
    | root => exact ⟨rfl, rfl⟩
    | step h2 hu2 _ =>
      rw [h] at h2; cases h2; rw [hu] at hu2; cases hu2
  | step h hu _ ih =>
    cases h' with
    | root h2 hu2 => rw [h] at h2; cases h2; rw [hu] at hu2; cases hu2
    | step h2 hu2 hp2 =>
      rw [h] at h2; cases h2; rw [hu] at hu2; cases hu2
      obtain ⟨e1, e2⟩ := ih hp2
      exact ⟨e1, by omega⟩

theorem Chain.alive {w : Forest μ} {c r l : Nat} (h : Chain w c r l) : ∃ n, w.node c = some n := by
  cases h with
  | root h _ => exact ⟨_, h⟩
  | step h _ _ => exact ⟨_, h⟩

theorem Chain.top {w : Forest μ} {c r l : Nat} (h : Chain w c r l) : ∃ n, w.node r = some n ∧ n.up = none := by
  induction h with
  | root h hu => exact ⟨_, h, hu⟩
  | step _ _ _ ih => exact ih

theorem Chain.at {w : Forest μ} {c r l : Nat} (h : Chain w c r l) (j : Nat) (hj : j ≤ l) : ∃ k, Chain w k r j := by
  induction h with
  | root h hu => exact ⟨_, by have : j = 0 := by omega
                              subst this; exact Chain.root h hu⟩
  | @step c p r l n h hu hp ih =>
    by_cases hl : j = l + 1
    · subst hl; exact ⟨c, Chain.step h hu hp⟩
    · exact ih (by omega)

/-- Only Ceeds made so far are allocated. -/
def Fresh (w : Forest μ) : Prop := ∀ k n, w.node k = some n → k < w.next

/-- A chain is shorter than the number of Ceeds: its Ceeds differ, having different distances to the root. -/
theorem Chain.lt_next {w : Forest μ} (hf : Fresh w) {c r l : Nat} (h : Chain w c r l) : l < w.next := by
  choose! g hg using fun j (hj : j ≤ l) => h.at j hj
  have hinj : Set.InjOn g (Finset.range (l + 1)) := by
    intro a ha b hb hab
    simp only [Finset.coe_range, Set.mem_Iio] at ha hb
    have h1 := hg a (by omega)
    have h2 := hg b (by omega)
    rw [hab] at h1
    exact (h1.unique h2).2
  have hcard := Finset.card_le_card_of_injOn g (s := Finset.range (l + 1)) (t := Finset.range w.next) (by
    intro a ha
    simp only [Finset.coe_range, Set.mem_Iio] at ha
    obtain ⟨n, hn⟩ := (hg a (by omega)).alive
    simpa using hf _ _ hn) hinj
  simp only [Finset.card_range] at hcard
  omega

theorem topFrom_eq {w : Forest μ} {c r l : Nat} (h : Chain w c r l) : ∀ f, l < f → topFrom f c w = .ok w r := by
  induction h with
  | @root c n h hu =>
    intro f hf
    cases f with
    | zero => omega
    | succ f =>
      simp only [topFrom, M.bind_apply, get, h, Out.bind_ok]
      unfold Node.up at hu
      cases hp : n.parent with
      | some p => rw [hp] at hu; cases hu
      | none => rw [hp] at hu; dsimp only at hu; rw [hu]; rfl
  | @step c p r l n h hu hp ih =>
    intro f hf
    cases f with
    | zero => omega
    | succ f =>
      simp only [topFrom, M.bind_apply, get, h, Out.bind_ok]
      unfold Node.up at hu
      cases hpar : n.parent with
      | some q => rw [hpar] at hu; cases hu; exact ih f (by omega)
      | none => rw [hpar] at hu; dsimp only at hu; rw [hu]; exact ih f (by omega)

theorem top_eq {w : Forest μ} (hf : Fresh w) {c r l : Nat} (h : Chain w c r l) : top c w = .ok w r :=
  topFrom_eq h _ (h.lt_next hf)

/-! ### Changes that keep all pointers -/

/-- The pointers of a Ceed. -/
def Node.skel (n : Node μ) : Option Nat × Option Nat × Option Nat × List (List Char × Nat) × Option Nat :=
  (n.parent, n.fbParent, n.delegate, n.objs, n.fallback)

/-- Same Ceeds with the same pointers. -/
def Same (w w' : Forest μ) : Prop :=
  w'.next = w.next ∧ ∀ k, (w'.node k).map Node.skel = (w.node k).map Node.skel

theorem Same.refl (w : Forest μ) : Same w w := ⟨rfl, fun _ => rfl⟩
theorem Same.trans {a b c : Forest μ} (h : Same a b) (h' : Same b c) : Same a c :=
  ⟨h'.1.trans h.1, fun k => (h'.2 k).trans (h.2 k)⟩
theorem Same.symm {a b : Forest μ} (h : Same a b) : Same b a := ⟨h.1.symm, fun k => (h.2 k).symm⟩

theorem Same.node {w w' : Forest μ} (h : Same w w') {k : Nat} {n : Node μ} (hn : w.node k = some n) :
    ∃ n', w'.node k = some n' ∧ n'.parent = n.parent ∧ n'.fbParent = n.fbParent ∧ n'.delegate = n.delegate ∧
      n'.objs = n.objs ∧ n'.fallback = n.fallback := by
  have := h.2 k
  rw [hn] at this
  cases hk : w'.node k with
  | none => rw [hk] at this; cases this
  | some n' =>
    rw [hk] at this
    simp only [Option.map_some, Option.some.injEq, Node.skel, Prod.mk.injEq] at this
    exact ⟨n', rfl, this⟩

theorem Same.up {w w' : Forest μ} (h : Same w w') {k : Nat} {n : Node μ} (hn : w.node k = some n) :
    ∃ n', w'.node k = some n' ∧ n'.up = n.up := by
  obtain ⟨n', h1, h2, h3, _⟩ := h.node hn
  exact ⟨n', h1, by unfold Node.up; rw [h2, h3]⟩

theorem Same.chain {w w' : Forest μ} (h : Same w w') {c r l : Nat} (hc : Chain w c r l) : Chain w' c r l := by
  induction hc with
  | root hn hu =>
    obtain ⟨n', h1, h2⟩ := h.up hn
    exact Chain.root h1 (h2.trans hu)
  | step hn hu _ ih =>
    obtain ⟨n', h1, h2⟩ := h.up hn
    exact Chain.step h1 (h2.trans hu) ih

theorem Same.child {w w' : Forest μ} (h : Same w w') {c d : Nat} (hc : Child w c d) : Child w' c d := by
  obtain ⟨n, hn, hd⟩ := hc
  obtain ⟨n', h1, _, _, h2, h3, _⟩ := h.node hn
  exact ⟨n', h1, by rw [h2, h3]; exact hd⟩

theorem Same.below {w w' : Forest μ} (h : Same w w') {c d : Nat} (hc : Below w c d) : Below w' c d := by
  induction hc with
  | refl => exact Below.refl _
  | step h1 _ ih => exact Below.step (h.child h1) ih

theorem Same.fresh {w w' : Forest μ} (h : Same w w') (hf : Fresh w) : Fresh w' := by
  intro k n hn
  obtain ⟨n', h1, _⟩ := h.symm.node hn
  rw [h.1]
  exact hf k n' h1

/-- Pointers of the two directions agree, and every Ceed leads to a root. -/
structure TInv (w : Forest μ) : Prop where
  fresh : Fresh w
  child : ∀ c d, Child w c d → ∃ m, w.node d = some m ∧ m.parent = some c
  fall : ∀ c d n, w.node c = some n → n.fallback = some d → ∃ m, w.node d = some m ∧ m.parent = none ∧ m.fbParent = some c
  chain : ∀ c n, w.node c = some n → ∃ r l, Chain w c r l

theorem Same.tinv {w w' : Forest μ} (h : Same w w') (i : TInv w) : TInv w' where
  fresh := h.fresh i.fresh
  child := by
    intro c d hc
    obtain ⟨m, h1, h2⟩ := i.child c d (h.symm.child hc)
    obtain ⟨m', h3, h4, _⟩ := h.node h1
    exact ⟨m', h3, h4.trans h2⟩
  fall := by
    intro c d n hn hd
    obtain ⟨n0, h1, _, _, _, _, h2⟩ := h.symm.node hn
    obtain ⟨m, h3, h4, h5⟩ := i.fall c d n0 h1 (h2.trans hd)
    obtain ⟨m', h6, h7, h8, _⟩ := h.node h3
    exact ⟨m', h6, h7.trans h4, h8.trans h5⟩
  chain := by
    intro c n hn
    obtain ⟨n0, h1, _⟩ := h.symm.node hn
    obtain ⟨r, l, hc⟩ := i.chain c n0 h1
    exact ⟨r, l, h.chain hc⟩

theorem modify_same {w w' : Forest μ} {c : Nat} {f : Node μ → Node μ} (h : modify c f w = .ok w' ())
    (hf : ∀ n, (f n).skel = n.skel) : Same w w' := by
  unfold modify at h
  cases hn : w.node c with
  | none => rw [hn] at h; cases h
  | some n =>
    rw [hn] at h
    cases h
    refine ⟨rfl, fun k => ?_⟩
    by_cases hk : k = c
    · subst hk; simp [hn, hf]
    · simp [hk]

theorem modify_eq {w : Forest μ} {c : Nat} {n : Node μ} (f : Node μ → Node μ) (h : w.node c = some n) :
    modify c f w = .ok (w.set c (some (f n))) () := by
  simp [modify, h]

theorem get_eq {w : Forest μ} {c : Nat} {n : Node μ} (h : w.node c = some n) : get c w = .ok w n := by
  simp [get, h]

/-! ### Adding an edge -/

/-- `d`, a root, is put below `c`, which is in another tree. -/
theorem link_chain {w w' : Forest μ} {c d rc lc : Nat}
    (hup : ∀ k n, k ≠ d → w.node k = some n → ∃ n', w'.node k = some n' ∧ n'.up = n.up)
    (hd : ∃ n', w'.node d = some n' ∧ n'.up = some c) (hroot : ∃ n, w.node d = some n ∧ n.up = none)
    (hc : Chain w c rc lc) (hne : rc ≠ d) {k r l : Nat} (h : Chain w k r l) :
    (r ≠ d → Chain w' k r l) ∧ (r = d → Chain w' k rc (l + 1 + lc)) := by
  have first : ∀ {k r l}, Chain w k r l → r ≠ d → Chain w' k r l := by
    intro k r l h
    induction h with
    | @root c0 n hn hu =>
      intro hr
      obtain ⟨n', h1, h2⟩ := hup _ n hr hn
      exact Chain.root h1 (h2.trans hu)
    | @step c0 p r l n hn hu _ ih =>
      intro hr
      have hk : c0 ≠ d := by
        rintro rfl
        obtain ⟨m, h1, h2⟩ := hroot
        rw [h1] at hn; cases hn; rw [h2] at hu; cases hu
      obtain ⟨n', h1, h2⟩ := hup _ n hk hn
      exact Chain.step h1 (h2.trans hu) (ih hr)
  refine ⟨first h, ?_⟩
  induction h with
  | @root c0 n hn hu =>
    rintro rfl
    obtain ⟨n', h1, h2⟩ := hd
    have := Chain.step h1 h2 (first hc hne)
    rw [show 0 + 1 + lc = lc + 1 by omega]
    exact this
  | @step c0 p r l n hn hu _ ih =>
    intro hr
    have hk : c0 ≠ d := by
      rintro rfl
      obtain ⟨m, h1, h2⟩ := hroot
      rw [h1] at hn; cases hn; rw [h2] at hu; cases hu
    obtain ⟨n', h1, h2⟩ := hup _ n hk hn
    have := Chain.step h1 (h2.trans hu) (ih hr)
    rw [show l + 1 + 1 + lc = l + 1 + lc + 1 by omega]
    exact this

end Verif.Ceed
