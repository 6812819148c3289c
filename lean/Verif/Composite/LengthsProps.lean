import Verif.Composite.Lengths

/-!
# C42: active vector lengths
-/

namespace Verif.Composite

/-! ## Specification -/

/-- Recorded length of the active input or output vector. -/
def Node.len (x : Node) (isIn : Bool) : Int := if isIn then x.inSize else x.outSize

/-- Component of a pair of lengths. -/
def pick (isIn : Bool) (r : Int × Int) : Int := if isIn then r.1 else r.2

/-- `j` is an operator without sub-operators that is, or is part of, operator `k`. -/
inductive Leaf (h : Heap) : Nat → Nat → Prop
  | self {k : Nat} (hk : (h k).comp = false) : Leaf h k k
  | sub {k s j : Nat} (hs : s ∈ (h k).subs) (hj : Leaf h s j) : Leaf h k j

/-- `n` is the length of the active vector of operator `k`: the common length of the leaves that have one, `-1` if there
are none. -/
structure Common (h : Heap) (k : Nat) (isIn : Bool) (n : Int) : Prop where
  all : ∀ j, Leaf h k j → (h j).len isIn = -1 ∨ (h j).len isIn = n
  some : n ≠ -1 → ∃ j, Leaf h k j ∧ (h j).len isIn = n

/-- `CeedOperatorSetField` on an operator that is not composite: lengths are recorded where none is known. -/
structure Edit (x y : Node) : Prop where
  comp : x.comp = false ∧ y.comp = false
  subs : y.subs = x.subs
  len : ∀ k, y.len k = x.len k ∨ (x.len k = -1 ∧ 0 ≤ y.len k)

/-- Part of operator `k`. -/
inductive Below (h : Heap) : Nat → Nat → Prop
  | self {k : Nat} : Below h k k
  | sub {k s j : Nat} (hs : s ∈ (h k).subs) (hj : Below h s j) : Below h k j

/-- Steps of a history. If `tidy`, operators are not changed after they have been added to a composite operator, no
operator is added to itself, no call of `CeedCompositeOperatorAddSub` is refused, and no operator with empty composite
parts is checked for readiness. -/
inductive Step (tidy : Prop) : Heap → Heap → Prop
  | edit {h : Heap} {k : Nat} {x : Node} (hx : Edit (h k) x) (ht : tidy → ∀ c, k ∉ (h c).subs) :
      Step tidy h (Function.update h k x)
  | addSub {h h' : Heap} {n c s : Nat} (ht : tidy → s ≠ c ∧ ∀ d, c ∉ (h d).subs) (e : addSub n c s h = .ok h' ()) :
      Step tidy h h'
  | addSubErr {h h' : Heap} {n c s : Nat} {x : Err} (ht : ¬ tidy) (e : addSub n c s h = .err h' x) : Step tidy h h'
  | getLens {h h' : Heap} {n k : Nat} {r : Int × Int} (e : getLens n k h = .ok h' r) : Step tidy h h'
  | getLensErr {h h' : Heap} {n k : Nat} {x : Err} (e : getLens n k h = .err h' x) : Step tidy h h'
  | checkReady {h h' : Heap} {n k : Nat} (ht : tidy → ∀ j, Below h k j → (h j).comp = true → (h j).subs ≠ [])
      (e : checkReady n k h = .ok h' ()) : Step tidy h h'
  | checkReadyErr {h h' : Heap} {n k : Nat} {x : Err}
      (ht : tidy → ∀ j, Below h k j → (h j).comp = true → (h j).subs ≠ []) (e : checkReady n k h = .err h' x) :
      Step tidy h h'

/-- Any number of steps. -/
inductive Steps (tidy : Prop) (h : Heap) : Heap → Prop
  | refl : Steps tidy h h
  | step {h1 h2 : Heap} (hs : Steps tidy h h1) (h12 : Step tidy h1 h2) : Steps tidy h h2

/-- The operators after creation. -/
def Created (h : Heap) : Prop := ∀ k, ∃ c, h k = Node.create c

/-! ## All histories -/

/-- What every call preserves: kinds, and lengths once they are known. -/
structure Kept (h h' : Heap) : Prop where
  comp : ∀ k, (h' k).comp = (h k).comp
  subs : ∀ k, (h' k).subs = (h k).subs
  len : ∀ k i, (h k).len i ≠ -1 → (h' k).len i = (h k).len i
  fresh : ∀ k, (h k).comp = true → (h k).subs = [] → (h' k).ready = false →
    (h k).ready = false ∧ ∀ i, (h' k).len i = (h k).len i

theorem Kept.refl (h : Heap) : Kept h h := ⟨fun _ => rfl, fun _ => rfl, fun _ _ _ => rfl, fun _ _ _ hr => ⟨hr, fun _ => rfl⟩⟩

theorem Kept.trans {h1 h2 h3 : Heap} (a : Kept h1 h2) (b : Kept h2 h3) : Kept h1 h3 := by
  refine ⟨fun k => (b.comp k).trans (a.comp k), fun k => (b.subs k).trans (a.subs k), fun k i hk => ?_, fun k hc hs hr => ?_⟩
  · rw [b.len k i (by rw [a.len k i hk]; exact hk), a.len k i hk]
  · obtain ⟨r1, r2⟩ := b.fresh k ((a.comp k).trans hc) ((a.subs k).trans hs) hr
    obtain ⟨r3, r4⟩ := a.fresh k hc hs r1
    exact ⟨r3, fun i => (r2 i).trans (r4 i)⟩

theorem record_len (a b : Int) (x : Node) (i : Bool) :
    (x.record a b).len i = if x.len i = -1 then pick i (a, b) else x.len i := by
  cases i <;> rfl

theorem fits_iff (a b : Int) (x : Node) : x.fits a b ↔ ∀ i, pick i (a, b) = -1 ∨ pick i (a, b) = x.len i := by
  constructor
  · rintro ⟨h1, h2⟩ (_ | _)
    · exact h2
    · exact h1
  · intro h; exact ⟨h true, h false⟩

theorem join_eq (k : Nat) (a b : Int) (h : Heap) :
    join k a b h = if ((h k).record a b).fits a b then .ok (Function.update h k ((h k).record a b)) ()
      else .err (Function.update h k ((h k).record a b)) .major := by
  unfold join
  simp only [M.bind_apply, modN_apply, getH_apply, Out.bind_ok, M.check_apply, Function.update_self]

theorem kept_record {h : Heap} {k : Nat} (a b : Int) (hk : (h k).subs ≠ [] ∨ (h k).comp = false) :
    Kept h (Function.update h k ((h k).record a b)) := by
  have e : ∀ j, (Function.update h k ((h k).record a b)) j = if j = k then (h k).record a b else h j := fun j => by
    rw [Function.update_apply]
  refine ⟨fun j => ?_, fun j => ?_, fun j i hj => ?_, fun j hc hs hr => ?_⟩
  · rw [e]; split
    · rename_i hh; rw [hh]; rfl
    · rfl
  · rw [e]; split
    · rename_i hh; rw [hh]; rfl
    · rfl
  · rw [e]; split
    · rename_i hh
      rw [hh] at hj
      rw [record_len, if_neg hj, hh]
    · rfl
  · rw [e] at hr ⊢
    by_cases hh : j = k
    · rw [hh] at hc hs
      rcases hk with hk | hk
      · exact absurd hs hk
      · rw [hk] at hc; cases hc
    · rw [if_neg hh] at hr ⊢
      exact ⟨hr, fun i => rfl⟩

theorem lensLoop_post {g : Nat → M Heap (Int × Int)} (hg : ∀ s h, (g s h).Post (Kept h)) {k : Nat} (l : List Nat) {h0 h : Heap}
    (h1 : Kept h0 h) (hk : (h0 k).subs ≠ [] ∨ (h0 k).comp = false) : (lensLoop g k l h).Post (Kept h0) := by
  induction l generalizing h with
  | nil => exact h1
  | cons s t ih =>
    unfold lensLoop
    simp only [M.bind_apply]
    have hs := hg s h
    cases e : g s h with
    | ub => trivial
    | err h' x => rw [e] at hs; exact h1.trans hs
    | ok h' r =>
      rw [e] at hs
      rw [Out.bind_ok, join_eq]
      have hk' : (h' k).subs ≠ [] ∨ (h' k).comp = false := by
        rw [(h1.trans hs).subs, (h1.trans hs).comp]; exact hk
      have := (h1.trans hs).trans (kept_record r.1 r.2 hk')
      split
      · rw [Out.bind_ok]; exact ih this
      · exact this

theorem getLens_post (n k : Nat) (h : Heap) : (getLens n k h).Post (Kept h) := by
  induction n generalizing k h with
  | zero => trivial
  | succ n ih =>
    unfold getLens
    simp only [M.bind_apply, getH_apply, Out.bind_ok]
    split
    · rw [M.bind_apply]
      by_cases hs : (h k).subs = []
      · rw [hs]; exact Kept.refl h
      · have := lensLoop_post (fun s h => ih s h) (h (k)).subs (Kept.refl h) (Or.inl hs)
        cases e : lensLoop (getLens n) k (h k).subs h with
        | ub => trivial
        | err h' x => rw [e] at this; exact this
        | ok h' r => rw [e] at this; exact this
    · exact Kept.refl h

theorem getLens_value {n k : Nat} {h h' : Heap} {r : Int × Int} (e : getLens n k h = .ok h' r) :
    r = ((h k).inSize, (h k).outSize) := by
  cases n with
  | zero => cases e
  | succ n =>
    unfold getLens at e
    simp only [M.bind_apply, getH_apply, Out.bind_ok] at e
    split at e
    · rw [M.bind_apply, Out.bind_eq_ok] at e
      obtain ⟨_, _, _, e⟩ := e
      cases e; rfl
    · cases e; rfl

/-- What holds after every history: a composite operator that is empty and not checked for readiness has no lengths. -/
def Fresh (h : Heap) : Prop := ∀ k, (h k).comp = true → (h k).subs = [] → (h k).ready = false → ∀ i, (h k).len i = -1

/-- Lengths once known stay. -/
def Lasts (h h' : Heap) : Prop := ∀ k i, (h k).len i ≠ -1 → (h' k).len i = (h k).len i

theorem Kept.fresh' {h h' : Heap} (k : Kept h h') (hf : Fresh h) : Fresh h' := by
  intro j hc hs hr i
  rw [k.comp] at hc
  rw [k.subs] at hs
  obtain ⟨r1, r2⟩ := k.fresh j hc hs hr
  rw [r2, hf j hc hs r1]

theorem kept_ready (h : Heap) (k : Nat) : Kept h (Function.update h k { h k with ready := true }) := by
  have e : ∀ j, (Function.update h k { h k with ready := true }) j = if j = k then { h k with ready := true } else h j := fun j => by
    rw [Function.update_apply]
  refine ⟨fun j => ?_, fun j => ?_, fun j i hj => ?_, fun j hc hs hr => ?_⟩
  · rw [e]; split
    · rename_i hh; rw [hh]
    · rfl
  · rw [e]; split
    · rename_i hh; rw [hh]
    · rfl
  · rw [e]; split
    · rename_i hh; rw [hh]; rfl
    · rfl
  · rw [e] at hr ⊢
    by_cases hh : j = k
    · rw [if_pos hh] at hr; cases hr
    · rw [if_neg hh] at hr ⊢; exact ⟨hr, fun _ => rfl⟩

theorem post_bind_kept {β γ : Type _} {x : Out Heap β} {f : Heap → β → Out Heap γ} {h0 : Heap} (hx : x.Post (Kept h0))
    (hf : ∀ s a, x = .ok s a → Kept h0 s → (f s a).Post (Kept h0)) : (x.bind f).Post (Kept h0) :=
  Out.Post.bind hx (fun _ => id) hf

/-- Lengths set to zero on an empty operator, which is then marked as ready. -/
theorem kept_zero {h0 h : Heap} {k : Nat} (h1 : Kept h0 h) (hf : Fresh h0) (hc : (h k).comp = true) (hs : (h k).subs = [])
    (hr : (h k).ready = false) :
    Kept h0 (Function.update h k { h k with inSize := 0, outSize := 0, ready := true }) := by
  have e : ∀ j, (Function.update h k { h k with inSize := 0, outSize := 0, ready := true }) j =
      if j = k then { h k with inSize := 0, outSize := 0, ready := true } else h j := fun j => by rw [Function.update_apply]
  refine ⟨fun j => ?_, fun j => ?_, fun j i hj => ?_, fun j hc' hs' hr' => ?_⟩
  · rw [e]; split
    · rename_i hh; rw [hh]; exact h1.comp k
    · exact h1.comp j
  · rw [e]; split
    · rename_i hh; rw [hh]; exact h1.subs k
    · exact h1.subs j
  · rw [e]; split
    · rename_i hh
      rw [hh] at hj
      have hc0 : (h0 k).comp = true := by rw [← h1.comp]; exact hc
      have hs0 : (h0 k).subs = [] := by rw [← h1.subs]; exact hs
      exact absurd (hf k hc0 hs0 (h1.fresh k hc0 hs0 hr).1 i) hj
    · exact h1.len j i hj
  · rw [e] at hr' ⊢
    by_cases hh : j = k
    · rw [if_pos hh] at hr'; cases hr'
    · rw [if_neg hh] at hr' ⊢; exact h1.fresh j hc' hs' hr'

theorem forAll_post {g : Nat → M Heap Unit} (hg : ∀ s h, Fresh h → (g s h).Post (Kept h)) (l : List Nat) {h : Heap}
    (hf : Fresh h) : (forAll g l h).Post (Kept h) := by
  induction l generalizing h with
  | nil => exact Kept.refl h
  | cons s t ih =>
    unfold forAll
    rw [M.bind_apply]
    refine post_bind_kept (hg s h hf) fun h' a _ hk => ?_
    have := ih (hk.fresh' hf)
    cases e : forAll g t h' with
    | ub => trivial
    | err h2 x => rw [e] at this; exact hk.trans this
    | ok h2 x => rw [e] at this; exact hk.trans this

theorem checkReady_post (n k : Nat) {h : Heap} (hf : Fresh h) : (checkReady n k h).Post (Kept h) := by
  induction n generalizing k h with
  | zero => trivial
  | succ n ih =>
    unfold checkReady
    simp only [M.bind_apply, getH_apply, Out.bind_ok]
    split
    · exact Kept.refl h
    · rename_i hr
      rw [M.bind_apply]
      by_cases hc : (h k).comp = true
      · rw [if_pos hc]
        unfold readyComposite
        by_cases hs : (h k).subs = []
        · rw [if_pos hs]
          simp only [modN_apply, Out.bind_ok, Function.update_self, Function.update_idem]
          exact kept_zero (Kept.refl h) hf hc hs (by simpa using hr)
        · rw [if_neg hs]
          refine post_bind_kept ?_ fun h' _ _ hk => ?_
          · rw [M.bind_apply]
            refine post_bind_kept (forAll_post (fun s h hf => ih s hf) _ hf) fun h1 _ _ hk => ?_
            rw [M.bind_apply]
            have := getLens_post (n + 1) k h1
            cases e : getLens (n + 1) k h1 with
            | ub => trivial
            | err h2 x => rw [e] at this; exact hk.trans this
            | ok h2 x => rw [e] at this; exact hk.trans this
          · exact hk.trans (kept_ready h' k)
      · rw [if_neg hc, M.check_apply]
        split
        · exact kept_ready h k
        · exact Kept.refl h

theorem addSub_post (n c s : Nat) {h : Heap} (hf : Fresh h) :
    (addSub n c s h).Post fun h' => Fresh h' ∧ Lasts h h' := by
  unfold addSub
  simp only [M.bind_apply, getH_apply, Out.bind_ok, M.check_apply]
  split
  · rename_i hc
    rw [Out.bind_ok]
    split
    · rw [Out.bind_ok]
      have hp := getLens_post n s h
      cases e : getLens n s h with
      | ub => trivial
      | err h1 x => rw [e] at hp; exact ⟨hp.fresh' hf, hp.len⟩
      | ok h1 r =>
        rw [e] at hp
        have hp : Kept h h1 := hp
        have hf1 := hp.fresh' hf
        rw [Out.bind_ok, join_eq]
        have hc1 : (h1 c).comp = true := (hp.comp c).trans hc
        have el : ∀ j i, (h1 j).len i ≠ -1 →
            ((Function.update h1 c ((h1 c).record r.1 r.2)) j).len i = (h1 j).len i := by
          intro j i hj
          rw [Function.update_apply]
          split
          · rename_i hh
            rw [hh] at hj
            rw [record_len, if_neg hj, hh]
          · rfl
        split
        · rw [Out.bind_ok]
          refine ⟨fun j hcj hs hr i => ?_, fun j i hj => ?_⟩
          · rw [Function.update_apply] at hs hr hcj ⊢
            by_cases hh : j = c
            · rw [if_pos hh] at hs
              simp at hs
            · rw [if_neg hh] at hs hr hcj ⊢
              rw [Function.update_of_ne hh] at hs hr hcj ⊢
              exact hf1 j hcj hs hr i
          · rw [← hp.len j i hj]
            rw [← hp.len j i hj] at hj
            rw [← el j i hj]
            rw [Function.update_apply]
            split
            · rename_i hh; rw [hh]; rfl
            · rfl
        · rename_i hnf
          refine ⟨fun j hcj hs hr i => ?_, fun j i hj => ?_⟩
          · rw [Function.update_apply] at hs hr hcj ⊢
            by_cases hh : j = c
            · rw [if_pos hh] at hs hr
              refine absurd ?_ hnf
              rw [fits_iff]
              intro i
              rw [record_len, hf1 c hc1 hs hr i, if_pos rfl]
              exact Or.inr rfl
            · rw [if_neg hh] at hs hr hcj ⊢
              exact hf1 j hcj hs hr i
          · rw [← hp.len j i hj]
            rw [← hp.len j i hj] at hj
            exact el j i hj
    · exact ⟨hf, fun _ _ _ => rfl⟩
  · exact ⟨hf, fun _ _ _ => rfl⟩

theorem Step.lasts {tidy : Prop} {h h' : Heap} (hs : Step tidy h h') (hf : Fresh h) : Fresh h' ∧ Lasts h h' := by
  have kept : Kept h h' → Fresh h' ∧ Lasts h h' := fun k => ⟨k.fresh' hf, k.len⟩
  cases hs with
  | @edit k x hx _ =>
    refine ⟨fun j hc hs hr i => ?_, fun j i hj => ?_⟩
    · rw [Function.update_apply] at hc hs hr ⊢
      by_cases hh : j = k
      · rw [if_pos hh, hx.comp.2] at hc; cases hc
      · rw [if_neg hh] at hc hs hr ⊢; exact hf j hc hs hr i
    · rw [Function.update_apply]
      split
      · rename_i hh
        rw [hh] at hj ⊢
        rcases hx.len i with h1 | ⟨h1, _⟩
        · exact h1
        · exact absurd h1 hj
      · rfl
  | @addSub _ n c s _ e =>
    have := addSub_post n c s hf
    rw [e] at this; exact this
  | @addSubErr _ n c s _ _ e =>
    have := addSub_post n c s hf
    rw [e] at this; exact this
  | @getLens _ n k _ e =>
    have := getLens_post n k h
    rw [e] at this; exact kept this
  | @getLensErr _ n k _ e =>
    have := getLens_post n k h
    rw [e] at this; exact kept this
  | @checkReady _ n k _ e =>
    have := checkReady_post n k hf
    rw [e] at this; exact kept this
  | @checkReadyErr _ n k _ _ e =>
    have := checkReady_post n k hf
    rw [e] at this; exact kept this

theorem Created.fresh {h : Heap} (hc : Created h) : Fresh h := by
  intro k _ _ _ i
  obtain ⟨c, e⟩ := hc k
  rw [e]; cases i <;> rfl

theorem Steps.lasts {tidy : Prop} {h h' : Heap} (hs : Steps tidy h h') (hf : Fresh h) : Fresh h' ∧ Lasts h h' := by
  induction hs with
  | refl => exact ⟨hf, fun _ _ _ => rfl⟩
  | step _ h12 ih =>
    obtain ⟨i1, i2⟩ := h12.lasts ih.1
    refine ⟨i1, fun k i hk => ?_⟩
    rw [i2 k i (by rw [ih.2 k i hk]; exact hk), ih.2 k i hk]

/-! ## Tidy histories -/

/-- Sub-operators belong to composite operators, their depth is bounded, and the lengths stored are right. -/
structure Inv (h : Heap) : Prop where
  comp : ∀ k s, s ∈ (h k).subs → (h k).comp = true
  rank : ∃ rk : Nat → Nat, ∀ k s, s ∈ (h k).subs → rk s < rk k
  common : ∀ k i, Common h k i ((h k).len i)

/-- Two states that differ in readiness only. -/
def Same (h h' : Heap) : Prop := ∀ k, (h' k).comp = (h k).comp ∧ (h' k).subs = (h k).subs ∧ ∀ i, (h' k).len i = (h k).len i

theorem Same.leaf {h h' : Heap} (hs : Same h h') {k j : Nat} (hl : Leaf h k j) : Leaf h' k j := by
  induction hl with
  | self hk => exact .self (by rw [(hs _).1]; exact hk)
  | sub h1 _ ih => exact .sub (by rw [(hs _).2.1]; exact h1) ih

theorem Same.symm {h h' : Heap} (hs : Same h h') : Same h' h :=
  fun k => ⟨(hs k).1.symm, (hs k).2.1.symm, fun i => ((hs k).2.2 i).symm⟩

theorem Same.trans {h1 h2 h3 : Heap} (a : Same h1 h2) (b : Same h2 h3) : Same h1 h3 :=
  fun k => ⟨(b k).1.trans (a k).1, (b k).2.1.trans (a k).2.1, fun i => ((b k).2.2 i).trans ((a k).2.2 i)⟩

theorem Same.refl (h : Heap) : Same h h := fun _ => ⟨rfl, rfl, fun _ => rfl⟩

theorem Same.inv {h h' : Heap} (hs : Same h h') (hI : Inv h) : Inv h' := by
  obtain ⟨rk, hrk⟩ := hI.rank
  refine ⟨fun k s hk => ?_, ⟨rk, fun k s hk => ?_⟩, fun k i => ?_⟩
  · rw [(hs k).1]; exact hI.comp k s (by rw [← (hs k).2.1]; exact hk)
  · exact hrk k s (by rw [← (hs k).2.1]; exact hk)
  · obtain ⟨c1, c2⟩ := hI.common k i
    rw [(hs k).2.2 i]
    refine ⟨fun j hj => ?_, fun hn => ?_⟩
    · rw [(hs j).2.2 i]; exact c1 j (hs.symm.leaf hj)
    · obtain ⟨j, hj, hv⟩ := c2 hn
      exact ⟨j, hs.leaf hj, by rw [(hs j).2.2 i]; exact hv⟩

/-- Lengths of a part agree with those of the whole. -/
theorem Inv.part {h : Heap} (hI : Inv h) {k s : Nat} (hs : s ∈ (h k).subs) (i : Bool) :
    (h s).len i = -1 ∨ (h s).len i = (h k).len i := by
  by_cases hn : (h s).len i = -1
  · exact Or.inl hn
  · obtain ⟨j, hj, hv⟩ := (hI.common s i).some hn
    rcases (hI.common k i).all j (.sub hs hj) with h1 | h1
    · rw [hv] at h1; exact Or.inl h1
    · rw [hv] at h1; exact Or.inr h1

theorem record_same {h : Heap} (hI : Inv h) {k s : Nat} (hs : s ∈ (h k).subs) :
    (h k).record (h s).inSize (h s).outSize = h k ∧ (h k).fits (h s).inSize (h s).outSize := by
  constructor
  · have h1 := hI.part hs true
    have h2 := hI.part hs false
    simp only [Node.len, if_true, Bool.false_eq_true, if_false] at h1 h2
    unfold Node.record
    cases hx : h k with
    | mk comp subs a b c d =>
      rw [hx] at h1 h2
      simp only [Node.mk.injEq, true_and, and_true] at h1 h2 ⊢
      constructor
      · split
        · rename_i ha; rcases h1 with h1 | h1
          · rw [h1, ha]
          · exact h1
        · rfl
      · split
        · rename_i ha; rcases h2 with h2 | h2
          · rw [h2, ha]
          · exact h2
        · rfl
  · rw [fits_iff]
    intro i
    cases i
    · exact hI.part hs false
    · exact hI.part hs true

theorem getLens_inv {h : Heap} (hI : Inv h) (n k : Nat) :
    getLens n k h = .ub ∨ getLens n k h = .ok h ((h k).inSize, (h k).outSize) := by
  induction n generalizing k with
  | zero => exact Or.inl rfl
  | succ n ih =>
    have loop : ∀ l : List Nat, (∀ s ∈ l, s ∈ (h k).subs) →
        lensLoop (getLens n) k l h = .ub ∨ lensLoop (getLens n) k l h = .ok h () := by
      intro l
      induction l with
      | nil => intro _; exact Or.inr rfl
      | cons s t iht =>
        intro hl
        unfold lensLoop
        rw [M.bind_apply]
        rcases ih s with e | e
        · rw [e]; exact Or.inl rfl
        · rw [e, Out.bind_ok, M.bind_apply, join_eq]
          obtain ⟨r1, r2⟩ := record_same hI (hl s List.mem_cons_self)
          rw [r1, if_pos r2, Out.bind_ok, Function.update_eq_self]
          exact iht fun x hx => hl x (List.mem_cons_of_mem _ hx)
    unfold getLens
    simp only [M.bind_apply, getH_apply, Out.bind_ok]
    split
    · rw [M.bind_apply]
      rcases loop (h k).subs (fun _ hx => hx) with e | e
      · rw [e]; exact Or.inl rfl
      · rw [e]; exact Or.inr rfl
    · exact Or.inr rfl

theorem getLens_total {h : Heap} (hI : Inv h) (rk : Nat → Nat) (hrk : ∀ k s, s ∈ (h k).subs → rk s < rk k) (n k : Nat)
    (hn : rk k < n) : getLens n k h = .ok h ((h k).inSize, (h k).outSize) := by
  induction n generalizing k with
  | zero => omega
  | succ n ih =>
    have loop : ∀ l : List Nat, (∀ s ∈ l, s ∈ (h k).subs) → lensLoop (getLens n) k l h = .ok h () := by
      intro l
      induction l with
      | nil => intro _; rfl
      | cons s t iht =>
        intro hl
        unfold lensLoop
        rw [M.bind_apply, ih s (by have := hrk k s (hl s List.mem_cons_self); omega), Out.bind_ok, M.bind_apply, join_eq]
        obtain ⟨r1, r2⟩ := record_same hI (hl s List.mem_cons_self)
        rw [r1, if_pos r2, Out.bind_ok, Function.update_eq_self]
        exact iht fun x hx => hl x (List.mem_cons_of_mem _ hx)
    unfold getLens
    simp only [M.bind_apply, getH_apply, Out.bind_ok]
    split
    · rw [M.bind_apply, loop (h k).subs (fun _ hx => hx)]; rfl
    · rfl

/-- Operators of which `c` is no part have the same leaves when only `c` changes. -/
theorem leaf_off {h h' : Heap} {c k j : Nat} (hne : ∀ d, d ≠ c → h' d = h d) (hc : ∀ d, c ∉ (h d).subs) (hk : k ≠ c)
    (hl : Leaf h k j) : Leaf h' k j ∧ j ≠ c := by
  induction hl with
  | @self k hs => exact ⟨.self (by rw [hne k hk]; exact hs), hk⟩
  | @sub k s j hs _ ih =>
    obtain ⟨i1, i2⟩ := ih (fun e => hc k (e ▸ hs))
    exact ⟨.sub (by rw [hne k hk]; exact hs) i1, i2⟩

theorem common_off {h h' : Heap} {c k : Nat} {i : Bool} {n : Int} (hne : ∀ d, d ≠ c → h' d = h d)
    (hc : ∀ d, c ∉ (h d).subs) (hc' : ∀ d, c ∉ (h' d).subs) (hk : k ≠ c) (hcm : Common h k i n) : Common h' k i n := by
  refine ⟨fun j hj => ?_, fun hn => ?_⟩
  · obtain ⟨h1, h2⟩ := leaf_off (fun d hd => (hne d hd).symm) hc' hk hj
    rw [hne j h2]; exact hcm.all j h1
  · obtain ⟨j, hj, hv⟩ := hcm.some hn
    obtain ⟨h1, h2⟩ := leaf_off hne hc hk hj
    exact ⟨j, h1, by rw [hne j h2]; exact hv⟩

theorem Inv.edit {h : Heap} (hI : Inv h) {k : Nat} {x : Node} (hx : Edit (h k) x) (hk : ∀ c, k ∉ (h c).subs) :
    Inv (Function.update h k x) := by
  have hne : ∀ d, d ≠ k → Function.update h k x d = h d := fun d hd => Function.update_of_ne hd _ _
  have hsubs : ∀ d, (Function.update h k x d).subs = (h d).subs := by
    intro d
    by_cases hd : d = k
    · rw [hd, Function.update_self, hx.subs]
    · rw [hne d hd]
  have hnil : ∀ s, s ∉ (h k).subs := fun s hs => by have := hI.comp k s hs; rw [hx.comp.1] at this; cases this
  obtain ⟨rk, hrk⟩ := hI.rank
  refine ⟨fun d s hs => ?_, ⟨rk, fun d s hs => hrk d s (by rw [← hsubs]; exact hs)⟩, fun d i => ?_⟩
  · rw [hsubs] at hs
    have hd : d ≠ k := fun e => hnil s (e ▸ hs)
    rw [hne d hd]; exact hI.comp d s hs
  · by_cases hd : d = k
    · rw [hd]
      refine ⟨fun j hj => ?_, fun _ => ⟨k, .self (by rw [Function.update_self]; exact hx.comp.2), rfl⟩⟩
      cases hj with
      | self _ => exact Or.inr rfl
      | sub hs _ => rw [hsubs] at hs; exact absurd hs (hnil _)
    · have : (Function.update h k x d).len i = (h d).len i := by rw [hne d hd]
      rw [this]
      exact common_off hne hk (fun d => by rw [hsubs]; exact hk d) hd (hI.common d i)

/-- The operator with a sub-operator and its lengths taken over. -/
def Node.push (x : Node) (s : Nat) (y : Node) : Node :=
  { x.record y.inSize y.outSize with subs := x.subs ++ [s] }

theorem addSub_inv_eq {h : Heap} (hI : Inv h) (n c s : Nat) :
    addSub n c s h = .ub ∨ addSub n c s h =
      if (h c).comp = true then
        if (h c).subs.length < compositeMax then
          if ((h c).record (h s).inSize (h s).outSize).fits (h s).inSize (h s).outSize then
            .ok (Function.update h c ((h c).push s (h s))) ()
          else .err (Function.update h c ((h c).record (h s).inSize (h s).outSize)) .major
        else .err h .unsupported
      else .err h .minor := by
  unfold addSub
  simp only [M.bind_apply, getH_apply, Out.bind_ok, M.check_apply]
  by_cases h1 : (h c).comp = true
  · rw [if_pos h1, if_pos h1, Out.bind_ok]
    by_cases h2 : (h c).subs.length < compositeMax
    · rw [if_pos h2, if_pos h2, Out.bind_ok]
      rcases getLens_inv hI n s with e | e
      · rw [e]; exact Or.inl rfl
      · right
        rw [e, Out.bind_ok, join_eq]
        split
        · rw [Out.bind_ok, modN_apply, Function.update_self, Function.update_idem]; rfl
        · rfl
    · rw [if_neg h2, if_neg h2]; exact Or.inr rfl
  · rw [if_neg h1, if_neg h1]; exact Or.inr rfl

theorem Inv.push {h : Heap} (hI : Inv h) {c s : Nat} (hc : (h c).comp = true) (hsc : s ≠ c) (hn : ∀ d, c ∉ (h d).subs)
    (hf : ((h c).record (h s).inSize (h s).outSize).fits (h s).inSize (h s).outSize) :
    Inv (Function.update h c ((h c).push s (h s))) := by
  have hne : ∀ d, d ≠ c → Function.update h c ((h c).push s (h s)) d = h d := fun d hd => Function.update_of_ne hd _ _
  have hsub : ∀ d, (Function.update h c ((h c).push s (h s)) d).subs = if d = c then (h c).subs ++ [s] else (h d).subs := by
    intro d
    by_cases hd : d = c
    · rw [hd, Function.update_self, if_pos rfl]; rfl
    · rw [hne d hd, if_neg hd]
  have hn' : ∀ d, c ∉ (Function.update h c ((h c).push s (h s)) d).subs := by
    intro d hd
    rw [hsub] at hd
    split at hd
    · rcases List.mem_append.1 hd with hd | hd
      · exact hn c hd
      · rw [List.mem_singleton] at hd; exact hsc hd.symm
    · exact hn d hd
  obtain ⟨rk, hrk⟩ := hI.rank
  refine ⟨fun d t ht => ?_, ⟨Function.update rk c (max (rk c) (rk s + 1)), fun d t ht => ?_⟩, fun d i => ?_⟩
  · by_cases hd : d = c
    · rw [hd, Function.update_self]; exact hc
    · rw [hne d hd] at ht ⊢; exact hI.comp d t ht
  · have htc : t ≠ c := fun e => hn' d (e ▸ ht)
    rw [Function.update_of_ne htc]
    rw [hsub] at ht
    by_cases hd : d = c
    · rw [if_pos hd] at ht
      rw [hd, Function.update_self]
      rcases List.mem_append.1 ht with ht | ht
      · have := hrk c t ht; omega
      · rw [List.mem_singleton] at ht; subst ht; omega
    · rw [if_neg hd] at ht
      rw [Function.update_of_ne hd]; exact hrk d t ht
  · by_cases hd : d = c
    · rw [hd, Function.update_self]
      have hlen : ((h c).push s (h s)).len i = if (h c).len i = -1 then (h s).len i else (h c).len i := by
        cases i <;> rfl
      have hfit := (fits_iff _ _ _).1 hf i
      rw [record_len] at hfit
      have hp : pick i ((h s).inSize, (h s).outSize) = (h s).len i := by cases i <;> rfl
      rw [hp] at hfit
      rw [hlen]
      have lift : ∀ a j, a ≠ c → Leaf h a j → Leaf (Function.update h c ((h c).push s (h s))) a j ∧ j ≠ c :=
        fun a j ha hl => leaf_off hne hn ha hl
      have mem : ∀ t, t ∈ (Function.update h c ((h c).push s (h s)) c).subs ↔ t ∈ (h c).subs ∨ t = s := by
        intro t; rw [hsub, if_pos rfl]; simp
      refine ⟨fun j hj => ?_, fun hm => ?_⟩
      · cases hj with
        | self hk => rw [Function.update_self] at hk; rw [show ((h c).push s (h s)).comp = (h c).comp from rfl, hc] at hk; cases hk
        | @sub _ t _ ht hl =>
          have htc : t ≠ c := fun e => hn' c (e ▸ ht)
          obtain ⟨l1, l2⟩ := leaf_off (fun d hd => (hne d hd).symm) hn' htc hl
          rw [hne j l2]
          rcases (mem t).1 ht with ht | rfl
          · rcases (hI.common c i).all j (.sub ht l1) with e | e
            · exact Or.inl e
            · by_cases hm : (h c).len i = -1
              · left; rw [e, hm]
              · right; rw [if_neg hm, e]
          · rcases (hI.common t i).all j l1 with e | e
            · exact Or.inl e
            · rcases hfit with hfit | hfit
              · left; rw [e, hfit]
              · right; rw [e]; exact hfit
      · by_cases ho : (h c).len i = -1
        · rw [if_pos ho] at hm ⊢
          obtain ⟨j, hj, hv⟩ := (hI.common s i).some hm
          obtain ⟨l1, l2⟩ := lift s j hsc hj
          exact ⟨j, .sub ((mem s).2 (Or.inr rfl)) l1, by rw [hne j l2]; exact hv⟩
        · rw [if_neg ho] at hm ⊢
          obtain ⟨j, hj, hv⟩ := (hI.common c i).some hm
          cases hj with
          | self hk => rw [hc] at hk; cases hk
          | @sub _ t _ ht hl =>
            obtain ⟨l1, l2⟩ := lift t j (fun e => hn c (e ▸ ht)) hl
            exact ⟨j, .sub ((mem t).2 (Or.inl ht)) l1, by rw [hne j l2]; exact hv⟩
    · have : (Function.update h c ((h c).push s (h s)) d).len i = (h d).len i := by rw [hne d hd]
      rw [this]
      exact common_off hne hn hn' hd (hI.common d i)

theorem same_ready {h0 h : Heap} (hs : Same h0 h) (k : Nat) : Same h0 (Function.update h k { h k with ready := true }) := by
  intro j
  by_cases hj : j = k
  · rw [hj, Function.update_self]; exact hs k
  · rw [Function.update_of_ne hj]; exact hs j

theorem checkReady_same (n k : Nat) {h0 h : Heap} (hI : Inv h0) (hs : Same h0 h)
    (hb : ∀ j, Below h0 k j → (h0 j).comp = true → (h0 j).subs ≠ []) : (checkReady n k h).Post (Same h0) := by
  induction n generalizing k h with
  | zero => trivial
  | succ n ih =>
    have loop : ∀ (l : List Nat) (h : Heap), Same h0 h → (∀ s ∈ l, s ∈ (h0 k).subs) →
        (forAll (checkReady n) l h).Post (Same h0) := by
      intro l
      induction l with
      | nil => intro h hs _; exact hs
      | cons s t iht =>
        intro h hs hl
        unfold forAll
        rw [M.bind_apply]
        refine Out.Post.bind (ih s hs fun j hj => hb j (.sub (hl s List.mem_cons_self) hj)) (fun _ => id) fun h' a _ hs' => ?_
        exact iht h' hs' fun x hx => hl x (List.mem_cons_of_mem _ hx)
    unfold checkReady
    simp only [M.bind_apply, getH_apply, Out.bind_ok]
    split
    · exact hs
    · rw [M.bind_apply]
      refine Out.Post.bind (P := Same h0) ?_ (fun _ => id) fun h' a _ hs' => same_ready hs' k
      by_cases hc : (h k).comp = true
      · rw [if_pos hc]
        unfold readyComposite
        rw [if_neg (by rw [(hs k).2.1]; exact hb k .self (by rw [← (hs k).1]; exact hc)), M.bind_apply]
        refine Out.Post.bind (P := Same h0) (loop _ h hs (fun s hx => by rw [← (hs k).2.1]; exact hx)) (fun _ => id)
          fun h' a _ hs' => ?_
        rw [M.bind_apply]
        rcases getLens_inv (hs'.inv hI) (n + 1) k with e | e
        · rw [e]; trivial
        · rw [e]; exact hs'
      · rw [if_neg hc, M.check_apply]
        split
        · exact hs
        · exact hs

theorem Step.inv {h h' : Heap} (hs : Step True h h') (hI : Inv h) : Inv h' := by
  cases hs with
  | @edit k x hx ht => exact hI.edit hx (ht trivial)
  | @addSub _ n c s ht e =>
    rcases addSub_inv_eq hI n c s with e' | e'
    · rw [e'] at e; cases e
    · rw [e'] at e
      split at e
      · split at e
        · split at e
          · rename_i h1 h2 h3
            cases e
            exact hI.push h1 (ht trivial).1 (ht trivial).2 h3
          · cases e
        · cases e
      · cases e
  | addSubErr ht _ => exact absurd trivial ht
  | @getLens _ n k _ e =>
    rcases getLens_inv hI n k with e' | e'
    · rw [e'] at e; cases e
    · rw [e'] at e; cases e; exact hI
  | @getLensErr _ n k _ e =>
    rcases getLens_inv hI n k with e' | e'
    · rw [e'] at e; cases e
    · rw [e'] at e; cases e
  | @checkReady _ n k ht e =>
    have := checkReady_same n k hI (Same.refl h) (ht trivial)
    rw [e] at this; exact Same.inv this hI
  | @checkReadyErr _ n k _ ht e =>
    have := checkReady_same n k hI (Same.refl h) (ht trivial)
    rw [e] at this; exact Same.inv this hI

theorem Created.inv {h : Heap} (hc : Created h) : Inv h := by
  have hs : ∀ k, (h k).subs = [] := fun k => by obtain ⟨c, e⟩ := hc k; rw [e]; rfl
  have hl : ∀ k i, (h k).len i = -1 := fun k i => by obtain ⟨c, e⟩ := hc k; rw [e]; cases i <;> rfl
  refine ⟨fun k s hk => ?_, ⟨fun _ => 0, fun k s hk => ?_⟩, fun k i => ⟨fun j _ => Or.inl (hl j i), fun hn => absurd (hl k i) hn⟩⟩
  · rw [hs] at hk; cases hk
  · rw [hs] at hk; cases hk

theorem Steps.inv {h h' : Heap} (hs : Steps True h h') (hI : Inv h) : Inv h' := by
  induction hs with
  | refl => exact hI
  | step _ h12 ih => exact h12.inv ih

/-! ## C42 -/

/-- **C42.** After every tidy history, each call on each operator ends, changes nothing, and reports the common lengths of
the operators that it consists of. (Missing: histories that change operators after they were added, for which this is
false: `C42_stale_witness`, `C42_incompatible_witness`.) -/
theorem C42_report_partial {h0 h : Heap} (hc : Created h0) (hs : Steps True h0 h) (k : Nat) :
    ∃ N a b, (∀ n ≥ N, getLens n k h = .ok h (a, b)) ∧ Common h k true a ∧ Common h k false b := by
  have hI := hs.inv hc.inv
  obtain ⟨rk, hrk⟩ := hI.rank
  exact ⟨rk k + 1, _, _, fun n hn => getLens_total hI rk hrk n k (by omega), hI.common k true, hI.common k false⟩

/-- **C42.** In every history, a length once reported is reported by all later calls on the operator. -/
theorem C42_stable {tidy : Prop} {h0 h h1 h2 h3 : Heap} {n m k : Nat} {r r' : Int × Int} (hc : Created h0)
    (hs : Steps tidy h0 h) (e : getLens n k h = .ok h1 r) (hs2 : Steps tidy h1 h2) (e2 : getLens m k h2 = .ok h3 r')
    (i : Bool) (hr : pick i r ≠ -1) : pick i r' = pick i r := by
  have h01 := (hs.lasts hc.fresh).1
  have hp := getLens_post n k h
  rw [e] at hp
  have hp : Kept h h1 := hp
  obtain ⟨_, l2⟩ := hs2.lasts (hp.fresh' h01)
  have p1 : pick i r = (h k).len i := by rw [getLens_value e]; cases i <;> rfl
  have p2 : pick i r' = (h2 k).len i := by rw [getLens_value e2]; cases i <;> rfl
  rw [p1] at hr
  rw [p1, p2, l2 k i (by rw [hp.len k i hr]; exact hr), hp.len k i hr]

/-- **C42.** In tidy histories, an operator is accepted as a part exactly if the lengths of all operators that the result
consists of are compatible (and there is room). -/
theorem C42_accept_partial {h0 h : Heap} (hc : Created h0) (hs : Steps True h0 h) {c s : Nat} (hcc : (h c).comp = true)
    (hl : (h c).subs.length < compositeMax) :
    (∃ N, ∀ n ≥ N, ∃ h', addSub n c s h = .ok h' ()) ↔
      ∀ i j j', Leaf h c j → Leaf h s j' → (h j).len i = -1 ∨ (h j').len i = -1 ∨ (h j).len i = (h j').len i := by
  have hI := hs.inv hc.inv
  obtain ⟨rk, hrk⟩ := hI.rank
  have key : (∃ N, ∀ n ≥ N, ∃ h', addSub n c s h = .ok h' ()) ↔
      ((h c).record (h s).inSize (h s).outSize).fits (h s).inSize (h s).outSize := by
    constructor
    · rintro ⟨N, hN⟩
      obtain ⟨h', e⟩ := hN N (le_refl _)
      rcases addSub_inv_eq hI N c s with e' | e'
      · rw [e'] at e; cases e
      · rw [e', if_pos hcc, if_pos hl] at e
        by_contra hf
        rw [if_neg hf] at e; cases e
    · intro hf
      refine ⟨rk s + 1, fun n hn => ?_⟩
      unfold addSub
      simp only [M.bind_apply, getH_apply, Out.bind_ok, M.check_apply]
      rw [if_pos hcc, Out.bind_ok, if_pos hl, Out.bind_ok, getLens_total hI rk hrk n s (by omega), Out.bind_ok, join_eq,
        if_pos hf, Out.bind_ok]
      exact ⟨_, rfl⟩
  rw [key, fits_iff]
  have hp : ∀ i, pick i ((h s).inSize, (h s).outSize) = (h s).len i := fun i => by cases i <;> rfl
  constructor
  · intro hf i j j' hj hj'
    have := hf i
    rw [record_len, hp] at this
    rcases (hI.common c i).all j hj with e1 | e1
    · exact Or.inl e1
    · rcases (hI.common s i).all j' hj' with e2 | e2
      · exact Or.inr (Or.inl e2)
      · rcases this with h1 | h1
        · right; left; rw [e2, h1]
        · by_cases hm : (h c).len i = -1
          · left; rw [e1, hm]
          · rw [if_neg hm] at h1
            right; right; rw [e1, e2, h1]
  · intro hf i
    rw [record_len, hp]
    by_cases hm : (h c).len i = -1
    · rw [if_pos hm]; exact Or.inr rfl
    · rw [if_neg hm]
      by_cases hsn : (h s).len i = -1
      · exact Or.inl hsn
      · obtain ⟨j, hj, e1⟩ := (hI.common c i).some hm
        obtain ⟨j', hj', e2⟩ := (hI.common s i).some hsn
        rcases hf i j j' hj hj' with e | e | e
        · rw [e1] at e; exact absurd e hm
        · rw [e2] at e; exact absurd e hsn
        · right; rw [← e1, ← e2, e]

/-- **C42.** In every history, a part whose reported length differs from the known length of the composite is refused. -/
theorem C42_reject {h h1 : Heap} {n c s : Nat} {r : Int × Int} (e : getLens n s h = .ok h1 r) {i : Bool} (hr : pick i r ≠ -1)
    (hk : (h c).len i ≠ -1) (hd : pick i r ≠ (h c).len i) : ∃ h' x, addSub n c s h = .err h' x := by
  unfold addSub
  simp only [M.bind_apply, getH_apply, Out.bind_ok, M.check_apply]
  split
  · rw [Out.bind_ok]
    split
    · rw [Out.bind_ok, e, Out.bind_ok, join_eq, if_neg]
      · exact ⟨_, _, rfl⟩
      · have hp := getLens_post n s h
        rw [e] at hp
        have hp : Kept h h1 := hp
        have hk' : (h1 c).len i ≠ -1 := by rw [hp.len c i hk]; exact hk
        rw [fits_iff]
        intro hf
        rcases hf i with h2 | h2
        · exact hr h2
        · rw [record_len, if_neg hk', hp.len c i hk] at h2
          exact hd h2
    · exact ⟨_, _, rfl⟩
  · exact ⟨_, _, rfl⟩

/-! ## Examples and broken histories -/

/-- Operators 0 and 1 are composite, all others are not. -/
def exHeap : Heap := fun k => Node.create (decide (k < 2))

theorem exHeap_created : Created exHeap := fun k => ⟨decide (k < 2), rfl⟩

/-- State left by a call. -/
def next (m : M Heap Unit) (h : Heap) : Heap :=
  match m h with
  | .ok h' _ => h'
  | .err h' _ => h'
  | .ub => h

/-- Lengths reported. -/
def rep (n k : Nat) (h : Heap) : Option (Int × Int) :=
  match getLens n k h with
  | .ok _ r => some r
  | _ => none

/-- The call succeeds. -/
def good {β : Type} (o : Out Heap β) : Bool :=
  match o with
  | .ok _ _ => true
  | _ => false

/-- Set both lengths. -/
def withLen (h : Heap) (k : Nat) (a b : Int) : Heap := Function.update h k { h k with inSize := a, outSize := b }

theorem edit_withLen (h : Heap) (k : Nat) (a b : Int) (hc : (h k).comp = false) (ha : 0 ≤ a) (hb : 0 ≤ b)
    (h1 : (h k).inSize = -1) (h2 : (h k).outSize = -1) : Edit (h k) { h k with inSize := a, outSize := b } :=
  ⟨⟨hc, hc⟩, rfl, fun k => by cases k <;> [exact Or.inr ⟨h2, hb⟩; exact Or.inr ⟨h1, ha⟩]⟩

theorem next_addSub {tidy : Prop} {n c s : Nat} {h : Heap} (hg : good (addSub n c s h) = true)
    (ht : tidy → s ≠ c ∧ ∀ d, c ∉ (h d).subs) : Step tidy h (next (addSub n c s) h) := by
  unfold next
  cases e : addSub n c s h with
  | ok h' a => exact .addSub ht e
  | err h' x => rw [e] at hg; cases hg
  | ub => rw [e] at hg; cases hg

/-- A nested composite operator: 1 holds 2 and 3, 0 holds 1 and 4. -/
example : ∃ h, Steps True exHeap h ∧ rep 3 0 h = some (3, 5) := by
  refine ⟨next (addSub 3 0 4) (next (addSub 3 0 1) (next (addSub 3 1 3) (next (addSub 3 1 2)
    (withLen (withLen exHeap 2 3 5) 4 3 5)))), ?_, by decide +kernel⟩
  have a2 : ∀ d, (withLen (withLen exHeap 2 3 5) 4 3 5 d).subs = [] := by
    intro d
    unfold withLen
    by_cases h4 : d = 4
    · rw [h4]; rfl
    · rw [Function.update_of_ne h4]
      by_cases h2 : d = 2
      · rw [h2]; rfl
      · rw [Function.update_of_ne h2]; rfl
  have grow : ∀ (c s : Nat) (h : Heap) (d t : Nat), good (addSub 3 c s h) = true → t ∈ (next (addSub 3 c s) h d).subs →
      t = s ∨ t ∈ (h d).subs := by
    intro c s h d t hg ht
    unfold next at ht
    cases e : addSub 3 c s h with
    | err h' x => rw [e] at hg; cases hg
    | ub => rw [e] at hg; cases hg
    | ok h' a =>
      rw [e] at ht
      change t ∈ (h' d).subs at ht
      unfold addSub at e
      simp only [M.bind_apply, getH_apply, Out.bind_ok, M.check_apply] at e
      split at e
      · rw [Out.bind_ok] at e
        split at e
        · rw [Out.bind_ok] at e
          have hp := getLens_post 3 s h
          cases e1 : getLens 3 s h with
          | err h1 x => rw [e1] at e; cases e
          | ub => rw [e1] at e; cases e
          | ok h1 r =>
            rw [e1] at e hp
            have hp : Kept h h1 := hp
            rw [Out.bind_ok, join_eq] at e
            split at e
            · rw [Out.bind_ok] at e
              cases e
              by_cases hd : d = c
              · rw [hd, Function.update_self, Function.update_self] at ht
                simp only [Node.record] at ht
                rcases List.mem_append.1 ht with ht | ht
                · right; rw [hd, ← hp.subs]; exact ht
                · left; simpa using ht
              · rw [Function.update_of_ne hd, Function.update_of_ne hd] at ht
                right; rw [← hp.subs]; exact ht
            · cases e
        · cases e
      · cases e
  refine .step (.step (.step (.step (.step (.step .refl (.edit (edit_withLen _ _ _ _ rfl (by decide) (by decide) rfl rfl)
    (fun _ c => ?_))) (.edit (edit_withLen _ _ _ _ rfl (by decide) (by decide) rfl rfl) (fun _ c => ?_)))
    (next_addSub (by decide +kernel) fun _ => ⟨by decide, fun d hd => ?_⟩))
    (next_addSub (by decide +kernel) fun _ => ⟨by decide, fun d hd => ?_⟩))
    (next_addSub (by decide +kernel) fun _ => ⟨by decide, fun d hd => ?_⟩))
    (next_addSub (by decide +kernel) fun _ => ⟨by decide, fun d hd => ?_⟩)
  · simp [exHeap, Node.create]
  · by_cases h2 : c = 2
    · rw [h2]; decide
    · rw [Function.update_of_ne h2]; simp [exHeap, Node.create]
  · exact List.not_mem_nil ((a2 d) ▸ hd)
  · rcases grow _ _ _ _ _ (by decide +kernel) hd with h | h
    · cases h
    · exact List.not_mem_nil ((a2 d) ▸ h)
  · rcases grow _ _ _ _ _ (by decide +kernel) hd with h | h
    · cases h
    · rcases grow _ _ _ _ _ (by decide +kernel) h with h | h
      · cases h
      · exact List.not_mem_nil ((a2 d) ▸ h)
  · rcases grow _ _ _ _ _ (by decide +kernel) hd with h | h
    · cases h
    · rcases grow _ _ _ _ _ (by decide +kernel) h with h | h
      · cases h
      · rcases grow _ _ _ _ _ (by decide +kernel) h with h | h
        · cases h
        · exact List.not_mem_nil ((a2 d) ▸ h)

theorem no_tidy {P : Prop} : False → P := False.elim

/-- **C42 fails** when a field is set after the operator was added: the first call reports `-1`, the second the length. -/
theorem C42_stale_witness : ∃ h, Steps False exHeap h ∧ Common h 0 true 3 ∧ rep 2 0 h = some (-1, -1) ∧
    (match getLens 2 0 h with
      | .ok h' _ => rep 2 0 h'
      | _ => none) = some (3, 5) := by
  refine ⟨withLen (next (addSub 2 0 2) exHeap) 2 3 5, ?_, ?_, by decide +kernel, by decide +kernel⟩
  · exact .step (.step .refl (next_addSub (by decide +kernel) no_tidy))
      (.edit (edit_withLen _ _ _ _ (by decide +kernel) (by decide) (by decide) (by decide +kernel) (by decide +kernel)) no_tidy)
  · have hs : (withLen (next (addSub 2 0 2) exHeap) 2 3 5 0).subs = [2] := by decide +kernel
    have h2 : (withLen (next (addSub 2 0 2) exHeap) 2 3 5 2).subs = [] := by decide +kernel
    have hl : (withLen (next (addSub 2 0 2) exHeap) 2 3 5 2).len true = 3 := by decide +kernel
    refine ⟨fun j hj => ?_, fun _ => ⟨2, .sub (by rw [hs]; simp) (.self (by decide +kernel)), hl⟩⟩
    cases hj with
    | self hk => exact absurd hk (by decide +kernel)
    | sub ht hl' =>
      rw [hs] at ht
      rw [List.mem_singleton] at ht
      subst ht
      cases hl' with
      | self _ => exact Or.inr hl
      | sub ht _ => rw [h2] at ht; cases ht

/-- **C42 fails:** incompatible parts are not rejected when one of them gets its length after the composite knows its own;
the composite is ready and reports lengths that are not those of operator 3. -/
theorem C42_incompatible_witness : ∃ h, Steps False exHeap h ∧ (h 0).subs = [2, 3] ∧ (h 2).inSize = 3 ∧ (h 3).inSize = 7 ∧
    (h 0).ready = true ∧ rep 2 0 h = some (3, 5) := by
  let h1 : Heap := next (addSub 2 0 3) (next (addSub 2 0 2) (withLen exHeap 2 3 5))
  let h2 : Heap := withLen h1 3 7 5
  let h3 : Heap := Function.update h2 2 { h2 2 with complete := true }
  let h4 : Heap := Function.update h3 3 { h3 3 with complete := true }
  let h5 : Heap := next (checkReady 2 0) h4
  have step5 : Step False h4 h5 := by
    have hg : good (checkReady 2 0 h4) = true := by decide +kernel
    show Step False h4 (next (checkReady 2 0) h4)
    unfold next
    cases e : checkReady 2 0 h4 with
    | ok h' a => exact .checkReady no_tidy e
    | err h' x => rw [e] at hg; cases hg
    | ub => rw [e] at hg; cases hg
  refine ⟨h5, ?_, by decide +kernel, by decide +kernel, by decide +kernel, by decide +kernel, by decide +kernel⟩
  refine .step (.step (.step (.step (.step (.step (.step .refl
    (.edit (edit_withLen exHeap 2 3 5 rfl (by decide) (by decide) rfl rfl) no_tidy))
    (next_addSub (n := 2) (c := 0) (s := 2) (by decide +kernel) no_tidy))
    (next_addSub (n := 2) (c := 0) (s := 3) (by decide +kernel) no_tidy))
    (.edit (edit_withLen h1 3 7 5 (by decide +kernel) (by decide) (by decide) (by decide +kernel) (by decide +kernel)) no_tidy))
    (.edit (k := 2) (x := { h2 2 with complete := true }) ⟨⟨by decide +kernel, by decide +kernel⟩, rfl, fun _ => Or.inl rfl⟩
      no_tidy))
    (.edit (k := 3) (x := { h3 3 with complete := true }) ⟨⟨by decide +kernel, by decide +kernel⟩, rfl, fun _ => Or.inl rfl⟩
      no_tidy)) step5

/-- **C42 fails:** a refused part leaves its output length behind. Operator 2 has an active input of length 3 only;
operator 3 (lengths 4 and 5) is refused, after which operator 4 (lengths 3 and 6) is refused as well, although it agrees
with operator 2. -/
theorem C42_refused_witness : ∃ h : Heap, Steps False exHeap h ∧ (h 0).subs = [2] ∧ (h 2).inSize = 3 ∧ (h 2).outSize = -1 ∧
    good (addSub 2 0 4 h) = true ∧ good (addSub 2 0 3 h) = false ∧
    (next (addSub 2 0 3) h 0).subs = [2] ∧ good (addSub 2 0 4 (next (addSub 2 0 3) h)) = false := by
  let h1 : Heap := next (addSub 2 0 2) (Function.update exHeap 2 { exHeap 2 with inSize := 3 })
  refine ⟨withLen (withLen h1 3 4 5) 4 3 6, ?_, by decide +kernel⟩
  exact .step (.step (.step (.step .refl
    (.edit (k := 2) (x := { exHeap 2 with inSize := 3 }) ⟨⟨rfl, rfl⟩, rfl, fun k => by
      cases k <;> [exact Or.inl rfl; exact Or.inr ⟨rfl, by decide⟩]⟩ no_tidy))
    (next_addSub (n := 2) (c := 0) (s := 2) (by decide +kernel) no_tidy))
    (.edit (edit_withLen h1 3 4 5 (by decide +kernel) (by decide) (by decide) (by decide +kernel) (by decide +kernel)) no_tidy))
    (.edit (edit_withLen (withLen h1 3 4 5) 4 3 6 (by decide +kernel) (by decide) (by decide) (by decide +kernel)
      (by decide +kernel)) no_tidy)

/-- **C42 fails:** an operator may be added to itself; if it has no active output, asking for its lengths recurses without
end. -/
theorem C42_cycle_witness : ∃ h : Heap, good (addSub 2 0 0 exHeap) = true ∧ h = next (addSub 2 0 0) exHeap ∧
    ∀ n, getLens n 0 h = .ub := by
  refine ⟨next (addSub 2 0 0) exHeap, by decide +kernel, rfl, fun n => ?_⟩
  have hs : (next (addSub 2 0 0) exHeap 0).subs = [0] := by decide +kernel
  have hc : (next (addSub 2 0 0) exHeap 0).comp = true ∧ ((next (addSub 2 0 0) exHeap 0).inSize = -1 ∨
    (next (addSub 2 0 0) exHeap 0).outSize = -1) := by decide +kernel
  induction n with
  | zero => rfl
  | succ n ih =>
    unfold getLens
    simp only [M.bind_apply, getH_apply, Out.bind_ok]
    rw [if_pos hc, M.bind_apply, hs]
    unfold lensLoop
    rw [M.bind_apply, ih]; rfl

end Verif.Composite
