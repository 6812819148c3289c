import Verif.Composite.Apply
import Mathlib.Algebra.BigOperators.Group.List.Basic

/-!
# A composite operator is the sum of its parts (C38)
-/

set_option linter.unusedSectionVars false

namespace Verif
namespace Composite

open Operator

variable {α : Type} [CommRing α]

/-! ## Specification -/

mutual
/-- The single operators of a tree, in order, with repetitions. -/
def leaves : Tree → List Nat
  | .op k => [k]
  | .comp l => leavesL l
def leavesL : List Tree → List Nat
  | [] => []
  | t :: l => leaves t ++ leavesL l
end

/-- Contents of all vectors. -/
def CSt.L (c : CSt α) : Nat → Nat → α := fun v => (c.vecs v).buf.val

/-- Entry `t` of what the operators of the list add to vector `v`: the sum of their actions. -/
def total (ops : Nat → Oper α) (S : Nat → Meaning α) (L : Nat → Nat → α) (inv outv : VPtr) (ks : List Nat) (v t : Nat) : α :=
  (ks.map fun k => (S k).action (ops k) L inv outv v t).sum

/-- Vector `v` is an output of one of the operators. -/
def IsOut (ops : Nat → Oper α) (outv : VPtr) (ks : List Nat) (v : Nat) : Prop :=
  ∃ k ∈ ks, ∃ o < (ops k).nout, ((ops k).out o).vec.ptr outv = .vec v

/-- Operator `k` writes no vector that operator `k'` reads. -/
def Indep (ops : Nat → Oper α) (inv outv : VPtr) (k k' : Nat) : Prop :=
  ∀ i < (ops k').nin, ∀ o < (ops k).nout, ((ops k').inp i).mode ≠ .weight →
    ((ops k').inp i).vec.ptr inv ≠ ((ops k).out o).vec.ptr outv

/-- No vector that is read is an output or the vector `outv`. -/
def Apart (ops : Nat → Oper α) (inv outv : VPtr) (ks : List Nat) : Prop :=
  ∀ k ∈ ks, ∀ i < (ops k).nin, ((ops k).inp i).mode ≠ .weight →
    ((ops k).inp i).vec.ptr inv ≠ outv ∧ ∀ k' ∈ ks, Indep ops inv outv k' k

/-- Histories of a collection of operators: changes of vectors (each advancing the state counter), and applications of single
operators and of arbitrary composites of them. -/
inductive CReach (ops : Nat → Oper α) (fails : Prop) : CSt α → Prop
  | start (c : CSt α) (hd : ∀ k, (c.own k).done = false) (hv : ∀ i, (c.vecs i).state = 0 → (c.vecs i).valid = false) :
      CReach ops fails c
  | user {c : CSt α} {vecs' : Nat → LVec α} (h : CReach ops fails c) (ha : Advances c.vecs vecs') :
      CReach ops fails { c with vecs := vecs' }
  | applyAdd {c c' : CSt α} {junk : Nat → Nat → Nat → α} {inv outv : VPtr} {t : Tree} (h : CReach ops fails c)
      (e : addT ops junk inv outv t c = .ok c' ()) : CReach ops fails c'
  | apply {c c' : CSt α} {junk : Nat → Nat → Nat → α} {inv outv : VPtr} {t : Tree} (h : CReach ops fails c)
      (e : applyT ops junk inv outv t c = .ok c' ()) : CReach ops fails c'
  | applyAddErr {c c' : CSt α} {junk : Nat → Nat → Nat → α} {inv outv : VPtr} {t : Tree} {x : Err} (hf : fails)
      (h : CReach ops fails c) (e : addT ops junk inv outv t c = .err c' x) : CReach ops fails c'
  | applyErr {c c' : CSt α} {junk : Nat → Nat → Nat → α} {inv outv : VPtr} {t : Tree} {x : Err} (hf : fails)
      (h : CReach ops fails c) (e : applyT ops junk inv outv t c = .err c' x) : CReach ops fails c'

/-! ## Lists of single operators -/

/-- `CeedOperatorApplyAdd` of the operators of a list, one after the other. -/
def addK (ops : Nat → Oper α) (junk : Nat → Nat → Nat → α) (inv outv : VPtr) : List Nat → M (CSt α) Unit
  | [] => pure ()
  | k :: l => do
    onOp k (Operator.applyAdd (ops k) (junk k) inv outv)
    addK ops junk inv outv l

theorem bind_unit_assoc {σ : Type} (a b : M σ Unit) (d : M σ Unit) :
    (do (do a; b); d) = (do a; (do b; d)) := by
  funext s
  simp only [M.bind_apply]
  cases a s <;> rfl

theorem bind_unit_pure {σ : Type} (a : M σ Unit) : (do a; pure ()) = a := by
  funext s
  simp only [M.bind_apply]
  cases a s <;> rfl

theorem addK_append (ops : Nat → Oper α) (junk : Nat → Nat → Nat → α) (inv outv : VPtr) (a b : List Nat) :
    addK ops junk inv outv (a ++ b) = (do addK ops junk inv outv a; addK ops junk inv outv b) := by
  induction a with
  | nil => rfl
  | cons k a ih =>
    show (do onOp k _; addK ops junk inv outv (a ++ b)) = (do (do onOp k _; addK ops junk inv outv a); _)
    rw [ih, bind_unit_assoc]

mutual
theorem addT_eq (ops : Nat → Oper α) (junk : Nat → Nat → Nat → α) (inv outv : VPtr) :
    ∀ t : Tree, addT ops junk inv outv t = addK ops junk inv outv (leaves t)
  | .op k => by
    simp only [addT, leaves, addK]
    rw [bind_unit_pure]
  | .comp l => by
    simp only [addT, leaves]
    exact addL_eq ops junk inv outv l
theorem addL_eq (ops : Nat → Oper α) (junk : Nat → Nat → Nat → α) (inv outv : VPtr) :
    ∀ l : List Tree, addL ops junk inv outv l = addK ops junk inv outv (leavesL l)
  | [] => by simp only [addL, leavesL, addK]
  | t :: l => by
    simp only [addL, leavesL]
    rw [addK_append, addT_eq ops junk inv outv t, addL_eq ops junk inv outv l]
end

theorem view_put_self (c : CSt α) (k : Nat) (s : St α) : (c.put k s).view k = s := by
  show (⟨Function.update c.own k s.impl k, s.vecs, Function.update c.eptr k s.eptr k⟩ : St α) = s
  rw [Function.update_self, Function.update_self]

theorem view_put_ne (c : CSt α) {j k : Nat} (h : j ≠ k) (s : St α) :
    (c.put k s).view j = { c.view j with vecs := s.vecs } := by
  show (⟨Function.update c.own k s.impl j, s.vecs, Function.update c.eptr k s.eptr j⟩ : St α) = _
  rw [Function.update_of_ne h, Function.update_of_ne h]
  rfl

/-- The invariant of all operators. -/
def AllGood (ops : Nat → Oper α) (S : Nat → Meaning α) (c : CSt α) : Prop := ∀ k, Good (ops k) (S k) (c.view k)

/-- No E-vector of any operator is locked. -/
def AllFree (c : CSt α) : Prop := ∀ k, (c.own k).done = true → Unlocked (c.view k)

theorem AllGood.put {ops : Nat → Oper α} {S : Nat → Meaning α} {c : CSt α} (h : AllGood ops S c) {k : Nat} {s : St α}
    (hk : Good (ops k) (S k) s) (ha : Advances c.vecs s.vecs) : AllGood ops S (c.put k s) := by
  intro j
  by_cases hj : j = k
  · subst hj; rw [view_put_self]; exact hk
  · rw [view_put_ne c hj]; exact zero_good (h j) ha

theorem AllGood.vecs {ops : Nat → Oper α} {S : Nat → Meaning α} {c : CSt α} (h : AllGood ops S c) {v : Nat → LVec α}
    (ha : Advances c.vecs v) : AllGood ops S { c with vecs := v } := fun k => zero_good (h k) ha

theorem AllFree.put {c : CSt α} (h : AllFree c) {k : Nat} {s : St α} (hk : s.impl.done = true → Unlocked s) :
    AllFree (c.put k s) := by
  intro j hd
  by_cases hj : j = k
  · subst hj
    rw [view_put_self]
    refine hk ?_
    have : (c.put j s).own j = s.impl := Function.update_self _ _ _
    rw [← this]; exact hd
  · rw [view_put_ne c hj]
    have : (c.put k s).own j = c.own j := Function.update_of_ne hj _ _
    rw [this] at hd
    exact h j hd

theorem onOp_wp {k : Nat} {m : M (St α) Unit} {c : CSt α} {R : Prop} {Q : St α → Unit → Prop} {E : St α → Err → Prop}
    (h : M.wp R m (c.view k) Q E) : M.wp R (onOp k m) c (fun c' a => ∃ s, c' = c.put k s ∧ Q s a)
      (fun c' x => ∃ s, c' = c.put k s ∧ m (c.view k) = .err s x ∧ E s x) := by
  unfold M.wp onOp at *
  cases e : m (c.view k) with
  | ok s a => rw [e] at h; exact ⟨s, rfl, h⟩
  | err s x => rw [e] at h; exact ⟨s, rfl, rfl, h⟩
  | ub => rw [e] at h; exact h

/-- Everything an application of a list of operators does. -/
structure Sum (ops : Nat → Oper α) (S : Nat → Meaning α) (inv outv : VPtr) (ks : List Nat) (c c' : CSt α) : Prop where
  good : AllGood ops S c'
  free : AllFree c → AllFree c'
  adv : Advances c.vecs c'.vecs
  other : ∀ v, ¬ IsOut ops outv ks v → c'.vecs v = c.vecs v
  valid : ∀ v, (c'.vecs v).valid = (c.vecs v).valid
  val : ks.Pairwise (Indep ops inv outv) → ∀ v t, c'.L v t = c.L v t + total ops S c.L inv outv ks v t

theorem addK_wp {ops : Nat → Oper α} {S : Nat → Meaning α} (h : ∀ k, OpOK (ops k) (S k)) (junk : Nat → Nat → Nat → α)
    {inv outv : VPtr} {R : Prop} (ks : List Nat) : ∀ {c : CSt α}, AllGood ops S c →
    (R → (∀ k ∈ ks, InReady (ops k) inv (c.view k) ∧ OutReady (ops k) outv (c.view k)) ∧ AllFree c) →
    M.wp R (addK ops junk inv outv ks) c (fun c' _ => Sum ops S inv outv ks c c') (fun c' _ => ¬ R ∧ AllGood ops S c') := by
  induction ks with
  | nil =>
    intro c hg _
    refine M.wp_of_eq_ok (s' := c) (a := ()) rfl ⟨hg, id, Advances.refl _, fun _ _ => rfl, fun _ => rfl, fun _ v t => ?_⟩
    unfold total
    simp
  | cons k ks ih =>
    intro c hg hR
    unfold addK
    rw [M.wp_bind]
    refine M.wp_mono (onOp_wp (applyAdd_wp (h k) (junk k) (hg k) (R := R) (inv := inv) (outv := outv) ?_)) ?_ ?_
    · intro r
      exact ⟨((hR r).1 k List.mem_cons_self).1, ((hR r).1 k List.mem_cons_self).2, (hR r).2 k⟩
    · rintro c1 _ ⟨s, rfl, h1, h2, _, h3, h4, h5, h6⟩
      have hg1 : AllGood ops S (c.put k s) := hg.put h1 h4
      refine M.wp_mono (ih hg1 ?_) ?_ (fun _ _ hh => hh)
      · intro r
        refine ⟨fun j hj => ?_, (hR r).2.put (h2 ((hR r).2 k))⟩
        obtain ⟨r1, r2⟩ := (hR r).1 j (List.mem_cons_of_mem _ hj)
        constructor
        · intro i hi hw
          obtain ⟨r', v, b1, b2, b3, b4⟩ := r1 i hi hw
          exact ⟨r', v, b1, b2, (h5 v).trans b3, by show _ ≤ (((s.vecs v).buf.len : Nat) : Int); rw [(h4 v).1]; exact b4⟩
        · intro o ho
          obtain ⟨r', v, b1, b2, b3, b4⟩ := r2 o ho
          exact ⟨r', v, b1, b2, (h5 v).trans b3, by show _ ≤ (((s.vecs v).buf.len : Nat) : Int); rw [(h4 v).1]; exact b4⟩
      · rintro c2 _ hs
        refine ⟨hs.good, fun hf => hs.free (hf.put (h2 (hf k))), Advances.trans h4 hs.adv, ?_, fun v => (hs.valid v).trans (h5 v), ?_⟩
        · intro v hv
          have e1 := hs.other v (fun ⟨j, hj, hh⟩ => hv ⟨j, List.mem_cons_of_mem _ hj, hh⟩)
          exact e1.trans (h3 v (fun o ho hh => hv ⟨k, List.mem_cons_self, o, ho, hh⟩))
        · intro hp v t
          rw [List.pairwise_cons] at hp
          have e1 := hs.val hp.2 v t
          rw [e1]
          have e2 : (c.put k s).L v t = c.L v t + (S k).action (ops k) c.L inv outv v t := h6 v t
          rw [e2]
          have e3 : total ops S (c.put k s).L inv outv ks v t = total ops S c.L inv outv ks v t := by
            unfold total
            congr 1
            refine List.map_congr_left (fun j hj => ?_)
            refine action_congr (fun i hi hw => ?_) outv v t
            match hq : ((ops j).inp i).vec.ptr inv with
            | .null => rfl
            | .none => rfl
            | .vec u =>
              show (s.vecs u).buf.val = (c.vecs u).buf.val
              rw [h3 u (fun o ho hh => hp.1 j hj i hi o ho hw (by rw [hq, hh]))]
              rfl
          rw [e3]
          unfold total
          rw [List.map_cons, List.sum_cons, add_assoc]
    · rintro c1 x ⟨s, rfl, e, h1, h2⟩
      refine ⟨h1, hg.put h2 ?_⟩
      have := applyAdd_advances (h k) (junk k) (hg k) inv outv
      rw [e] at this
      exact this

/-! ## Setting the outputs to zero -/

/-- The vectors in `Z` have been set to zero. -/
structure Zeroed (Z : Nat → Prop) (c c' : CSt α) : Prop where
  own : c'.own = c.own
  eptr : c'.eptr = c.eptr
  adv : Advances c.vecs c'.vecs
  other : ∀ v, ¬ Z v → c'.vecs v = c.vecs v
  zero : ∀ v, Z v → (c'.vecs v).valid = true ∧ (c'.vecs v).buf = ⟨(c.vecs v).buf.len, fun _ => 0⟩

theorem Zeroed.refl (c : CSt α) : Zeroed (fun _ => False) c c :=
  ⟨rfl, rfl, Advances.refl _, fun _ _ => rfl, fun _ h => h.elim⟩

theorem Zeroed.comp {Z Z' : Nat → Prop} {c c1 c2 : CSt α} (h : Zeroed Z c c1) (h' : Zeroed Z' c1 c2) :
    Zeroed (fun v => Z v ∨ Z' v) c c2 := by
  refine ⟨h'.own.trans h.own, h'.eptr.trans h.eptr, h.adv.trans h'.adv, ?_, ?_⟩
  · intro v hv
    rw [h'.other v (fun hh => hv (Or.inr hh)), h.other v (fun hh => hv (Or.inl hh))]
  · intro v hv
    by_cases hz : Z' v
    · rw [← (h.adv v).1]; exact h'.zero v hz
    · rw [h'.other v hz]
      exact h.zero v (hv.resolve_right hz)

theorem Zeroed.congr {Z Z' : Nat → Prop} {c c' : CSt α} (h : Zeroed Z c c') (e : ∀ v, Z v ↔ Z' v) : Zeroed Z' c c' :=
  ⟨h.own, h.eptr, h.adv, fun v hv => h.other v (fun hh => hv ((e v).1 hh)), fun v hv => h.zero v ((e v).2 hv)⟩

theorem zeroC_wp {R : Prop} {p : VPtr} (hR : R → p ≠ .null) (c : CSt α) :
    M.wp R (zeroC p) c (fun c' _ => Zeroed (fun v => p = .vec v) c c') (fun _ _ => False) := by
  match p with
  | .null => exact M.wp_of_eq_ub rfl (fun r => hR r rfl)
  | .none => exact M.wp_of_eq_ok (s' := c) (a := ()) rfl ((Zeroed.refl c).congr (fun v => by simp))
  | .vec u =>
    refine M.wp_of_eq_ok (s' := ⟨c.own, c.eptr, Function.update c.vecs u ⟨(c.vecs u).state + 2, true,
      ⟨(c.vecs u).buf.len, fun _ => 0⟩⟩⟩) (a := ()) rfl ⟨rfl, rfl, ?_, ?_, ?_⟩
    · exact Advances.update rfl (by show _ < (c.vecs u).state + 2; omega)
    · intro v hv
      exact Function.update_of_ne (fun hh => hv (by rw [hh])) _ _
    · intro v hv
      injection hv with hv
      subst hv
      show (Function.update c.vecs u _ u).valid = true ∧ (Function.update c.vecs u _ u).buf = _
      rw [Function.update_self]
      exact ⟨rfl, rfl⟩

/-- Passive output of an operator. -/
def Passive (op : Oper α) (v : Nat) : Prop := ∃ o < op.nout, (op.out o).vec = .vec v

theorem zeroSub_wp {R : Prop} {ops : Nat → Oper α} (k : Nat) (c : CSt α) :
    M.wp R (zeroSub ops (.op k)) c (fun c' _ => Zeroed (Passive (ops k)) c c') (fun _ _ => False) := by
  unfold zeroSub
  refine M.wp_loop (fun j c' => Zeroed (fun v => ∃ o < j, ((ops k).out o).vec = .vec v) c c') ?_ ?_
  · exact (Zeroed.refl c).congr (fun v => ⟨fun h => h.elim, fun ⟨o, h, _⟩ => absurd h (by omega)⟩)
  · intro o ho c' hz
    unfold zeroPassive
    match hv : ((ops k).out o).vec with
    | .vec i =>
      refine M.wp_mono (zeroC_wp (R := R) (p := .vec i) (fun _ => by simp) c') ?_ (fun _ _ hh => hh)
      intro c2 _ h2
      refine (hz.comp h2).congr (fun v => ⟨?_, ?_⟩)
      · rintro (⟨o1, h1, h3⟩ | h3)
        · exact ⟨o1, by omega, h3⟩
        · injection h3 with h3
          exact ⟨o, by omega, by rw [hv, h3]⟩
      · rintro ⟨o1, h1, h3⟩
        by_cases hh : o1 = o
        · subst hh
          rw [hv] at h3
          injection h3 with h3
          exact Or.inr (by rw [h3])
        · exact Or.inl ⟨o1, by omega, h3⟩
    | .active =>
      refine M.wp_of_eq_ok (s' := c') (a := ()) rfl (hz.congr (fun v => ⟨?_, ?_⟩))
      · rintro ⟨o1, h1, h3⟩; exact ⟨o1, by omega, h3⟩
      · rintro ⟨o1, h1, h3⟩
        have : o1 ≠ o := by rintro rfl; rw [hv] at h3; cases h3
        exact ⟨o1, by omega, h3⟩
    | .none =>
      refine M.wp_of_eq_ok (s' := c') (a := ()) rfl (hz.congr (fun v => ⟨?_, ?_⟩))
      · rintro ⟨o1, h1, h3⟩; exact ⟨o1, by omega, h3⟩
      · rintro ⟨o1, h1, h3⟩
        have : o1 ≠ o := by rintro rfl; rw [hv] at h3; cases h3
        exact ⟨o1, by omega, h3⟩

/-- The sub-operators are single operators. -/
def Flat (l : List Tree) : Prop := ∀ t ∈ l, ∃ k, t = .op k

theorem zeroSubs_wp {R : Prop} {ops : Nat → Oper α} (l : List Tree) (hR : R → Flat l) : ∀ c : CSt α,
    M.wp R (zeroSubs ops l) c
      (fun c' _ => Flat l ∧ Zeroed (fun v => ∃ k ∈ leavesL l, Passive (ops k) v) c c')
      (fun c' _ => ¬ R ∧ c'.own = c.own ∧ Advances c.vecs c'.vecs) := by
  induction l with
  | nil =>
    intro c
    refine M.wp_of_eq_ok (s' := c) (a := ()) rfl ⟨fun t ht => absurd ht (List.not_mem_nil), ?_⟩
    exact (Zeroed.refl c).congr (fun v => by simp [leavesL])
  | cons t l ih =>
    intro c
    unfold zeroSubs
    rw [M.wp_bind]
    match t with
    | .comp l' =>
      refine M.wp_of_eq_err (s' := c) rfl ⟨?_, rfl, Advances.refl _⟩
      intro r
      obtain ⟨k, hk⟩ := hR r (.comp l') List.mem_cons_self
      cases hk
    | .op k =>
      refine M.wp_mono (zeroSub_wp k c) ?_ (fun _ _ hh => hh.elim)
      intro c1 _ h1
      refine M.wp_mono (ih (fun r t ht => hR r t (List.mem_cons_of_mem _ ht)) c1) ?_ ?_
      · rintro c2 _ ⟨h2, h3⟩
        refine ⟨?_, (h1.comp h3).congr (fun v => ⟨?_, ?_⟩)⟩
        · intro t ht
          rcases List.mem_cons.1 ht with rfl | ht
          · exact ⟨k, rfl⟩
          · exact h2 t ht
        · rintro (hp | ⟨j, hj, hp⟩)
          · exact ⟨k, by simp [leavesL, leaves], hp⟩
          · exact ⟨j, by simp only [leavesL, leaves]; exact List.mem_append_right _ hj, hp⟩
        · rintro ⟨j, hj, hp⟩
          simp only [leavesL, leaves] at hj
          rcases List.mem_append.1 hj with hj | hj
          · rw [List.mem_singleton] at hj
            subst hj
            exact Or.inl hp
          · exact Or.inr ⟨j, hj, hp⟩
      · rintro c2 _ ⟨h2, h3, h4⟩
        exact ⟨h2, h3.trans h1.own, h1.adv.trans h4⟩

/-- Vectors written by `CeedOperatorApply` of a composite. -/
def Written (ops : Nat → Oper α) (outv : VPtr) (ks : List Nat) (v : Nat) : Prop := outv = .vec v ∨ IsOut ops outv ks v

theorem written_iff {ops : Nat → Oper α} {outv : VPtr} {ks : List Nat} {v : Nat} :
    (outv = .vec v ∨ ∃ k ∈ ks, Passive (ops k) v) ↔ Written ops outv ks v := by
  constructor
  · rintro (h | ⟨k, hk, o, ho, hp⟩)
    · exact Or.inl h
    · exact Or.inr ⟨k, hk, o, ho, by rw [hp]; rfl⟩
  · rintro (h | ⟨k, hk, o, ho, hp⟩)
    · exact Or.inl h
    · match hv : ((ops k).out o).vec with
      | .active => rw [hv] at hp; exact Or.inl hp
      | .none => rw [hv] at hp; cases hp
      | .vec i =>
        rw [hv] at hp
        injection hp with hp
        exact Or.inr ⟨k, hk, o, ho, by rw [hv, hp]⟩

/-- Contents of the vectors after those that are written have been set to zero. -/
noncomputable def cleared (ops : Nat → Oper α) (outv : VPtr) (ks : List Nat) (L : Nat → Nat → α) : Nat → Nat → α := fun v =>
  open Classical in if Written ops outv ks v then fun _ => 0 else L v

/-- Everything `CeedOperatorApply` of a composite does. -/
structure Stored (ops : Nat → Oper α) (S : Nat → Meaning α) (inv outv : VPtr) (ks : List Nat) (c c' : CSt α) : Prop where
  good : AllGood ops S c'
  free : AllFree c → AllFree c'
  adv : Advances c.vecs c'.vecs
  other : ∀ v, ¬ Written ops outv ks v → c'.vecs v = c.vecs v
  val : ks.Pairwise (Indep ops inv outv) → ∀ v, Written ops outv ks v → ∀ t,
    c'.L v t = total ops S (cleared ops outv ks c.L) inv outv ks v t

theorem applyT_wp {ops : Nat → Oper α} {S : Nat → Meaning α} (h : ∀ k, OpOK (ops k) (S k)) (junk : Nat → Nat → Nat → α)
    {inv outv : VPtr} {R : Prop} (l : List Tree) {c : CSt α} (hg : AllGood ops S c)
    (hR : R → Flat l ∧ outv ≠ .null ∧ (∀ k ∈ leavesL l, InReady (ops k) inv (c.view k) ∧ OutLong (ops k) outv (c.view k)) ∧
      AllFree c) :
    M.wp R (applyT ops junk inv outv (.comp l)) c (fun c' _ => Flat l ∧ Stored ops S inv outv (leavesL l) c c')
      (fun c' _ => ¬ R ∧ AllGood ops S c') := by
  unfold applyT
  rw [M.wp_bind]
  refine M.wp_mono (zeroC_wp (R := R) (fun r => (hR r).2.1) c) ?_ (fun _ _ hh => hh.elim)
  intro c1 _ z1
  rw [M.wp_bind]
  refine M.wp_mono (zeroSubs_wp (R := R) l (fun r => (hR r).1) c1) ?_ ?_
  · rintro c2 _ ⟨hf, z2⟩
    have z := (z1.comp z2).congr (Z' := Written ops outv (leavesL l)) (fun v => written_iff)
    have hg2 : AllGood ops S c2 := by
      have := hg.vecs z.adv
      rw [← z.own, ← z.eptr] at this
      exact this
    have hfree : AllFree c → AllFree c2 := by
      intro hc k hd
      rw [z.own] at hd
      have := hc k hd
      unfold Unlocked CSt.view at *
      rw [z.own]
      exact this
    rw [addL_eq]
    refine M.wp_mono (addK_wp h junk (R := R) (leavesL l) hg2 ?_) ?_ (fun _ _ hh => hh)
    · intro r
      obtain ⟨_, _, r1, r2⟩ := hR r
      refine ⟨fun k hk => ⟨?_, ?_⟩, hfree r2⟩
      · intro i hi hw
        obtain ⟨r', v, b1, b2, b3, b4⟩ := (r1 k hk).1 i hi hw
        refine ⟨r', v, b1, b2, ?_, by show _ ≤ (((c2.vecs v).buf.len : Nat) : Int); rw [(z.adv v).1]; exact b4⟩
        show (c2.vecs v).valid = true
        by_cases hv : Written ops outv (leavesL l) v
        · exact (z.zero v hv).1
        · rw [z.other v hv]; exact b3
      · intro o ho
        obtain ⟨r', v, b1, b2, b3⟩ := (r1 k hk).2 o ho
        refine ⟨r', v, b1, b2, ?_, by show _ ≤ (((c2.vecs v).buf.len : Nat) : Int); rw [(z.adv v).1]; exact b3⟩
        exact (z.zero v (Or.inr ⟨k, hk, o, ho, b2⟩)).1
    · rintro c3 _ hs
      have hL : c2.L = cleared ops outv (leavesL l) c.L := by
        funext v
        unfold cleared CSt.L
        split
        · rename_i hh; rw [(z.zero v hh).2]
        · rename_i hh; rw [z.other v hh]
      refine ⟨hf, hs.good, fun hh => hs.free (hfree hh), z.adv.trans hs.adv, ?_, ?_⟩
      · intro v hv
        rw [hs.other v (fun hh => hv (Or.inr hh)), z.other v hv]
      · intro hp v hv t
        rw [hs.val hp v t, hL]
        unfold cleared
        rw [if_pos hv, zero_add]
  · rintro c2 _ ⟨hr, ho, ha⟩
    refine ⟨hr, ?_⟩
    intro k
    have hk : (c2.view k).impl = (c.view k).impl := by
      show c2.own k = c.own k
      rw [ho, z1.own]
    have hv : Advances (c.view k).vecs (c2.view k).vecs := z1.adv.trans ha
    refine ⟨?_, hv.vz (hg k).2⟩
    rcases (hg k).1 with hd | hi
    · exact Or.inl (by rw [hk]; exact hd)
    · exact Or.inr (hi.adv hv hk)

/-! ## Histories -/

theorem CReach.good {ops : Nat → Oper α} {S : Nat → Meaning α} (h : ∀ k, OpOK (ops k) (S k)) {fails : Prop} {c : CSt α}
    (hr : CReach ops fails c) : AllGood ops S c ∧ (¬ fails → AllFree c) := by
  induction hr with
  | start c hd hv => exact ⟨fun k => ⟨Or.inl (hd k), hv⟩, fun _ k hh => by rw [hd k] at hh; cases hh⟩
  | user _ ha ih => exact ⟨ih.1.vecs ha, fun hf k hd => ih.2 hf k hd⟩
  | applyAdd _ e ih =>
    rw [addT_eq] at e
    have := M.wp_ok (addK_wp h _ (R := False) _ ih.1 (fun hh => hh.elim)) e
    exact ⟨this.good, fun hf => this.free (ih.2 hf)⟩
  | applyAddErr hf _ e ih =>
    rw [addT_eq] at e
    exact ⟨(M.wp_err (addK_wp h _ (R := False) _ ih.1 (fun hh => hh.elim)) e).2, fun hn => absurd hf hn⟩
  | @apply c c' junk inv outv t _ e ih =>
    match t with
    | .comp l =>
      have := M.wp_ok (applyT_wp h _ (R := False) l ih.1 (fun hh => hh.elim)) e
      exact ⟨this.2.good, fun hf => this.2.free (ih.2 hf)⟩
    | .op k =>
      obtain ⟨s, e1, h1⟩ := M.wp_ok (onOp_wp (apply_wp (h k) (junk k) (ih.1 k) (R := False) (fun hh => hh.elim))) e
      subst e1
      exact ⟨ih.1.put h1.1 h1.2.2.2.1, fun hf => (ih.2 hf).put (h1.2.1 (ih.2 hf k))⟩
  | @applyErr c c' junk inv outv t x hf _ e ih =>
    match t with
    | .comp l =>
      exact ⟨(M.wp_err (applyT_wp h _ (R := False) l ih.1 (fun hh => hh.elim)) e).2, fun hn => absurd hf hn⟩
    | .op k =>
      obtain ⟨s, e1, e2, h1⟩ := M.wp_err (onOp_wp (apply_wp (h k) (junk k) (ih.1 k) (R := False) (fun hh => hh.elim))) e
      subst e1
      refine ⟨ih.1.put h1.2 ?_, fun hn => absurd hf hn⟩
      have := apply_advances (h k) (junk k) (ih.1 k) inv outv
      rw [e2] at this
      exact this

/-! ## C38 -/

theorem Apart.pairwise {ops : Nat → Oper α} {inv outv : VPtr} {ks : List Nat} (h : Apart ops inv outv ks) :
    ks.Pairwise (Indep ops inv outv) := by
  rw [List.pairwise_iff_forall_sublist]
  intro a b hab
  have ha : a ∈ ks := hab.subset (by simp)
  have hb : b ∈ ks := hab.subset (by simp)
  intro i hi o ho hw
  exact (h b hb i hi hw).2 a ha i hi o ho hw

theorem total_congr {ops : Nat → Oper α} {S : Nat → Meaning α} {inv outv : VPtr} {ks : List Nat}
    (h : Apart ops inv outv ks) (L : Nat → Nat → α) (v t : Nat) :
    total ops S (cleared ops outv ks L) inv outv ks v t = total ops S L inv outv ks v t := by
  unfold total
  congr 1
  refine List.map_congr_left (fun j hj => ?_)
  refine action_congr (fun i hi hw => ?_) outv v t
  match hq : ((ops j).inp i).vec.ptr inv with
  | .null => rfl
  | .none => rfl
  | .vec u =>
    show cleared ops outv ks L u = L u
    unfold cleared
    rw [if_neg]
    rintro (hh | ⟨k, hk, o, ho, hh⟩)
    · exact (h j hj i hi hw).1 (by rw [hq, hh])
    · exact (h j hj i hi hw).2 k hk i hi o ho hw (by rw [hq, hh])

/-- After any history, failed calls included, a successful `CeedOperatorApplyAdd` of a composite of any depth adds to every
vector the sum of the actions of its single operators, and changes no vector that is not an output of one of them. Operators
must not read what operators before them write. -/
theorem C38_apply_add {ops : Nat → Oper α} {S : Nat → Meaning α} (h : ∀ k, OpOK (ops k) (S k)) {c c' : CSt α}
    (hr : CReach ops True c) {junk : Nat → Nat → Nat → α} {inv outv : VPtr} {t : Tree}
    (hi : (leaves t).Pairwise (Indep ops inv outv)) (e : addT ops junk inv outv t c = .ok c' ()) :
    (∀ v x, c'.L v x = c.L v x + total ops S c.L inv outv (leaves t) v x) ∧
    ∀ v, ¬ IsOut ops outv (leaves t) v → c'.vecs v = c.vecs v := by
  rw [addT_eq] at e
  have := M.wp_ok (addK_wp h _ (R := False) _ (hr.good h).1 (fun hh => hh.elim)) e
  exact ⟨this.val hi, this.other⟩

/-- After any history, a successful `CeedOperatorApply` of a composite stores the sum of the actions in its outputs (and in
`outv`, which is set to zero if no sub-operator has an active output), if no vector is both read and written. -/
theorem C38_apply {ops : Nat → Oper α} {S : Nat → Meaning α} (h : ∀ k, OpOK (ops k) (S k)) {c c' : CSt α}
    (hr : CReach ops True c) {junk : Nat → Nat → Nat → α} {inv outv : VPtr} {l : List Tree}
    (ha : Apart ops inv outv (leaves (.comp l))) (e : applyT ops junk inv outv (.comp l) c = .ok c' ()) :
    (∀ v, (outv = .vec v ∨ IsOut ops outv (leaves (.comp l)) v) → ∀ x,
      c'.L v x = total ops S c.L inv outv (leaves (.comp l)) v x) ∧
    ∀ v, ¬ (outv = .vec v ∨ IsOut ops outv (leaves (.comp l)) v) → c'.vecs v = c.vecs v := by
  have := (M.wp_ok (applyT_wp h _ (R := False) l (hr.good h).1 (fun hh => hh.elim)) e).2
  refine ⟨fun v hv x => ?_, this.other⟩
  simp only [leaves] at ha ⊢
  rw [this.val ha.pairwise v (by unfold Written; simpa only [leaves] using hv) x, total_congr ha]

/-- The grouping and the order of the sub-operators do not matter: composites with the same single operators add the same to
all vectors. -/
theorem C38_order {ops : Nat → Oper α} {S : Nat → Meaning α} (h : ∀ k, OpOK (ops k) (S k)) {c c' d d' : CSt α}
    (hc : CReach ops True c) (hd : CReach ops True d) (hL : c.L = d.L) {junk junk' : Nat → Nat → Nat → α} {inv outv : VPtr}
    {t t' : Tree} (hp : (leaves t).Perm (leaves t')) (ha : Apart ops inv outv (leaves t))
    (e : addT ops junk inv outv t c = .ok c' ()) (e' : addT ops junk' inv outv t' d = .ok d' ()) : c'.L = d'.L := by
  have ha' : Apart ops inv outv (leaves t') := fun k hk i hi hw =>
    ⟨(ha k (hp.mem_iff.2 hk) i hi hw).1, fun k' hk' => (ha k (hp.mem_iff.2 hk) i hi hw).2 k' (hp.mem_iff.2 hk')⟩
  funext v x
  rw [(C38_apply_add h hc ha.pairwise e).1, (C38_apply_add h hd ha'.pairwise e').1, hL]
  unfold total
  rw [(hp.map _).sum_eq]

/-- After a history without failing calls, `CeedOperatorApplyAdd` of a composite of any depth succeeds if the vectors its
single operators read and write hold data and are long enough. -/
theorem C38_apply_add_succeeds {ops : Nat → Oper α} {S : Nat → Meaning α} (h : ∀ k, OpOK (ops k) (S k)) {c : CSt α}
    (hr : CReach ops False c) (junk : Nat → Nat → Nat → α) {inv outv : VPtr} {t : Tree}
    (hv : ∀ k ∈ leaves t, InReady (ops k) inv (c.view k) ∧ OutReady (ops k) outv (c.view k)) :
    ∃ c', addT ops junk inv outv t c = .ok c' () := by
  have hg := hr.good h
  rw [addT_eq]
  have := addK_wp h junk (R := True) (leaves t) hg.1 (fun _ => ⟨hv, hg.2 (fun hh => hh)⟩)
  cases e : addK ops junk inv outv (leaves t) c with
  | ok c' a => exact ⟨c', rfl⟩
  | err c' x => exact absurd trivial (M.wp_err this e).1
  | ub => exact absurd trivial (M.wp_ub this e)

/-- After a history without failing calls, `CeedOperatorApply` of a composite of single operators succeeds if the vectors they
read hold data and all their vectors are long enough. Missing: composites that contain composites, for which it fails
(`C38_nested_witness`). -/
theorem C38_apply_succeeds_partial {ops : Nat → Oper α} {S : Nat → Meaning α} (h : ∀ k, OpOK (ops k) (S k)) {c : CSt α}
    (hr : CReach ops False c) (junk : Nat → Nat → Nat → α) {inv outv : VPtr} {ks : List Nat} (ho : outv ≠ .null)
    (hv : ∀ k ∈ ks, InReady (ops k) inv (c.view k) ∧ OutLong (ops k) outv (c.view k)) :
    ∃ c', applyT ops junk inv outv (.comp (ks.map .op)) c = .ok c' () := by
  have hg := hr.good h
  have hl : leavesL (ks.map .op) = ks := by
    clear hv
    induction ks with
    | nil => rfl
    | cons k ks ih =>
      simp only [List.map_cons, leavesL, leaves, ih]
      rfl
  have := applyT_wp h junk (R := True) (ks.map .op) hg.1 (inv := inv) (outv := outv) (fun _ => ⟨?_, ho, ?_, hg.2 (fun hh => hh)⟩)
  · cases e : applyT ops junk inv outv (.comp (ks.map .op)) c with
    | ok c' a => exact ⟨c', rfl⟩
    | err c' x => exact absurd trivial (M.wp_err this e).1
    | ub => exact absurd trivial (M.wp_ub this e)
  · intro t ht
    obtain ⟨k, _, rfl⟩ := List.mem_map.1 ht
    exact ⟨k, rfl⟩
  · rw [hl]; exact hv

/-- `CeedOperatorApply` of a composite that contains a composite always fails, whatever the vectors hold. -/
theorem C38_nested_fails {ops : Nat → Oper α} {c : CSt α} {junk : Nat → Nat → Nat → α} {inv outv : VPtr} {l l' : List Tree}
    (hm : Tree.comp l' ∈ l) (c' : CSt α) : applyT ops junk inv outv (.comp l) c ≠ .ok c' () := by
  intro e
  change ((zeroC outv >>= fun _ => zeroSubs ops l >>= fun _ => addL ops junk inv outv l) : M (CSt α) Unit) c = _ at e
  rw [M.bind_apply] at e
  obtain ⟨c1, _, _, e⟩ := Out.bind_eq_ok.1 e
  rw [M.bind_apply] at e
  obtain ⟨c2, _, e2, _⟩ := Out.bind_eq_ok.1 e
  obtain ⟨k, hk⟩ := (M.wp_ok (zeroSubs_wp (R := False) l (fun hh => hh.elim) c1) e2).1 _ hm
  cases hk

end Composite
end Verif
