import Verif.Operator.Spec
import Mathlib.Order.Nat
import Mathlib.Data.Nat.Find

/-!
# Tables of shared fields computed by the setup (helper lemmas)
-/

set_option linter.unusedSectionVars false

namespace Verif
namespace Operator

open Restriction (RData Made)
open Basis (Bas EMode)

variable {α : Type} [CommRing α]

theorem same_iff {a b : OField α} : a.same b = true ↔ a.vec = b.vec ∧ a.rid = b.rid := by
  unfold OField.same; simp

theorem same_refl (a : OField α) : a.same a = true := same_iff.2 ⟨rfl, rfl⟩
theorem same_symm {a b : OField α} (h : a.same b = true) : b.same a = true :=
  same_iff.2 ⟨(same_iff.1 h).1.symm, (same_iff.1 h).2.symm⟩
theorem same_trans {a b c : OField α} (h : a.same b = true) (h' : b.same c = true) : a.same c = true :=
  same_iff.2 ⟨(same_iff.1 h).1.trans (same_iff.1 h').1, (same_iff.1 h).2.trans (same_iff.1 h').2⟩

theorem dat_same {S : Meaning α} {a b : OField α} (h : a.same b = true) : S.dat a = S.dat b := by
  unfold Meaning.dat; rw [(same_iff.1 h).2]

/-- The first input with the vector and restriction of input `j`. -/
noncomputable def first (op : Oper α) (j : Nat) : Nat :=
  Nat.find (⟨j, same_refl _⟩ : ∃ i, (op.inp i).same (op.inp j) = true)

theorem first_same (op : Oper α) (j : Nat) : (op.inp (first op j)).same (op.inp j) = true := Nat.find_spec (p := fun i => (op.inp i).same (op.inp j) = true) _
theorem first_le (op : Oper α) (j : Nat) : first op j ≤ j := Nat.find_le (p := fun i => (op.inp i).same (op.inp j) = true) (same_refl _)
theorem first_min (op : Oper α) {i j : Nat} (h : i < first op j) : (op.inp i).same (op.inp j) = false := by
  have := Nat.find_min (p := fun i => (op.inp i).same (op.inp j) = true) _ h
  simpa using this
theorem first_le_of_same (op : Oper α) {i j : Nat} (h : (op.inp i).same (op.inp j) = true) : first op j ≤ i :=
  Nat.find_le (p := fun i => (op.inp i).same (op.inp j) = true) h

theorem first_congr (op : Oper α) {i j : Nat} (h : (op.inp i).same (op.inp j) = true) : first op i = first op j := by
  apply le_antisymm
  · exact first_le_of_same op (same_trans (first_same op j) (same_symm h))
  · exact first_le_of_same op (same_trans (first_same op i) h)

theorem first_first (op : Oper α) (j : Nat) : first op (first op j) = first op j := first_congr op (first_same op j)

/-- The last output with the vector and restriction of output `j`. -/
def last (op : Oper α) (j : Nat) : Nat := Nat.findGreatest (fun i => (op.out i).same (op.out j) = true) (op.nout - 1)

theorem last_same (op : Oper α) {j : Nat} (hj : j < op.nout) : (op.out (last op j)).same (op.out j) = true :=
  Nat.findGreatest_spec (P := fun i => (op.out i).same (op.out j) = true) (m := j) (by omega) (same_refl _)
theorem le_last (op : Oper α) {i j : Nat} (hi : i < op.nout) (h : (op.out i).same (op.out j) = true) : i ≤ last op j :=
  Nat.le_findGreatest (P := fun i => (op.out i).same (op.out j) = true) (by omega) h
theorem last_lt (op : Oper α) {j : Nat} (hj : j < op.nout) : last op j < op.nout := by
  have := Nat.findGreatest_le (P := fun i => (op.out i).same (op.out j) = true) (op.nout - 1)
  unfold last; omega

theorem last_congr (op : Oper α) {i j : Nat} (hi : i < op.nout) (hj : j < op.nout)
    (h : (op.out i).same (op.out j) = true) : last op i = last op j := by
  apply le_antisymm
  · exact le_last op (last_lt op hi) (same_trans (last_same op hi) h)
  · exact le_last op (last_lt op hj) (same_trans (last_same op hj) (same_symm h))

theorem last_last (op : Oper α) {j : Nat} (hj : j < op.nout) : last op (last op j) = last op j :=
  last_congr op (last_lt op hj) hj (last_same op hj)

/-! ## Facts about single fields -/

/-- Length of the E-vector of one element. -/
def elen (S : Meaning α) (a : OField α) : Nat := (S.dat a).es * (S.dat a).nc

theorem OpOK.in_basis {op : Oper α} {S : Meaning α} (h : OpOK op S) {i : Nat} (hi : i < op.nin)
    (hm : isBasisMode (op.inp i).mode = true) : HasRstr op S (op.inp i) ∧ ∃ b, Fits op S (op.inp i) b ∧
      Basis.MulBy b (op.inp i).mode (S.mIn i) := by
  have := h.inp i hi
  unfold InOK at this
  cases hmode : (op.inp i).mode <;> rw [hmode] at hm this <;> simp [isBasisMode] at hm <;> exact this

theorem OpOK.in_none {op : Oper α} {S : Meaning α} (h : OpOK op S) {i : Nat} (hi : i < op.nin)
    (hm : (op.inp i).mode = .none) : HasRstr op S (op.inp i) ∧ (S.dat (op.inp i)).es = op.Q ∧
      (op.inp i).size = (S.dat (op.inp i)).nc := by
  have := h.inp i hi
  unfold InOK at this
  rw [hm] at this
  exact this

theorem OpOK.in_weight {op : Oper α} {S : Meaning α} (h : OpOK op S) {i : Nat} (hi : i < op.nin)
    (hm : (op.inp i).mode = .weight) : (op.inp i).vec = .none ∧ (op.inp i).rid = none ∧ (op.inp i).size = 1 ∧
      ∃ b, (op.inp i).basis = some b ∧ b.Q = op.Q ∧ WeightBy b (S.w i) := by
  have := h.inp i hi
  unfold InOK at this
  rw [hm] at this
  exact this

theorem mode_cases (m : EMode) : m = .weight ∨ m = .none ∨ isBasisMode m = true := by
  cases m <;> simp [isBasisMode]

theorem OpOK.in_rstr {op : Oper α} {S : Meaning α} (h : OpOK op S) {i : Nat} (hi : i < op.nin)
    (hm : (op.inp i).mode ≠ .weight) : HasRstr op S (op.inp i) := by
  rcases mode_cases (op.inp i).mode with h1 | h1 | h1
  · exact absurd h1 hm
  · exact (h.in_none hi h1).1
  · exact (h.in_basis hi h1).1

theorem OpOK.out_basis {op : Oper α} {S : Meaning α} (h : OpOK op S) {o : Nat} (ho : o < op.nout)
    (hm : isBasisMode (op.out o).mode = true) : HasRstr op S (op.out o) ∧ ∃ b, Fits op S (op.out o) b ∧
      Basis.MulByT b (op.out o).mode (S.mOut o) ∧
      ((∃ j < o, (op.out j).same (op.out o) = true) → Basis.AddByT b (op.out o).mode (S.mOut o)) := by
  have := h.out o ho
  unfold OutOK at this
  cases hmode : (op.out o).mode <;> rw [hmode] at hm this <;> simp [isBasisMode] at hm <;> exact this

theorem OpOK.out_none {op : Oper α} {S : Meaning α} (h : OpOK op S) {o : Nat} (ho : o < op.nout)
    (hm : (op.out o).mode = .none) : HasRstr op S (op.out o) ∧ (S.dat (op.out o)).es = op.Q ∧
      (op.out o).size = (S.dat (op.out o)).nc := by
  have := h.out o ho
  unfold OutOK at this
  rw [hm] at this
  exact this

theorem OpOK.out_not_weight {op : Oper α} {S : Meaning α} (h : OpOK op S) {o : Nat} (ho : o < op.nout) :
    (op.out o).mode ≠ .weight := by
  intro hm
  have := h.out o ho
  unfold OutOK at this
  rw [hm] at this
  exact this

theorem OpOK.out_rstr {op : Oper α} {S : Meaning α} (h : OpOK op S) {o : Nat} (ho : o < op.nout) :
    HasRstr op S (op.out o) := by
  rcases mode_cases (op.out o).mode with h1 | h1 | h1
  · exact absurd h1 (h.out_not_weight ho)
  · exact (h.out_none ho h1).1
  · exact (h.out_basis ho h1).1

theorem ev_basis {op : Oper α} {S : Meaning α} {a : OField α} {b : Bas α} (hf : Fits op S a b)
    (hm : isBasisMode a.mode = true) : a.ev = some (elen S a) := by
  obtain ⟨h1, h2, h3, _⟩ := hf
  unfold OField.ev elen
  rw [if_pos hm, h1, Option.map_some, h2, h3]

theorem weight_not_basis {m : EMode} (h : isBasisMode m = true) : m ≠ .weight := by
  rintro rfl; simp [isBasisMode] at h

/-- All inputs sharing vector and restriction with another input have a restriction. -/
theorem OpOK.shared_not_weight {op : Oper α} {S : Meaning α} (h : OpOK op S) {i j : Nat} (hij : i < j) (hj : j < op.nin)
    (hs : (op.inp i).same (op.inp j) = true) : (op.inp j).mode ≠ .weight := by
  intro hw
  have hr := (h.in_weight hj hw).2.1
  have hf : first op j ≤ i := first_le_of_same op hs
  have hb := h.shareIn (first op j) j (by omega) hj (first_same op j) (fun k hk => first_min op hk)
  obtain ⟨⟨r, l, e, _⟩, _⟩ := h.in_basis (by omega : first op j < op.nin) hb
  rw [(same_iff.1 (first_same op j)).2, hr] at e
  cases e

/-- Result of the setup of the inputs. -/
structure InSpec (op : Oper α) (S : Meaning α) (t : InTabs) : Prop where
  skip : ∀ j < op.nin, (t.skip j = true ↔ first op j < j)
  full : ∀ j < op.nin, (op.inp j).mode ≠ .weight → t.full j = some (first op j)
  ev : ∀ j < op.nin, isBasisMode (op.inp j).mode = true → t.ev j = some (elen S (op.inp j))

/-- Partial result: fields `j` that share with one of the earlier fields `i' < i`, or with `i` if `j < d`, are done. -/
def inDone (op : Oper α) (i d j : Nat) : Prop :=
  (∃ i' < i, i' < j ∧ (op.inp i').same (op.inp j) = true) ∨ (i < j ∧ j < d ∧ (op.inp i).same (op.inp j) = true)

/-- Sharing of inputs, when the first of several inputs with the same vector and restriction has an E-vector. -/
theorem setupInWith_spec {op : Oper α} {ev0 : OField α → Option Nat} {E : Nat → Nat}
    (hE : ∀ i j, (op.inp i).same (op.inp j) = true → E j = E i)
    (hsh : ∀ i j, i < j → j < op.nin → (op.inp i).same (op.inp j) = true → first op i = i →
      (op.inp i).mode ≠ .weight ∧ ev0 (op.inp i) = some (E i)) :
    ∃ t, setupInWith ev0 op = .ok t ∧ (∀ j < op.nin, (t.skip j = true ↔ first op j < j)) ∧
      (∀ j < op.nin, (op.inp j).mode ≠ .weight → t.full j = some (first op j)) ∧
      (∀ j < op.nin, t.ev j = if first op j < j then some (E j) else ev0 (op.inp j)) := by
  have key : ∃ t, setupInWith ev0 op = .ok t ∧ ∀ j < op.nin,
      (t.skip j = true ↔ inDone op op.nin 0 j) ∧
      (inDone op op.nin 0 j → t.full j = some (first op j) ∧ t.ev j = some (E j)) ∧
      (¬ inDone op op.nin 0 j → t.full j = (if (op.inp j).mode = .weight then none else some j) ∧
        t.ev j = ev0 (op.inp j)) := by
    unfold setupInWith
    refine loop_inv (fun i (t : InTabs) => ∀ j < op.nin,
      (t.skip j = true ↔ inDone op i 0 j) ∧
      (inDone op i 0 j → t.full j = some (first op j) ∧ t.ev j = some (E j)) ∧
      (¬ inDone op i 0 j → t.full j = (if (op.inp j).mode = .weight then none else some j) ∧
        t.ev j = ev0 (op.inp j))) ?_ ?_
    · intro j hj
      have hn : ¬ inDone op 0 0 j := by rintro (⟨i', h1, _⟩ | ⟨_, h1, _⟩) <;> omega
      refine ⟨by simp [hn], fun hd => absurd hd hn, fun _ => ⟨rfl, rfl⟩⟩
    · intro i hi t ht
      obtain ⟨t', e, ht'⟩ := loop_inv (n := op.nin - (i + 1)) (s := t)
        (body := fun d t => if (op.inp i).same (op.inp (i + 1 + d)) then shareIn i (i + 1 + d) t else .ok t)
        (fun d (t : InTabs) => ∀ j < op.nin,
          (t.skip j = true ↔ inDone op i (i + 1 + d) j) ∧
          (inDone op i (i + 1 + d) j → t.full j = some (first op j) ∧ t.ev j = some (E j)) ∧
          (¬ inDone op i (i + 1 + d) j → t.full j = (if (op.inp j).mode = .weight then none else some j) ∧
            t.ev j = ev0 (op.inp j)))
        (by
          intro j hj
          have : inDone op i (i + 1 + 0) j ↔ inDone op i 0 j := by
            unfold inDone
            constructor
            · rintro (h1 | ⟨h1, h2, _⟩)
              · exact Or.inl h1
              · omega
            · rintro (h1 | ⟨h1, h2, _⟩)
              · exact Or.inl h1
              · omega
          rw [this]
          exact ht j hj)
        (by
          intro d hd t ht
          have hj0 : i + 1 + d < op.nin := by omega
          by_cases hs : (op.inp i).same (op.inp (i + 1 + d)) = true
          · simp only [hs, if_true]
            have hff : first op (i + 1 + d) = first op i := (first_congr op hs).symm
            have hee : E (i + 1 + d) = E i := hE _ _ hs
            have hti : t.full i = some (first op i) ∧ t.ev i = some (E i) := by
              by_cases hd : inDone op i (i + 1 + d) i
              · exact (ht i hi).2.1 hd
              · have hfi : first op i = i := by
                  by_contra hne
                  have := first_le op i
                  exact hd (Or.inl ⟨first op i, by omega, by omega, first_same op i⟩)
                obtain ⟨hb, hev⟩ := hsh i (i + 1 + d) (by omega) hj0 hs hfi
                obtain ⟨e1, e2⟩ := (ht i hi).2.2 hd
                rw [if_neg hb] at e1
                rw [e1, e2, hfi, hev]
                exact ⟨rfl, rfl⟩
            unfold shareIn
            rw [hti.1, hti.2]
            refine ⟨_, rfl, ?_⟩
            intro j hj
            by_cases hjj : j = i + 1 + d
            · subst hjj
              have hdn : inDone op i (i + 1 + (d + 1)) (i + 1 + d) := Or.inr ⟨by omega, by omega, hs⟩
              simp only [Function.update_self]
              refine ⟨by simp [hdn], fun _ => ⟨by rw [hff], by rw [hee]⟩, fun hc => absurd hdn hc⟩
            · simp only [Function.update_of_ne hjj]
              have : inDone op i (i + 1 + (d + 1)) j ↔ inDone op i (i + 1 + d) j := by
                unfold inDone
                constructor
                · rintro (h1 | ⟨h1, h2, h3⟩)
                  · exact Or.inl h1
                  · exact Or.inr ⟨h1, by omega, h3⟩
                · rintro (h1 | ⟨h1, h2, h3⟩)
                  · exact Or.inl h1
                  · exact Or.inr ⟨h1, by omega, h3⟩
              rw [this]
              exact ht j hj
          · simp only [hs]
            refine ⟨t, by simp, ?_⟩
            intro j hj
            have : inDone op i (i + 1 + (d + 1)) j ↔ inDone op i (i + 1 + d) j := by
              unfold inDone
              constructor
              · rintro (h1 | ⟨h1, h2, h3⟩)
                · exact Or.inl h1
                · refine Or.inr ⟨h1, ?_, h3⟩
                  by_contra hc
                  have : j = i + 1 + d := by omega
                  rw [this] at h3
                  exact hs h3
              · rintro (h1 | ⟨h1, h2, h3⟩)
                · exact Or.inl h1
                · exact Or.inr ⟨h1, by omega, h3⟩
            rw [this]
            exact ht j hj)
      refine ⟨t', e, ?_⟩
      intro j hj
      have : inDone op (i + 1) 0 j ↔ inDone op i (i + 1 + (op.nin - (i + 1))) j := by
        unfold inDone
        constructor
        · rintro (⟨i', h1, h2, h3⟩ | ⟨_, h2, _⟩)
          · by_cases hii : i' = i
            · subst hii; exact Or.inr ⟨h2, by omega, h3⟩
            · exact Or.inl ⟨i', by omega, h2, h3⟩
          · omega
        · rintro (⟨i', h1, h2, h3⟩ | ⟨h1, h2, h3⟩)
          · exact Or.inl ⟨i', by omega, h2, h3⟩
          · exact Or.inl ⟨i, by omega, h1, h3⟩
      rw [this]
      exact ht' j hj
  obtain ⟨t, e, ht⟩ := key
  have hdone : ∀ j < op.nin, inDone op op.nin 0 j ↔ first op j < j := by
    intro j hj
    constructor
    · rintro (⟨i', h1, h2, h3⟩ | ⟨_, h2, _⟩)
      · have := first_le_of_same op h3; omega
      · omega
    · intro hf
      exact Or.inl ⟨first op j, by omega, hf, first_same op j⟩
  refine ⟨t, e, fun j hj => by rw [(ht j hj).1, hdone j hj], fun j hj hw => ?_, fun j hj => ?_⟩
  · by_cases hd : inDone op op.nin 0 j
    · exact ((ht j hj).2.1 hd).1
    · rw [((ht j hj).2.2 hd).1, if_neg hw]
      have := first_le op j
      rw [hdone j hj] at hd
      congr 1; omega
  · by_cases hd : inDone op op.nin 0 j
    · rw [if_pos ((hdone j hj).1 hd)]; exact ((ht j hj).2.1 hd).2
    · rw [if_neg (fun hh => hd ((hdone j hj).2 hh))]; exact ((ht j hj).2.2 hd).2

theorem setupIn_spec {op : Oper α} {S : Meaning α} (h : OpOK op S) : ∃ t, setupIn op = .ok t ∧ InSpec op S t := by
  obtain ⟨t, e, h1, h2, h3⟩ := setupInWith_spec (op := op) (ev0 := OField.ev) (E := fun j => elen S (op.inp j))
    (fun i j hs => by unfold elen; rw [dat_same hs])
    (fun i j hij hj hs hfi => by
      have hb := h.shareIn i j hij hj hs (fun k hk => by
        apply first_min op; rw [← first_congr op hs, hfi]; exact hk)
      obtain ⟨_, b, hf, _⟩ := h.in_basis (by omega : i < op.nin) hb
      exact ⟨weight_not_basis hb, ev_basis hf hb⟩)
  refine ⟨t, e, h1, h2, fun j hj hb => ?_⟩
  rw [h3 j hj]
  split
  · rfl
  · obtain ⟨_, b, hf, _⟩ := h.in_basis hj hb
    exact ev_basis hf hb

/-- Result of the setup of the outputs. -/
structure OutSpec (op : Oper α) (S : Meaning α) (t : OutTabs) : Prop where
  skip : ∀ j < op.nout, (t.skip j = true ↔ j < last op j)
  full : ∀ j < op.nout, ¬ j < last op j → t.full j = some j
  ev : ∀ j < op.nout, isBasisMode (op.out j).mode = true → t.ev j = some (elen S (op.out j))
  add : ∀ j < op.nout, (t.add j = true ↔ ∃ i < j, (op.out i).same (op.out j) = true)
  idx : ∀ j < op.nout, j < last op j → j < t.idx j ∧ t.idx j < op.nout ∧ (op.out (t.idx j)).same (op.out j) = true

/-- Outputs `j` that share with a later output `i' > i`, or with `i` if `d ≤ j`, are done. -/
def outDone (op : Oper α) (i d j : Nat) : Prop :=
  (∃ i', i < i' ∧ i' < op.nout ∧ j < i' ∧ (op.out i').same (op.out j) = true) ∨
    (j < i ∧ d ≤ j ∧ i < op.nout ∧ (op.out i).same (op.out j) = true)

/-- Outputs `k` that share with an earlier output have been marked: those after `i`, and `i` if a field `≥ d` shares. -/
def addDone (op : Oper α) (i d k : Nat) : Prop :=
  (i < k ∧ ∃ j < k, (op.out j).same (op.out k) = true) ∨
    (k = i ∧ ∃ j, j < i ∧ d ≤ j ∧ (op.out j).same (op.out i) = true)

/-- Loop invariant of the setup of the outputs. -/
structure OutInv (op : Oper α) (ev0 : OField α → Option Nat) (E : Nat → Nat) (D A : Nat → Prop) (t : OutTabs) (j : Nat) :
    Prop where
  skip : t.skip j = true ↔ D j
  ev1 : D j → t.ev j = some (E j)
  ev2 : ¬ D j → t.ev j = ev0 (op.out j)
  full1 : D j → t.full j = some (last op j)
  full2 : ¬ D j → t.full j = some j
  add : t.add j = true ↔ A j
  idx : D j → j < t.idx j ∧ t.idx j < op.nout ∧ (op.out (t.idx j)).same (op.out j) = true

theorem OutInv.congr {op : Oper α} {ev0 : OField α → Option Nat} {E : Nat → Nat} {D A D' A' : Nat → Prop} {t : OutTabs}
    {j : Nat} (h : OutInv op ev0 E D A t j) (hD : D' j ↔ D j) (hA : A' j ↔ A j) : OutInv op ev0 E D' A' t j :=
  ⟨by rw [h.skip, hD], fun x => h.ev1 (hD.1 x), fun x => h.ev2 (fun y => x (hD.2 y)),
    fun x => h.full1 (hD.1 x),
    fun x => h.full2 (fun y => x (hD.2 y)), by rw [h.add, hA], fun x => h.idx (hD.1 x)⟩

/-- Sharing of outputs, when an output with the vector and restriction of an earlier one has an E-vector. -/
theorem setupOutWith_spec {op : Oper α} {ev0 : OField α → Option Nat} {E : Nat → Nat}
    (hE : ∀ i j, (op.out i).same (op.out j) = true → E j = E i) (hnw : ∀ j < op.nout, (op.out j).mode ≠ .weight)
    (hsh : ∀ j i, j < i → i < op.nout → (op.out j).same (op.out i) = true → ev0 (op.out i) = some (E i)) :
    ∃ t, setupOutWith ev0 op = .ok t ∧ (∀ j < op.nout, (t.skip j = true ↔ j < last op j)) ∧
      (∀ j < op.nout, t.full j = some (last op j)) ∧
      (∀ j < op.nout, t.ev j = if j < last op j then some (E j) else ev0 (op.out j)) ∧
      (∀ j < op.nout, (t.add j = true ↔ ∃ i < j, (op.out i).same (op.out j) = true)) ∧
      (∀ j < op.nout, j < last op j → j < t.idx j ∧ t.idx j < op.nout ∧ (op.out (t.idx j)).same (op.out j) = true) := by
  have key : ∃ t, setupOutWith ev0 op = .ok t ∧ ∀ j < op.nout,
      OutInv op ev0 E (fun j => ∃ i', i' < op.nout ∧ j < i' ∧ (op.out i').same (op.out j) = true)
        (fun k => ∃ j < k, (op.out j).same (op.out k) = true) t j := by
    unfold setupOutWith
    obtain ⟨t, e, ht⟩ := loop_inv (n := op.nout)
      (body := fun a t =>
        let i := op.nout - 1 - a
        loop i (fun b t =>
          let j := i - 1 - b
          if (op.out i).same (op.out j) then shareOut i j t else .ok t) t)
      (s := ⟨fun i => ev0 (op.out i), fun i => if (op.out i).mode = .weight then none else some i, fun _ => false,
        fun _ => false, fun _ => 0⟩)
      (fun a (t : OutTabs) => ∀ j < op.nout, OutInv op ev0 E
        (fun j => ∃ i', op.nout - a ≤ i' ∧ i' < op.nout ∧ j < i' ∧ (op.out i').same (op.out j) = true)
        (fun k => op.nout - a ≤ k ∧ ∃ j < k, (op.out j).same (op.out k) = true) t j)
      (by
        intro j hj
        refine ⟨?_, ?_, fun _ => rfl, ?_, ?_, ?_, ?_⟩
        · simp; intro x h1 h2; omega
        · rintro ⟨i', h1, h2, _⟩; omega
        · rintro ⟨i', h1, h2, _⟩; omega
        · simp [hnw j hj]
        · simp; intro h1; omega
        · rintro ⟨i', h1, h2, _⟩; omega)
      (by
        intro a ha t ht
        have hi : op.nout - 1 - a < op.nout := by omega
        generalize hidef : op.nout - 1 - a = i at hi
        simp only
        obtain ⟨t', e, ht'⟩ := loop_inv (n := i) (s := t)
          (body := fun b t => if (op.out i).same (op.out (i - 1 - b)) then shareOut i (i - 1 - b) t else .ok t)
          (fun b (t : OutTabs) => ∀ j < op.nout, OutInv op ev0 E (outDone op i (i - b)) (addDone op i (i - b)) t j)
          (by
            intro j hj
            refine (ht j hj).congr ?_ ?_
            · unfold outDone
              constructor
              · rintro (⟨i', h1, h2, h3⟩ | ⟨h1, h2, _⟩)
                · exact ⟨i', by omega, h2, h3⟩
                · omega
              · rintro ⟨i', h1, h2, h3⟩
                exact Or.inl ⟨i', by omega, h2, h3⟩
            · unfold addDone
              constructor
              · rintro (⟨h1, h2⟩ | ⟨_, j', h1, h2, _⟩)
                · exact ⟨by omega, h2⟩
                · omega
              · rintro ⟨h1, h2⟩
                exact Or.inl ⟨by omega, h2⟩)
          (by
            intro b hb t ht
            have hj0 : i - 1 - b < op.nout := by omega
            have hrw : i - (b + 1) = i - 1 - b := by omega
            by_cases hs : (op.out i).same (op.out (i - 1 - b)) = true
            · simp only [hs, if_true]
              have hee : E (i - 1 - b) = E i := hE _ _ hs
              have hev0 := hsh (i - 1 - b) i (by omega) hi (same_symm hs)
              have hev : t.ev i = some (E i) := by
                by_cases hd : outDone op i (i - b) i
                · exact (ht i hi).ev1 hd
                · rw [(ht i hi).ev2 hd, hev0]
              have hp : t.full i = some (last op i) := by
                by_cases hd : outDone op i (i - b) i
                · exact (ht i hi).full1 hd
                · rw [(ht i hi).full2 hd]
                  congr 1
                  have h1 := le_last op hi (same_refl (op.out i))
                  by_contra hne
                  exact hd (Or.inl ⟨last op i, by omega, last_lt op hi, by omega, last_same op hi⟩)
              have hll : last op (i - 1 - b) = last op i := (last_congr op hi hj0 hs).symm
              unfold shareOut
              rw [hev, hp]
              refine ⟨_, rfl, ?_⟩
              intro j hj
              have hA : ∀ k, addDone op i (i - (b + 1)) k ↔ (addDone op i (i - b) k ∨ k = i) := by
                intro k
                unfold addDone
                constructor
                · rintro (h1 | ⟨h1, _⟩)
                  · exact Or.inl (Or.inl h1)
                  · exact Or.inr h1
                · rintro ((h1 | ⟨h1, j', h2, h3, h4⟩) | h1)
                  · exact Or.inl h1
                  · exact Or.inr ⟨h1, j', h2, by omega, h4⟩
                  · exact Or.inr ⟨h1, i - 1 - b, by omega, by omega, same_symm hs⟩
              have hadd : (Function.update t.add i true j = true) ↔ addDone op i (i - (b + 1)) j := by
                rw [hA j]
                by_cases hji : j = i
                · subst hji; simp
                · rw [Function.update_of_ne hji, (ht j hj).add]; simp [hji]
              by_cases hjj : j = i - 1 - b
              · subst hjj
                have hdn : outDone op i (i - (b + 1)) (i - 1 - b) := Or.inr ⟨by omega, by omega, hi, hs⟩
                refine ⟨?_, ?_, fun hc => absurd hdn hc, ?_, fun hc => absurd hdn hc, hadd, ?_⟩
                · simp [hdn]
                · intro _; simp only [Function.update_self]; rw [hee]
                · intro _; simp only [Function.update_self]; rw [hll]
                · intro _; simp only [Function.update_self]; exact ⟨by omega, hi, hs⟩
              · have hD : outDone op i (i - (b + 1)) j ↔ outDone op i (i - b) j := by
                  unfold outDone
                  constructor
                  · rintro (h1 | ⟨h1, h2, h3⟩)
                    · exact Or.inl h1
                    · exact Or.inr ⟨h1, by omega, h3⟩
                  · rintro (h1 | ⟨h1, h2, h3⟩)
                    · exact Or.inl h1
                    · exact Or.inr ⟨h1, by omega, h3⟩
                have hh := ht j hj
                refine ⟨?_, ?_, ?_, ?_, ?_, hadd, ?_⟩
                · simp only [Function.update_of_ne hjj]; rw [hD]; exact hh.skip
                · simp only [Function.update_of_ne hjj]; rw [hD]; exact hh.ev1
                · simp only [Function.update_of_ne hjj]; rw [hD]; exact hh.ev2
                · simp only [Function.update_of_ne hjj]; rw [hD]; exact hh.full1
                · simp only [Function.update_of_ne hjj]; rw [hD]; exact hh.full2
                · simp only [Function.update_of_ne hjj]; rw [hD]; exact hh.idx
            · refine ⟨t, by simp [hs], ?_⟩
              intro j hj
              refine (ht j hj).congr ?_ ?_
              · unfold outDone
                constructor
                · rintro (h1 | ⟨h1, h2, h3, h4⟩)
                  · exact Or.inl h1
                  · refine Or.inr ⟨h1, ?_, h3, h4⟩
                    by_contra hc
                    have : j = i - 1 - b := by omega
                    rw [this] at h4
                    exact hs h4
                · rintro (h1 | ⟨h1, h2, h3⟩)
                  · exact Or.inl h1
                  · exact Or.inr ⟨h1, by omega, h3⟩
              · unfold addDone
                constructor
                · rintro (h1 | ⟨h1, j', h2, h3, h4⟩)
                  · exact Or.inl h1
                  · refine Or.inr ⟨h1, j', h2, ?_, h4⟩
                    by_contra hc
                    have : j' = i - 1 - b := by omega
                    rw [this] at h4
                    exact hs (same_symm h4)
                · rintro (h1 | ⟨h1, j', h2, h3, h4⟩)
                  · exact Or.inl h1
                  · exact Or.inr ⟨h1, j', h2, by omega, h4⟩)
        refine ⟨t', e, ?_⟩
        intro j hj
        refine (ht' j hj).congr ?_ ?_
        · unfold outDone
          constructor
          · rintro ⟨i', h1, h2, h3, h4⟩
            by_cases hii : i' = i
            · subst hii; exact Or.inr ⟨h3, by omega, h2, h4⟩
            · exact Or.inl ⟨i', by omega, h2, h3, h4⟩
          · rintro (⟨i', h1, h2, h3⟩ | ⟨h1, h2, h3, h4⟩)
            · exact ⟨i', by omega, h2, h3⟩
            · exact ⟨i, by omega, h3, h1, h4⟩
        · unfold addDone
          constructor
          · rintro ⟨h1, j', h2, h3⟩
            by_cases hii : j = i
            · subst hii; exact Or.inr ⟨rfl, j', h2, by omega, h3⟩
            · exact Or.inl ⟨by omega, j', h2, h3⟩
          · rintro (⟨h1, h2⟩ | ⟨h1, j', h2, _, h4⟩)
            · exact ⟨by omega, h2⟩
            · subst h1; exact ⟨by omega, j', h2, h4⟩)
    refine ⟨t, e, fun j hj => (ht j hj).congr ?_ ?_⟩
    · constructor
      · rintro ⟨i', h1, h2⟩; exact ⟨i', by omega, h1, h2⟩
      · rintro ⟨i', _, h1, h2⟩; exact ⟨i', h1, h2⟩
    · constructor
      · intro h1; exact ⟨by omega, h1⟩
      · rintro ⟨_, h1⟩; exact h1
  obtain ⟨t, e, ht⟩ := key
  have hdone : ∀ j < op.nout, (∃ i', i' < op.nout ∧ j < i' ∧ (op.out i').same (op.out j) = true) ↔ j < last op j := by
    intro j hj
    constructor
    · rintro ⟨i', h1, h2, h3⟩
      have := le_last op h1 h3; omega
    · intro hl
      exact ⟨last op j, last_lt op hj, hl, last_same op hj⟩
  refine ⟨t, e, fun j hj => ?_, fun j hj => ?_, fun j hj => ?_, fun j hj => (ht j hj).add, fun j hj hl => ?_⟩
  · rw [(ht j hj).skip, hdone j hj]
  · by_cases hd : ∃ i', i' < op.nout ∧ j < i' ∧ (op.out i').same (op.out j) = true
    · exact (ht j hj).full1 hd
    · rw [(ht j hj).full2 hd]
      have h1 := le_last op hj (same_refl (op.out j))
      rw [hdone j hj] at hd
      congr 1; omega
  · by_cases hd : ∃ i', i' < op.nout ∧ j < i' ∧ (op.out i').same (op.out j) = true
    · rw [if_pos ((hdone j hj).1 hd)]; exact (ht j hj).ev1 hd
    · rw [if_neg (fun hh => hd ((hdone j hj).2 hh))]; exact (ht j hj).ev2 hd
  · exact (ht j hj).idx ((hdone j hj).2 hl)

theorem setupOut_spec {op : Oper α} {S : Meaning α} (h : OpOK op S) : ∃ t, setupOut op = .ok t ∧ OutSpec op S t := by
  obtain ⟨t, e, h1, h2, h3, h4, h5⟩ := setupOutWith_spec (op := op) (ev0 := OField.ev) (E := fun j => elen S (op.out j))
    (fun i j hs => by unfold elen; rw [dat_same hs]) (fun j hj => h.out_not_weight hj)
    (fun j i hij hi hs => by
      have hb := h.shareOut j i hij hi hs
      obtain ⟨_, b, hf, _⟩ := h.out_basis hi hb
      exact ev_basis hf hb)
  refine ⟨t, e, h1, fun j hj hl => ?_, fun j hj hb => ?_, h4, h5⟩
  · have := le_last op hj (same_refl (op.out j))
    rw [h2 j hj]; congr 1; omega
  · rw [h3 j hj]
    split
    · rfl
    · obtain ⟨_, b, hf, _⟩ := h.out_basis hj hb
      exact ev_basis hf hb

end Operator
end Verif
