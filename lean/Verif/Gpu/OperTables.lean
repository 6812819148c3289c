import Verif.Gpu.OperSpec
import Verif.Gpu.OperOrder
import Mathlib.Order.Nat
import Mathlib.Data.Nat.Find

/-!
# Tables of shared fields on a device (helper lemmas)
-/

namespace Verif.Gpu

open Verif.Restriction (TMode RData)
open Verif.Basis (EMode)
open Verif.Operator (VPtr FVec LVec isBasisMode OField Oper Meaning Advances)

variable {α : Type} [CommRing α]

theorem gsame_iff {a b : GField α} : a.same b = true ↔ a.vec = b.vec ∧ a.rid = b.rid := by
  unfold GField.same; simp
theorem gsame_refl (a : GField α) : a.same a = true := gsame_iff.2 ⟨rfl, rfl⟩
theorem gsame_symm {a b : GField α} (h : a.same b = true) : b.same a = true :=
  gsame_iff.2 ⟨(gsame_iff.1 h).1.symm, (gsame_iff.1 h).2.symm⟩
theorem gsame_trans {a b c : GField α} (h : a.same b = true) (h' : b.same c = true) : a.same c = true :=
  gsame_iff.2 ⟨(gsame_iff.1 h).1.trans (gsame_iff.1 h').1, (gsame_iff.1 h).2.trans (gsame_iff.1 h').2⟩

/-- The first field with the vector and restriction of field `j`. -/
def lead (F : Nat → GField α) (j : Nat) : Nat :=
  Nat.find (⟨j, gsame_refl _⟩ : ∃ i, (F i).same (F j) = true)

section
variable {F : Nat → GField α} {i j : Nat}

theorem lead_same (F : Nat → GField α) (j : Nat) : (F (lead F j)).same (F j) = true :=
  Nat.find_spec (p := fun i => (F i).same (F j) = true) _
theorem lead_le_of_same (h : (F i).same (F j) = true) : lead F j ≤ i :=
  Nat.find_le (p := fun i => (F i).same (F j) = true) h
theorem lead_le (F : Nat → GField α) (j : Nat) : lead F j ≤ j := lead_le_of_same (gsame_refl _)
theorem lead_congr (h : (F i).same (F j) = true) : lead F i = lead F j :=
  le_antisymm (lead_le_of_same (gsame_trans (lead_same F j) (gsame_symm h)))
    (lead_le_of_same (gsame_trans (lead_same F i) h))
theorem lead_lead (F : Nat → GField α) (j : Nat) : lead F (lead F j) = lead F j := lead_congr (lead_same F j)
theorem lead_vec (F : Nat → GField α) (j : Nat) : (F (lead F j)).vec = (F j).vec := (gsame_iff.1 (lead_same F j)).1
theorem lead_rid (F : Nat → GField α) (j : Nat) : (F (lead F j)).rid = (F j).rid := (gsame_iff.1 (lead_same F j)).2
theorem lead_lt_iff : lead F j < j ↔ ∃ i < j, (F i).same (F j) = true :=
  ⟨fun h => ⟨_, h, lead_same F j⟩, fun ⟨_, h1, h2⟩ => lt_of_le_of_lt (lead_le_of_same h2) h1⟩
end

/-! ## Inputs -/

theorem GOK.makes_group {dv : Device} {op : GOper α} {S : Meaning α} (h : GOK dv op S) {i j : Nat} (hij : i < j)
    (hj : j < op.nin) (hs : (op.inp i).same (op.inp j) = true) (hm : op.makesIn (op.inp i) = false) :
    op.makesIn (op.inp j) = false := by
  obtain ⟨hv, hr⟩ := gsame_iff.1 hs
  have hb : op.backend (op.inp i) = op.backend (op.inp j) := by unfold GOper.backend; rw [hr]
  unfold GOper.makesIn at hm ⊢
  by_cases ha : (op.inp j).vec = .active
  · simp [ha]
  have ha' : (op.inp i).vec ≠ .active := by rw [hv]; exact ha
  by_cases hw : (op.inp i).mode = .weight
  · have := h.inp i (by omega)
    unfold GInOK at this
    rw [hw] at this
    have hj' := h.inp j hj
    have hvj : (op.inp j).vec = .none := by rw [← hv]; exact this.1
    cases hmj : (op.inp j).mode <;> simp only [GInOK, hmj] at hj'
    all_goals first
      | (exact absurd hvj hj'.1)
      | simp
  by_cases hn : (op.inp i).mode = .none
  · simp only [ha', hw, hn, decide_false, decide_true, Bool.false_or, Bool.true_and, Bool.not_eq_false'] at hm
    have := h.inDirect i j hij hj hs ha' hn hm
    rw [this, ← hb]
    simpa [ha] using hm
  · simp [ha', hw, hn] at hm

/-- Partial result: inputs that share with an earlier input `< i`, or with `i` if `j < d`, are done. -/
def doneIn (op : GOper α) (i d j : Nat) : Prop :=
  (∃ i' < i, i' < j ∧ (op.inp i').same (op.inp j) = true) ∨ (i < j ∧ j < d ∧ (op.inp i).same (op.inp j) = true)

/-- The E-vector of an input. -/
def ownIn (op : GOper α) (j : Nat) : Option Nat :=
  if op.makesIn (op.inp (lead op.inp j)) then some (lead op.inp j) else none

theorem shareInsG_spec {dv : Device} {op : GOper α} {S : Meaning α} (h : GOK dv op S) : ∀ j < op.nin,
    ((shareInsG op).2 j = true ↔ lead op.inp j < j) ∧ (shareInsG op).1 j = ownIn op j := by
  let P : Nat → Nat → (Nat → Option Nat) × (Nat → Bool) → Prop := fun i d t => ∀ j < op.nin,
    (t.2 j = true ↔ doneIn op i d j) ∧ (doneIn op i d j → t.1 j = ownIn op j) ∧
    (¬ doneIn op i d j → t.1 j = if op.makesIn (op.inp j) then some j else none)
  have key : P op.nin 0 (shareInsG op) := by
    unfold shareInsG
    refine iter_inv (fun i t => P i 0 t) ?_ ?_
    · intro j hj
      have hn : ¬ doneIn op 0 0 j := by rintro (⟨i', h1, _⟩ | ⟨_, h1, _⟩) <;> omega
      exact ⟨by simp [hn], fun hd => absurd hd hn, fun _ => rfl⟩
    · intro i hi t ht
      have hin := iter_inv (n := op.nin - (i + 1)) (s := t)
        (body := fun d t => if (op.inp i).same (op.inp (i + 1 + d)) then shareInG i (i + 1 + d) t else t)
        (fun d t => P i (i + 1 + d) t)
        (by
          intro j hj
          have e : doneIn op i (i + 1 + 0) j ↔ doneIn op i 0 j := by
            unfold doneIn
            constructor <;> rintro (h1 | ⟨h1, h2, _⟩)
            · exact .inl h1
            · omega
            · exact .inl h1
            · omega
          rw [e]
          exact ht j hj)
        (by
          intro d hd t ht j hj
          have e : ∀ j, doneIn op i (i + 1 + (d + 1)) j ↔
              doneIn op i (i + 1 + d) j ∨ (j = i + 1 + d ∧ (op.inp i).same (op.inp j) = true) := by
            intro j
            unfold doneIn
            constructor
            · rintro (h1 | ⟨h1, h2, h3⟩)
              · exact .inl (.inl h1)
              · by_cases hj : j = i + 1 + d
                · exact .inr ⟨hj, h3⟩
                · exact .inl (.inr ⟨h1, by omega, h3⟩)
            · rintro ((h1 | ⟨h1, h2, h3⟩) | ⟨h1, h2⟩)
              · exact .inl h1
              · exact .inr ⟨h1, by omega, h3⟩
              · exact .inr ⟨by omega, by omega, h2⟩
          have hi' := ht i hi
          -- own entry of `i`
          have hown : t.1 i = ownIn op i := by
            by_cases hdi : doneIn op i (i + 1 + d) i
            · exact hi'.2.1 hdi
            · rw [hi'.2.2 hdi]
              have hl : lead op.inp i = i := by
                rcases Nat.lt_or_ge (lead op.inp i) i with h1 | h1
                · exact absurd (.inl ⟨_, h1, h1, lead_same _ _⟩) hdi
                · exact le_antisymm (lead_le _ _) h1
              unfold ownIn
              rw [hl]
          by_cases hs : (op.inp i).same (op.inp (i + 1 + d)) = true
          · rw [if_pos hs]
            unfold shareInG
            rw [e]
            by_cases hjd : j = i + 1 + d
            · subst hjd
              have hdn : doneIn op i (i + 1 + d) (i + 1 + d) ∨
                  (i + 1 + d = i + 1 + d ∧ (op.inp i).same (op.inp (i + 1 + d)) = true) := .inr ⟨rfl, hs⟩
              refine ⟨by simp [hs], fun _ => ?_, fun hn => absurd hdn hn⟩
              have hoi : ownIn op i = ownIn op (i + 1 + d) := by unfold ownIn; rw [lead_congr hs]
              show (if (t.1 i).isSome then Function.update t.1 (i + 1 + d) (t.1 i) else t.1) (i + 1 + d) = _
              by_cases hsome : (t.1 i).isSome = true
              · rw [if_pos hsome, Function.update_self, hown, hoi]
              · rw [if_neg hsome]
                have hnone : ownIn op (i + 1 + d) = none := by
                  rw [← hoi, ← hown]; simpa using hsome
                by_cases hdj : doneIn op i (i + 1 + d) (i + 1 + d)
                · exact (ht _ hj).2.1 hdj
                · rw [(ht _ hj).2.2 hdj, hnone]
                  have hm : op.makesIn (op.inp (lead op.inp (i + 1 + d))) = false := by
                    unfold ownIn at hnone
                    by_contra hc
                    rw [if_pos (by simpa using hc)] at hnone
                    cases hnone
                  have hll : lead op.inp (i + 1 + d) < i + 1 + d :=
                    lt_of_le_of_lt (lead_le_of_same hs) (by omega)
                  rw [h.makes_group hll hj (lead_same _ _) hm]
                  rfl
            · have hsk : (Function.update t.2 (i + 1 + d) true) j = t.2 j := Function.update_of_ne hjd _ _
              have how : (if (t.1 i).isSome then Function.update t.1 (i + 1 + d) (t.1 i) else t.1) j = t.1 j := by
                split
                · exact Function.update_of_ne hjd _ _
                · rfl
              show ((Function.update t.2 (i + 1 + d) true) j = true ↔ _) ∧ _
              rw [hsk]
              simp only [how, hjd, false_and, or_false]
              exact ht j hj
          · rw [if_neg hs, e]
            have : ¬ (j = i + 1 + d ∧ (op.inp i).same (op.inp j) = true) := by
              rintro ⟨rfl, h2⟩; exact hs h2
            simp only [this, or_false]
            exact ht j hj)
      intro j hj
      have e : doneIn op (i + 1) 0 j ↔ doneIn op i (i + 1 + (op.nin - (i + 1))) j := by
        unfold doneIn
        constructor
        · rintro (⟨i', h1, h2, h3⟩ | ⟨_, h1, _⟩)
          · rcases Nat.lt_succ_iff_lt_or_eq.1 h1 with h4 | rfl
            · exact .inl ⟨i', h4, h2, h3⟩
            · exact .inr ⟨h2, by omega, h3⟩
          · omega
        · rintro (⟨i', h1, h2, h3⟩ | ⟨h1, _, h3⟩)
          · exact .inl ⟨i', by omega, h2, h3⟩
          · exact .inl ⟨i, by omega, h1, h3⟩
      rw [e]
      exact hin j hj
  intro j hj
  obtain ⟨h1, h2, h3⟩ := key j hj
  have e : doneIn op op.nin 0 j ↔ lead op.inp j < j := by
    rw [lead_lt_iff]
    unfold doneIn
    constructor
    · rintro (⟨i', _, h5, h6⟩ | ⟨_, h5, _⟩)
      · exact ⟨i', h5, h6⟩
      · omega
    · rintro ⟨i', h5, h6⟩
      exact .inl ⟨i', by omega, h5, h6⟩
  refine ⟨by rw [h1, e], ?_⟩
  by_cases hd : doneIn op op.nin 0 j
  · exact h2 hd
  · rw [h3 hd]
    have hl : lead op.inp j = j := le_antisymm (lead_le _ _) (not_lt.1 fun hh => hd (e.2 hh))
    unfold ownIn
    rw [hl]

/-! ## Outputs -/

theorem GOK.makes_out {dv : Device} {op : GOper α} {S : Meaning α} (h : GOK dv op S) {i : Nat} (hi : i < op.nout) :
    GOper.makesOut (op.out i) = true ↔ ¬ ((op.out i).vec = .active ∧ isBasisMode (op.out i).mode = true) := by
  have ho := h.out i hi
  unfold GOper.makesOut
  cases hm : (op.out i).mode <;> simp only [GOutOK, hm] at ho <;> simp [isBasisMode]

/-- The last output with the vector and restriction of output `j`. -/
def lastG (op : GOper α) (j : Nat) : Nat := Nat.findGreatest (fun i => (op.out i).same (op.out j) = true) (op.nout - 1)

theorem lastG_same (op : GOper α) {j : Nat} (hj : j < op.nout) : (op.out (lastG op j)).same (op.out j) = true :=
  Nat.findGreatest_spec (P := fun i => (op.out i).same (op.out j) = true) (m := j) (by omega) (gsame_refl _)
theorem le_lastG (op : GOper α) {i j : Nat} (hi : i < op.nout) (h : (op.out i).same (op.out j) = true) : i ≤ lastG op j :=
  Nat.le_findGreatest (P := fun i => (op.out i).same (op.out j) = true) (by omega) h
theorem lastG_lt (op : GOper α) {j : Nat} (hj : j < op.nout) : lastG op j < op.nout := by
  have := Nat.findGreatest_le (P := fun i => (op.out i).same (op.out j) = true) (op.nout - 1)
  unfold lastG; omega
theorem lastG_congr (op : GOper α) {i j : Nat} (hi : i < op.nout) (hj : j < op.nout)
    (h : (op.out i).same (op.out j) = true) : lastG op i = lastG op j :=
  le_antisymm (le_lastG op (lastG_lt op hi) (gsame_trans (lastG_same op hi) h))
    (le_lastG op (lastG_lt op hj) (gsame_trans (lastG_same op hj) (gsame_symm h)))

/-- The E-vector of an output. -/
def ownOut (op : GOper α) (j : Nat) : Option Nat :=
  if GOper.makesOut (op.out (lastG op j)) then some (lastG op j) else none

/-- Outputs with the same vector and restriction make E-vectors, or none does. -/
theorem GOK.makes_out_group {dv : Device} {op : GOper α} {S : Meaning α} (h : GOK dv op S) {i j : Nat} (hi : i < op.nout)
    (hj : j < op.nout) (hs : (op.out i).same (op.out j) = true) :
    GOper.makesOut (op.out i) = GOper.makesOut (op.out j) := by
  by_cases hij : i = j
  · rw [hij]
  have h1 := h.outShare i hi j hj hij hs
  have h2 := h.outShare j hj i hi (Ne.symm hij) (gsame_symm hs)
  have e1 := h.makes_out hi
  have e2 := h.makes_out hj
  rw [h1, (gsame_iff.1 hs).1] at e1
  rw [h2] at e2
  rw [Bool.eq_iff_iff, e1, e2]

theorem shareOutsG_spec {dv : Device} {op : GOper α} {S : Meaning α} (h : GOK dv op S) : ∀ j < op.nout,
    ((shareOutsG op).skip j = true ↔ ∃ k < op.nout, j < k ∧ (op.out j).same (op.out k) = true) ∧
    ((shareOutsG op).add j = true ↔ ∃ k < j, (op.out k).same (op.out j) = true) ∧
    (shareOutsG op).own j = ownOut op j := by
  let P : Nat → Nat → OutT → Prop := fun i d t => ∀ j < op.nout,
    (t.skip j = true ↔ ∃ k < op.nout, j < k ∧ (op.out j).same (op.out k) = true ∧ (i ≤ k ∨ (i = k + 1 ∧ d ≤ j))) ∧
    (t.add j = true ↔ ∃ k < j, (op.out k).same (op.out j) = true ∧ (i ≤ j ∨ (i = j + 1 ∧ d ≤ k))) ∧
    ((∃ k < op.nout, j < k ∧ (op.out j).same (op.out k) = true ∧ (i ≤ k ∨ (i = k + 1 ∧ d ≤ j))) → t.own j = ownOut op j) ∧
    ((¬ ∃ k < op.nout, j < k ∧ (op.out j).same (op.out k) = true ∧ (i ≤ k ∨ (i = k + 1 ∧ d ≤ j))) →
      t.own j = if GOper.makesOut (op.out j) then some j else none)
  have key : P 0 0 (shareOutsG op) := by
    have : P (op.nout - op.nout) (op.nout - op.nout) (shareOutsG op) := by
      unfold shareOutsG
      refine iter_inv (fun a t => P (op.nout - a) (op.nout - a) t) ?_ ?_
      · intro j hj
        have hn : ¬ ∃ k < op.nout, j < k ∧ (op.out j).same (op.out k) = true ∧
            (op.nout - 0 ≤ k ∨ (op.nout - 0 = k + 1 ∧ op.nout - 0 ≤ j)) := by
          rintro ⟨k, h1, h2, _, h3 | ⟨h3, h4⟩⟩ <;> omega
        have hn' : ¬ ∃ k < j, (op.out k).same (op.out j) = true ∧ (op.nout - 0 ≤ j ∨ (op.nout - 0 = j + 1 ∧ op.nout - 0 ≤ k)) := by
          rintro ⟨k, h1, _, h3 | ⟨h3, h4⟩⟩ <;> omega
        exact ⟨by simp only [hn]; simp, by simp only [hn']; simp, fun hd => absurd hd hn, fun _ => rfl⟩
      · intro a ha t ht
        obtain ⟨i, hia⟩ : ∃ i, i = op.nout - 1 - a := ⟨_, rfl⟩
        have hi : i < op.nout := by omega
        rw [show op.nout - (a + 1) = i by omega]
        rw [show op.nout - a = i + 1 by omega] at ht
        rw [← hia]
        have hin := iter_inv (n := i) (s := t)
          (body := fun b t => if (op.out i).same (op.out (i - 1 - b)) then shareOutG i (i - 1 - b) t else t)
          (fun b t => P (i + 1) (i - b) t)
          (by
            intro j hj
            have e1 : (∃ k < op.nout, j < k ∧ (op.out j).same (op.out k) = true ∧ (i + 1 ≤ k ∨ (i + 1 = k + 1 ∧ i - 0 ≤ j))) ↔
                ∃ k < op.nout, j < k ∧ (op.out j).same (op.out k) = true ∧ (i + 1 ≤ k ∨ (i + 1 = k + 1 ∧ i + 1 ≤ j)) := by
              constructor
              · rintro ⟨k, h1, h2, h3, h4 | ⟨h4, h5⟩⟩
                · exact ⟨k, h1, h2, h3, .inl h4⟩
                · omega
              · rintro ⟨k, h1, h2, h3, h4 | ⟨h4, h5⟩⟩
                · exact ⟨k, h1, h2, h3, .inl h4⟩
                · omega
            have e2 : (∃ k < j, (op.out k).same (op.out j) = true ∧ (i + 1 ≤ j ∨ (i + 1 = j + 1 ∧ i - 0 ≤ k))) ↔
                ∃ k < j, (op.out k).same (op.out j) = true ∧ (i + 1 ≤ j ∨ (i + 1 = j + 1 ∧ i + 1 ≤ k)) := by
              constructor
              · rintro ⟨k, h1, h3, h4 | ⟨h4, h5⟩⟩
                · exact ⟨k, h1, h3, .inl h4⟩
                · omega
              · rintro ⟨k, h1, h3, h4 | ⟨h4, h5⟩⟩
                · exact ⟨k, h1, h3, .inl h4⟩
                · omega
            rw [e1, e2]
            exact ht j hj)
          (by
            intro b hb t ht j hj
            obtain ⟨d, hd⟩ : ∃ d, d = i - 1 - b := ⟨_, rfl⟩
            rw [← hd]
            rw [show i - (b + 1) = d by omega]
            rw [show i - b = d + 1 by omega] at ht
            have e1 : ∀ j, (∃ k < op.nout, j < k ∧ (op.out j).same (op.out k) = true ∧ (i + 1 ≤ k ∨ (i + 1 = k + 1 ∧ d ≤ j))) ↔
                (∃ k < op.nout, j < k ∧ (op.out j).same (op.out k) = true ∧ (i + 1 ≤ k ∨ (i + 1 = k + 1 ∧ d + 1 ≤ j))) ∨
                  (j = d ∧ (op.out i).same (op.out d) = true) := by
              intro j
              constructor
              · rintro ⟨k, h1, h2, h3, h4 | ⟨h4, h5⟩⟩
                · exact .inl ⟨k, h1, h2, h3, .inl h4⟩
                · by_cases hjd : j = d
                  · subst hjd
                    obtain rfl : i = k := by omega
                    exact .inr ⟨rfl, gsame_symm h3⟩
                  · exact .inl ⟨k, h1, h2, h3, .inr ⟨h4, by omega⟩⟩
              · rintro (⟨k, h1, h2, h3, h4 | ⟨h4, h5⟩⟩ | ⟨rfl, h3⟩)
                · exact ⟨k, h1, h2, h3, .inl h4⟩
                · exact ⟨k, h1, h2, h3, .inr ⟨h4, by omega⟩⟩
                · exact ⟨i, hi, by omega, gsame_symm h3, .inr ⟨rfl, le_rfl⟩⟩
            have e2 : ∀ j, (∃ k < j, (op.out k).same (op.out j) = true ∧ (i + 1 ≤ j ∨ (i + 1 = j + 1 ∧ d ≤ k))) ↔
                (∃ k < j, (op.out k).same (op.out j) = true ∧ (i + 1 ≤ j ∨ (i + 1 = j + 1 ∧ d + 1 ≤ k))) ∨
                  (j = i ∧ (op.out i).same (op.out d) = true) := by
              intro j
              constructor
              · rintro ⟨k, h1, h3, h4 | ⟨h4, h5⟩⟩
                · exact .inl ⟨k, h1, h3, .inl h4⟩
                · by_cases hkd : k = d
                  · subst hkd
                    obtain rfl : i = j := by omega
                    exact .inr ⟨rfl, gsame_symm h3⟩
                  · exact .inl ⟨k, h1, h3, .inr ⟨h4, by omega⟩⟩
              · rintro (⟨k, h1, h3, h4 | ⟨h4, h5⟩⟩ | ⟨rfl, h3⟩)
                · exact ⟨k, h1, h3, .inl h4⟩
                · exact ⟨k, h1, h3, .inr ⟨h4, by omega⟩⟩
                · exact ⟨d, by omega, gsame_symm h3, .inr ⟨rfl, le_rfl⟩⟩
            have hown : t.own i = ownOut op i := by
              by_cases hdi : ∃ k < op.nout, i < k ∧ (op.out i).same (op.out k) = true ∧ (i + 1 ≤ k ∨ (i + 1 = k + 1 ∧ d + 1 ≤ i))
              · exact (ht i hi).2.2.1 hdi
              · rw [(ht i hi).2.2.2 hdi]
                have hl : lastG op i = i := by
                  refine le_antisymm ?_ (le_lastG op hi (gsame_refl _))
                  by_contra hc
                  exact hdi ⟨lastG op i, lastG_lt op hi, by omega, gsame_symm (lastG_same op hi), .inl (by omega)⟩
                unfold ownOut
                rw [hl]
            rw [e1 j, e2 j]
            by_cases hs : (op.out i).same (op.out d) = true
            · rw [if_pos hs]
              have hdl : d < op.nout := by omega
              have hoi : ownOut op i = ownOut op d := by
                unfold ownOut; rw [lastG_congr op hi hdl hs]
              have hadd : (shareOutG i d t).add j = true ↔ (t.add j = true ∨ (j = i ∧ (op.out i).same (op.out d) = true)) := by
                show Function.update t.add i true j = true ↔ _
                by_cases hji : j = i
                · subst hji; simp [hs]
                · rw [Function.update_of_ne hji]; simp [hji]
              have hskip : (shareOutG i d t).skip j = true ↔ (t.skip j = true ∨ (j = d ∧ (op.out i).same (op.out d) = true)) := by
                show Function.update t.skip d true j = true ↔ _
                by_cases hji : j = d
                · subst hji; simp [hs]
                · rw [Function.update_of_ne hji]; simp [hji]
              refine ⟨by rw [hskip, (ht j hj).1], by rw [hadd, (ht j hj).2.1], ?_, ?_⟩
              · intro hdn
                show (if (t.own i).isSome then Function.update t.own d (t.own i) else t.own) j = _
                by_cases hjd : j = d
                · subst hjd
                  by_cases hsome : (t.own i).isSome = true
                  · rw [if_pos hsome, Function.update_self, hown, hoi]
                  · rw [if_neg hsome]
                    have hnone : ownOut op j = none := by rw [← hoi, ← hown]; simpa using hsome
                    by_cases hdj : ∃ k < op.nout, j < k ∧ (op.out j).same (op.out k) = true ∧ (i + 1 ≤ k ∨ (i + 1 = k + 1 ∧ j + 1 ≤ j))
                    · exact (ht _ hj).2.2.1 hdj
                    · rw [(ht _ hj).2.2.2 hdj, hnone]
                      have hm : GOper.makesOut (op.out (lastG op j)) = false := by
                        unfold ownOut at hnone
                        by_contra hc
                        rw [if_pos (by simpa using hc)] at hnone
                        cases hnone
                      rw [← h.makes_out_group (lastG_lt op hj) hj (lastG_same op hj), hm]
                      rfl
                · have how : (if (t.own i).isSome then Function.update t.own d (t.own i) else t.own) j = t.own j := by
                    split
                    · exact Function.update_of_ne hjd _ _
                    · rfl
                  rw [how]
                  refine (ht j hj).2.2.1 ?_
                  rcases hdn with h1 | h1
                  · exact h1
                  · exact absurd h1.1 hjd
              · intro hdn
                have hjd : j ≠ d := fun e => hdn (.inr ⟨e, hs⟩)
                have how : (if (t.own i).isSome then Function.update t.own d (t.own i) else t.own) j = t.own j := by
                  split
                  · exact Function.update_of_ne hjd _ _
                  · rfl
                show (if (t.own i).isSome then Function.update t.own d (t.own i) else t.own) j = _
                rw [how]
                exact (ht j hj).2.2.2 fun hh => hdn (.inl hh)
            · rw [if_neg hs]
              have hs' : ∀ p : Prop, ¬ (p ∧ (op.out i).same (op.out d) = true) := fun p hh => hs hh.2
              simp only [hs', or_false]
              exact ht j hj)
        rw [Nat.sub_self] at hin
        intro j hj
        have e1 : (∃ k < op.nout, j < k ∧ (op.out j).same (op.out k) = true ∧ (i ≤ k ∨ (i = k + 1 ∧ i ≤ j))) ↔
            ∃ k < op.nout, j < k ∧ (op.out j).same (op.out k) = true ∧ (i + 1 ≤ k ∨ (i + 1 = k + 1 ∧ 0 ≤ j)) := by
          constructor
          · rintro ⟨k, h1, h2, h3, h4 | ⟨h4, h5⟩⟩
            · exact ⟨k, h1, h2, h3, by omega⟩
            · omega
          · rintro ⟨k, h1, h2, h3, h4 | ⟨h4, h5⟩⟩ <;> exact ⟨k, h1, h2, h3, by omega⟩
        have e2 : (∃ k < j, (op.out k).same (op.out j) = true ∧ (i ≤ j ∨ (i = j + 1 ∧ i ≤ k))) ↔
            ∃ k < j, (op.out k).same (op.out j) = true ∧ (i + 1 ≤ j ∨ (i + 1 = j + 1 ∧ 0 ≤ k)) := by
          constructor
          · rintro ⟨k, h1, h3, h4 | ⟨h4, h5⟩⟩
            · exact ⟨k, h1, h3, by omega⟩
            · omega
          · rintro ⟨k, h1, h3, h4 | ⟨h4, h5⟩⟩ <;> exact ⟨k, h1, h3, by omega⟩
        rw [e1, e2]
        exact hin j hj
    rwa [Nat.sub_self] at this
  intro j hj
  obtain ⟨h1, h2, h3, h4⟩ := key j hj
  have e1 : (∃ k < op.nout, j < k ∧ (op.out j).same (op.out k) = true ∧ (0 ≤ k ∨ (0 = k + 1 ∧ 0 ≤ j))) ↔
      ∃ k < op.nout, j < k ∧ (op.out j).same (op.out k) = true := by simp
  have e2 : (∃ k < j, (op.out k).same (op.out j) = true ∧ (0 ≤ j ∨ (0 = j + 1 ∧ 0 ≤ k))) ↔
      ∃ k < j, (op.out k).same (op.out j) = true := by simp
  refine ⟨by rw [h1, e1], by rw [h2, e2], ?_⟩
  by_cases hd : ∃ k < op.nout, j < k ∧ (op.out j).same (op.out k) = true ∧ (0 ≤ k ∨ (0 = k + 1 ∧ 0 ≤ j))
  · exact h3 hd
  · rw [h4 hd]
    have hl : lastG op j = j := by
      refine le_antisymm ?_ (le_lastG op hj (gsame_refl _))
      by_contra hc
      exact hd ⟨lastG op j, lastG_lt op hj, by omega, gsame_symm (lastG_same op hj), .inl (Nat.zero_le _)⟩
    unfold ownOut
    rw [hl]

end Verif.Gpu
