import Verif.Operator.DiagSpec
import Verif.Operator.Matrix

/-!
# Lemmas about the assembly of diagonals
-/

namespace Verif
namespace Operator

open Finset
open Restriction (RData Made Rep Variant Rstr)
open Basis (EMode)

variable {α : Type} [CommRing α]

set_option linter.unusedSectionVars false

/-! ## Pairs of bases -/

theorem find_bid {l : List ABasis} {k : Option Nat} (P : ABasis → Bool) (hP : ∀ a, P a = true ↔ a.bid = k) :
    (∃ b, l.find? P = some b) ↔ k ∈ l.map ABasis.bid := by
  constructor
  · rintro ⟨b, hb⟩
    rw [List.mem_map]
    exact ⟨b, List.mem_of_find?_eq_some hb, (hP b).1 (List.find?_some hb)⟩
  · intro h
    rw [List.mem_map] at h
    obtain ⟨b, hb, hk⟩ := h
    rw [← Option.isSome_iff_exists, List.find?_isSome]
    exact ⟨b, hb, (hP b).2 hk⟩

theorem pairs_aux (l l' : List ABasis) (F : ABasis → ABasis → ABasis × ABasis) (P : ABasis → ABasis → Bool)
    (hP : ∀ a b, P a b = true ↔ b.bid = a.bid) (g : ABasis × ABasis → Option Nat) (hg : ∀ a b, g (F a b) = a.bid) :
    (l.filterMap (fun a => (l'.find? (P a)).map (F a))).map g =
      (l.map ABasis.bid).filter (fun k => decide (k ∈ l'.map ABasis.bid)) := by
  induction l with
  | nil => rfl
  | cons a l ih =>
    rw [List.map_cons, List.filter_cons, List.filterMap_cons]
    by_cases h : a.bid ∈ l'.map ABasis.bid
    · obtain ⟨b, hb⟩ := (find_bid (P a) (hP a)).2 h
      simp only [hb, Option.map_some, List.map_cons, ih, hg, h, decide_true, if_true]
    · have hb : l'.find? (P a) = none := by
        rcases hf : l'.find? (P a) with _ | b
        · rfl
        · exact absurd ((find_bid (P a) (hP a)).1 ⟨b, hf⟩) h
      simp only [hb, Option.map_none, ih, h, decide_false, Bool.false_eq_true, if_false]

/-- The pairs are the bases in both tables, each once. -/
theorem basisPairs_spec {ins outs : List ABasis} (hi : (ins.map ABasis.bid).Nodup) (ho : (outs.map ABasis.bid).Nodup) :
    (∀ ab ∈ basisPairs ins outs, ab.1 ∈ ins ∧ ab.2 ∈ outs ∧ ab.1.bid = ab.2.bid) ∧
    ((basisPairs ins outs).map (fun ab => ab.1.bid)).Nodup ∧
    ∀ k, k ∈ (basisPairs ins outs).map (fun ab => ab.1.bid) ↔ k ∈ ins.map ABasis.bid ∧ k ∈ outs.map ABasis.bid := by
  unfold basisPairs
  split
  · refine ⟨?_, ?_⟩
    · intro ab h
      rw [List.mem_filterMap] at h
      obtain ⟨a, ha, hh⟩ := h
      rw [Option.map_eq_some_iff] at hh
      obtain ⟨b, hb, rfl⟩ := hh
      have := List.find?_some hb
      exact ⟨ha, List.mem_of_find?_eq_some hb, by simpa using this⟩
    · have e := pairs_aux ins outs (fun a b => (a, b)) (fun a b => a.bid = b.bid) (by intro a b; simp [eq_comm])
        (fun ab => ab.1.bid) (fun _ _ => rfl)
      rw [e]
      refine ⟨hi.filter _, fun k => ?_⟩
      rw [List.mem_filter, decide_eq_true_eq]
  · have hm : ∀ ab ∈ outs.filterMap (fun b => (ins.find? (fun a => a.bid = b.bid)).map (fun a => (a, b))),
        ab.1 ∈ ins ∧ ab.2 ∈ outs ∧ ab.1.bid = ab.2.bid := by
      intro ab h
      rw [List.mem_filterMap] at h
      obtain ⟨b, hb, hh⟩ := h
      rw [Option.map_eq_some_iff] at hh
      obtain ⟨a, ha, rfl⟩ := hh
      have := List.find?_some ha
      exact ⟨List.mem_of_find?_eq_some ha, hb, by simpa using this⟩
    refine ⟨hm, ?_⟩
    have e := pairs_aux outs ins (fun b a => (a, b)) (fun b a => a.bid = b.bid) (by intro a b; simp)
      (fun ab => ab.2.bid) (fun _ _ => rfl)
    have e' : (outs.filterMap (fun b => (ins.find? (fun a => a.bid = b.bid)).map (fun a => (a, b)))).map
        (fun ab => ab.1.bid) = (outs.filterMap (fun b => (ins.find? (fun a => a.bid = b.bid)).map (fun a => (a, b)))).map
        (fun ab => ab.2.bid) := List.map_congr_left (fun ab hab => (hm ab hab).2.2)
    rw [e', e]
    refine ⟨ho.filter _, fun k => ?_⟩
    rw [List.mem_filter, decide_eq_true_eq, and_comm]

theorem sum_list_nodup {κ : Type} [DecidableEq κ] (l : List κ) (hl : l.Nodup) (k : κ) (x : α) :
    (l.map (fun j => if k = j then x else 0)).sum = if k ∈ l then x else 0 := by
  induction l with
  | nil => simp
  | cons a l ih =>
    rw [List.nodup_cons] at hl
    rw [List.map_cons, List.sum_cons, ih hl.2]
    by_cases h : k = a
    · subst h; simp [hl.1]
    · simp [h]

theorem list_sum_zero {κ : Type} (l : List κ) (f : κ → α) (h : ∀ x ∈ l, f x = 0) : (l.map f).sum = 0 := by
  induction l with
  | nil => rfl
  | cons a l ih =>
    rw [List.map_cons, List.sum_cons, h a (by simp), ih (fun x hx => h x (by simp [hx])), add_zero]

theorem list_sum_comm {κ : Type} (l : List κ) (n : Nat) (f : κ → Nat → α) :
    (l.map (fun x => ∑ i ∈ range n, f x i)).sum = ∑ i ∈ range n, (l.map (fun x => f x i)).sum := by
  induction l with
  | nil => simp
  | cons a l ih => simp only [List.map_cons, List.sum_cons, ih, sum_add_distrib]

/-- Sum over the pairs of the terms of the fields of the pair. -/
theorem sum_pairs {ks : List (Option Nat)} (hk : ks.Nodup) (nout nin : Nat) (ao ai : Nat → Prop) [DecidablePred ao]
    [DecidablePred ai] (bo bi : Nat → Option Nat)
    (hmem : ∀ o < nout, ∀ i < nin, ao o → ai i → bo o = bi i → bi i ∈ ks) (g : Nat → Nat → α) :
    (ks.map (fun k => ∑ o ∈ range nout, if ao o ∧ bo o = k then ∑ i ∈ range nin, if ai i ∧ bi i = k then g o i else 0
      else 0)).sum =
    ∑ o ∈ range nout, if ao o then ∑ i ∈ range nin, if ai i then if bi i = bo o then g o i else 0 else 0 else 0 := by
  rw [list_sum_comm]
  refine sum_congr rfl (fun o ho => ?_)
  by_cases ha : ao o
  · have h1 : ∀ k, (if ao o ∧ bo o = k then ∑ i ∈ range nin, if ai i ∧ bi i = k then g o i else 0 else 0) =
        ∑ i ∈ range nin, if bi i = k then (if ai i ∧ bi i = bo o then g o i else 0) else 0 := by
      intro k
      by_cases hb : bo o = k
      · rw [if_pos ⟨ha, hb⟩]
        refine sum_congr rfl (fun i _ => ?_)
        by_cases h2 : bi i = k <;> by_cases h3 : ai i <;> simp [h2, h3, hb]
      · rw [if_neg (fun hh => hb hh.2)]
        symm
        refine sum_eq_zero (fun i _ => ?_)
        by_cases h2 : bi i = k
        · rw [if_pos h2, if_neg (fun hh => hb (hh.2.symm.trans h2))]
        · rw [if_neg h2]
    simp only [h1, if_pos ha]
    rw [list_sum_comm]
    refine sum_congr rfl (fun i hi => ?_)
    rw [sum_list_nodup ks hk]
    by_cases h3 : ai i
    · by_cases h4 : bi i = bo o
      · rw [if_pos (hmem o (mem_range.1 ho) i (mem_range.1 hi) ha h3 h4.symm)]
        simp [h3, h4]
      · simp [h4]
    · simp [h3]
  · rw [if_neg ha]
    refine list_sum_zero _ _ (fun k _ => ?_)
    rw [if_neg (fun hh => ha hh.1)]

end Operator
end Verif
