import Verif.Operator.AsmData
import Verif.Operator.AssembleSpec
import Verif.Restriction.Kernels

/-!
# Lemmas about the tables of active bases
-/

namespace Verif
namespace Operator

open Finset
open Basis (Bas EMode)

variable {α : Type} [CommRing α]

set_option linter.unusedSectionVars false

/-! ## Lists -/

theorem sum_list_range (n : Nat) (f : Nat → α) : ((List.range n).map f).sum = ∑ i ∈ range n, f i := by
  induction n with
  | zero => simp
  | succ n ih => rw [List.range_succ, List.map_append, List.sum_append, ih, sum_range_succ]; simp

theorem Adds.loopL {β : Type} {l : List β} {body : β → Buf α → Res (Buf α)} {L : Nat} {c : β → Nat → α}
    (h : ∀ x ∈ l, Adds (body x) L (c x)) : Adds (Operator.loopL l body) L (fun j => (l.map (fun x => c x j)).sum) := by
  induction l with
  | nil => intro v hv; subst hv; simp [Operator.loopL]
  | cons x l ih =>
    intro v hv
    unfold Operator.loopL
    rw [h x (by simp) v hv, Res.bind_ok, ih (fun y hy => h y (by simp [hy])) _ rfl]
    simp [add_assoc]

/-! ## Modes -/

/-- The entries of the modes of the fields with basis `bid`. -/
def modesOf (p : Prec α) (f : Nat → OField α) (ids : Nat → Option Nat) (bid : Option Nat) : Nat → List (EMode × Nat)
  | 0 => []
  | n + 1 => modesOf p f ids bid n ++
      if (f n).vec = .active ∧ ids n = bid then newModes p bid (f n).mode (offset f n) else []

/-- The same, with the part of the matrix each entry has to use. -/
def dirModes (p : Prec α) (f : Nat → OField α) (ids : Nat → Option Nat) (bid : Option Nat) :
    Nat → List (EMode × Nat × Nat)
  | 0 => []
  | n + 1 => dirModes p f ids bid n ++
      if (f n).vec = .active ∧ ids n = bid then
        (List.range (p.qComp bid (f n).mode)).map (fun d => ((f n).mode, offset f n + d * p.nc bid, d)) else []

theorem sum_dirModes (p : Prec α) (f : Nat → OField α) (ids : Nat → Option Nat) (bid : Option Nat) (n : Nat)
    (F : EMode × Nat × Nat → α) : ((dirModes p f ids bid n).map F).sum =
      ∑ i ∈ range n, if (f i).vec = .active ∧ ids i = bid then
        ∑ d ∈ range (p.qComp bid (f i).mode), F ((f i).mode, offset f i + d * p.nc bid, d) else 0 := by
  induction n with
  | zero => simp [dirModes]
  | succ n ih =>
    rw [dirModes, List.map_append, List.sum_append, ih, sum_range_succ]
    congr 1
    split
    · rw [List.map_map, ← sum_list_range]; rfl
    · simp

theorem mem_dirModes {p : Prec α} {f : Nat → OField α} {ids : Nat → Option Nat} {bid : Option Nat} {n : Nat}
    {x : EMode × Nat × Nat} (h : x ∈ dirModes p f ids bid n) : ∃ i < n, (f i).vec = .active ∧ ids i = bid ∧
      ∃ d < p.qComp bid (f i).mode, x = ((f i).mode, offset f i + d * p.nc bid, d) := by
  induction n with
  | zero => simp [dirModes] at h
  | succ n ih =>
    rw [dirModes, List.mem_append] at h
    rcases h with h | h
    · obtain ⟨i, hi, rest⟩ := ih h
      exact ⟨i, by omega, rest⟩
    · split at h
      · rename_i hc
        rw [List.mem_map] at h
        obtain ⟨d, hd, rfl⟩ := h
        exact ⟨n, by omega, hc.1, hc.2, d, List.mem_range.1 hd, rfl⟩
      · simp at h

/-- State of `dirs` after a list. -/
def dirSt (qc : EMode → Nat) : Option EMode → Nat → List (EMode × Nat) → Option EMode × Nat
  | prev, d, [] => (prev, d)
  | prev, d, (m, _) :: l =>
    if 1 < qc m then dirSt qc (some m) (if prev = some m then d + 1 else 0) l else dirSt qc (some m) d l

theorem dirs_append (qc : EMode → Nat) (prev : Option EMode) (d : Nat) (l l' : List (EMode × Nat)) :
    dirs qc prev d (l ++ l') = dirs qc prev d l ++ dirs qc (dirSt qc prev d l).1 (dirSt qc prev d l).2 l' := by
  induction l generalizing prev d with
  | nil => simp [dirs, dirSt]
  | cons x l ih =>
    obtain ⟨m, o⟩ := x
    rw [List.cons_append, dirs, dirs, dirSt]
    split
    · simp only []
      rw [ih, List.cons_append]
    · rw [ih, List.cons_append]

theorem dirSt_append (qc : EMode → Nat) (prev : Option EMode) (d : Nat) (l l' : List (EMode × Nat)) :
    dirSt qc prev d (l ++ l') = dirSt qc (dirSt qc prev d l).1 (dirSt qc prev d l).2 l' := by
  induction l generalizing prev d with
  | nil => simp [dirSt]
  | cons x l ih =>
    obtain ⟨m, o⟩ := x
    rw [List.cons_append, dirSt, dirSt]
    split
    · rw [ih]
    · rw [ih]

/-- Entries of one mode that is already the previous one. -/
theorem dirs_run {qc : EMode → Nat} {m : EMode} (h1 : 1 < qc m) (off nc : Nat) (k n d : Nat) :
    dirs qc (some m) d ((List.range' k n).map (fun j => (m, off + j * nc))) =
      (List.range n).map (fun j => (m, off + (k + j) * nc, d + 1 + j)) := by
  induction n generalizing k d with
  | zero => simp [dirs]
  | succ n ih =>
    rw [List.range'_succ, List.map_cons, dirs, if_pos h1, if_pos rfl]
    simp only []
    rw [ih, List.range_succ_eq_map, List.map_cons, List.map_map]
    congr 1
    refine List.map_congr_left (fun j _ => ?_)
    simp only [Function.comp, Prod.mk.injEq, true_and]
    constructor
    · congr 2; omega
    · omega

theorem dirSt_run (qc : EMode → Nat) (m : EMode) (l : List (EMode × Nat)) (hl : ∀ x ∈ l, x.1 = m) (prev : Option EMode)
    (d : Nat) (hne : l ≠ []) : (dirSt qc prev d l).1 = some m := by
  induction l generalizing prev d with
  | nil => exact absurd rfl hne
  | cons x l ih =>
    obtain ⟨m', o⟩ := x
    have hm : m' = m := hl (m', o) (by simp)
    subst hm
    rw [dirSt]
    have hl' : ∀ x ∈ l, x.1 = m' := fun x hx => hl x (by simp [hx])
    by_cases hl0 : l = []
    · subst hl0; split <;> rfl
    · split <;> exact ih hl' _ _ hl0

/-- Entries of one field, when the previous entry is of another mode. -/
theorem dirs_block {qc : EMode → Nat} {m : EMode} (off nc : Nat) (prev : Option EMode) (d : Nat)
    (hp : prev ≠ some m ∨ qc m ≤ 1) :
    dirs qc prev d ((List.range (qc m)).map (fun j => (m, off + j * nc))) =
      (List.range (qc m)).map (fun j => (m, off + j * nc, j)) := by
  rcases Nat.lt_or_ge 1 (qc m) with h1 | h1
  · have hp' : prev ≠ some m := by rcases hp with hp | hp; exact hp; omega
    obtain ⟨n, hn⟩ : ∃ n, qc m = n + 1 := ⟨qc m - 1, by omega⟩
    have e := dirs_run h1 off nc 1 n 0
    rw [hn, List.range_succ_eq_map, List.map_cons, dirs, if_pos h1, if_neg hp', List.map_cons]
    simp only []
    have r : List.map Nat.succ (List.range n) = List.range' 1 n := by
      refine List.ext_getElem (by simp) (fun i h1 h2 => ?_)
      simp [Nat.add_comm]
    rw [r, e, ← r, List.map_map]
    congr 1
    refine List.map_congr_left (fun j _ => ?_)
    simp only [Function.comp, Prod.mk.injEq, true_and]
    exact ⟨by congr 2; omega, by omega⟩
  · have : qc m = 0 ∨ qc m = 1 := by omega
    rcases this with h0 | h0
    · rw [h0]; simp [dirs]
    · rw [h0]
      simp [dirs, h0]

/-- Two active fields with the same basis and the same mode of several components are separated by a field with the
same basis and another mode. -/
def Separated (p : Prec α) (f : Nat → OField α) (ids : Nat → Option Nat) (n : Nat) : Prop :=
  ∀ i j, i < j → j < n → (f i).vec = .active → (f j).vec = .active → ids i = ids j → (f i).mode = (f j).mode →
    p.qComp (ids i) (f i).mode ≤ 1 ∨ ∃ k, i < k ∧ k < j ∧ (f k).vec = .active ∧ ids k = ids i ∧
      (f k).mode ≠ (f i).mode ∧ 0 < p.qComp (ids k) (f k).mode

theorem dirs_modesOf {p : Prec α} {f : Nat → OField α} {ids : Nat → Option Nat} {n : Nat} (bid : Option Nat)
    (hsep : Separated p f ids n) (hw : ∀ i < n, (f i).vec = .active → (f i).mode ≠ .weight) :
    dirs (p.qComp bid) none 0 (modesOf p f ids bid n) = dirModes p f ids bid n ∧
    ((dirSt (p.qComp bid) none 0 (modesOf p f ids bid n)).1 = none ∨
      ∃ i < n, (f i).vec = .active ∧ ids i = bid ∧
        (dirSt (p.qComp bid) none 0 (modesOf p f ids bid n)).1 = some (f i).mode ∧
        ∀ k, i < k → k < n → (f k).vec = .active → ids k = bid → p.qComp bid (f k).mode = 0) := by
  induction n with
  | zero => simp [modesOf, dirModes, dirs, dirSt]
  | succ n ih =>
    obtain ⟨ih1, ih2⟩ := ih (fun i j h1 h2 => hsep i j h1 (by omega)) (fun i hi => hw i (by omega))
    rw [modesOf, dirModes, dirs_append, dirSt_append, ih1]
    by_cases hc : (f n).vec = .active ∧ ids n = bid
    · simp only [if_pos hc]
      have hnm : newModes p bid (f n).mode (offset f n) =
          (List.range (p.qComp bid (f n).mode)).map (fun d => ((f n).mode, offset f n + d * p.nc bid)) := by
        unfold newModes; rw [if_neg (hw n (by omega) hc.1)]
      rw [hnm]
      have hp : (dirSt (p.qComp bid) none 0 (modesOf p f ids bid n)).1 ≠ some (f n).mode ∨ p.qComp bid (f n).mode ≤ 1 := by
        rcases ih2 with h0 | ⟨i, hi, ha, hid, hpr, hrest⟩
        · left; rw [h0]; simp
        · by_cases hm : (f i).mode = (f n).mode
          · right
            rcases hsep i n hi (by omega) ha hc.1 (by rw [hid, hc.2]) hm with hq | ⟨k, k1, k2, ka, kid, km, kq⟩
            · rw [hid, hm] at hq; exact hq
            · have := hrest k k1 k2 ka (by rw [kid, hid])
              rw [kid, hid] at kq
              omega
          · left
            rw [hpr]
            intro hh
            exact hm (Option.some.inj hh)
      constructor
      · rw [dirs_block _ _ _ _ hp]
      · by_cases h0 : p.qComp bid (f n).mode = 0
        · rw [h0]
          simp only [List.range_zero, List.map_nil, dirSt]
          rcases ih2 with hh | ⟨i, hi, ha, hid, hpr, hrest⟩
          · exact Or.inl hh
          · refine Or.inr ⟨i, by omega, ha, hid, hpr, fun k k1 k2 ka kid => ?_⟩
            rcases Nat.lt_succ_iff_lt_or_eq.1 k2 with k3 | k3
            · exact hrest k k1 k3 ka kid
            · subst k3; exact h0
        · refine Or.inr ⟨n, by omega, hc.1, hc.2, ?_, fun k k1 k2 => by omega⟩
          refine dirSt_run _ (f n).mode _ ?_ _ _ ?_
          · intro x hx
            rw [List.mem_map] at hx
            obtain ⟨d, _, rfl⟩ := hx
            rfl
          · intro hh
            rw [List.map_eq_nil_iff, List.range_eq_nil] at hh
            exact h0 hh
    · simp only [if_neg hc]
      constructor
      · simp [dirs]
      · rw [dirSt]
        rcases ih2 with hh | ⟨i, hi, ha, hid, hpr, hrest⟩
        · exact Or.inl hh
        · refine Or.inr ⟨i, by omega, ha, hid, hpr, fun k k1 k2 ka kid => ?_⟩
          rcases Nat.lt_succ_iff_lt_or_eq.1 k2 with k3 | k3
          · exact hrest k k1 k3 ka kid
          · subst k3; exact absurd ⟨ka, kid⟩ hc

/-! ## The tables -/

theorem mem_addModes {bid rid : Option Nat} {new : List (EMode × Nat)} {l : List ABasis} {a : ABasis}
    (hn : (l.map ABasis.bid).Nodup) (h : a ∈ addModes bid rid new l) :
    (a ∈ l ∧ a.bid ≠ bid) ∨ (∃ b ∈ l, b.bid = bid ∧ a = { b with modes := b.modes ++ new }) ∨
      (a = ⟨bid, rid, new⟩ ∧ bid ∉ l.map ABasis.bid) := by
  induction l with
  | nil => simp [addModes] at h; exact Or.inr (Or.inr ⟨h, by simp⟩)
  | cons x l ih =>
    rw [List.map_cons, List.nodup_cons] at hn
    rw [addModes] at h
    split at h
    · rename_i hx
      rcases List.mem_cons.1 h with h | h
      · exact Or.inr (Or.inl ⟨x, by simp, hx, h⟩)
      · refine Or.inl ⟨by simp [h], fun hh => hn.1 ?_⟩
        rw [hx, ← hh]
        exact List.mem_map_of_mem h
    · rename_i hx
      rcases List.mem_cons.1 h with h | h
      · subst h; exact Or.inl ⟨by simp, hx⟩
      · rcases ih hn.2 h with ⟨h1, h2⟩ | ⟨b, h1, h2, h3⟩ | ⟨h1, h2⟩
        · exact Or.inl ⟨by simp [h1], h2⟩
        · exact Or.inr (Or.inl ⟨b, by simp [h1], h2, h3⟩)
        · refine Or.inr (Or.inr ⟨h1, ?_⟩)
          rw [List.map_cons, List.mem_cons]
          rintro (hh | hh)
          · exact hx hh.symm
          · exact h2 hh

theorem bids_addModes (bid rid : Option Nat) (new : List (EMode × Nat)) (l : List ABasis) :
    (addModes bid rid new l).map ABasis.bid =
      if bid ∈ l.map ABasis.bid then l.map ABasis.bid else l.map ABasis.bid ++ [bid] := by
  induction l with
  | nil => simp [addModes]
  | cons x l ih =>
    rw [addModes]
    by_cases hx : x.bid = bid
    · simp [hx]
    · rw [if_neg hx, List.map_cons, ih, List.map_cons]
      have : (bid ∈ x.bid :: l.map ABasis.bid) ↔ bid ∈ l.map ABasis.bid := by
        rw [List.mem_cons]
        exact ⟨fun hh => hh.resolve_left (fun h2 => hx h2.symm), Or.inr⟩
      by_cases hm : bid ∈ l.map ABasis.bid
      · rw [if_pos hm, if_pos (this.2 hm)]
      · rw [if_neg hm, if_neg (fun hh => hm (this.1 hh)), List.cons_append]

/-- The table of the active bases and the number of components. -/
theorem asmData_spec (p : Prec α) (f : Nat → OField α) (ids : Nat → Option Nat) (n : Nat)
    (hsz : ∀ i < n, (f i).vec = .active → (f i).mode ≠ .weight ∧
      (f i).size = p.qComp (ids i) (f i).mode * p.nc (ids i)) :
    (asmData p f ids n).2 = offset f n ∧
    ((asmData p f ids n).1.map ABasis.bid).Nodup ∧
    (∀ k, k ∈ (asmData p f ids n).1.map ABasis.bid ↔ ∃ i < n, (f i).vec = .active ∧ ids i = k) ∧
    (∀ a ∈ (asmData p f ids n).1, a.modes = modesOf p f ids a.bid n ∧
      ∃ i < n, (f i).vec = .active ∧ ids i = a.bid ∧ (f i).rid = a.rid) := by
  induction n with
  | zero => simp [asmData, offset]
  | succ n ih =>
    obtain ⟨h1, h2, h3, h4⟩ := ih (fun i hi => hsz i (by omega))
    have hoff : offset f (n + 1) = offset f n + if (f n).vec = .active then (f n).size else 0 := sum_range_succ _ _
    rw [asmData]
    by_cases ha : (f n).vec = .active
    · simp only [if_pos ha] at hoff ⊢
      obtain ⟨hw, hs⟩ := hsz n (by omega) ha
      have hlen : (newModes p (ids n) (f n).mode (asmData p f ids n).2).length = p.qComp (ids n) (f n).mode := by
        unfold newModes; rw [if_neg hw]; simp
      refine ⟨by rw [hoff, hlen, hs, h1], ?_, ?_, ?_⟩
      · rw [bids_addModes]
        split
        · exact h2
        · rename_i hm
          rw [List.nodup_append]
          exact ⟨h2, by simp, fun x hx y hy => by
            rw [List.mem_singleton] at hy; subst hy; exact fun hh => hm (hh ▸ hx)⟩
      · intro k
        rw [bids_addModes]
        constructor
        · intro hk
          split at hk
          · obtain ⟨i, hi, rest⟩ := (h3 k).1 hk
            exact ⟨i, by omega, rest⟩
          · rcases List.mem_append.1 hk with hk | hk
            · obtain ⟨i, hi, rest⟩ := (h3 k).1 hk
              exact ⟨i, by omega, rest⟩
            · rw [List.mem_singleton] at hk
              exact ⟨n, by omega, ha, hk.symm⟩
        · rintro ⟨i, hi, hia, hik⟩
          have : k ∈ (asmData p f ids n).1.map ABasis.bid ∨ k = ids n := by
            rcases Nat.lt_succ_iff_lt_or_eq.1 hi with h5 | h5
            · exact Or.inl ((h3 k).2 ⟨i, h5, hia, hik⟩)
            · subst h5; exact Or.inr hik.symm
          split
          · rename_i hm
            rcases this with h5 | h5
            · exact h5
            · rw [h5]; exact hm
          · rcases this with h5 | h5
            · exact List.mem_append_left _ h5
            · rw [h5]; simp
      · intro a hmem
        rcases mem_addModes h2 hmem with ⟨hb, hne⟩ | ⟨b, hb, hbid, rfl⟩ | ⟨rfl, hni⟩
        · obtain ⟨h5, i, hi, rest⟩ := h4 a hb
          refine ⟨?_, i, by omega, rest⟩
          rw [modesOf, if_neg (fun hh => hne hh.2.symm), List.append_nil]; exact h5
        · obtain ⟨h5, i, hi, rest⟩ := h4 b hb
          refine ⟨?_, i, by omega, rest⟩
          simp only
          rw [modesOf, if_pos ⟨ha, hbid.symm⟩, h5, h1, hbid]
        · refine ⟨?_, n, by omega, ha, rfl, rfl⟩
          have hnil : ∀ m ≤ n, modesOf p f ids (ids n) m = [] := by
            intro m hm
            induction m with
            | zero => rfl
            | succ m ihm =>
              rw [modesOf, ihm (by omega), List.nil_append, if_neg]
              rintro ⟨g1, g2⟩
              exact hni ((h3 (ids n)).2 ⟨m, by omega, g1, g2⟩)
          simp only
          rw [modesOf, if_pos ⟨ha, rfl⟩, hnil n (le_refl _), List.nil_append, h1]
    · simp only [if_neg ha] at hoff ⊢
      refine ⟨by rw [hoff, h1, Nat.add_zero], h2, ?_, ?_⟩
      · intro k
        rw [h3]
        constructor
        · rintro ⟨i, hi, rest⟩; exact ⟨i, by omega, rest⟩
        · rintro ⟨i, hi, hia, rest⟩
          rcases Nat.lt_succ_iff_lt_or_eq.1 hi with h5 | h5
          · exact ⟨i, h5, hia, rest⟩
          · subst h5; exact absurd hia ha
      · intro a hm
        obtain ⟨h5, i, hi, rest⟩ := h4 a hm
        refine ⟨?_, i, by omega, rest⟩
        rw [modesOf, if_neg (fun hh => ha hh.1), List.append_nil]; exact h5

end Operator
end Verif
