import Verif.Composite.Mult
import Verif.Operator.FullElem
import Verif.Restriction.Props
import Mathlib.Algebra.Order.BigOperators.Group.Finset
import Mathlib.Algebra.Order.Ring.Nat
import Mathlib.Data.Set.Card

/-!
# Composite operators: multiplicity of nodes, properties
-/

namespace Verif
namespace Operator

open Finset
open Restriction (Rstr RData Made)

variable {α : Type} [CommRing α] [LinearOrder α] [IsStrictOrderedRing α]

/-! ## Specification -/

/-- The entry `t` of the active vector occurs in the elements of the restriction `D`. -/
def Touches (D : RData α) (t : Nat) : Prop := ∃ e < D.ne, ∃ k < D.nc, ∃ m < D.es, D.lidx e m k = t

/-- The sub-operator is an operator whose active inputs have one restriction, made by one of the creation functions for
vectors of length `n`; without orientations it acts as `D`. -/
def SubOK (s : Sub α) (n : Nat) (D : RData α) : Prop :=
  ∃ op r bs, s = .single op ∧ (∀ i < op.nin, (op.inp i).vec = .active → (op.inp i).rid = some r) ∧
    (∃ i < op.nin, (op.inp i).vec = .active) ∧ Made .unoriented (op.rstrs r) bs n D

/-! ## Helper lemmas -/

theorem made_unoriented {r : Rstr} {bs : Nat} {l : Int} {D : RData α} (h : Made .unoriented r bs l D) :
    ∀ e n m, D.coef e n m = if m = n then 1 else 0 := by
  cases h with
  | @offset _ _ _ _ _ _ _ o _ _ _ _ => intro e n m; cases o <;> simp [Restriction.offsetData, Restriction.orientCoef, Restriction.idCoef]
  | strided _ _ => intro e n m; simp [Restriction.stridedData, Restriction.idCoef]
  | @blocked _ _ _ _ _ _ _ _ o _ _ _ _ _ _ =>
    intro e n m; cases o <;> simp [Restriction.offsetData, Restriction.orientCoef, Restriction.idCoef]
  | blockedStrided _ _ => intro e n m; simp [Restriction.stridedData, Restriction.idCoef]

theorem subMult_ok {r : Rstr} {bs n : Nat} {D : RData α} (hm : Made .unoriented r bs (n : Int) D) :
    ∃ sm : Buf α, subMult r ⟨n, fun _ => 1⟩ = .ok sm ∧ sm.len = n ∧ ∀ t < n, sm.val t = (D.count t : α) := by
  obtain ⟨h, rfl, hl⟩ := hm.rep
  have hc := made_unoriented hm
  obtain ⟨e, g1, g2, g3, _⟩ := h.apply_nt (u := (⟨n, fun _ => 1⟩ : Buf α)) (v := ⟨r.eSize, fun _ => 0⟩) (by rw [hl]) le_rfl
  have e1 := h.apply_t (u := e) (v := (⟨r.lSize.toNat, fun _ => 0⟩ : Buf α)) (by simp only at g2; omega) (by show r.lSize ≤ _; simp only; omega)
  refine ⟨_, by unfold subMult; rw [g1, Res.bind_ok, e1], by show r.lSize.toNat = n; omega, ?_⟩
  intro t ht
  show 0 + D.scatter r.blockSize e.val t = _
  rw [zero_add]
  simp only [RData.scatter, RData.count]
  push_cast
  refine sum_congr rfl fun x hx => sum_congr rfl fun k hk => ?_
  rw [mem_range] at hx hk
  rw [sum_comm]
  refine sum_congr rfl fun m hm => ?_
  rw [mem_range] at hm
  by_cases hlt : D.lidx x m k = t
  · simp only [hlt, if_true]
    rw [sum_eq_single m]
    · rw [g3 x hx k hk m hm]
      simp [RData.row, hc, hm]
    · intro n _ hn
      rw [hc, if_neg (fun h => hn h.symm), zero_mul]
    · intro hh; exact absurd (mem_range.2 hm) hh
  · simp [hlt]

theorem count_pos {D : RData α} {t : Nat} : 0 < D.count t ↔ Touches D t := by
  unfold RData.count Touches
  constructor
  · intro h
    by_contra hn
    push Not at hn
    refine absurd h (not_lt.2 (le_of_eq ?_))
    refine sum_eq_zero fun e he => sum_eq_zero fun k hk => sum_eq_zero fun m hm => ?_
    rw [if_neg (hn e (mem_range.1 he) k (mem_range.1 hk) m (mem_range.1 hm))]
  · rintro ⟨e, he, k, hk, m, hm, h⟩
    have h1 : (1 : Nat) ≤ ∑ m ∈ range D.es, if D.lidx e m k = t then 1 else 0 :=
      le_trans (by rw [if_pos h]) (single_le_sum (f := fun m => if D.lidx e m k = t then 1 else 0) (fun _ _ => Nat.zero_le _) (mem_range.2 hm))
    have h2 := le_trans h1 (single_le_sum (f := fun k => ∑ m ∈ range D.es, if D.lidx e m k = t then 1 else 0)
      (fun _ _ => Nat.zero_le _) (mem_range.2 hk))
    exact le_trans h2 (single_le_sum (f := fun e => ∑ k ∈ range D.nc, ∑ m ∈ range D.es, if D.lidx e m k = t then 1 else 0)
      (fun _ _ => Nat.zero_le _) (mem_range.2 he))

theorem flag_ok {sub mult : Buf α} (h : mult.len ≤ sub.len) :
    flag sub mult = .ok ⟨mult.len, fun t => if t < mult.len ∧ 0 < sub.val t then mult.val t + 1 else mult.val t⟩ := by
  unfold flag
  have hb : ∀ j < mult.len, ∀ m : Buf α, (m.len = mult.len ∧
      m.val = fun t => if t < j ∧ 0 < sub.val t then mult.val t + 1 else mult.val t) →
      ∃ m', (do
        let x ← sub.rd j
        if x > 0 then m.addAt j 1 else Res.ok m) = .ok m' ∧ (m'.len = mult.len ∧
        m'.val = fun t => if t < j + 1 ∧ 0 < sub.val t then mult.val t + 1 else mult.val t) := by
    rintro j hj m ⟨h1, h2⟩
    rw [Buf.rd_lt (by omega), Res.bind_ok]
    by_cases hx : sub.val j > 0
    · rw [if_pos hx, Buf.addAt_lt (by omega)]
      refine ⟨_, rfl, h1, ?_⟩
      funext t
      simp only
      by_cases ht : t = j
      · subst ht
        rw [if_pos rfl, h2]
        simp [hx]
      · rw [if_neg ht, h2]
        have : (t < j + 1) ↔ t < j := by omega
        simp only [this]
    · rw [if_neg hx]
      refine ⟨_, rfl, h1, ?_⟩
      rw [h2]
      funext t
      by_cases ht : t = j
      · subst ht; simp [hx]
      · have : (t < j + 1) ↔ t < j := by omega
        simp only [this]
  obtain ⟨m, e, e1, e2⟩ := loop_inv (n := mult.len) (fun j (m : Buf α) => m.len = mult.len ∧
      m.val = fun t => if t < j ∧ 0 < sub.val t then mult.val t + 1 else mult.val t) (s := mult) ⟨rfl, by funext t; simp⟩ hb
  rw [e]
  obtain ⟨l, v⟩ := m
  simp only at e1 e2
  rw [e1, e2]

theorem skipTest_ok (i : Nat) (skip : List Int) : skipTest i skip = .ok () := by
  unfold skipTest
  obtain ⟨u, e, _⟩ := loop_inv (n := skip.length) (fun _ (_ : Unit) => True)
    (body := fun j _ => if skip[j]? = some (i : Int) then .ok () else .ok ()) (s := ()) trivial
    (fun j _ _ _ => ⟨(), by simp, trivial⟩)
  exact e

/-! ## C55 -/

/-- The entry `t` occurs in sub-operator `i`, which is not to be skipped. -/
def Counted (D : Nat → RData α) (skip : List Int) (t i : Nat) : Prop := (i : Int) ∉ skip ∧ Touches (D i) t

theorem loop_err {σ : Type} {n a : Nat} {body : Nat → σ → Res σ} {s s' : σ} {c : Err} (ha : a < n)
    (h1 : loop a body s = .ok s') (h2 : body a s' = .err c) : loop n body s = .err c := by
  induction n with
  | zero => omega
  | succ n ih =>
    by_cases hn : a = n
    · subst hn; rw [loop_succ, h1, Res.bind_ok, h2]
    · rw [loop_succ, ih (by omega)]; rfl

theorem findRstr_total (f : Nat → OField α) (n : Nat) : (∃ x, findRstr f n = .ok x) ∨ ∃ c, findRstr f n = .err c := by
  induction n with
  | zero => exact Or.inl ⟨_, rfl⟩
  | succ n ih =>
    rcases ih with ⟨x, e⟩ | ⟨c, e⟩
    · rw [findRstr, e, Res.bind_ok]
      split_ifs
      · rcases x with _ | x
        · exact Or.inl ⟨_, rfl⟩
        · by_cases hx : x = (f n).rid
          · exact Or.inl ⟨some x, if_pos hx⟩
          · exact Or.inr ⟨.minor, if_neg hx⟩
      · exact Or.inl ⟨_, rfl⟩
    · rw [findRstr, e]; exact Or.inr ⟨c, rfl⟩

theorem prefix_ok {subs : List (Sub α)} {skip : List Int} {mult : Buf α} {D : Nat → RData α} {a : Nat}
    (h : ∀ i < a, ∃ s, subs[i]? = some s ∧ SubOK s mult.len (D i)) (hs : ∀ i < a, (i : Int) ∉ skip) :
    ∃ m', loop a (multStep subs skip mult.len) (⟨mult.len, fun _ => 0⟩ : Buf α) = .ok m' ∧ m'.len = mult.len ∧
      ∀ t < mult.len, m'.val t = (Set.ncard {i | i < a ∧ Counted D skip t i} : α) := by
  classical
  have hb : ∀ i < a, ∀ m : Buf α, (m.len = mult.len ∧
      ∀ t < mult.len, m.val t = (((range i).filter (fun i => Counted D skip t i)).card : α)) →
      ∃ m', multStep subs skip mult.len i m = .ok m' ∧ (m'.len = mult.len ∧
      ∀ t < mult.len, m'.val t = (((range (i + 1)).filter (fun i => Counted D skip t i)).card : α)) := by
    rintro i hi m ⟨h1, h2⟩
    obtain ⟨s, hsub, op, r, bs, rfl, hr, hact, hmade⟩ := h i hi
    obtain ⟨sm, g1, g2, g3⟩ := subMult_ok hmade
    refine ⟨⟨m.len, fun t => if t < m.len ∧ 0 < sm.val t then m.val t + 1 else m.val t⟩, ?_, h1, ?_⟩
    · unfold multStep
      rw [skipTest_ok, Res.bind_ok, hsub]
      simp only [Sub.rstr, activeRstr_eq hr hact, Res.bind_ok, g1]
      exact flag_ok (mult := m) (sub := sm) (by omega)
    · intro t ht
      simp only
      rw [range_add_one, filter_insert, g3 t ht, h2 t ht]
      have hpos : (0 < (RData.count (D i) t : α)) ↔ Counted D skip t i := by
        rw [Nat.cast_pos, count_pos]
        exact ⟨fun hh => ⟨hs i hi, hh⟩, fun hh => hh.2⟩
      by_cases hc : Counted D skip t i
      · rw [if_pos ⟨by omega, hpos.2 hc⟩, if_pos hc, card_insert_of_notMem (by simp)]
        push_cast; rfl
      · rw [if_neg (fun hh => hc (hpos.1 hh.2)), if_neg hc]
  obtain ⟨m', e, e1, e2⟩ := loop_inv (n := a) (fun a (m : Buf α) => m.len = mult.len ∧
      ∀ t < mult.len, m.val t = (((range a).filter (fun i => Counted D skip t i)).card : α))
    (s := ⟨mult.len, fun _ => 0⟩) ⟨rfl, by simp⟩ hb
  refine ⟨m', e, e1, fun t ht => ?_⟩
  rw [e2 t ht]
  congr 1
  rw [← Set.ncard_coe_finset]
  congr 1
  ext i
  simp

/-- If no index to skip designates a sub-operator, `CeedCompositeOperatorGetMultiplicity` gives for every entry of the
active vector the number of sub-operators in whose elements it occurs. What is missing: indices that do designate
sub-operators have no effect (`C55_skip_witness`). -/
theorem C55_multiplicity_partial {subs : List (Sub α)} {skip : List Int} {mult : Buf α} {D : Nat → RData α}
    (h : ∀ i < subs.length, ∃ s, subs[i]? = some s ∧ SubOK s mult.len (D i))
    (hs : ∀ i < subs.length, (i : Int) ∉ skip) :
    ∃ m', getCompMult subs skip mult = .ok m' ∧ m'.len = mult.len ∧ ∀ t < mult.len,
      m'.val t = (Set.ncard {i | i < subs.length ∧ Counted D skip t i} : α) :=
  prefix_ok h hs

/-- A sub-operator without active input, or whose active inputs have different restrictions, is reported as an error. -/
theorem C55_rejected {subs : List (Sub α)} {skip : List Int} {mult : Buf α} {D : Nat → RData α} {a : Nat} {op : Oper α}
    (ha : subs[a]? = some (.single op)) (h : ∀ i < a, ∃ s, subs[i]? = some s ∧ SubOK s mult.len (D i))
    (hs : ∀ i < a, (i : Int) ∉ skip)
    (hn : (∀ i < op.nin, (op.inp i).vec ≠ .active) ∨
      ∃ i < op.nin, ∃ j < op.nin, (op.inp i).vec = .active ∧ (op.inp j).vec = .active ∧ (op.inp i).rid ≠ (op.inp j).rid) :
    ∃ c, getCompMult subs skip mult = .err c := by
  obtain ⟨m', e, _⟩ := prefix_ok (mult := mult) h hs
  have hlt : a < subs.length := by
    by_contra hc
    rw [List.getElem?_eq_none (by omega)] at ha; cases ha
  have hr : ∃ c, activeRstr op.inp op.nin = .err c := by
    unfold activeRstr
    rcases findRstr_total op.inp op.nin with ⟨x, hx⟩ | ⟨c, hx⟩
    · obtain ⟨k1, k2⟩ := findRstr_ok hx
      rw [hx, Res.bind_ok]
      rcases hn with hn | ⟨i, hi, j, hj, h1, h2, h3⟩
      · rcases x with _ | x
        · exact ⟨_, rfl⟩
        · obtain ⟨i, hi, hv, _⟩ := k2 x rfl
          exact absurd hv (hn i hi)
      · have := (k1 i hi h1).symm.trans (k1 j hj h2)
        exact absurd (Option.some.inj this) h3
    · rw [hx]; exact ⟨c, rfl⟩
  obtain ⟨c, hc⟩ := hr
  refine ⟨c, loop_err hlt e ?_⟩
  unfold multStep
  rw [skipTest_ok, Res.bind_ok, ha]
  simp only [Sub.rstr, hc]
  rfl

/-- So is a sub-operator that is itself composite. -/
theorem C55_rejected_composite {subs : List (Sub α)} {skip : List Int} {mult : Buf α} {D : Nat → RData α} {a : Nat}
    (ha : subs[a]? = some .composite) (h : ∀ i < a, ∃ s, subs[i]? = some s ∧ SubOK s mult.len (D i))
    (hs : ∀ i < a, (i : Int) ∉ skip) : getCompMult subs skip mult = .err .minor := by
  obtain ⟨m', e, _⟩ := prefix_ok (mult := mult) h hs
  have hlt : a < subs.length := by
    by_contra hc
    rw [List.getElem?_eq_none (by omega)] at ha; cases ha
  refine loop_err hlt e ?_
  unfold multStep
  rw [skipTest_ok, Res.bind_ok, ha]
  rfl

end Operator
end Verif
