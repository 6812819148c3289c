import Verif.Restriction.LifeSpec
import Mathlib.Algebra.Order.BigOperators.Group.Finset

/-!
# Restrictions and their arrays live exactly as long as they are needed
-/

namespace Verif
namespace RstrLife

open Finset

variable {h h' : Heap} {l l' : Ledger} {o b : Nat}

/-! ## The invariant -/

/-- References to `o`, by the user and by copies. -/
def Ledger.cnt (l : Ledger) (o : Nat) : Nat := l.hand o + l.copies o

/-- An object agrees with the books. -/
def ObjOk (l : Ledger) (o : Nat) : Option Obj → Prop
  | none => l.cnt o = 0
  | some x => x.base = l.base o ∧ x.data = l.orig o ∧ x.readers = l.lent o ∧ 1 ≤ l.cnt o ∧
      (x.refs = l.cnt o ∨ l.refused (l.orig o) = true ∧ l.cnt o = 1 ∧ x.refs ≤ 0)

/-- A block agrees with the books. -/
def blkOk (l : Ledger) (o : Nat) : Option Block := if l.base o = none ∧ 1 ≤ l.cnt o then some (l.blk o) else none

structure Inv (h : Heap) (l : Ledger) : Prop where
  next : h.next = l.num
  fresh : ∀ o, l.num ≤ o → l.hand o = 0 ∧ l.base o = none
  base : ∀ o b, l.base o = some b → b < l.num ∧ l.base b = none
  objs : ∀ o, ObjOk l o (h.objs o)
  blocks : ∀ o, h.blocks o = blkOk l o
  loans : ∀ i ∈ l.loans, 1 ≤ l.cnt i.owner ∧ i.ptr = l.orig i.owner

theorem copies_congr (hn : l'.num = l.num) (hb : l'.base = l.base)
    (hh : ∀ p, l.base p ≠ none → (1 ≤ l'.hand p ↔ 1 ≤ l.hand p)) : l'.copies o = l.copies o := by
  unfold Ledger.copies
  rw [hn, hb]
  refine sum_congr rfl fun p _ => ?_
  by_cases hp : l.base p = some o
  · have := hh p (by simp [hp])
    simp only [hp, this]
  · simp [hp]

theorem Inv.copies_copy (hi : Inv h l) (hb : l.base o = some b) : l.copies o = 0 := by
  unfold Ledger.copies
  refine sum_eq_zero fun p _ => ?_
  rw [if_neg]
  rintro ⟨hp, -⟩
  have := (hi.base p o hp).2
  simp [hb] at this

theorem Inv.copies_fresh (hi : Inv h l) (ho : l.num ≤ o) : l.copies o = 0 := by
  unfold Ledger.copies
  refine sum_eq_zero fun p _ => ?_
  rw [if_neg]
  rintro ⟨hp, -⟩
  have := (hi.base p o hp).1
  omega

theorem Inv.lt_num (hi : Inv h l) (ho : 1 ≤ l.cnt o) : o < l.num := by
  by_contra hc
  have h1 := hi.fresh o (by omega)
  have h2 := hi.copies_fresh (o := o) (by omega)
  unfold Ledger.cnt at ho
  omega

theorem Inv.base_lt (hi : Inv h l) (hb : l.base o = some b) : o < l.num := by
  by_contra hc
  have h1 := hi.fresh o (by omega)
  simp [hb] at h1

theorem Inv.copies_base (hi : Inv h l) (hb : l.base o = some b) (ho : 1 ≤ l.hand o) : 1 ≤ l.copies b := by
  unfold Ledger.copies
  refine le_trans ?_ (Finset.single_le_sum (f := fun p => if l.base p = some b ∧ 1 ≤ l.hand p then 1 else 0)
    (fun _ _ => Nat.zero_le _) (mem_range.2 (hi.base_lt hb)))
  simp [hb, ho]

theorem Inv.live (hi : Inv h l) (ho : 1 ≤ l.cnt o) : ∃ x, h.objs o = some x ∧ ObjOk l o (some x) := by
  have := hi.objs o
  cases hx : h.objs o with
  | none =>
    rw [hx] at this
    simp only [ObjOk] at this
    omega
  | some x => exact ⟨x, rfl, hx ▸ this⟩

theorem Inv.cnt_orig (hi : Inv h l) (ho : 1 ≤ l.cnt o) : 1 ≤ l.cnt (l.orig o) ∧ l.base (l.orig o) = none := by
  cases hb : l.base o with
  | none => simp [Ledger.orig, hb, ho]
  | some b =>
    have h1 : l.hand o = l.cnt o := by
      have := hi.copies_copy hb
      unfold Ledger.cnt
      omega
    have := hi.copies_base hb (by omega)
    simp only [Ledger.orig, hb, Option.getD_some]
    refine ⟨?_, (hi.base o b hb).2⟩
    unfold Ledger.cnt
    omega

theorem Inv.block (hi : Inv h l) (ho : 1 ≤ l.cnt o) : h.blocks (l.orig o) = some (l.blk (l.orig o)) := by
  have := hi.cnt_orig ho
  rw [hi.blocks, blkOk, if_pos ⟨this.2, this.1⟩]

theorem hand_cnt (ho : 1 ≤ l.hand o) : 1 ≤ l.cnt o := by
  unfold Ledger.cnt
  omega

/-- Objects whose books did not change stay right. -/
theorem ObjOk.congr {v : Option Obj} (hv : ObjOk l o v) (hc : l'.cnt o = l.cnt o) (hb : l'.base o = l.base o) (hl : l'.lent o = l.lent o)
    (hr : l.refused (l.orig o) = true → l'.refused (l.orig o) = true) : ObjOk l' o v := by
  have ho : l'.orig o = l.orig o := by simp [Ledger.orig, hb]
  cases v with
  | none =>
    show l'.cnt o = 0
    rw [hc]
    exact hv
  | some x =>
    obtain ⟨h1, h2, h3, h4, h5⟩ := hv
    refine ⟨by rw [hb]; exact h1, by rw [ho]; exact h2, by rw [hl]; exact h3, by rw [hc]; exact h4, ?_⟩
    rw [hc, ho]
    rcases h5 with h5 | ⟨h5, h6, h7⟩
    · exact Or.inl h5
    · exact Or.inr ⟨hr h5, h6, h7⟩

theorem blkOk_congr (hc : l'.cnt o = l.cnt o) (hb : l'.base o = l.base o) (hk : l'.blk o = l.blk o) : blkOk l' o = blkOk l o := by
  unfold blkOk
  rw [hc, hb, hk]

/-! ## What the calls do -/

theorem getO_ok {x : Obj} (hx : h.objs o = some x) : getO o h = .ok h x := by
  simp [getO, hx]

theorem getB_ok {x : Block} (hx : h.blocks o = some x) : getB o h = .ok h x := by
  simp [getB, hx]

theorem upd_upd {β : Type} (f : Nat → β) (i : Nat) (a c : β) : Function.update (Function.update f i a) i c = Function.update f i c := by
  funext j
  by_cases hj : j = i
  · subst hj; simp
  · simp [hj]

theorem destroyObj_more {f : Nat} {x : Obj} (hx : h.objs o = some x) (hr : x.refs - 1 > 0) :
    destroyObj (f + 1) o h = .ok { h with objs := Function.update h.objs o (some { x with refs := x.refs - 1 }) } () := by
  simp only [destroyObj, M.bind_apply, getO_ok hx, Out.bind_ok, putO, if_pos hr, M.pure_apply]

theorem destroyObj_busy {f : Nat} {x : Obj} (hx : h.objs o = some x) (hr : ¬ x.refs - 1 > 0) (hn : x.readers ≠ 0) :
    destroyObj (f + 1) o h = .err { h with objs := Function.update h.objs o (some { x with refs := x.refs - 1 }) } .access := by
  simp only [destroyObj, M.bind_apply, getO_ok hx, Out.bind_ok, putO, if_neg hr, M.check_false hn, Out.bind_err]

theorem destroyObj_orig {f : Nat} {x : Obj} {c : Block} (hx : h.objs o = some x) (hr : ¬ x.refs - 1 > 0) (hn : x.readers = 0)
    (hb : x.base = none) (hd : h.blocks x.data = some c) :
    destroyObj (f + 1) o h = .ok { h with objs := Function.update h.objs o none, blocks := Function.update h.blocks x.data none } () := by
  simp only [destroyObj, M.bind_apply, getO_ok hx, Out.bind_ok, putO, if_neg hr, M.check_true hn, hb, freeB, hd, delO, upd_upd]

theorem destroyObj_copy {f : Nat} {x : Obj} (hx : h.objs o = some x) (hr : ¬ x.refs - 1 > 0) (hn : x.readers = 0)
    (hb : x.base = some b) :
    destroyObj (f + 1) o h =
      (destroyObj f b { h with objs := Function.update h.objs o (some { x with refs := x.refs - 1 }) }).bind fun h _ => delO o h := by
  simp only [destroyObj, M.bind_apply, getO_ok hx, Out.bind_ok, putO, if_neg hr, M.check_true hn, hb]

/-! ## Destruction -/

/-- The books with one reference less. -/
def Ledger.drop (l : Ledger) (o : Nat) : Ledger := { l with hand := Function.update l.hand o (l.hand o - 1) }

/-- The books with a refusal. -/
def Ledger.refuse (l : Ledger) (o : Nat) : Ledger := { l with refused := Function.update l.refused (l.orig o) true }

theorem drop_hand_ne {k : Nat} (hk : k ≠ o) : (l.drop o).hand k = l.hand k := by
  show Function.update l.hand o _ k = _
  rw [Function.update_of_ne hk]

theorem drop_hand_self : (l.drop o).hand o = l.hand o - 1 := by
  show Function.update l.hand o _ o = _
  rw [Function.update_self]

/-- Releasing an original, or one of several references to a copy, does not change the copies. -/
theorem drop_copies (ho : l.base o = none ∨ 2 ≤ l.hand o) (k : Nat) : (l.drop o).copies k = l.copies k := by
  refine copies_congr rfl rfl fun p hp => ?_
  by_cases hpo : p = o
  · subst hpo
    rw [drop_hand_self]
    rcases ho with ho | ho
    · exact absurd ho hp
    · omega
  · rw [drop_hand_ne hpo]

/-- Releasing the last reference to a copy. -/
theorem Inv.drop_copy (hi : Inv h l) (hb : l.base o = some b) (ho : l.hand o = 1) (k : Nat) :
    (l.drop o).copies k + (if k = b then 1 else 0) = l.copies k := by
  unfold Ledger.copies
  show (∑ p ∈ range l.num, if l.base p = some k ∧ 1 ≤ (l.drop o).hand p then 1 else 0) + _ = _
  have hm : o ∈ range l.num := mem_range.2 (hi.base_lt hb)
  rw [← Finset.add_sum_erase _ _ hm, ← Finset.add_sum_erase (range l.num) (fun p => if l.base p = some k ∧ 1 ≤ l.hand p then 1 else 0) hm]
  have h1 : ∀ p ∈ (range l.num).erase o, (if l.base p = some k ∧ 1 ≤ (l.drop o).hand p then 1 else 0) =
      if l.base p = some k ∧ 1 ≤ l.hand p then 1 else 0 := fun p hp => by
    rw [drop_hand_ne (Finset.ne_of_mem_erase hp)]
  rw [sum_congr rfl h1, drop_hand_self, hb, ho]
  by_cases hk : k = b
  · subst hk
    simp
    omega
  · have : ¬ b = k := fun h => hk h.symm
    simp [hk, this]

theorem Inv.refuse_objs {g : Heap} (hi : Inv h l) (hn : g.next = h.next) (hbl : g.blocks = h.blocks)
    (hg : ∀ k, ObjOk (l.refuse o) k (g.objs k)) : Inv g (l.refuse o) :=
  ⟨hn.trans hi.next, hi.fresh, hi.base, hg, fun k => (congrFun hbl k).trans (hi.blocks k), hi.loans⟩

theorem refuse_mono (k : Nat) (hk : l.refused k = true) : (l.refuse o).refused k = true := by
  show Function.update l.refused _ true k = true
  by_cases h : k = l.orig o
  · subst h
    simp
  · rw [Function.update_of_ne h]
    exact hk

theorem refuse_self : (l.refuse o).refused (l.orig o) = true := by
  show Function.update l.refused _ true _ = true
  rw [Function.update_self]

theorem ObjOk.refuse {v : Option Obj} {k : Nat} (hv : ObjOk l k v) : ObjOk (l.refuse o) k v :=
  hv.congr rfl rfl rfl (refuse_mono _)

/-- An object after a refused destruction. -/
theorem ObjOk.refused {x : Obj} {k : Nat} (hx : ObjOk l k (some x)) (hc : l.cnt k = 1) (ho : l.orig k = l.orig o) :
    ObjOk (l.refuse o) k (some { x with refs := x.refs - 1 }) := by
  obtain ⟨h1, h2, h3, h4, h5⟩ := hx
  refine ⟨h1, h2, h3, h4, Or.inr ⟨?_, hc, ?_⟩⟩
  · show (l.refuse o).refused (l.orig k) = true
    rw [ho]
    exact refuse_self
  · show x.refs - 1 ≤ 0
    rcases h5 with h5 | h5 <;> omega

theorem ObjOk.more {x : Obj} (hx : ObjOk l o (some x)) (hc : l.cnt o ≠ 1) : x.refs - 1 > 0 ∧ x.refs = l.cnt o := by
  obtain ⟨h1, h2, h3, h4, h5⟩ := hx
  rcases h5 with h5 | h5
  · exact ⟨by omega, h5⟩
  · exact absurd h5.2.1 hc

theorem ObjOk.last {x : Obj} (hx : ObjOk l o (some x)) (hc : l.cnt o = 1) : ¬ x.refs - 1 > 0 := by
  obtain ⟨h1, h2, h3, h4, h5⟩ := hx
  rcases h5 with h5 | h5 <;> omega

theorem lent_zero_loan {i : Loan} (hi : i ∈ l.loans) : l.lent i.owner ≠ 0 := by
  unfold Ledger.lent
  intro h0
  have := (List.countP_eq_zero.1 h0) i hi
  simp at this

theorem lent_loan_ne {i : Loan} {k : Nat} (hi : i ∈ l.loans) (hk : l.lent k = 0) : i.owner ≠ k := by
  rintro rfl
  exact lent_zero_loan hi hk

/-- Destruction: done, or refused exactly when it has to wait. -/
theorem destroyObj_ok (f : Nat) (hi : Inv h l) (ho : 1 ≤ l.hand o) :
    (¬ l.busy o ∧ ∃ g, destroyObj (f + 2) o h = .ok g () ∧ Inv g (l.drop o)) ∨
    (l.busy o ∧ ∃ g, destroyObj (f + 2) o h = .err g .access ∧ Inv g (l.refuse o)) := by
  obtain ⟨x, hx, hok⟩ := hi.live (hand_cnt ho)
  have hnum := hi.lt_num (hand_cnt ho)
  by_cases hlast : l.cnt o = 1
  · have hr := hok.last hlast
    have hH : l.hand o = 1 := by
      unfold Ledger.cnt at hlast
      omega
    have hC : l.copies o = 0 := by
      unfold Ledger.cnt at hlast
      omega
    by_cases hlent : l.lent o = 0
    · have hrd : x.readers = 0 := by
        rw [hok.2.2.1, hlent]
        rfl
      cases hb : l.base o with
      | none =>
        have hbx : x.base = none := hok.1.trans hb
        have hdx : x.data = o := by
          rw [hok.2.1]
          simp [Ledger.orig, hb]
        have hblk := hi.block (hand_cnt ho)
        rw [← hok.2.1] at hblk
        refine Or.inl ⟨?_, _, destroyObj_orig hx hr hrd hbx hblk, ?_⟩
        · rintro ⟨-, h1 | ⟨b, h1, -⟩⟩
          · exact h1 hlent
          · simp [hb] at h1
        have hc : ∀ k, (l.drop o).copies k = l.copies k := drop_copies (Or.inl hb)
        have hcn : ∀ k, k ≠ o → (l.drop o).cnt k = l.cnt k := fun k hk => by
          unfold Ledger.cnt
          rw [hc, drop_hand_ne hk]
        have hco : (l.drop o).cnt o = 0 := by
          unfold Ledger.cnt
          rw [hc, drop_hand_self]
          omega
        refine ⟨hi.next, fun k hk => ?_, hi.base, fun k => ?_, fun k => ?_, fun i hm => ?_⟩
        · have hk' : l.num ≤ k := hk
          rw [drop_hand_ne (by omega)]
          exact hi.fresh k hk'
        · show ObjOk _ k (Function.update h.objs o none k)
          by_cases hk : k = o
          · subst hk
            rw [Function.update_self]
            exact hco
          · rw [Function.update_of_ne hk]
            exact (hi.objs k).congr (hcn k hk) rfl rfl id
        · show Function.update h.blocks x.data none k = _
          rw [hdx]
          by_cases hk : k = o
          · subst hk
            rw [Function.update_self, blkOk, if_neg]
            rw [hco]
            omega
          · rw [Function.update_of_ne hk, hi.blocks]
            exact (blkOk_congr (hcn k hk) rfl rfl).symm
        · have := hi.loans i hm
          rw [hcn _ (lent_loan_ne hm hlent)]
          exact this
      | some b =>
        have hbx : x.base = some b := hok.1.trans hb
        have hbo : b ≠ o := by
          rintro rfl
          have := (hi.base b b hb).2
          simp [hb] at this
        have hbb : l.base b = none := (hi.base o b hb).2
        have hcb := hi.copies_base hb ho
        have hcb1 : 1 ≤ l.cnt b := by
          unfold Ledger.cnt
          omega
        obtain ⟨y, hy, hoky⟩ := hi.live hcb1
        have hdrop := hi.drop_copy hb hH
        set h1 : Heap := { h with objs := Function.update h.objs o (some { x with refs := x.refs - 1 }) } with hh1
        have hy1 : h1.objs b = some y := by
          show Function.update h.objs o _ b = _
          rw [Function.update_of_ne hbo]
          exact hy
        have horig : l.orig o = b := by simp [Ledger.orig, hb]
        have horigb : l.orig b = b := by simp [Ledger.orig, hbb]
        rw [destroyObj_copy hx hr hrd hbx]
        have hcn : ∀ k, k ≠ o → k ≠ b → (l.drop o).cnt k = l.cnt k := fun k hk hkb => by
          have := hdrop k
          rw [if_neg hkb] at this
          unfold Ledger.cnt
          rw [drop_hand_ne hk]
          omega
        have hco : (l.drop o).cnt o = 0 := by
          have := hdrop o
          rw [if_neg (fun h => hbo h.symm)] at this
          unfold Ledger.cnt
          rw [drop_hand_self]
          omega
        have hcbd : (l.drop o).cnt b + 1 = l.cnt b := by
          have := hdrop b
          rw [if_pos rfl] at this
          unfold Ledger.cnt
          rw [drop_hand_ne hbo]
          omega
        by_cases hlb : l.cnt b = 1
        · have hrb := hoky.last hlb
          by_cases hlentb : l.lent b = 0
          · have hrdb : y.readers = 0 := by
              rw [hoky.2.2.1, hlentb]
              rfl
            have hdy : y.data = b := hoky.2.1.trans horigb
            have hblk : h1.blocks y.data = some (l.blk b) := by
              have := hi.block hcb1
              rw [horigb] at this
              rw [hdy]
              exact this
            rw [destroyObj_orig hy1 hrb hrdb (hoky.1.trans hbb) hblk]
            refine Or.inl ⟨?_, _, rfl, ?_⟩
            · rintro ⟨-, h1 | ⟨c, h1, -, h2⟩⟩
              · exact h1 hlent
              · rw [hb] at h1
                cases h1
                exact h2 hlentb
            refine ⟨hi.next, fun k hk => ?_, hi.base, fun k => ?_, fun k => ?_, fun i hm => ?_⟩
            · have hk' : l.num ≤ k := hk
              rw [drop_hand_ne (by omega)]
              exact hi.fresh k hk'
            · show ObjOk _ k (Function.update (Function.update (Function.update h.objs o _) b none) o none k)
              by_cases hk : k = o
              · subst hk
                rw [Function.update_self]
                exact hco
              · rw [Function.update_of_ne hk]
                by_cases hkb : k = b
                · subst hkb
                  rw [Function.update_self]
                  show (l.drop o).cnt k = 0
                  omega
                · rw [Function.update_of_ne hkb, Function.update_of_ne hk]
                  exact (hi.objs k).congr (hcn k hk hkb) rfl rfl id
            · show Function.update h.blocks y.data none k = _
              rw [hdy]
              by_cases hkb : k = b
              · subst hkb
                rw [Function.update_self, blkOk, if_neg]
                omega
              · rw [Function.update_of_ne hkb, hi.blocks]
                by_cases hk : k = o
                · subst hk
                  rw [blkOk, blkOk, if_neg, if_neg]
                  · rintro ⟨h1, -⟩
                    have h1' : l.base k = none := h1
                    simp [hb] at h1'
                  · rintro ⟨h1, -⟩
                    simp [hb] at h1
                · exact (blkOk_congr (hcn k hk hkb) rfl rfl).symm
            · have := hi.loans i hm
              rw [hcn _ (lent_loan_ne hm hlent) (lent_loan_ne hm hlentb)]
              exact this
          · have hrdb : y.readers ≠ 0 := by
              rw [hoky.2.2.1]
              exact_mod_cast hlentb
            rw [destroyObj_busy hy1 hrb hrdb]
            refine Or.inr ⟨⟨hlast, Or.inr ⟨b, hb, hlb, hlentb⟩⟩, _, rfl, hi.refuse_objs (o := o) rfl rfl fun k => ?_⟩
            show ObjOk _ k (Function.update (Function.update h.objs o _) b _ k)
            by_cases hkb : k = b
            · subst hkb
              rw [Function.update_self]
              exact hoky.refused hlb (by rw [horigb, horig])
            · rw [Function.update_of_ne hkb]
              by_cases hk : k = o
              · subst hk
                rw [Function.update_self]
                exact hok.refused hlast rfl
              · rw [Function.update_of_ne hk]
                exact (hi.objs k).refuse
        · obtain ⟨hmb, hrb⟩ := hoky.more hlb
          rw [destroyObj_more hy1 hmb]
          refine Or.inl ⟨?_, _, rfl, ?_⟩
          · rintro ⟨-, h1 | ⟨c, h1, h2, -⟩⟩
            · exact h1 hlent
            · rw [hb] at h1
              cases h1
              exact hlb h2
          refine ⟨hi.next, fun k hk => ?_, hi.base, fun k => ?_, fun k => ?_, fun i hm => ?_⟩
          · have hk' : l.num ≤ k := hk
            rw [drop_hand_ne (by omega)]
            exact hi.fresh k hk'
          · show ObjOk _ k (Function.update (Function.update (Function.update h.objs o _) b _) o none k)
            by_cases hk : k = o
            · subst hk
              rw [Function.update_self]
              exact hco
            · rw [Function.update_of_ne hk]
              by_cases hkb : k = b
              · subst hkb
                rw [Function.update_self]
                obtain ⟨h1, h2, h3, h4, h5⟩ := hoky
                refine ⟨h1, h2, h3, by omega, Or.inl ?_⟩
                show y.refs - 1 = _
                omega
              · rw [Function.update_of_ne hkb, Function.update_of_ne hk]
                exact (hi.objs k).congr (hcn k hk hkb) rfl rfl id
          · show h.blocks k = _
            rw [hi.blocks]
            by_cases hk : k = o
            · subst hk
              rw [blkOk, blkOk, if_neg, if_neg]
              · rintro ⟨h1, -⟩
                have h1' : l.base k = none := h1
                simp [hb] at h1'
              · rintro ⟨h1, -⟩
                simp [hb] at h1
            · by_cases hkb : k = b
              · subst hkb
                rw [blkOk, blkOk, if_pos ⟨hbb, hcb1⟩, if_pos]
                · rfl
                · exact ⟨hbb, by omega⟩
              · exact (blkOk_congr (hcn k hk hkb) rfl rfl).symm
          · have := hi.loans i hm
            refine ⟨?_, this.2⟩
            by_cases hkb : i.owner = b
            · rw [hkb]
              omega
            · rw [hcn _ (lent_loan_ne hm hlent) hkb]
              exact this.1
    · have hrd : x.readers ≠ 0 := by
        rw [hok.2.2.1]
        exact_mod_cast hlent
      refine Or.inr ⟨⟨hlast, Or.inl hlent⟩, _, destroyObj_busy hx hr hrd, hi.refuse_objs (o := o) rfl rfl fun k => ?_⟩
      show ObjOk _ k (Function.update h.objs o _ k)
      by_cases hk : k = o
      · subst hk
        rw [Function.update_self]
        exact hok.refused hlast rfl
      · rw [Function.update_of_ne hk]
        exact (hi.objs k).refuse
  · obtain ⟨hr, hrefs⟩ := hok.more hlast
    refine Or.inl ⟨fun hb => hlast hb.1, _, destroyObj_more hx hr, ?_⟩
    have hc : ∀ k, (l.drop o).copies k = l.copies k := drop_copies (by
      cases hb : l.base o with
      | none => exact Or.inl rfl
      | some b =>
        have := hi.copies_copy hb
        unfold Ledger.cnt at hlast
        exact Or.inr (by omega))
    have hcn : ∀ k, k ≠ o → (l.drop o).cnt k = l.cnt k := fun k hk => by
      unfold Ledger.cnt
      rw [hc, drop_hand_ne hk]
    have hco : (l.drop o).cnt o + 1 = l.cnt o := by
      unfold Ledger.cnt
      rw [hc, drop_hand_self]
      omega
    have h1 : 1 ≤ (l.drop o).cnt o := by
      have := hand_cnt ho
      omega
    refine ⟨hi.next, fun k hk => ?_, hi.base, fun k => ?_, fun k => ?_, fun i hm => ?_⟩
    · have hk' : l.num ≤ k := hk
      rw [drop_hand_ne (by omega)]
      exact hi.fresh k hk'
    · show ObjOk _ k (Function.update h.objs o _ k)
      by_cases hk : k = o
      · subst hk
        rw [Function.update_self]
        obtain ⟨h2, h3, h4, h5, h6⟩ := hok
        refine ⟨h2, h3, h4, h1, Or.inl ?_⟩
        show x.refs - 1 = _
        omega
      · rw [Function.update_of_ne hk]
        exact (hi.objs k).congr (hcn k hk) rfl rfl id
    · show h.blocks k = _
      rw [hi.blocks]
      by_cases hk : k = o
      · subst hk
        unfold blkOk
        simp only [h1, hand_cnt ho, and_true]
        rfl
      · exact (blkOk_congr (hcn k hk) rfl rfl).symm
    · have := hi.loans i hm
      refine ⟨?_, this.2⟩
      by_cases hk : i.owner = o
      · rw [hk]
        exact h1
      · rw [hcn _ hk]
        exact this.1

theorem destroy_ok (hi : Inv h l) (ho : 1 ≤ l.hand o) :
    (¬ l.busy o ∧ ∃ g, exec (.destroy o) h = .ok g 0 ∧ Inv g (l.drop o)) ∨
    (l.busy o ∧ ∃ g, exec (.destroy o) h = .err g .access ∧ Inv g (l.refuse o)) := by
  obtain ⟨f, hf⟩ : ∃ f, h.next + 1 = f + 2 := ⟨h.next - 1, by
    have h1 := hi.next
    have h2 := hi.lt_num (hand_cnt ho)
    omega⟩
  have he : exec (.destroy o) h = (destroyObj (f + 2) o h).bind fun h _ => .ok h 0 := by
    rw [← hf]
    rfl
  rcases destroyObj_ok f hi ho with ⟨h1, g, h2, h3⟩ | ⟨h1, g, h2, h3⟩
  · exact Or.inl ⟨h1, g, by rw [he, h2]; rfl, h3⟩
  · exact Or.inr ⟨h1, g, by rw [he, h2]; rfl, h3⟩

/-! ## The other calls -/

theorem Inv.init : Inv Heap.init Ledger.init := by
  have hc : ∀ o, Ledger.init.copies o = 0 := fun o => by simp [Ledger.copies, Ledger.init]
  refine ⟨rfl, fun o _ => ⟨rfl, rfl⟩, fun o b h => by simp [Ledger.init] at h, fun o => ?_, fun o => ?_, fun i hi => by simp [Ledger.init] at hi⟩
  · show Ledger.init.cnt o = 0
    unfold Ledger.cnt
    rw [hc]
    rfl
  · rw [blkOk, if_neg]
    · rfl
    · rintro ⟨-, h1⟩
      unfold Ledger.cnt at h1
      rw [hc] at h1
      simp [Ledger.init] at h1

/-- The books with a new restriction. -/
def Ledger.add (l : Ledger) (b : Option Nat) (k : Nat → Block) : Ledger :=
  { l with num := l.num + 1, hand := Function.update l.hand l.num 1, base := Function.update l.base l.num b, blk := k }

theorem Inv.add_copies (hi : Inv h l) (c : Option Nat) (k : Nat → Block) (p : Nat) :
    (l.add c k).copies p = l.copies p + if c = some p then 1 else 0 := by
  unfold Ledger.copies
  show (∑ q ∈ range (l.num + 1), if Function.update l.base l.num c q = some p ∧ 1 ≤ Function.update l.hand l.num 1 q then 1 else 0) = _
  rw [sum_range_succ]
  congr 1
  · refine sum_congr rfl fun q hq => ?_
    have : q ≠ l.num := by
      have := mem_range.1 hq
      omega
    rw [Function.update_of_ne this, Function.update_of_ne this]
  · simp

theorem Inv.lent_fresh (hi : Inv h l) (ho : l.num ≤ o) : l.lent o = 0 := by
  unfold Ledger.lent
  rw [List.countP_eq_zero]
  intro i hm
  have h1 := hi.lt_num (hi.loans i hm).1
  simp only [decide_eq_true_eq]
  omega

theorem create_ok (hi : Inv h l) (c : Block) :
    ∃ g, exec (.create c) h = .ok g l.num ∧ Inv g (l.succeeded l.num (.create c)) := by
  have hn := hi.next
  refine ⟨_, by show Out.ok _ h.next = _; rw [hn], ?_⟩
  show Inv _ (l.add none (Function.update l.blk l.num c))
  have hcp : ∀ p, (l.add none (Function.update l.blk l.num c)).copies p = l.copies p := fun p => by
    rw [hi.add_copies]
    simp
  have hcn : ∀ p, p ≠ l.num → (l.add none (Function.update l.blk l.num c)).cnt p = l.cnt p := fun p hp => by
    unfold Ledger.cnt
    rw [hcp]
    show Function.update l.hand l.num 1 p + _ = _
    rw [Function.update_of_ne hp]
  have hbn : ∀ p, p ≠ l.num → (l.add none (Function.update l.blk l.num c)).base p = l.base p := fun p hp => by
    show Function.update l.base l.num none p = _
    rw [Function.update_of_ne hp]
  have hb0 : (l.add none (Function.update l.blk l.num c)).base l.num = none := by
    show Function.update l.base l.num none l.num = _
    rw [Function.update_self]
  have hc0 : (l.add none (Function.update l.blk l.num c)).cnt l.num = 1 := by
    unfold Ledger.cnt
    rw [hcp, hi.copies_fresh le_rfl]
    show Function.update l.hand l.num 1 l.num + 0 = 1
    rw [Function.update_self]
  have hl : ∀ p, p < l.num → (l.add none (Function.update l.blk l.num c)).orig p = l.orig p := fun p hp => by
    unfold Ledger.orig
    rw [hbn p (by omega)]
  refine ⟨rfl, fun k hk => ?_, fun k b hb => ?_, fun k => ?_, fun k => ?_, fun i hm => ?_⟩
  · have hk' : l.num + 1 ≤ k := hk
    have hne : k ≠ l.num := by omega
    rw [hbn k hne]
    show Function.update l.hand l.num 1 k = 0 ∧ _
    rw [Function.update_of_ne hne]
    exact hi.fresh k (by omega)
  · by_cases hk : k = l.num
    · subst hk
      rw [hb0] at hb
      simp at hb
    · rw [hbn k hk] at hb
      have := hi.base k b hb
      rw [hbn b (by omega)]
      exact ⟨Nat.lt_succ_of_lt this.1, this.2⟩
  · show ObjOk _ k (Function.update h.objs l.num _ k)
    by_cases hk : k = l.num
    · subst hk
      rw [Function.update_self]
      refine ⟨hb0.symm, ?_, ?_, by rw [hc0], Or.inl ?_⟩
      · unfold Ledger.orig
        rw [hb0]
        rfl
      · show (0 : Int) = (l.lent l.num : Nat)
        rw [hi.lent_fresh le_rfl]
        rfl
      · rw [hc0]
        rfl
    · rw [Function.update_of_ne hk]
      exact (hi.objs k).congr (hcn k hk) (hbn k hk) rfl id
  · show Function.update h.blocks l.num _ k = _
    by_cases hk : k = l.num
    · subst hk
      rw [Function.update_self, blkOk, if_pos ⟨hb0, by rw [hc0]⟩]
      show _ = some (Function.update l.blk l.num c l.num)
      rw [Function.update_self]
    · rw [Function.update_of_ne hk, hi.blocks]
      refine (blkOk_congr (hcn k hk) (hbn k hk) ?_).symm
      show Function.update l.blk l.num c k = _
      rw [Function.update_of_ne hk]
  · have h1 := hi.loans i hm
    have h2 := hi.lt_num h1.1
    rw [hcn _ (by omega), hl _ h2]
    exact h1

theorem copy_ok (hi : Inv h l) (hl : Legal l (.copy o)) :
    ∃ g, exec (.copy o) h = .ok g l.num ∧ Inv g (l.succeeded l.num (.copy o)) := by
  obtain ⟨ho, hbo, hlent, href⟩ := hl
  have hn := hi.next
  obtain ⟨x, hx, hok⟩ := hi.live (hand_cnt ho)
  have hlt := hi.lt_num (hand_cnt ho)
  have hne : o ≠ h.next := by omega
  have hxb : x.base = none := hok.1.trans hbo
  have horig : l.orig o = o := by simp [Ledger.orig, hbo]
  have hrefs : x.refs = l.cnt o := by
    rcases hok.2.2.2.2 with h5 | h5
    · exact h5
    · rw [horig, href] at h5
      simp at h5
  refine ⟨⟨Function.update (Function.update (Function.update h.objs h.next (some { x with refs := 1, base := none })) o
    (some { x with refs := x.refs + 1 })) h.next (some { x with refs := 1, base := some o }), h.blocks, h.next + 1⟩, ?_, ?_⟩
  · simp only [exec, copy, clone, M.bind_apply, getO_ok hx, Out.bind_ok, referenceCopy, reference, hxb, destroy, M.pure_apply]
    rw [getO_ok (x := x)]
    · simp only [Out.bind_ok, putO]
      rw [getO_ok (x := { x with refs := 1, base := none })]
      · simp only [Out.bind_ok, hn, hxb]
      · show Function.update (Function.update h.objs h.next _) o _ h.next = _
        rw [Function.update_of_ne hne.symm, Function.update_self]
    · show Function.update h.objs h.next _ o = _
      rw [Function.update_of_ne hne, hx]
  · show Inv _ (l.add (some o) l.blk)
    set m := l.add (some o) l.blk with hm
    have hcp : ∀ p, m.copies p = l.copies p + if o = p then 1 else 0 := fun p => by
      rw [hm, hi.add_copies]
      simp
    have hcn : ∀ p, p ≠ l.num → p ≠ o → m.cnt p = l.cnt p := fun p hp hpo => by
      unfold Ledger.cnt
      rw [hcp, if_neg (Ne.symm hpo)]
      show Function.update l.hand l.num 1 p + _ = _
      rw [Function.update_of_ne hp]
      rfl
    have hco : m.cnt o = l.cnt o + 1 := by
      unfold Ledger.cnt
      rw [hcp, if_pos rfl]
      show Function.update l.hand l.num 1 o + _ = _
      rw [Function.update_of_ne (by omega)]
      omega
    have hbn : ∀ p, p ≠ l.num → m.base p = l.base p := fun p hp => by
      show Function.update l.base l.num _ p = _
      rw [Function.update_of_ne hp]
    have hb0 : m.base l.num = some o := by
      show Function.update l.base l.num _ l.num = _
      rw [Function.update_self]
    have hc0 : m.cnt l.num = 1 := by
      unfold Ledger.cnt
      rw [hcp, hi.copies_fresh le_rfl, if_neg (by omega)]
      show Function.update l.hand l.num 1 l.num + _ = 1
      rw [Function.update_self]
    have hog : ∀ p, p < l.num → m.orig p = l.orig p := fun p hp => by
      unfold Ledger.orig
      rw [hbn p (by omega)]
    refine ⟨by show h.next + 1 = l.num + 1; omega, fun k hk => ?_, fun k b hb => ?_, fun k => ?_, fun k => ?_, fun i hm => ?_⟩
    · have hk' : l.num + 1 ≤ k := hk
      have hne : k ≠ l.num := by omega
      rw [hbn k hne]
      show Function.update l.hand l.num 1 k = 0 ∧ _
      rw [Function.update_of_ne hne]
      exact hi.fresh k (by omega)
    · by_cases hk : k = l.num
      · subst hk
        rw [hb0] at hb
        cases hb
        rw [hbn o (by omega)]
        exact ⟨Nat.lt_succ_of_lt hlt, hbo⟩
      · rw [hbn k hk] at hb
        have := hi.base k b hb
        rw [hbn b (by omega)]
        exact ⟨Nat.lt_succ_of_lt this.1, this.2⟩
    · show ObjOk _ k (Function.update (Function.update (Function.update h.objs h.next _) o _) h.next _ k)
      rw [hn]
      by_cases hk : k = l.num
      · subst hk
        rw [Function.update_self]
        refine ⟨hb0.symm, ?_, ?_, by rw [hc0], Or.inl ?_⟩
        · show x.data = _
          unfold Ledger.orig
          rw [hb0, hok.2.1, horig]
          rfl
        · show x.readers = (l.lent l.num : Nat)
          rw [hi.lent_fresh le_rfl, hok.2.2.1, hlent]
        · rw [hc0]
          rfl
      · rw [Function.update_of_ne hk]
        by_cases hko : k = o
        · subst hko
          rw [Function.update_self]
          obtain ⟨h1, h2, h3, h4, h5⟩ := hok
          refine ⟨by rw [hbn k hk]; exact h1, by rw [hog k hlt]; exact h2, h3, by omega, Or.inl ?_⟩
          show x.refs + 1 = _
          rw [hco, hrefs]
          push_cast
          rfl
        · rw [Function.update_of_ne hko, Function.update_of_ne hk]
          exact (hi.objs k).congr (hcn k hk hko) (hbn k hk) rfl id
    · show h.blocks k = _
      rw [hi.blocks]
      by_cases hk : k = l.num
      · subst hk
        rw [blkOk, blkOk, if_neg, if_neg]
        · rintro ⟨h1, -⟩
          rw [hb0] at h1
          simp at h1
        · rintro ⟨-, h1⟩
          have := hi.lt_num h1
          omega
      · by_cases hko : k = o
        · subst hko
          rw [blkOk, blkOk, if_pos ⟨hbo, hand_cnt ho⟩, if_pos]
          · rfl
          · exact ⟨by rw [hbn k hk]; exact hbo, by omega⟩
        · exact (blkOk_congr (hcn k hk hko) (hbn k hk) rfl).symm
    · have h1 := hi.loans i hm
      have h2 := hi.lt_num h1.1
      rw [hog _ h2]
      refine ⟨?_, h1.2⟩
      by_cases hio : i.owner = o
      · rw [hio, hco]
        omega
      · rw [hcn _ (by omega) hio]
        exact h1.1

theorem refCopy_ok {old : Option Nat} (hi : Inv h l) (hl : Legal l (.refCopy o old)) :
    ∃ g, exec (.refCopy o old) h = .ok g o ∧ Inv g (l.succeeded o (.refCopy o old)) := by
  obtain ⟨ho, href, rfl⟩ := hl
  obtain ⟨x, hx, hok⟩ := hi.live (hand_cnt ho)
  have hlt := hi.lt_num (hand_cnt ho)
  have hrefs : x.refs = l.cnt o := by
    rcases hok.2.2.2.2 with h5 | h5
    · exact h5
    · rw [href] at h5
      simp at h5
  refine ⟨{ h with objs := Function.update h.objs o (some { x with refs := x.refs + 1 }) }, ?_, ?_⟩
  · simp only [exec, referenceCopy, reference, M.bind_apply, getO_ok hx, Out.bind_ok, putO, destroy, M.pure_apply]
  show Inv _ { l with hand := Function.update l.hand o (l.hand o + 1) }
  set m : Ledger := { l with hand := Function.update l.hand o (l.hand o + 1) } with hm
  have hhn : ∀ p, p ≠ o → m.hand p = l.hand p := fun p hp => by
    show Function.update l.hand o _ p = _
    rw [Function.update_of_ne hp]
  have hho : m.hand o = l.hand o + 1 := by
    show Function.update l.hand o _ o = _
    rw [Function.update_self]
  have hcp : ∀ p, m.copies p = l.copies p := fun p => copies_congr rfl rfl fun q _ => by
    by_cases hq : q = o
    · subst hq
      rw [hho]
      omega
    · rw [hhn q hq]
  have hcn : ∀ p, p ≠ o → m.cnt p = l.cnt p := fun p hp => by
    unfold Ledger.cnt
    rw [hcp, hhn p hp]
  have hco : m.cnt o = l.cnt o + 1 := by
    unfold Ledger.cnt
    rw [hcp, hho]
    omega
  refine ⟨hi.next, fun k hk => ?_, hi.base, fun k => ?_, fun k => ?_, fun i hm => ?_⟩
  · have hk' : l.num ≤ k := hk
    rw [hhn k (by omega)]
    exact hi.fresh k hk'
  · show ObjOk _ k (Function.update h.objs o _ k)
    by_cases hk : k = o
    · subst hk
      rw [Function.update_self]
      obtain ⟨h1, h2, h3, h4, h5⟩ := hok
      refine ⟨h1, h2, h3, by omega, Or.inl ?_⟩
      show x.refs + 1 = _
      rw [hco, hrefs]
      push_cast
      rfl
    · rw [Function.update_of_ne hk]
      exact (hi.objs k).congr (hcn k hk) rfl rfl id
  · show h.blocks k = _
    rw [hi.blocks]
    by_cases hk : k = o
    · subst hk
      have h1 : 1 ≤ m.cnt k := by omega
      unfold blkOk
      simp only [h1, hand_cnt ho, and_true]
      rfl
    · exact (blkOk_congr (hcn k hk) rfl rfl).symm
  · have h1 := hi.loans i hm
    refine ⟨?_, h1.2⟩
    by_cases hk : i.owner = o
    · rw [hk]
      omega
    · rw [hcn _ hk]
      exact h1.1

/-- Only the loans and the number of readers of one object change. -/
theorem Inv.loans_change {x : Obj} {k : Nat} {ls : List Loan} {r : Int} (hi : Inv h l) (hx : h.objs k = some x)
    (hlk : r = (ls.countP (fun i => i.owner = k) : Nat)) (hlo : ∀ p, p ≠ k → ls.countP (fun i => i.owner = p) = l.lent p)
    (hls : ∀ i ∈ ls, 1 ≤ l.cnt i.owner ∧ i.ptr = l.orig i.owner) :
    Inv { h with objs := Function.update h.objs k (some { x with readers := r }) } { l with loans := ls } := by
  refine ⟨hi.next, hi.fresh, hi.base, fun p => ?_, hi.blocks, hls⟩
  show ObjOk _ p (Function.update h.objs k _ p)
  by_cases hp : p = k
  · subst hp
    rw [Function.update_self]
    have := hi.objs p
    rw [hx] at this
    obtain ⟨h1, h2, h3, h4, h5⟩ := this
    exact ⟨h1, h2, hlk, h4, h5⟩
  · rw [Function.update_of_ne hp]
    exact (hi.objs p).congr rfl rfl (hlo p hp) id

theorem getOffsets_eq (hi : Inv h l) (ho : 1 ≤ l.hand o) (f : Nat) (host : Bool) :
    getOffsets (f + 2) o host h = getOrients (l.orig o) host h := by
  have hog := hi.cnt_orig (hand_cnt ho)
  obtain ⟨y, hy, hoky⟩ := hi.live hog.1
  have hyb : y.base = none := hoky.1.trans hog.2
  have key : ∀ f, getOffsets (f + 1) (l.orig o) host h = getOrients (l.orig o) host h := fun f => by
    simp only [getOffsets, getOrients, M.bind_apply, getO_ok hy, Out.bind_ok, hyb]
  cases hb : l.base o with
  | none =>
    have : l.orig o = o := by simp [Ledger.orig, hb]
    rw [this] at key ⊢
    exact key _
  | some b =>
    have hob : l.orig o = b := by simp [Ledger.orig, hb]
    obtain ⟨x, hx, hok⟩ := hi.live (hand_cnt ho)
    have hxb : x.base = some b := hok.1.trans hb
    rw [hob] at key ⊢
    rw [← key f]
    conv_lhs => rw [getOffsets]
    simp only [M.bind_apply, getO_ok hx, Out.bind_ok, hxb]

theorem restoreOffsets_eq (hi : Inv h l) (ho : 1 ≤ l.hand o) (f : Nat) :
    restoreOffsets (f + 2) o h = restoreOrients (l.orig o) h := by
  have hog := hi.cnt_orig (hand_cnt ho)
  obtain ⟨y, hy, hoky⟩ := hi.live hog.1
  have hyb : y.base = none := hoky.1.trans hog.2
  have key : ∀ f, restoreOffsets (f + 1) (l.orig o) h = restoreOrients (l.orig o) h := fun f => by
    simp only [restoreOffsets, restoreOrients, M.bind_apply, getO_ok hy, Out.bind_ok, hyb]
  cases hb : l.base o with
  | none =>
    have : l.orig o = o := by simp [Ledger.orig, hb]
    rw [this] at key ⊢
    exact key _
  | some b =>
    have hob : l.orig o = b := by simp [Ledger.orig, hb]
    obtain ⟨x, hx, hok⟩ := hi.live (hand_cnt ho)
    have hxb : x.base = some b := hok.1.trans hb
    rw [hob] at key ⊢
    rw [← key f]
    conv_lhs => rw [restoreOffsets]
    simp only [M.bind_apply, getO_ok hx, Out.bind_ok, hxb]

theorem Inv.fuel (hi : Inv h l) (ho : 1 ≤ l.hand o) : ∃ f, h.next + 1 = f + 2 := ⟨h.next - 1, by
  have h1 := hi.next
  have h2 := hi.lt_num (hand_cnt ho)
  omega⟩

theorem get_eq (hi : Inv h l) (ho : 1 ≤ l.hand o) (k : Kind) (host : Bool) : exec (.get k host o) h = getOrients (l.lender k o) host h := by
  obtain ⟨f, hf⟩ := hi.fuel ho
  cases k with
  | offsets =>
    show getOffsets (h.next + 1) o host h = _
    rw [hf]
    exact getOffsets_eq hi ho f host
  | orients => rfl
  | curlOrients => rfl

theorem restore_eq (hi : Inv h l) (ho : 1 ≤ l.hand o) (k : Kind) :
    exec (.restore k o) h = (restoreOrients (l.lender k o) h).bind fun h _ => .ok h 0 := by
  obtain ⟨f, hf⟩ := hi.fuel ho
  cases k with
  | offsets =>
    show (restoreOffsets (h.next + 1) o h).bind _ = _
    rw [hf, restoreOffsets_eq hi ho f]
    rfl
  | orients => rfl
  | curlOrients => rfl

theorem Inv.lender_orig (hi : Inv h l) (k : Kind) (o : Nat) : l.orig (l.lender k o) = l.orig o := by
  cases k with
  | offsets =>
    show l.orig (l.orig o) = l.orig o
    cases hb : l.base o with
    | none => simp [Ledger.orig, hb]
    | some b =>
      have := (hi.base o b hb).2
      simp [Ledger.orig, hb, this]
  | orients => rfl
  | curlOrients => rfl

theorem Inv.lender_cnt (hi : Inv h l) (ho : 1 ≤ l.hand o) (k : Kind) : 1 ≤ l.cnt (l.lender k o) := by
  cases k with
  | offsets => exact (hi.cnt_orig (hand_cnt ho)).1
  | orients => exact hand_cnt ho
  | curlOrients => exact hand_cnt ho

theorem get_ok (hi : Inv h l) (ho : 1 ≤ l.hand o) (k : Kind) :
    ∃ g, exec (.get k true o) h = .ok g (l.orig o) ∧ Inv g (l.succeeded (l.orig o) (.get k true o)) := by
  have hc := hi.lender_cnt ho k
  obtain ⟨x, hx, hok⟩ := hi.live hc
  have hd : x.data = l.orig o := hok.2.1.trans (hi.lender_orig k o)
  have hb : h.blocks x.data = some (l.blk (l.orig o)) := by
    rw [hd]
    exact hi.block (hand_cnt ho)
  refine ⟨{ h with objs := Function.update h.objs (l.lender k o) (some { x with readers := x.readers + 1 }) }, ?_, ?_⟩
  · rw [get_eq hi ho]
    simp only [getOrients, M.bind_apply, getO_ok hx, Out.bind_ok]
    rw [M.check_true (by trivial), Out.bind_ok, getB_ok hb]
    simp only [Out.bind_ok, putO, M.pure_apply, hd]
  · refine hi.loans_change hx ?_ ?_ ?_
    · rw [List.countP_cons, hok.2.2.1]
      simp [Ledger.lent]
    · intro p hp
      rw [List.countP_cons]
      simp [Ledger.lent, Ne.symm hp]
    · intro i hm
      rcases List.mem_cons.1 hm with rfl | hm
      · exact ⟨hc, (hi.lender_orig k o).symm⟩
      · exact hi.loans i hm

theorem get_device (hi : Inv h l) (ho : 1 ≤ l.hand o) (k : Kind) : exec (.get k false o) h = .err h .backend := by
  obtain ⟨x, hx, hok⟩ := hi.live (hi.lender_cnt ho k)
  rw [get_eq hi ho]
  simp only [getOrients, M.bind_apply, getO_ok hx, Out.bind_ok]
  rw [M.check_false (by simp)]
  rfl

theorem restore_ok {k : Kind} (hi : Inv h l) (hl : Legal l (.restore k o)) :
    ∃ g, exec (.restore k o) h = .ok g 0 ∧ Inv g (l.succeeded 0 (.restore k o)) := by
  obtain ⟨ho, hm⟩ := hl
  have hc := hi.lender_cnt ho k
  obtain ⟨x, hx, hok⟩ := hi.live hc
  refine ⟨{ h with objs := Function.update h.objs (l.lender k o) (some { x with readers := x.readers - 1 }) }, ?_, ?_⟩
  · rw [restore_eq hi ho]
    simp only [restoreOrients, M.bind_apply, getO_ok hx, Out.bind_ok, putO]
  · have hperm := List.perm_cons_erase hm
    have hcount : ∀ p, l.lent p = (l.loans.erase ⟨l.lender k o, l.orig o, k⟩).countP (fun i => i.owner = p) + if l.lender k o = p then 1 else 0 := fun p => by
      unfold Ledger.lent
      rw [hperm.countP_eq, List.countP_cons]
      simp
    refine hi.loans_change hx ?_ ?_ fun i hi' => hi.loans i (List.mem_of_mem_erase hi')
    · rw [hok.2.2.1, hcount, if_pos rfl]
      push_cast
      omega
    · intro p hp
      rw [hcount, if_neg (Ne.symm hp)]
      rfl

theorem use_eq (hi : Inv h l) (ho : 1 ≤ l.hand o) : useObj o h = .ok h (l.blk (l.orig o)) := by
  obtain ⟨x, hx, hok⟩ := hi.live (hand_cnt ho)
  have hb := hi.block (hand_cnt ho)
  rw [← hok.2.1] at hb
  simp only [useObj, M.bind_apply, getO_ok hx, Out.bind_ok]
  rw [getB_ok hb, hok.2.1]

theorem use_ok (hi : Inv h l) (ho : 1 ≤ l.hand o) : exec (.use o) h = .ok h 0 := by
  simp only [exec, M.bind_apply, use_eq hi ho, Out.bind_ok, M.pure_apply]

/-! ## Histories -/

/-- A legal call: it succeeds, or reports the error that the books predict; and the books stay right. -/
theorem step {c : Call} (hi : Inv h l) (hl : Legal l c) :
    (∃ g r, exec c h = .ok g r ∧ Inv g (l.succeeded r c) ∧
      (∀ o, c = .destroy o → ¬ l.busy o) ∧ (∀ k host o, c = .get k host o → host = true ∧ r = l.orig o)) ∨
    (∃ g e, exec c h = .err g e ∧ Inv g (l.failed c) ∧
      ((∃ o, c = .destroy o ∧ l.busy o ∧ e = .access) ∨ ∃ k o, c = .get k false o ∧ e = .backend)) := by
  cases c with
  | create b =>
    obtain ⟨g, h1, h2⟩ := create_ok hi b
    exact Or.inl ⟨g, _, h1, h2, by simp, by simp⟩
  | copy o =>
    obtain ⟨g, h1, h2⟩ := copy_ok hi hl
    exact Or.inl ⟨g, _, h1, h2, by simp, by simp⟩
  | refCopy o old =>
    obtain ⟨g, h1, h2⟩ := refCopy_ok hi hl
    exact Or.inl ⟨g, _, h1, h2, by simp, by simp⟩
  | get k host o =>
    cases host with
    | false => exact Or.inr ⟨h, _, get_device hi hl k, hi, Or.inr ⟨k, o, rfl, rfl⟩⟩
    | true =>
      obtain ⟨g, h1, h2⟩ := get_ok hi hl k
      refine Or.inl ⟨g, _, h1, h2, by simp, fun k' host' o' he => ?_⟩
      cases he
      exact ⟨rfl, rfl⟩
  | restore k o =>
    obtain ⟨g, h1, h2⟩ := restore_ok hi hl
    exact Or.inl ⟨g, _, h1, h2, by simp, by simp⟩
  | destroy o =>
    rcases destroy_ok hi hl with ⟨h1, g, h2, h3⟩ | ⟨h1, g, h2, h3⟩
    · refine Or.inl ⟨g, _, h2, h3, fun o' he => ?_, by simp⟩
      cases he
      exact h1
    · exact Or.inr ⟨g, _, h2, h3, Or.inl ⟨o, rfl, h1, rfl⟩⟩
  | use o => exact Or.inl ⟨h, _, use_ok hi hl, hi, by simp, by simp⟩

theorem reach_inv (hr : Reach h l) : Inv h l := by
  induction hr with
  | init => exact Inv.init
  | ok _ hl he ih =>
    rcases step ih hl with ⟨g, r, h1, h2, -⟩ | ⟨g, e, h1, -⟩
    · rw [he] at h1
      cases h1
      exact h2
    · rw [he] at h1
      cases h1
  | err _ hl he ih =>
    rcases step ih hl with ⟨g, r, h1, -⟩ | ⟨g, e, h1, h2, -⟩
    · rw [he] at h1
      cases h1
    · rw [he] at h1
      cases h1
      exact h2

/-! ## The property -/

/-- No legal call, after any history, has undefined behaviour. -/
theorem C74_defined_partial {c : Call} (hr : Reach h l) (hl : Legal l c) : exec c h ≠ .ub := by
  rcases step (reach_inv hr) hl with ⟨g, r, h1, -⟩ | ⟨g, e, h1, -⟩ <;> rw [h1] <;> simp

/-- A legal call returns an error exactly in two cases: an array is asked for on the device, or a destruction has to wait. -/
theorem C74_errors_partial {c : Call} {e : Err} (hr : Reach h l) (hl : Legal l c) :
    (∃ g, exec c h = .err g e) ↔ (∃ o, c = .destroy o ∧ l.busy o ∧ e = .access) ∨ ∃ k o, c = .get k false o ∧ e = .backend := by
  rcases step (reach_inv hr) hl with ⟨g, r, h1, -, h2, h3⟩ | ⟨g, e', h1, -, h2⟩
  · rw [h1]
    constructor
    · rintro ⟨g', hg⟩
      cases hg
    · rintro (⟨o, h4, h5, -⟩ | ⟨k, o, h4, -⟩)
      · exact absurd h5 (h2 o h4)
      · have := (h3 k false o h4).1
        simp at this
  · rw [h1]
    constructor
    · rintro ⟨g', hg⟩
      cases hg
      exact h2
    · intro h4
      refine ⟨g, ?_⟩
      rcases h2 with ⟨o, h2, -, h3⟩ | ⟨k, o, h2, h3⟩ <;> rcases h4 with ⟨o', h4, -, h5⟩ | ⟨k', o', h4, h5⟩
      · rw [h3, h5]
      · rw [h2] at h4
        cases h4
      · rw [h2] at h4
        cases h4
      · rw [h3, h5]

/-- A borrowed array holds what was given when the original restriction was made, until it is given back. -/
theorem C74_borrowed_partial (hr : Reach h l) {i : Loan} (hi : i ∈ l.loans) :
    readPtr i.ptr i.kind h = .ok h (l.blk (l.orig i.owner) i.kind) := by
  have hI := reach_inv hr
  obtain ⟨h1, h2⟩ := hI.loans i hi
  simp only [readPtr, M.bind_apply]
  rw [h2, getB_ok (hI.block h1)]
  rfl

/-- A restriction or copy to which the user holds a reference works with the arrays given when the original was made. -/
theorem C74_use_partial (hr : Reach h l) (ho : 1 ≤ l.hand o) : useObj o h = .ok h (l.blk (l.orig o)) :=
  use_eq (reach_inv hr) ho

/-- What is allocated: a restriction exactly while the user holds a reference to it or to a copy of it, its arrays exactly while it is. -/
theorem C74_alive_partial (hr : Reach h l) (o : Nat) :
    (h.objs o ≠ none ↔ 1 ≤ l.hand o ∨ ∃ p, l.base p = some o ∧ 1 ≤ l.hand p) ∧
      (h.blocks o ≠ none ↔ l.base o = none ∧ (1 ≤ l.hand o ∨ ∃ p, l.base p = some o ∧ 1 ≤ l.hand p)) := by
  have hI := reach_inv hr
  have hc : 1 ≤ l.cnt o ↔ 1 ≤ l.hand o ∨ ∃ p, l.base p = some o ∧ 1 ≤ l.hand p := by
    constructor
    · intro h1
      by_contra hc
      rw [not_or, not_exists] at hc
      have : l.copies o = 0 := by
        unfold Ledger.copies
        exact sum_eq_zero fun p _ => if_neg (hc.2 p)
      unfold Ledger.cnt at h1
      omega
    · rintro (h1 | ⟨p, h1, h2⟩)
      · exact hand_cnt h1
      · have := hI.copies_base h1 h2
        unfold Ledger.cnt
        omega
  rw [← hc]
  constructor
  · have := hI.objs o
    cases hx : h.objs o with
    | none =>
      rw [hx] at this
      have h0 : l.cnt o = 0 := this
      simp
      omega
    | some x =>
      rw [hx] at this
      simp [this.2.2.2.1]
  · rw [hI.blocks, blkOk]
    by_cases hb : l.base o = none ∧ 1 ≤ l.cnt o
    · simp [hb]
    · rw [if_neg hb]
      simpa using hb

/-- When the user has released all references, nothing is left, and no array is still borrowed. -/
theorem C74_no_leak_partial (hr : Reach h l) (hz : ∀ o, l.hand o = 0) (o : Nat) : h.objs o = none ∧ h.blocks o = none ∧ l.loans = [] := by
  have ha := C74_alive_partial hr
  have h0 : ∀ o, ¬ (1 ≤ l.hand o ∨ ∃ p, l.base p = some o ∧ 1 ≤ l.hand p) := fun o => by
    rintro (h1 | ⟨p, -, h1⟩) <;> rw [hz] at h1 <;> omega
  refine ⟨?_, ?_, ?_⟩
  · by_contra hc
    exact h0 o ((ha o).1.1 hc)
  · by_contra hc
    exact h0 o ((ha o).2.1 hc).2
  · rw [List.eq_nil_iff_forall_not_mem]
    intro i hi
    have := (reach_inv hr).loans i hi
    obtain ⟨x, hx, -⟩ := (reach_inv hr).live this.1
    exact h0 i.owner ((ha _).1.1 (by simp [hx]))

/-- When nothing is borrowed every reference can be released. -/
theorem C74_release_partial (hr : Reach h l) (hz : l.loans = []) (ho : 1 ≤ l.hand o) : ∃ g, exec (.destroy o) h = .ok g 0 := by
  rcases destroy_ok (reach_inv hr) ho with ⟨-, g, h1, -⟩ | ⟨h1, -⟩
  · exact ⟨g, h1⟩
  · have h0 : ∀ p, l.lent p = 0 := fun p => by
      unfold Ledger.lent
      rw [hz]
      rfl
    rcases h1.2 with h2 | ⟨b, -, -, h2⟩
    · exact absurd (h0 _) h2
    · exact absurd (h0 _) h2

end RstrLife
end Verif
