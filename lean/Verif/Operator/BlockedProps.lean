import Verif.Operator.BlockedApply

/-!
# Operators on the blocked backend (C54)
-/

set_option linter.unusedSectionVars false

namespace Verif
namespace Operator

open Finset
open Restriction (RData Made Rstr Rep laneEnd)
open Basis (Bas EMode)

variable {α : Type} [CommRing α]

/-- Histories of one operator on the blocked backend; compare `Reach` and `ReachOpt`. Calls that return an error are
admitted if `fails`. -/
inductive ReachBlocked (op : Oper α) (F : Nat → (Nat → Nat → α) → Nat → Nat → α) (chk : Bool) (bs : Nat) (fails : Prop) :
    OSt α → Prop
  | start (s : OSt α) (hd : s.base.impl.done = false)
      (hv : ∀ i, (s.base.vecs i).state = 0 → (s.base.vecs i).valid = false) : ReachBlocked op F chk bs fails s
  | user {s : OSt α} {vecs' : Nat → LVec α} (h : ReachBlocked op F chk bs fails s) (ha : Advances s.base.vecs vecs') :
      ReachBlocked op F chk bs fails { s with base := { s.base with vecs := vecs' } }
  | applyAdd {s s' : OSt α} {junk : Nat → Nat → α} {inv outv : VPtr} (h : ReachBlocked op F chk bs fails s)
      (e : applyAddBlocked op F chk bs junk inv outv s = .ok s' ()) : ReachBlocked op F chk bs fails s'
  | apply {s s' : OSt α} {junk : Nat → Nat → α} {inv outv : VPtr} (h : ReachBlocked op F chk bs fails s)
      (e : applyBlocked op F chk bs junk inv outv s = .ok s' ()) : ReachBlocked op F chk bs fails s'
  | applyAddErr {s s' : OSt α} {junk : Nat → Nat → α} {inv outv : VPtr} {c : Err} (hf : fails)
      (h : ReachBlocked op F chk bs fails s) (e : applyAddBlocked op F chk bs junk inv outv s = .err s' c) :
      ReachBlocked op F chk bs fails s'
  | applyErr {s s' : OSt α} {junk : Nat → Nat → α} {inv outv : VPtr} {c : Err} (hf : fails)
      (h : ReachBlocked op F chk bs fails s) (e : applyBlocked op F chk bs junk inv outv s = .err s' c) :
      ReachBlocked op F chk bs fails s'

/-- States of a history: before or after the setup. -/
def BlkGood (op : Oper α) (S : Meaning α) (bs : Nat) (s : OSt α) : Prop :=
  (s.base.impl.done = false ∨ (BlkOK (op.blk s.br) S bs ∧ KInv (op.blk s.br) S bs s.base ∧
    ∀ r, (s.br r).lSize = (op.rstrs r).lSize)) ∧ ∀ v, (s.base.vecs v).state = 0 → (s.base.vecs v).valid = false

theorem setupBlocked_ok {op : Oper α} {S : Meaning α} {bs : Nat} (h : OptOK op S bs) (chk : Bool) (junk : Nat → Nat → α)
    {s : OSt α} (hg : BlkGood op S bs s) :
    ∃ s', setupBlocked op chk bs junk s = .ok s' () ∧ BlkOK (op.blk s'.br) S bs ∧ KInv (op.blk s'.br) S bs s'.base ∧
      (∀ r, (s'.br r).lSize = (op.rstrs r).lSize) ∧ s'.base.vecs = s.base.vecs ∧
      ((s.base.impl.done = true → Unlocked s.base) → Unlocked s'.base) := by
  unfold setupBlocked
  simp only [M.bind_apply, getOB, Out.bind_ok]
  by_cases hd : s.base.impl.done = true
  · refine ⟨s, by rw [if_pos hd]; rfl, ?_⟩
    rcases hg.1 with h1 | ⟨h1, h2, h3⟩
    · rw [h1] at hd; cases hd
    · exact ⟨h1, h2, h3, rfl, fun hu => hu hd⟩
  · rw [if_neg hd]
    obtain ⟨h0, hb, _⟩ := id h
    obtain ⟨br, e0, h5⟩ := setupBlocks_ok h0 hb chk
    obtain ⟨q, e1, h1⟩ := setupQOpt_spec h junk
    obtain ⟨it, e2, h2⟩ := setupIn_spec h0
    obtain ⟨ot, e3, h3⟩ := setupOut_spec h0
    simp only [M.bind_apply, e0, e1, e2, e3, M.lift_ok, Out.bind_ok, modI, onB]
    refine ⟨_, rfl, h.blk h5, ?_, fun r => (h5 r).2, rfl, fun _ => ⟨fun _ => rfl, fun _ => rfl⟩⟩
    refine ⟨rfl, rfl, ⟨h2.skip, h2.full, h2.ev⟩, ⟨h3.skip, h3.full, h3.ev, h3.add, h3.idx⟩, h1, fun o _ => rfl,
      ⟨h2.full, h2.skip, fun i _ => rfl, hg.2, ?_⟩⟩
    intro i hi hw hf
    unfold CacheG
    split
    · trivial
    · exact ⟨rfl, rfl⟩
    · exact ⟨Nat.zero_le _, fun hz => Or.inl ⟨hz.symm, rfl⟩⟩

theorem ready_blocked {op : Oper α} {br : Nat → Rstr} (hl : ∀ r, (br r).lSize = (op.rstrs r).lSize) (inv outv : VPtr) (s : St α) :
    (InReady (op.blk br) inv s ↔ InReady op inv s) ∧ (OutReady (op.blk br) outv s ↔ OutReady op outv s) := by
  have h : ∀ r, ((op.blk br).rstrs r).lSize = (op.rstrs r).lSize := hl
  constructor
  · unfold InReady
    simp only [h]
    exact Iff.rfl
  · unfold OutReady
    simp only [h]
    exact Iff.rfl

theorem blockedAdd_wp {op : Oper α} {S : Meaning α} {bs : Nat} (h : OptOK op S bs) (F : Nat → (Nat → Nat → α) → Nat → Nat → α)
    (chk : Bool) (junk : Nat → Nat → α) {s : OSt α} (hg : BlkGood op S bs s) {inv outv : VPtr} {R : Prop}
    (hR : R → InReady op inv s.base ∧ OutReady op outv s.base ∧ (s.base.impl.done = true → Unlocked s.base)) :
    M.wp R (applyAddBlocked op F chk bs junk inv outv) s (fun s' _ => BlkGood op S bs s' ∧
      ((s.base.impl.done = true → Unlocked s.base) → (s'.base.impl.done = true → Unlocked s'.base)) ∧
      (0 < op.ne → InReady op inv s.base ∧ OutReady op outv s.base) ∧
      (∀ v, (∀ o < op.nout, (op.out o).vec.ptr outv ≠ .vec v) → s'.base.vecs v = s.base.vecs v) ∧
      Advances s.base.vecs s'.base.vecs ∧
      (Pointwise op F → ∀ v t, s'.base.L v t = s.base.L v t + S.action op s.base.L inv outv v t))
      (fun s' _ => ¬ R ∧ BlkGood op S bs s') := by
  unfold applyAddBlocked
  by_cases hne : 0 < op.ne
  swap
  · rw [if_neg hne, M.wp_pure]
    refine ⟨hg, fun hu => hu, fun hh => absurd hh hne, fun _ _ => rfl, Advances.refl _, fun _ v t => ?_⟩
    rw [action_empty h.1 (by omega), add_zero]
  rw [if_pos hne]
  unfold applyAddBlockedCore
  obtain ⟨s1, e1, k1, k2, k3, k4, k5⟩ := setupBlocked_ok h chk junk hg
  rw [M.wp_bind]
  refine M.wp_of_eq_ok e1 ?_
  rw [M.wp_bind]
  refine M.wp_of_eq_ok (s' := s1) (a := s1) rfl ?_
  have hrdy := ready_blocked k3 inv outv s1.base
  have hRs : (InReady op inv s1.base ↔ InReady op inv s.base) ∧ (OutReady op outv s1.base ↔ OutReady op outv s.base) := by
    unfold InReady OutReady
    rw [k4]
    exact ⟨Iff.rfl, Iff.rfl⟩
  have hR' : R → InReady (op.blk s1.br) inv s1.base ∧ OutReady (op.blk s1.br) outv s1.base ∧ Unlocked s1.base := by
    intro r
    obtain ⟨r1, r2, r3⟩ := hR r
    exact ⟨hrdy.1.2 (hRs.1.2 r1), hrdy.2.2 (hRs.2.2 r2), k5 r3⟩
  have key : M.wp R (if s1.base.impl.idRstr then onB (identityApply (op.blk s1.br) inv outv)
      else generalBlocked (op.blk s1.br) F junk bs inv outv) s1
      (fun s' _ => s'.br = s1.br ∧ KEff (op.blk s1.br) S bs (Pointwise op F) inv outv s1.base s'.base)
      (fun s' _ => ¬ R ∧ s'.br = s1.br ∧ KInv (op.blk s1.br) S bs s'.base) := by
    by_cases hid : s1.base.impl.idRstr = true
    · rw [if_pos hid]
      refine M.wp_mono (onB_wp (identityBlocked_wp k1 k2 hid hR')) ?_ ?_
      · rintro s' _ ⟨b, rfl, he⟩
        exact ⟨rfl, ⟨he.good, he.rd, he.wr, he.adv, he.valid, he.other, he.inReady, he.outReady, fun _ => he.val trivial⟩⟩
      · rintro s' _ ⟨b, rfl, h1, h2⟩
        exact ⟨h1, rfl, h2⟩
    · rw [if_neg hid]
      exact generalBlocked_wp k1 F junk k2 hR'
  refine M.wp_mono key ?_ ?_
  · rintro s' _ ⟨hbr, he⟩
    refine ⟨⟨Or.inr ⟨hbr ▸ k1, hbr ▸ he.good, hbr ▸ k3⟩, he.good.g.vz⟩, fun hu _ => ?_, fun _ => ⟨?_, ?_⟩, ?_, ?_, fun hF v t => ?_⟩
    · have := k5 hu
      exact ⟨by rw [he.rd]; exact this.1, by rw [he.wr]; exact this.2⟩
    · exact hRs.1.1 (hrdy.1.1 he.inReady)
    · exact hRs.2.1 (hrdy.2.1 he.outReady)
    · rw [← k4]; exact he.other
    · rw [← k4]; exact he.adv
    · have := he.val hF v t
      unfold St.L at this ⊢
      rw [k4] at this
      exact this
  · rintro s' _ ⟨h1, h3, h2⟩
    exact ⟨h1, Or.inr ⟨h3 ▸ k1, h3 ▸ h2, h3 ▸ k3⟩, h2.g.vz⟩

theorem BlkGood.adv {op : Oper α} {S : Meaning α} {bs : Nat} {s : OSt α} (hg : BlkGood op S bs s) {b : St α} (ha : Advances s.base.vecs b.vecs)
    (hi : b.impl = s.base.impl) : BlkGood op S bs { s with base := b } := by
  refine ⟨?_, ha.vz hg.2⟩
  rcases hg.1 with hd | ⟨k1, k2, k3⟩
  · exact Or.inl (by show b.impl.done = false; rw [hi]; exact hd)
  · exact Or.inr ⟨k1, k2.upd ha ⟨_, _, _, _, hi, k2.w, k2.q⟩, k3⟩

theorem blockedApply_wp {op : Oper α} {S : Meaning α} {bs : Nat} (h : OptOK op S bs) (F : Nat → (Nat → Nat → α) → Nat → Nat → α)
    (chk : Bool) (junk : Nat → Nat → α) {s : OSt α} (hg : BlkGood op S bs s) {inv outv : VPtr} {R : Prop}
    (hR : R → InReady op inv s.base ∧ OutLong op outv s.base ∧ (s.base.impl.done = true → Unlocked s.base)) :
    M.wp R (applyBlocked op F chk bs junk inv outv) s (fun s' _ => BlkGood op S bs s' ∧
      ((s.base.impl.done = true → Unlocked s.base) → (s'.base.impl.done = true → Unlocked s'.base)) ∧
      (∀ v, (∀ o < op.nout, (op.out o).vec.ptr outv ≠ .vec v) → s'.base.vecs v = s.base.vecs v) ∧
      (Pointwise op F → ∀ v, (∃ o < op.nout, (op.out o).vec.ptr outv = .vec v) → ∀ t,
        s'.base.L v t = S.action op (zeroed op outv s.base.L) inv outv v t))
      (fun s' _ => ¬ R ∧ BlkGood op S bs s') := by
  unfold applyBlocked
  rw [M.wp_bind]
  refine M.wp_mono (onB_wp (zero_wp (op := op) (s := s.base) (outv := outv) (R := R) ?_)) ?_ ?_
  · intro r o ho hn
    obtain ⟨_, _, _, h2, _⟩ := (hR r).2.1 o ho
    rw [hn] at h2; cases h2
  swap
  · rintro _ _ ⟨_, _, hh⟩
    exact hh.elim
  rintro s1 _ ⟨b, rfl, a1, a2, a3, a4⟩
  have hL : b.L = zeroed op outv s.base.L := by
    funext v
    unfold zeroed St.L
    split
    · rename_i hh
      rw [(a4 v hh).2]
    · rename_i hh
      rw [a3 v (fun o ho hv => hh ⟨o, ho, hv⟩)]
  refine M.wp_mono (blockedAdd_wp h F chk junk (hg.adv a2 a1) (R := R) ?_) ?_ (fun _ _ hh => hh)
  · intro r
    obtain ⟨r1, r2, r3⟩ := hR r
    refine ⟨?_, ?_, ?_⟩
    · intro i hi hw
      obtain ⟨r', v, b1, b2, b3, b4⟩ := r1 i hi hw
      refine ⟨r', v, b1, b2, ?_, ?_⟩
      · by_cases hv : ∃ o < op.nout, (op.out o).vec.ptr outv = .vec v
        · exact (a4 v hv).1
        · show (b.vecs v).valid = true
          rw [a3 v (fun o ho hh => hv ⟨o, ho, hh⟩)]; exact b3
      · show _ ≤ ((b.vecs v).buf.len : Int)
        rw [(a2 v).1]; exact b4
    · intro o ho
      obtain ⟨r', v, b1, b2, b3⟩ := r2 o ho
      refine ⟨r', v, b1, b2, (a4 v ⟨o, ho, b2⟩).1, ?_⟩
      show _ ≤ ((b.vecs v).buf.len : Int)
      rw [(a2 v).1]; exact b3
    · show b.impl.done = true → Unlocked b
      unfold Unlocked at *; rw [a1]; exact r3
  · rintro s' _ ⟨b1, b2, b3, b4, _, b5⟩
    refine ⟨b1, ?_, fun v hv => (b4 v hv).trans (a3 v hv), ?_⟩
    · have b2 : (b.impl.done = true → Unlocked b) → _ := b2
      unfold Unlocked at *; rw [a1] at b2; exact b2
    · intro hF v hv t
      rw [b5 hF v t]
      show b.L v t + S.action op b.L inv outv v t = _
      rw [hL]
      unfold zeroed
      rw [if_pos hv, zero_add]

theorem ReachBlocked.good {op : Oper α} {S : Meaning α} {F : Nat → (Nat → Nat → α) → Nat → Nat → α} {chk : Bool} {bs : Nat}
    (h : OptOK op S bs) {fails : Prop} {s : OSt α} (hr : ReachBlocked op F chk bs fails s) :
    BlkGood op S bs s ∧ (¬ fails → s.base.impl.done = true → Unlocked s.base) := by
  induction hr with
  | start s hd hv => exact ⟨⟨Or.inl hd, hv⟩, fun _ hh => by rw [hd] at hh; cases hh⟩
  | user _ ha ih => exact ⟨ih.1.adv ha rfl, fun hf hd => ih.2 hf hd⟩
  | applyAdd _ e ih =>
    have := M.wp_ok (blockedAdd_wp h F chk _ ih.1 (R := False) (fun hh => hh.elim)) e
    exact ⟨this.1, fun hf => this.2.1 (ih.2 hf)⟩
  | apply _ e ih =>
    have := M.wp_ok (blockedApply_wp h F chk _ ih.1 (R := False) (fun hh => hh.elim)) e
    exact ⟨this.1, fun hf => this.2.1 (ih.2 hf)⟩
  | applyAddErr hf _ e ih =>
    exact ⟨(M.wp_err (blockedAdd_wp h F chk _ ih.1 (R := False) (fun hh => hh.elim)) e).2, fun hn => absurd hf hn⟩
  | applyErr hf _ e ih =>
    exact ⟨(M.wp_err (blockedApply_wp h F chk _ ih.1 (R := False) (fun hh => hh.elim)) e).2, fun hn => absurd hf hn⟩

/-! ## C54 -/

/-- After any history, failed calls included, a successful `CeedOperatorApplyAdd` on the blocked backend adds to every
vector exactly the action of the operator on the contents before the call, also if the input is one of the outputs;
vectors that are not outputs are left alone. -/
theorem C54_blocked_apply_add {op : Oper α} {S : Meaning α} {bs : Nat} (h : OptOK op S bs)
    {F : Nat → (Nat → Nat → α) → Nat → Nat → α} (hF : Pointwise op F) {chk : Bool} {s s' : OSt α}
    (hr : ReachBlocked op F chk bs True s) {junk : Nat → Nat → α} {inv outv : VPtr}
    (e : applyAddBlocked op F chk bs junk inv outv s = .ok s' ()) :
    (∀ v t, s'.base.L v t = s.base.L v t + S.action op s.base.L inv outv v t) ∧
    ∀ v, (∀ o < op.nout, (op.out o).vec.ptr outv ≠ .vec v) → s'.base.vecs v = s.base.vecs v := by
  have := M.wp_ok (blockedAdd_wp h F chk _ (hr.good h).1 (R := False) (fun hh => hh.elim)) e
  exact ⟨this.2.2.2.2.2 hF, this.2.2.2.1⟩

/-- After any history, a successful `CeedOperatorApply` stores the action in the outputs, if no vector is both read and
written. -/
theorem C54_blocked_apply {op : Oper α} {S : Meaning α} {bs : Nat} (h : OptOK op S bs)
    {F : Nat → (Nat → Nat → α) → Nat → Nat → α} (hF : Pointwise op F) {chk : Bool} {s s' : OSt α}
    (hr : ReachBlocked op F chk bs True s) {junk : Nat → Nat → α} {inv outv : VPtr}
    (hna : NoAlias op inv outv) (e : applyBlocked op F chk bs junk inv outv s = .ok s' ()) :
    (∀ v, (∃ o < op.nout, (op.out o).vec.ptr outv = .vec v) → ∀ t, s'.base.L v t = S.action op s.base.L inv outv v t) ∧
    ∀ v, (∀ o < op.nout, (op.out o).vec.ptr outv ≠ .vec v) → s'.base.vecs v = s.base.vecs v := by
  have := M.wp_ok (blockedApply_wp h F chk _ (hr.good h).1 (R := False) (fun hh => hh.elim)) e
  refine ⟨fun v hv t => ?_, this.2.2.1⟩
  rw [this.2.2.2 hF v hv t]
  refine action_congr (fun i hi hw => ?_) outv v t
  match hp : (op.inp i).vec.ptr inv with
  | .null => rfl
  | .none => rfl
  | .vec u =>
    show zeroed op outv s.base.L u = s.base.L u
    unfold zeroed
    rw [if_neg]
    rintro ⟨o, ho, hh⟩
    exact hna i hi o ho hw (by rw [hp, hh])

/-- After a history without failing calls, `CeedOperatorApplyAdd` succeeds, without undefined behaviour, exactly if (for a
nonempty mesh) the vectors read and the vectors written hold data and are long enough, as on the reference backend. -/
theorem C54_blocked_apply_add_succeeds {op : Oper α} {S : Meaning α} {bs : Nat} (h : OptOK op S bs)
    {F : Nat → (Nat → Nat → α) → Nat → Nat → α} {chk : Bool} {s : OSt α} (hr : ReachBlocked op F chk bs False s)
    (junk : Nat → Nat → α) {inv outv : VPtr} (hne : 0 < op.ne) :
    (∃ s', applyAddBlocked op F chk bs junk inv outv s = .ok s' ()) ↔ InReady op inv s.base ∧ OutReady op outv s.base := by
  have hg := hr.good h
  constructor
  · rintro ⟨s', e⟩
    exact (M.wp_ok (blockedAdd_wp h F chk _ hg.1 (R := False) (fun hh => hh.elim)) e).2.2.1 hne
  · intro hrdy
    have := blockedAdd_wp h F chk junk hg.1 (inv := inv) (outv := outv) (R := True)
      (fun _ => ⟨hrdy.1, hrdy.2, hg.2 (fun hh => hh)⟩)
    cases e : applyAddBlocked op F chk bs junk inv outv s with
    | ok s' a => exact ⟨s', rfl⟩
    | err s' c => exact absurd trivial (M.wp_err this e).1
    | ub => exact absurd trivial (M.wp_ub this e)

/-- After a history without failing calls, `CeedOperatorApply` succeeds if the vectors it reads hold data and are long
enough, and the vectors it writes are long enough. -/
theorem C54_blocked_apply_succeeds {op : Oper α} {S : Meaning α} {bs : Nat} (h : OptOK op S bs)
    {F : Nat → (Nat → Nat → α) → Nat → Nat → α} {chk : Bool} {s : OSt α} (hr : ReachBlocked op F chk bs False s)
    (junk : Nat → Nat → α) {inv outv : VPtr} (hi : InReady op inv s.base) (ho : OutLong op outv s.base) :
    ∃ s', applyBlocked op F chk bs junk inv outv s = .ok s' () := by
  have hg := hr.good h
  have := blockedApply_wp h F chk junk hg.1 (inv := inv) (outv := outv) (R := True)
    (fun _ => ⟨hi, ho, hg.2 (fun hh => hh)⟩)
  cases e : applyBlocked op F chk bs junk inv outv s with
  | ok s' a => exact ⟨s', rfl⟩
  | err s' c => exact absurd trivial (M.wp_err this e).1
  | ub => exact absurd trivial (M.wp_ub this e)

/-- Whatever happened before, `CeedOperatorApplyAdd` on the blocked backend and on the reference backend, starting from
vectors with the same contents: if no call has failed before, the one succeeds exactly if the other does; and if both
succeed they leave the same contents, also if the input is one of the outputs. -/
theorem C54_blocked_as_reference {op : Oper α} {S : Meaning α} {bs : Nat} (h : OptOK op S bs)
    {F : Nat → (Nat → Nat → α) → Nat → Nat → α} (hF : Pointwise op F) {chk : Bool} {s : OSt α} {fails : Prop}
    (hr : ReachBlocked op F chk bs fails s) (junk junk' : Nat → Nat → α) {inv outv : VPtr}
    {r : St α} (hrr : Reach op fails r) (hv : r.vecs = s.base.vecs) :
    (∀ s' r', applyAddBlocked op F chk bs junk inv outv s = .ok s' () → applyAdd op junk' inv outv r = .ok r' () →
      r'.L = s'.base.L) ∧
    (¬ fails → ((∃ s', applyAddBlocked op F chk bs junk inv outv s = .ok s' ()) ↔ ∃ r', applyAdd op junk' inv outv r = .ok r' ())) := by
  have hL : r.L = s.base.L := by unfold St.L; rw [hv]
  have hg := hr.good h
  have hgr := hrr.good h.1
  constructor
  · intro s' r' e e'
    have hw := M.wp_ok (blockedAdd_wp h F chk _ hg.1 (R := False) (fun hh => hh.elim)) e
    have hw' := M.wp_ok (applyAdd_wp h.1 _ hgr.1 (R := False) (fun hh => hh.elim)) e'
    funext v t
    rw [hw'.2.2.2.2.2.2 v t, hw.2.2.2.2.2 hF v t, hL]
  · intro hf
    have hii : InReady op inv r ↔ InReady op inv s.base := by unfold InReady; rw [hv]
    have hoo : OutReady op outv r ↔ OutReady op outv s.base := by unfold OutReady; rw [hv]
    by_cases hne : 0 < op.ne
    · constructor
      · rintro ⟨s', e⟩
        have hrdy := (M.wp_ok (blockedAdd_wp h F chk _ hg.1 (R := False) (fun hh => hh.elim)) e).2.2.1 hne
        have := applyAdd_wp h.1 junk' hgr.1 (inv := inv) (outv := outv) (R := True)
          (fun _ => ⟨hii.2 hrdy.1, hoo.2 hrdy.2, hgr.2 hf⟩)
        cases e' : applyAdd op junk' inv outv r with
        | ok r' a => exact ⟨r', rfl⟩
        | err r' c => exact absurd trivial (M.wp_err this e').1
        | ub => exact absurd trivial (M.wp_ub this e')
      · rintro ⟨r', e⟩
        have hrdy := (M.wp_ok (applyAdd_wp h.1 _ hgr.1 (R := False) (fun hh => hh.elim)) e).2.2.1 hne
        have := blockedAdd_wp h F chk junk hg.1 (inv := inv) (outv := outv) (R := True)
          (fun _ => ⟨hii.1 hrdy.1, hoo.1 hrdy.2, hg.2 hf⟩)
        cases e' : applyAddBlocked op F chk bs junk inv outv s with
        | ok r' a => exact ⟨r', rfl⟩
        | err r' c => exact absurd trivial (M.wp_err this e').1
        | ub => exact absurd trivial (M.wp_ub this e')
    · refine ⟨fun _ => ⟨r, ?_⟩, fun _ => ⟨s, ?_⟩⟩
      · unfold applyAdd; rw [if_neg hne]; rfl
      · unfold applyAddBlocked; rw [if_neg hne]; rfl

end Operator
end Verif
