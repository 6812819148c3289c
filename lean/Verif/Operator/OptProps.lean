import Verif.Operator.OptApply

/-!
# Operators on backends that work on blocks of elements (C54)
-/

set_option linter.unusedSectionVars false

namespace Verif
namespace Operator

open Finset
open Restriction (RData Made Rstr Rep laneEnd)
open Basis (Bas EMode)

variable {α : Type} [CommRing α]

theorem onB_wp {β : Type} {m : M (St α) β} {s : OSt α} {R : Prop} {Q : St α → β → Prop} {E : St α → Err → Prop}
    (h : M.wp R m s.base Q E) :
    M.wp R (onB m) s (fun s' a => ∃ b, s' = { s with base := b } ∧ Q b a) (fun s' a => ∃ b, s' = { s with base := b } ∧ E b a) := by
  cases e : m s.base with
  | ok b a => exact M.wp_of_eq_ok (s' := { s with base := b }) (a := a) (by unfold onB; rw [e]) ⟨b, rfl, M.wp_ok h e⟩
  | err b a => exact M.wp_of_eq_err (s' := { s with base := b }) (a := a) (by unfold onB; rw [e]) ⟨b, rfl, M.wp_err h e⟩
  | ub => exact M.wp_of_eq_ub (by unfold onB; rw [e]) (M.wp_ub h e)

theorem OInv.gloop {op : Oper α} {S : Meaning α} {bs : Nat} {s : OSt α} (h : OInv op S bs s) {sk : Bool} {inv : VPtr} {b : St α} {j : Nat}
    (hl : GLoop op (GathB op S bs) sk inv s.base b j) : OInv op S bs { s with base := b } := by
  refine ⟨hl.done ▸ h.done, hl.idR ▸ h.idR, ?_, ?_, ?_, ?_, ?_, ?_, h.eb, hl.inv h.g⟩
  · show ∀ i < op.nin, _ → b.impl.it.ev i = _
    rw [hl.it]; exact h.ev
  · show ∀ o < op.nout, b.impl.ot.full o = _
    rw [hl.ot]; exact h.ofull
  · show ∀ o < op.nout, (b.impl.ot.skip o = true ↔ _)
    rw [hl.ot]; exact h.oskip
  · show ∀ o < op.nout, (b.impl.ot.add o = true ↔ _)
    rw [hl.ot]; exact h.oadd
  · show QB op S bs b.impl.qIn
    rw [hl.q]; exact h.q
  · show WB op S bs b.impl.eOut
    rw [hl.eOut]; exact h.w

/-- Effect of a successful application, started in `s` after the setup. -/
structure OEff (op : Oper α) (S : Meaning α) (bs : Nat) (P : Prop) (inv outv : VPtr) (s s' : OSt α) : Prop where
  good : OInv op S bs s'
  br : s'.br = s.br
  rd : s'.base.impl.rd = s.base.impl.rd
  wr : s'.base.impl.wr = s.base.impl.wr
  step : VStep op outv s.base.vecs s'.base.vecs
  inr : OptInReady op inv s.base
  outr : OptOutReady op outv s.base
  val : P → ∀ v t, (s'.base.vecs v).buf.val t = (s.base.vecs v).buf.val t + S.action op s.base.L inv outv v t

/-- What an error leaves behind. -/
def OErr (op : Oper α) (S : Meaning α) (bs : Nat) (outv : VPtr) (s s' : OSt α) : Prop :=
  OInv op S bs s' ∧ s'.br = s.br

theorem blocksApply_wp {op : Oper α} {S : Meaning α} {bs : Nat} (h : BlkOK op S bs) (hne : 0 < op.ne)
    (F : Nat → (Nat → Nat → α) → Nat → Nat → α) (junk : Nat → Nat → α) {s : OSt α} (h0 : OInv op S bs s) {inv outv : VPtr} {R : Prop}
    (hR : R → OptInReady op inv s.base ∧ OptOutReady op outv s.base ∧ Unlocked s.base) :
    M.wp R (blocksApply op F junk bs inv outv) s
      (fun s' _ => OEff op S bs (ActiveApart op inv outv ∧ Pointwise op F) inv outv s s')
      (fun s' _ => ¬ R ∧ OErr op S bs outv s s') := by
  unfold blocksApply
  rw [M.wp_bind]
  refine M.wp_mono (onB_wp (setupGen_wp h.gctx h0.g (R := R) (inv := .null) (sk := true) (by
      intro r i hi hl
      obtain ⟨r', v, b1, b2, b3, b4, _⟩ := (hR r).1 i hi hl.1
      refine ⟨r', v, b1, ?_, b3, b4⟩
      match hvec : (op.inp i).vec with
      | .active => exact absurd ⟨hvec, rfl⟩ hl.2
      | .none => rw [hvec] at b2; cases b2
      | .vec u => rw [hvec] at b2; exact b2) (fun r => (hR r).2.2))) ?_ ?_
  swap
  · rintro s' _ ⟨b, rfl, h1, j, h2⟩
    exact ⟨h1, h0.gloop h2, rfl⟩
  rintro s' _ ⟨b, rfl, H⟩
  have I1 := h0.gloop H
  have hvs : b.vecs = s.base.vecs := H.vecs
  have hpas : ∀ i < op.nin, (op.inp i).mode ≠ .weight → (op.inp i).vec ≠ .active → ∃ r v, (op.inp i).rid = some r ∧
      (op.inp i).vec = .vec v ∧ (s.base.vecs v).valid = true ∧ (op.rstrs r).lSize ≤ (s.base.vecs v).buf.len := by
    intro i hi hw ha
    obtain ⟨r, v, h1, h2, h3⟩ := H.ready i hi ⟨hw, fun hh => ha hh.1⟩
    refine ⟨r, v, h1, ?_, h3⟩
    match hvec : (op.inp i).vec with
    | .active => exact absurd hvec ha
    | .none => rw [hvec] at h2; cases h2
    | .vec u => rw [hvec] at h2; cases h2; rfl
  have hpre : BPre op S bs b.L { s with base := b } := by
    refine ⟨I1.g.full, I1.ev, I1.ofull, I1.oskip, I1.oadd, ?_, ?_⟩
    · intro i hi hw
      have hf : first op i < op.nin := by have := first_le op i; omega
      show (b.impl.eIn (first op i)).len = _
      rw [H.len _ hf, eSizeOf_same (first_same op i)]
    · intro i hi hw ha inv'
      obtain ⟨r, v, _, h2, _⟩ := hpas i hi hw ha
      have := (H.gath i hi ⟨hw, fun hh => ha hh.1⟩ v (by rw [h2]; rfl)).2
      rw [h2]
      show GathB op S bs i (b.impl.eIn (first op i)) (b.vecs v).buf.val
      rw [hvs]
      exact this
  rw [M.wp_bind]
  refine M.wp_mono (generalBlocks_wp h hne F hpre junk (inv := inv) (outv := outv) (R := R) ⟨I1.q, I1.w, I1.eb⟩ ?_) ?_ ?_
  · intro r
    obtain ⟨r1, r2, _⟩ := hR r
    refine ⟨?_, ?_⟩
    · intro i hi hw ha
      obtain ⟨r', v, c1, c2, c3, _, c4⟩ := r1 i hi hw
      exact ⟨r', v, c1, by rw [ha] at c2; exact c2, by rw [hvs]; exact c3, by rw [hvs]; exact c4 ha⟩
    · intro o ho
      obtain ⟨r', v, c1, c2, c3, c4⟩ := r2 o ho
      exact ⟨r', v, c1, c2, by rw [hvs]; exact c3, by rw [hvs]; exact c4⟩
  swap
  · rintro s' _ ⟨h1, q, w, eb, vs, rfl, a1, a2, a3, a4⟩
    exact ⟨h1, I1.put a1 a2 a3 a4.adv, rfl⟩
  rintro s' _ ⟨⟨q, w, eb, vs, rfl, a1, a2, a3⟩, a4, a5, a6, a7⟩
  obtain ⟨rd, e5, hrd⟩ := restoreGen_ok (op := op) (G := GathB op S bs) (sk := true) (inv := .null)
    (s := (OSt.put { s with base := b } q w eb vs).base) (fun i hi hw => I1.g.full i hi hw)
  refine M.wp_of_eq_ok (s' := { OSt.put { s with base := b } q w eb vs with
    base := { (OSt.put { s with base := b } q w eb vs).base with impl := { (OSt.put { s with base := b } q w eb vs).base.impl with rd := rd } } })
    (a := ()) (by unfold onB; rw [e5]) ?_
  have I2 := I1.put a1 a2 a3 a4.adv
  refine ⟨⟨I2.done, I2.idR, I2.ev, I2.ofull, I2.oskip, I2.oadd, I2.q, I2.w, I2.eb, I2.g.adv (Advances.refl _) rfl rfl rfl rfl⟩, rfl, ?_, ?_, ?_, ?_, ?_, ?_⟩
  · funext k
    show rd k = _
    rw [hrd]
    show b.impl.rd k - _ = _
    rw [H.rd, Nat.add_sub_cancel]
  · show b.impl.wr = _
    exact H.wr
  · rw [← hvs]; exact a4
  · intro i hi hw
    by_cases ha : (op.inp i).vec = .active
    · obtain ⟨r, v, c1, c2, c3, c4⟩ := a5 i hi hw ha
      refine ⟨r, v, c1, by rw [ha]; exact c2, ?_, ?_, fun _ => ?_⟩
      · rw [← hvs]; exact c3
      · rw [← hvs]; exact c4.le
      · rw [← hvs]; exact c4
    · obtain ⟨r, v, c1, c2, c3, c4⟩ := hpas i hi hw ha
      exact ⟨r, v, c1, by rw [c2]; rfl, c3, c4, fun hh => absurd hh ha⟩
  · intro o ho
    obtain ⟨r, v, c1, c2, c3, c4⟩ := a6 o ho
    exact ⟨r, v, c1, c2, by rw [← hvs]; exact c3, by rw [← hvs]; exact c4⟩
  · intro p v t
    have hL : b.L = s.base.L := by unfold St.L; rw [hvs]
    have := a7 p v t
    rw [show (OSt.base { s with base := b }) = b from rfl, hL, hvs] at this
    exact this

theorem identityOpt_wp {op : Oper α} {S : Meaning α} {bs : Nat} (h : BlkOK op S bs) (hne : 0 < op.ne)
    {s : OSt α} (h0 : OInv op S bs s) (hid : s.base.impl.idRstr = true) {inv outv : VPtr} {R P : Prop}
    (hP : P → ActiveApart op inv outv)
    (hR : R → OptInReady op inv s.base ∧ OptOutReady op outv s.base ∧ Unlocked s.base) :
    M.wp R (M.loop (nblk op.ne bs) (identityBlock op inv outv)) s (fun s' _ => OEff op S bs P inv outv s s')
      (fun s' _ => ¬ R ∧ OErr op S bs outv s s') := by
  have hid' := hid
  rw [h0.idR] at hid'
  simp only [Bool.and_eq_true, decide_eq_true_eq] at hid'
  obtain ⟨⟨hI, hm⟩, hmo⟩ := hid'
  obtain ⟨hnin, hnout, hsz, hvv, _⟩ := h.ident hI
  obtain ⟨hvi, hvo⟩ := hvv hm hmo
  refine M.wp_mono (identityBlocks_wp h hne h0 hid (R := R) hP ?_) ?_ ?_
  · intro r
    obtain ⟨r1, r2, _⟩ := hR r
    refine ⟨?_, r2⟩
    intro i hi hw ha
    obtain ⟨r', v, c1, c2, c3, _, c4⟩ := r1 i hi hw
    exact ⟨r', v, c1, by rw [ha] at c2; exact c2, c3, c4 ha⟩
  · rintro s' _ ⟨⟨q, w, eb, vs, rfl, a1, a2, a3⟩, a4, a5, a6, a7⟩
    refine ⟨h0.put a1 a2 a3 a4.adv, rfl, rfl, rfl, a4, ?_, a6, a7⟩
    intro i hi hw
    have : i = 0 := by omega
    subst this
    obtain ⟨r, v, c1, c2, c3, c4⟩ := a5 0 hi hw hvi
    exact ⟨r, v, c1, by rw [hvi]; exact c2, c3, c4.le, fun _ => c4⟩
  · rintro s' _ ⟨h1, q, w, eb, vs, rfl, a1, a2, a3, a4⟩
    exact ⟨h1, h0.put a1 a2 a3 a4.adv, rfl⟩

/-! ## Histories -/

/-- Readiness does not depend on the copies. -/
theorem ready_blk {op : Oper α} {br : Nat → Rstr} (hl : ∀ r, (br r).lSize = (op.rstrs r).lSize) (inv outv : VPtr) (s : St α) :
    (OptInReady (op.blk br) inv s ↔ OptInReady op inv s) ∧ (OptOutReady (op.blk br) outv s ↔ OptOutReady op outv s) := by
  have h : ∀ r, ((op.blk br).rstrs r).lSize = (op.rstrs r).lSize := hl
  constructor
  · unfold OptInReady
    simp only [h]
    exact Iff.rfl
  · unfold OptOutReady
    simp only [h]
    exact Iff.rfl

theorem optAdd_wp {op : Oper α} {S : Meaning α} {bs : Nat} (h : OptOK op S bs) (F : Nat → (Nat → Nat → α) → Nat → Nat → α)
    (chk : Bool) (junk : Nat → Nat → α) {s : OSt α} (hg : OptGood op S bs s) {inv outv : VPtr} {R : Prop}
    (hR : R → OptInReady op inv s.base ∧ OptOutReady op outv s.base ∧ (s.base.impl.done = true → Unlocked s.base)) :
    M.wp R (applyAddOpt op F chk bs junk inv outv) s (fun s' _ => OptGood op S bs s' ∧
      ((s.base.impl.done = true → Unlocked s.base) → (s'.base.impl.done = true → Unlocked s'.base)) ∧
      (0 < op.ne → OptInReady op inv s.base ∧ OptOutReady op outv s.base) ∧
      VStep op outv s.base.vecs s'.base.vecs ∧
      (ActiveApart op inv outv → Pointwise op F → ∀ v t, s'.base.L v t = s.base.L v t + S.action op s.base.L inv outv v t))
      (fun s' _ => ¬ R ∧ OptGood op S bs s') := by
  unfold applyAddOpt
  by_cases hne : 0 < op.ne
  swap
  · rw [if_neg hne, M.wp_pure]
    refine ⟨hg, fun hu => hu, fun hh => absurd hh hne, VStep.refl _ _ _, fun _ _ v t => ?_⟩
    rw [action_empty h.1 (by omega), add_zero]
  rw [if_pos hne]
  unfold applyAddOptCore
  obtain ⟨s1, e1, k1, k2, k3, k4, k5⟩ := setupOpt_ok h chk junk hg
  rw [M.wp_bind]
  refine M.wp_of_eq_ok e1 ?_
  rw [M.wp_bind]
  refine M.wp_of_eq_ok (s' := s1) (a := s1) rfl ?_
  have hrdy := ready_blk k3 inv outv s1.base
  have hRs : (OptInReady op inv s1.base ↔ OptInReady op inv s.base) ∧ (OptOutReady op outv s1.base ↔ OptOutReady op outv s.base) := by
    unfold OptInReady OptOutReady
    rw [k4]
    exact ⟨Iff.rfl, Iff.rfl⟩
  have hR' : R → OptInReady (op.blk s1.br) inv s1.base ∧ OptOutReady (op.blk s1.br) outv s1.base ∧ Unlocked s1.base := by
    intro r
    obtain ⟨r1, r2, r3⟩ := hR r
    exact ⟨hrdy.1.2 (hRs.1.2 r1), hrdy.2.2 (hRs.2.2 r2), k5 r3⟩
  have key : M.wp R (if s1.base.impl.idRstr then M.loop (nblk op.ne bs) (identityBlock (op.blk s1.br) inv outv)
      else blocksApply (op.blk s1.br) F junk bs inv outv) s1
      (fun s' _ => OEff (op.blk s1.br) S bs (ActiveApart (op.blk s1.br) inv outv ∧ Pointwise (op.blk s1.br) F) inv outv s1 s')
      (fun s' _ => ¬ R ∧ OErr (op.blk s1.br) S bs outv s1 s') := by
    by_cases hid : s1.base.impl.idRstr = true
    · rw [if_pos hid]
      exact identityOpt_wp k1 hne k2 hid (fun hh => hh.1) hR'
    · rw [if_neg hid]
      exact blocksApply_wp k1 hne F junk k2 hR'
  refine M.wp_mono key ?_ ?_
  · intro s' _ he
    have hbr := he.br
    refine ⟨⟨Or.inr ⟨hbr ▸ k1, hbr ▸ he.good, hbr ▸ k3⟩, he.good.g.vz⟩, fun hu _ => ?_, fun _ => ⟨?_, ?_⟩, ?_, fun ha hF v t => ?_⟩
    · have := k5 hu
      exact ⟨by rw [he.rd]; exact this.1, by rw [he.wr]; exact this.2⟩
    · exact hRs.1.1 (hrdy.1.1 he.inr)
    · exact hRs.2.1 (hrdy.2.1 he.outr)
    · rw [← k4]; exact ⟨he.step.adv, he.step.valid, he.step.other⟩
    · have := he.val ⟨ha, hF⟩ v t
      unfold St.L at this ⊢
      rw [k4] at this
      exact this
  · rintro s' _ ⟨h1, h2, h3⟩
    exact ⟨h1, Or.inr ⟨h3 ▸ k1, h3 ▸ h2, h3 ▸ k3⟩, h2.g.vz⟩

/-- Outputs that exist and have exactly the length of the restriction; they need not hold valid data. -/
def OptOutLong (op : Oper α) (outv : VPtr) (s : St α) : Prop :=
  ∀ o < op.nout, ∃ r v, (op.out o).rid = some r ∧ (op.out o).vec.ptr outv = .vec v ∧
    (op.rstrs r).lSize = (s.vecs v).buf.len

theorem OptGood.adv {op : Oper α} {S : Meaning α} {bs : Nat} {s : OSt α} (hg : OptGood op S bs s) {b : St α} (ha : Advances s.base.vecs b.vecs)
    (hi : b.impl = s.base.impl) : OptGood op S bs { s with base := b } := by
  refine ⟨?_, ha.vz hg.2⟩
  rcases hg.1 with hd | ⟨k1, k2, k3⟩
  · exact Or.inl (by show b.impl.done = false; rw [hi]; exact hd)
  · refine Or.inr ⟨k1, ⟨?_, ?_, ?_, ?_, ?_, ?_, ?_, ?_, k2.eb, k2.g.adv ha ?_ ?_ ?_ ?_⟩, k3⟩
    · show b.impl.done = true; rw [hi]; exact k2.done
    · show b.impl.idRstr = _; rw [hi]; exact k2.idR
    · intro i; show _ → _ → b.impl.it.ev i = _; rw [hi]; exact k2.ev i
    · intro i; show _ → b.impl.ot.full i = _; rw [hi]; exact k2.ofull i
    · intro i; show _ → (b.impl.ot.skip i = true ↔ _); rw [hi]; exact k2.oskip i
    · intro i; show _ → (b.impl.ot.add i = true ↔ _); rw [hi]; exact k2.oadd i
    · show QB _ S bs b.impl.qIn; rw [hi]; exact k2.q
    · show WB _ S bs b.impl.eOut; rw [hi]; exact k2.w
    · show b.impl.it = _; rw [hi]
    · show b.impl.eIn = _; rw [hi]
    · show b.impl.eInOk = _; rw [hi]
    · show b.impl.states = _; rw [hi]

theorem optApply_wp {op : Oper α} {S : Meaning α} {bs : Nat} (h : OptOK op S bs) (F : Nat → (Nat → Nat → α) → Nat → Nat → α)
    (chk : Bool) (junk : Nat → Nat → α) {s : OSt α} (hg : OptGood op S bs s) {inv outv : VPtr} {R : Prop}
    (hR : R → OptInReady op inv s.base ∧ OptOutLong op outv s.base ∧ (s.base.impl.done = true → Unlocked s.base)) :
    M.wp R (applyOpt op F chk bs junk inv outv) s (fun s' _ => OptGood op S bs s' ∧
      ((s.base.impl.done = true → Unlocked s.base) → (s'.base.impl.done = true → Unlocked s'.base)) ∧
      (∀ v, (∀ o < op.nout, (op.out o).vec.ptr outv ≠ .vec v) → s'.base.vecs v = s.base.vecs v) ∧
      (ActiveApart op inv outv → Pointwise op F → ∀ v, (∃ o < op.nout, (op.out o).vec.ptr outv = .vec v) → ∀ t,
        s'.base.L v t = S.action op (zeroed op outv s.base.L) inv outv v t))
      (fun s' _ => ¬ R ∧ OptGood op S bs s') := by
  unfold applyOpt
  rw [M.wp_bind]
  refine M.wp_mono (onB_wp (zero_wp (op := op) (s := s.base) (outv := outv) (R := R) ?_)) ?_ ?_
  · intro r o ho hn
    obtain ⟨_, _, _, h2, _⟩ := (hR r).2.1 o ho
    rw [hn] at h2; cases h2
  swap
  · rintro _ _ ⟨_, _, hh⟩
    exact hh.elim
  rintro s1 _ ⟨b, rfl, a1, a2, a3, a4⟩
  have hL : b.L = zeroed op outv s.base.L := by
    funext v
    unfold zeroed St.L
    split
    · rename_i hh
      rw [(a4 v hh).2]
    · rename_i hh
      rw [a3 v (fun o ho hv => hh ⟨o, ho, hv⟩)]
  refine M.wp_mono (optAdd_wp h F chk junk (hg.adv a2 a1) (R := R) ?_) ?_ (fun _ _ hh => hh)
  · intro r
    obtain ⟨r1, r2, r3⟩ := hR r
    refine ⟨?_, ?_, ?_⟩
    · intro i hi hw
      obtain ⟨r', v, b1, b2, b3, b4, b5⟩ := r1 i hi hw
      refine ⟨r', v, b1, b2, ?_, ?_, ?_⟩
      · by_cases hv : ∃ o < op.nout, (op.out o).vec.ptr outv = .vec v
        · exact (a4 v hv).1
        · show (b.vecs v).valid = true
          rw [a3 v (fun o ho hh => hv ⟨o, ho, hh⟩)]; exact b3
      · show _ ≤ ((b.vecs v).buf.len : Int)
        rw [(a2 v).1]; exact b4
      · show _ → _ = ((b.vecs v).buf.len : Int)
        rw [(a2 v).1]; exact b5
    · intro o ho
      obtain ⟨r', v, b1, b2, b3⟩ := r2 o ho
      refine ⟨r', v, b1, b2, (a4 v ⟨o, ho, b2⟩).1, ?_⟩
      show _ = ((b.vecs v).buf.len : Int)
      rw [(a2 v).1]; exact b3
    · show b.impl.done = true → Unlocked b
      unfold Unlocked at *; rw [a1]; exact r3
  · rintro s' _ ⟨b1, b2, b3, b4, b5⟩
    refine ⟨b1, ?_, fun v hv => (b4.other v hv).trans (a3 v hv), ?_⟩
    · have b2 : (b.impl.done = true → Unlocked b) → _ := b2
      unfold Unlocked at *; rw [a1] at b2; exact b2
    · intro ha hF v hv t
      rw [b5 ha hF v t]
      show b.L v t + S.action op b.L inv outv v t = _
      rw [hL]
      unfold zeroed
      rw [if_pos hv, zero_add]

theorem ReachOpt.good {op : Oper α} {S : Meaning α} {F : Nat → (Nat → Nat → α) → Nat → Nat → α} {chk : Bool} {bs : Nat}
    (h : OptOK op S bs) {fails : Prop} {s : OSt α} (hr : ReachOpt op F chk bs fails s) :
    OptGood op S bs s ∧ (¬ fails → s.base.impl.done = true → Unlocked s.base) := by
  induction hr with
  | start s hd hv => exact ⟨⟨Or.inl hd, hv⟩, fun _ hh => by rw [hd] at hh; cases hh⟩
  | user _ ha ih => exact ⟨ih.1.adv ha rfl, fun hf hd => ih.2 hf hd⟩
  | applyAdd _ e ih =>
    have := M.wp_ok (optAdd_wp h F chk _ ih.1 (R := False) (fun hh => hh.elim)) e
    exact ⟨this.1, fun hf => this.2.1 (ih.2 hf)⟩
  | apply _ e ih =>
    have := M.wp_ok (optApply_wp h F chk _ ih.1 (R := False) (fun hh => hh.elim)) e
    exact ⟨this.1, fun hf => this.2.1 (ih.2 hf)⟩
  | applyAddErr hf _ e ih =>
    exact ⟨(M.wp_err (optAdd_wp h F chk _ ih.1 (R := False) (fun hh => hh.elim)) e).2, fun hn => absurd hf hn⟩
  | applyErr hf _ e ih =>
    exact ⟨(M.wp_err (optApply_wp h F chk _ ih.1 (R := False) (fun hh => hh.elim)) e).2, fun hn => absurd hf hn⟩

/-! ## C54 -/

/-- After any history, failed calls included, a successful `CeedOperatorApplyAdd` on a backend with blocks of any size adds
to every vector exactly the action of the operator, the same as on the reference backend (C37), if the active input is
not written; vectors that are not outputs are left alone. -/
theorem C54_apply_add {op : Oper α} {S : Meaning α} {bs : Nat} (h : OptOK op S bs) {F : Nat → (Nat → Nat → α) → Nat → Nat → α}
    (hF : Pointwise op F) {chk : Bool} {s s' : OSt α} (hr : ReachOpt op F chk bs True s) {junk : Nat → Nat → α} {inv outv : VPtr}
    (ha : ActiveApart op inv outv) (e : applyAddOpt op F chk bs junk inv outv s = .ok s' ()) :
    (∀ v t, s'.base.L v t = s.base.L v t + S.action op s.base.L inv outv v t) ∧
    ∀ v, (∀ o < op.nout, (op.out o).vec.ptr outv ≠ .vec v) → s'.base.vecs v = s.base.vecs v := by
  have := M.wp_ok (optAdd_wp h F chk _ (hr.good h).1 (R := False) (fun hh => hh.elim)) e
  exact ⟨this.2.2.2.2 ha hF, this.2.2.2.1.other⟩

/-- After any history, a successful `CeedOperatorApply` stores the action in the outputs, if no vector is both read and
written. -/
theorem C54_apply {op : Oper α} {S : Meaning α} {bs : Nat} (h : OptOK op S bs) {F : Nat → (Nat → Nat → α) → Nat → Nat → α}
    (hF : Pointwise op F) {chk : Bool} {s s' : OSt α} (hr : ReachOpt op F chk bs True s) {junk : Nat → Nat → α} {inv outv : VPtr}
    (hna : NoAlias op inv outv) (e : applyOpt op F chk bs junk inv outv s = .ok s' ()) :
    (∀ v, (∃ o < op.nout, (op.out o).vec.ptr outv = .vec v) → ∀ t, s'.base.L v t = S.action op s.base.L inv outv v t) ∧
    ∀ v, (∀ o < op.nout, (op.out o).vec.ptr outv ≠ .vec v) → s'.base.vecs v = s.base.vecs v := by
  have := M.wp_ok (optApply_wp h F chk _ (hr.good h).1 (R := False) (fun hh => hh.elim)) e
  refine ⟨fun v hv t => ?_, this.2.2.1⟩
  have ha : ActiveApart op inv outv := by
    intro i hi hw hv o ho hh
    exact hna i hi o ho hw (by rw [hv, hh]; rfl)
  rw [this.2.2.2 ha hF v hv t]
  refine action_congr (fun i hi hw => ?_) outv v t
  match hp : (op.inp i).vec.ptr inv with
  | .null => rfl
  | .none => rfl
  | .vec u =>
    show zeroed op outv s.base.L u = s.base.L u
    unfold zeroed
    rw [if_neg]
    rintro ⟨o, ho, hh⟩
    exact hna i hi o ho hw (by rw [hp, hh])

/-- After a history without failing calls, `CeedOperatorApplyAdd` succeeds, without undefined behaviour, exactly if (for a
nonempty mesh) the vectors read hold data and are long enough, the vectors written hold data, and the active input and
the vectors written have exactly the length of their restrictions. -/
theorem C54_apply_add_succeeds {op : Oper α} {S : Meaning α} {bs : Nat} (h : OptOK op S bs)
    {F : Nat → (Nat → Nat → α) → Nat → Nat → α} {chk : Bool} {s : OSt α} (hr : ReachOpt op F chk bs False s)
    (junk : Nat → Nat → α) {inv outv : VPtr} (hne : 0 < op.ne) :
    (∃ s', applyAddOpt op F chk bs junk inv outv s = .ok s' ()) ↔ OptInReady op inv s.base ∧ OptOutReady op outv s.base := by
  have hg := hr.good h
  constructor
  · rintro ⟨s', e⟩
    exact (M.wp_ok (optAdd_wp h F chk _ hg.1 (R := False) (fun hh => hh.elim)) e).2.2.1 hne
  · intro hrdy
    have := optAdd_wp h F chk junk hg.1 (inv := inv) (outv := outv) (R := True)
      (fun _ => ⟨hrdy.1, hrdy.2, hg.2 (fun hh => hh)⟩)
    cases e : applyAddOpt op F chk bs junk inv outv s with
    | ok s' a => exact ⟨s', rfl⟩
    | err s' c => exact absurd trivial (M.wp_err this e).1
    | ub => exact absurd trivial (M.wp_ub this e)

/-- After a history without failing calls, `CeedOperatorApply` succeeds if the vectors it reads hold data and are long
enough, and the active input and the vectors written have exactly the length of their restrictions. -/
theorem C54_apply_succeeds {op : Oper α} {S : Meaning α} {bs : Nat} (h : OptOK op S bs)
    {F : Nat → (Nat → Nat → α) → Nat → Nat → α} {chk : Bool} {s : OSt α} (hr : ReachOpt op F chk bs False s)
    (junk : Nat → Nat → α) {inv outv : VPtr} (hi : OptInReady op inv s.base) (ho : OptOutLong op outv s.base) :
    ∃ s', applyOpt op F chk bs junk inv outv s = .ok s' () := by
  have hg := hr.good h
  have := optApply_wp h F chk junk hg.1 (inv := inv) (outv := outv) (R := True)
    (fun _ => ⟨hi, ho, hg.2 (fun hh => hh)⟩)
  cases e : applyOpt op F chk bs junk inv outv s with
  | ok s' a => exact ⟨s', rfl⟩
  | err s' c => exact absurd trivial (M.wp_err this e).1
  | ub => exact absurd trivial (M.wp_ub this e)

/-- Whatever happened before, if `CeedOperatorApplyAdd` succeeds on the backend with blocks and on the reference backend,
starting from vectors with the same contents, then it leaves the same contents; and where it succeeds with blocks it
succeeds on the reference backend. Different block sizes give the same contents, too (take the reference between). -/
theorem C54_as_reference {op : Oper α} {S : Meaning α} {bs : Nat} (h : OptOK op S bs) {F : Nat → (Nat → Nat → α) → Nat → Nat → α}
    (hF : Pointwise op F) {chk : Bool} {s s' : OSt α} {fails : Prop} (hr : ReachOpt op F chk bs True s) {junk junk' : Nat → Nat → α}
    {inv outv : VPtr} (ha : ActiveApart op inv outv) (e : applyAddOpt op F chk bs junk inv outv s = .ok s' ())
    {r : St α} (hrr : Reach op fails r) (hv : r.vecs = s.base.vecs) :
    (∀ r', applyAdd op junk' inv outv r = .ok r' () → r'.L = s'.base.L) ∧
    (¬ fails → ∃ r', applyAdd op junk' inv outv r = .ok r' ()) := by
  have hw := M.wp_ok (optAdd_wp h F chk _ (hr.good h).1 (R := False) (fun hh => hh.elim)) e
  have hL : r.L = s.base.L := by unfold St.L; rw [hv]
  constructor
  · intro r' e'
    have hw' := M.wp_ok (applyAdd_wp h.1 _ (hrr.good h.1).1 (R := False) (fun hh => hh.elim)) e'
    funext v t
    rw [hw'.2.2.2.2.2.2 v t, hw.2.2.2.2 ha hF v t, hL]
  · intro hf
    have hg := hrr.good h.1
    by_cases hne : 0 < op.ne
    · have hrdy := hw.2.2.1 hne
      have := applyAdd_wp h.1 junk' hg.1 (inv := inv) (outv := outv) (R := True)
        (fun _ => ⟨fun i hi hwt => by
            obtain ⟨r', v, c1, c2, c3, c4, _⟩ := hrdy.1 i hi hwt
            exact ⟨r', v, c1, c2, by rw [hv]; exact c3, by rw [hv]; exact c4⟩,
          fun o ho => by
            obtain ⟨r', v, c1, c2, c3, c4⟩ := hrdy.2 o ho
            exact ⟨r', v, c1, c2, by rw [hv]; exact c3, by rw [hv]; exact c4.le⟩, hg.2 hf⟩)
      cases e' : applyAdd op junk' inv outv r with
      | ok r' a => exact ⟨r', rfl⟩
      | err r' c => exact absurd trivial (M.wp_err this e').1
      | ub => exact absurd trivial (M.wp_ub this e')
    · refine ⟨r, ?_⟩
      unfold applyAdd
      rw [if_neg hne]; rfl

end Operator
end Verif
