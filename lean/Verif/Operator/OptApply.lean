import Verif.Operator.OptOut

/-!
# Application on blocks of elements (helper lemmas)
-/

set_option linter.unusedSectionVars false

namespace Verif
namespace Operator

open Finset
open Restriction (RData Made Rstr Rep laneEnd)
open Basis (Bas EMode)

variable {α : Type} [CommRing α]

/-! ## Invariant -/

/-- Invariant, between calls, of an operator that has been set up; `op` has the restrictions with blocks. -/
structure OInv (op : Oper α) (S : Meaning α) (bs : Nat) (s : OSt α) : Prop where
  done : s.base.impl.done = true
  idR : s.base.impl.idRstr = (op.isId && decide ((op.inp 0).mode = .none) && decide ((op.out 0).mode = .none))
  ev : ∀ i < op.nin, isBasisMode (op.inp i).mode = true → s.base.impl.it.ev i = some (elen S (op.inp i))
  ofull : ∀ o < op.nout, s.base.impl.ot.full o = some (last op o)
  oskip : ∀ o < op.nout, (s.base.impl.ot.skip o = true ↔ o < last op o)
  oadd : ∀ o < op.nout, (s.base.impl.ot.add o = true ↔ ∃ i < o, (op.out i).same (op.out o) = true)
  q : QB op S bs s.base.impl.qIn
  w : WB op S bs s.base.impl.eOut
  eb : EB op S bs s.eBlk
  g : GInv op (GathB op S bs) s.base

theorem GInv.adv {op : Oper α} {G : Nat → Buf α → (Nat → α) → Prop} {s s' : St α} (h : GInv op G s) (hv : Advances s.vecs s'.vecs)
    (h1 : s'.impl.it = s.impl.it) (h2 : s'.impl.eIn = s.impl.eIn) (h3 : s'.impl.eInOk = s.impl.eInOk)
    (h4 : s'.impl.states = s.impl.states) : GInv op G s' := by
  refine ⟨by rw [h1]; exact h.full, by rw [h1]; exact h.skip, by rw [h2]; exact h.eIn, hv.vz h.vz, ?_⟩
  intro i hi' hw hf
  have := h.cache i hi' hw hf
  unfold CacheG at this ⊢
  rw [h2, h3, h4]
  match hvec : (op.inp i).vec with
  | .active => trivial
  | .none => rw [hvec] at this; exact this
  | .vec v =>
    rw [hvec] at this
    obtain ⟨a, b⟩ := this
    rcases (hv v).2 with h1 | h1
    · show s.impl.states i ≤ (s'.vecs v).state ∧ (s.impl.states i = (s'.vecs v).state → _)
      rw [h1]; exact ⟨a, b⟩
    · exact ⟨by omega, fun hh => absurd hh (by omega)⟩

theorem OInv.put {op : Oper α} {S : Meaning α} {bs : Nat} {s : OSt α} (h : OInv op S bs s) {q w eb : Nat → Buf α} {vs : Nat → LVec α}
    (hq : QB op S bs q) (hw : WB op S bs w) (heb : EB op S bs eb) (hv : Advances s.base.vecs vs) : OInv op S bs (s.put q w eb vs) :=
  ⟨h.done, h.idR, h.ev, h.ofull, h.oskip, h.oadd, hq, hw, heb, h.g.adv hv rfl rfl rfl rfl⟩

/-! ## Setup -/

/-- A restriction of a field of the operator that is used. -/
def UsedR (op : Oper α) (r : Nat) : Prop :=
  (∃ i < op.nin, (op.inp i).mode ≠ .weight ∧ (op.inp i).rid = some r) ∨ ∃ o < op.nout, (op.out o).rid = some r

theorem blockField_ok {op : Oper α} {S : Meaning α} {bs : Nat} (hb : 0 < bs) (chk : Bool) {a : OField α}
    (ha : a.mode ≠ .weight → HasRstr op S a) {U : Nat → Prop} {br : Nat → Rstr}
    (hbr : ∀ r, (U r → Rep (br r) .plain (S.D r) ∧ (br r).blockSize = bs) ∧ (br r).lSize = (op.rstrs r).lSize) :
    ∃ br', blockField chk bs op a br = .ok br' ∧
      ∀ r, (U r ∨ (a.mode ≠ .weight ∧ a.rid = some r) → Rep (br' r) .plain (S.D r) ∧ (br' r).blockSize = bs) ∧
        (br' r).lSize = (op.rstrs r).lSize := by
  unfold blockField
  by_cases hw : a.mode = .weight
  · rw [if_pos hw]
    refine ⟨br, rfl, fun r => ⟨?_, (hbr r).2⟩⟩
    rintro (hu | ⟨h1, _⟩)
    · exact (hbr r).1 hu
    · exact absurd hw h1
  · rw [if_neg hw]
    obtain ⟨r, l, h1, h2, _⟩ := ha hw
    obtain ⟨r', e1, e2, e3, e4⟩ := blockRstr_ok chk hb h2
    rw [h1]
    refine ⟨Function.update br r r', by simp only [e1, Res.bind_ok], fun x => ?_⟩
    by_cases hx : x = r
    · subst hx
      rw [Function.update_self]
      exact ⟨fun _ => ⟨e2, e3⟩, e4⟩
    · rw [Function.update_of_ne hx]
      refine ⟨?_, (hbr x).2⟩
      rintro (hu | ⟨_, h3⟩)
      · exact (hbr x).1 hu
      · cases h3; exact absurd rfl hx

theorem setupBlocks_ok {op : Oper α} {S : Meaning α} {bs : Nat} (h : OpOK op S) (hb : 0 < bs) (chk : Bool) :
    ∃ br, setupBlocks chk bs op = .ok br ∧
      ∀ r, (UsedR op r → Rep (br r) .plain (S.D r) ∧ (br r).blockSize = bs) ∧ (br r).lSize = (op.rstrs r).lSize := by
  unfold setupBlocks
  obtain ⟨br1, e1, h1⟩ := loop_inv (n := op.nin) (s := op.rstrs) (body := fun i br => blockField chk bs op (op.inp i) br)
    (fun j br => ∀ r, ((∃ i < j, (op.inp i).mode ≠ .weight ∧ (op.inp i).rid = some r) →
      Rep (br r) .plain (S.D r) ∧ (br r).blockSize = bs) ∧ (br r).lSize = (op.rstrs r).lSize)
    (fun r => ⟨fun ⟨i, hi, _⟩ => absurd hi (by omega), rfl⟩)
    (by
      intro i hi br hbr
      obtain ⟨br', e, hh⟩ := blockField_ok hb chk (a := op.inp i) (fun hw => h.in_rstr hi hw) hbr
      refine ⟨br', e, fun r => ⟨?_, (hh r).2⟩⟩
      rintro ⟨i', h1, h2⟩
      refine (hh r).1 ?_
      by_cases hii : i' = i
      · subst hii; exact Or.inr h2
      · exact Or.inl ⟨i', by omega, h2⟩)
  obtain ⟨br2, e2, h2⟩ := loop_inv (n := op.nout) (s := br1) (body := fun o br => blockField chk bs op (op.out o) br)
    (fun j br => ∀ r, (((∃ i < op.nin, (op.inp i).mode ≠ .weight ∧ (op.inp i).rid = some r) ∨
        ∃ o < j, (op.out o).rid = some r) →
      Rep (br r) .plain (S.D r) ∧ (br r).blockSize = bs) ∧ (br r).lSize = (op.rstrs r).lSize)
    (fun r => ⟨by
      rintro (hh | ⟨i, hi, _⟩)
      · exact (h1 r).1 hh
      · omega, (h1 r).2⟩)
    (by
      intro o ho br hbr
      obtain ⟨br', e, hh⟩ := blockField_ok hb chk (a := op.out o) (fun _ => h.out_rstr ho) hbr
      refine ⟨br', e, fun r => ⟨?_, (hh r).2⟩⟩
      rintro (h3 | ⟨i', h1, h2⟩)
      · exact (hh r).1 (Or.inl (Or.inl h3))
      · refine (hh r).1 ?_
        by_cases hii : i' = o
        · subst hii; exact Or.inr ⟨h.out_not_weight ho, h2⟩
        · exact Or.inl (Or.inr ⟨i', by omega, h2⟩))
  refine ⟨br2, ?_, h2⟩
  rw [e1, Res.bind_ok, e2]

/-- The operator with the copies of the restrictions. -/
theorem OptOK.blk {op : Oper α} {S : Meaning α} {bs : Nat} (h : OptOK op S bs) {br : Nat → Rstr}
    (hbr : ∀ r, (UsedR op r → Rep (br r) .plain (S.D r) ∧ (br r).blockSize = bs) ∧ (br r).lSize = (op.rstrs r).lSize) :
    BlkOK (op.blk br) S bs := by
  obtain ⟨h, hb, hwt⟩ := h
  have hR : ∀ a, (∀ r, a.rid = some r → UsedR op r) → HasRstr op S a → BRstr (op.blk br) S bs a := by
    rintro a hu ⟨r, l, h1, h2, h3⟩
    obtain ⟨k1, k2⟩ := (hbr r).1 (hu r h1)
    have hd : S.dat a = S.D r := by unfold Meaning.dat; rw [h1]; rfl
    exact ⟨r, h1, by rw [hd]; exact k1, k2, by rw [hd]; exact h3⟩
  refine ⟨hb, ?_, ?_, fun i hi hm => (h.in_none hi hm).2, ?_, fun o ho => h.out_not_weight ho, ?_, fun o ho hm => (h.out_none ho hm).2, ?_,
    ?_, h.shareOut, h.ident⟩
  · intro i hi hm
    obtain ⟨_, _, k1, b, k2, k3, _⟩ := h.in_weight hi hm
    exact ⟨k1, b, k2, k3, hwt i hi hm b k2⟩
  · intro i hi hw
    exact hR _ (fun r hr => Or.inl ⟨i, hi, hw, hr⟩) (h.in_rstr hi hw)
  · intro i hi hm
    exact (h.in_basis hi hm).2
  · intro o ho
    exact hR _ (fun r hr => Or.inr ⟨o, ho, hr⟩) (h.out_rstr ho)
  · intro o ho hm
    exact (h.out_basis ho hm).2
  · intro i hi hw
    show (op.inp (first op i)).mode ≠ .weight
    by_cases hf : first op i = i
    · rw [hf]; exact hw
    · have hlt : first op i < i := by have := first_le op i; omega
      have hb := h.shareIn (first op i) i hlt hi (first_same op i) (fun k hk => first_min op hk)
      exact weight_not_basis hb

theorem evOpt_basis {op : Oper α} {S : Meaning α} {a : OField α} {b : Bas α} (hf : Fits op S a b)
    (hm : isBasisMode a.mode = true) : a.evOpt op.Q = some (elen S a) := by
  obtain ⟨h1, h2, h3, _⟩ := hf
  unfold OField.evOpt elen
  have : a.mode ≠ .none := by intro hh; rw [hh] at hm; simp [isBasisMode] at hm
  rw [if_neg this, if_pos hm, h1, Option.map_some, h2, h3]

theorem evOpt_none {op : Oper α} {S : Meaning α} {a : OField α} (hm : a.mode = .none) (h1 : (S.dat a).es = op.Q)
    (h2 : a.size = (S.dat a).nc) : a.evOpt op.Q = some (elen S a) := by
  unfold OField.evOpt elen
  rw [if_pos hm, h1, h2]

theorem OpOK.evOpt_in {op : Oper α} {S : Meaning α} (h : OpOK op S) {i : Nat} (hi : i < op.nin) (hw : (op.inp i).mode ≠ .weight) :
    (op.inp i).evOpt op.Q = some (elen S (op.inp i)) := by
  rcases mode_cases (op.inp i).mode with hm | hm | hm
  · exact absurd hm hw
  · obtain ⟨_, h1, h2⟩ := h.in_none hi hm
    exact evOpt_none hm h1 h2
  · obtain ⟨_, b, h1, _⟩ := h.in_basis hi hm
    exact evOpt_basis h1 hm

theorem OpOK.evOpt_out {op : Oper α} {S : Meaning α} (h : OpOK op S) {o : Nat} (ho : o < op.nout) :
    (op.out o).evOpt op.Q = some (elen S (op.out o)) := by
  rcases mode_cases (op.out o).mode with hm | hm | hm
  · exact absurd hm (h.out_not_weight ho)
  · obtain ⟨_, h1, h2⟩ := h.out_none ho hm
    exact evOpt_none hm h1 h2
  · obtain ⟨_, b, h1, _⟩ := h.out_basis ho hm
    exact evOpt_basis h1 hm

theorem setupQOpt_spec {op : Oper α} {S : Meaning α} {bs : Nat} (h : OptOK op S bs) (junk : Nat → Nat → α) :
    ∃ q, setupQOpt op bs junk = .ok q ∧ QB op S bs q := by
  obtain ⟨h, hb, hwt⟩ := h
  unfold setupQOpt
  obtain ⟨q, e, hq⟩ := loop_inv (n := op.nin)
    (body := fun i (q : Nat → Buf α) =>
      if (op.inp i).mode = .weight then
        match (op.inp i).basis with
        | some b => do
          let v ← Basis.apply b junk bs .noTranspose .weight none ⟨op.Q * bs, fun _ => 0⟩
          .ok (Function.update q i v)
        | none => .err .incompatible
      else .ok q)
    (s := fun i => ⟨op.Q * (op.inp i).size * bs, fun _ => 0⟩)
    (fun j q => ∀ i < op.nin, (q i).len = op.Q * (op.inp i).size * bs ∧
      (i < j → (op.inp i).mode = .weight → ∀ x < op.Q, ∀ l < bs, (q i).val (x * bs + l) = S.w i x))
    (fun i _ => ⟨rfl, fun hi => absurd hi (by omega)⟩)
    (by
      intro i hi q hq
      by_cases hw : (op.inp i).mode = .weight
      · obtain ⟨_, _, hsz, b, hb, hQ, _⟩ := h.in_weight hi hw
        obtain ⟨v', e1, e2, e3⟩ := hwt i hi hw b hb junk ⟨op.Q * bs, fun _ => 0⟩ (by show b.Q * bs ≤ op.Q * bs; rw [hQ])
        refine ⟨Function.update q i v', by simp [hw, hb, e1], ?_⟩
        intro j hj
        by_cases hji : j = i
        · subst hji
          rw [Function.update_self]
          refine ⟨by rw [e2, hsz]; simp, fun _ _ x hx l hl => e3 x (by omega) l hl⟩
        · rw [Function.update_of_ne hji]
          exact ⟨(hq j hj).1, fun hlt => (hq j hj).2 (by omega)⟩
      · refine ⟨q, by simp [hw], ?_⟩
        intro j hj
        refine ⟨(hq j hj).1, fun hlt hwj => ?_⟩
        by_cases hji : j = i
        · subst hji; exact absurd hwj hw
        · exact (hq j hj).2 (by omega) hwj)
  exact ⟨q, e, fun i hi => ⟨(hq i hi).1, (hq i hi).2 hi⟩⟩

/-- States of a history: before or after the setup. -/
def OptGood (op : Oper α) (S : Meaning α) (bs : Nat) (s : OSt α) : Prop :=
  (s.base.impl.done = false ∨ (BlkOK (op.blk s.br) S bs ∧ OInv (op.blk s.br) S bs s ∧
    ∀ r, (s.br r).lSize = (op.rstrs r).lSize)) ∧ ∀ v, (s.base.vecs v).state = 0 → (s.base.vecs v).valid = false

theorem setupOpt_ok {op : Oper α} {S : Meaning α} {bs : Nat} (h : OptOK op S bs) (chk : Bool) (junk : Nat → Nat → α)
    {s : OSt α} (hg : OptGood op S bs s) :
    ∃ s', setupOpt op chk bs junk s = .ok s' () ∧ BlkOK (op.blk s'.br) S bs ∧ OInv (op.blk s'.br) S bs s' ∧
      (∀ r, (s'.br r).lSize = (op.rstrs r).lSize) ∧ s'.base.vecs = s.base.vecs ∧
      ((s.base.impl.done = true → Unlocked s.base) → Unlocked s'.base) := by
  unfold setupOpt
  simp only [M.bind_apply, getOB, Out.bind_ok]
  by_cases hd : s.base.impl.done = true
  · refine ⟨s, by rw [if_pos hd]; rfl, ?_⟩
    rcases hg.1 with h1 | ⟨h1, h2, h3⟩
    · rw [h1] at hd; cases hd
    · exact ⟨h1, h2, h3, rfl, fun hu => hu hd⟩
  · rw [if_neg hd]
    obtain ⟨h0, hb, _⟩ := id h
    obtain ⟨br, e0, h5⟩ := setupBlocks_ok h0 hb chk
    obtain ⟨q, e1, h1⟩ := setupQOpt_spec h junk
    obtain ⟨it, e2, a1, a2, a3⟩ := setupInWith_spec (op := op) (ev0 := OField.evOpt op.Q) (E := fun j => elen S (op.inp j))
      (fun i j hs => by unfold elen; rw [dat_same hs])
      (fun i j hij hj hs hfi => by
        have hb := h0.shareIn i j hij hj hs (fun k hk => by
          apply first_min op; rw [← first_congr op hs, hfi]; exact hk)
        exact ⟨weight_not_basis hb, h0.evOpt_in (by omega) (weight_not_basis hb)⟩)
    obtain ⟨ot, e3, b1, b2, b3, b4, b5⟩ := setupOutWith_spec (op := op) (ev0 := OField.evOpt op.Q) (E := fun j => elen S (op.out j))
      (fun i j hs => by unfold elen; rw [dat_same hs]) (fun j hj => h0.out_not_weight hj)
      (fun j i hij hi hs => h0.evOpt_out hi)
    simp only [M.bind_apply, e0, e1, e2, e3, M.lift_ok, Out.bind_ok, modI, onB]
    refine ⟨_, rfl, h.blk h5, ?_, fun r => (h5 r).2, rfl, fun _ => ⟨fun _ => rfl, fun _ => rfl⟩⟩
    refine ⟨rfl, rfl, ?_, b2, b1, b4, h1, ?_, ?_, ?_⟩
    · intro i hi hm
      show it.ev i = _
      rw [a3 i hi]
      split
      · rfl
      · exact h0.evOpt_in hi (weight_not_basis hm)
    · intro o ho
      show ((op.out o).evOpt op.Q).getD 0 * bs = _
      rw [h0.evOpt_out ho, Option.getD_some]
      unfold elen blen
      show _ = bs * (S.dat (op.out o)).es * (S.dat (op.out o)).nc
      ring
    · intro i hi hw
      show ((op.inp i).evOpt op.Q).getD 0 * bs = _
      rw [h0.evOpt_in hi hw, Option.getD_some]
      unfold elen blen
      show _ = bs * (S.dat (op.inp i)).es * (S.dat (op.inp i)).nc
      ring
    · refine ⟨a2, a1, fun i _ => rfl, hg.2, ?_⟩
      intro i hi hw hf
      unfold CacheG
      split
      · trivial
      · exact ⟨rfl, rfl⟩
      · exact ⟨Nat.zero_le _, fun hz => Or.inl ⟨hz.symm, rfl⟩⟩

/-! ## All blocks -/

/-- What output `o` adds on the elements of block `b`. -/
def blkTrue (op : Oper α) (S : Meaning α) (bs : Nat) (L : Nat → Nat → α) (inv outv : VPtr) (b v t : Nat) : α :=
  ∑ o ∈ range op.nout, if (op.out o).vec.ptr outv = .vec v then
    ∑ j ∈ range (laneEnd bs op.ne (b * bs)), (S.dat (op.out o)).elemScatter (S.elemOut op L inv o (b * bs + j)) (b * bs + j) t else 0

theorem sum_blkTrue {op : Oper α} {S : Meaning α} {bs : Nat} (h : BlkOK op S bs) (L : Nat → Nat → α) (inv outv : VPtr) (v t : Nat) :
    ∑ b ∈ range (nbk op bs), blkTrue op S bs L inv outv b v t = S.action op L inv outv v t := by
  unfold blkTrue Meaning.action
  rw [sum_comm]
  refine sum_congr rfl (fun o ho => ?_)
  split
  · have h1 := Restriction.sum_lanes (ne := op.ne) (bs := bs)
      (fun e => (S.dat (op.out o)).elemScatter (S.elemOut op L inv o e) e t) (nbk op bs)
    rw [h1]
    have h2 : op.ne ≤ nbk op bs * bs := (Restriction.nb_bounds (ne := op.ne) h.pos).1
    obtain ⟨r, _, _, _, h3⟩ := h.outR o (mem_range.1 ho)
    rw [Nat.min_eq_right h2, ← h3]
    rfl
  · exact sum_const_zero

theorem lane_lt {ne bs b j : Nat} (hj : j ∈ range (laneEnd bs ne (b * bs))) : j < bs ∧ min (b * bs + j) (ne - 1) = b * bs + j := by
  rw [mem_range] at hj
  unfold laneEnd at hj
  omega

theorem elemOut_lane {op : Oper α} {S : Meaning α} {bs : Nat} (h : BlkOK op S bs)
    {F : Nat → (Nat → Nat → α) → Nat → Nat → α} (hF : Pointwise op F) {L : Nat → Nat → α} {inv : VPtr} {b : Nat}
    {q : Nat → Buf α} (hv : ∀ i < op.nin, LaneIn op S bs b L inv i (q i)) {o j : Nat} (ho : o < op.nout) (hj : j < bs) {k n : Nat}
    (hk : k < (S.dat (op.out o)).nc) (hn : n < (S.dat (op.out o)).es) :
    laneOut op S bs (evalBlk op F bs q) o k n j = S.elemOut op L inv o (min (b * bs + j) (op.ne - 1)) k n := by
  unfold laneOut
  rcases mode_cases (op.out o).mode with hm | hm | hm
  · exact absurd hm (h.outW o ho)
  · obtain ⟨h1, h2⟩ := h.outN o ho hm
    have hlt : k * op.Q + n < op.Q * (op.out o).size := by
      rw [h2, ← h1]
      have : (k + 1) * (S.dat (op.out o)).es ≤ (S.dat (op.out o)).nc * (S.dat (op.out o)).es := Nat.mul_le_mul_right _ hk
      rw [Nat.add_mul] at this
      rw [Nat.mul_comm (S.dat (op.out o)).es]; omega
    rw [if_pos hm, evalBlk_eq h hF hv ho hlt hj]
    unfold Meaning.elemOut
    simp only [hm]
  · have hnn : (op.out o).mode ≠ .none := by
      intro hh; rw [hh] at hm; simp [isBasisMode] at hm
    obtain ⟨bb, ⟨f1, f2, f3, f4, f5⟩, _⟩ := h.outB o ho hm
    rw [if_neg hnn]
    have : S.elemOut op L inv o (min (b * bs + j) (op.ne - 1)) k n = ∑ c ∈ range (op.out o).qc, ∑ q ∈ range op.Q,
      (S.mOut o).val ((c * op.Q + q) * (S.dat (op.out o)).es + n) *
        S.outArr op L inv (min (b * bs + j) (op.ne - 1)) o ((c * (S.dat (op.out o)).nc + k) * op.Q + q) := by
      unfold Meaning.elemOut
      cases hmm : (op.out o).mode <;> simp_all
    rw [this]
    refine sum_congr rfl (fun c hc => sum_congr rfl (fun x hx => ?_))
    rw [mem_range] at hc hx
    have hqc : (op.out o).qc = bb.qComp (op.out o).mode := by unfold OField.qc; rw [f1]
    have hlt : (c * (S.dat (op.out o)).nc + k) * op.Q + x < op.Q * (op.out o).size := by
      rw [f5, ← hqc]
      have h1 : c * (S.dat (op.out o)).nc + k + 1 ≤ (S.dat (op.out o)).nc * (op.out o).qc := by
        have : (c + 1) * (S.dat (op.out o)).nc ≤ (op.out o).qc * (S.dat (op.out o)).nc := Nat.mul_le_mul_right _ hc
        rw [Nat.add_mul] at this
        rw [Nat.mul_comm (S.dat (op.out o)).nc]; omega
      have h2 : (c * (S.dat (op.out o)).nc + k + 1) * op.Q ≤ (S.dat (op.out o)).nc * (op.out o).qc * op.Q := Nat.mul_le_mul_right _ h1
      rw [Nat.add_mul] at h2
      rw [Nat.mul_comm op.Q]; omega
    rw [evalBlk_eq h hF hv ho hlt hj]

theorem blkAdds_true {op : Oper α} {S : Meaning α} {bs : Nat} (h : BlkOK op S bs)
    {F : Nat → (Nat → Nat → α) → Nat → Nat → α} (hF : Pointwise op F) {L : Nat → Nat → α} {inv outv : VPtr} {b : Nat}
    {q : Nat → Buf α} (hv : ∀ i < op.nin, LaneIn op S bs b L inv i (q i)) (v t : Nat) :
    blkAdds op S bs b outv (evalBlk op F bs q) v t = blkTrue op S bs L inv outv b v t := by
  unfold blkAdds blkTrue blkScatter
  refine sum_congr rfl (fun o ho => ?_)
  split
  · refine sum_congr rfl (fun j hj => ?_)
    obtain ⟨h1, h2⟩ := lane_lt hj
    refine elemScatter_congr _ _ (fun k hk n hn => ?_)
    rw [elemOut_lane h hF hv (mem_range.1 ho) h1 hk hn, h2]
  · rfl

/-- Effect of all blocks, started in `s`. -/
structure BEff (op : Oper α) (S : Meaning α) (bs : Nat) (P : Prop) (inv outv : VPtr) (s s' : OSt α) : Prop where
  shape : ∃ q w eb vs, s' = s.put q w eb vs ∧ QB op S bs q ∧ WB op S bs w ∧ EB op S bs eb
  step : VStep op outv s.base.vecs s'.base.vecs
  act : ∀ i < op.nin, ActReady op inv s.base.vecs i
  out : ∀ o < op.nout, BReadyO op outv s.base.vecs o
  val : P → ∀ v t, (s'.base.vecs v).buf.val t = (s.base.vecs v).buf.val t + S.action op s.base.L inv outv v t

theorem ActReady.step {op : Oper α} {inv outv : VPtr} {a b : Nat → LVec α} (h : VStep op outv a b) (i : Nat) :
    ActReady op inv b i ↔ ActReady op inv a i := by
  unfold ActReady
  constructor
  · intro hh h1 h2
    obtain ⟨r, v, c1, c2, c3, c4⟩ := hh h1 h2
    exact ⟨r, v, c1, c2, by rw [← h.valid]; exact c3, by rw [← (h.adv v).1]; exact c4⟩
  · intro hh h1 h2
    obtain ⟨r, v, c1, c2, c3, c4⟩ := hh h1 h2
    exact ⟨r, v, c1, c2, by rw [h.valid]; exact c3, by rw [(h.adv v).1]; exact c4⟩

/-- The contents of the active input do not change. -/
theorem apart_cont {op : Oper α} {inv outv : VPtr} (ha : ActiveApart op inv outv) {a b : Nat → LVec α} (h : VStep op outv a b)
    {i : Nat} (hi : i < op.nin) (hw : (op.inp i).mode ≠ .weight) (hv : (op.inp i).vec = .active) :
    cont (fun v => (b v).buf.val) inv = cont (fun v => (a v).buf.val) inv := by
  match inv with
  | .null => rfl
  | .none => rfl
  | .vec u =>
    show (b u).buf.val = (a u).buf.val
    rw [h.other u (fun o ho => ha i hi hw hv o ho)]

/-- A loop over blocks. -/
theorem blockLoop_wp {op : Oper α} {S : Meaning α} {bs : Nat} (h : BlkOK op S bs) (hne : 0 < op.ne) {P : Prop} {inv outv : VPtr}
    {body : Nat → M (OSt α) Unit} {s : OSt α} {R : Prop}
    (h0 : QB op S bs s.base.impl.qIn ∧ WB op S bs s.base.impl.eOut ∧ EB op S bs s.eBlk)
    (hb : ∀ b < nbk op bs, ∀ q w eb vs, QB op S bs q → WB op S bs w → EB op S bs eb → VStep op outv s.base.vecs vs →
      M.wp R (body b) (s.put q w eb vs) (fun s' _ =>
        (∀ i < op.nin, ActReady op inv vs i) ∧ (∀ o < op.nout, BReadyO op outv vs o) ∧
        ∃ q' w' eb' vs', s' = s.put q' w' eb' vs' ∧ QB op S bs q' ∧ WB op S bs w' ∧ EB op S bs eb' ∧ VStep op outv vs vs' ∧
        (P → ∀ v t, (vs' v).buf.val t = (vs v).buf.val t + blkTrue op S bs s.base.L inv outv b v t))
      (fun s' _ => ¬ R ∧ ∃ q' w' eb' vs', s' = s.put q' w' eb' vs' ∧ QB op S bs q' ∧ WB op S bs w' ∧ EB op S bs eb' ∧
        VStep op outv vs vs')) :
    M.wp R (M.loop (nblk op.ne bs) body) s (fun s' _ => BEff op S bs P inv outv s s')
      (fun s' _ => ¬ R ∧ ∃ q' w' eb' vs', s' = s.put q' w' eb' vs' ∧ QB op S bs q' ∧ WB op S bs w' ∧ EB op S bs eb' ∧
        VStep op outv s.base.vecs vs') := by
  rw [nblk_eq op h.pos]
  have hpos : 0 < nbk op bs := by
    have := Restriction.div_lt_nb (ne := op.ne) (bs := bs) (e := 0) h.pos hne
    rw [Nat.zero_div] at this
    exact this
  refine M.wp_mono (M.wp_loop (fun j s' => (0 < j → (∀ i < op.nin, ActReady op inv s.base.vecs i) ∧ ∀ o < op.nout, BReadyO op outv s.base.vecs o) ∧
      ∃ q w eb vs, s' = s.put q w eb vs ∧ QB op S bs q ∧ WB op S bs w ∧ EB op S bs eb ∧ VStep op outv s.base.vecs vs ∧
      (P → ∀ v t, (vs v).buf.val t = (s.base.vecs v).buf.val t + ∑ b ∈ range j, blkTrue op S bs s.base.L inv outv b v t)) ?_ ?_) ?_
      (fun _ _ hh => hh)
  · refine ⟨fun hh => absurd hh (by omega), _, _, _, _, rfl, h0.1, h0.2.1, h0.2.2, VStep.refl _ _ _, fun _ v t => ?_⟩
    rw [range_zero, sum_empty, add_zero]
  · rintro b hbl s1 ⟨a1, q, w, eb, vs, rfl, a2, a3, a4, a5, a6⟩
    refine M.wp_mono (hb b hbl q w eb vs a2 a3 a4 a5) ?_ ?_
    · rintro s2 _ ⟨b1, b2, q', w', eb', vs', rfl, b3, b4, b5, b6, b7⟩
      refine ⟨fun _ => ⟨fun i hi => (ActReady.step a5 i).1 (b1 i hi), fun o ho => (BReadyO.step a5 o).1 (b2 o ho)⟩,
        q', w', eb', vs', rfl, b3, b4, b5, a5.trans b6, fun p v t => ?_⟩
      rw [b7 p, a6 p, sum_range_succ, add_assoc]
    · rintro s2 _ ⟨b1, q', w', eb', vs', rfl, b3, b4, b5, b6⟩
      exact ⟨b1, q', w', eb', vs', rfl, b3, b4, b5, a5.trans b6⟩
  · rintro s1 _ ⟨a1, q, w, eb, vs, rfl, a2, a3, a4, a5, a6⟩
    refine ⟨⟨q, w, eb, vs, rfl, a2, a3, a4⟩, a5, (a1 hpos).1, (a1 hpos).2, fun p v t => ?_⟩
    show (vs v).buf.val t = _
    rw [a6 p, sum_blkTrue h]

theorem generalBlocks_wp {op : Oper α} {S : Meaning α} {bs : Nat} (h : BlkOK op S bs) (hne : 0 < op.ne)
    (F : Nat → (Nat → Nat → α) → Nat → Nat → α) {s : OSt α} (hp : BPre op S bs s.base.L s) (junk : Nat → Nat → α)
    {inv outv : VPtr} (h0 : QB op S bs s.base.impl.qIn ∧ WB op S bs s.base.impl.eOut ∧ EB op S bs s.eBlk) {R : Prop}
    (hR : R → (∀ i < op.nin, ActReady op inv s.base.vecs i) ∧ ∀ o < op.nout, BReadyO op outv s.base.vecs o) :
    M.wp R (M.loop (nblk op.ne bs) (block op F junk bs inv outv)) s
      (fun s' _ => BEff op S bs (ActiveApart op inv outv ∧ Pointwise op F) inv outv s s')
      (fun s' _ => ¬ R ∧ ∃ q' w' eb' vs', s' = s.put q' w' eb' vs' ∧ QB op S bs q' ∧ WB op S bs w' ∧ EB op S bs eb' ∧
        VStep op outv s.base.vecs vs') := by
  refine blockLoop_wp h hne h0 ?_
  intro b hb q w eb vs hq hw heb hv
  refine M.wp_mono (block_wp h F hp junk hb hq hw heb (R := R)
    (fun r => ⟨fun i hi => (ActReady.step hv i).2 ((hR r).1 i hi), fun o ho => (BReadyO.step hv o).2 ((hR r).2 o ho)⟩)) ?_ (fun _ _ hh => hh)
  rintro s' _ ⟨a1, a2, q', w', eb', vs', rfl, a3, a4, a5, a6, q1, a7, a8⟩
  refine ⟨a1, a2, q', w', eb', vs', rfl, a3, a4, a5, a6, ?_⟩
  rintro ⟨hap, hF⟩ v t
  rw [a8, blkAdds_true h hF (a7 (fun i hi ha hwt => apart_cont hap hv hi hwt ha))]

theorem identityBlocks_wp {op : Oper α} {S : Meaning α} {bs : Nat} (h : BlkOK op S bs) (hne : 0 < op.ne)
    {s : OSt α} (h1 : OInv op S bs s) (hid : s.base.impl.idRstr = true) {inv outv : VPtr} {R : Prop} {P : Prop}
    (hP : P → ActiveApart op inv outv)
    (hR : R → (∀ i < op.nin, ActReady op inv s.base.vecs i) ∧ ∀ o < op.nout, BReadyO op outv s.base.vecs o) :
    M.wp R (M.loop (nblk op.ne bs) (identityBlock op inv outv)) s
      (fun s' _ => BEff op S bs P inv outv s s')
      (fun s' _ => ¬ R ∧ ∃ q' w' eb' vs', s' = s.put q' w' eb' vs' ∧ QB op S bs q' ∧ WB op S bs w' ∧ EB op S bs eb' ∧
        VStep op outv s.base.vecs vs') := by
  have hid' := hid
  rw [h1.idR] at hid'
  simp only [Bool.and_eq_true, decide_eq_true_eq] at hid'
  obtain ⟨⟨hI, hm⟩, hmo⟩ := hid'
  obtain ⟨hnin, hnout, hsz, hvv, _⟩ := h.ident hI
  obtain ⟨hvi, hvo⟩ := hvv hm hmo
  have hi : 0 < op.nin := by omega
  have ho : 0 < op.nout := by omega
  have hw0 : (op.inp 0).mode ≠ .weight := by rw [hm]; simp
  have hf : first op 0 = 0 := by have := first_le op 0; omega
  obtain ⟨hes, hsz1⟩ := h.inN 0 hi hm
  obtain ⟨heso, hsz2⟩ := h.outN 0 ho hmo
  have hnc : (S.dat (op.out 0)).nc = (S.dat (op.inp 0)).nc := by rw [← hsz2, hsz, hsz1]
  have hee : (S.dat (op.out 0)).es = (S.dat (op.inp 0)).es := by rw [heso, hes]
  have hpo : (op.out 0).vec.ptr outv = outv := by rw [hvo]; rfl
  have hpi : (op.inp 0).vec.ptr inv = inv := by rw [hvi]; rfl
  refine blockLoop_wp h hne ⟨h1.q, h1.w, h1.eb⟩ ?_
  intro b hb q w eb vs hq hw heb hv
  unfold identityBlock
  rw [M.wp_bind]
  refine M.wp_mono (blockIn_wp h (s := s) h1.g.full hi hw0 hvi hb (q := q) (w := w) (vs := vs) heb
    (fun r => (ActReady.step hv 0).2 ((hR r).1 0 hi))) ?_ ?_
  swap
  · rintro s' _ ⟨a1, rfl⟩
    exact ⟨a1, q, w, eb, vs, rfl, hq, hw, heb, VStep.refl _ _ _⟩
  rintro s' _ ⟨a1, u, rfl, a2, a3⟩
  rw [hf]
  have heb' : EB op S bs (Function.update eb 0 u) := by
    intro i hi' hwi
    have : i = 0 := by omega
    subst this
    rw [Function.update_self]; exact a2
  rw [M.wp_bind]
  refine M.wp_of_eq_ok (s' := s.put q w (Function.update eb 0 u) vs) (a := _) rfl ?_
  rw [M.wp_bind]
  refine M.wp_of_eq_ok (s' := s.put q w (Function.update eb 0 u) vs) (a := 0) ?_ ?_
  · show optr (s.base.impl.it.full 0) _ = _
    rw [h1.g.full 0 hi hw0, hf]; rfl
  obtain ⟨r, hr, _⟩ := h.outR 0 ho
  rw [M.wp_bind]
  refine M.wp_of_eq_ok (s' := s.put q w (Function.update eb 0 u) vs) (a := r) (by rw [hr]; rfl) ?_
  have hu : ((s.put q w (Function.update eb 0 u) vs).eBlk 0) = u := by
    show Function.update eb 0 u 0 = u
    exact Function.update_self _ _ _
  rw [hu]
  refine M.wp_mono (scatterBlock_wp (s := s) (h.outR 0 ho) hr (outv := outv) hpo ho hb (q := q) (w := w)
    (eb := Function.update eb 0 u) (vs := vs) (u := u) (by rw [a2]; unfold blen; rw [hnc, hee]) (R := R)
    (fun r => (BReadyO.step hv 0).2 ((hR r).2 0 ho))) ?_ ?_
  · rintro s' _ ⟨c1, vs2, rfl, c2, c3⟩
    refine ⟨fun i hi' => ?_, fun o ho' => ?_, q, w, _, vs2, rfl, hq, hw, heb', c2, ?_⟩
    · have : i = 0 := by omega
      subst this; exact a1
    · have : o = 0 := by omega
      subst this; exact c1
    · intro p v t
      rw [c3]
      congr 1
      unfold blkTrue
      rw [hnout, sum_range_one, hpo]
      split
      · refine sum_congr rfl (fun j hj => ?_)
        obtain ⟨k1, k2⟩ := lane_lt hj
        refine elemScatter_congr _ _ (fun k hk n hn => ?_)
        have := a3 k (by omega) n (by omega) j k1
        unfold bpos
        rw [hnc, hee, this, k2, apart_cont (hP p) hv hi hw0 hvi]
        have hQ : 0 < op.Q := by rw [heso] at hn; omega
        have g1 : (k * op.Q + n) / op.Q = k := by
          rw [Nat.mul_comm, Nat.mul_add_div hQ, Nat.div_eq_of_lt (by rw [← heso]; exact hn), Nat.add_zero]
        have g2 : (k * op.Q + n) % op.Q = n := by
          rw [Nat.mul_comm, Nat.mul_add_mod, Nat.mod_eq_of_lt (by rw [← heso]; exact hn)]
        have hlt : k * op.Q + n < op.Q * (op.inp 0).size := by
          have := pos_lt (D := S.dat (op.out 0)) hk hn
          rw [heso, ← hsz2, hsz, Nat.mul_comm (op.inp 0).size] at this
          exact this
        unfold Meaning.elemOut
        simp only [hmo]
        unfold Meaning.outArr
        rw [if_pos hI]
        unfold Meaning.inArr
        rw [if_pos ⟨hi, hlt⟩]
        unfold Meaning.inVal
        simp only [hm]
        rw [g1, g2, hpi]
        rfl
      · rfl
  · rintro s' _ ⟨c1, rfl⟩
    exact ⟨c1, q, w, _, vs, rfl, hq, hw, heb', VStep.refl _ _ _⟩

end Operator
end Verif
