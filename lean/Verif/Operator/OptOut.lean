import Verif.Operator.OptElem

/-!
# Outputs of one block of elements (helper lemmas)
-/

set_option linter.unusedSectionVars false

namespace Verif
namespace Operator

open Finset
open Restriction (RData Made Rstr Rep laneEnd)
open Basis (Bas EMode)

variable {α : Type} [CommRing α]

/-- Contribution of output `o`, computed from the arrays `y` of a block, to node `n` of component `k` of lane `j`. -/
def laneOut (op : Oper α) (S : Meaning α) (bs : Nat) (y : Nat → Nat → α) (o k n j : Nat) : α :=
  if (op.out o).mode = .none then y o ((k * op.Q + n) * bs + j)
  else ∑ c ∈ range (op.out o).qc, ∑ q ∈ range op.Q,
    (S.mOut o).val ((c * op.Q + q) * (S.dat (op.out o)).es + n) * y o (((c * (S.dat (op.out o)).nc + k) * op.Q + q) * bs + j)

/-- Position in the E-vector of a block. -/
def bpos (D : RData α) (bs k n j : Nat) : Nat := eIdx D.nc D.es bs 0 k n j

theorem bpos_lt {D : RData α} {bs k n j : Nat} (hk : k < D.nc) (hn : n < D.es) (hj : j < bs) :
    bpos D bs k n j < bs * D.es * D.nc := by
  have := eIdx_lt (B := 1) (b := 0) (by omega) hk hn hj
  unfold bpos
  calc _ < _ := this
    _ = _ := by ring

/-- E-vectors of the block after the outputs in `T p` have been written into E-vector `p`. -/
structure OutB (op : Oper α) (S : Meaning α) (bs : Nat) (y : Nat → Nat → α) (w : Nat → Buf α) (T : Nat → Finset Nat) : Prop where
  len : WB op S bs w
  val : ∀ p < op.nout, (T p).Nonempty → ∀ k < (S.dat (op.out p)).nc, ∀ n < (S.dat (op.out p)).es, ∀ j < bs,
    (w p).val (bpos (S.dat (op.out p)) bs k n j) = ∑ o ∈ T p, laneOut op S bs y o k n j

theorem OutB.write {op : Oper α} {S : Meaning α} {bs : Nat} {y : Nat → Nat → α} {w : Nat → Buf α}
    {T T' : Nat → Finset Nat} (h : OutB op S bs y w T) {o : Nat} (ho : o < op.nout) {v : Buf α}
    (hv : v.len = blen S bs (op.out o)) (hT : ∀ p, p ≠ last op o → T' p = T p)
    (hval : ∀ k < (S.dat (op.out o)).nc, ∀ n < (S.dat (op.out o)).es, ∀ j < bs,
      v.val (bpos (S.dat (op.out o)) bs k n j) = ∑ o' ∈ T' (last op o), laneOut op S bs y o' k n j) :
    OutB op S bs y (Function.update w (last op o) v) T' := by
  have hs := last_same op ho
  have hD := dat_same (S := S) hs
  refine ⟨?_, ?_⟩
  · intro p hp
    by_cases hpe : p = last op o
    · subst hpe
      rw [Function.update_self, hv]; unfold blen; rw [hD]
    · rw [Function.update_of_ne hpe]; exact h.len p hp
  · intro p hp hne k hk n hn j hj
    by_cases hpe : p = last op o
    · subst hpe
      rw [Function.update_self]
      rw [hD] at hk hn ⊢
      exact hval k hk n hn j hj
    · rw [Function.update_of_ne hpe, hT p hpe]
      rw [hT p hpe] at hne
      exact h.val p hp hne k hk n hn j hj

theorem wlen_last {op : Oper α} {S : Meaning α} {bs : Nat} {w : Nat → Buf α} (h : WB op S bs w) {o : Nat} (ho : o < op.nout) :
    (w (last op o)).len = blen S bs (op.out o) := by
  rw [h _ (last_lt op ho)]; unfold blen; rw [dat_same (last_same op ho)]

theorem directBlk_ok {op : Oper α} {S : Meaning α} {bs : Nat} (h : BlkOK op S bs) {L : Nat → Nat → α} {s : OSt α}
    (hp : BPre op S bs L s) (q eb : Nat → Buf α) (vs : Nat → LVec α) {o : Nat} (ho : o < op.nout)
    {w : Nat → Buf α} {y : Nat → Nat → α}
    (hw : OutB op S bs y w (fun p => (range o).filter (fun o' => last op o' = p ∧ (op.out o').mode = .none))) :
    ∃ w', directBlk op bs y o (s.put q w eb vs) = .ok (s.put q w' eb vs) () ∧
      OutB op S bs y w' (fun p => (range (o + 1)).filter (fun o' => last op o' = p ∧ (op.out o').mode = .none)) := by
  unfold directBlk
  by_cases hm : (op.out o).mode = .none
  · obtain ⟨hes, hsz⟩ := h.outN o ho hm
    have hs := last_same op ho
    have hl := wlen_last hw.len ho
    rw [blen_none hes hsz] at hl
    have hsl : slice (w (last op o)) 0 (op.Q * (op.out o).size * bs) =
        .ok ⟨op.Q * (op.out o).size * bs, fun x => (w (last op o)).val (0 + x)⟩ := by
      unfold slice
      rw [if_pos (by omega)]
    refine ⟨Function.update w (last op o) (paste (w (last op o)) 0 ⟨op.Q * (op.out o).size * bs, y o⟩), ?_, ?_⟩
    · have hnw : ¬ (op.isId = true ∧ (op.inp 0).mode = .weight) := by
        rintro ⟨h1, h2⟩
        obtain ⟨_, k2, _, _, k5⟩ := h.ident h1
        exact k5 h2 (by rw [← hm, show o = 0 by omega])
      simp only [M.bind_apply, getOB, Out.bind_ok, OSt.put, hm, if_true, hp.ofull o ho, optr, M.pure_apply, hsl, M.lift_ok,
        onB, setEOut, modI, if_neg hnw]
    · refine hw.write ho ?_ ?_ ?_
      · show (w (last op o)).len = _
        exact wlen_last hw.len ho
      · intro p hpne
        rw [Finset.range_add_one, Finset.filter_insert, if_neg (by rintro ⟨h1, _⟩; exact hpne h1.symm)]
      · intro k hk n hn j hj
        have hsing : (range (o + 1)).filter (fun o' => last op o' = last op o ∧ (op.out o').mode = .none) = {o} := by
          ext o'
          simp only [mem_filter, mem_range, mem_singleton]
          constructor
          · rintro ⟨h1, h2, h3⟩
            by_contra hne
            have hsame : (op.out o').same (op.out o) = true := by
              have h4 := last_same op (j := o') (by omega)
              rw [h2] at h4
              exact same_trans (same_symm h4) hs
            have := h.shareOut o' o (by omega) ho hsame
            rw [hm] at this; simp [isBasisMode] at this
          · rintro rfl; exact ⟨by omega, rfl, hm⟩
        rw [hsing, sum_singleton]
        have hlt := bpos_lt (D := S.dat (op.out o)) (bs := bs) hk hn hj
        rw [hes, ← hsz] at hlt
        unfold paste laneOut
        rw [if_pos hm]
        simp only []
        rw [if_pos ⟨Nat.zero_le _, by show _ < 0 + op.Q * (op.out o).size * bs; rw [Nat.zero_add, Nat.mul_comm _ bs, ← Nat.mul_assoc]; exact hlt⟩]
        unfold bpos eIdx
        rw [hes, Nat.sub_zero, Nat.zero_mul, Nat.zero_add]
  · refine ⟨w, ?_, ?_⟩
    · simp only [M.bind_apply, getOB, Out.bind_ok, hm, if_false, M.pure_apply]
    · have : (fun p => (range (o + 1)).filter (fun o' => last op o' = p ∧ (op.out o').mode = .none)) =
          fun p => (range o).filter (fun o' => last op o' = p ∧ (op.out o').mode = .none) := by
        funext p
        rw [Finset.range_add_one, Finset.filter_insert, if_neg (by rintro ⟨_, h1⟩; exact hm h1)]
      rw [this]
      exact hw

theorem outBlkBasis_ok {op : Oper α} {S : Meaning α} {bs : Nat} (h : BlkOK op S bs) {L : Nat → Nat → α} {s : OSt α}
    (hp : BPre op S bs L s) (junk : Nat → Nat → α) (q eb : Nat → Buf α) (vs : Nat → LVec α) {o : Nat} (ho : o < op.nout)
    {w : Nat → Buf α} {y : Nat → Nat → α} (hw : OutB op S bs y w (fun p => members op p o)) :
    ∃ w', outBlkBasis op junk bs y o (s.put q w eb vs) = .ok (s.put q w' eb vs) () ∧
      OutB op S bs y w' (fun p => members op p (o + 1)) := by
  unfold outBlkBasis
  rcases mode_cases (op.out o).mode with hm | hm | hm
  · exact absurd hm (h.outW o ho)
  · refine ⟨w, by rw [if_pos hm]; rfl, ?_⟩
    have : (fun p => members op p (o + 1)) = fun p => members op p o := by
      funext p
      unfold members
      ext o'
      simp only [mem_filter, mem_range]
      constructor
      · rintro ⟨h1, h2, h3⟩
        refine ⟨h1, h2, ?_⟩
        by_cases hoo : o' = o
        · subst hoo; exact Or.inr hm
        · exact h3.imp (fun _ => by omega) id
      · rintro ⟨h1, h2, h3⟩
        exact ⟨h1, h2, h3.imp (fun _ => by omega) id⟩
    rw [this]
    exact hw
  have hnn : (op.out o).mode ≠ .none := by
    intro hh; rw [hh] at hm; simp [isBasisMode] at hm
  rw [if_neg hnn, if_pos hm]
  obtain ⟨b, ⟨f1, f2, f3, f4, f5⟩, hmul, hadd⟩ := h.outB o ho hm
  have hs := last_same op ho
  have hD := dat_same (S := S) hs
  have hl := wlen_last hw.len ho
  have hqc : (op.out o).qc = b.qComp (op.out o).mode := by unfold OField.qc; rw [f1]
  set D := S.dat (op.out o) with hDdef
  have hcol : ∀ k < D.nc, ∀ n, ∀ j < bs, Basis.colTimes b (b.qComp (op.out o).mode) bs (S.mOut o)
      ⟨op.Q * (op.out o).size * bs, y o⟩ k n j = laneOut op S bs y o k n j := by
    intro k hk n j hj
    unfold laneOut Basis.colTimes
    rw [if_neg hnn, hqc]
    refine sum_congr rfl (fun c hc => ?_)
    rw [f4]
    refine sum_congr rfl (fun q' hq' => ?_)
    have hpos : Basis.quadPos b.nc op.Q bs c k q' j = ((c * D.nc + k) * op.Q + q') * bs + j := by
      unfold Basis.quadPos; rw [f3]
    rw [hpos, f2]
  have hmem : ∀ p, p ≠ last op o → members op p (o + 1) = members op p o := by
    intro p hpne
    unfold members
    ext o'
    simp only [mem_filter, mem_range]
    constructor
    · rintro ⟨h1, h2, h3⟩
      have : o' ≠ o := by rintro rfl; exact hpne h2.symm
      exact ⟨h1, h2, h3.imp (fun _ => by omega) id⟩
    · rintro ⟨h1, h2, h3⟩
      exact ⟨h1, h2, h3.imp (fun _ => by omega) id⟩
  have hins : members op (last op o) (o + 1) = insert o (members op (last op o) o) := by
    unfold members
    ext o'
    simp only [mem_filter, mem_range, mem_insert]
    constructor
    · rintro ⟨h1, h2, h3⟩
      by_cases hoo : o' = o
      · exact Or.inl hoo
      · exact Or.inr ⟨h1, h2, h3.imp (fun _ => by omega) id⟩
    · rintro (rfl | ⟨h1, h2, h3⟩)
      · exact ⟨ho, rfl, Or.inl (by omega)⟩
      · exact ⟨h1, h2, h3.imp (fun _ => by omega) id⟩
  have hnot : o ∉ members op (last op o) o := by
    unfold members
    simp [hnn]
  have hnode : ∀ k n j, Basis.nodePos b.P bs k n j = bpos D bs k n j := by
    intro k n j; unfold Basis.nodePos bpos eIdx; rw [f2, Nat.zero_mul, Nat.zero_add]
  have hlw : bs * b.nc * b.Q * b.qComp (op.out o).mode ≤ op.Q * (op.out o).size * bs := by
    rw [f4, f3, f5]; exact le_of_eq (by ring)
  have hlv : bs * b.nc * b.P ≤ (w (last op o)).len := by rw [hl, f2, f3]; unfold blen; exact le_of_eq (by ring)
  have key : ∃ v, (if s.base.impl.ot.add o then
        Basis.applyAdd b junk bs .transpose (op.out o).mode (some ⟨op.Q * (op.out o).size * bs, y o⟩) (w (last op o))
      else Basis.apply b junk bs .transpose (op.out o).mode (some ⟨op.Q * (op.out o).size * bs, y o⟩) (w (last op o))) = .ok v ∧
      v.len = blen S bs (op.out o) ∧ ∀ k < D.nc, ∀ n < D.es, ∀ j < bs,
        v.val (bpos D bs k n j) = ∑ o' ∈ members op (last op o) (o + 1), laneOut op S bs y o' k n j := by
    by_cases ha : s.base.impl.ot.add o = true
    · have hex := (hp.oadd o ho).1 ha
      obtain ⟨v, e1, e2, e3, _⟩ := hadd hex junk bs ⟨op.Q * (op.out o).size * bs, y o⟩ (w (last op o)) hlw hlv
      refine ⟨v, by rw [if_pos ha]; exact e1, e2.trans hl, ?_⟩
      intro k hk n hn j hj
      have := e3 k (by omega) n (by omega) j hj
      rw [hnode, hcol k hk n j hj] at this
      rw [this, hins, sum_insert hnot, add_comm]
      congr 1
      obtain ⟨i, hi, hsame⟩ := hex
      have hne : (members op (last op o) o).Nonempty :=
        ⟨i, by unfold members; rw [mem_filter, mem_range]; exact ⟨by omega, last_congr op (by omega) ho hsame, Or.inl hi⟩⟩
      have hv := hw.val (last op o) (last_lt op ho) hne k (by rw [hD]; exact hk) n (by rw [hD]; exact hn) j hj
      rw [hD] at hv
      exact hv
    · obtain ⟨v, e1, e2, e3, _⟩ := hmul junk bs ⟨op.Q * (op.out o).size * bs, y o⟩ (w (last op o)) hlw hlv
      refine ⟨v, by rw [if_neg ha]; exact e1, e2.trans hl, ?_⟩
      intro k hk n hn j hj
      have := e3 k (by omega) n (by omega) j hj
      rw [hnode, hcol k hk n j hj] at this
      rw [this, hins, sum_insert hnot]
      have hemp : members op (last op o) o = ∅ := by
        rw [Finset.eq_empty_iff_forall_notMem]
        intro o' hmem'
        unfold members at hmem'
        rw [mem_filter, mem_range] at hmem'
        obtain ⟨h1, h2, h3⟩ := hmem'
        have hsame : (op.out o').same (op.out o) = true := by
          have h4 := last_same op h1
          rw [h2] at h4
          exact same_trans (same_symm h4) hs
        by_cases hlt : o' < o
        · exact ha ((hp.oadd o ho).2 ⟨o', hlt, hsame⟩)
        · rcases h3 with h3 | h3
          · exact hlt h3
          · have hne : o' ≠ o := by rintro rfl; exact hnn h3
            have := h.shareOut o o' (by omega) h1 (same_symm hsame)
            rw [h3] at this; simp [isBasisMode] at this
      rw [hemp, sum_empty, add_zero]
  obtain ⟨v, e1, e2, e3⟩ := key
  refine ⟨Function.update w (last op o) v, ?_, ?_⟩
  · unfold blockBasisOut
    simp only [M.bind_apply, getOB, Out.bind_ok, OSt.put, hp.ofull o ho, f1, optr, M.pure_apply, e1, M.lift_ok, onB, setEOut, modI]
  · exact hw.write ho e2 hmem e3

/-! ## Adding into the vectors -/

/-- Readiness of one output. -/
def BReadyO (op : Oper α) (outv : VPtr) (vs : Nat → LVec α) (o : Nat) : Prop :=
  ∃ r v, (op.out o).rid = some r ∧ (op.out o).vec.ptr outv = .vec v ∧ (vs v).valid = true ∧
    (op.rstrs r).lSize = (vs v).buf.len

/-- What output `o` adds to entry `t` on block `b`. -/
def blkScatter (op : Oper α) (S : Meaning α) (bs b : Nat) (y : Nat → Nat → α) (o t : Nat) : α :=
  ∑ j ∈ range (laneEnd bs op.ne (b * bs)),
    (S.dat (op.out o)).elemScatter (fun k n => laneOut op S bs y o k n j) (b * bs + j) t

/-- What all outputs add to entry `t` of vector `v` on block `b`. -/
def blkAdds (op : Oper α) (S : Meaning α) (bs b : Nat) (outv : VPtr) (y : Nat → Nat → α) (v t : Nat) : α :=
  ∑ o ∈ range op.nout, if (op.out o).vec.ptr outv = .vec v then blkScatter op S bs b y o t else 0

/-- What the roots `< j` have added. -/
def rootAdds (op : Oper α) (S : Meaning α) (bs b : Nat) (outv : VPtr) (y : Nat → Nat → α) (j v t : Nat) : α :=
  ∑ p ∈ range j, if last op p = p ∧ (op.out p).vec.ptr outv = .vec v then
    ∑ o ∈ (range op.nout).filter (fun o => last op o = p), blkScatter op S bs b y o t else 0

theorem rootAdds_eq {op : Oper α} {S : Meaning α} {bs b : Nat} {outv : VPtr} {y : Nat → Nat → α} (v t : Nat) :
    rootAdds op S bs b outv y op.nout v t = blkAdds op S bs b outv y v t := by
  have h1 : rootAdds op S bs b outv y op.nout v t = ∑ p ∈ range op.nout, ∑ o ∈ (range op.nout).filter (fun o => last op o = p),
      if (op.out o).vec.ptr outv = .vec v then blkScatter op S bs b y o t else 0 := by
    unfold rootAdds
    refine sum_congr rfl (fun p hp => ?_)
    rw [mem_range] at hp
    have hvec : ∀ o ∈ (range op.nout).filter (fun o => last op o = p), (op.out o).vec = (op.out p).vec := by
      intro o ho
      rw [mem_filter, mem_range] at ho
      have := last_same op ho.1
      rw [ho.2] at this
      exact (same_iff.1 this).1.symm
    by_cases hr : last op p = p
    · by_cases hv : (op.out p).vec.ptr outv = .vec v
      · rw [if_pos ⟨hr, hv⟩]
        refine sum_congr rfl (fun o ho => ?_)
        rw [hvec o ho, if_pos hv]
      · rw [if_neg (by rintro ⟨_, h2⟩; exact hv h2)]
        refine (sum_eq_zero (fun o ho => ?_)).symm
        rw [hvec o ho, if_neg hv]
    · rw [if_neg (by rintro ⟨h2, _⟩; exact hr h2)]
      refine (sum_eq_zero (fun o ho => ?_)).symm
      rw [mem_filter, mem_range] at ho
      exact absurd (by rw [← ho.2]; exact last_last op ho.1) hr
  rw [h1]
  unfold blkAdds
  exact sum_fiberwise_of_maps_to (fun o ho => mem_range.2 (last_lt op (mem_range.1 ho))) _

theorem elemScatter_congr {D : RData α} {u u' : Nat → Nat → α} (e t : Nat) (h : ∀ k < D.nc, ∀ n < D.es, u k n = u' k n) :
    D.elemScatter u e t = D.elemScatter u' e t := by
  unfold RData.elemScatter
  refine sum_congr rfl (fun k hk => sum_congr rfl (fun n hn => sum_congr rfl (fun m _ => ?_)))
  rw [h k (mem_range.1 hk) n (mem_range.1 hn)]

theorem elemScatter_sum {D : RData α} (T : Finset Nat) (u : Nat → Nat → Nat → α) (e t : Nat) :
    D.elemScatter (fun k n => ∑ o ∈ T, u o k n) e t = ∑ o ∈ T, D.elemScatter (u o) e t := by
  unfold RData.elemScatter
  refine Eq.trans ?_ sum_comm
  refine sum_congr rfl (fun k _ => ?_)
  refine Eq.trans ?_ sum_comm
  refine sum_congr rfl (fun n _ => ?_)
  refine Eq.trans ?_ sum_comm
  refine sum_congr rfl (fun m _ => ?_)
  split
  · rw [Finset.mul_sum]
  · rw [sum_const_zero]

/-- Vectors after adding into the outputs, started from `vs0`. -/
structure VStep (op : Oper α) (outv : VPtr) (vs0 vs : Nat → LVec α) : Prop where
  adv : Advances vs0 vs
  valid : ∀ v, (vs v).valid = (vs0 v).valid
  other : ∀ v, (∀ o < op.nout, (op.out o).vec.ptr outv ≠ .vec v) → vs v = vs0 v

theorem VStep.refl (op : Oper α) (outv : VPtr) (vs : Nat → LVec α) : VStep op outv vs vs :=
  ⟨Advances.refl _, fun _ => rfl, fun _ _ => rfl⟩

theorem VStep.trans {op : Oper α} {outv : VPtr} {a b c : Nat → LVec α} (h : VStep op outv a b) (h' : VStep op outv b c) :
    VStep op outv a c :=
  ⟨h.adv.trans h'.adv, fun v => (h'.valid v).trans (h.valid v), fun v hv => (h'.other v hv).trans (h.other v hv)⟩

theorem BReadyO.step {op : Oper α} {outv : VPtr} {a b : Nat → LVec α} (h : VStep op outv a b) (o : Nat) :
    BReadyO op outv b o ↔ BReadyO op outv a o := by
  unfold BReadyO
  constructor
  · rintro ⟨r, v, h1, h2, h3, h4⟩
    exact ⟨r, v, h1, h2, by rw [← h.valid]; exact h3, by rw [← (h.adv v).1]; exact h4⟩
  · rintro ⟨r, v, h1, h2, h3, h4⟩
    exact ⟨r, v, h1, h2, by rw [h.valid]; exact h3, by rw [(h.adv v).1]; exact h4⟩

/-- Adding one block of an E-vector into a vector. -/
theorem scatterBlock_wp {op : Oper α} {S : Meaning α} {bs : Nat} {o : Nat} {s : OSt α} {r : Nat}
    (hr : BRstr op S bs (op.out o)) (hrr : (op.out o).rid = some r) {outv p : VPtr} (hp : (op.out o).vec.ptr outv = p)
    (ho : o < op.nout) {b : Nat} (hb : b < nbk op bs)
    {q w eb : Nat → Buf α} {vs : Nat → LVec α} {u : Buf α} (hu : u.len = blen S bs (op.out o)) {R : Prop}
    (hR : R → BReadyO op outv vs o) :
    M.wp R (onB (scatterBlock (op.rstrs r) b u p)) (s.put q w eb vs) (fun s' _ => BReadyO op outv vs o ∧ ∃ vs',
      s' = s.put q w eb vs' ∧ VStep op outv vs vs' ∧
      ∀ v t, (vs' v).buf.val t = (vs v).buf.val t + if p = .vec v then
        ∑ j ∈ range (laneEnd bs op.ne (b * bs)), (S.dat (op.out o)).elemScatter
          (fun k n => u.val (bpos (S.dat (op.out o)) bs k n j)) (b * bs + j) t else 0)
      (fun s' _ => ¬ R ∧ s' = s.put q w eb vs) := by
  obtain ⟨g1, g2, g3, g4⟩ := hr.nb hrr
  by_cases hrdy : BReadyO op outv vs o
  · obtain ⟨r', v, h1, h2, h3, h4⟩ := id hrdy
    rw [hrr] at h1; cases h1
    rw [hp] at h2
    have hrun := g2.block_t (b := b) (by omega) (u := u) (v := (vs v).buf) h4 (by rw [hu, g3]; rfl)
    refine M.wp_of_eq_ok (s' := s.put q w eb (Function.update vs v ⟨(vs v).state + 2, true, ⟨(vs v).buf.len,
        fun t => (vs v).buf.val t + ∑ j ∈ range (laneEnd (op.rstrs r).blockSize (op.rstrs r).numElem (b * (op.rstrs r).blockSize)),
        (S.dat (op.out o)).elemScatter (fun k n => u.val (eIdx (S.dat (op.out o)).nc (S.dat (op.out o)).es (op.rstrs r).blockSize 0 k n j))
          (b * (op.rstrs r).blockSize + j) t⟩⟩)) (a := ()) ?_ ⟨hrdy, _, rfl, ⟨?_, ?_, ?_⟩, ?_⟩
    · rw [h2]
      unfold scatterBlock
      simp only [onB, OSt.put, h3, if_true, hrun]
    · exact Advances.update rfl (by show _ < (vs v).state + 2; omega)
    · intro v1
      by_cases hv : v1 = v
      · rw [hv, Function.update_self]; exact h3.symm
      · rw [Function.update_of_ne hv]
    · intro v1 hv1
      have : v1 ≠ v := fun hh => hv1 o ho (by rw [hp, h2, hh])
      rw [Function.update_of_ne this]
    · intro v1 t
      by_cases hv : v1 = v
      · subst hv
        rw [Function.update_self, if_pos h2]
        show (vs v1).buf.val t + _ = _
        rw [g3, g2.ne, g4]
        rfl
      · rw [Function.update_of_ne hv, if_neg, add_zero]
        intro h5
        rw [h2] at h5; cases h5; exact hv rfl
  · have hnR : ¬ R := fun hr' => hrdy (hR hr')
    match p, hp with
    | .null, _ => exact M.wp_of_eq_ub rfl hnR
    | .none, _ => exact M.wp_of_eq_err (a := .dimension) rfl ⟨hnR, rfl⟩
    | .vec v, hp =>
      by_cases hval : (vs v).valid = true
      · have hshort : ¬ (op.rstrs r).lSize = (vs v).buf.len := fun hl => hrdy ⟨r, v, hrr, hp, hval, hl⟩
        obtain ⟨e, he⟩ := block_long_t (u := u) (b := b) hshort
        refine M.wp_of_eq_err (a := e) (s' := s.put q w eb vs) ?_ ⟨hnR, rfl⟩
        unfold scatterBlock
        simp only [onB, OSt.put, hval, if_true, he]
      · refine M.wp_of_eq_err (a := .backend) (s' := s.put q w eb vs) ?_ ⟨hnR, rfl⟩
        unfold scatterBlock
        simp only [onB, OSt.put, hval]
        simp

/-- All outputs on a block. -/
theorem outputsBlk_wp {op : Oper α} {S : Meaning α} {bs : Nat} (h : BlkOK op S bs) {L : Nat → Nat → α} {s : OSt α}
    (hp : BPre op S bs L s) (junk : Nat → Nat → α) {b : Nat} (hb : b < nbk op bs) {outv : VPtr}
    {q w eb : Nat → Buf α} {vs : Nat → LVec α} {y : Nat → Nat → α} (hw : OutB op S bs y w (fun p => members op p 0)) {R : Prop}
    (hR : R → ∀ o < op.nout, BReadyO op outv vs o) :
    M.wp R (M.loop op.nout (outputBlock1 op junk bs b outv y)) (s.put q w eb vs) (fun s' _ =>
      (∀ o < op.nout, BReadyO op outv vs o) ∧ ∃ w' vs', s' = s.put q w' eb vs' ∧ WB op S bs w' ∧ VStep op outv vs vs' ∧
      ∀ v t, (vs' v).buf.val t = (vs v).buf.val t + blkAdds op S bs b outv y v t)
      (fun s' _ => ¬ R ∧ ∃ w' vs', s' = s.put q w' eb vs' ∧ WB op S bs w' ∧ VStep op outv vs vs') := by
  refine M.wp_mono (M.wp_loop (fun a s' => (∀ o < a, last op o = o → BReadyO op outv vs o) ∧ ∃ w' vs', s' = s.put q w' eb vs' ∧
      OutB op S bs y w' (fun p => members op p a) ∧ VStep op outv vs vs' ∧
      ∀ v t, (vs' v).buf.val t = (vs v).buf.val t + rootAdds op S bs b outv y a v t) ?_ ?_) ?_ (fun _ _ hh => hh)
  · refine ⟨fun o ho => absurd ho (by omega), w, vs, rfl, hw, VStep.refl _ _ _, fun v t => ?_⟩
    unfold rootAdds; simp
  · rintro o ho s' ⟨a1, w1, vs1, rfl, a2, a3, a4⟩
    unfold outputBlock1
    obtain ⟨w2, e2, b2⟩ := outBlkBasis_ok h hp junk q eb vs1 ho a2
    rw [M.wp_bind]
    refine M.wp_of_eq_ok e2 ?_
    have hge := le_last op ho (same_refl (op.out o))
    have hsucc : ∀ v t, rootAdds op S bs b outv y (o + 1) v t = rootAdds op S bs b outv y o v t +
        if last op o = o ∧ (op.out o).vec.ptr outv = .vec v then
          ∑ o' ∈ (range op.nout).filter (fun o' => last op o' = o), blkScatter op S bs b y o' t else 0 := by
      intro v t; unfold rootAdds; rw [sum_range_succ]
    unfold outBlkScatter
    rw [M.wp_bind]
    refine M.wp_of_eq_ok (s' := s.put q w2 eb vs1) (a := _) rfl ?_
    by_cases hlt : o < last op o
    · rw [if_pos (show (s.put q w2 eb vs1).base.impl.ot.skip o = true from (hp.oskip o ho).2 hlt), M.wp_pure]
      refine ⟨?_, w2, vs1, rfl, b2, a3, ?_⟩
      · intro o1 ho1 hroot
        have : o1 ≠ o := fun hh => by rw [hh] at hroot; omega
        exact a1 o1 (by omega) hroot
      · intro v t
        rw [a4, hsucc, if_neg (by rintro ⟨h2, _⟩; omega), add_zero]
    · rw [if_neg (show ¬ (s.put q w2 eb vs1).base.impl.ot.skip o = true from fun hh => hlt ((hp.oskip o ho).1 hh)), M.wp_bind]
      have hroot : last op o = o := by omega
      refine M.wp_of_eq_ok (s' := s.put q w2 eb vs1) (a := o) ?_ ?_
      · show optr (s.base.impl.ot.full o) _ = _
        rw [hp.ofull o ho, hroot]; rfl
      obtain ⟨r, hr, _⟩ := h.outR o ho
      rw [M.wp_bind]
      refine M.wp_of_eq_ok (s' := s.put q w2 eb vs1) (a := r) (by rw [hr]; rfl) ?_
      have hu : (w2 o).len = blen S bs (op.out o) := b2.len o ho
      refine M.wp_mono (scatterBlock_wp (s := s) (h.outR o ho) hr (outv := outv) rfl ho hb (q := q) (w := w2) (eb := eb)
        (vs := vs1) (u := w2 o) hu (R := R) (fun r => (BReadyO.step a3 o).2 (hR r o ho))) ?_ ?_
      · rintro s' _ ⟨c1, vs2, rfl, c2, c3⟩
        refine ⟨?_, w2, vs2, rfl, b2, a3.trans c2, ?_⟩
        · intro o1 ho1 hr1
          by_cases hoo : o1 = o
          · rw [hoo]; exact (BReadyO.step a3 o).1 c1
          · exact a1 o1 (by omega) hr1
        · intro v t
          rw [c3, a4, hsucc, add_assoc]
          congr 2
          by_cases hv : (op.out o).vec.ptr outv = .vec v
          · rw [if_pos hv, if_pos ⟨hroot, hv⟩]
            have hcls : members op o (o + 1) = (range op.nout).filter (fun o' => last op o' = o) := by
              unfold members
              ext o'
              simp only [mem_filter, mem_range]
              constructor
              · rintro ⟨h1, h2, _⟩; exact ⟨h1, h2⟩
              · rintro ⟨h1, h2⟩
                refine ⟨h1, h2, Or.inl ?_⟩
                have := le_last op h1 (same_refl (op.out o'))
                omega
            have hne : (members op o (o + 1)).Nonempty := ⟨o, by rw [hcls, mem_filter, mem_range]; exact ⟨ho, hroot⟩⟩
            have hD : ∀ o' ∈ (range op.nout).filter (fun o' => last op o' = o), S.dat (op.out o') = S.dat (op.out o) := by
              intro o' ho'
              rw [mem_filter, mem_range] at ho'
              have := last_same op ho'.1
              rw [ho'.2] at this
              exact (dat_same this).symm
            unfold blkScatter
            refine Eq.trans ?_ sum_comm
            refine sum_congr rfl (fun j hj => ?_)
            have hj' : j < bs := by
              have := Restriction.laneEnd_le bs op.ne (b * bs)
              rw [mem_range] at hj; omega
            rw [elemScatter_congr _ _ (fun k hk n hn => b2.val o ho hne k hk n hn j hj'), elemScatter_sum, hcls]
            refine sum_congr rfl (fun o' ho' => ?_)
            rw [hD o' ho']
          · rw [if_neg hv, if_neg (by rintro ⟨_, h2⟩; exact hv h2)]
      · rintro s' _ ⟨c1, rfl⟩
        exact ⟨c1, w2, vs1, rfl, b2.len, a3⟩
  · rintro s' _ ⟨a1, w1, vs1, rfl, a2, a3, a4⟩
    refine ⟨?_, w1, vs1, rfl, a2.len, a3, ?_⟩
    · intro o ho
      have hs := last_same op ho
      obtain ⟨r, v, c1, c2, c3⟩ := a1 (last op o) (last_lt op ho) (last_last op ho)
      exact ⟨r, v, by rw [← (same_iff.1 hs).2]; exact c1, by rw [← (same_iff.1 hs).1]; exact c2, c3⟩
    · intro v t
      rw [a4, rootAdds_eq]

/-! ## One block -/

theorem block_wp {op : Oper α} {S : Meaning α} {bs : Nat} (h : BlkOK op S bs) (F : Nat → (Nat → Nat → α) → Nat → Nat → α)
    {L : Nat → Nat → α} {s : OSt α} (hp : BPre op S bs L s) (junk : Nat → Nat → α) {b : Nat} (hb : b < nbk op bs)
    {inv outv : VPtr} {q w eb : Nat → Buf α} {vs : Nat → LVec α} (hq : QB op S bs q) (hw : WB op S bs w) (heb : EB op S bs eb)
    {R : Prop} (hR : R → (∀ i < op.nin, ActReady op inv vs i) ∧ ∀ o < op.nout, BReadyO op outv vs o) :
    M.wp R (block op F junk bs inv outv b) (s.put q w eb vs) (fun s' _ =>
      (∀ i < op.nin, ActReady op inv vs i) ∧ (∀ o < op.nout, BReadyO op outv vs o) ∧
      ∃ q' w' eb' vs', s' = s.put q' w' eb' vs' ∧ QB op S bs q' ∧ WB op S bs w' ∧ EB op S bs eb' ∧ VStep op outv vs vs' ∧
      ∃ q1 : Nat → Buf α, ((∀ i < op.nin, (op.inp i).vec = .active → (op.inp i).mode ≠ .weight →
            cont (fun v => (vs v).buf.val) inv = cont L inv) → ∀ i < op.nin, LaneIn op S bs b L inv i (q1 i)) ∧
        ∀ v t, (vs' v).buf.val t = (vs v).buf.val t + blkAdds op S bs b outv (evalBlk op F bs q1) v t)
      (fun s' _ => ¬ R ∧ ∃ q' w' eb' vs', s' = s.put q' w' eb' vs' ∧ QB op S bs q' ∧ WB op S bs w' ∧ EB op S bs eb' ∧
        VStep op outv vs vs') := by
  unfold block
  rw [M.wp_bind]
  refine M.wp_mono (inputsBlk_wp h hp junk hb hq heb (fun r => (hR r).1)) ?_ ?_
  swap
  · rintro s' _ ⟨a1, q1, eb1, rfl, a2, a3⟩
    exact ⟨a1, q1, w, eb1, vs, rfl, a3, hw, a2, VStep.refl _ _ _⟩
  rintro s' _ ⟨a1, q1, eb1, rfl, a2, a3, a4⟩
  rw [M.wp_bind]
  refine M.wp_of_eq_ok (s' := s.put q1 w eb1 vs) (a := _) rfl ?_
  have hqe : (s.put q1 w eb1 vs).base.impl.qIn = q1 := rfl
  simp only [hqe]
  obtain ⟨w1, e2, h3⟩ := loop_ok (n := op.nout) (body := directBlk op bs (evalBlk op F bs q1)) (fun w => s.put q1 w eb1 vs)
    (fun j w' => OutB op S bs (evalBlk op F bs q1) w'
      (fun p => (range j).filter (fun o' => last op o' = p ∧ (op.out o').mode = .none)))
    (a := w) ⟨hw, fun p _ hne => by simp at hne⟩
    (fun o ho w' hw' => directBlk_ok h hp q1 eb1 vs ho hw')
  rw [M.wp_bind]
  refine M.wp_of_eq_ok e2 ?_
  have h4 : OutB op S bs (evalBlk op F bs q1) w1 (fun p => members op p 0) := by
    have : (fun p => members op p 0) =
        fun p => (range op.nout).filter (fun o' => last op o' = p ∧ (op.out o').mode = .none) := by
      funext p; unfold members; simp
    rw [this]; exact h3
  refine M.wp_mono (outputsBlk_wp h hp junk hb h4 (fun r => (hR r).2)) ?_ ?_
  · rintro s' _ ⟨b1, w2, vs2, rfl, b2, b3, b4⟩
    exact ⟨a1, b1, q1, w2, eb1, vs2, rfl, a3, b2, a2, b3, q1, a4, b4⟩
  · rintro s' _ ⟨b1, w2, vs2, rfl, b2, b3⟩
    exact ⟨b1, q1, w2, eb1, vs2, rfl, a3, b2, a2, b3⟩

end Operator
end Verif
