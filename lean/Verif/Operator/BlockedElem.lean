import Verif.Operator.OptProps
import Verif.Operator.Blocked

/-!
# One block of elements of the blocked backend (helper lemmas)
-/

set_option linter.unusedSectionVars false

namespace Verif
namespace Operator

open Finset
open Restriction (RData Made Rstr Rep laneEnd)
open Basis (Bas EMode)

variable {α : Type} [CommRing α]

/-- What holds when the blocks are visited: `L` are the contents of the vectors when the application was started. -/
structure KPre (op : Oper α) (S : Meaning α) (bs : Nat) (L : Nat → Nat → α) (inv : VPtr) (s : OSt α) : Prop where
  it : InSpec op S s.base.impl.it
  ot : OutSpec op S s.base.impl.ot
  len : ∀ i < op.nin, (op.inp i).mode ≠ .weight → (s.base.impl.eIn (first op i)).len = eSizeOf op (op.inp i)
  gath : ∀ i < op.nin, (op.inp i).mode ≠ .weight →
    GathB op S bs i (s.base.impl.eIn (first op i)) (cont L ((op.inp i).vec.ptr inv))
  eptr : ∀ o < op.nout, s.base.eptr o = some (last op o)

/-! ## Inputs -/

theorem inputBlocked1_okI {op : Oper α} {S : Meaning α} {bs : Nat} (h : BlkOK op S bs) {L : Nat → Nat → α} {inv : VPtr} {s : OSt α}
    (hit : InSpec op S s.base.impl.it) (junk : Nat → Nat → α) {i : Nat} (hi : i < op.nin)
    (hpl : (op.inp i).mode ≠ .weight → (s.base.impl.eIn (first op i)).len = eSizeOf op (op.inp i))
    (hpg : (op.inp i).mode ≠ .weight → GathB op S bs i (s.base.impl.eIn (first op i)) (cont L ((op.inp i).vec.ptr inv))) {b : Nat} (hb : b < nbk op bs)
    {q w eb : Nat → Buf α} {vs : Nat → LVec α} (hq : QB op S bs q) :
    ∃ v : Buf α, inputBlocked1 op junk bs b i (s.put q w eb vs) = .ok (s.put (Function.update q i v) w eb vs) () ∧
      v.len = op.Q * (op.inp i).size * bs ∧ LaneIn op S bs b L inv i v := by
  unfold inputBlocked1
  by_cases hw : (op.inp i).mode = .weight
  · refine ⟨q i, ?_, (hq i hi).1, lane_weight h hi hw hq⟩
    rw [if_pos hw, Function.update_eq_self]; rfl
  rw [if_neg hw]
  obtain ⟨hes, hesz⟩ := (h.inR i hi hw).sizes
  have hg := hpg hw b hb
  have hlen := hpl hw
  rw [hesz] at hlen
  have hsl : ∀ off, off = b * (bs * ((S.dat (op.inp i)).es * (S.dat (op.inp i)).nc)) →
      ∀ n, n = bs * ((S.dat (op.inp i)).es * (S.dat (op.inp i)).nc) →
      slice (s.base.impl.eIn (first op i)) off n = .ok ⟨n, fun x => (s.base.impl.eIn (first op i)).val (off + x)⟩ := by
    rintro off rfl n rfl
    unfold slice
    rw [if_pos]
    rw [hlen]
    exact slot_le hb
  by_cases hm : (op.inp i).mode = .none
  · rw [if_pos hm]
    obtain ⟨n1, n2⟩ := h.inN i hi hm
    unfold passiveDirect
    have ho : b * bs * op.Q * (op.inp i).size = b * (bs * ((S.dat (op.inp i)).es * (S.dat (op.inp i)).nc)) := by
      rw [n1, n2]; ring
    have hs := hsl _ ho (op.Q * (op.inp i).size * bs) (by rw [n1, n2]; ring)
    refine ⟨⟨op.Q * (op.inp i).size * bs, fun x => (s.base.impl.eIn (first op i)).val (b * bs * op.Q * (op.inp i).size + x)⟩,
      ?_, rfl, ?_⟩
    · simp only [M.bind_apply, getOB, Out.bind_ok, OSt.put, hit.full i hi hw, optr, M.pure_apply, hs, M.lift_ok, onB, setQ, modI]
    · refine lane_none h hi hm ?_
      intro k hk n hn j hj
      rw [← hg k hk n hn j hj, Restriction.eIdx_shift _ _ _ b]
      show (s.base.impl.eIn (first op i)).val _ = _
      congr 1
      rw [ho]; ring
  · rw [if_neg hm]
    have hbm : isBasisMode (op.inp i).mode = true := by
      rcases mode_cases (op.inp i).mode with h1 | h1 | h1
      · exact absurd h1 hw
      · exact absurd h1 hm
      · exact h1
    obtain ⟨bb, ⟨f1, f2, f3, f4, f5⟩, _⟩ := h.inB i hi hbm
    have ho : b * bs * elemSizeOf op (op.inp i) * bb.nc = b * (bs * ((S.dat (op.inp i)).es * (S.dat (op.inp i)).nc)) := by
      rw [hes, f3]; ring
    have hs := hsl _ ho (elen S (op.inp i) * bs) (by unfold elen; ring)
    obtain ⟨v, e1, e2, e3⟩ := blockBasis_ok h hi hbm junk s (w := w) (eb := eb) (vs := vs) hq
      (u := ⟨elen S (op.inp i) * bs, fun x => (s.base.impl.eIn (first op i)).val (b * bs * elemSizeOf op (op.inp i) * bb.nc + x)⟩)
      (by show elen S (op.inp i) * bs = _; unfold elen blen; ring)
    refine ⟨v, ?_, e2, e3 b L inv ?_⟩
    · unfold passiveBasis
      have e1' := e1
      simp only [OSt.put] at e1' ⊢
      simp only [M.bind_apply, getOB, Out.bind_ok, hit.full i hi hw, hit.ev i hi hbm, f1, optr, M.pure_apply, hs, M.lift_ok]
      exact e1'
    · intro k hk n hn j hj
      rw [← hg k hk n hn j hj, Restriction.eIdx_shift _ _ _ b]
      show (s.base.impl.eIn (first op i)).val _ = _
      congr 1
      rw [ho]; ring

theorem inputBlocked1_ok {op : Oper α} {S : Meaning α} {bs : Nat} (h : BlkOK op S bs) {L : Nat → Nat → α} {inv : VPtr} {s : OSt α}
    (hp : KPre op S bs L inv s) (junk : Nat → Nat → α) {i : Nat} (hi : i < op.nin) {b : Nat} (hb : b < nbk op bs)
    {q w eb : Nat → Buf α} {vs : Nat → LVec α} (hq : QB op S bs q) :
    ∃ v : Buf α, inputBlocked1 op junk bs b i (s.put q w eb vs) = .ok (s.put (Function.update q i v) w eb vs) () ∧
      v.len = op.Q * (op.inp i).size * bs ∧ LaneIn op S bs b L inv i v :=
  inputBlocked1_okI h hp.it junk hi (hp.len i hi) (hp.gath i hi) hb hq

theorem inputsBlocked_ok {op : Oper α} {S : Meaning α} {bs : Nat} (h : BlkOK op S bs) {L : Nat → Nat → α} {inv : VPtr} {s : OSt α}
    (hp : KPre op S bs L inv s) (junk : Nat → Nat → α) {b : Nat} (hb : b < nbk op bs)
    {q w eb : Nat → Buf α} {vs : Nat → LVec α} (hq : QB op S bs q) :
    ∃ q', M.loop op.nin (inputBlocked1 op junk bs b) (s.put q w eb vs) = .ok (s.put q' w eb vs) () ∧
      QB op S bs q' ∧ ∀ i < op.nin, LaneIn op S bs b L inv i (q' i) := by
  refine loop_ok (n := op.nin) (body := inputBlocked1 op junk bs b) (fun q' => s.put q' w eb vs)
    (fun j q' => QB op S bs q' ∧ ∀ i < j, LaneIn op S bs b L inv i (q' i)) (a := q)
    ⟨hq, fun i hi => absurd hi (by omega)⟩ ?_
  rintro i hi q1 ⟨a1, a2⟩
  obtain ⟨v, e1, e2, e3⟩ := inputBlocked1_ok h hp junk hi hb (w := w) (eb := eb) (vs := vs) a1
  refine ⟨_, e1, ?_, ?_⟩
  · intro i' hi'
    by_cases hii : i' = i
    · subst hii
      rw [Function.update_self]
      refine ⟨e2, fun hw x hx j hj => ?_⟩
      have := e3 x (by rw [(h.inW i' hi' hw).1]; omega) j hj
      rw [this]
      unfold Meaning.inVal
      simp only [hw]
    · rw [Function.update_of_ne hii]; exact a1 i' hi'
  · intro i' hi'
    by_cases hii : i' = i
    · subst hii
      rw [Function.update_self]
      exact e3
    · rw [Function.update_of_ne hii]; exact a2 i' (by omega)

/-! ## Outputs -/

/-- Position in the E-vector. -/
def fpos (D : RData α) (bs b k n j : Nat) : Nat := eIdx D.nc D.es bs b k n j

/-- Writing the entries of one block. -/
theorem paste_blk {D : RData α} {u v : Buf α} {bs b : Nat} (hv : v.len = bs * (D.es * D.nc)) {b' k n j : Nat} (hk : k < D.nc)
    (hn : n < D.es) (hj : j < bs) : (paste u (b * (bs * (D.es * D.nc))) v).val (fpos D bs b' k n j) =
      if b' = b then v.val (bpos D bs k n j) else u.val (fpos D bs b' k n j) := by
  have hlt : n * bs + j < D.es * bs := by
    have : (n + 1) * bs ≤ D.es * bs := Nat.mul_le_mul_right _ hn
    rw [Nat.add_mul] at this; omega
  have e : ∀ b', pos { D with es := D.es * bs } b' k (n * bs + j) = fpos D bs b' k n j := by
    intro b'
    unfold pos fpos eIdx
    show (b' * D.nc + k) * (D.es * bs) + (n * bs + j) = _
    ring
  have := paste_pos (D := { D with es := D.es * bs }) (b := u) (v := v) (e := b)
    (by show v.len = D.nc * (D.es * bs); rw [hv]; ring) (e' := b') (k := k) (n := n * bs + j) hk hlt
  rw [e] at this
  have e2 : D.nc * (D.es * bs) = bs * (D.es * D.nc) := by ring
  show (paste u (b * (bs * (D.es * D.nc))) v).val _ = _
  rw [← e2]
  refine this.trans ?_
  congr 2
  show k * (D.es * bs) + (n * bs + j) = _
  unfold bpos eIdx
  ring

/-- E-vectors after the outputs in `T p` have been written into block `b` of E-vector `p`. -/
structure OutK (op : Oper α) (S : Meaning α) (bs b : Nat) (y : Nat → Nat → α) (w0 w : Nat → Buf α) (T : Nat → Finset Nat) : Prop where
  len : WLen op w
  other : ∀ p < op.nout, ∀ b', b' ≠ b → ∀ k < (S.dat (op.out p)).nc, ∀ n < (S.dat (op.out p)).es, ∀ j < bs,
    (w p).val (fpos (S.dat (op.out p)) bs b' k n j) = (w0 p).val (fpos (S.dat (op.out p)) bs b' k n j)
  val : ∀ p < op.nout, (T p).Nonempty → ∀ k < (S.dat (op.out p)).nc, ∀ n < (S.dat (op.out p)).es, ∀ j < bs,
    (w p).val (fpos (S.dat (op.out p)) bs b k n j) = ∑ o ∈ T p, laneOut op S bs y o k n j

theorem OutK.write {op : Oper α} {S : Meaning α} {bs b : Nat} {y : Nat → Nat → α} {w0 w : Nat → Buf α}
    {T T' : Nat → Finset Nat} (h : OutK op S bs b y w0 w T) {o : Nat} (ho : o < op.nout) {v : Buf α}
    (hv : v.len = bs * ((S.dat (op.out o)).es * (S.dat (op.out o)).nc)) (hT : ∀ p, p ≠ last op o → T' p = T p)
    (hval : ∀ k < (S.dat (op.out o)).nc, ∀ n < (S.dat (op.out o)).es, ∀ j < bs,
      v.val (bpos (S.dat (op.out o)) bs k n j) = ∑ o' ∈ T' (last op o), laneOut op S bs y o' k n j) :
    OutK op S bs b y w0 (Function.update w (last op o)
      (paste (w (last op o)) (b * (bs * ((S.dat (op.out o)).es * (S.dat (op.out o)).nc))) v)) T' := by
  have hs := last_same op ho
  have hD := dat_same (S := S) hs
  refine ⟨?_, ?_, ?_⟩
  · intro p hp
    by_cases hpe : p = last op o
    · subst hpe
      rw [Function.update_self]; exact h.len _ hp
    · rw [Function.update_of_ne hpe]; exact h.len p hp
  · intro p hp b' hb' k hk n hn j hj
    by_cases hpe : p = last op o
    · subst hpe
      rw [Function.update_self]
      rw [hD] at hk hn ⊢
      rw [paste_blk hv hk hn hj, if_neg hb']
      have := h.other _ hp b' hb' k (by rw [hD]; exact hk) n (by rw [hD]; exact hn) j hj
      rw [hD] at this
      exact this
    · rw [Function.update_of_ne hpe]; exact h.other p hp b' hb' k hk n hn j hj
  · intro p hp hne k hk n hn j hj
    by_cases hpe : p = last op o
    · subst hpe
      rw [Function.update_self]
      rw [hD] at hk hn ⊢
      rw [paste_blk hv hk hn hj, if_pos rfl]
      exact hval k hk n hn j hj
    · rw [Function.update_of_ne hpe, hT p hpe]
      rw [hT p hpe] at hne
      exact h.val p hp hne k hk n hn j hj

theorem wlen_blk {op : Oper α} {S : Meaning α} {bs : Nat} (h : BlkOK op S bs) {w : Nat → Buf α} (hw : WLen op w) {o : Nat}
    (ho : o < op.nout) : (w (last op o)).len = nbk op bs * (bs * ((S.dat (op.out o)).es * (S.dat (op.out o)).nc)) := by
  rw [hw _ (last_lt op ho), eSizeOf_same (last_same op ho), (h.outR o ho).sizes.2]

theorem directBlocked_ok {op : Oper α} {S : Meaning α} {bs : Nat} (h : BlkOK op S bs) {L : Nat → Nat → α} {inv : VPtr} {s : OSt α}
    (hp : KPre op S bs L inv s) (q eb : Nat → Buf α) (vs : Nat → LVec α) {b : Nat} (hb : b < nbk op bs) {o : Nat} (ho : o < op.nout)
    {w0 w : Nat → Buf α} {y : Nat → Nat → α}
    (hw : OutK op S bs b y w0 w (fun p => (range o).filter (fun o' => last op o' = p ∧ (op.out o').mode = .none))) :
    ∃ w', directBlocked op bs b y o (s.put q w eb vs) = .ok (s.put q w' eb vs) () ∧
      OutK op S bs b y w0 w' (fun p => (range (o + 1)).filter (fun o' => last op o' = p ∧ (op.out o').mode = .none)) := by
  unfold directBlocked
  by_cases hm : (op.out o).mode = .none
  · obtain ⟨hes, hsz⟩ := h.outN o ho hm
    have hs := last_same op ho
    have hl := wlen_blk h hw.len ho
    have hoff : b * bs * op.Q * (op.out o).size = b * (bs * ((S.dat (op.out o)).es * (S.dat (op.out o)).nc)) := by
      rw [hes, hsz]; ring
    have hnn : op.Q * (op.out o).size * bs = bs * ((S.dat (op.out o)).es * (S.dat (op.out o)).nc) := by
      rw [hes, hsz]; ring
    have hsl : slice (w (last op o)) (b * bs * op.Q * (op.out o).size) (op.Q * (op.out o).size * bs) =
        .ok ⟨op.Q * (op.out o).size * bs, fun x => (w (last op o)).val (b * bs * op.Q * (op.out o).size + x)⟩ := by
      unfold slice
      rw [if_pos]
      rw [hl, hoff, hnn]
      exact slot_le hb
    refine ⟨Function.update w (last op o) (paste (w (last op o)) (b * bs * op.Q * (op.out o).size)
      ⟨op.Q * (op.out o).size * bs, y o⟩), ?_, ?_⟩
    · have hnw : ¬ (op.isId = true ∧ (op.inp 0).mode = .weight) := by
        rintro ⟨h1, h2⟩
        obtain ⟨_, k2, _, _, k5⟩ := h.ident h1
        exact k5 h2 (by rw [← hm, show o = 0 by omega])
      simp only [M.bind_apply, getOB, Out.bind_ok, OSt.put, hm, if_true, hp.eptr o ho, optr, M.pure_apply, hsl, M.lift_ok,
        onB, setEOut, modI, if_neg hnw]
    · rw [hoff]
      refine hw.write ho ?_ ?_ ?_
      · exact hnn
      · intro p hpne
        rw [Finset.range_add_one, Finset.filter_insert, if_neg (by rintro ⟨h1, _⟩; exact hpne h1.symm)]
      · intro k hk n hn j hj
        have hsing : (range (o + 1)).filter (fun o' => last op o' = last op o ∧ (op.out o').mode = .none) = {o} := by
          ext o'
          simp only [mem_filter, mem_range, mem_singleton]
          constructor
          · rintro ⟨h1, h2, h3⟩
            by_contra hne
            have hsame : (op.out o').same (op.out o) = true := by
              have h4 := last_same op (j := o') (by omega)
              rw [h2] at h4
              exact same_trans (same_symm h4) hs
            have := h.shareOut o' o (by omega) ho hsame
            rw [hm] at this; simp [isBasisMode] at this
          · rintro rfl; exact ⟨by omega, rfl, hm⟩
        rw [hsing, sum_singleton]
        unfold laneOut
        rw [if_pos hm]
        unfold bpos eIdx
        rw [hes, Nat.zero_mul, Nat.zero_add]
  · refine ⟨w, ?_, ?_⟩
    · simp only [M.bind_apply, getOB, Out.bind_ok, hm, if_false, M.pure_apply]
    · have : (fun p => (range (o + 1)).filter (fun o' => last op o' = p ∧ (op.out o').mode = .none)) =
          fun p => (range o).filter (fun o' => last op o' = p ∧ (op.out o').mode = .none) := by
        funext p
        rw [Finset.range_add_one, Finset.filter_insert, if_neg (by rintro ⟨_, h1⟩; exact hm h1)]
      rw [this]
      exact hw

theorem outputBlocked1_ok {op : Oper α} {S : Meaning α} {bs : Nat} (h : BlkOK op S bs) {L : Nat → Nat → α} {inv : VPtr} {s : OSt α}
    (hp : KPre op S bs L inv s) (junk : Nat → Nat → α) (q eb : Nat → Buf α) (vs : Nat → LVec α) {b : Nat} (hb : b < nbk op bs)
    {o : Nat} (ho : o < op.nout) {w0 w : Nat → Buf α} {y : Nat → Nat → α}
    (hw : OutK op S bs b y w0 w (fun p => members op p o)) :
    ∃ w', outputBlocked1 op junk bs b y o (s.put q w eb vs) = .ok (s.put q w' eb vs) () ∧
      OutK op S bs b y w0 w' (fun p => members op p (o + 1)) := by
  unfold outputBlocked1
  rcases mode_cases (op.out o).mode with hm | hm | hm
  · exact absurd hm (h.outW o ho)
  · refine ⟨w, by rw [if_pos hm]; rfl, ?_⟩
    have : (fun p => members op p (o + 1)) = fun p => members op p o := by
      funext p
      unfold members
      ext o'
      simp only [mem_filter, mem_range]
      constructor
      · rintro ⟨h1, h2, h3⟩
        refine ⟨h1, h2, ?_⟩
        by_cases hoo : o' = o
        · subst hoo; exact Or.inr hm
        · exact h3.imp (fun _ => by omega) id
      · rintro ⟨h1, h2, h3⟩
        exact ⟨h1, h2, h3.imp (fun _ => by omega) id⟩
    rw [this]
    exact hw
  have hnn : (op.out o).mode ≠ .none := by
    intro hh; rw [hh] at hm; simp [isBasisMode] at hm
  rw [if_neg hnn, if_pos hm]
  obtain ⟨bb, ⟨f1, f2, f3, f4, f5⟩, hmul, hadd⟩ := h.outB o ho hm
  have hs := last_same op ho
  have hD := dat_same (S := S) hs
  have hl := wlen_blk h hw.len ho
  have hqc : (op.out o).qc = bb.qComp (op.out o).mode := by unfold OField.qc; rw [f1]
  have hes := (h.outR o ho).sizes.1
  set D := S.dat (op.out o) with hDdef
  have hoff : b * bs * elemSizeOf op (op.out o) * bb.nc = b * (bs * (D.es * D.nc)) := by
    rw [hes, f3]; ring
  have hnnn : elen S (op.out o) * bs = bs * (D.es * D.nc) := by unfold elen; ring
  have hsl : slice (w (last op o)) (b * bs * elemSizeOf op (op.out o) * bb.nc) (elen S (op.out o) * bs) =
      .ok ⟨elen S (op.out o) * bs, fun x => (w (last op o)).val (b * bs * elemSizeOf op (op.out o) * bb.nc + x)⟩ := by
    unfold slice
    rw [if_pos]
    rw [hl, hoff, hnnn]
    exact slot_le hb
  set t : Buf α := ⟨elen S (op.out o) * bs, fun x => (w (last op o)).val (b * bs * elemSizeOf op (op.out o) * bb.nc + x)⟩ with ht
  have htl : t.len = bs * (D.es * D.nc) := hnnn
  have htv : ∀ k n j, t.val (bpos D bs k n j) = (w (last op o)).val (fpos D bs b k n j) := by
    intro k n j
    show (w (last op o)).val _ = _
    congr 1
    unfold fpos bpos
    rw [hoff, Restriction.eIdx_shift _ _ _ b]
    ring
  have hcol : ∀ k < D.nc, ∀ n, ∀ j < bs, Basis.colTimes bb (bb.qComp (op.out o).mode) bs (S.mOut o)
      ⟨op.Q * (op.out o).size * bs, y o⟩ k n j = laneOut op S bs y o k n j := by
    intro k hk n j hj
    unfold laneOut Basis.colTimes
    rw [if_neg hnn, hqc]
    refine sum_congr rfl (fun c hc => ?_)
    rw [f4]
    refine sum_congr rfl (fun q' hq' => ?_)
    have hpos : Basis.quadPos bb.nc op.Q bs c k q' j = ((c * D.nc + k) * op.Q + q') * bs + j := by
      unfold Basis.quadPos; rw [f3]
    rw [hpos, f2]
  have hmem : ∀ p, p ≠ last op o → members op p (o + 1) = members op p o := by
    intro p hpne
    unfold members
    ext o'
    simp only [mem_filter, mem_range]
    constructor
    · rintro ⟨h1, h2, h3⟩
      have : o' ≠ o := by rintro rfl; exact hpne h2.symm
      exact ⟨h1, h2, h3.imp (fun _ => by omega) id⟩
    · rintro ⟨h1, h2, h3⟩
      exact ⟨h1, h2, h3.imp (fun _ => by omega) id⟩
  have hins : members op (last op o) (o + 1) = insert o (members op (last op o) o) := by
    unfold members
    ext o'
    simp only [mem_filter, mem_range, mem_insert]
    constructor
    · rintro ⟨h1, h2, h3⟩
      by_cases hoo : o' = o
      · exact Or.inl hoo
      · exact Or.inr ⟨h1, h2, h3.imp (fun _ => by omega) id⟩
    · rintro (rfl | ⟨h1, h2, h3⟩)
      · exact ⟨ho, rfl, Or.inl (by omega)⟩
      · exact ⟨h1, h2, h3.imp (fun _ => by omega) id⟩
  have hnot : o ∉ members op (last op o) o := by
    unfold members
    simp [hnn]
  have hnode : ∀ k n j, Basis.nodePos bb.P bs k n j = bpos D bs k n j := by
    intro k n j; unfold Basis.nodePos bpos eIdx; rw [f2, Nat.zero_mul, Nat.zero_add]
  have hlw : bs * bb.nc * bb.Q * bb.qComp (op.out o).mode ≤ op.Q * (op.out o).size * bs := by
    rw [f4, f3, f5]; exact le_of_eq (by ring)
  have hlv : bs * bb.nc * bb.P ≤ t.len := by rw [htl, f2, f3]; exact le_of_eq (by ring)
  have key : ∃ v, (if s.base.impl.ot.add o then
        Basis.applyAdd bb junk bs .transpose (op.out o).mode (some ⟨op.Q * (op.out o).size * bs, y o⟩) t
      else Basis.apply bb junk bs .transpose (op.out o).mode (some ⟨op.Q * (op.out o).size * bs, y o⟩) t) = .ok v ∧
      v.len = bs * (D.es * D.nc) ∧ ∀ k < D.nc, ∀ n < D.es, ∀ j < bs,
        v.val (bpos D bs k n j) = ∑ o' ∈ members op (last op o) (o + 1), laneOut op S bs y o' k n j := by
    by_cases ha : s.base.impl.ot.add o = true
    · have hex := (hp.ot.add o ho).1 ha
      obtain ⟨v, e1, e2, e3, _⟩ := hadd hex junk bs ⟨op.Q * (op.out o).size * bs, y o⟩ t hlw hlv
      refine ⟨v, by rw [if_pos ha]; exact e1, e2.trans htl, ?_⟩
      intro k hk n hn j hj
      have := e3 k (by omega) n (by omega) j hj
      rw [hnode, hcol k hk n j hj, htv] at this
      rw [this, hins, sum_insert hnot, add_comm]
      congr 1
      obtain ⟨i, hi, hsame⟩ := hex
      have hne : (members op (last op o) o).Nonempty :=
        ⟨i, by unfold members; rw [mem_filter, mem_range]; exact ⟨by omega, last_congr op (by omega) ho hsame, Or.inl hi⟩⟩
      have hv := hw.val (last op o) (last_lt op ho) hne k (by rw [hD]; exact hk) n (by rw [hD]; exact hn) j hj
      rw [hD] at hv
      exact hv
    · obtain ⟨v, e1, e2, e3, _⟩ := hmul junk bs ⟨op.Q * (op.out o).size * bs, y o⟩ t hlw hlv
      refine ⟨v, by rw [if_neg ha]; exact e1, e2.trans htl, ?_⟩
      intro k hk n hn j hj
      have := e3 k (by omega) n (by omega) j hj
      rw [hnode, hcol k hk n j hj] at this
      rw [this, hins, sum_insert hnot]
      have hemp : members op (last op o) o = ∅ := by
        rw [Finset.eq_empty_iff_forall_notMem]
        intro o' hmem'
        unfold members at hmem'
        rw [mem_filter, mem_range] at hmem'
        obtain ⟨h1, h2, h3⟩ := hmem'
        have hsame : (op.out o').same (op.out o) = true := by
          have h4 := last_same op h1
          rw [h2] at h4
          exact same_trans (same_symm h4) hs
        by_cases hlt : o' < o
        · exact ha ((hp.ot.add o ho).2 ⟨o', hlt, hsame⟩)
        · rcases h3 with h3 | h3
          · exact hlt h3
          · have hne : o' ≠ o := by rintro rfl; exact hnn h3
            have := h.shareOut o o' (by omega) h1 (same_symm hsame)
            rw [h3] at this; simp [isBasisMode] at this
      rw [hemp, sum_empty, add_zero]
  obtain ⟨v, e1, e2, e3⟩ := key
  refine ⟨Function.update w (last op o) (paste (w (last op o)) (b * bs * elemSizeOf op (op.out o) * bb.nc) v), ?_, ?_⟩
  · unfold basisBlockedOut
    simp only [M.bind_apply, getOB, Out.bind_ok, OSt.put, hp.eptr o ho, hp.ot.ev o ho hm, f1, optr, M.pure_apply, hsl, e1,
      M.lift_ok, onB, setEOut, modI]
  · rw [hoff]
    exact hw.write ho e2 hmem e3

/-! ## Blocks -/

theorem blockBlocked_ok {op : Oper α} {S : Meaning α} {bs : Nat} (h : BlkOK op S bs) (F : Nat → (Nat → Nat → α) → Nat → Nat → α)
    {L : Nat → Nat → α} {inv : VPtr} {s : OSt α} (hp : KPre op S bs L inv s) (junk : Nat → Nat → α) (eb : Nat → Buf α)
    (vs : Nat → LVec α) {b : Nat} (hb : b < nbk op bs) {q w : Nat → Buf α} (hq : QB op S bs q) (hw : WLen op w) :
    ∃ q' w', blockBlocked op F junk bs b (s.put q w eb vs) = .ok (s.put q' w' eb vs) () ∧ QB op S bs q' ∧ WLen op w' ∧
      (∀ p < op.nout, ∀ b', b' ≠ b → ∀ k < (S.dat (op.out p)).nc, ∀ n < (S.dat (op.out p)).es, ∀ j < bs,
        (w' p).val (fpos (S.dat (op.out p)) bs b' k n j) = (w p).val (fpos (S.dat (op.out p)) bs b' k n j)) ∧
      (Pointwise op F → ∀ p < op.nout, last op p = p → ∀ k < (S.dat (op.out p)).nc, ∀ n < (S.dat (op.out p)).es, ∀ j < bs,
        (w' p).val (fpos (S.dat (op.out p)) bs b k n j) =
          ∑ o ∈ (range op.nout).filter (fun o => last op o = p), S.elemOut op L inv o (min (b * bs + j) (op.ne - 1)) k n) := by
  obtain ⟨q1, e1, a1, a2⟩ := inputsBlocked_ok h hp junk hb (w := w) (eb := eb) (vs := vs) hq
  set y := evalBlk op F bs q1 with hy
  obtain ⟨w1, e2, hw1⟩ := loop_ok (n := op.nout) (body := directBlocked op bs b y) (fun w => s.put q1 w eb vs)
    (fun j w' => OutK op S bs b y w w' (fun p => (range j).filter (fun o' => last op o' = p ∧ (op.out o').mode = .none)))
    (a := w) ⟨hw, fun _ _ _ _ _ _ _ _ _ _ => rfl, fun p _ hne => by simp at hne⟩
    (fun o ho w1 h1 => directBlocked_ok h hp q1 eb vs hb ho h1)
  have hw1' : OutK op S bs b y w w1 (fun p => members op p 0) := by
    have : (fun p => members op p 0) = fun p => (range op.nout).filter (fun o' => last op o' = p ∧ (op.out o').mode = .none) := by
      funext p
      unfold members
      ext o'
      simp
    rw [this]; exact hw1
  obtain ⟨w2, e3, hw2⟩ := loop_ok (n := op.nout) (body := outputBlocked1 op junk bs b y) (fun w => s.put q1 w eb vs)
    (fun j w' => OutK op S bs b y w w' (fun p => members op p j)) (a := w1) hw1'
    (fun o ho w1 h1 => outputBlocked1_ok h hp junk q1 eb vs hb ho h1)
  refine ⟨q1, w2, ?_, a1, hw2.len, hw2.other, ?_⟩
  · unfold blockBlocked
    simp only [M.bind_apply, e1, Out.bind_ok, getOB]
    show (M.loop op.nout (directBlocked op bs b y) (s.put q1 w eb vs)).bind _ = _
    rw [e2, Out.bind_ok]
    exact e3
  · intro hF p hpp hr k hk n hn j hj
    have hset : members op p op.nout = (range op.nout).filter (fun o => last op o = p) := by
      unfold members
      ext o'
      simp only [mem_filter, mem_range]
      constructor
      · rintro ⟨h1, h2, _⟩; exact ⟨h1, h2⟩
      · rintro ⟨h1, h2⟩; exact ⟨h1, h2, Or.inl h1⟩
    have hne : (members op p op.nout).Nonempty := ⟨p, by rw [hset, mem_filter, mem_range]; exact ⟨hpp, hr⟩⟩
    rw [hw2.val p hpp hne k hk n hn j hj, hset]
    refine sum_congr rfl (fun o ho => ?_)
    rw [mem_filter, mem_range] at ho
    have hD : S.dat (op.out o) = S.dat (op.out p) := by
      have := last_same op ho.1
      rw [ho.2] at this
      exact (dat_same this).symm
    exact elemOut_lane h hF a2 ho.1 hj (by rw [hD]; exact hk) (by rw [hD]; exact hn)

/-- All blocks. -/
theorem blocksBlocked_ok {op : Oper α} {S : Meaning α} {bs : Nat} (h : BlkOK op S bs) (F : Nat → (Nat → Nat → α) → Nat → Nat → α)
    {L : Nat → Nat → α} {inv : VPtr} {s : OSt α} (hp : KPre op S bs L inv s) (junk : Nat → Nat → α)
    (hq : QB op S bs s.base.impl.qIn) (hw : WLen op s.base.impl.eOut) :
    ∃ q w, M.loop (nblk op.ne bs) (blockBlocked op F junk bs) s = .ok (s.put q w s.eBlk s.base.vecs) () ∧ QB op S bs q ∧ WLen op w ∧
      (Pointwise op F → ∀ p < op.nout, last op p = p → ∀ e < op.ne, ∀ k < (S.dat (op.out p)).nc, ∀ n < (S.dat (op.out p)).es,
        (w p).val (Restriction.ePos (S.dat (op.out p)).es (S.dat (op.out p)).nc bs e k n) =
          ∑ o ∈ (range op.nout).filter (fun o => last op o = p), S.elemOut op L inv o e k n) := by
  rw [nblk_eq op h.pos]
  obtain ⟨⟨q, w⟩, e, a1, a2, a3⟩ := loop_ok (n := nbk op bs) (body := blockBlocked op F junk bs)
    (fun (x : (Nat → Buf α) × (Nat → Buf α)) => s.put x.1 x.2 s.eBlk s.base.vecs)
    (fun B x => QB op S bs x.1 ∧ WLen op x.2 ∧ (Pointwise op F → ∀ p < op.nout, last op p = p → ∀ b < B,
      ∀ k < (S.dat (op.out p)).nc, ∀ n < (S.dat (op.out p)).es, ∀ j < bs, (x.2 p).val (fpos (S.dat (op.out p)) bs b k n j) =
          ∑ o ∈ (range op.nout).filter (fun o => last op o = p), S.elemOut op L inv o (min (b * bs + j) (op.ne - 1)) k n))
    (a := (s.base.impl.qIn, s.base.impl.eOut)) ⟨hq, hw, fun _ _ _ _ b hb => absurd hb (by omega)⟩ (by
      rintro b hb ⟨q, w⟩ ⟨c1, c2, c3⟩
      obtain ⟨q', w', e, d1, d2, d3, d4⟩ := blockBlocked_ok h F hp junk s.eBlk s.base.vecs hb c1 c2
      refine ⟨(q', w'), e, d1, d2, ?_⟩
      intro hF p hpp hr b' hb' k hk n hn j hj
      by_cases hbb : b' = b
      · subst hbb; exact d4 hF p hpp hr k hk n hn j hj
      · rw [d3 p hpp b' hbb k hk n hn j hj]
        exact c3 hF p hpp hr b' (by omega) k hk n hn j hj)
  refine ⟨q, w, e, a1, a2, ?_⟩
  intro hF p hpp hr e he k hk n hn
  have hB : e / bs < nbk op bs := Restriction.div_lt_nb h.pos he
  have := a3 hF p hpp hr (e / bs) hB k hk n hn (e % bs) (Nat.mod_lt _ h.pos)
  have hmin : min (e / bs * bs + e % bs) (op.ne - 1) = e := by
    rw [Nat.div_add_mod' e bs]; omega
  rw [hmin] at this
  rw [← this]
  congr 1

end Operator
end Verif
