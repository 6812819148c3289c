import Verif.Operator.OptAsmRun
import Verif.Operator.BlockedAsmSpec

/-!
# Assembly by the `blocked` backend: the blocks (helper lemmas)
-/

set_option linter.unusedSectionVars false

namespace Verif
namespace Operator

open Finset
open Restriction (RData Made Rstr Rep laneEnd stridedData ePos)
open Basis (Bas EMode)

variable {α : Type} [CommRing α]

/-! ## Columns -/

theorem syncLent_id {op : Oper α} (h : Separate op) {i : Nat} (hi : i < op.nin) (s : St α) : syncLent op i s = .ok s () := by
  unfold syncLent
  simp only [M.bind_apply, getS, Out.bind_ok]
  split
  · exact syncQ_ok h hi s
  · rfl

theorem columnK_eq {op : Oper α} (h : Separate op) {i : Nat} (hi : i < op.nin) (c : Nat) : columnK op i c = columnB op i c := by
  funext s
  have y1 : ∀ t : ASt α, liftS (syncLent op i) t = .ok t () := fun t => liftS_ok (t := t.st) (syncLent_id h hi t.st)
  have y2 : ∀ t : ASt α, liftS (syncQ op i) t = .ok t () := fun t => liftS_ok (t := t.st) (syncQ_ok h hi t.st)
  unfold columnK columnB
  simp only [M.bind_apply, y1, y2]

theorem loop_congr_lt {σ : Type} {f g : Nat → M σ Unit} {n : Nat} (h : ∀ i < n, f i = g i) : M.loop n f = M.loop n g := by
  induction n with
  | zero => rfl
  | succ n ih =>
    have e := ih (fun i hi => h i (by omega))
    funext s
    show (M.loop n f >>= fun _ => f n) s = (M.loop n g >>= fun _ => g n) s
    rw [e, h n (by omega)]

theorem columnsK_eq {op : Oper α} (h : Separate op) : M.loop op.nin (columnsK op) = M.loop op.nin (columnsB op) := by
  refine loop_congr_lt (fun i hi => ?_)
  unfold columnsK columnsB
  split
  · exact loop_congr_lt (fun c _ => columnK_eq h hi c)
  · rfl

/-! ## Passive inputs -/

/-- What holds of the passive inputs when the blocks are visited. -/
structure PPre (op : Oper α) (S : Meaning α) (bs : Nat) (L : Nat → Nat → α) (s : OSt α) : Prop where
  it : InSpec op S s.base.impl.it
  len : ∀ i < op.nin, (op.inp i).mode ≠ .weight → (s.base.impl.eIn (first op i)).len = eSizeOf op (op.inp i)
  gath : ∀ i < op.nin, (op.inp i).mode ≠ .weight → (op.inp i).vec ≠ .active →
    GathB op S bs i (s.base.impl.eIn (first op i)) (cont L ((op.inp i).vec.ptr .null))

theorem inputsSkipK_ok {op : Oper α} {S : Meaning α} {bs : Nat} (h : BlkOK op S bs) {L : Nat → Nat → α} {s : OSt α}
    (hp : PPre op S bs L s) (junk : Nat → Nat → α) {b : Nat} (hb : b < nbk op bs) {q w eb : Nat → Buf α}
    {vs : Nat → LVec α} (hq : QB op S bs q) :
    ∃ q', M.loop op.nin (inputSkipK op junk bs b) (s.put q w eb vs) = .ok (s.put q' w eb vs) () ∧ QB op S bs q' ∧
      (∀ i < op.nin, (op.inp i).vec ≠ .active → LaneIn op S bs b L .null i (q' i)) ∧
      ∀ i, (op.inp i).vec = .active → q' i = q i := by
  refine loop_ok (n := op.nin) (body := inputSkipK op junk bs b) (fun x => s.put x w eb vs)
    (fun n x => QB op S bs x ∧ (∀ i < n, (op.inp i).vec ≠ .active → LaneIn op S bs b L .null i (x i)) ∧
      ∀ i, (op.inp i).vec = .active → x i = q i) (a := q) ⟨hq, fun i hi => absurd hi (by omega), fun _ _ => rfl⟩ ?_
  rintro i hi q1 ⟨h1, h3, h4⟩
  unfold inputSkipK
  by_cases ha : (op.inp i).vec = .active
  · rw [if_pos ha]
    refine ⟨q1, rfl, h1, ?_, h4⟩
    intro j hj hn
    have : j ≠ i := by rintro rfl; exact hn ha
    exact h3 j (by omega) hn
  rw [if_neg ha]
  obtain ⟨v, e1, e2, e3⟩ := inputBlocked1_okI h hp.it junk hi (hp.len i hi) (fun hw => hp.gath i hi hw ha) hb (w := w)
    (eb := eb) (vs := vs) h1
  refine ⟨_, e1, ?_, ?_, ?_⟩
  · intro j hj
    by_cases hji : j = i
    · subst hji
      rw [Function.update_self]
      refine ⟨e2, fun hw x hx k hk => ?_⟩
      rw [e3 x (by rw [(h.inW j hj hw).1]; omega) k hk]
      unfold Meaning.inVal
      simp only [hw]
    · rw [Function.update_of_ne hji]; exact h1 j hj
  · intro j hj hn
    by_cases hji : j = i
    · subst hji; rw [Function.update_self]; exact e3
    · rw [Function.update_of_ne hji]; exact h3 j (by omega) hn
  · intro j hj
    have hji : j ≠ i := by rintro rfl; exact ha hj
    rw [Function.update_of_ne hji]; exact h4 j hj

/-! ## One block -/

/-- Entries of one block of the work vector. -/
def blkLen (op : Oper α) (bs : Nat) : Nat := bs * op.Q * op.cIn * op.cOut

/-- What holds of the work data after `b` blocks. -/
structure KWork (op : Oper α) (S : Meaning α) (F : Nat → (Nat → Nat → α) → Nat → Nat → α) (L : Nat → Nat → α) (bs : Nat)
    (z : Prop) (b : Nat) (x : Work α) : Prop where
  q : QB op S bs x.q
  arr : x.arr.len = nbk op bs * blkLen op bs
  off : x.off = b * blkLen op bs
  clean : z → Clean (op.wide F bs) x.q
  done : z → Pointwise op F → ∀ b' < b, ∀ j < bs, ∀ i < op.nin, (op.inp i).vec = .active → ∀ c < (op.inp i).size,
    ∀ o < op.nout, (op.out o).vec = .active → ∀ d < (op.out o).size, ∀ q < op.Q,
      x.arr.val ((b' * (op.cIn * op.cOut) + ((offset op.inp i + c) * op.cOut + (offset op.out o + d))) * op.Q * bs + (q * bs + j)) =
        op.eval (S.mix op L (min (b' * bs + j) (op.ne - 1)) (unit op i c)) o (d * op.Q + q)

theorem assembleBlkK_ok {op : Oper α} {S : Meaning α} {bs : Nat} (h : BlkOK op S bs) (hsep : Separate op)
    (hwt : ∀ i < op.nin, (op.inp i).mode = .weight → (op.inp i).vec ≠ .active) (hpos : 0 < op.cOut)
    (F : Nat → (Nat → Nat → α) → Nat → Nat → α) (junk : Nat → Nat → α) {L : Nat → Nat → α} {s : BSt α}
    (hp : PPre op S bs L s.o) {z : Prop} {b : Nat} (hb : b < nbk op bs) {x : Work α} (hx : KWork op S F L bs z b x) :
    ∃ x', assembleBlkK op F junk bs b (s.put x) = .ok (s.put x') () ∧ KWork op S F L bs z (b + 1) x' ∧ x'.out = x.out ∧
      x'.eb = x.eb := by
  obtain ⟨q1, e1, h1, h3, h4⟩ := inputsSkipK_ok h hp junk hb (w := s.a.st.impl.eOut) (eb := x.eb) (vs := s.a.st.vecs) hx.q
  have e1' : liftO (M.loop op.nin (inputSkipK op junk bs b)) (s.put x) = .ok (s.put { x with q := q1 }) () :=
    liftO_ok (s := s.put x) e1
  have hid : IdOK (op.wide F bs) := fun hh => ⟨(h.ident hh).1, (h.ident hh).2.1, (h.ident hh).2.2.1⟩
  have hsep' : Separate (op.wide F bs) := hsep
  have hcl : z → Clean (op.wide F bs) q1 := by
    intro hz
    rcases hx.clean hz with hh | hh
    · refine Or.inl (fun i hi ha y hy => ?_)
      rw [h4 i ha]; exact hh i hi ha y hy
    · exact Or.inr hh
  have hg : GCol (op.wide F bs) (passB op S bs b L) q1 z q1 := by
    refine ⟨fun i hi => h1.wide F hi, ?_, fun _ _ => rfl, hcl⟩
    intro i hi ha y hy
    have hy' : y < op.Q * bs * (op.inp i).size := hy
    have hm : y % bs < bs := Nat.mod_lt _ h.pos
    have hd : y / bs < op.Q * (op.inp i).size :=
      Nat.div_lt_of_lt_mul (by rw [show bs * (op.Q * (op.inp i).size) = op.Q * bs * (op.inp i).size by ring]; exact hy')
    have := h3 i hi ha (y / bs) hd (y % bs) hm
    rw [Nat.div_add_mod'] at this
    exact this
  have hst : (op.wide F bs).cIn * (op.wide F bs).stride = blkLen op bs := by
    show op.cIn * (op.cOut * (op.Q * bs)) = bs * op.Q * op.cIn * op.cOut
    ring
  have hroom : x.off + (op.wide F bs).cIn * (op.wide F bs).stride ≤ x.arr.len := by
    rw [hst, hx.arr, hx.off]
    have : (b + 1) * blkLen op bs ≤ nbk op bs * blkLen op bs := Nat.mul_le_mul_right _ hb
    rw [Nat.add_mul, Nat.one_mul] at this
    exact this
  obtain ⟨⟨q2, a2, p2⟩, e3, c1, c2, c3, c4, c5⟩ := columnsB_ok hid hsep' hpos s.a s.a.st.impl.eOut hg (arr := x.arr) (off := x.off)
    hroom
  simp only at c1 c2 c3 c4 c5
  have e3' : liftAB (M.loop op.nin (columnsK (op.wide F bs))) (s.put { x with q := q1 }) =
      .ok (s.put ⟨q2, x.eb, a2, p2, x.out⟩) () := by
    refine liftAB_ok (s := s.put { x with q := q1 }) ?_
    have := columnsK_eq hsep'
    have hn : (op.wide F bs).nin = op.nin := rfl
    rw [hn] at this
    rw [this]
    exact e3
  refine ⟨⟨q2, x.eb, a2, p2, x.out⟩, ?_, ⟨?_, by rw [c2, hx.arr], ?_, c1.clean, ?_⟩, rfl, rfl⟩
  · unfold assembleBlkK
    simp only [M.bind_apply, e1', Out.bind_ok, e3']
  · intro i hi
    refine ⟨?_, fun hw y hy j hj => ?_⟩
    · rw [c1.len i hi]
      show op.Q * bs * (op.inp i).size = _
      ring
    · have := c1.same i (hwt i hi hw)
      show (q2 i).val _ = _
      rw [this]
      exact (h1 i hi).2 hw y hy j hj
  · show p2 = _
    rw [c3, hst, hx.off]; ring
  · intro hz hF b' hb' j hj i hi ha c hc o ho hao d hd q hq
    show a2.val _ = _
    have hC := c5 hz
    have hqj : q * bs + j < op.Q * bs := enc_lt hq hj
    have hk : (offset op.inp i + c) * op.cOut + (offset op.out o + d) < op.cIn * op.cOut :=
      enc3_lt (offset_add_lt op.inp hi ha hc) (offset_add_lt op.out ho hao hd)
    by_cases hbb : b' = b
    · subst hbb
      have := hC i hi ha c hc o ho hao d hd (q * bs + j) hqj
      rw [← eval_lane (S := S) (b := b') (L := L) hF hj i c o d hq]
      refine Eq.trans ?_ this
      congr 1
      rw [hx.off]
      show _ = b' * (bs * op.Q * op.cIn * op.cOut) + (offset op.inp i + c) * (op.cOut * (op.Q * bs)) +
        (offset op.out o + d) * (op.Q * bs) + (q * bs + j)
      ring
    · rw [c4]
      · exact hx.done hz hF b' (by omega) j hj i hi ha c hc o ho hao d hd q hq
      · rw [hx.off]
        have h5 : (b' * (op.cIn * op.cOut) + ((offset op.inp i + c) * op.cOut + (offset op.out o + d))) * (op.Q * bs) +
            (q * bs + j) < b * (op.cIn * op.cOut) * (op.Q * bs) := enc_lt (enc_lt (by omega) hk) hqj
        have h6 : b * (op.cIn * op.cOut) * (op.Q * bs) = b * blkLen op bs := by unfold blkLen; ring
        rw [h6] at h5
        refine lt_of_eq_of_lt ?_ h5
        ring

theorem assembleBlksK_ok {op : Oper α} {S : Meaning α} {bs : Nat} (h : BlkOK op S bs) (hsep : Separate op)
    (hwt : ∀ i < op.nin, (op.inp i).mode = .weight → (op.inp i).vec ≠ .active) (hpos : 0 < op.cOut)
    (F : Nat → (Nat → Nat → α) → Nat → Nat → α) (junk : Nat → Nat → α) {L : Nat → Nat → α} {s : BSt α}
    (hp : PPre op S bs L s.o) {z : Prop} {x : Work α} (hx : KWork op S F L bs z 0 x) :
    ∃ x', M.loop (nblk op.ne bs) (assembleBlkK op F junk bs) (s.put x) = .ok (s.put x') () ∧
      KWork op S F L bs z (nbk op bs) x' ∧ x'.out = x.out ∧ x'.eb = x.eb := by
  rw [nblk_eq op h.pos]
  exact loop_ok (n := nbk op bs) (body := assembleBlkK op F junk bs) (fun x => s.put x)
    (fun b x' => KWork op S F L bs z b x' ∧ x'.out = x.out ∧ x'.eb = x.eb) ⟨hx, rfl, rfl⟩ (by
      rintro b hb y ⟨hy, h1, h2⟩
      obtain ⟨y', e, k1, k2, k3⟩ := assembleBlkK_ok h hsep hwt hpos F junk hp hb hy
      exact ⟨y', e, k1, k2.trans h1, k3.trans h2⟩)

/-! ## Adding all blocks -/

theorem scatterAll_ok {op : Oper α} {bs : Nat} (hbs : 0 < bs) {r : Rstr} (h : AsmR op bs r) {u : Buf α}
    (hu : u.len = nbk op bs * blkLen op bs) :
    ∃ v', Restriction.apply r .plain .transpose u ⟨op.alen, fun _ => 0⟩ = .ok v' ∧ v'.len = op.alen ∧
      ∀ e k n, k < op.cIn * op.cOut → n < op.Q → e < op.ne →
        v'.val ((e * (op.cIn * op.cOut) + k) * op.Q + n) =
          u.val ((e / bs * (op.cIn * op.cOut) + k) * op.Q * bs + (n * bs + e % bs)) := by
  have hnb : r.numBlock = nbk op bs := by rw [h.rep.nb, h.bs]; rfl
  have e1 := h.rep.apply_t (u := u) (v := ⟨op.alen, fun _ => 0⟩) (by
      rw [hu, h.rep.esz, hnb, h.bs]
      show nbk op bs * (op.cIn * op.cOut) * op.Q * bs ≤ _
      exact le_of_eq (by unfold blkLen; ring)) (by rw [h.ls])
  refine ⟨_, e1, rfl, ?_⟩
  intro e k n hk hn he
  show 0 + (qfData op).scatter r.blockSize u.val _ = _
  rw [zero_add, h.bs]
  have hs : (qfData op).scatter bs u.val ((e * (op.cIn * op.cOut) + k) * op.Q + n) =
      ∑ e' ∈ range op.ne, (qfData op).elemScatter (fun k n => u.val (ePos op.Q (op.cIn * op.cOut) bs e' k n)) e'
        ((e * (op.cIn * op.cOut) + k) * op.Q + n) := rfl
  rw [hs, sum_congr rfl (fun e' _ => asm_scatter op _ e' e hk hn), sum_eq_single e]
  · rw [if_pos rfl]
    congr 1
    unfold ePos
    ring
  · intro e' _ hne
    rw [if_neg hne]
  · intro hh; exact absurd (mem_range.2 he) hh

/-- The assembled vector. -/
theorem KWork.columns {op : Oper α} {S : Meaning α} {F : Nat → (Nat → Nat → α) → Nat → Nat → α} {L : Nat → Nat → α} {bs : Nat}
    (hbs : 0 < bs) {z : Prop} {x : Work α} (hx : KWork op S F L bs z (nbk op bs) x) {v : Buf α} (hl : v.len = op.alen)
    (hv : ∀ e k n, k < op.cIn * op.cOut → n < op.Q → e < op.ne →
        v.val ((e * (op.cIn * op.cOut) + k) * op.Q + n) =
          x.arr.val ((e / bs * (op.cIn * op.cOut) + k) * op.Q * bs + (n * bs + e % bs))) (hz : z) (hF : Pointwise op F) :
    Columns op S L v := by
  refine ⟨hl, ?_⟩
  intro e he i hi ha c hc o ho hao d hd q hq
  have hk : (offset op.inp i + c) * op.cOut + (offset op.out o + d) < op.cIn * op.cOut :=
    enc3_lt (offset_add_lt op.inp hi ha hc) (offset_add_lt op.out ho hao hd)
  have hap : op.apos e i c o d q =
      (e * (op.cIn * op.cOut) + ((offset op.inp i + c) * op.cOut + (offset op.out o + d))) * op.Q + q := by
    unfold Oper.apos; ring
  have hdm : e / bs * bs + e % bs = e := by rw [Nat.mul_comm]; exact Nat.div_add_mod e bs
  have hb : e / bs < nbk op bs := by
    have h1 := (Restriction.nb_bounds (ne := op.ne) hbs).1
    have h2 : nbk op bs = (op.ne + bs - 1) / bs := rfl
    rw [h2]
    refine Nat.div_lt_of_lt_mul ?_
    rw [Nat.mul_comm]; omega
  have := hx.done hz hF (e / bs) hb (e % bs) (Nat.mod_lt _ hbs) i hi ha c hc o ho hao d hd q hq
  rw [hap, hv e _ q hk hq he, this, hdm, show min e (op.ne - 1) = e by omega]

end Operator
end Verif
