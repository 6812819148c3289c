import Verif.Operator.BlockedElem

/-!
# Application on the blocked backend (helper lemmas)
-/

set_option linter.unusedSectionVars false

namespace Verif
namespace Operator

open Finset
open Restriction (RData Made Rstr Rep laneEnd)
open Basis (Bas EMode)

variable {α : Type} [CommRing α]

/-! ## Invariant -/

/-- Invariant, between calls, of an operator that has been set up; `op` has the restrictions with blocks. -/
structure KInv (op : Oper α) (S : Meaning α) (bs : Nat) (s : St α) : Prop where
  done : s.impl.done = true
  idR : s.impl.idRstr = (op.isId && decide ((op.inp 0).mode = .none) && decide ((op.out 0).mode = .none))
  it : InSpec op S s.impl.it
  ot : OutSpec op S s.impl.ot
  q : QB op S bs s.impl.qIn
  w : WLen op s.impl.eOut
  g : GInv op (GathB op S bs) s

theorem KInv.upd {op : Oper α} {S : Meaning α} {bs : Nat} {s s' : St α} (h : KInv op S bs s) (hv : Advances s.vecs s'.vecs)
    (hi : ∃ rd wr w q, s'.impl = { s.impl with rd := rd, wr := wr, eOut := w, qIn := q } ∧ WLen op w ∧ QB op S bs q) :
    KInv op S bs s' := by
  obtain ⟨rd, wr, w, q, e, h1, h2⟩ := hi
  exact ⟨by rw [e]; exact h.done, by rw [e]; exact h.idR, by rw [e]; exact h.it, by rw [e]; exact h.ot, by rw [e]; exact h2,
    by rw [e]; exact h1, h.g.adv hv (by rw [e]) (by rw [e]) (by rw [e]) (by rw [e])⟩

theorem KInv.gloop {op : Oper α} {S : Meaning α} {bs : Nat} {s : St α} (h : KInv op S bs s) {sk : Bool} {inv : VPtr} {b : St α} {j : Nat}
    (hl : GLoop op (GathB op S bs) sk inv s b j) : KInv op S bs b :=
  ⟨hl.done ▸ h.done, hl.idR ▸ h.idR, by rw [hl.it]; exact h.it, by rw [hl.ot]; exact h.ot, by rw [hl.q]; exact h.q,
    by rw [hl.eOut]; exact h.w, hl.inv h.g⟩

/-! ## Locking the outputs -/

theorem lockBlocked_wp {op : Oper α} {S : Meaning α} {bs : Nat} {s0 : St α} (h0 : KInv op S bs s0) {R : Prop}
    (hU : R → ∀ k, s0.impl.wr k = false) :
    M.wp R (lockWrites op) s0 (fun s _ => s.vecs = s0.vecs ∧ (∃ wr, s.impl = { s0.impl with wr := wr }) ∧
      (∀ o < op.nout, s.eptr o = some (last op o)) ∧
      (∀ k, Root op k → s.impl.wr k = true ∧ s0.impl.wr k = false) ∧
      ∀ k, ¬ Root op k → s.impl.wr k = s0.impl.wr k) (fun s _ => ¬ R ∧ KInv op S bs s) := by
  have hinv : ∀ s : St α, s.vecs = s0.vecs → (∃ wr, s.impl = { s0.impl with wr := wr }) → KInv op S bs s := by
    rintro s e1 ⟨wr, e2⟩
    exact h0.upd (e1 ▸ Advances.refl _) ⟨_, wr, _, _, e2, h0.w, h0.q⟩
  unfold lockWrites
  refine M.wp_mono (M.wp_loop (fun a s => s.vecs = s0.vecs ∧ (∃ wr, s.impl = { s0.impl with wr := wr }) ∧
      (∀ o < op.nout, op.nout - a ≤ o → s.eptr o = some (last op o)) ∧
      (∀ k, Root op k → op.nout - a ≤ k → s.impl.wr k = true ∧ s0.impl.wr k = false) ∧
      ∀ k, (Root op k → k < op.nout - a) → s.impl.wr k = s0.impl.wr k) ?_ ?_) ?_ (fun _ _ h => h)
  · exact ⟨rfl, ⟨_, rfl⟩, fun o ho h => absurd h (by omega), fun k hk h => absurd hk.1 (by omega), fun _ _ => rfl⟩
  · rintro a ha s ⟨e1, ⟨wr, e2⟩, h1, h2, h3⟩
    set o := op.nout - 1 - a with ho
    have ho' : o < op.nout := by omega
    have hot : s.impl.ot = s0.impl.ot := by rw [e2]
    have hsk := h0.ot.skip o ho'
    unfold lockWrite
    rw [M.wp_bind]
    refine M.wp_of_eq_ok (s' := s) (a := s) rfl ?_
    by_cases hlt : o < last op o
    · rw [if_pos (by rw [hot]; exact hsk.2 hlt)]
      obtain ⟨i1, i2, i3⟩ := h0.ot.idx o ho' hlt
      have hnr : ¬ Root op o := fun hr => by have := hr.2; omega
      refine M.wp_of_eq_ok (s' := { s with eptr := Function.update s.eptr o (s.eptr (s.impl.ot.idx o)) }) (a := ()) rfl ?_
      refine ⟨e1, ⟨wr, e2⟩, ?_, ?_, ?_⟩
      · intro o1 ho1 hge
        show Function.update s.eptr o _ o1 = _
        by_cases hoo : o1 = o
        · rw [hoo, Function.update_self, hot, h1 _ i2 (by omega), last_congr op i2 ho' i3]
        · rw [Function.update_of_ne hoo]; exact h1 o1 ho1 (by omega)
      · intro k hk hge
        by_cases hko : k = o
        · exact absurd (hko ▸ hk) hnr
        · exact h2 k hk (by omega)
      · intro k hk
        refine h3 k (fun hr => ?_)
        have := hk hr; omega
    · rw [if_neg (by rw [hot, hsk]; exact hlt)]
      have hge := le_last op ho' (same_refl (op.out o))
      have hroot : Root op o := ⟨ho', by omega⟩
      have hwr : s.impl.wr o = s0.impl.wr o := h3 o (fun _ => by omega)
      rw [hot, h0.ot.full o ho' hlt, M.wp_bind]
      refine M.wp_of_eq_ok (s' := s) (a := o) rfl ?_
      rw [M.wp_bind]
      refine M.wp_check (fun hc => ?_) (fun hc => ?_)
      · refine M.wp_of_eq_ok (s' := { s with impl := { s.impl with wr := Function.update s.impl.wr o true }, eptr := Function.update s.eptr o (some o) })
          (a := ()) rfl ?_
        refine ⟨e1, ⟨Function.update s.impl.wr o true, by rw [e2]⟩, ?_, ?_, ?_⟩
        · intro o1 ho1 hge
          show Function.update s.eptr o _ o1 = _
          by_cases hoo : o1 = o
          · rw [hoo, Function.update_self, hroot.2]
          · rw [Function.update_of_ne hoo]; exact h1 o1 ho1 (by omega)
        · intro k hk hge
          show Function.update s.impl.wr o true k = true ∧ _
          by_cases hko : k = o
          · rw [hko, Function.update_self]; exact ⟨rfl, by rw [← hwr]; exact hc⟩
          · rw [Function.update_of_ne hko]; exact h2 k hk (by omega)
        · intro k hk
          show Function.update s.impl.wr o true k = _
          have hko : k ≠ o := by
            intro hh
            have := hk (hh ▸ hroot); omega
          rw [Function.update_of_ne hko]
          refine h3 k (fun hr => ?_)
          have := hk hr; omega
      · exact ⟨fun hr => hc (by rw [hwr]; exact hU hr o), hinv s e1 ⟨wr, e2⟩⟩
  · rintro s _ ⟨e1, e2, h1, h2, h3⟩
    exact ⟨e1, e2, fun o ho => h1 o ho (by omega), fun k hk => h2 k hk (by omega),
      fun k hk => h3 k (fun hr => absurd hr hk)⟩

/-! ## Adding into the outputs -/

/-- What the roots `< j` add to entry `t` of vector `v`. -/
def addedB (op : Oper α) (S : Meaning α) (bs : Nat) (outv : VPtr) (w : Nat → Buf α) (j v t : Nat) : α :=
  ∑ o ∈ range j, if last op o = o ∧ (op.out o).vec.ptr outv = .vec v then (S.dat (op.out o)).scatter bs (w o).val t else 0

theorem finishBlocked_wp {op : Oper α} {S : Meaning α} {bs : Nat} (h : BlkOK op S bs) {s1 : St α} (h1 : KInv op S bs s1) {outv : VPtr} {R : Prop}
    (hR : R → OutReady op outv s1) :
    M.wp R (M.loop op.nout (finishOut op outv)) s1 (fun s _ =>
      (∃ wr, s.impl = { s1.impl with wr := wr }) ∧ (∀ k, Root op k → s.impl.wr k = false) ∧
      (∀ k, ¬ Root op k → s.impl.wr k = s1.impl.wr k) ∧ Advances s1.vecs s.vecs ∧
      (∀ v, (s.vecs v).valid = (s1.vecs v).valid) ∧ (∀ o < op.nout, ReadyO op outv s1 o) ∧
      (∀ v, (∀ o < op.nout, (op.out o).vec.ptr outv ≠ .vec v) → s.vecs v = s1.vecs v) ∧
      ∀ v t, (s.vecs v).buf.val t = (s1.vecs v).buf.val t + addedB op S bs outv s1.impl.eOut op.nout v t)
      (fun s _ => ¬ R ∧ KInv op S bs s) := by
  have hinv : ∀ s : St α, Advances s1.vecs s.vecs → (∃ wr, s.impl = { s1.impl with wr := wr }) → KInv op S bs s := by
    rintro s e1 ⟨wr, e2⟩
    exact h1.upd e1 ⟨_, wr, _, _, e2, h1.w, h1.q⟩
  refine M.wp_mono (M.wp_loop (fun j s => (∃ wr, s.impl = { s1.impl with wr := wr }) ∧
      (∀ k, Root op k → k < j → s.impl.wr k = false) ∧
      (∀ k, (Root op k → j ≤ k) → s.impl.wr k = s1.impl.wr k) ∧ Advances s1.vecs s.vecs ∧
      (∀ v, (s.vecs v).valid = (s1.vecs v).valid) ∧ (∀ o < j, last op o = o → ReadyO op outv s1 o) ∧
      (∀ v, (∀ o < op.nout, (op.out o).vec.ptr outv ≠ .vec v) → s.vecs v = s1.vecs v) ∧
      ∀ v t, (s.vecs v).buf.val t = (s1.vecs v).buf.val t + addedB op S bs outv s1.impl.eOut j v t) ?_ ?_) ?_ (fun _ _ h => h)
  · refine ⟨⟨_, rfl⟩, fun _ _ hk => absurd hk (by omega), fun _ _ => rfl, Advances.refl _, fun _ => rfl,
      fun _ ho => absurd ho (by omega), fun _ _ => rfl, fun v t => ?_⟩
    unfold addedB; simp
  · rintro o ho s ⟨⟨wr, e1⟩, a1, a2, a3, a4, a5, a6, a7⟩
    have hot : s.impl.ot = s1.impl.ot := by rw [e1]
    have hsk := h1.ot.skip o ho
    have hge := le_last op ho (same_refl (op.out o))
    have hsucc : ∀ w v t, addedB op S bs outv w (o + 1) v t = addedB op S bs outv w o v t +
        if last op o = o ∧ (op.out o).vec.ptr outv = .vec v then (S.dat (op.out o)).scatter bs (w o).val t else 0 := by
      intro w v t; unfold addedB; rw [sum_range_succ]
    unfold finishOut
    rw [M.wp_bind]
    refine M.wp_of_eq_ok (s' := s) (a := s) rfl ?_
    by_cases hlt : o < last op o
    · rw [if_pos (by rw [hot]; exact hsk.2 hlt), M.wp_pure]
      have hnr : ¬ Root op o := fun hr => by have := hr.2; omega
      refine ⟨⟨wr, e1⟩, ?_, ?_, a3, a4, ?_, a6, ?_⟩
      · intro k hk hj
        have : k ≠ o := fun hh => hnr (hh ▸ hk)
        exact a1 k hk (by omega)
      · intro k hk
        exact a2 k (fun hr => by have := hk hr; omega)
      · intro o1 ho1 hroot
        have : o1 ≠ o := fun hh => by rw [hh] at hroot; omega
        exact a5 o1 (by omega) hroot
      · intro v t
        rw [a7, hsucc, if_neg (by rintro ⟨h2, _⟩; omega), add_zero]
    rw [if_neg (by rw [hot, hsk]; exact hlt)]
    have hroot : Root op o := ⟨ho, by omega⟩
    obtain ⟨r, g1, _⟩ := h.outR o ho
    obtain ⟨_, g2, g3, g4⟩ := (h.outR o ho).nb g1
    rw [hot, h1.ot.full o ho hlt, g1, M.wp_bind]
    refine M.wp_of_eq_ok (s' := s) (a := o) rfl ?_
    rw [M.wp_bind]
    refine M.wp_of_eq_ok (s' := { s with impl := { s.impl with wr := Function.update s.impl.wr o false } }) (a := ()) rfl ?_
    rw [M.wp_bind]
    refine M.wp_of_eq_ok (s' := { s with impl := { s.impl with wr := Function.update s.impl.wr o false } }) (a := r) rfl ?_
    have hI : KInv op S bs { s with impl := { s.impl with wr := Function.update s.impl.wr o false } } :=
      hinv _ a3 ⟨Function.update s.impl.wr o false, by rw [e1]⟩
    have hlen : ∀ v, (s.vecs v).buf.len = (s1.vecs v).buf.len := fun v => (a3 v).1
    have heo : s.impl.eOut = s1.impl.eOut := by rw [e1]
    by_cases hrd : ReadyO op outv s1 o
    · obtain ⟨r', v, b1, b2, b3, b4⟩ := hrd
      have hrr : r' = r := by rw [g1] at b1; cases b1; rfl
      subst hrr
      have hval : (s.vecs v).valid = true := by rw [a4]; exact b3
      have hrun := g2.apply_t (u := s.impl.eOut o) (v := (s.vecs v).buf)
        (by rw [heo, h1.w o ho]; unfold eSizeOf; rw [g1]) (by rw [hlen]; exact b4)
      refine M.wp_of_eq_ok (s' := ⟨{ s.impl with wr := Function.update s.impl.wr o false },
          Function.update s.vecs v ⟨(s.vecs v).state + 2, true, ⟨(s.vecs v).buf.len,
            fun t => (s.vecs v).buf.val t + (S.dat (op.out o)).scatter (op.rstrs r').blockSize (s.impl.eOut o).val t⟩⟩,
          s.eptr⟩) (a := ()) ?_ ?_
      · rw [b2]
        show scatterInto _ _ (.vec v) _ = _
        unfold scatterInto
        simp only [hval, if_true]
        rw [hrun]
      · refine ⟨⟨Function.update s.impl.wr o false, by rw [e1]⟩, ?_, ?_, ?_, ?_, ?_, ?_, ?_⟩
        · intro k hk hj
          show Function.update s.impl.wr o false k = false
          by_cases hko : k = o
          · rw [hko, Function.update_self]
          · rw [Function.update_of_ne hko]; exact a1 k hk (by omega)
        · intro k hk
          show Function.update s.impl.wr o false k = _
          have hko : k ≠ o := by
            intro hh
            have := hk (hh ▸ hroot); omega
          rw [Function.update_of_ne hko]
          exact a2 k (fun hr => by have := hk hr; omega)
        · exact a3.trans (Advances.update rfl (by show _ < (s.vecs v).state + 2; omega))
        · intro v1
          show (Function.update s.vecs v _ v1).valid = _
          by_cases hv : v1 = v
          · subst hv; rw [Function.update_self]; exact b3.symm
          · rw [Function.update_of_ne hv]; exact a4 v1
        · intro o1 ho1 hr1
          by_cases hoo : o1 = o
          · rw [hoo]; exact ⟨r', v, b1, b2, b3, b4⟩
          · exact a5 o1 (by omega) hr1
        · intro v1 hv1
          have : v1 ≠ v := fun hh => hv1 o ho (hh ▸ b2)
          show Function.update s.vecs v _ v1 = _
          rw [Function.update_of_ne this]
          exact a6 v1 hv1
        · intro v1 t
          show (Function.update s.vecs v _ v1).buf.val t = _
          rw [hsucc]
          by_cases hv : v1 = v
          · subst hv
            rw [Function.update_self, if_pos ⟨hroot.2, b2⟩]
            show (s.vecs v1).buf.val t + _ = _
            rw [a7, g3, heo, add_assoc]
          · rw [Function.update_of_ne hv, if_neg, add_zero, a7]
            rintro ⟨_, h3⟩
            rw [b2] at h3; cases h3; exact hv rfl
    · have hnR : ¬ R := fun hr' => hrd (hR hr' o ho)
      match hpp : (op.out o).vec.ptr outv with
      | .null => exact M.wp_of_eq_ub rfl hnR
      | .none => exact M.wp_of_eq_err rfl ⟨hnR, hI⟩
      | .vec v =>
        by_cases hval : (s.vecs v).valid = true
        · have hshort : ¬ (op.rstrs r).lSize ≤ (s.vecs v).buf.len := by
            intro hl
            rw [a4] at hval
            rw [hlen] at hl
            exact hrd ⟨r, v, g1, hpp, hval, hl⟩
          obtain ⟨e, he⟩ := scatter_short (u := s.impl.eOut o) hshort
          refine M.wp_of_eq_err (a := e) ?_ ⟨hnR, hI⟩
          show scatterInto _ _ (.vec v) _ = _
          unfold scatterInto
          simp only [hval, if_true]
          rw [he]
        · refine M.wp_of_eq_err (a := .backend) ?_ ⟨hnR, hI⟩
          show scatterInto _ _ (.vec v) _ = _
          unfold scatterInto
          simp only [hval]
          simp
  · rintro s _ ⟨e1, b1, b2, b3, b4, b5, b6, b7⟩
    refine ⟨e1, fun k hk => b1 k hk hk.1, fun k hk => b2 k (fun hr => absurd hr hk), b3, b4, ?_, b6, b7⟩
    intro o ho
    have hs := last_same op ho
    obtain ⟨r, v, c1, c2, c3⟩ := b5 (last op o) (last_lt op ho) (last_last op ho)
    exact ⟨r, v, by rw [← (same_iff.1 hs).2]; exact c1, by rw [← (same_iff.1 hs).1]; exact c2, c3⟩

/-! ## Sums -/

theorem scatterB_sum {op : Oper α} {S : Meaning α} {bs : Nat} {L : Nat → Nat → α} {inv : VPtr} {w : Nat → Buf α} {p : Nat}
    (hne : (S.dat (op.out p)).ne = op.ne)
    (hw : ∀ e < op.ne, ∀ k < (S.dat (op.out p)).nc, ∀ n < (S.dat (op.out p)).es,
        (w p).val (Restriction.ePos (S.dat (op.out p)).es (S.dat (op.out p)).nc bs e k n) =
          ∑ o ∈ (range op.nout).filter (fun o => last op o = p), S.elemOut op L inv o e k n) (t : Nat) :
    (S.dat (op.out p)).scatter bs (w p).val t =
      ∑ o ∈ (range op.nout).filter (fun o => last op o = p), S.adds op L inv o t := by
  have hD : ∀ o ∈ (range op.nout).filter (fun o => last op o = p), S.dat (op.out o) = S.dat (op.out p) := by
    intro o ho
    rw [mem_filter, mem_range] at ho
    have := last_same op ho.1
    rw [ho.2] at this
    exact (dat_same this).symm
  have hadds : ∑ o ∈ (range op.nout).filter (fun o => last op o = p), S.adds op L inv o t =
      ∑ o ∈ (range op.nout).filter (fun o => last op o = p), ∑ e ∈ range (S.dat (op.out p)).ne,
        ∑ k ∈ range (S.dat (op.out p)).nc, ∑ n ∈ range (S.dat (op.out p)).es, ∑ m ∈ range (S.dat (op.out p)).es,
          if (S.dat (op.out p)).lidx e m k = t then (S.dat (op.out p)).coef e n m * S.elemOut op L inv o e k n else 0 := by
    refine sum_congr rfl (fun o ho => ?_)
    unfold Meaning.adds
    rw [hD o ho]
  rw [hadds]
  unfold RData.scatter
  refine Eq.trans ?_ sum_comm
  refine sum_congr rfl (fun e he => ?_)
  refine Eq.trans ?_ sum_comm
  refine sum_congr rfl (fun k hk => ?_)
  refine Eq.trans ?_ sum_comm
  refine sum_congr rfl (fun n hn => ?_)
  refine Eq.trans ?_ sum_comm
  refine sum_congr rfl (fun m _ => ?_)
  have hv := hw e (by rw [← hne]; exact mem_range.1 he) k (mem_range.1 hk) n (mem_range.1 hn)
  split
  · rw [← Finset.mul_sum, ← hv]
  · rw [sum_const_zero]

theorem addedB_eq {op : Oper α} {S : Meaning α} {bs : Nat} (h : BlkOK op S bs) {L : Nat → Nat → α} {inv outv : VPtr} {w : Nat → Buf α}
    (hw : ∀ p < op.nout, last op p = p → ∀ e < op.ne, ∀ k < (S.dat (op.out p)).nc, ∀ n < (S.dat (op.out p)).es,
        (w p).val (Restriction.ePos (S.dat (op.out p)).es (S.dat (op.out p)).nc bs e k n) =
          ∑ o ∈ (range op.nout).filter (fun o => last op o = p), S.elemOut op L inv o e k n) (v t : Nat) :
    addedB op S bs outv w op.nout v t = S.action op L inv outv v t := by
  have h1 : addedB op S bs outv w op.nout v t = ∑ p ∈ range op.nout, ∑ o ∈ (range op.nout).filter (fun o => last op o = p),
      if (op.out o).vec.ptr outv = .vec v then S.adds op L inv o t else 0 := by
    unfold addedB
    refine sum_congr rfl (fun p hp => ?_)
    rw [mem_range] at hp
    by_cases hr : last op p = p
    · obtain ⟨r, _, _, _, hne⟩ := h.outR p hp
      have hvec : ∀ o ∈ (range op.nout).filter (fun o => last op o = p), (op.out o).vec = (op.out p).vec := by
        intro o ho
        rw [mem_filter, mem_range] at ho
        have := last_same op ho.1
        rw [ho.2] at this
        exact (same_iff.1 this).1.symm
      by_cases hv : (op.out p).vec.ptr outv = .vec v
      · rw [if_pos ⟨hr, hv⟩, scatterB_sum hne (hw p hp hr)]
        refine sum_congr rfl (fun o ho => ?_)
        rw [hvec o ho, if_pos hv]
      · rw [if_neg (by rintro ⟨_, h2⟩; exact hv h2)]
        refine (sum_eq_zero (fun o ho => ?_)).symm
        rw [hvec o ho, if_neg hv]
    · rw [if_neg (by rintro ⟨h2, _⟩; exact hr h2)]
      refine (sum_eq_zero (fun o ho => ?_)).symm
      rw [mem_filter, mem_range] at ho
      exact absurd (by rw [← ho.2]; exact last_last op ho.1) hr
  rw [h1]
  unfold Meaning.action
  exact sum_fiberwise_of_maps_to (fun o ho => mem_range.2 (last_lt op (mem_range.1 ho))) _

/-! ## The whole application -/

/-- Effect of a successful application started in `s`. -/
structure KEff (op : Oper α) (S : Meaning α) (bs : Nat) (P : Prop) (inv outv : VPtr) (s s' : St α) : Prop where
  good : KInv op S bs s'
  rd : s'.impl.rd = s.impl.rd
  wr : s'.impl.wr = s.impl.wr
  adv : Advances s.vecs s'.vecs
  valid : ∀ v, (s'.vecs v).valid = (s.vecs v).valid
  other : ∀ v, (∀ o < op.nout, (op.out o).vec.ptr outv ≠ .vec v) → s'.vecs v = s.vecs v
  inReady : InReady op inv s
  outReady : OutReady op outv s
  val : P → ∀ v t, (s'.vecs v).buf.val t = (s.vecs v).buf.val t + S.action op s.L inv outv v t

theorem generalBlocked_wp {op : Oper α} {S : Meaning α} {bs : Nat} (h : BlkOK op S bs) (F : Nat → (Nat → Nat → α) → Nat → Nat → α)
    (junk : Nat → Nat → α) {s : OSt α} (h0 : KInv op S bs s.base) {inv outv : VPtr} {R : Prop}
    (hR : R → InReady op inv s.base ∧ OutReady op outv s.base ∧ Unlocked s.base) :
    M.wp R (generalBlocked op F junk bs inv outv) s
      (fun s' _ => s'.br = s.br ∧ KEff op S bs (Pointwise op F) inv outv s.base s'.base)
      (fun s' _ => ¬ R ∧ s'.br = s.br ∧ KInv op S bs s'.base) := by
  unfold generalBlocked
  rw [M.wp_bind]
  refine M.wp_mono (onB_wp (setupGen_wp h.gctx h0.g (R := R) (inv := inv) (sk := false)
    (fun r i hi hl => (hR r).1 i hi hl.1) (fun r => (hR r).2.2))) ?_ ?_
  swap
  · rintro s' _ ⟨b, rfl, h1, j, h2⟩
    exact ⟨h1, rfl, h0.gloop h2⟩
  rintro s' _ ⟨s1, rfl, H1⟩
  have I1 := h0.gloop H1
  rw [M.wp_bind]
  refine M.wp_mono (onB_wp (lockBlocked_wp (s0 := s1) I1 (R := R) (fun r k => by rw [H1.wr]; exact (hR r).2.2.2 k))) ?_ ?_
  swap
  · rintro s' _ ⟨b, rfl, h1, h2⟩
    exact ⟨h1, rfl, h2⟩
  rintro s' _ ⟨s2, rfl, a1, ⟨wr, a2⟩, a3, a4, a5⟩
  have I2 : KInv op S bs s2 := I1.upd (a1 ▸ Advances.refl _) ⟨_, wr, _, _, a2, I1.w, I1.q⟩
  have hv2 : s2.vecs = s.base.vecs := a1.trans H1.vecs
  have hl : ∀ i, (op.inp i).mode ≠ .weight → GLive false op i := fun i hw => ⟨hw, fun hh => by simp at hh⟩
  have hL : ∀ i < op.nin, (op.inp i).mode ≠ .weight → ∃ v, (op.inp i).vec.ptr inv = .vec v := by
    intro i hi hw
    obtain ⟨_, v, _, hv, _⟩ := H1.ready i hi (hl i hw)
    exact ⟨v, hv⟩
  have hpre : KPre op S bs s.base.L inv { s with base := s2 } := by
    refine ⟨I2.it, I2.ot, ?_, ?_, a3⟩
    · intro i hi hw
      have hf : first op i < op.nin := by have := first_le op i; omega
      show (s2.impl.eIn (first op i)).len = _
      rw [a2]
      show (s1.impl.eIn (first op i)).len = _
      rw [H1.len _ hf, eSizeOf_same (first_same op i)]
    · intro i hi hw
      obtain ⟨v, hv⟩ := hL i hi hw
      show GathB op S bs i (s2.impl.eIn (first op i)) _
      rw [hv, a2]
      exact (H1.gath i hi (hl i hw) v hv).2
  obtain ⟨q, w, e3, hq, hw, hval⟩ := blocksBlocked_ok h F hpre junk I2.q I2.w
  rw [M.wp_bind]
  refine M.wp_of_eq_ok e3 ?_
  set s3 : OSt α := OSt.put { s with base := s2 } q w s.eBlk s2.vecs with hs3
  have hv3 : s3.base.vecs = s.base.vecs := hv2
  have I3 : KInv op S bs s3.base := I2.upd (Advances.refl _) ⟨_, _, w, q, rfl, hw, hq⟩
  rw [M.wp_bind]
  refine M.wp_mono (onB_wp (finishBlocked_wp h I3 (outv := outv) (R := R) ?_)) ?_ ?_
  · intro r o ho
    obtain ⟨r', v, c⟩ := (hR r).2.1 o ho
    refine ⟨r', v, ?_⟩
    rw [hv3]
    exact c
  swap
  · rintro s' _ ⟨b, rfl, h1, h2⟩
    exact ⟨h1, rfl, h2⟩
  rintro s' _ ⟨s4, rfl, ⟨wr4, b1⟩, b2, b3, b4, b5, b6, b7, b8⟩
  have I4 : KInv op S bs s4 := I3.upd b4 ⟨_, wr4, _, _, b1, hw, hq⟩
  obtain ⟨rd, e5, hrd⟩ := restoreGen_ok (op := op) (G := GathB op S bs) (sk := false) (inv := .null) (s := s4)
    (fun i hi hw => I4.it.full i hi hw)
  refine M.wp_of_eq_ok (s' := { s3 with base := { s4 with impl := { s4.impl with rd := rd } } }) (a := ())
    (by unfold onB; simp only [e5]) ⟨rfl, ?_⟩
  refine ⟨I4.upd (Advances.refl _) ⟨rd, _, _, _, rfl, I4.w, I4.q⟩, ?_, ?_, ?_, ?_, ?_, ?_, ?_, ?_⟩
  · funext k
    show rd k = _
    have : s4.impl.rd k = s1.impl.rd k := by rw [b1]; show s2.impl.rd k = _; rw [a2]
    rw [hrd, this, H1.rd, Nat.add_sub_cancel]
  · funext k
    show s4.impl.wr k = _
    by_cases hk : Root op k
    · rw [b2 k hk, ← H1.wr, (a4 k hk).2]
    · rw [b3 k hk, ← H1.wr]
      exact a5 k hk
  · rw [← hv3]; exact b4
  · intro v; rw [← hv3]; exact b5 v
  · intro v hv; rw [← hv3]; exact b7 v hv
  · exact fun i hi hw => H1.ready i hi (hl i hw)
  · intro o ho
    have := b6 o ho
    unfold ReadyO at this
    rw [hv3] at this
    exact this
  · intro hF v t
    have := b8 v t
    rw [hv3] at this
    show (s4.vecs v).buf.val t = _
    rw [this, addedB_eq h (w := s3.base.impl.eOut) (hval hF)]

theorem identityBlocked_wp {op : Oper α} {S : Meaning α} {bs : Nat} (h : BlkOK op S bs) {s0 : St α} (h0 : KInv op S bs s0)
    (hid : s0.impl.idRstr = true) {inv outv : VPtr} {R : Prop}
    (hR : R → InReady op inv s0 ∧ OutReady op outv s0 ∧ Unlocked s0) :
    M.wp R (identityApply op inv outv) s0 (fun s _ => KEff op S bs True inv outv s0 s) (fun s _ => ¬ R ∧ KInv op S bs s) := by
  have hid' := hid
  rw [h0.idR] at hid'
  simp only [Bool.and_eq_true, decide_eq_true_eq] at hid'
  obtain ⟨⟨hI, hm⟩, hmo⟩ := hid'
  obtain ⟨hnin, hnout, hsz, hvv, _⟩ := h.ident hI
  obtain ⟨hvi, hvo⟩ := hvv hm hmo
  have hi : 0 < op.nin := by omega
  have ho : 0 < op.nout := by omega
  have hw : (op.inp 0).mode ≠ .weight := by rw [hm]; simp
  have hf : first op 0 = 0 := by have := first_le op 0; omega
  obtain ⟨hes, hsz1⟩ := h.inN 0 hi hm
  obtain ⟨heso, hsz2⟩ := h.outN 0 ho hmo
  have hr := h.inR 0 hi hw
  have hro := h.outR 0 ho
  obtain ⟨r, g1, _⟩ := id hr
  obtain ⟨_, g2, g3, g4⟩ := hr.nb g1
  obtain ⟨ro, k1, _⟩ := id hro
  obtain ⟨k0, k2, k3, k4⟩ := hro.nb k1
  have hfull : s0.impl.it.full 0 = some 0 := by rw [h0.it.full 0 hi hw, hf]
  have hnc : (S.dat (op.out 0)).nc = (S.dat (op.inp 0)).nc := by rw [← hsz2, hsz, hsz1]
  have hp : (op.inp 0).vec.ptr inv = inv := by rw [hvi]; rfl
  have hpo : (op.out 0).vec.ptr outv = outv := by rw [hvo]; rfl
  unfold identityApply
  rw [M.wp_bind]
  by_cases hrd : ReadyI op inv s0 0
  swap
  · have hnR : ¬ R := fun hr' => hrd ((hR hr').1 0 hi)
    match inv with
    | .null =>
      refine M.wp_of_eq_ub ?_ hnR
      rw [restrictIn_eq op 0 _ s0 g1 hfull]; rfl
    | .none =>
      refine M.wp_of_eq_err (s' := s0) (a := .dimension) ?_ ⟨hnR, h0⟩
      rw [restrictIn_eq op 0 _ s0 g1 hfull]; rfl
    | .vec v =>
      by_cases hval : (s0.vecs v).valid = true
      · have hshort : ¬ (op.rstrs r).lSize ≤ (s0.vecs v).buf.len := fun hl => hrd (fun _ => ⟨r, v, g1, hp, hval, hl⟩)
        by_cases hz : s0.impl.rd 0 = 0
        · refine M.wp_of_eq_err (s' := s0) (a := .dimension) ?_ ⟨hnR, h0⟩
          rw [restrictIn_eq op 0 _ s0 g1 hfull]
          simp only [readVec, hval, if_true, Out.bind_ok, M.check_true hz, gather_short hshort, M.lift_err, Out.bind_err]
        · refine M.wp_of_eq_err (s' := s0) (a := .access) ?_ ⟨hnR, h0⟩
          rw [restrictIn_eq op 0 _ s0 g1 hfull]
          simp only [readVec, hval, if_true, Out.bind_ok, M.check_false hz, Out.bind_err]
      · refine M.wp_of_eq_err (s' := s0) (a := .backend) ?_ ⟨hnR, h0⟩
        rw [restrictIn_eq op 0 _ s0 g1 hfull]
        simp only [readVec, hval]
        simp
  obtain ⟨r', v, b1, b2, b3, b4⟩ := hrd hw
  have hrr : r' = r := by rw [g1] at b1; cases b1; rfl
  subst hrr
  rw [hp] at b2
  by_cases hz : s0.impl.rd 0 = 0
  swap
  · refine M.wp_of_eq_err (s' := s0) (a := .access) ?_ ⟨fun r => hz ((hR r).2.2.1 0), h0⟩
    rw [restrictIn_eq op 0 _ s0 g1 hfull, b2]
    simp only [readVec, b3, if_true, Out.bind_ok, M.check_false hz, Out.bind_err]
  obtain ⟨v', e1, e2, e3⟩ := h.gctx.gather 0 hi hw r' g1 (s0.vecs v).buf (s0.impl.eIn 0) b4 (h0.g.eIn 0 hi)
  have hlen : v'.len = nbk op bs * (bs * ((S.dat (op.inp 0)).es * (S.dat (op.inp 0)).nc)) := by
    rw [e2, h0.g.eIn 0 hi, hr.sizes.2]
  set s1 : St α := ⟨{ s0.impl with eIn := Function.update s0.impl.eIn 0 v', eInOk := Function.update s0.impl.eInOk 0 true },
    s0.vecs, s0.eptr⟩ with hs1
  have hrun : restrictIn op 0 inv s0 = .ok s1 () := by
    rw [restrictIn_eq op 0 _ s0 g1 hfull, b2]
    simp only [readVec, b3, if_true, Out.bind_ok, M.check_true hz, e1, M.lift_ok, modI, hs1]
  have I1 : KInv op S bs s1 := by
    refine ⟨h0.done, h0.idR, h0.it, h0.ot, h0.q, h0.w, h0.g.full, h0.g.skip, ?_, h0.g.vz, ?_⟩
    · intro i hi'
      have : i = 0 := by omega
      subst this
      show (Function.update s0.impl.eIn 0 v' 0).len = _
      rw [Function.update_self, e2]; exact h0.g.eIn 0 hi
    · intro i hi' _ _
      have : i = 0 := by omega
      subst this
      unfold CacheG
      rw [hvi]; trivial
  refine M.wp_of_eq_ok hrun ?_
  rw [M.wp_bind]
  refine M.wp_of_eq_ok (s' := s1) (a := s1) rfl ?_
  rw [M.wp_bind]
  refine M.wp_of_eq_ok (s' := s1) (a := 0) (by
    show ptr (s0.impl.it.full 0) s1 = _
    rw [hfull]; rfl) ?_
  rw [k1, M.wp_bind]
  refine M.wp_of_eq_ok (s' := s1) (a := ro) rfl ?_
  have hE : s1.impl.eIn 0 = v' := by show Function.update s0.impl.eIn 0 v' 0 = v'; rw [Function.update_self]
  rw [hE]
  by_cases hro' : ReadyO op outv s0 0
  swap
  · have hnR : ¬ R := fun hr' => hro' ((hR hr').2.1 0 ho)
    match outv with
    | .null => exact M.wp_of_eq_ub rfl hnR
    | .none => exact M.wp_of_eq_err rfl ⟨hnR, I1⟩
    | .vec v1 =>
      by_cases hval : (s0.vecs v1).valid = true
      · have hshort : ¬ (op.rstrs ro).lSize ≤ (s0.vecs v1).buf.len := fun hl => hro' ⟨ro, v1, k1, hpo, hval, hl⟩
        obtain ⟨e, he⟩ := scatter_short (u := v') hshort
        refine M.wp_of_eq_err (s' := s1) (a := e) ?_ ⟨hnR, I1⟩
        unfold scatterInto
        show (if (s0.vecs v1).valid then _ else _) = _
        rw [if_pos hval]
        show (match Restriction.apply (op.rstrs ro) .plain .transpose v' (s0.vecs v1).buf with | .ok v => _ | .err e => _ | .ub => _) = _
        rw [he]
      · refine M.wp_of_eq_err (s' := s1) (a := .backend) ?_ ⟨hnR, I1⟩
        unfold scatterInto
        show (if (s0.vecs v1).valid then _ else _) = _
        rw [if_neg hval]
  obtain ⟨r1, v1, c1, c2, c3, c4⟩ := hro'
  have hrr : r1 = ro := by rw [k1] at c1; cases c1; rfl
  subst hrr
  have c2' := c2
  rw [hpo] at c2
  have happ := k2.apply_t (u := v') (v := (s0.vecs v1).buf) (by rw [k2.esz, k0, k3, hlen, hnc, hes, heso]; exact le_of_eq (by ring)) c4
  refine M.wp_of_eq_ok (s' := ⟨s1.impl, Function.update s0.vecs v1 ⟨(s0.vecs v1).state + 2, true, ⟨(s0.vecs v1).buf.len,
      fun t => (s0.vecs v1).buf.val t + (S.dat (op.out 0)).scatter (op.rstrs r1).blockSize v'.val t⟩⟩, s1.eptr⟩)
    (a := ()) ?_ ?_
  · rw [c2]
    unfold scatterInto
    show (if (s0.vecs v1).valid then _ else _) = _
    rw [if_pos c3]
    show (match Restriction.apply (op.rstrs r1) .plain .transpose v' (s0.vecs v1).buf with | .ok v => _ | .err e => _ | .ub => _) = _
    rw [happ]
  have hadv : Advances s0.vecs (Function.update s0.vecs v1 ⟨(s0.vecs v1).state + 2, true, ⟨(s0.vecs v1).buf.len,
      fun t => (s0.vecs v1).buf.val t + (S.dat (op.out 0)).scatter (op.rstrs r1).blockSize v'.val t⟩⟩) :=
    Advances.update rfl (by show _ < (s0.vecs v1).state + 2; omega)
  refine ⟨I1.upd hadv ⟨_, _, _, _, rfl, I1.w, I1.q⟩, rfl, rfl, hadv, ?_, ?_, ?_, ?_, ?_⟩
  · intro x
    show (Function.update s0.vecs v1 _ x).valid = _
    by_cases hx : x = v1
    · subst hx; rw [Function.update_self]; exact c3.symm
    · rw [Function.update_of_ne hx]
  · intro x hx
    have : x ≠ v1 := fun hh => hx 0 ho (by rw [hh]; exact c2')
    show Function.update s0.vecs v1 _ x = _
    rw [Function.update_of_ne this]
  · intro i hi'
    have : i = 0 := by omega
    subst this
    exact fun _ => ⟨r', v, g1, by rw [hp]; exact b2, b3, b4⟩
  · intro o ho'
    have : o = 0 := by omega
    subst this
    exact ⟨r1, v1, c1, c2', c3, c4⟩
  · intro _ x t
    show (Function.update s0.vecs v1 _ x).buf.val t = _
    have hact : S.action op s0.L inv outv x t =
        if (op.out 0).vec.ptr outv = .vec x then S.adds op s0.L inv 0 t else 0 := by
      unfold Meaning.action; rw [hnout, sum_range_one]
    rw [hact, c2']
    by_cases hx : x = v1
    · subst hx
      rw [Function.update_self, if_pos rfl]
      show (s0.vecs x).buf.val t + _ = _
      congr 1
      unfold RData.scatter Meaning.adds
      refine sum_congr rfl (fun e he => ?_)
      refine sum_congr rfl (fun k hk => ?_)
      refine sum_congr rfl (fun n hn => ?_)
      refine sum_congr rfl (fun m _ => ?_)
      rw [mem_range] at he hk hn
      have hval : v'.val (Restriction.ePos (S.dat (op.out 0)).es (S.dat (op.out 0)).nc (op.rstrs r1).blockSize e k n) =
          S.elemOut op s0.L inv 0 e k n := by
        have hQ : 0 < op.Q := by rw [heso] at hn; omega
        have h1 : (k * op.Q + n) / op.Q = k := by
          rw [Nat.mul_comm, Nat.mul_add_div hQ, Nat.div_eq_of_lt (by rw [← heso]; exact hn), Nat.add_zero]
        have h2 : (k * op.Q + n) % op.Q = n := by
          rw [Nat.mul_comm, Nat.mul_add_mod, Nat.mod_eq_of_lt (by rw [← heso]; exact hn)]
        have hlt : k * op.Q + n < op.Q * (op.inp 0).size := by
          have := pos_lt (D := S.dat (op.out 0)) hk hn
          rw [heso, ← hsz2, hsz, Nat.mul_comm (op.inp 0).size] at this
          exact this
        have hgg := e3 (e / bs) (Restriction.div_lt_nb h.pos (by omega)) k (by omega) n (by omega) (e % bs) (Nat.mod_lt _ h.pos)
        rw [show min (e / bs * bs + e % bs) (op.ne - 1) = e by rw [Nat.div_add_mod' e bs]; omega] at hgg
        have hLHS : S.elemOut op s0.L inv 0 e k n = (S.dat (op.inp 0)).row (s0.vecs v).buf.val e k n := by
          unfold Meaning.elemOut
          simp only [hmo]
          unfold Meaning.outArr
          rw [if_pos hI]
          unfold Meaning.inArr
          rw [if_pos ⟨hi, hlt⟩]
          unfold Meaning.inVal
          simp only [hm]
          rw [h1, h2, hp, b2]
          rfl
        rw [hLHS, ← hgg, k3, hnc, heso, hes]
        rfl
      rw [hval]
    · rw [Function.update_of_ne hx, if_neg (by intro hh; cases hh; exact hx rfl), add_zero]

end Operator
end Verif
