import Verif.Operator.Inputs

/-!
# One element (helper lemmas)
-/

set_option linter.unusedSectionVars false

namespace Verif
namespace Operator

open Finset
open Restriction (RData Made Rstr)
open Basis (Bas EMode)

variable {α : Type} [CommRing α]

/-- The state `s` with quadrature data `q` and output E-vectors `w`. -/
def St.put (s : St α) (q w : Nat → Buf α) : St α := { s with impl := { s.impl with qIn := q, eOut := w } }

theorem loop_ok {σ A : Type _} {n : Nat} {body : Nat → M σ Unit} (g : A → σ) (I : Nat → A → Prop) {a : A} (h0 : I 0 a)
    (hb : ∀ i < n, ∀ a, I i a → ∃ a', body i (g a) = .ok (g a') () ∧ I (i + 1) a') :
    ∃ a', M.loop n body (g a) = .ok (g a') () ∧ I n a' := by
  induction n with
  | zero => exact ⟨a, rfl, h0⟩
  | succ n ih =>
    obtain ⟨a1, e1, h1⟩ := ih (fun i hi => hb i (by omega))
    obtain ⟨a2, e2, h2⟩ := hb n (by omega) a1 h1
    exact ⟨a2, by rw [M.loop_succ, e1, Out.bind_ok, e2], h2⟩

/-- What holds when the elements are visited. -/
structure ElemPre (op : Oper α) (S : Meaning α) (L : Nat → Nat → α) (inv : VPtr) (s : St α) : Prop where
  it : InSpec op S s.impl.it
  ot : OutSpec op S s.impl.ot
  len : ∀ i < op.nin, (op.inp i).mode ≠ .weight → (s.impl.eIn (first op i)).len = eSizeOf op (op.inp i)
  gath : ∀ i < op.nin, (op.inp i).mode ≠ .weight →
    Gath op (S.dat (op.inp i)) (s.impl.eIn (first op i)) (cont L ((op.inp i).vec.ptr inv))
  eptr : ∀ o < op.nout, s.eptr o = some (last op o)

theorem HasRstr.sizes {op : Oper α} {S : Meaning α} {a : OField α} (h : HasRstr op S a) :
    elemSizeOf op a = (S.dat a).es ∧ eSizeOf op a = op.ne * ((S.dat a).nc * (S.dat a).es) := by
  obtain ⟨r, h1, h2, h3, h4, h5⟩ := h.rep
  unfold elemSizeOf eSizeOf
  rw [h1]
  exact ⟨h2.es, h5⟩

theorem slot_le {e ne n : Nat} (he : e < ne) : e * n + n ≤ ne * n := by
  have : (e + 1) * n ≤ ne * n := Nat.mul_le_mul_right _ he
  rw [Nat.add_mul] at this
  omega

theorem inVal_basis {op : Oper α} {S : Meaning α} {L : Nat → Nat → α} {inv : VPtr} {e i x : Nat}
    (hm : isBasisMode (op.inp i).mode = true) : S.inVal op L inv e i x = ∑ n ∈ range (S.dat (op.inp i)).es,
      (S.mIn i).val ((x / op.Q / (S.dat (op.inp i)).nc * op.Q + x % op.Q) * (S.dat (op.inp i)).es + n) *
        (S.dat (op.inp i)).row (cont L ((op.inp i).vec.ptr inv)) e (x / op.Q % (S.dat (op.inp i)).nc) n := by
  unfold Meaning.inVal
  rcases hmode : (op.inp i).mode with _ | _ | _ | _ | _ | _ <;> rw [hmode] at hm <;> simp [isBasisMode] at hm
  all_goals simp only [hmode]

theorem elemOut_basis {op : Oper α} {S : Meaning α} {L : Nat → Nat → α} {inv : VPtr} {o e k n : Nat}
    (hm : isBasisMode (op.out o).mode = true) : S.elemOut op L inv o e k n =
      ∑ c ∈ range (op.out o).qc, ∑ q ∈ range op.Q, (S.mOut o).val ((c * op.Q + q) * (S.dat (op.out o)).es + n) *
        S.outArr op L inv e o ((c * (S.dat (op.out o)).nc + k) * op.Q + q) := by
  unfold Meaning.elemOut
  rcases hmode : (op.out o).mode with _ | _ | _ | _ | _ | _ <;> rw [hmode] at hm <;> simp [isBasisMode] at hm
  all_goals simp only [hmode]

/-- The data of one input, given that it has been restricted. -/
theorem inputBasis1_at {op : Oper α} {S : Meaning α} (h : OpOK op S) {L : Nat → Nat → α} {inv : VPtr} {s : St α}
    (hit : InSpec op S s.impl.it) {i : Nat} (hi : i < op.nin)
    (hplen : (op.inp i).mode ≠ .weight → (s.impl.eIn (first op i)).len = eSizeOf op (op.inp i))
    (hpgath : (op.inp i).mode ≠ .weight →
      Gath op (S.dat (op.inp i)) (s.impl.eIn (first op i)) (cont L ((op.inp i).vec.ptr inv)))
    {sk : Bool} (hsk : ¬ ((op.inp i).vec = .active ∧ sk = true)) (junk : Nat → Nat → α) (w : Nat → Buf α) {e : Nat} (he : e < op.ne)
    {q : Nat → Buf α} (hq : QOK op S q) :
    ∃ b : Buf α, inputBasis1 op junk sk e i (s.put q w) = .ok (s.put (Function.update q i b) w) () ∧
      b.len = op.Q * (op.inp i).size ∧ ∀ x < op.Q * (op.inp i).size, b.val x = S.inVal op L inv e i x := by
  unfold inputBasis1
  rw [if_neg hsk]
  rcases mode_cases (op.inp i).mode with hm | hm | hm
  · rw [if_neg (by rw [hm]; simp), if_neg (by rw [hm]; simp [isBasisMode])]
    refine ⟨q i, ?_, (hq i hi).1, ?_⟩
    · rw [Function.update_eq_self]; rfl
    · intro x hx
      have hsz := (h.in_weight hi hm).2.2.1
      rw [(hq i hi).2 hm x (by rw [hsz] at hx; omega)]
      unfold Meaning.inVal
      simp only [hm]
  · have hnw : (op.inp i).mode ≠ .weight := by rw [hm]; simp
    obtain ⟨hr, hes, hsz⟩ := h.in_none hi hm
    obtain ⟨_, hlen⟩ := hr.sizes
    rw [if_pos hm]
    unfold directIn
    have hl := hplen hnw
    have hsl : slice (s.impl.eIn (first op i)) (e * op.Q * (op.inp i).size) (op.Q * (op.inp i).size) =
        .ok ⟨op.Q * (op.inp i).size, fun x => (s.impl.eIn (first op i)).val (e * op.Q * (op.inp i).size + x)⟩ := by
      unfold slice
      rw [if_pos]
      rw [hl, hlen, hes, hsz, Nat.mul_assoc, Nat.mul_comm (S.dat (op.inp i)).nc op.Q]
      exact slot_le he
    refine ⟨⟨op.Q * (op.inp i).size, fun x => (s.impl.eIn (first op i)).val (e * op.Q * (op.inp i).size + x)⟩, ?_, rfl, ?_⟩
    · simp only [M.bind_apply, getS, Out.bind_ok, St.put, hit.full i hi hnw, ptr, M.pure_apply, hsl, M.lift_ok, setQ,
        modI]
    · intro x hx
      have hQ : 0 < op.Q := Nat.pos_of_ne_zero (by rintro h0; rw [h0] at hx; simp at hx)
      have hk : x / op.Q < (S.dat (op.inp i)).nc := by
        rw [← hsz]; exact Nat.div_lt_of_lt_mul hx
      have hg := hpgath hnw e he (x / op.Q) hk (x % op.Q) (by rw [hes]; exact Nat.mod_lt _ hQ)
      unfold Meaning.inVal
      simp only [hm]
      rw [← hg]
      congr 1
      rw [hes, hsz, Nat.add_mul, Nat.add_assoc, Nat.div_add_mod']
      ring
  · have hnw := weight_not_basis hm
    have hnn : (op.inp i).mode ≠ .none := by
      intro hh; rw [hh] at hm; simp [isBasisMode] at hm
    rw [if_neg hnn, if_pos hm]
    obtain ⟨hr, b, ⟨f1, f2, f3, f4, f5⟩, hmul⟩ := h.in_basis hi hm
    obtain ⟨he1, hlen⟩ := hr.sizes
    have hl := hplen hnw
    unfold basisIn
    have hsl : slice (s.impl.eIn (first op i)) (e * elemSizeOf op (op.inp i) * b.nc) (elen S (op.inp i)) =
        .ok ⟨elen S (op.inp i), fun x => (s.impl.eIn (first op i)).val (e * elemSizeOf op (op.inp i) * b.nc + x)⟩ := by
      unfold slice elen
      rw [if_pos]
      rw [hl, hlen, he1, f3, Nat.mul_assoc, Nat.mul_comm (S.dat (op.inp i)).nc]
      exact slot_le he
    obtain ⟨v', e1, e2, e3, _⟩ := hmul junk 1
      ⟨elen S (op.inp i), fun x => (s.impl.eIn (first op i)).val (e * elemSizeOf op (op.inp i) * b.nc + x)⟩ (q i)
      (by show 1 * b.nc * b.P ≤ elen S (op.inp i); unfold elen; rw [f2, f3, Nat.one_mul, Nat.mul_comm])
      (by rw [(hq i hi).1, f4, f3, f5, Nat.one_mul, Nat.mul_assoc])
    refine ⟨v', ?_, ?_, ?_⟩
    · simp only [M.bind_apply, getS, Out.bind_ok, St.put, hit.full i hi hnw, f1, hit.ev i hi hm, ptr, M.pure_apply,
        hsl, M.lift_ok, e1, setQ, modI]
    · rw [e2, (hq i hi).1]
    · intro x hx
      have hQ : 0 < op.Q := Nat.pos_of_ne_zero (by rintro h0; rw [h0] at hx; simp at hx)
      have hnc : 0 < (S.dat (op.inp i)).nc := Nat.pos_of_ne_zero (by rintro h0; rw [f5, h0] at hx; simp at hx)
      have hx1 : x / op.Q < (S.dat (op.inp i)).nc * b.qComp (op.inp i).mode := by
        rw [← f5]; exact Nat.div_lt_of_lt_mul hx
      have hc : x / op.Q / (S.dat (op.inp i)).nc < b.qComp (op.inp i).mode := Nat.div_lt_of_lt_mul hx1
      have hk : x / op.Q % (S.dat (op.inp i)).nc < (S.dat (op.inp i)).nc := Nat.mod_lt _ hnc
      have := e3 _ hc _ (by rw [f3]; exact hk) (x % op.Q) (by rw [f4]; exact Nat.mod_lt _ hQ) 0 (by omega)
      have hpos : Basis.quadPos b.nc b.Q 1 (x / op.Q / (S.dat (op.inp i)).nc) (x / op.Q % (S.dat (op.inp i)).nc)
          (x % op.Q) 0 = x := by
        unfold Basis.quadPos
        rw [f3, f4, Nat.div_add_mod', Nat.div_add_mod']; simp
      rw [hpos] at this
      rw [this]
      rw [inVal_basis hm]
      unfold Basis.rowTimes
      rw [f2, f4]
      refine sum_congr rfl (fun n hn => ?_)
      rw [← hpgath hnw e he _ hk n (mem_range.1 hn)]
      congr 1
      show (s.impl.eIn (first op i)).val _ = _
      congr 1
      unfold Basis.nodePos
      rw [he1, f3]; ring

theorem inputBasis1_ok {op : Oper α} {S : Meaning α} (h : OpOK op S) {L : Nat → Nat → α} {inv : VPtr} {s : St α}
    (hp : ElemPre op S L inv s) (junk : Nat → Nat → α) (w : Nat → Buf α) {e i : Nat} (he : e < op.ne) (hi : i < op.nin)
    {q : Nat → Buf α} (hq : QOK op S q) :
    ∃ b : Buf α, inputBasis1 op junk false e i (s.put q w) = .ok (s.put (Function.update q i b) w) () ∧
      b.len = op.Q * (op.inp i).size ∧ ∀ x < op.Q * (op.inp i).size, b.val x = S.inVal op L inv e i x :=
  inputBasis1_at h hp.it hi (hp.len i hi) (hp.gath i hi) (by simp) junk w he hq

theorem inputBasis_ok {op : Oper α} {S : Meaning α} (h : OpOK op S) {L : Nat → Nat → α} {inv : VPtr} {s : St α}
    (hp : ElemPre op S L inv s) (junk : Nat → Nat → α) (w : Nat → Buf α) {e : Nat} (he : e < op.ne)
    {q : Nat → Buf α} (hq : QOK op S q) :
    ∃ q' : Nat → Buf α, inputBasis op junk false e (s.put q w) = .ok (s.put q' w) () ∧ QOK op S q' ∧
      ∀ i < op.nin, ∀ x < op.Q * (op.inp i).size, (q' i).val x = S.inVal op L inv e i x := by
  unfold inputBasis
  obtain ⟨q', e1, h1, h2⟩ := loop_ok (n := op.nin) (body := inputBasis1 op junk false e) (fun q => s.put q w)
    (fun j q => QOK op S q ∧ ∀ i < j, ∀ x < op.Q * (op.inp i).size, (q i).val x = S.inVal op L inv e i x)
    ⟨hq, fun i hi => absurd hi (by omega)⟩
    (by
      rintro i hi q ⟨hq, hv⟩
      obtain ⟨b, e1, e2, e3⟩ := inputBasis1_ok h hp junk w he hi hq
      refine ⟨_, e1, ?_, ?_⟩
      · intro j hj
        by_cases hji : j = i
        · subst hji
          rw [Function.update_self]
          refine ⟨e2, fun hw x hx => ?_⟩
          have hsz := (h.in_weight hj hw).2.2.1
          rw [e3 x (by rw [hsz]; omega)]
          unfold Meaning.inVal
          simp only [hw]
        · rw [Function.update_of_ne hji]; exact hq j hj
      · intro j hj x hx
        by_cases hji : j = i
        · subst hji
          rw [Function.update_self]
          exact e3 x hx
        · rw [Function.update_of_ne hji]; exact hv j (by omega) x hx)
  exact ⟨q', e1, h1, h2⟩

/-- The arrays computed by the QFunction. -/
theorem evalQF_eq {op : Oper α} {S : Meaning α} (h : OpOK op S) {L : Nat → Nat → α} {inv : VPtr} {e : Nat}
    {q : Nat → Buf α} (hv : ∀ i < op.nin, ∀ x < op.Q * (op.inp i).size, (q i).val x = S.inVal op L inv e i x)
    {o x : Nat} (ho : o < op.nout) (hx : x < op.Q * (op.out o).size) :
    evalQF op q o x = S.outArr op L inv e o x := by
  have hc : clip op q = S.inArr op L inv e := by
    funext i x
    unfold clip Meaning.inArr
    split
    · rename_i hh; exact hv i hh.1 x hh.2
    · rfl
  unfold evalQF Meaning.outArr
  by_cases hid : op.isId = true
  · rw [if_pos hid, if_pos hid]
    obtain ⟨h1, h2, h3, _⟩ := h.ident hid
    have ho0 : o = 0 := by omega
    subst ho0
    have hx' : x < op.Q * (op.inp 0).size := by rw [← h3]; exact hx
    unfold Meaning.inArr
    rw [if_pos ⟨by omega, hx'⟩]
    exact hv 0 (by omega) x hx'
  · rw [if_neg hid, if_neg hid, hc]

/-! ## Outputs -/

/-- Position of node `n` of component `k` of element `e`. -/
def pos (D : RData α) (e k n : Nat) : Nat := (e * D.nc + k) * D.es + n

theorem pos_inj {D : RData α} {e k n e' k' n' : Nat} (hk : k < D.nc) (hn : n < D.es) (hk' : k' < D.nc) (hn' : n' < D.es)
    (h : pos D e k n = pos D e' k' n') : e = e' ∧ k = k' ∧ n = n' := by
  unfold pos at h
  have hes : 0 < D.es := by omega
  have hnc : 0 < D.nc := by omega
  have h1 := congrArg (· / D.es) h
  have h2 := congrArg (· % D.es) h
  simp only [Nat.mul_comm _ D.es, Nat.mul_add_div hes, Nat.mul_add_mod, Nat.div_eq_of_lt hn, Nat.div_eq_of_lt hn',
    Nat.mod_eq_of_lt hn, Nat.mod_eq_of_lt hn', Nat.add_zero] at h1 h2
  have h3 := congrArg (· / D.nc) h1
  have h4 := congrArg (· % D.nc) h1
  simp only [Nat.mul_comm _ D.nc, Nat.mul_add_div hnc, Nat.mul_add_mod, Nat.div_eq_of_lt hk, Nat.div_eq_of_lt hk',
    Nat.mod_eq_of_lt hk, Nat.mod_eq_of_lt hk', Nat.add_zero] at h3 h4
  exact ⟨h3, h4, h2⟩

theorem pos_lt {D : RData α} {k n : Nat} (hk : k < D.nc) (hn : n < D.es) : k * D.es + n < D.nc * D.es := by
  have : (k + 1) * D.es ≤ D.nc * D.es := Nat.mul_le_mul_right _ hk
  rw [Nat.add_mul] at this
  omega

/-- Writing the entries of one element. -/
theorem paste_pos {D : RData α} {b v : Buf α} {e : Nat} (hv : v.len = D.nc * D.es) {e' k n : Nat} (hk : k < D.nc)
    (hn : n < D.es) : (paste b (e * (D.nc * D.es)) v).val (pos D e' k n) =
      if e' = e then v.val (k * D.es + n) else b.val (pos D e' k n) := by
  have hlt := pos_lt (D := D) hk hn
  have hpos : pos D e' k n = e' * (D.nc * D.es) + (k * D.es + n) := by unfold pos; ring
  unfold paste
  by_cases he : e' = e
  · subst he
    simp only [if_true]
    rw [if_pos (by rw [hpos, hv]; omega), hpos, Nat.add_sub_cancel_left]
  · simp only [he, if_false]
    rw [if_neg]
    rw [hpos, hv]
    rintro ⟨h1, h2⟩
    rcases Nat.lt_or_gt_of_ne he with hlt' | hlt'
    · have : (e' + 1) * (D.nc * D.es) ≤ e * (D.nc * D.es) := Nat.mul_le_mul_right _ hlt'
      rw [Nat.add_mul] at this
      omega
    · have : (e + 1) * (D.nc * D.es) ≤ e' * (D.nc * D.es) := Nat.mul_le_mul_right _ hlt'
      rw [Nat.add_mul] at this
      omega

/-- Lengths of the output E-vectors. -/
def WLen (op : Oper α) (w : Nat → Buf α) : Prop := ∀ o < op.nout, (w o).len = eSizeOf op (op.out o)

/-- Outputs of the group of `p` done when the outputs without basis and those `< j` have been written. -/
def members (op : Oper α) (p j : Nat) : Finset Nat :=
  (range op.nout).filter (fun o => last op o = p ∧ (o < j ∨ (op.out o).mode = .none))

theorem eSizeOf_same {op : Oper α} {a b : OField α} (h : a.same b = true) : eSizeOf op a = eSizeOf op b := by
  unfold eSizeOf; rw [(same_iff.1 h).2]

/-- State of the output E-vectors on element `e` with the outputs in `T p` written into E-vector `p`. -/
structure OutSt (op : Oper α) (S : Meaning α) (L : Nat → Nat → α) (inv : VPtr) (e : Nat) (w0 w : Nat → Buf α)
    (T : Nat → Finset Nat) : Prop where
  len : WLen op w
  other : ∀ p < op.nout, ∀ e', e' ≠ e → ∀ k < (S.dat (op.out p)).nc, ∀ n < (S.dat (op.out p)).es,
    (w p).val (pos (S.dat (op.out p)) e' k n) = (w0 p).val (pos (S.dat (op.out p)) e' k n)
  val : ∀ p < op.nout, (T p).Nonempty → ∀ k < (S.dat (op.out p)).nc, ∀ n < (S.dat (op.out p)).es,
    (w p).val (pos (S.dat (op.out p)) e k n) = ∑ o ∈ T p, S.elemOut op L inv o e k n

/-- Writing one output. -/
theorem OutSt.write {op : Oper α} {S : Meaning α} {L : Nat → Nat → α} {inv : VPtr} {e : Nat} {w0 w : Nat → Buf α}
    {T T' : Nat → Finset Nat} (h : OutSt op S L inv e w0 w T) {o : Nat} (ho : o < op.nout) {v : Buf α}
    (hv : v.len = (S.dat (op.out o)).nc * (S.dat (op.out o)).es)
    (hT : ∀ p, p ≠ last op o → T' p = T p)
    (hval : ∀ k < (S.dat (op.out o)).nc, ∀ n < (S.dat (op.out o)).es,
      v.val (k * (S.dat (op.out o)).es + n) = ∑ o' ∈ T' (last op o), S.elemOut op L inv o' e k n) :
    OutSt op S L inv e w0 (Function.update w (last op o)
      (paste (w (last op o)) (e * ((S.dat (op.out o)).nc * (S.dat (op.out o)).es)) v)) T' := by
  have hs := last_same op ho
  have hD := dat_same (S := S) hs
  refine ⟨?_, ?_, ?_⟩
  · intro p hp
    by_cases hpe : p = last op o
    · subst hpe
      rw [Function.update_self]
      exact h.len _ hp
    · rw [Function.update_of_ne hpe]; exact h.len p hp
  · intro p hp e' he' k hk n hn
    by_cases hpe : p = last op o
    · subst hpe
      rw [Function.update_self]
      rw [hD] at hk hn ⊢
      rw [paste_pos hv hk hn, if_neg he']
      have := h.other _ hp e' he' k (by rw [hD]; exact hk) n (by rw [hD]; exact hn)
      rw [hD] at this
      exact this
    · rw [Function.update_of_ne hpe]; exact h.other p hp e' he' k hk n hn
  · intro p hp hne k hk n hn
    by_cases hpe : p = last op o
    · subst hpe
      rw [Function.update_self]
      rw [hD] at hk hn ⊢
      rw [paste_pos hv hk hn, if_pos rfl]
      exact hval k hk n hn
    · rw [Function.update_of_ne hpe, hT p hpe]
      rw [hT p hpe] at hne
      exact h.val p hp hne k hk n hn

theorem directOut_ok {op : Oper α} {S : Meaning α} (h : OpOK op S) {L : Nat → Nat → α} {inv : VPtr} {s : St α}
    (hp : ElemPre op S L inv s) (q : Nat → Buf α) {e o : Nat} (he : e < op.ne) (ho : o < op.nout)
    {w0 w : Nat → Buf α} {y : Nat → Nat → α}
    (hy : ∀ x < op.Q * (op.out o).size, y o x = S.outArr op L inv e o x)
    (hw : OutSt op S L inv e w0 w (fun p => (range o).filter (fun o' => last op o' = p ∧ (op.out o').mode = .none))) :
    ∃ w', directOut op e y o (s.put q w) = .ok (s.put q w') () ∧
      OutSt op S L inv e w0 w' (fun p => (range (o + 1)).filter (fun o' => last op o' = p ∧ (op.out o').mode = .none)) := by
  unfold directOut
  by_cases hm : (op.out o).mode = .none
  · obtain ⟨hr, hes, hsz⟩ := h.out_none ho hm
    obtain ⟨_, hlen⟩ := hr.sizes
    have hs := last_same op ho
    have hl : (w (last op o)).len = op.ne * ((S.dat (op.out o)).nc * (S.dat (op.out o)).es) := by
      rw [hw.len _ (last_lt op ho), eSizeOf_same hs, hlen]
    have hoff : e * op.Q * (op.out o).size = e * ((S.dat (op.out o)).nc * (S.dat (op.out o)).es) := by
      rw [hes, hsz, Nat.mul_assoc, Nat.mul_comm op.Q]
    have hsl : slice (w (last op o)) (e * op.Q * (op.out o).size) (op.Q * (op.out o).size) =
        .ok ⟨op.Q * (op.out o).size, fun x => (w (last op o)).val (e * op.Q * (op.out o).size + x)⟩ := by
      unfold slice
      rw [if_pos]
      rw [hl, hoff, ← hes, hsz, Nat.mul_comm (S.dat (op.out o)).es]
      exact slot_le he
    refine ⟨Function.update w (last op o) (paste (w (last op o)) (e * ((S.dat (op.out o)).nc * (S.dat (op.out o)).es))
      ⟨op.Q * (op.out o).size, y o⟩), ?_, ?_⟩
    · have hnw : ¬ (op.isId = true ∧ (op.inp 0).mode = .weight) := by
        rintro ⟨h1, h2⟩
        obtain ⟨_, k2, _, _, k5⟩ := h.ident h1
        exact k5 h2 (by rw [← hm, show o = 0 by omega])
      simp only [M.bind_apply, getS, Out.bind_ok, St.put, hm, if_true, hp.eptr o ho, ptr, M.pure_apply, hsl, M.lift_ok,
        setEOut, modI, if_neg hnw]
      rw [hoff]
    · refine hw.write ho (by show op.Q * (op.out o).size = _; rw [hes, hsz, Nat.mul_comm]) ?_ ?_
      · intro p hpne
        rw [Finset.range_add_one, Finset.filter_insert, if_neg (by rintro ⟨h1, _⟩; exact hpne h1.symm)]
      · intro k hk n hn
        have hsing : (range (o + 1)).filter (fun o' => last op o' = last op o ∧ (op.out o').mode = .none) = {o} := by
          ext o'
          simp only [mem_filter, mem_range, mem_singleton]
          constructor
          · rintro ⟨h1, h2, h3⟩
            by_contra hne
            have hsame : (op.out o').same (op.out o) = true := by
              have h4 := last_same op (j := o') (by omega)
              rw [h2] at h4
              exact same_trans (same_symm h4) hs
            have := h.shareOut o' o (by omega) ho hsame
            rw [hm] at this; simp [isBasisMode] at this
          · rintro rfl; exact ⟨by omega, rfl, hm⟩
        rw [hsing, sum_singleton]
        have hlt : k * (S.dat (op.out o)).es + n < op.Q * (op.out o).size := by
          have := pos_lt (D := S.dat (op.out o)) hk hn
          rw [← hes, hsz, Nat.mul_comm (S.dat (op.out o)).es]; exact this
        show y o _ = _
        rw [hy _ hlt, hes]
        unfold Meaning.elemOut
        simp only [hm]
  · refine ⟨w, ?_, ?_⟩
    · simp only [M.bind_apply, getS, Out.bind_ok, hm, if_false, M.pure_apply]
    · have : (fun p => (range (o + 1)).filter (fun o' => last op o' = p ∧ (op.out o').mode = .none)) =
          fun p => (range o).filter (fun o' => last op o' = p ∧ (op.out o').mode = .none) := by
        funext p
        rw [Finset.range_add_one, Finset.filter_insert, if_neg (by rintro ⟨_, h1⟩; exact hm h1)]
      rw [this]
      exact hw

theorem outputBasis1_ok {op : Oper α} {S : Meaning α} (h : OpOK op S) {L : Nat → Nat → α} {inv : VPtr} {s : St α}
    (hp : ElemPre op S L inv s) (junk : Nat → Nat → α) (q : Nat → Buf α) {e o : Nat} (he : e < op.ne) (ho : o < op.nout)
    {w0 w : Nat → Buf α} {y : Nat → Nat → α}
    (hy : ∀ x < op.Q * (op.out o).size, y o x = S.outArr op L inv e o x)
    (hw : OutSt op S L inv e w0 w (fun p => members op p o)) :
    ∃ w', outputBasis1 op junk e y o (s.put q w) = .ok (s.put q w') () ∧
      OutSt op S L inv e w0 w' (fun p => members op p (o + 1)) := by
  unfold outputBasis1
  rcases mode_cases (op.out o).mode with hm | hm | hm
  · exact absurd hm (h.out_not_weight ho)
  · refine ⟨w, by rw [if_pos hm]; rfl, ?_⟩
    have : (fun p => members op p (o + 1)) = fun p => members op p o := by
      funext p
      unfold members
      ext o'
      simp only [mem_filter, mem_range]
      constructor
      · rintro ⟨h1, h2, h3⟩
        refine ⟨h1, h2, ?_⟩
        by_cases hoo : o' = o
        · subst hoo; exact Or.inr hm
        · exact h3.imp (fun _ => by omega) id
      · rintro ⟨h1, h2, h3⟩
        exact ⟨h1, h2, h3.imp (fun _ => by omega) id⟩
    rw [this]
    exact hw
  have hnn : (op.out o).mode ≠ .none := by
    intro hh; rw [hh] at hm; simp [isBasisMode] at hm
  rw [if_neg hnn, if_pos hm]
  obtain ⟨hr, b, ⟨f1, f2, f3, f4, f5⟩, hmul, hadd⟩ := h.out_basis ho hm
  obtain ⟨he1, hlen⟩ := hr.sizes
  have hs := last_same op ho
  have hD := dat_same (S := S) hs
  set D := S.dat (op.out o) with hDdef
  have hl : (w (last op o)).len = op.ne * (D.nc * D.es) := by
    rw [hw.len _ (last_lt op ho), eSizeOf_same hs, hlen]
  have hoff : e * elemSizeOf op (op.out o) * b.nc = e * (D.nc * D.es) := by
    rw [he1, f3, Nat.mul_assoc, Nat.mul_comm D.nc]
  have helen : elen S (op.out o) = D.nc * D.es := by unfold elen; rw [← hDdef, Nat.mul_comm]
  set t : Buf α := ⟨D.nc * D.es, fun x => (w (last op o)).val (e * (D.nc * D.es) + x)⟩ with ht
  have hsl : slice (w (last op o)) (e * (D.nc * D.es)) (D.nc * D.es) = .ok t := by
    unfold slice
    rw [if_pos]
    rw [hl]
    exact slot_le he
  have hqc : (op.out o).qc = b.qComp (op.out o).mode := by unfold OField.qc; rw [f1]
  have hcol : ∀ k < D.nc, ∀ n, Basis.colTimes b (b.qComp (op.out o).mode) 1 (S.mOut o) ⟨op.Q * (op.out o).size, y o⟩ k n 0 =
      S.elemOut op L inv o e k n := by
    intro k hk n
    rw [elemOut_basis hm, hqc]
    unfold Basis.colTimes
    refine sum_congr rfl (fun c hc => ?_)
    rw [f4]
    refine sum_congr rfl (fun q' hq' => ?_)
    have hpos : Basis.quadPos b.nc op.Q 1 c k q' 0 = (c * D.nc + k) * op.Q + q' := by
      unfold Basis.quadPos; rw [f3]; ring
    have hlt : (c * D.nc + k) * op.Q + q' < op.Q * (op.out o).size := by
      rw [f5]
      have h1 : (c + 1) * D.nc ≤ b.qComp (op.out o).mode * D.nc := Nat.mul_le_mul_right _ (mem_range.1 hc)
      rw [Nat.add_mul] at h1
      have h2 : (c * D.nc + k + 1) * op.Q ≤ b.qComp (op.out o).mode * D.nc * op.Q := Nat.mul_le_mul_right _ (by omega)
      rw [Nat.add_mul] at h2
      have h3 := mem_range.1 hq'
      rw [Nat.mul_comm op.Q, Nat.mul_comm D.nc]
      omega
    rw [hpos, f2]
    show _ * y o _ = _
    rw [hy _ hlt]
  have hmem : ∀ p, p ≠ last op o → members op p (o + 1) = members op p o := by
    intro p hpne
    unfold members
    ext o'
    simp only [mem_filter, mem_range]
    constructor
    · rintro ⟨h1, h2, h3⟩
      have : o' ≠ o := by rintro rfl; exact hpne h2.symm
      exact ⟨h1, h2, h3.imp (fun _ => by omega) id⟩
    · rintro ⟨h1, h2, h3⟩
      exact ⟨h1, h2, h3.imp (fun _ => by omega) id⟩
  have hins : members op (last op o) (o + 1) = insert o (members op (last op o) o) := by
    unfold members
    ext o'
    simp only [mem_filter, mem_range, mem_insert]
    constructor
    · rintro ⟨h1, h2, h3⟩
      by_cases hoo : o' = o
      · exact Or.inl hoo
      · exact Or.inr ⟨h1, h2, h3.imp (fun _ => by omega) id⟩
    · rintro (rfl | ⟨h1, h2, h3⟩)
      · exact ⟨ho, rfl, Or.inl (by omega)⟩
      · exact ⟨h1, h2, h3.imp (fun _ => by omega) id⟩
  have hnot : o ∉ members op (last op o) o := by
    unfold members
    simp [hnn]
  have hnode : ∀ k n, Basis.nodePos b.P 1 k n 0 = k * D.es + n := by
    intro k n; unfold Basis.nodePos; rw [f2]; ring
  have hlw : 1 * b.nc * b.Q * b.qComp (op.out o).mode ≤ op.Q * (op.out o).size := by
    rw [f4, f3, f5, Nat.one_mul, Nat.mul_comm D.nc, Nat.mul_assoc]
  have hlv : 1 * b.nc * b.P ≤ D.nc * D.es := by rw [f2, f3, Nat.one_mul]
  have key : ∃ v, (if s.impl.ot.add o then
        Basis.applyAdd b junk 1 .transpose (op.out o).mode (some ⟨op.Q * (op.out o).size, y o⟩) t
      else Basis.apply b junk 1 .transpose (op.out o).mode (some ⟨op.Q * (op.out o).size, y o⟩) t) = .ok v ∧
      v.len = D.nc * D.es ∧ ∀ k < D.nc, ∀ n < D.es,
        v.val (k * D.es + n) = ∑ o' ∈ members op (last op o) (o + 1), S.elemOut op L inv o' e k n := by
    by_cases ha : s.impl.ot.add o = true
    · have hex := (hp.ot.add o ho).1 ha
      obtain ⟨v, e1, e2, e3, _⟩ := hadd hex junk 1 ⟨op.Q * (op.out o).size, y o⟩ t hlw hlv
      refine ⟨v, by rw [if_pos ha]; exact e1, e2, ?_⟩
      intro k hk n hn
      have := e3 k (by omega) n (by omega) 0 (by omega)
      rw [hnode, hcol k hk] at this
      rw [this, hins, sum_insert hnot, add_comm]
      congr 1
      obtain ⟨i, hi, hsame⟩ := hex
      have hne : (members op (last op o) o).Nonempty :=
        ⟨i, by unfold members; rw [mem_filter, mem_range]; exact ⟨by omega, last_congr op (by omega) ho hsame, Or.inl hi⟩⟩
      have hv := hw.val (last op o) (last_lt op ho) hne k (by rw [hD]; exact hk) n (by rw [hD]; exact hn)
      rw [← hv, hD]
      show (w (last op o)).val _ = _
      congr 1
      unfold pos; ring
    · obtain ⟨v, e1, e2, e3, _⟩ := hmul junk 1 ⟨op.Q * (op.out o).size, y o⟩ t hlw hlv
      refine ⟨v, by rw [if_neg ha]; exact e1, e2, ?_⟩
      intro k hk n hn
      have := e3 k (by omega) n (by omega) 0 (by omega)
      rw [hnode, hcol k hk] at this
      rw [this, hins, sum_insert hnot]
      have hemp : members op (last op o) o = ∅ := by
        rw [Finset.eq_empty_iff_forall_notMem]
        intro o' hmem'
        unfold members at hmem'
        rw [mem_filter, mem_range] at hmem'
        obtain ⟨h1, h2, h3⟩ := hmem'
        have hsame : (op.out o').same (op.out o) = true := by
          have h4 := last_same op h1
          rw [h2] at h4
          exact same_trans (same_symm h4) hs
        by_cases hlt : o' < o
        · exact ha ((hp.ot.add o ho).2 ⟨o', hlt, hsame⟩)
        · rcases h3 with h3 | h3
          · exact hlt h3
          · have hne : o' ≠ o := by rintro rfl; exact hnn h3
            have := h.shareOut o o' (by omega) h1 (same_symm hsame)
            rw [h3] at this; simp [isBasisMode] at this
      rw [hemp, sum_empty, add_zero]
  obtain ⟨v, e1, e2, e3⟩ := key
  refine ⟨Function.update w (last op o) (paste (w (last op o)) (e * (D.nc * D.es)) v), ?_, ?_⟩
  · unfold basisOut
    simp only [M.bind_apply, getS, Out.bind_ok, St.put, hp.eptr o ho, f1, hp.ot.ev o ho hm, ptr, M.pure_apply, hoff, helen,
      hsl, M.lift_ok, e1, setEOut, modI]
  · exact hw.write ho e2 hmem e3

/-- One element. -/
theorem element_ok {op : Oper α} {S : Meaning α} (h : OpOK op S) {L : Nat → Nat → α} {inv : VPtr} {s : St α}
    (hp : ElemPre op S L inv s) (junk : Nat → Nat → α) {e : Nat} (he : e < op.ne) {q w : Nat → Buf α}
    (hq : QOK op S q) (hw : WLen op w) :
    ∃ q' w', element op junk e (s.put q w) = .ok (s.put q' w') () ∧ QOK op S q' ∧
      OutSt op S L inv e w w' (fun p => (range op.nout).filter (fun o => last op o = p)) := by
  obtain ⟨q', e1, h1, h2⟩ := inputBasis_ok h hp junk w he hq
  have hy : ∀ o < op.nout, ∀ x < op.Q * (op.out o).size, evalQF op q' o x = S.outArr op L inv e o x :=
    fun o ho x hx => evalQF_eq h h2 ho hx
  obtain ⟨w1, e2, h3⟩ := loop_ok (n := op.nout) (body := directOut op e (evalQF op q')) (fun w => s.put q' w)
    (fun j w' => OutSt op S L inv e w w'
      (fun p => (range j).filter (fun o' => last op o' = p ∧ (op.out o').mode = .none)))
    (a := w) ⟨hw, fun _ _ _ _ _ _ _ _ => rfl, fun p _ hne => by simp at hne⟩
    (fun o ho w' hw' => directOut_ok h hp q' he ho (hy o ho) hw')
  obtain ⟨w2, e3, h4⟩ := loop_ok (n := op.nout) (body := outputBasis1 op junk e (evalQF op q')) (fun w => s.put q' w)
    (fun j w' => OutSt op S L inv e w w' (fun p => members op p j)) (a := w1)
    (by
      have : (fun p => members op p 0) =
          fun p => (range op.nout).filter (fun o' => last op o' = p ∧ (op.out o').mode = .none) := by
        funext p; unfold members; simp
      rw [this]; exact h3)
    (fun o ho w' hw' => outputBasis1_ok h hp junk q' he ho (hy o ho) hw')
  refine ⟨q', w2, ?_, h1, ?_⟩
  · unfold element
    simp only [M.bind_apply, e1, Out.bind_ok, getS]
    show (M.loop op.nout (directOut op e (evalQF op q')) (s.put q' w)).bind _ = _
    rw [e2, Out.bind_ok]
    exact e3
  · have : (fun p => members op p op.nout) = fun p => (range op.nout).filter (fun o => last op o = p) := by
      funext p
      unfold members
      ext o
      simp only [mem_filter, mem_range]
      tauto
    rw [← this]; exact h4

/-- All elements. -/
theorem elements_ok {op : Oper α} {S : Meaning α} (h : OpOK op S) {L : Nat → Nat → α} {inv : VPtr} {s : St α}
    (hp : ElemPre op S L inv s) (junk : Nat → Nat → α) (hq : QOK op S s.impl.qIn) (hw : WLen op s.impl.eOut) :
    ∃ q' w', M.loop op.ne (element op junk) s = .ok (s.put q' w') () ∧ QOK op S q' ∧ WLen op w' ∧
      ∀ p < op.nout, last op p = p → ∀ e < op.ne, ∀ k < (S.dat (op.out p)).nc, ∀ n < (S.dat (op.out p)).es,
        (w' p).val (pos (S.dat (op.out p)) e k n) =
          ∑ o ∈ (range op.nout).filter (fun o => last op o = p), S.elemOut op L inv o e k n := by
  obtain ⟨⟨q', w'⟩, e1, h1, h2, h3⟩ := loop_ok (n := op.ne) (body := element op junk)
    (fun (x : (Nat → Buf α) × (Nat → Buf α)) => s.put x.1 x.2)
    (fun j x => QOK op S x.1 ∧ WLen op x.2 ∧ ∀ p < op.nout, last op p = p → ∀ e < j,
      ∀ k < (S.dat (op.out p)).nc, ∀ n < (S.dat (op.out p)).es, (x.2 p).val (pos (S.dat (op.out p)) e k n) =
          ∑ o ∈ (range op.nout).filter (fun o => last op o = p), S.elemOut op L inv o e k n)
    (a := (s.impl.qIn, s.impl.eOut)) ⟨hq, hw, fun _ _ _ e he => absurd he (by omega)⟩
    (by
      rintro e he ⟨q, w⟩ ⟨hq, hw, hv⟩
      obtain ⟨q', w', e1, h1, h2⟩ := element_ok h hp junk he hq hw
      refine ⟨(q', w'), e1, h1, h2.len, ?_⟩
      intro p hp' hroot e' he' k hk n hn
      by_cases hee : e' = e
      · subst hee
        exact h2.val p hp' ⟨p, by rw [mem_filter, mem_range]; exact ⟨hp', hroot⟩⟩ k hk n hn
      · rw [← hv p hp' hroot e' (by omega) k hk n hn]
        exact h2.other p hp' e' hee k hk n hn)
  exact ⟨q', w', e1, h1, h2, h3⟩

end Operator
end Verif
