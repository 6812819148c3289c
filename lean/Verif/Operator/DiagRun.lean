import Verif.Operator.DiagElem

/-!
# Assembly of the diagonal: the whole loop
-/

namespace Verif
namespace Operator

open Finset
open Restriction (RData Made Rep Variant Rstr)
open Basis (EMode)

variable {α : Type} [CommRing α]

set_option linter.unusedSectionVars false

/-! ## Restrictions without signs -/

/-- A restriction that is not curl oriented is a signed selection, and its unsigned copy the selection. -/
theorem unsigned_rep {r : Rstr} {l : Int} {D : RData α} (h : Made .plain r 1 l D) (hc : r.rtype ≠ .curlOriented) :
    ∃ (D' : RData α) (σ : Nat → Nat → α), Rep r .unsigned D' ∧ D'.ne = D.ne ∧ D'.es = D.es ∧ D'.nc = D.nc ∧
      D'.lidx = D.lidx ∧ (∀ e n m, D'.coef e n m = Restriction.idCoef n m) ∧
      (∀ e n m, D.coef e n m = σ e n * Restriction.idCoef n m) ∧ ∀ e n, σ e n * σ e n = 1 := by
  have key : ∀ {ne es nc : Nat} {cs : Int} {offsets : Buf Int} {o : Restriction.Orient}, r.rtype = o.rtype →
      Rep r .unsigned (Restriction.offsetData ne es nc cs offsets o .unsigned : RData α) →
      ∃ (D' : RData α) (σ : Nat → Nat → α), Rep r .unsigned D' ∧ D'.ne = ne ∧ D'.es = es ∧ D'.nc = nc ∧
      D'.lidx = (Restriction.offsetData ne es nc cs offsets o .plain : RData α).lidx ∧
      (∀ e n m, D'.coef e n m = Restriction.idCoef n m) ∧
      (∀ e n m, (Restriction.offsetData ne es nc cs offsets o .plain : RData α).coef e n m =
        σ e n * Restriction.idCoef n m) ∧ ∀ e n, σ e n * σ e n = 1 := by
    intro ne es nc cs offsets o ht hr
    cases o with
    | none =>
      exact ⟨_, fun _ _ => 1, hr, rfl, rfl, rfl, rfl, fun e n m => rfl, fun e n m => (one_mul _).symm, fun _ _ => one_mul _⟩
    | signs s =>
      refine ⟨_, fun e n => if s.val (e * es + n) then -1 else 1, hr, rfl, rfl, rfl, rfl, fun e n m => rfl, ?_, ?_⟩
      · intro e n m
        show (if s.val (e * es + n) then -Restriction.idCoef n m else Restriction.idCoef n m) = _
        by_cases hs : s.val (e * es + n) = true <;> simp [hs]
      · intro e n
        by_cases hs : s.val (e * es + n) = true <;> simp [hs]
    | curl c => exact absurd ht (by intro hh; exact hc hh)
  have fit : ∀ {o : Restriction.Orient} {es : Nat}, r.rtype = o.rtype → o.Fits es .unsigned := by
    intro o es ht
    cases o with
    | curl c => exact absurd ht (by intro hh; exact hc hh)
    | none => trivial
    | signs s => trivial
  cases h with
  | offset h hf hin =>
    have ht := (Restriction.create_fields h).1
    exact key ht (Restriction.create_rep h .unsigned (fit ht) hin)
  | strided h hin =>
    have := Restriction.createStrided_rep (α := α) h .unsigned hin
    exact ⟨_, fun _ _ => 1, this, rfl, rfl, rfl, rfl, fun e n m => rfl, fun e n m => (one_mul _).symm, fun _ _ => one_mul _⟩
  | @blocked checked ne es bs nc cs l offsets o r h hl ho hf hin =>
    have ht : r.rtype = o.rtype := by
      obtain ⟨_, _, _, _, h1, _⟩ := Restriction.createBlocked_fields h hl ho
      exact h1
    exact key ht (Made.blocked h hl ho (fit ht) hin).rep.1
  | blockedStrided h hin =>
    have := (Restriction.createBlockedStrided_rep (α := α) h .unsigned hin).1
    exact ⟨_, fun _ _ => 1, this, rfl, rfl, rfl, rfl, fun e n m => rfl, fun e n m => (one_mul _).symm, fun _ _ => one_mul _⟩

/-! ## The matrix -/

/-- Contribution of an output and an input to an entry of the matrix, on the nodes they have in common. -/
def nodal (op : Oper α) (S : Meaning α) (v : Buf α) (o i t s : Nat) : α :=
  ∑ e ∈ range op.ne, ∑ k ∈ range (S.dat (op.inp i)).nc, ∑ n ∈ range (S.dat (op.inp i)).es,
    if (S.dat (op.inp i)).lidx e n k = t then ∑ k' ∈ range (S.dat (op.inp i)).nc,
      if (S.dat (op.inp i)).lidx e n k' = s then S.kern op v o i e k n k' n else 0
    else 0

/-- The entries of the matrix as sums over outputs and inputs. -/
theorem form_pairs (S : Meaning α) (op : Oper α) (v : Buf α) (u : Nat → α) (t : Nat) :
    S.form op v u t = ∑ o ∈ range op.nout, if (op.out o).vec = .active then ∑ i ∈ range op.nin,
      if (op.inp i).vec = .active then
        ∑ e ∈ range op.ne, ∑ k ∈ range (S.dat (op.out o)).nc, ∑ n ∈ range (S.dat (op.out o)).es,
          ∑ m ∈ range (S.dat (op.out o)).es, if (S.dat (op.out o)).lidx e m k = t then (S.dat (op.out o)).coef e n m *
            ∑ k' ∈ range (S.dat (op.inp i)).nc, ∑ n' ∈ range (S.dat (op.inp i)).es,
              S.kern op v o i e k n k' n' * (S.dat (op.inp i)).row u e k' n' else 0
      else 0 else 0 := by
  unfold Meaning.form
  refine sum_congr rfl (fun o _ => ?_)
  split
  · have h1 : ∀ e k n m, (if (S.dat (op.out o)).lidx e m k = t then (S.dat (op.out o)).coef e n m *
        ∑ i ∈ range op.nin, (if (op.inp i).vec = .active then ∑ k' ∈ range (S.dat (op.inp i)).nc,
          ∑ n' ∈ range (S.dat (op.inp i)).es, S.kern op v o i e k n k' n' * (S.dat (op.inp i)).row u e k' n' else 0)
        else 0) = ∑ i ∈ range op.nin, if (op.inp i).vec = .active then
          (if (S.dat (op.out o)).lidx e m k = t then (S.dat (op.out o)).coef e n m *
            ∑ k' ∈ range (S.dat (op.inp i)).nc, ∑ n' ∈ range (S.dat (op.inp i)).es,
              S.kern op v o i e k n k' n' * (S.dat (op.inp i)).row u e k' n' else 0) else 0 := by
      intro e k n m
      split
      · rw [mul_sum]
        refine sum_congr rfl (fun i _ => ?_)
        split
        · rfl
        · rw [mul_zero]
      · rw [eq_comm]; exact sum_eq_zero (fun i _ => by split <;> rfl)
    simp only [h1]
    rw [sum_congr rfl (fun e _ => sum_congr rfl (fun k _ => (sum_congr rfl (fun n _ => sum_comm)).trans sum_comm)),
      (sum_congr rfl (fun e _ => sum_comm)).trans sum_comm]
    refine sum_congr rfl (fun i _ => ?_)
    split
    · rfl
    · simp only [sum_const_zero]
  · rfl

/-- A pair of fields with the same signed selection, when `t` and `s` are at the same node in every element. -/
theorem pair_same {S : Meaning α} {op : Oper α} {v : Buf α} {t s o i : Nat} {σ : Nat → Nat → α}
    (hD : S.dat (op.out o) = S.dat (op.inp i))
    (hσ : ∀ e n m, (S.dat (op.inp i)).coef e n m = σ e n * Restriction.idCoef n m) (hσ2 : ∀ e n, σ e n * σ e n = 1)
    (hinj : ∀ e < op.ne, ∀ m < (S.dat (op.inp i)).es, ∀ m' < (S.dat (op.inp i)).es, ∀ k < (S.dat (op.inp i)).nc,
      ∀ k' < (S.dat (op.inp i)).nc, (S.dat (op.inp i)).lidx e m k = t → (S.dat (op.inp i)).lidx e m' k' = s → m = m') :
    (∑ e ∈ range op.ne, ∑ k ∈ range (S.dat (op.out o)).nc, ∑ n ∈ range (S.dat (op.out o)).es,
      ∑ m ∈ range (S.dat (op.out o)).es, if (S.dat (op.out o)).lidx e m k = t then (S.dat (op.out o)).coef e n m *
        ∑ k' ∈ range (S.dat (op.inp i)).nc, ∑ n' ∈ range (S.dat (op.inp i)).es,
          S.kern op v o i e k n k' n' * (S.dat (op.inp i)).row (fun x => if x = s then 1 else 0) e k' n' else 0) =
    nodal op S v o i t s := by
  unfold nodal
  rw [hD]
  generalize S.dat (op.inp i) = D at *
  refine sum_congr rfl (fun e he => sum_congr rfl (fun k hk => sum_congr rfl (fun n hn => ?_)))
  rw [mem_range] at he hk hn
  have hrow : ∀ k' n', n' < D.es → D.row (fun x => if x = s then (1 : α) else 0) e k' n' =
      if D.lidx e n' k' = s then σ e n' else 0 := by
    intro k' n' hn'
    unfold RData.row
    rw [sum_eq_single n']
    · rw [hσ]; unfold Restriction.idCoef; simp
    · intro m _ hne
      rw [hσ]; unfold Restriction.idCoef; simp [hne]
    · intro hh; exact absurd (mem_range.2 hn') hh
  rw [sum_eq_single n]
  · split
    · rename_i ht
      rw [hσ, mul_sum]
      unfold Restriction.idCoef
      rw [if_pos rfl, mul_one]
      refine sum_congr rfl (fun k' hk' => ?_)
      rw [mem_range] at hk'
      rw [sum_eq_single n]
      · rw [hrow k' n hn]
        split
        · calc σ e n * (S.kern op v o i e k n k' n * σ e n) = S.kern op v o i e k n k' n * (σ e n * σ e n) := by ring
            _ = _ := by rw [hσ2, mul_one]
        · simp
      · intro n' hn' hne
        rw [mem_range] at hn'
        rw [hrow k' n' hn', if_neg, mul_zero]
        intro hh
        exact hne (hinj e he n hn n' hn' k hk k' hk' ht hh).symm
      · intro hh; exact absurd (mem_range.2 hn) hh
    · rfl
  · intro m hm hne
    split
    · rw [hσ]; unfold Restriction.idCoef; simp [hne]
    · rfl
  · intro hh; exact absurd (mem_range.2 hn) hh

/-- A pair of fields without common entries. -/
theorem pair_apart {S : Meaning α} {op : Oper α} {v : Buf α} {t o i : Nat}
    (hap : ∀ e < op.ne, ∀ m < (S.dat (op.out o)).es, ∀ m' < (S.dat (op.inp i)).es, ∀ k < (S.dat (op.out o)).nc,
      ∀ k' < (S.dat (op.inp i)).nc, (S.dat (op.out o)).lidx e m k ≠ (S.dat (op.inp i)).lidx e m' k') :
    (∑ e ∈ range op.ne, ∑ k ∈ range (S.dat (op.out o)).nc, ∑ n ∈ range (S.dat (op.out o)).es,
      ∑ m ∈ range (S.dat (op.out o)).es, if (S.dat (op.out o)).lidx e m k = t then (S.dat (op.out o)).coef e n m *
        ∑ k' ∈ range (S.dat (op.inp i)).nc, ∑ n' ∈ range (S.dat (op.inp i)).es,
          S.kern op v o i e k n k' n' * (S.dat (op.inp i)).row (fun x => if x = t then 1 else 0) e k' n' else 0) = 0 := by
  refine sum_eq_zero (fun e he => sum_eq_zero (fun k hk => sum_eq_zero (fun n hn => sum_eq_zero (fun m hm => ?_))))
  rw [mem_range] at he hk hn hm
  split
  · rename_i ht
    rw [sum_eq_zero, mul_zero]
    intro k' hk'
    refine sum_eq_zero (fun n' _ => ?_)
    unfold RData.row
    rw [sum_eq_zero, mul_zero]
    intro m' hm'
    have hz : (S.dat (op.inp i)).lidx e m' k' ≠ t := by rw [← ht]; exact fun hh => hap e he m hm m' (mem_range.1 hm') k hk k' (mem_range.1 hk') hh.symm
    simp [hz]
  · rfl

theorem DiagOK.dat {op : Oper α} {p : Prec α} {S : Meaning α} (hd : DiagOK op p S) {i o : Nat} (hi : i < op.nin)
    (ho : o < op.nout) (ha : (op.inp i).vec = .active) (hao : (op.out o).vec = .active) (hb : p.inB i = p.outB o) :
    S.dat (op.out o) = S.dat (op.inp i) := by
  unfold Meaning.dat
  rw [(hd.same i hi o ho ha hao hb).1]

/-- Signs of the restriction of an input that shares its basis with an output. -/
theorem DiagOK.signs {op : Oper α} {p : Prec α} {S : Meaning α} (h : OpOK op S) (hd : DiagOK op p S) {i o : Nat}
    (hi : i < op.nin) (ho : o < op.nout) (ha : (op.inp i).vec = .active) (hao : (op.out o).vec = .active)
    (hb : p.inB i = p.outB o) : ∃ σ : Nat → Nat → α,
      (∀ e n m, (S.dat (op.inp i)).coef e n m = σ e n * Restriction.idCoef n m) ∧ ∀ e n, σ e n * σ e n = 1 := by
  obtain ⟨r, l, hr, hm, _⟩ := ((h.inp i hi).active ha).1
  obtain ⟨D', σ, _, _, _, _, _, _, h1, h2⟩ := unsigned_rep hm ((hd.same i hi o ho ha hao hb).2.1 r hr)
  refine ⟨σ, ?_, h2⟩
  unfold Meaning.dat; rw [hr]; exact h1

/-- The diagonal of the matrix. -/
theorem form_diag {op : Oper α} {p : Prec α} {S : Meaning α} (h : OpOK op S) (hd : DiagOK op p S) (v : Buf α) (t : Nat) :
    S.form op v (fun x => if x = t then 1 else 0) t = ∑ o ∈ range op.nout, if (op.out o).vec = .active then
      ∑ i ∈ range op.nin, if (op.inp i).vec = .active then if p.inB i = p.outB o then nodal op S v o i t t else 0 else 0
      else 0 := by
  rw [form_pairs]
  refine sum_congr rfl (fun o ho => ?_)
  rw [mem_range] at ho
  split
  · rename_i hao
    refine sum_congr rfl (fun i hi => ?_)
    rw [mem_range] at hi
    split
    · rename_i ha
      split
      · rename_i hb
        obtain ⟨σ, s1, s2⟩ := hd.signs h hi ho ha hao hb
        refine pair_same (hd.dat hi ho ha hao hb) s1 s2 ?_
        intro e he m hm m' hm' k hk k' hk' e1 e2
        exact ((hd.same i hi o ho ha hao hb).2.2 e he m hm m' hm' k hk k' hk' (e1.trans e2.symm)).1
      · rename_i hb
        exact pair_apart (hd.apart i hi o ho ha hao hb)
    · rfl
  · rfl

/-! ## Adding to a vector -/

/-- `C` has been added to vector `out`; its state counter advances unless nothing happened. -/
def Plus (out : Nat) (C : Nat → α) (s s' : ASt α) : Prop :=
  ((∀ t, C t = 0) ∧ s' = s) ∨
  ∃ k, 0 < k ∧ s' = { s with st := { s.st with vecs := Function.update s.st.vecs out ⟨(s.st.vecs out).state + k, true,
    ⟨(s.st.vecs out).buf.len, fun t => (s.st.vecs out).buf.val t + C t⟩⟩ } }

theorem Plus.zero {out : Nat} {s : ASt α} : Plus out (fun _ => 0) s s := Or.inl ⟨fun _ => rfl, rfl⟩

theorem Plus.congr {out : Nat} {C C' : Nat → α} {s s' : ASt α} (h : Plus out C s s') (e : ∀ t, C t = C' t) :
    Plus out C' s s' := by
  have : C = C' := funext e
  rwa [← this]

theorem Plus.trans {out : Nat} {C C' : Nat → α} {s s' s'' : ASt α} (h : Plus out C s s') (h' : Plus out C' s' s'') :
    Plus out (fun t => C t + C' t) s s'' := by
  rcases h with ⟨h, rfl⟩ | ⟨k, hk, rfl⟩
  · exact h'.congr (fun t => by rw [h, zero_add])
  · rcases h' with ⟨h', rfl⟩ | ⟨k', hk', rfl⟩
    · exact Or.inr ⟨k, hk, by simp only [h', add_zero]⟩
    · refine Or.inr ⟨k + k', by omega, ?_⟩
      simp only [Function.update_self, Function.update_idem, add_assoc]

theorem Plus.vec {out : Nat} {C : Nat → α} {s s' : ASt α} (h : Plus out C s s') (t : Nat) :
    s'.st.L out t = s.st.L out t + C t := by
  rcases h with ⟨h, rfl⟩ | ⟨k, hk, rfl⟩
  · rw [h, add_zero]
  · simp [St.L]

theorem Plus.adv {out : Nat} {C : Nat → α} {s s' : ASt α} (h : Plus out C s s') :
    Advances s.st.vecs s'.st.vecs ∧ s' = { s with st := { s.st with vecs := s'.st.vecs } } := by
  rcases h with ⟨h, rfl⟩ | ⟨k, hk, rfl⟩
  · exact ⟨fun _ => ⟨rfl, Or.inl rfl⟩, rfl⟩
  · refine ⟨fun i => ?_, rfl⟩
    by_cases hi : i = out
    · subst hi
      simp only [Function.update_self]
      exact ⟨trivial, Or.inr (by omega)⟩
    · simp only [Function.update_of_ne hi]
      exact ⟨trivial, Or.inl trivial⟩

theorem Plus.other {out : Nat} {C : Nat → α} {s s' : ASt α} (h : Plus out C s s') {w : Nat} (hw : w ≠ out) :
    s'.st.vecs w = s.st.vecs w := by
  rcases h with ⟨h, rfl⟩ | ⟨k, hk, rfl⟩
  · rfl
  · simp [Function.update_of_ne hw]

/-- The vector can be added into. -/
def CanAdd (s : ASt α) (out : Nat) (l : Int) : Prop := (s.st.vecs out).valid = true ∧ l ≤ (s.st.vecs out).buf.len

theorem Plus.canAdd {out : Nat} {C : Nat → α} {s s' : ASt α} {l : Int} (h : Plus out C s s') (hc : CanAdd s out l) :
    CanAdd s' out l := by
  rcases h with ⟨h, rfl⟩ | ⟨k, hk, rfl⟩
  · exact hc
  · exact ⟨by simp, by simp [hc.2]⟩

theorem forEach_plus {β : Type} {l : List β} {body : β → M (ASt α) Unit} {out : Nat} {len : Int} {C : β → Nat → α}
    (hb : ∀ x ∈ l, ∀ s, CanAdd s out len → ∃ s', body x s = .ok s' () ∧ Plus out (C x) s s') {s : ASt α}
    (hs : CanAdd s out len) : ∃ s', forEach l body s = .ok s' () ∧ Plus out (fun t => (l.map (fun x => C x t)).sum) s s' := by
  induction l generalizing s with
  | nil => exact ⟨s, rfl, Plus.zero⟩
  | cons x l ih =>
    obtain ⟨s1, e1, h1⟩ := hb x (by simp) s hs
    obtain ⟨s2, e2, h2⟩ := ih (fun y hy => hb y (by simp [hy])) (h1.canAdd hs)
    refine ⟨s2, ?_, (h1.trans h2).congr (fun t => by simp)⟩
    unfold forEach
    rw [M.bind_apply, e1, Out.bind_ok, e2]

theorem forEach_err {β : Type} {l : List β} {body : β → M (ASt α) Unit} {s : ASt α} (hl : l ≠ [])
    (hb : ∀ x ∈ l, ∃ c, body x s = .err s c) : ∃ c, forEach l body s = .err s c := by
  cases l with
  | nil => exact absurd rfl hl
  | cons x l =>
    obtain ⟨c, e⟩ := hb x (by simp)
    refine ⟨c, ?_⟩
    unfold forEach
    rw [M.bind_apply, e, Out.bind_err]

/-- Adding a transposed restriction. -/
theorem scatterAs_ok {var : Variant} {r : Rstr} {D : RData α} (hr : Rep r var D) {w : Buf α} (hw : r.eSize ≤ w.len)
    {out : Nat} {s : ASt α} (hs : CanAdd s out r.lSize) :
    ∃ s', liftS (scatterAs var r w out) s = .ok s' () ∧ Plus out (D.scatter r.blockSize w.val) s s' := by
  have e := hr.apply_t (u := w) (v := (s.st.vecs out).buf) hw hs.2
  refine ⟨_, liftS_ok ?_, Or.inr ⟨2, by omega, rfl⟩⟩
  unfold scatterAs
  rw [if_pos hs.1, e]

theorem scatterAs_err {var : Variant} {r : Rstr} {w : Buf α} {out : Nat} {s : ASt α} (hs : ¬ CanAdd s out r.lSize) :
    ∃ c, liftS (scatterAs var r w out) s = .err s c := by
  unfold liftS scatterAs
  by_cases hv : (s.st.vecs out).valid = true
  · have : ((s.st.vecs out).buf.len : Int) < r.lSize := by
      by_contra hh
      exact hs ⟨hv, by omega⟩
    refine ⟨.dimension, ?_⟩
    rw [if_pos hv, Restriction.apply_short r var .transpose w _ (Or.inr this)]
  · refine ⟨.backend, ?_⟩
    rw [if_neg hv]

end Operator
end Verif
