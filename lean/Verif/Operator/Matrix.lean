import Verif.Operator.MatrixSpec
import Verif.Operator.AssembleProps

/-!
# The matrix of an operator in terms of its assembled QFunction
-/

namespace Verif
namespace Operator

open Finset
open Restriction (RData)
open Basis (Bas EMode)

variable {α : Type} [CommRing α]

set_option linter.unusedSectionVars false

/-- Matrix of an input in its mode. -/
def Meaning.bIn (S : Meaning α) (op : Oper α) (i c q n : Nat) : α :=
  if (op.inp i).mode = .none then (if n = q then 1 else 0)
  else (S.mIn i).val ((c * op.Q + q) * (S.dat (op.inp i)).es + n)

/-- Matrix of an output in its mode. -/
def Meaning.bOut (S : Meaning α) (op : Oper α) (o c q n : Nat) : α :=
  if (op.out o).mode = .none then (if n = q then 1 else 0)
  else (S.mOut o).val ((c * op.Q + q) * (S.dat (op.out o)).es + n)

/-- Element matrix of an input and an output. -/
def Meaning.kern (S : Meaning α) (op : Oper α) (v : Buf α) (o i e k n k' n' : Nat) : α :=
  ∑ c ∈ range (op.out o).qc, ∑ c' ∈ range (op.inp i).qc, ∑ q ∈ range op.Q,
    S.bOut op o c q n * v.val (op.apos e i (c' * (S.dat (op.inp i)).nc + k') o (c * (S.dat (op.out o)).nc + k) q) *
      S.bIn op i c' q n'

theorem qc_none {a : OField α} (h : a.mode = .none) : a.qc = 1 := by
  unfold OField.qc
  split
  · rw [h]; rfl
  · rfl

/-- What is used of an active input. -/
theorem InOK.active {op : Oper α} {S : Meaning α} {i : Nat} (h : InOK op S i) (ha : (op.inp i).vec = .active) :
    HasRstr op S (op.inp i) ∧ (op.inp i).size = (op.inp i).qc * (S.dat (op.inp i)).nc ∧ (op.inp i).mode ≠ .weight ∧
    ((op.inp i).mode = .none → (S.dat (op.inp i)).es = op.Q) := by
  unfold InOK at h
  rcases hm : (op.inp i).mode with _ | _ | _ | _ | _ | _ <;> simp only [hm] at h
  case none => exact ⟨h.1, by rw [qc_none hm, h.2.2, one_mul], by simp, fun _ => h.2.1⟩
  case weight => rw [ha] at h; exact absurd h.1 (by simp)
  all_goals
    obtain ⟨h1, b, ⟨f1, _, _, _, f5⟩, _⟩ := h
    refine ⟨h1, ?_, by simp, fun hh => by simp at hh⟩
    rw [f5, Nat.mul_comm]; simp only [OField.qc, f1]

theorem OutOK.active {op : Oper α} {S : Meaning α} {o : Nat} (h : OutOK op S o) :
    HasRstr op S (op.out o) ∧ (op.out o).size = (op.out o).qc * (S.dat (op.out o)).nc ∧ (op.out o).mode ≠ .weight ∧
    ((op.out o).mode = .none → (S.dat (op.out o)).es = op.Q) := by
  unfold OutOK at h
  rcases hm : (op.out o).mode with _ | _ | _ | _ | _ | _ <;> simp only [hm] at h
  case none => exact ⟨h.1, by rw [qc_none hm, h.2.2, one_mul], by simp, fun _ => h.2.1⟩
  all_goals
    obtain ⟨h1, b, ⟨f1, _, _, _, f5⟩, _⟩ := h
    refine ⟨h1, ?_, by simp, fun hh => by simp at hh⟩
    rw [f5, Nat.mul_comm]; simp only [OField.qc, f1]

theorem dec3 {nc Q c k q : Nat} (hk : k < nc) (hq : q < Q) :
    ((c * nc + k) * Q + q) / Q = c * nc + k ∧ ((c * nc + k) * Q + q) % Q = q ∧ (c * nc + k) / nc = c ∧
      (c * nc + k) % nc = k := by
  have e1 : ((c * nc + k) * Q + q) / Q = c * nc + k := by
    rw [Nat.mul_comm, Nat.mul_add_div (by omega), Nat.div_eq_of_lt hq, Nat.add_zero]
  have e2 : ((c * nc + k) * Q + q) % Q = q := by rw [Nat.mul_comm, Nat.mul_add_mod, Nat.mod_eq_of_lt hq]
  have e3 : (c * nc + k) / nc = c := by
    rw [Nat.mul_comm, Nat.mul_add_div (by omega), Nat.div_eq_of_lt hk, Nat.add_zero]
  have e4 : (c * nc + k) % nc = k := by rw [Nat.mul_comm, Nat.mul_add_mod, Nat.mod_eq_of_lt hk]
  exact ⟨e1, e2, e3, e4⟩

theorem inVal_eq {op : Oper α} {S : Meaning α} {i : Nat} (h : InOK op S i) (ha : (op.inp i).vec = .active)
    (L : Nat → Nat → α) (inv : VPtr) (e : Nat) {c k q : Nat} (hc : c < (op.inp i).qc) (hk : k < (S.dat (op.inp i)).nc)
    (hq : q < op.Q) :
    S.inVal op L inv e i ((c * (S.dat (op.inp i)).nc + k) * op.Q + q) =
      ∑ n ∈ range (S.dat (op.inp i)).es, S.bIn op i c q n * (S.dat (op.inp i)).row (cont L inv) e k n := by
  obtain ⟨_, _, hw, hn⟩ := h.active ha
  obtain ⟨d1, d2, d3, d4⟩ := dec3 (c := c) hk hq
  have hp : (op.inp i).vec.ptr inv = inv := by rw [ha]; rfl
  unfold Meaning.inVal Meaning.bIn
  simp only [hp, d1, d2, d3, d4]
  by_cases hm : (op.inp i).mode = .none
  · have hc0 : c = 0 := by rw [qc_none hm] at hc; omega
    subst hc0
    simp only [hm, if_true]
    rw [sum_eq_single q]
    · simp
    · intro n _ hne; rw [if_neg hne, zero_mul]
    · intro hh; exact absurd (mem_range.2 (by rw [hn hm]; exact hq)) hh
  · simp only [if_neg hm]

theorem sum_mul_range (a b : Nat) (f : Nat → α) :
    ∑ x ∈ range (a * b), f x = ∑ c ∈ range a, ∑ k ∈ range b, f (c * b + k) := by
  induction a with
  | zero => simp
  | succ a ih => rw [Nat.succ_mul, sum_range_add, ih, sum_range_succ]

theorem elemOut_eq {op : Oper α} {S : Meaning α} {o : Nat} (h : OutOK op S o) (L : Nat → Nat → α) (inv : VPtr) (e : Nat)
    {k n : Nat} (hn : n < (S.dat (op.out o)).es) :
    S.elemOut op L inv o e k n = ∑ c ∈ range (op.out o).qc, ∑ q ∈ range op.Q, S.bOut op o c q n *
      S.outArr op L inv e o ((c * (S.dat (op.out o)).nc + k) * op.Q + q) := by
  obtain ⟨_, _, hw, hn'⟩ := h.active
  unfold Meaning.elemOut Meaning.bOut
  by_cases hm : (op.out o).mode = .none
  · simp only [hm, if_true]
    rw [qc_none hm, sum_range_one, sum_eq_single n]
    · simp
    · intro q _ hne; rw [if_neg (fun hh => hne hh.symm), zero_mul]
    · intro hh; exact absurd (mem_range.2 (by rw [← hn' hm]; exact hn)) hh
  · simp only [if_neg hm]

/-- The columns do not depend on vectors that are not set in the operator. -/
theorem mix_fresh (S : Meaning α) (op : Oper α) {L L' : Nat → Nat → α} {iv : Nat}
    (hiv : ∀ i < op.nin, (op.inp i).vec ≠ .vec iv) (hL : ∀ v, v ≠ iv → L' v = L v) (e : Nat) (a : Nat → Nat → α) :
    S.mix op L' e a = S.mix op L e a := by
  funext i x
  unfold Meaning.mix
  split
  · rename_i hi
    split
    · rfl
    · rename_i hna
      unfold Meaning.inVal
      have hc : cont L' ((op.inp i).vec.ptr .null) = cont L ((op.inp i).vec.ptr .null) := by
        rcases hv : (op.inp i).vec with _ | _ | v
        · rfl
        · rfl
        · simp only [FVec.ptr, cont]
          exact hL v (fun hh => hiv i hi.1 (by rw [hv, hh]))
      simp only [hc]
  · rfl

theorem Columns.fresh {op : Oper α} {S : Meaning α} {L L' : Nat → Nat → α} {iv : Nat} {v : Buf α}
    (hv : Columns op S L v) (hiv : ∀ i < op.nin, (op.inp i).vec ≠ .vec iv) (hL : ∀ v, v ≠ iv → L' v = L v) :
    Columns op S L' v := by
  refine ⟨hv.1, ?_⟩
  intro e he i hi ha c hc o ho hao d hd q hq
  rw [mix_fresh S op hiv hL]
  exact hv.2 e he i hi ha c hc o ho hao d hd q hq

/-- What the operator computes on one element, as a linear function of the nodal values. -/
theorem elemOut_kern {op : Oper α} {S : Meaning α} (h : OpOK op S) (hlin : LinearQF op) {L : Nat → Nat → α} {v : Buf α}
    (hv : Columns op S L v) (inv : VPtr) {o e k n : Nat} (ho : o < op.nout) (hao : (op.out o).vec = .active)
    (he : e < op.ne) (hk : k < (S.dat (op.out o)).nc) (hn : n < (S.dat (op.out o)).es) :
    S.elemOut op L inv o e k n = ∑ i ∈ range op.nin, if (op.inp i).vec = .active then
      ∑ k' ∈ range (S.dat (op.inp i)).nc, ∑ n' ∈ range (S.dat (op.inp i)).es,
        S.kern op v o i e k n k' n' * (S.dat (op.inp i)).row (cont L inv) e k' n' else 0 := by
  obtain ⟨_, hsz, _, _⟩ := (h.out o ho).active
  rw [elemOut_eq (h.out o ho) L inv e hn]
  have hstep : ∀ c ∈ range (op.out o).qc, ∀ q ∈ range op.Q,
      S.outArr op L inv e o ((c * (S.dat (op.out o)).nc + k) * op.Q + q) =
      ∑ i ∈ range op.nin, if (op.inp i).vec = .active then
        ∑ c' ∈ range (op.inp i).qc, ∑ k' ∈ range (S.dat (op.inp i)).nc,
          v.val (op.apos e i (c' * (S.dat (op.inp i)).nc + k') o (c * (S.dat (op.out o)).nc + k) q) *
            ∑ n' ∈ range (S.dat (op.inp i)).es, S.bIn op i c' q n' * (S.dat (op.inp i)).row (cont L inv) e k' n'
        else 0 := by
    intro c hc q hq
    rw [mem_range] at hc hq
    rw [C43_apply hlin hv inv he ho hao (by rw [hsz]; exact enc_lt hc hk) hq]
    refine sum_congr rfl (fun i hi => ?_)
    split
    · rename_i ha
      obtain ⟨_, hsi, _, _⟩ := (h.inp i (mem_range.1 hi)).active ha
      rw [hsi, sum_mul_range]
      refine sum_congr rfl (fun c' hc' => sum_congr rfl (fun k' hk' => ?_))
      rw [inVal_eq (h.inp i (mem_range.1 hi)) ha L inv e (mem_range.1 hc') (mem_range.1 hk') hq]
    · rfl
  rw [sum_congr rfl (fun c hc => sum_congr rfl (fun q hq => by rw [hstep c hc q hq]))]
  simp only [mul_sum]
  -- bring the sum over inputs to the front
  rw [sum_congr rfl (fun c _ => sum_comm), sum_comm]
  refine sum_congr rfl (fun i _ => ?_)
  by_cases ha : (op.inp i).vec = .active
  · simp only [if_pos ha]
    simp only [Meaning.kern, sum_mul, mul_sum]
    -- both sides are sums over c, q, c', k', n'
    have lhs : ∀ c q, (∑ c' ∈ range (op.inp i).qc, ∑ k' ∈ range (S.dat (op.inp i)).nc,
        ∑ n' ∈ range (S.dat (op.inp i)).es, S.bOut op o c q n *
          (v.val (op.apos e i (c' * (S.dat (op.inp i)).nc + k') o (c * (S.dat (op.out o)).nc + k) q) *
            (S.bIn op i c' q n' * (S.dat (op.inp i)).row (cont L inv) e k' n'))) =
        ∑ k' ∈ range (S.dat (op.inp i)).nc, ∑ n' ∈ range (S.dat (op.inp i)).es, ∑ c' ∈ range (op.inp i).qc,
          S.bOut op o c q n * v.val (op.apos e i (c' * (S.dat (op.inp i)).nc + k') o (c * (S.dat (op.out o)).nc + k) q) *
            S.bIn op i c' q n' * (S.dat (op.inp i)).row (cont L inv) e k' n' := by
      intro c q
      rw [sum_comm]
      refine sum_congr rfl (fun k' _ => ?_)
      rw [sum_comm]
      refine sum_congr rfl (fun n' _ => sum_congr rfl (fun c' _ => by ring))
    simp only [lhs]
    rw [sum_congr rfl (fun c _ => sum_comm), sum_comm]
    refine sum_congr rfl (fun k' _ => ?_)
    rw [sum_congr rfl (fun c _ => sum_comm), sum_comm]
    refine sum_congr rfl (fun n' _ => sum_congr rfl (fun c _ => ?_))
    rw [sum_comm]
  · simp only [if_neg ha, mul_zero, sum_const_zero]

/-- The action on the active input `u`. -/
def Meaning.form (S : Meaning α) (op : Oper α) (v : Buf α) (u : Nat → α) (t : Nat) : α :=
  ∑ o ∈ range op.nout, if (op.out o).vec = .active then
    ∑ e ∈ range op.ne, ∑ k ∈ range (S.dat (op.out o)).nc, ∑ n ∈ range (S.dat (op.out o)).es,
      ∑ m ∈ range (S.dat (op.out o)).es, if (S.dat (op.out o)).lidx e m k = t then
        (S.dat (op.out o)).coef e n m * ∑ i ∈ range op.nin, if (op.inp i).vec = .active then
          ∑ k' ∈ range (S.dat (op.inp i)).nc, ∑ n' ∈ range (S.dat (op.inp i)).es,
            S.kern op v o i e k n k' n' * (S.dat (op.inp i)).row u e k' n' else 0
      else 0
  else 0

theorem HasRstr.ne {op : Oper α} {S : Meaning α} {a : OField α} (h : HasRstr op S a) : (S.dat a).ne = op.ne := by
  obtain ⟨r, _, hr, _, hn⟩ := h
  unfold Meaning.dat; rw [hr]; exact hn

theorem action_form {op : Oper α} {S : Meaning α} (h : OpOK op S) (hlin : LinearQF op) {L : Nat → Nat → α} {v : Buf α}
    (hv : Columns op S L v) {iv ov : Nat} (hiv : ∀ i < op.nin, (op.inp i).vec ≠ .vec iv)
    (hov : ∀ o < op.nout, (op.out o).vec ≠ .vec ov) (u : Nat → α) (t : Nat) :
    S.action op (Function.update L iv u) (.vec iv) (.vec ov) ov t = S.form op v u t := by
  have hv' : Columns op S (Function.update L iv u) v :=
    hv.fresh hiv (fun w hw => Function.update_of_ne hw _ _)
  have hu : cont (Function.update L iv u) (.vec iv) = u := by simp [cont]
  unfold Meaning.action Meaning.form
  refine sum_congr rfl (fun o ho => ?_)
  rw [mem_range] at ho
  by_cases ha : (op.out o).vec = .active
  · rw [if_pos ha, if_pos (by rw [ha]; rfl)]
    unfold Meaning.adds
    simp only [(h.out o ho).active.1.ne]
    refine sum_congr rfl (fun e he => sum_congr rfl (fun k hk => sum_congr rfl (fun n hn => sum_congr rfl (fun m _ => ?_))))
    rw [mem_range] at he hk hn
    rw [elemOut_kern h hlin hv' (.vec iv) ho ha he hk hn, hu]
  · rw [if_neg ha, if_neg]
    intro hh
    rcases hvv : (op.out o).vec with _ | _ | w
    · exact ha hvv
    · rw [hvv] at hh; simp [FVec.ptr] at hh
    · rw [hvv] at hh
      simp only [FVec.ptr, VPtr.vec.injEq] at hh
      exact hov o ho (by rw [hvv, hh])

/-- There are vectors not set in the operator. -/
theorem exists_fresh (f : Nat → OField α) (n : Nat) : ∃ v, ∀ i < n, (f i).vec ≠ .vec v := by
  have : ∃ b, ∀ i < n, ∀ v, (f i).vec = .vec v → v < b := by
    induction n with
    | zero => exact ⟨0, fun i hi => absurd hi (by omega)⟩
    | succ n ih =>
      obtain ⟨b, hb⟩ := ih
      rcases hv : (f n).vec with _ | _ | w
      · refine ⟨b, fun i hi v hh => ?_⟩
        rcases Nat.lt_succ_iff_lt_or_eq.1 hi with h1 | h1
        · exact hb i h1 v hh
        · subst h1; rw [hv] at hh; cases hh
      · refine ⟨b, fun i hi v hh => ?_⟩
        rcases Nat.lt_succ_iff_lt_or_eq.1 hi with h1 | h1
        · exact hb i h1 v hh
        · subst h1; rw [hv] at hh; cases hh
      · refine ⟨max b (w + 1), fun i hi v hh => ?_⟩
        rcases Nat.lt_succ_iff_lt_or_eq.1 hi with h1 | h1
        · exact lt_of_lt_of_le (hb i h1 v hh) (Nat.le_max_left _ _)
        · subst h1; rw [hv] at hh; cases hh; exact lt_of_lt_of_le (Nat.lt_succ_self w) (Nat.le_max_right _ _)
  obtain ⟨b, hb⟩ := this
  exact ⟨b, fun i hi hh => absurd (hb i hi b hh) (Nat.lt_irrefl b)⟩

/-- The entries of the matrix. -/
theorem IsMatrix.entry {op : Oper α} {S : Meaning α} (h : OpOK op S) (hlin : LinearQF op) {L : Nat → Nat → α} {v : Buf α}
    (hv : Columns op S L v) {n : Nat} {A : Nat → Nat → α} (hA : IsMatrix op S L n A) (t : Nat) {s : Nat} (hs : s < n) :
    A t s = S.form op v (fun x => if x = s then 1 else 0) t := by
  obtain ⟨iv, hiv⟩ := exists_fresh op.inp op.nin
  obtain ⟨ov, hov⟩ := exists_fresh op.out op.nout
  have := hA iv ov hiv hov (fun x => if x = s then 1 else 0) t
  rw [action_form h hlin hv hiv hov] at this
  rw [this, sum_eq_single s]
  · simp
  · intro x _ hx; simp [hx]
  · intro hh; exact absurd (mem_range.2 hs) hh

/-! ## Existence of the matrix -/

/-- The values on unit inputs can always be collected in an array. -/
theorem exists_columns (op : Oper α) (S : Meaning α) (L : Nat → Nat → α) : ∃ v, Columns op S L v := by
  classical
  let P : Nat → (Nat × Nat × Nat × Nat × Nat × Nat) → Prop := fun x w => w.1 < op.ne ∧ w.2.1 < op.nin ∧
    (op.inp w.2.1).vec = .active ∧ w.2.2.1 < (op.inp w.2.1).size ∧ w.2.2.2.1 < op.nout ∧
    (op.out w.2.2.2.1).vec = .active ∧ w.2.2.2.2.1 < (op.out w.2.2.2.1).size ∧ w.2.2.2.2.2 < op.Q ∧
    op.apos w.1 w.2.1 w.2.2.1 w.2.2.2.1 w.2.2.2.2.1 w.2.2.2.2.2 = x
  refine ⟨⟨op.ne * op.Q * op.cIn * op.cOut, fun x => if h : ∃ w, P x w then
    op.eval (S.mix op L h.choose.1 (unit op h.choose.2.1 h.choose.2.2.1)) h.choose.2.2.2.1
      (h.choose.2.2.2.2.1 * op.Q + h.choose.2.2.2.2.2) else 0⟩, rfl, ?_⟩
  intro e he i hi ha c hc o ho hao d hd q hq
  have hP : ∃ w, P (op.apos e i c o d q) w := ⟨(e, i, c, o, d, q), he, hi, ha, hc, ho, hao, hd, hq, rfl⟩
  simp only [dif_pos hP]
  obtain ⟨w1, w2, w3, w4, w5, w6, w7, w8, w9⟩ := hP.choose_spec
  obtain ⟨r1, r2, r3, r4, r5, r6⟩ := C43_layout w2 w3 w4 w5 w6 w7 w8 hi ha hc ho hao hd hq w9
  rw [r1, r2, r3, r4, r5, r6]

theorem form_add (S : Meaning α) (op : Oper α) (v : Buf α) (u u' : Nat → α) (t : Nat) :
    S.form op v (fun x => u x + u' x) t = S.form op v u t + S.form op v u' t := by
  unfold Meaning.form
  rw [← sum_add_distrib]
  refine sum_congr rfl (fun o _ => ?_)
  by_cases hA : (op.out o).vec = .active
  swap
  · rw [if_neg hA, if_neg hA, if_neg hA, add_zero]
  rw [if_pos hA, if_pos hA, if_pos hA]
  clear hA
  rw [← sum_add_distrib]
  refine sum_congr rfl (fun e _ => ?_)
  rw [← sum_add_distrib]
  refine sum_congr rfl (fun k _ => ?_)
  rw [← sum_add_distrib]
  refine sum_congr rfl (fun n _ => ?_)
  rw [← sum_add_distrib]
  refine sum_congr rfl (fun m _ => ?_)
  by_cases hA : (S.dat (op.out o)).lidx e m k = t
  swap
  · rw [if_neg hA, if_neg hA, if_neg hA, add_zero]
  rw [if_pos hA, if_pos hA, if_pos hA]
  clear hA
  rw [← mul_add, ← sum_add_distrib]
  congr 1
  refine sum_congr rfl (fun i _ => ?_)
  by_cases hA : (op.inp i).vec = .active
  swap
  · rw [if_neg hA, if_neg hA, if_neg hA, add_zero]
  rw [if_pos hA, if_pos hA, if_pos hA]
  clear hA
  rw [← sum_add_distrib]
  refine sum_congr rfl (fun k' _ => ?_)
  rw [← sum_add_distrib]
  refine sum_congr rfl (fun n' _ => ?_)
  rw [← mul_add]
  congr 1
  unfold Restriction.RData.row
  rw [← sum_add_distrib]
  exact sum_congr rfl (fun _ _ => mul_add _ _ _)

theorem form_smul (S : Meaning α) (op : Oper α) (v : Buf α) (c : α) (u : Nat → α) (t : Nat) :
    S.form op v (fun x => u x * c) t = S.form op v u t * c := by
  unfold Meaning.form
  rw [sum_mul]
  refine sum_congr rfl (fun o _ => ?_)
  by_cases hA : (op.out o).vec = .active
  swap
  · rw [if_neg hA, if_neg hA, zero_mul]
  rw [if_pos hA, if_pos hA]
  clear hA
  simp only [sum_mul]
  refine sum_congr rfl (fun e _ => sum_congr rfl (fun k _ => sum_congr rfl (fun n _ => sum_congr rfl (fun m _ => ?_))))
  by_cases hA : (S.dat (op.out o)).lidx e m k = t
  swap
  · rw [if_neg hA, if_neg hA, zero_mul]
  rw [if_pos hA, if_pos hA]
  clear hA
  rw [mul_assoc, sum_mul]
  congr 1
  refine sum_congr rfl (fun i _ => ?_)
  by_cases hA : (op.inp i).vec = .active
  swap
  · rw [if_neg hA, if_neg hA, zero_mul]
  rw [if_pos hA, if_pos hA]
  clear hA
  simp only [sum_mul]
  refine sum_congr rfl (fun k' _ => sum_congr rfl (fun n' _ => ?_))
  rw [mul_assoc]
  congr 1
  unfold Restriction.RData.row
  rw [sum_mul]
  exact sum_congr rfl (fun _ _ => (mul_assoc _ _ _).symm)

theorem form_congr (S : Meaning α) (op : Oper α) (v : Buf α) {u u' : Nat → α} (hu : ∀ i < op.nin,
    (op.inp i).vec = .active → ∀ e < op.ne, ∀ m < (S.dat (op.inp i)).es, ∀ k < (S.dat (op.inp i)).nc,
      u ((S.dat (op.inp i)).lidx e m k) = u' ((S.dat (op.inp i)).lidx e m k)) (t : Nat) :
    S.form op v u t = S.form op v u' t := by
  unfold Meaning.form
  refine sum_congr rfl (fun o _ => ?_)
  split
  swap
  · rfl
  refine sum_congr rfl (fun e he => sum_congr rfl (fun k _ => sum_congr rfl (fun n _ => sum_congr rfl (fun m _ => ?_))))
  split
  swap
  · rfl
  congr 1
  refine sum_congr rfl (fun i hi => ?_)
  split
  swap
  · rfl
  rename_i ha
  refine sum_congr rfl (fun k' hk' => sum_congr rfl (fun n' _ => ?_))
  congr 1
  unfold Restriction.RData.row
  refine sum_congr rfl (fun m' hm' => ?_)
  rw [hu i (mem_range.1 hi) ha e (mem_range.1 he) m' (mem_range.1 hm') k' (mem_range.1 hk')]

theorem form_sum (S : Meaning α) (op : Oper α) (v : Buf α) (u : Nat → α) (t n : Nat) :
    S.form op v (fun x => if x < n then u x else 0) t =
      ∑ s ∈ range n, S.form op v (fun x => if x = s then 1 else 0) t * u s := by
  induction n with
  | zero =>
    have := form_smul S op v 0 u t
    simp only [mul_zero] at this
    simpa using this
  | succ n ih =>
    rw [sum_range_succ, ← ih, ← form_smul, ← form_add]
    congr 1
    funext x
    by_cases hx : x = n
    · subst hx; simp
    · have : x < n + 1 ↔ x < n := by omega
      simp [hx, this]

/-- A linear operator has a matrix; its entries are given by the element matrices. -/
theorem isMatrix_form {op : Oper α} {S : Meaning α} (h : OpOK op S) (hlin : LinearQF op) {L : Nat → Nat → α} {v : Buf α}
    (hv : Columns op S L v) {n : Nat}
    (hn : ∀ i < op.nin, (op.inp i).vec = .active → ∀ r, (op.inp i).rid = some r → (op.rstrs r).lSize ≤ n) :
    IsMatrix op S L n (fun t s => S.form op v (fun x => if x = s then 1 else 0) t) := by
  intro iv ov hiv hov u t
  rw [action_form h hlin hv hiv hov, ← form_sum]
  refine form_congr S op v ?_ t
  intro i hi ha e he m hm k hk
  obtain ⟨r, l, hr, hm', hne⟩ := ((h.inp i hi).active ha).1
  have hD : S.dat (op.inp i) = S.D r := by unfold Meaning.dat; rw [hr]; rfl
  rw [hD] at hm hk ⊢
  have h1 := hm'.rep.1.rng e (by omega) m hm k hk
  have h2 := hn i hi ha r hr
  rw [if_pos (by omega)]

end Operator
end Verif
