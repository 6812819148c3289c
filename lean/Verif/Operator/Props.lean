import Verif.Operator.Apply

/-!
# Properties of operator application (C37, C39, C40)
-/

set_option linter.unusedSectionVars false

namespace Verif
namespace Operator

open Finset
open Restriction (RData Made Rstr)
open Basis (Bas EMode)

variable {α : Type} [CommRing α]

/-! ## Histories -/

theorem action_empty {op : Oper α} {S : Meaning α} (h : OpOK op S) (hne : op.ne = 0) (L : Nat → Nat → α)
    (inv outv : VPtr) (v t : Nat) : S.action op L inv outv v t = 0 := by
  unfold Meaning.action
  refine sum_eq_zero (fun o ho => ?_)
  obtain ⟨r, _, _, _, h1, _⟩ := (h.out_rstr (mem_range.1 ho)).rep
  split
  · unfold Meaning.adds
    simp only [show (S.dat (op.out o)).ne = 0 by omega, range_zero, sum_empty]
  · rfl

/-- The action depends on the vectors that are read only. -/
theorem action_congr {op : Oper α} {S : Meaning α} {L L' : Nat → Nat → α} {inv : VPtr}
    (hL : ∀ i < op.nin, (op.inp i).mode ≠ .weight → cont L ((op.inp i).vec.ptr inv) = cont L' ((op.inp i).vec.ptr inv))
    (outv : VPtr) (v t : Nat) : S.action op L inv outv v t = S.action op L' inv outv v t := by
  have hin : ∀ e, S.inArr op L inv e = S.inArr op L' inv e := by
    intro e
    funext i x
    unfold Meaning.inArr
    split
    · rename_i hh
      unfold Meaning.inVal
      by_cases hw : (op.inp i).mode = .weight
      · simp only [hw]
      · simp only [hL i hh.1 hw]
    · rfl
  have hout : ∀ e, S.outArr op L inv e = S.outArr op L' inv e := by
    intro e
    unfold Meaning.outArr
    rw [hin e]
  unfold Meaning.action Meaning.adds Meaning.elemOut
  simp only [hout]

/-- Result of `applyAdd` on a state of a history. -/
theorem applyAdd_wp {op : Oper α} {S : Meaning α} (h : OpOK op S) (junk : Nat → Nat → α) {s : St α} (hg : Good op S s)
    {inv outv : VPtr} {R : Prop}
    (hR : R → InReady op inv s ∧ OutReady op outv s ∧ (s.impl.done = true → Unlocked s)) :
    M.wp R (applyAdd op junk inv outv) s (fun s' _ => Good op S s' ∧
      ((s.impl.done = true → Unlocked s) → (s'.impl.done = true → Unlocked s')) ∧
      (0 < op.ne → InReady op inv s ∧ OutReady op outv s) ∧
      (∀ v, (∀ o < op.nout, (op.out o).vec.ptr outv ≠ .vec v) → s'.vecs v = s.vecs v) ∧ Advances s.vecs s'.vecs ∧
      (∀ v, (s'.vecs v).valid = (s.vecs v).valid) ∧
      ∀ v t, s'.L v t = s.L v t + S.action op s.L inv outv v t)
      (fun s' _ => ¬ R ∧ Good op S s') := by
  unfold applyAdd
  by_cases hne : 0 < op.ne
  · rw [if_pos hne]
    refine M.wp_mono (applyAddRef_wp h junk hg hR) ?_ ?_
    · rintro s' _ ⟨h1, h2, s1, e1, h3⟩
      refine ⟨⟨Or.inr h1, h1.vz⟩, fun hu _ => h2 hu, fun _ => ⟨?_, ?_⟩, ?_, ?_, ?_, ?_⟩
      · have := h3.inReady; unfold InReady at this ⊢; rw [e1] at this; exact this
      · have := h3.outReady; unfold OutReady at this ⊢; rw [e1] at this; exact this
      · rw [← e1]; exact h3.other
      · rw [← e1]; exact h3.adv
      · rw [← e1]; exact h3.valid
      · intro v t
        have := h3.val v t
        unfold St.L at this ⊢
        rw [e1] at this
        exact this
    · rintro s' _ ⟨h1, h2⟩
      exact ⟨h1, Or.inr h2, h2.vz⟩
  · rw [if_neg hne, M.wp_pure]
    refine ⟨hg, fun hu => hu, fun hh => absurd hh hne, fun _ _ => rfl, Advances.refl _, fun _ => rfl, fun v t => ?_⟩
    rw [action_empty h (by omega), add_zero]

/-- Setting the outputs to zero. -/
theorem zero_wp {op : Oper α} {s : St α} {outv : VPtr} {R : Prop}
    (hR : R → ∀ o < op.nout, (op.out o).vec.ptr outv ≠ .null) :
    M.wp R (M.loop op.nout (fun o => zeroVec ((op.out o).vec.ptr outv))) s (fun s' _ => s'.impl = s.impl ∧
      Advances s.vecs s'.vecs ∧ (∀ v, (∀ o < op.nout, (op.out o).vec.ptr outv ≠ .vec v) → s'.vecs v = s.vecs v) ∧
      ∀ v, (∃ o < op.nout, (op.out o).vec.ptr outv = .vec v) → (s'.vecs v).valid = true ∧
        (s'.vecs v).buf = ⟨(s.vecs v).buf.len, fun _ => 0⟩) (fun _ _ => False) := by
  refine M.wp_mono (M.wp_loop (fun j s' => s'.impl = s.impl ∧
      Advances s.vecs s'.vecs ∧ (∀ v, (∀ o < op.nout, (op.out o).vec.ptr outv ≠ .vec v) → s'.vecs v = s.vecs v) ∧
      ∀ v, (∃ o < j, (op.out o).vec.ptr outv = .vec v) → (s'.vecs v).valid = true ∧
        (s'.vecs v).buf = ⟨(s.vecs v).buf.len, fun _ => 0⟩) ?_ ?_) (fun _ _ h => h) (fun _ _ h => h)
  · exact ⟨rfl, Advances.refl _, fun _ _ => rfl, fun v ⟨o, h1, _⟩ => absurd h1 (by omega)⟩
  · rintro o ho s' ⟨a1, a2, a3, a4⟩
    match hp : (op.out o).vec.ptr outv with
    | .null => exact M.wp_of_eq_ub rfl (fun r => hR r o ho hp)
    | .none =>
      refine M.wp_of_eq_ok (s' := s') (a := ()) rfl ⟨a1, a2, a3, ?_⟩
      rintro v ⟨o1, h1, h2⟩
      have : o1 ≠ o := by rintro rfl; rw [hp] at h2; cases h2
      exact a4 v ⟨o1, by omega, h2⟩
    | .vec u =>
      refine M.wp_of_eq_ok (s' := ⟨s'.impl, Function.update s'.vecs u ⟨(s'.vecs u).state + 2, true,
        ⟨(s'.vecs u).buf.len, fun _ => 0⟩⟩, s'.eptr⟩) (a := ()) rfl ⟨a1, ?_, ?_, ?_⟩
      · exact a2.trans (Advances.update rfl (by show _ < (s'.vecs u).state + 2; omega))
      · intro v hv
        have : v ≠ u := fun hh => hv o ho (by rw [hh]; exact hp)
        show Function.update s'.vecs u _ v = _
        rw [Function.update_of_ne this]; exact a3 v hv
      · rintro v ⟨o1, h1, h2⟩
        show (Function.update s'.vecs u _ v).valid = true ∧ (Function.update s'.vecs u _ v).buf = _
        by_cases hv : v = u
        · subst hv
          rw [Function.update_self, (a2 v).1]
          exact ⟨rfl, rfl⟩
        · rw [Function.update_of_ne hv]
          refine a4 v ⟨o1, ?_, h2⟩
          have : o1 ≠ o := by
            rintro rfl
            rw [hp] at h2; cases h2; exact hv rfl
          omega

/-- Outputs that exist and are long enough; they need not hold valid data. -/
def OutLong (op : Oper α) (outv : VPtr) (s : St α) : Prop :=
  ∀ o < op.nout, ∃ r v, (op.out o).rid = some r ∧ (op.out o).vec.ptr outv = .vec v ∧
    (op.rstrs r).lSize ≤ (s.vecs v).buf.len

theorem apply_wp {op : Oper α} {S : Meaning α} (h : OpOK op S) (junk : Nat → Nat → α) {s : St α} (hg : Good op S s)
    {inv outv : VPtr} {R : Prop}
    (hR : R → InReady op inv s ∧ OutLong op outv s ∧ (s.impl.done = true → Unlocked s)) :
    M.wp R (apply op junk inv outv) s (fun s' _ => Good op S s' ∧
      ((s.impl.done = true → Unlocked s) → (s'.impl.done = true → Unlocked s')) ∧
      (∀ v, (∀ o < op.nout, (op.out o).vec.ptr outv ≠ .vec v) → s'.vecs v = s.vecs v) ∧ Advances s.vecs s'.vecs ∧
      ∀ v, (∃ o < op.nout, (op.out o).vec.ptr outv = .vec v) → ∀ t,
        s'.L v t = S.action op (zeroed op outv s.L) inv outv v t)
      (fun s' _ => ¬ R ∧ Good op S s') := by
  unfold apply
  rw [M.wp_bind]
  refine M.wp_mono (zero_wp (R := R) ?_) ?_ (fun _ _ hh => hh.elim)
  · intro r o ho hn
    obtain ⟨_, _, _, h2, _⟩ := (hR r).2.1 o ho
    rw [hn] at h2; cases h2
  rintro s1 _ ⟨a1, a2, a3, a4⟩
  have hL : s1.L = zeroed op outv s.L := by
    funext v
    unfold zeroed St.L
    split
    · rename_i hh
      rw [(a4 v hh).2]
    · rename_i hh
      rw [a3 v (fun o ho hv => hh ⟨o, ho, hv⟩)]
  have hg1 : Good op S s1 := by
    refine ⟨?_, a2.vz hg.2⟩
    rcases hg.1 with hd | hi
    · exact Or.inl (by rw [a1]; exact hd)
    · exact Or.inr (hi.adv a2 a1)
  refine M.wp_mono (applyAdd_wp h junk hg1 (R := R) ?_) ?_ (fun _ _ hh => hh)
  · intro r
    obtain ⟨r1, r2, r3⟩ := hR r
    refine ⟨?_, ?_, by unfold Unlocked at *; rw [a1]; exact r3⟩
    · intro i hi hw
      obtain ⟨r', v, b1, b2, b3, b4⟩ := r1 i hi hw
      refine ⟨r', v, b1, b2, ?_, by rw [(a2 v).1]; exact b4⟩
      by_cases hv : ∃ o < op.nout, (op.out o).vec.ptr outv = .vec v
      · exact (a4 v hv).1
      · rw [a3 v (fun o ho hh => hv ⟨o, ho, hh⟩)]; exact b3
    · intro o ho
      obtain ⟨r', v, b1, b2, b3⟩ := r2 o ho
      exact ⟨r', v, b1, b2, (a4 v ⟨o, ho, b2⟩).1, by rw [(a2 v).1]; exact b3⟩
  · rintro s' _ ⟨b1, b2, b3, b4, b5, b6, b7⟩
    refine ⟨b1, ?_, fun v hv => (b4 v hv).trans (a3 v hv), a2.trans b5, ?_⟩
    · unfold Unlocked at *; rw [a1] at b2; exact b2
    · intro v hv t
      rw [b7 v t, hL]
      unfold zeroed
      rw [if_pos hv, zero_add]

/-- States of histories satisfy the invariant; without failing calls no E-vector is locked. -/
theorem Reach.good {op : Oper α} {S : Meaning α} (h : OpOK op S) {fails : Prop} {s : St α} (hr : Reach op fails s) :
    Good op S s ∧ (¬ fails → s.impl.done = true → Unlocked s) := by
  induction hr with
  | start s hd hv => exact ⟨⟨Or.inl hd, hv⟩, fun _ hh => by rw [hd] at hh; cases hh⟩
  | user _ ha ih =>
    refine ⟨⟨?_, ha.vz ih.1.2⟩, fun hf hd => ih.2 hf hd⟩
    rcases ih.1.1 with hd | hi
    · exact Or.inl hd
    · exact Or.inr (hi.adv ha rfl)
  | applyAdd _ e ih =>
    have := M.wp_ok (applyAdd_wp h _ ih.1 (R := False) (fun hh => hh.elim)) e
    exact ⟨this.1, fun hf => this.2.1 (ih.2 hf)⟩
  | apply _ e ih =>
    have := M.wp_ok (apply_wp h _ ih.1 (R := False) (fun hh => hh.elim)) e
    exact ⟨this.1, fun hf => this.2.1 (ih.2 hf)⟩
  | applyAddErr hf _ e ih =>
    exact ⟨(M.wp_err (applyAdd_wp h _ ih.1 (R := False) (fun hh => hh.elim)) e).2, fun hn => absurd hf hn⟩
  | applyErr hf _ e ih =>
    exact ⟨(M.wp_err (apply_wp h _ ih.1 (R := False) (fun hh => hh.elim)) e).2, fun hn => absurd hf hn⟩

/-! ## C37: the action -/

/-- After any history, failed calls included, a successful `CeedOperatorApplyAdd` adds to every vector exactly the action
of the operator on the current contents of the vectors, and leaves vectors that are not outputs alone. -/
theorem C37_apply_add {op : Oper α} {S : Meaning α} (h : OpOK op S) {s s' : St α} (hr : Reach op True s)
    {junk : Nat → Nat → α} {inv outv : VPtr} (e : applyAdd op junk inv outv s = .ok s' ()) :
    (∀ v t, s'.L v t = s.L v t + S.action op s.L inv outv v t) ∧
    ∀ v, (∀ o < op.nout, (op.out o).vec.ptr outv ≠ .vec v) → s'.vecs v = s.vecs v := by
  have := M.wp_ok (applyAdd_wp h _ (hr.good h).1 (R := False) (fun hh => hh.elim)) e
  exact ⟨this.2.2.2.2.2.2, this.2.2.2.1⟩

/-- After any history, a successful `CeedOperatorApply` stores the action in the outputs, if no vector is both read and
written. -/
theorem C37_apply {op : Oper α} {S : Meaning α} (h : OpOK op S) {s s' : St α} (hr : Reach op True s)
    {junk : Nat → Nat → α} {inv outv : VPtr} (hna : NoAlias op inv outv) (e : apply op junk inv outv s = .ok s' ()) :
    (∀ v, (∃ o < op.nout, (op.out o).vec.ptr outv = .vec v) → ∀ t, s'.L v t = S.action op s.L inv outv v t) ∧
    ∀ v, (∀ o < op.nout, (op.out o).vec.ptr outv ≠ .vec v) → s'.vecs v = s.vecs v := by
  have := M.wp_ok (apply_wp h _ (hr.good h).1 (R := False) (fun hh => hh.elim)) e
  refine ⟨fun v hv t => ?_, this.2.2.1⟩
  rw [this.2.2.2.2 v hv t]
  refine action_congr (fun i hi hw => ?_) outv v t
  match hp : (op.inp i).vec.ptr inv with
  | .null => rfl
  | .none => rfl
  | .vec u =>
    show zeroed op outv s.L u = s.L u
    unfold zeroed
    rw [if_neg]
    rintro ⟨o, ho, hh⟩
    exact hna i hi o ho hw (by rw [hp, hh])

/-- In general `CeedOperatorApply` acts on the vectors with the outputs set to zero. -/
theorem C37_apply_alias {op : Oper α} {S : Meaning α} (h : OpOK op S) {s s' : St α} (hr : Reach op True s)
    {junk : Nat → Nat → α} {inv outv : VPtr} (e : apply op junk inv outv s = .ok s' ()) :
    ∀ v, (∃ o < op.nout, (op.out o).vec.ptr outv = .vec v) → ∀ t,
      s'.L v t = S.action op (zeroed op outv s.L) inv outv v t :=
  (M.wp_ok (apply_wp h _ (hr.good h).1 (R := False) (fun hh => hh.elim)) e).2.2.2.2

/-- After a history without failing calls, `CeedOperatorApplyAdd` succeeds if (and, for a nonempty mesh, only if) the
vectors it reads and writes hold data and are long enough; no undefined behaviour occurs then. -/
theorem C37_apply_add_succeeds {op : Oper α} {S : Meaning α} (h : OpOK op S) {s : St α} (hr : Reach op False s)
    (junk : Nat → Nat → α) {inv outv : VPtr} (hne : 0 < op.ne) :
    (∃ s', applyAdd op junk inv outv s = .ok s' ()) ↔ InReady op inv s ∧ OutReady op outv s := by
  have hg := hr.good h
  constructor
  · rintro ⟨s', e⟩
    exact (M.wp_ok (applyAdd_wp h _ hg.1 (R := False) (fun hh => hh.elim)) e).2.2.1 hne
  · intro hrdy
    have := applyAdd_wp h junk hg.1 (inv := inv) (outv := outv) (R := True)
      (fun _ => ⟨hrdy.1, hrdy.2, hg.2 (fun hh => hh)⟩)
    cases e : applyAdd op junk inv outv s with
    | ok s' a => exact ⟨s', rfl⟩
    | err s' c => exact absurd trivial (M.wp_err this e).1
    | ub => exact absurd trivial (M.wp_ub this e)

/-- After a history without failing calls, `CeedOperatorApply` succeeds if the vectors it reads hold data and are long
enough and the vectors it writes are long enough. -/
theorem C37_apply_succeeds {op : Oper α} {S : Meaning α} (h : OpOK op S) {s : St α} (hr : Reach op False s)
    (junk : Nat → Nat → α) {inv outv : VPtr} (hi : InReady op inv s) (ho : OutLong op outv s) :
    ∃ s', apply op junk inv outv s = .ok s' () := by
  have hg := hr.good h
  have := apply_wp h junk hg.1 (inv := inv) (outv := outv) (R := True) (fun _ => ⟨hi, ho, hg.2 (fun hh => hh)⟩)
  cases e : apply op junk inv outv s with
  | ok s' a => exact ⟨s', rfl⟩
  | err s' c => exact absurd trivial (M.wp_err this e).1
  | ub => exact absurd trivial (M.wp_ub this e)

/-! ## C39: passive inputs are restricted again only when they change -/

/-- The result of a successful application does not depend on the history: whatever was applied before and however the
vectors came to have their contents, it is that of an operator used for the first time (any history of the same
operator ending with the same contents, in particular the empty one). -/
theorem C39_history {op : Oper α} {S : Meaning α} (h : OpOK op S) {s s' f f' : St α} (hr : Reach op True s)
    (hf : Reach op True f) (hL : s.L = f.L) {junk junk' : Nat → Nat → α} {inv outv : VPtr}
    (e : applyAdd op junk inv outv s = .ok s' ()) (e' : applyAdd op junk' inv outv f = .ok f' ()) : s'.L = f'.L := by
  funext v t
  rw [(C37_apply_add h hr e).1, (C37_apply_add h hf e').1, hL]

/-- Without failing calls, success does not depend on the history either. -/
theorem C39_history_success_partial {op : Oper α} {S : Meaning α} (h : OpOK op S) {s f : St α} (hr : Reach op False s)
    (hf : Reach op False f) (hv : ∀ v, (s.vecs v).valid = (f.vecs v).valid ∧ (s.vecs v).buf = (f.vecs v).buf)
    (junk junk' : Nat → Nat → α) {inv outv : VPtr} :
    (∃ s', applyAdd op junk inv outv s = .ok s' ()) ↔ ∃ f', applyAdd op junk' inv outv f = .ok f' () := by
  by_cases hne : 0 < op.ne
  · rw [C37_apply_add_succeeds h hr junk hne, C37_apply_add_succeeds h hf junk' hne]
    unfold InReady OutReady
    simp only [fun v => (hv v).1, fun v => (hv v).2]
  · have : ∀ j s, ∃ s', applyAdd op j inv outv s = .ok s' () := fun j s => ⟨s, by unfold applyAdd; rw [if_neg hne]; rfl⟩
    exact ⟨fun _ => this _ _, fun _ => this _ _⟩

/-! ## C40: sharing of E-vectors -/

/-- Meaning of the operator with separate copies of the restrictions. -/
def Meaning.unshare (S : Meaning α) (op : Oper α) : Meaning α :=
  { S with D := fun j => S.D (if j % 2 = 0 then (op.inp (j / 2)).rid.getD 0 else (op.out (j / 2)).rid.getD 0) }

theorem unshare_inp_rstr (op : Oper α) {i r : Nat} (h : (op.inp i).rid = some r) :
    ((unshare op).inp i).rid = some (2 * i) ∧ (unshare op).rstrs (2 * i) = op.rstrs r := by
  constructor
  · show (op.inp i).rid.map _ = _
    rw [h]; rfl
  · show op.rstrs _ = _
    rw [if_pos (by omega), show 2 * i / 2 = i by omega, h]; rfl

theorem unshare_out_rstr (op : Oper α) {o r : Nat} (h : (op.out o).rid = some r) :
    ((unshare op).out o).rid = some (2 * o + 1) ∧ (unshare op).rstrs (2 * o + 1) = op.rstrs r := by
  constructor
  · show (op.out o).rid.map _ = _
    rw [h]; rfl
  · show op.rstrs _ = _
    rw [if_neg (by omega), show (2 * o + 1) / 2 = o by omega, h]; rfl

theorem unshare_dat_inp (op : Oper α) (S : Meaning α) {i r : Nat} (h : (op.inp i).rid = some r) :
    (S.unshare op).dat ((unshare op).inp i) = S.dat (op.inp i) := by
  unfold Meaning.dat
  rw [(unshare_inp_rstr op h).1, h]
  show S.D _ = _
  rw [Option.getD_some, if_pos (by omega), show 2 * i / 2 = i by omega, h]

theorem unshare_dat_out (op : Oper α) (S : Meaning α) {o r : Nat} (h : (op.out o).rid = some r) :
    (S.unshare op).dat ((unshare op).out o) = S.dat (op.out o) := by
  unfold Meaning.dat
  rw [(unshare_out_rstr op h).1, h]
  show S.D _ = _
  rw [Option.getD_some, if_neg (by omega), show (2 * o + 1) / 2 = o by omega, h]

theorem HasRstr.unshare_inp {op : Oper α} {S : Meaning α} {i : Nat} (h : HasRstr op S (op.inp i)) :
    HasRstr (unshare op) (S.unshare op) ((unshare op).inp i) := by
  obtain ⟨r, l, h1, h2, h3⟩ := h
  have e : (S.unshare op).D (2 * i) = S.D r := by
    show S.D _ = _
    rw [if_pos (by omega), show 2 * i / 2 = i by omega, h1]; rfl
  exact ⟨2 * i, l, (unshare_inp_rstr op h1).1, by rw [e, (unshare_inp_rstr op h1).2]; exact h2, by rw [e]; exact h3⟩

theorem HasRstr.unshare_out {op : Oper α} {S : Meaning α} {o : Nat} (h : HasRstr op S (op.out o)) :
    HasRstr (unshare op) (S.unshare op) ((unshare op).out o) := by
  obtain ⟨r, l, h1, h2, h3⟩ := h
  have e : (S.unshare op).D (2 * o + 1) = S.D r := by
    show S.D _ = _
    rw [if_neg (by omega), show (2 * o + 1) / 2 = o by omega, h1]; rfl
  exact ⟨2 * o + 1, l, (unshare_out_rstr op h1).1, by rw [e, (unshare_out_rstr op h1).2]; exact h2, by rw [e]; exact h3⟩

/-- Fields of the operator with separate copies never share. -/
theorem unshare_inp_same {op : Oper α} {i j : Nat} (hi : (op.inp i).rid ≠ none ∨ (op.inp j).rid ≠ none)
    (h : ((unshare op).inp i).same ((unshare op).inp j) = true) : i = j := by
  have := (same_iff.1 h).2
  have h' : (op.inp i).rid.map (fun _ => 2 * i) = (op.inp j).rid.map (fun _ => 2 * j) := this
  cases h1 : (op.inp i).rid <;> cases h2 : (op.inp j).rid <;> rw [h1, h2] at h' <;> simp at h'
  · rcases hi with hh | hh
    · exact absurd h1 hh
    · exact absurd h2 hh
  · omega

theorem unshare_out_same {op : Oper α} {i j : Nat} (hi : (op.out i).rid ≠ none)
    (h : ((unshare op).out i).same ((unshare op).out j) = true) : i = j := by
  have := (same_iff.1 h).2
  have h' : (op.out i).rid.map (fun _ => 2 * i + 1) = (op.out j).rid.map (fun _ => 2 * j + 1) := this
  cases h1 : (op.out i).rid <;> cases h2 : (op.out j).rid <;> rw [h1, h2] at h' <;> simp at h'
  · exact absurd h1 hi
  · omega

theorem HasRstr.ne_none {op : Oper α} {S : Meaning α} {a : OField α} (h : HasRstr op S a) : a.rid ≠ none := by
  obtain ⟨r, _, h1, _⟩ := h
  rw [h1]; simp

theorem unshare_ok {op : Oper α} {S : Meaning α} (h : OpOK op S) : OpOK (unshare op) (S.unshare op) := by
  refine ⟨?_, ?_, ?_, ?_, h.ident⟩
  · intro i hi
    have hi' : i < op.nin := hi
    rcases mode_cases (op.inp i).mode with hm | hm | hm
    · obtain ⟨h1, h2, h3, h4⟩ := h.in_weight hi' hm
      unfold InOK
      rw [show ((unshare op).inp i).mode = .weight from hm]
      refine ⟨h1, ?_, h3, h4⟩
      show (op.inp i).rid.map _ = _
      rw [h2]; rfl
    · obtain ⟨h1, h2, h3⟩ := h.in_none hi' hm
      obtain ⟨r, _, hr, _⟩ := id h1
      unfold InOK
      rw [show ((unshare op).inp i).mode = .none from hm]
      refine ⟨h1.unshare_inp, ?_, ?_⟩ <;> rw [unshare_dat_inp op S hr]
      · exact h2
      · exact h3
    · obtain ⟨h1, b, ⟨f1, f2, f3, f4, f5⟩, h3⟩ := h.in_basis hi' hm
      obtain ⟨r, _, hr, _⟩ := id h1
      have hfit : Fits (unshare op) (S.unshare op) ((unshare op).inp i) b :=
        ⟨f1, by rw [unshare_dat_inp op S hr]; exact f2, by rw [unshare_dat_inp op S hr]; exact f3, f4,
          by rw [unshare_dat_inp op S hr]; exact f5⟩
      unfold InOK
      rcases hmode : (op.inp i).mode with _ | _ | _ | _ | _ | _ <;> rw [hmode] at hm h3 <;> simp [isBasisMode] at hm
      all_goals
        simp only [show ((unshare op).inp i).mode = _ from hmode]
        exact ⟨h1.unshare_inp, b, hfit, h3⟩
  · intro o ho
    have ho' : o < op.nout := ho
    rcases mode_cases (op.out o).mode with hm | hm | hm
    · exact absurd hm (h.out_not_weight ho')
    · obtain ⟨h1, h2, h3⟩ := h.out_none ho' hm
      obtain ⟨r, _, hr, _⟩ := id h1
      unfold OutOK
      rw [show ((unshare op).out o).mode = .none from hm]
      refine ⟨h1.unshare_out, ?_, ?_⟩ <;> rw [unshare_dat_out op S hr]
      · exact h2
      · exact h3
    · obtain ⟨h1, b, ⟨f1, f2, f3, f4, f5⟩, h3, _⟩ := h.out_basis ho' hm
      obtain ⟨r, _, hr, _⟩ := id h1
      have hfit : Fits (unshare op) (S.unshare op) ((unshare op).out o) b :=
        ⟨f1, by rw [unshare_dat_out op S hr]; exact f2, by rw [unshare_dat_out op S hr]; exact f3, f4,
          by rw [unshare_dat_out op S hr]; exact f5⟩
      have hno : ¬ ∃ j < o, ((unshare op).out j).same ((unshare op).out o) = true := by
        rintro ⟨j, hj, hs⟩
        have := unshare_out_same (by rw [hr]; simp) (same_symm hs)
        omega
      unfold OutOK
      rcases hmode : (op.out o).mode with _ | _ | _ | _ | _ | _ <;> rw [hmode] at hm h3 <;> simp [isBasisMode] at hm
      all_goals
        simp only [show ((unshare op).out o).mode = _ from hmode]
        exact ⟨h1.unshare_out, b, hfit, h3, fun hh => absurd hh hno⟩
  · intro i j hij hj hs hk
    by_cases hw : (op.inp j).mode = .weight
    · -- both have no restriction, so they share in the original operator as well
      have hj' : j < op.nin := hj
      have h2 := (h.in_weight hj' hw).2.1
      have hi2 : (op.inp i).rid = none := by
        have := (same_iff.1 hs).2
        have h' : (op.inp i).rid.map (fun _ => 2 * i) = (op.inp j).rid.map (fun _ => 2 * j) := this
        rw [h2] at h'
        cases h1 : (op.inp i).rid
        · rfl
        · rw [h1] at h'; simp at h'
      have hs' : (op.inp i).same (op.inp j) = true := same_iff.2 ⟨(same_iff.1 hs).1, by rw [hi2, h2]⟩
      exact absurd hw (h.shared_not_weight hij hj' hs')
    · have := unshare_inp_same (Or.inr (h.in_rstr hj hw).ne_none) hs
      omega
  · intro j o hjo ho hs
    have := unshare_out_same (h.out_rstr (show j < op.nout by exact Nat.lt_trans hjo ho)).ne_none hs
    omega

theorem unshare_action {op : Oper α} {S : Meaning α} (h : OpOK op S) (L : Nat → Nat → α) (inv outv : VPtr) (v t : Nat) :
    (S.unshare op).action (unshare op) L inv outv v t = S.action op L inv outv v t := by
  have hin : ∀ e, (S.unshare op).inArr (unshare op) L inv e = S.inArr op L inv e := by
    intro e
    funext i x
    unfold Meaning.inArr
    by_cases hh : i < op.nin ∧ x < op.Q * (op.inp i).size
    · rw [if_pos hh, if_pos (show i < (unshare op).nin ∧ x < (unshare op).Q * ((unshare op).inp i).size from hh)]
      by_cases hw : (op.inp i).mode = .weight
      · unfold Meaning.inVal
        simp only [hw, show ((unshare op).inp i).mode = .weight from hw]
        rfl
      · obtain ⟨r, _, hr, _⟩ := h.in_rstr hh.1 hw
        unfold Meaning.inVal
        simp only [unshare_dat_inp op S hr]
        rfl
    · rw [if_neg hh, if_neg (show ¬ (i < (unshare op).nin ∧ x < (unshare op).Q * ((unshare op).inp i).size) from hh)]
  have hout : ∀ e, (S.unshare op).outArr (unshare op) L inv e = S.outArr op L inv e := by
    intro e
    unfold Meaning.outArr
    rw [hin e]
    rfl
  unfold Meaning.action
  refine sum_congr rfl (fun o ho => ?_)
  have ho' : o < op.nout := mem_range.1 ho
  obtain ⟨r, _, hr, _⟩ := h.out_rstr ho'
  show (if (op.out o).vec.ptr outv = .vec v then _ else _) = _
  split
  · unfold Meaning.adds Meaning.elemOut
    simp only [unshare_dat_out op S hr, hout]
    rfl
  · rfl

/-- Sharing the E-vectors of fields with the same vector and restriction is not observable: the operator whose fields
have separate copies of the restrictions adds the same to every vector. The hypotheses `shareIn`, `shareOut` of `OpOK`
and the accumulation of `CeedBasisApplyAdd` exclude the combinations for which the code is wrong. -/
theorem C40_sharing_partial {op : Oper α} {S : Meaning α} (h : OpOK op S) {s s' f f' : St α} (hr : Reach op True s)
    (hf : Reach (unshare op) True f) (hL : s.L = f.L) {junk junk' : Nat → Nat → α} {inv outv : VPtr}
    (e : applyAdd op junk inv outv s = .ok s' ()) (e' : applyAdd (unshare op) junk' inv outv f = .ok f' ()) :
    s'.L = f'.L := by
  funext v t
  rw [(C37_apply_add h hr e).1, (C37_apply_add (unshare_ok h) hf e').1, hL, unshare_action h]

end Operator
end Verif
