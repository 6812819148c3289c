import Verif.Operator.Fallback
import Verif.Operator.Ready

/-!
# C75: fallback operators are faithful copies
-/

set_option linter.unusedSectionVars false

namespace Verif
namespace Operator

open Finset
open Restriction (Rstr)
open Basis (Bas EMode)

variable {α : Type}

/-! ## Specification -/

/-- `t` is a copy of the ready operator `s`: the same QFunction fields, in the same order, the same field set for each of
them, the same numbers of elements, points and lengths of the active vectors; and it is ready. -/
structure CopyOf (s t : OpI α) : Prop where
  inputs : t.qf.inputs = s.qf.inputs
  outputs : t.qf.outputs = s.qf.outputs
  vecLength : t.qf.vecLength = s.qf.vecLength
  slots : ∀ k i, i < (s.tab k).length → t.slot k i = s.slot k i
  ne : t.ne = s.ne
  Q : t.Q = s.Q
  len : ∀ k, t.len k = s.len k
  nf : t.nf = s.qf.inputs.length + s.qf.outputs.length
  ready : t.ready = true

/-! ## The QFunction -/

theorem addInputs_ok (l : List QFunction.Field) (q : QFunction.QFunc) (hi : q.immutable = false)
    (hn : (q.inputs ++ l ++ q.outputs).map QFunction.Field.name |>.Nodup) (hw : ∀ f ∈ l, f.mode = .weight → f.size = 1)
    (hr : q.inputs.length + l.length ≤ 16) :
    addInputs l q = .ok { q with inputs := q.inputs ++ l } () := by
  induction l generalizing q with
  | nil => simp [addInputs]
  | cons f t ih =>
    unfold addInputs
    rw [M.bind_apply, QFunction.addInput_eq, if_neg (by simp [hi]),
      if_neg (fun h => h.2 (hw f List.mem_cons_self h.1)), if_neg, if_pos (by simp at hr; omega), Out.bind_ok, ih]
    · simp
    · exact hi
    · simpa using hn
    · exact fun g hg => hw g (List.mem_cons_of_mem _ hg)
    · simp at hr ⊢; omega
    · intro hm
      simp only [List.map_append, List.map_cons, List.append_assoc, List.nodup_append, List.mem_append, List.nodup_cons,
        List.cons_append, QFunction.names] at hn hm
      rcases hm with hm | hm
      · exact hn.2.2 _ hm _ List.mem_cons_self rfl
      · exact hn.2.1.1 (Or.inr hm)

theorem addOutputs_ok (l : List QFunction.Field) (q : QFunction.QFunc) (hi : q.immutable = false)
    (hn : (q.inputs ++ (q.outputs ++ l)).map QFunction.Field.name |>.Nodup) (hw : ∀ f ∈ l, f.mode ≠ .weight)
    (hr : q.outputs.length + l.length ≤ 16) :
    addOutputs l q = .ok { q with outputs := q.outputs ++ l } () := by
  induction l generalizing q with
  | nil => simp [addOutputs]
  | cons f t ih =>
    unfold addOutputs
    rw [M.bind_apply, QFunction.addOutput_eq, if_neg (by simp [hi]),
      if_neg (hw f List.mem_cons_self), if_neg, if_pos (by simp at hr; omega), Out.bind_ok, ih]
    · simp
    · exact hi
    · simpa using hn
    · exact fun g hg => hw g (List.mem_cons_of_mem _ hg)
    · simp at hr ⊢; omega
    · intro hm
      have hn' : ((q.inputs ++ q.outputs).map QFunction.Field.name ++ (f :: t).map QFunction.Field.name).Nodup := by
        simpa using hn
      rw [List.nodup_append] at hn'
      exact hn'.2.2 _ hm _ (by simp) rfl

/-- The fields of a QFunction that was made through the interface can be added to a new one. -/
theorem addFields_ok {v : Int} {q : QFunction.QFunc} (h : QFunction.Calls (QFunction.QFunc.create v) q) (w : Int) :
    addFields q.inputs q.outputs (QFunction.QFunc.create w) = .ok ⟨w, q.inputs, q.outputs, false⟩ () := by
  have hn := QFunction.C36_unique h
  have hr := QFunction.C36_room h
  obtain ⟨w1, w2⟩ := calls_weights h
  unfold QFunction.names at hn
  unfold addFields
  rw [M.bind_apply, addInputs_ok q.inputs _ rfl _ w1 (by simpa [QFunction.QFunc.create] using hr.1), Out.bind_ok,
    addOutputs_ok q.outputs _ rfl _ w2 (by simpa [QFunction.QFunc.create] using hr.2)]
  · rfl
  · simpa [QFunction.QFunc.create] using hn
  · rw [List.map_append] at hn
    simpa [QFunction.QFunc.create] using (List.nodup_append.1 hn).1

theorem addFields_calls {ins outs : List QFunction.Field} {q0 q : QFunction.QFunc} (e : addFields ins outs q0 = .ok q ()) :
    QFunction.Calls q0 q := by
  have hi : ∀ (l : List QFunction.Field) (a b : QFunction.QFunc), addInputs l a = .ok b () → QFunction.Calls a b := by
    intro l
    induction l with
    | nil => intro a b e; cases e; exact .refl
    | cons f t ih =>
      intro a b e
      unfold addInputs at e
      rw [M.bind_apply, Out.bind_eq_ok] at e
      obtain ⟨c, _, e1, e2⟩ := e
      exact Calls.trans (.ok (c := .addInput f.name f.size f.mode) .refl e1) (ih _ _ e2)
  have ho : ∀ (l : List QFunction.Field) (a b : QFunction.QFunc), addOutputs l a = .ok b () → QFunction.Calls a b := by
    intro l
    induction l with
    | nil => intro a b e; cases e; exact .refl
    | cons f t ih =>
      intro a b e
      unfold addOutputs at e
      rw [M.bind_apply, Out.bind_eq_ok] at e
      obtain ⟨c, _, e1, e2⟩ := e
      exact Calls.trans (.ok (c := .addOutput f.name f.size f.mode) .refl e1) (ih _ _ e2)
  unfold addFields at e
  rw [M.bind_apply, Out.bind_eq_ok] at e
  obtain ⟨c, _, e1, e2⟩ := e
  exact Calls.trans (hi _ _ _ e1) (ho _ _ _ e2)

/-! ## Where the numbers of an operator come from -/

/-- The number of elements and the lengths of the active vectors come from fields that are still set. -/
structure Rooted (s : OpI α) : Prop where
  hasR : s.hasR = true → ∃ k i v, s.slot k i = .set v ∧ v.rid ≠ none
  ne : s.hasR = false → s.ne = 0
  len : ∀ k, s.len k = -1 ∨ ∃ i v, s.slot k i = .set v ∧ v.vec = .active

theorem unset_of_once {rs : Nat → Rstr} {s : OpI α} {name : List Char} {k : Bool} {i : Nat} {f : QFunction.Field}
    (hI : BInv rs True s) (hl : locate name s.qf = some (k, i, f)) (hs : ¬ IsSet s name) (v : FVal α) : s.slot k i ≠ .set v := by
  intro hc
  obtain ⟨_, g, hg, ha⟩ := hI.agrees k i v hc
  obtain ⟨l1, l2⟩ := locate_some hl
  rw [l1] at hg; cases hg
  exact hs ⟨k, i, v, hc, ha.name.trans l2⟩

theorem Rooted.put {rs : Nat → Rstr} {s : OpI α} (h : Rooted s) {k : Bool} {i : Nat} (hu : ∀ v, s.slot k i ≠ .set v) :
    Rooted (s.freeze.put k i .half) := by
  obtain ⟨_, p2, _, _, p5, _, _, p8⟩ := put_rest s.freeze k i .half
  have keep : ∀ k' j v, s.slot k' j = .set v → (s.freeze.put k i .half).slot k' j = .set v := by
    intro k' j v hv
    rw [slot_put, if_neg]
    · exact hv
    · rintro ⟨rfl, rfl⟩; exact hu v hv
  refine ⟨fun hr => ?_, fun hr => ?_, fun k' => ?_⟩
  · rw [p5] at hr
    obtain ⟨k', j, v, h1, h2⟩ := h.hasR hr
    exact ⟨k', j, v, keep _ _ _ h1, h2⟩
  · rw [p5] at hr
    rw [p2]; exact h.ne hr
  · rw [p8]
    rcases h.len k' with hl | ⟨j, v, h1, h2⟩
    · exact Or.inl hl
    · exact Or.inr ⟨j, v, keep _ _ _ h1, h2⟩

theorem Rooted.fill {rs : Nat → Rstr} {s : OpI α} (h : Rooted s) {k : Bool} {i : Nat} {name : List Char} {r : Arg Nat}
    {b : Arg (Bas α)} {v : FVec} (hu : ∀ v, s.slot k i ≠ .set v) (hr : r.ok = true) :
    Rooted (s.freeze.fill rs k i name r b v) := by
  obtain ⟨_, p2, _, _, p5, p6, p7, _, _⟩ := fill_rest rs s.freeze k i name r b v
  have keep : ∀ k' j v', s.slot k' j = .set v' → (s.freeze.fill rs k i name r b v).slot k' j = .set v' := by
    intro k' j v' hv
    rw [p2, if_neg]
    · exact hv
    · rintro ⟨rfl, rfl⟩; exact hu v' hv
  have new : (s.freeze.fill rs k i name r b v).slot k i = .set ⟨name, v, r.opt, b.opt⟩ := by rw [p2, if_pos ⟨rfl, rfl⟩]
  refine ⟨fun hh => ?_, fun hh => ?_, fun k' => ?_⟩
  · rw [p5, Bool.or_eq_true] at hh
    rcases hh with hh | hh
    · obtain ⟨k', j, v', h1, h2⟩ := h.hasR hh
      exact ⟨k', j, v', keep _ _ _ h1, h2⟩
    · refine ⟨k, i, _, new, ?_⟩
      cases r with
      | null => cases hr
      | none => simp [Arg.isNone] at hh
      | obj r => simp [Arg.opt]
  · rw [p5, Bool.or_eq_false_iff] at hh
    rw [p6, if_neg (by rintro ⟨h1, _⟩; rw [h1] at hh; simp at hh)]
    exact h.ne hh.1
  · by_cases hv : v = .active ∧ k' = k
    · obtain ⟨rfl, rfl⟩ := hv
      exact Or.inr ⟨i, _, new, rfl⟩
    · rw [p7, if_neg (by rintro ⟨h1, h2, _⟩; exact hv ⟨h1, h2⟩)]
      rcases h.len k' with hl | ⟨j, v', h1, h2⟩
      · exact Or.inl hl
      · exact Or.inr ⟨j, v', keep _ _ _ h1, h2⟩

theorem Rooted.same {s t : OpI α} (h : Rooted s) (h1 : t.inF = s.inF) (h2 : t.outF = s.outF) (h3 : t.hasR = s.hasR)
    (h4 : t.inSize = s.inSize) (h5 : t.outSize = s.outSize) (h6 : t.ne = s.ne) : Rooted t := by
  have hs : ∀ k i, t.slot k i = s.slot k i := fun k i => by unfold OpI.slot; rw [h1, h2]
  have hl : ∀ k, t.len k = s.len k := fun k => by unfold OpI.len; rw [h4, h5]
  refine ⟨fun hr => ?_, fun hr => ?_, fun k => ?_⟩
  · obtain ⟨k, i, v, a, b⟩ := h.hasR (h3 ▸ hr)
    exact ⟨k, i, v, (hs k i).trans a, b⟩
  · rw [h6]; exact h.ne (h3 ▸ hr)
  · rw [hl]
    rcases h.len k with a | ⟨i, v, a, b⟩
    · exact Or.inl a
    · exact Or.inr ⟨i, v, (hs k i).trans a, b⟩

theorem checkReady_err {s s' : OpI α} {c : Err} (e : checkReady s = .err s' c) : s' = s ∨ s' = s.freeze := by
  unfold checkReady at e
  simp only [M.bind_apply, getO_apply, Out.bind_ok] at e
  split at e
  · cases e
  · simp only [M.bind_apply, modO_apply, M.check_apply] at e
    split at e
    · rw [Out.bind_ok, Out.bind_ok] at e
      split at e
      · rw [Out.bind_ok] at e
        split at e
        · rw [Out.bind_ok] at e
          split at e
          · cases e
          · cases e; exact Or.inr rfl
        · cases e; exact Or.inr rfl
      · cases e; exact Or.inr rfl
    · cases e; exact Or.inl rfl

theorem Built.rooted {rs : Nat → Rstr} {s : OpI α} (h : Built rs True s) : Rooted s := by
  induction h with
  | create hq => exact ⟨fun h => (by cases h), fun _ => rfl, fun k => Or.inl (by cases k <;> rfl)⟩
  | qf _ hq ih => exact ih.same rfl rfl rfl rfl rfl rfl
  | @setField s s' name r b v h hz ho e ih =>
    by_cases hacc : s.immutable = false ∧ ∃ w isIn i f, v = some w ∧ locate name s.qf = some (isIn, i, f) ∧
        Accepted rs s r b w isIn f
    · obtain ⟨hi, w, k, i, f, rfl, hl, ha⟩ := hacc
      rw [setField_ok hi hl ha] at e
      cases e
      exact ih.fill (unset_of_once h.inv hl (ho trivial)) ha.rstrOk
    · obtain ⟨s1, c, he, _⟩ := setField_err rs s r b v name hacc
      rw [he] at e; cases e
  | @setFieldErr s s' name r b v c h ho e ih =>
    by_cases hacc : s.immutable = false ∧ ∃ w isIn i f, v = some w ∧ locate name s.qf = some (isIn, i, f) ∧
        Accepted rs s r b w isIn f
    · obtain ⟨hi, w, k, i, f, rfl, hl, ha⟩ := hacc
      rw [setField_ok hi hl ha] at e
      cases e
    · obtain ⟨s1, c', he, hs⟩ := setField_err rs s r b v name hacc
      rw [he] at e; cases e
      rcases hs with rfl | rfl | ⟨k, i, f, hl, rfl⟩
      · exact ih
      · exact ih.same rfl rfl rfl rfl rfl rfl
      · exact ih.put (rs := rs) (unset_of_once h.inv hl (ho trivial))
  | checkReady _ e ih =>
    rcases (checkReady_ok e).2 with rfl | rfl
    · exact ih
    · exact ih.same rfl rfl rfl rfl rfl rfl
  | checkReadyErr _ e ih =>
    rcases checkReady_err e with rfl | rfl
    · exact ih
    · exact ih.same rfl rfl rfl rfl rfl rfl

/-! ## The copy -/

/-- The copy `t` while fields are set: `done k i` are set as in `s`, everything recorded agrees. -/
structure Part (s t : OpI α) (done : Bool → Nat → Prop) (n : Nat) : Prop where
  inputs : t.qf.inputs = s.qf.inputs
  outputs : t.qf.outputs = s.qf.outputs
  vecLength : t.qf.vecLength = s.qf.vecLength
  slots : ∀ k i, done k i → t.slot k i = s.slot k i
  unset : ∀ k i, ¬ done k i → t.slot k i = .empty
  mutable : t.immutable = false
  hasR : t.hasR = true → t.ne = s.ne
  some : ∀ k i v, done k i → s.slot k i = .set v → v.rid ≠ none → t.hasR = true
  Q : t.Q = 0 ∨ t.Q = s.Q
  full : 0 < n → t.Q = s.Q
  len : ∀ k, t.len k = -1 ∨ t.len k = s.len k
  active : ∀ k i v, done k i → s.slot k i = .set v → v.vec = .active → t.len k = s.len k
  nf : t.nf = n

theorem fbArg_ok {β : Type _} (o : Option β) : (fbArg o).ok = true := by cases o <;> rfl
theorem fbArg_opt {β : Type _} (o : Option β) : (fbArg o).opt = o := by cases o <;> rfl

/-- One field. -/
theorem copy_one {rs : Nat → Rstr} {s t : OpI α} {done : Bool → Nat → Prop} {n : Nat} (hI : BInv rs True s)
    (hp : Part s t done n) {k : Bool} {i : Nat} {v : FVal α} (hv : s.slot k i = .set v) :
    ∃ t', setField rs v.name (fbArg v.rid) (fbArg v.basis) (some v.vec) t = .ok t' () ∧
      Part s t' (fun k' j => done k' j ∨ (k' = k ∧ j = i)) (n + 1) := by
  obtain ⟨hQ, f, hf, ha⟩ := hI.agrees k i v hv
  have htab : ∀ k, t.tab k = s.tab k := fun k => by unfold OpI.tab; rw [hp.inputs, hp.outputs]
  have hl : locate v.name t.qf = Option.some (k, i, f) := by
    refine locate_eq (s := t) ?_ (by rw [htab]; exact hf) ha.name.symm
    have := hI.nodup
    unfold QFunction.names at this ⊢
    rwa [hp.inputs, hp.outputs]
  have hq : argQ rs (fbArg v.rid) (fbArg v.basis) = s.Q := by
    rw [← qpts_eq (v := v.vec) (name := v.name), fbArg_opt, fbArg_opt]; exact ha.points
  have hn : argLen rs (fbArg v.rid) = v.llen rs := by
    rw [← llen_eq (v := v.vec) (name := v.name) (b := v.basis), fbArg_opt]
  have hacc : Accepted rs t (fbArg v.rid) (fbArg v.basis) v.vec k f := by
    refine ⟨fbArg_ok _, fbArg_ok _, ?_, fun r' hr hh => ?_, fun r' hr => ?_, ?_, fun hva => ?_⟩
    · rw [fbArg_opt, fbArg_opt]; exact ha.suits
    · have : v.rid = Option.some r' := by rw [← fbArg_opt v.rid, hr]; rfl
      rw [hp.hasR hh]; exact (ha.elems r' this).2
    · exact ha.standard r' (by rw [← fbArg_opt v.rid, hr]; rfl)
    · rw [hq]
      rcases hp.Q with h | h
      · exact Or.inl h
      · exact Or.inr h.symm
    · rw [hn, ha.length hva]
      rcases hp.len k with h | h
      · exact Or.inl h
      · exact Or.inr h.symm
  refine ⟨_, setField_ok hp.mutable hl hacc, ?_⟩
  obtain ⟨p1, p2, p3, p4, p5, p6, p7, p8, p9⟩ :=
    fill_rest rs t.freeze k i v.name (fbArg v.rid) (fbArg v.basis) v.vec
  have hlen : ∀ k', (t.freeze.fill rs k i v.name (fbArg v.rid) (fbArg v.basis) v.vec).len k' =
      if v.vec = .active ∧ k' = k ∧ t.len k = -1 then s.len k else t.len k' := by
    intro k'
    rw [p7]
    by_cases hc : v.vec = .active ∧ k' = k ∧ t.len k = -1
    · rw [if_pos hc, if_pos (show v.vec = .active ∧ k' = k ∧ t.freeze.len k = -1 from hc), hn, ha.length hc.1]
    · rw [if_neg hc, if_neg (show ¬ (v.vec = .active ∧ k' = k ∧ t.freeze.len k = -1) from hc)]; rfl
  have hQ' : (t.freeze.fill rs k i v.name (fbArg v.rid) (fbArg v.basis) v.vec).Q = s.Q := by
    rw [p4, hq]
    rcases hp.Q with h | h
    · rw [if_pos (show t.freeze.Q = 0 from h)]
    · split
      · rfl
      · exact h
  refine ⟨by rw [p1]; exact hp.inputs, by rw [p1]; exact hp.outputs, by rw [p1]; exact hp.vecLength, fun k' j hd => ?_,
    fun k' j hd => ?_, by rw [p9]; exact hp.mutable, fun hh => ?_, fun k' j w hd hw hr => ?_, Or.inr hQ', fun _ => hQ',
    fun k' => ?_, fun k' j w hd hw hva => ?_, by rw [p3, show t.freeze.nf = t.nf from rfl, hp.nf]⟩
  · rw [p2]
    split
    · rename_i hc
      obtain ⟨rfl, rfl⟩ := hc
      rw [fbArg_opt, fbArg_opt, hv]
    · rename_i hc
      exact hp.slots k' j (hd.resolve_right hc)
  · rw [p2, if_neg (fun hc => hd (Or.inr hc))]
    exact hp.unset k' j (fun hc => hd (Or.inl hc))
  · rw [p6]
    rw [p5, Bool.or_eq_true] at hh
    cases hr : v.rid with
    | none =>
      rw [hr] at hh
      rw [if_neg (by simp [fbArg, Arg.isNone])]
      refine hp.hasR (hh.resolve_right ?_)
      simp [fbArg, Arg.isNone]
    | some r' =>
      cases ht : t.hasR with
      | true =>
        rw [if_neg (by rintro ⟨_, h2⟩; rw [show t.freeze.hasR = t.hasR from rfl, ht] at h2; cases h2)]
        exact hp.hasR ht
      | false =>
        rw [if_pos ⟨rfl, ht⟩]
        exact (ha.elems r' hr).2
  · rw [p5, Bool.or_eq_true]
    rcases hd with hd | ⟨rfl, rfl⟩
    · exact Or.inl (hp.some k' j w hd hw hr)
    · rw [hv] at hw
      cases hw
      right
      cases hr' : v.rid with
      | none => exact absurd hr' hr
      | some r' => rfl
  · rw [hlen]
    split
    · rename_i hc
      rw [hc.2.1]; exact Or.inr rfl
    · exact hp.len k'
  · rw [hlen]
    split
    · rename_i hc
      rw [hc.2.1]
    · rename_i hc
      rcases hd with hd | ⟨rfl, rfl⟩
      · exact hp.active k' j w hd hw hva
      · rw [hv] at hw
        cases hw
        exact (hp.len k').resolve_left fun h => hc ⟨hva, rfl, h⟩

/-- Setting a field of the copy is a step of its history. -/
theorem copy_built {rs : Nat → Rstr} {s t t' : OpI α} {done : Bool → Nat → Prop} {n : Nat} (hI : BInv rs True s)
    (hp : Part s t done n) (ht : Built rs True t) {k : Bool} {i : Nat} {v : FVal α} (hv : s.slot k i = .set v)
    (hd : ¬ done k i) (hz : ∀ r, 0 < (rs r).elemSize ∧ 0 ≤ (rs r).lSize)
    (e : setField rs v.name (fbArg v.rid) (fbArg v.basis) (some v.vec) t = .ok t' ()) : Built rs True t' := by
  obtain ⟨hQ, f, hf, ha⟩ := hI.agrees k i v hv
  refine .setField ht ⟨hz, fun b hb => ?_⟩ (fun _ => ?_) e
  · have : v.basis = some b := by rw [← fbArg_opt v.basis, hb]; rfl
    have h2 := ha.points
    unfold FVal.qpts at h2
    rw [this] at h2
    simp only at h2
    omega
  · rintro ⟨k', j, w, h1, h2⟩
    obtain ⟨_, g, hg, hb⟩ := ht.inv.agrees k' j w h1
    have htab : ∀ k, t.tab k = s.tab k := fun k => by unfold OpI.tab; rw [hp.inputs, hp.outputs]
    have l1 := locate_eq (s := t) (name := v.name) ht.inv.nodup hg (hb.name.symm.trans h2)
    have l2 := locate_eq (s := t) (name := v.name) ht.inv.nodup (by rw [htab]; exact hf) ha.name.symm
    rw [l1] at l2
    have l3 := Option.some.inj l2
    have e1 : k' = k := congrArg Prod.fst l3
    have e2 : j = i := congrArg (fun x => x.2.1) l3
    subst e1 e2
    rw [hp.unset _ _ hd] at h1
    cases h1

/-- A table. -/
theorem copyFields_ok {rs : Nat → Rstr} {s : OpI α} (hI : BInv rs True s) (k : Bool) (tab : Nat → Slot α)
    (htab : ∀ i, tab i = s.slot k i) (hz : ∀ r, 0 < (rs r).elemSize ∧ 0 ≤ (rs r).lSize) :
    ∀ (m i n : Nat) (t : OpI α) (done : Bool → Nat → Prop), (∀ j, i ≤ j → j < i + m → ∃ v, s.slot k j = .set v) →
      Part s t done n → Built rs True t → (∀ j, i ≤ j → ¬ done k j) →
      ∃ t', copyFields rs tab m i t = .ok t' () ∧ Built rs True t' ∧
        Part s t' (fun k' j => done k' j ∨ (k' = k ∧ i ≤ j ∧ j < i + m)) (n + m) := by
  intro m
  induction m with
  | zero =>
    intro i n t done _ hp hb _
    refine ⟨t, rfl, hb, ?_⟩
    have : (fun k' j => done k' j ∨ (k' = k ∧ i ≤ j ∧ j < i + 0)) = done := by
      funext k' j
      refine propext ⟨fun h => h.resolve_right (by rintro ⟨_, h1, h2⟩; omega), Or.inl⟩
    rw [this]
    exact hp
  | succ m ih =>
    intro i n t done hset hp hb hd
    obtain ⟨v, hv⟩ := hset i (Nat.le_refl _) (by omega)
    obtain ⟨t1, e1, hp1⟩ := copy_one hI hp hv
    have hb1 := copy_built hI hp hb hv (hd i (Nat.le_refl _)) hz e1
    obtain ⟨t2, e2, hb2, hp2⟩ := ih (i + 1) (n + 1) t1 _ (fun j h1 h2 => hset j (by omega) (by omega)) hp1 hb1
      (fun j h1 h2 => by
        rcases h2 with h2 | ⟨_, h2⟩
        · exact hd j (by omega) h2
        · omega)
    refine ⟨t2, ?_, hb2, ?_⟩
    · unfold copyFields
      rw [htab, hv]
      simp only
      rw [M.bind_apply, e1, Out.bind_ok, e2]
    · have : (fun k' j => (done k' j ∨ (k' = k ∧ j = i)) ∨ (k' = k ∧ i + 1 ≤ j ∧ j < i + 1 + m)) =
          fun k' j => done k' j ∨ (k' = k ∧ i ≤ j ∧ j < i + (m + 1)) := by
        funext k' j
        refine propext ⟨?_, ?_⟩
        · rintro ((h | ⟨h, h'⟩) | ⟨h, h', h''⟩)
          · exact Or.inl h
          · exact Or.inr ⟨h, by omega, by omega⟩
          · exact Or.inr ⟨h, by omega, by omega⟩
        · rintro (h | ⟨h, h', h''⟩)
          · exact Or.inl (Or.inl h)
          · by_cases hj : j = i
            · exact Or.inl (Or.inr ⟨h, hj⟩)
            · exact Or.inr ⟨h, by omega, by omega⟩
      rw [this] at hp2
      rw [show n + (m + 1) = n + 1 + m by omega]
      exact hp2

theorem checkReady_pass {t : OpI α} (h1 : 0 < t.nf) (h2 : t.nf = t.qf.inputs.length + t.qf.outputs.length)
    (h3 : t.hasR = true) (h4 : 0 < t.Q) :
    ∃ t', checkReady t = .ok t' () ∧ t'.ready = true ∧ (t' = t ∨ t' = { t.freeze with ready := true }) := by
  unfold checkReady
  simp only [M.bind_apply, getO_apply, Out.bind_ok]
  split
  · rename_i h; exact ⟨t, rfl, h, Or.inl rfl⟩
  · simp only [M.bind_apply, modO_apply, M.check_apply]
    rw [if_pos h1, Out.bind_ok, Out.bind_ok, if_pos h2, Out.bind_ok, if_pos h3, Out.bind_ok, if_pos h4]
    exact ⟨_, rfl, rfl, Or.inr rfl⟩

/-- The copy of a ready operator. -/
theorem copyAll_ok {rs : Nat → Rstr} {s : OpI α} (h : Built rs True s) (hr : s.ready = true)
    (hz : ∀ r, 0 < (rs r).elemSize ∧ 0 ≤ (rs r).lSize) {q : QFunction.QFunc} {w : Int}
    (hq : QFunction.Calls (QFunction.QFunc.create w) q) (q1 : q.inputs = s.qf.inputs) (q2 : q.outputs = s.qf.outputs)
    (q3 : q.vecLength = s.qf.vecLength) :
    ∃ t, copyAll rs s (OpI.create q) = .ok t () ∧ CopyOf s t ∧ Built rs True t := by
  have hI := h.inv
  obtain ⟨_, r2, r3, r4⟩ := hI.ready hr
  have hn := r4 trivial
  have p0 : Part s (OpI.create q) (fun _ _ => False) 0 :=
    ⟨q1, q2, q3, fun _ _ hf => hf.elim, fun k i _ => by cases k <;> rfl, rfl, fun hf => (by cases hf), fun _ _ _ hf => hf.elim,
      Or.inl rfl, fun hf => absurd hf (by omega), fun k => Or.inl (by cases k <;> rfl), fun _ _ _ hf => hf.elim, rfl⟩
  obtain ⟨t1, e1, b1, p1⟩ := copyFields_ok hI true s.inF (fun _ => rfl) hz s.qf.inputs.length 0 0 _ _
    (fun j _ hj => hI.full trivial hn true (by rw [Nat.zero_add] at hj; exact hj)) p0 (.create hq) (fun _ _ hf => hf)
  obtain ⟨t2, e2, b2, p2⟩ := copyFields_ok hI false s.outF (fun _ => rfl) hz s.qf.outputs.length 0 _ _ _
    (fun j _ hj => hI.full trivial hn false (by rw [Nat.zero_add] at hj; exact hj)) p1 b1
    (fun j _ hf => by rcases hf with hf | ⟨hf, _⟩
                      · exact hf
                      · cases hf)
  have hall : ∀ k i, i < (s.tab k).length → ((False ∨ (k = true ∧ 0 ≤ i ∧ i < 0 + s.qf.inputs.length)) ∨
      (k = false ∧ 0 ≤ i ∧ i < 0 + s.qf.outputs.length)) := by
    intro k i hi
    cases k with
    | true => exact Or.inl (Or.inr ⟨rfl, by omega, by rw [Nat.zero_add]; exact hi⟩)
    | false => exact Or.inr ⟨rfl, by omega, by rw [Nat.zero_add]; exact hi⟩
  have hset : ∀ k i v, s.slot k i = .set v → i < (s.tab k).length := by
    intro k i v hv
    obtain ⟨_, f, hf, _⟩ := hI.agrees k i v hv
    exact (List.getElem?_eq_some_iff.1 hf).1
  obtain ⟨k, i, v, hv, hrid⟩ := h.rooted.hasR r2
  have hik := hset k i v hv
  have hpos : 0 < s.qf.inputs.length + s.qf.outputs.length := by
    cases k with
    | true => have : i < s.qf.inputs.length := hik
              omega
    | false => have : i < s.qf.outputs.length := hik
               omega
  have hnf : t2.nf = s.qf.inputs.length + s.qf.outputs.length := by rw [p2.nf]; omega
  have hR := p2.some k i v (hall k i hik) hv hrid
  have hQ : t2.Q = s.Q := p2.full (by omega)
  obtain ⟨t, e, hready, ht⟩ := checkReady_pass (t := t2) (by omega) (by rw [hnf, p2.inputs, p2.outputs]) hR (by rw [hQ]; exact r3)
  refine ⟨t, ?_, ?_, .checkReady b2 e⟩
  · unfold copyAll
    rw [M.bind_apply, e1, Out.bind_ok, M.bind_apply, e2, Out.bind_ok, e]
  · have hlen : ∀ k, t2.len k = s.len k := by
      intro k
      rcases h.rooted.len k with hl | ⟨j, u, h1, h2⟩
      · rcases p2.len k with h' | h'
        · rw [h', hl]
        · exact h'
      · exact p2.active k j u (hall k j (hset k j u h1)) h1 h2
    have hc : CopyOf s { t2 with ready := true } :=
      ⟨p2.inputs, p2.outputs, p2.vecLength, fun k i hi => p2.slots k i (hall k i hi), p2.hasR hR, hQ, hlen, hnf, rfl⟩
    rcases ht with rfl | rfl
    · exact ⟨hc.inputs, hc.outputs, hc.vecLength, hc.slots, hc.ne, hc.Q, hc.len, hc.nf, hready⟩
    · exact ⟨hc.inputs, hc.outputs, hc.vecLength, hc.slots, hc.ne, hc.Q, hc.len, hc.nf, rfl⟩

theorem checkReady_freeze {s s' : OpI α} (e : checkReady s = .ok s' ()) (hi : s.ready = true → s.qf.immutable = true) :
    checkReady s.freeze = .ok s' () := by
  by_cases hr : s.ready = true
  · have : s.freeze = s := by
      have := hi hr
      cases s with | mk qf _ _ _ _ _ _ _ _ _ _ =>
      cases qf
      simp only at this
      subst this
      rfl
    rw [this]; exact e
  · unfold checkReady at e ⊢
    simp only [M.bind_apply, getO_apply, Out.bind_ok] at e ⊢
    rw [if_neg hr] at e
    rw [if_neg (show ¬ s.freeze.ready = true from hr)]
    simp only [M.bind_apply, modO_apply, M.check_apply] at e ⊢
    split at e
    · rename_i h1
      rw [if_pos (show 0 < s.freeze.nf from h1)]
      rw [Out.bind_ok, Out.bind_ok] at e ⊢
      split at e
      · rename_i h2
        rw [if_pos (show s.freeze.nf = s.freeze.qf.inputs.length + s.freeze.qf.outputs.length from h2)]
        rw [Out.bind_ok] at e ⊢
        split at e
        · rename_i h3
          rw [if_pos (show s.freeze.hasR = true from h3)]
          rw [Out.bind_ok] at e ⊢
          split at e
          · rename_i h4
            rw [if_pos (show 0 < s.freeze.Q from h4)]
            exact e
          · cases e
        · cases e
      · cases e
    · cases e

/-- The copy of an operator that passes the readiness check. -/
theorem copyOp_ok {rs : Nat → Rstr} {s s' : OpI α} (h : Built rs True s) (hz : ∀ r, 0 < (rs r).elemSize ∧ 0 ≤ (rs r).lSize)
    (e : checkReady s = .ok s' ()) :
    ∃ t, copyOp rs s = .ok s' t ∧ CopyOf s' t ∧ Built rs True t := by
  obtain ⟨w, hw⟩ := h.inv.calls
  have hq := addFields_ok hw s.qf.vecLength
  have e' := checkReady_freeze e (fun hr => (h.inv.ready hr).1)
  have hqf : s'.qf.inputs = s.qf.inputs ∧ s'.qf.outputs = s.qf.outputs ∧ s'.qf.vecLength = s.qf.vecLength := by
    rcases (checkReady_ok e).2 with rfl | rfl <;> exact ⟨rfl, rfl, rfl⟩
  obtain ⟨t, ht, hc, hb⟩ := copyAll_ok (.checkReady h e) (checkReady_ok e).1 hz (addFields_calls hq) hqf.1.symm hqf.2.1.symm
    hqf.2.2.symm
  refine ⟨t, ?_, hc, hb⟩
  unfold copyOp fallbackQF
  simp only [M.bind_apply, getO_apply, modO_apply, Out.bind_ok]
  unfold within
  rw [hq]
  simp only [M.pure_apply, Out.bind_ok]
  rw [show checkReady { s with qf := { s.qf with immutable := true } } = .ok s' () from e', Out.bind_ok, ht]
  rfl

theorem copyOp_err {rs : Nat → Rstr} {s s' : OpI α} {c : Err} (h : Built rs True s)
    (e : checkReady s = .err s' c) : copyOp rs s = .err s.freeze c := by
  obtain ⟨w, hw⟩ := h.inv.calls
  have hq := addFields_ok hw s.qf.vecLength
  unfold copyOp fallbackQF
  simp only [M.bind_apply, getO_apply, modO_apply, Out.bind_ok]
  unfold within
  rw [hq]
  simp only [M.pure_apply, Out.bind_ok]
  have : checkReady s.freeze = .err s.freeze c := by
    unfold checkReady at e ⊢
    simp only [M.bind_apply, getO_apply, Out.bind_ok] at e ⊢
    split at e
    · cases e
    · rename_i hr
      rw [if_neg (show ¬ s.freeze.ready = true from hr)]
      simp only [M.bind_apply, modO_apply, M.check_apply] at e ⊢
      by_cases h1 : 0 < s.nf
      · rw [if_pos h1] at e
        rw [if_pos (show 0 < s.freeze.nf from h1)]
        rw [Out.bind_ok, Out.bind_ok] at e ⊢
        by_cases h2 : s.nf = s.qf.inputs.length + s.qf.outputs.length
        · rw [if_pos h2] at e
          rw [if_pos (show s.freeze.nf = s.freeze.qf.inputs.length + s.freeze.qf.outputs.length from h2)]
          rw [Out.bind_ok] at e ⊢
          by_cases h3 : s.hasR = true
          · rw [if_pos h3] at e
            rw [if_pos (show s.freeze.hasR = true from h3)]
            rw [Out.bind_ok] at e ⊢
            by_cases h4 : 0 < s.Q
            · rw [if_pos h4] at e; cases e
            · rw [if_neg h4] at e
              rw [if_neg (show ¬ 0 < s.freeze.Q from h4)]
              cases e; rfl
          · rw [if_neg h3] at e
            rw [if_neg (show ¬ s.freeze.hasR = true from h3)]
            cases e; rfl
        · rw [if_neg h2] at e
          rw [if_neg (show ¬ s.freeze.nf = s.freeze.qf.inputs.length + s.freeze.qf.outputs.length from h2)]
          cases e; rfl
      · rw [if_neg h1] at e
        rw [if_neg (show ¬ 0 < s.freeze.nf from h1)]
        cases e; rfl
  rw [show checkReady { s with qf := { s.qf with immutable := true } } = .err s.freeze c from this]
  rfl

end Operator
end Verif
