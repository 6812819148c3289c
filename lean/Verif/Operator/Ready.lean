import Verif.Operator.FieldsProps
import Verif.Operator.Examples

/-!
# C41: theorems, and the connection with application
-/

set_option linter.unusedSectionVars false

namespace Verif
namespace Operator

open Finset
open Restriction (Rstr Made)
open Basis (Bas EMode)

variable {α : Type}

/-- **C41.** When `CeedOperatorSetField` is accepted: the QFunction has a field of this name, and restriction and basis
have the components it asks for, the element count, the number of quadrature points and the vector length of the fields
set before. -/
theorem C41_accept {rs : Nat → Rstr} {once : Prop} {s : OpI α} (h : Built rs once s) (name : List Char) (r : Arg Nat)
    (b : Arg (Bas α)) (v : Option FVec) :
    (∃ s', setField rs name r b v s = .ok s' ()) ↔
      ∃ (w : FVec) (k : Bool) (i : Nat) (f : QFunction.Field), v = some w ∧ (s.tab k)[i]? = some f ∧ f.name = name ∧
        Accepted rs s r b w k f := by
  have hI := h.inv
  constructor
  · rintro ⟨s', e⟩
    by_cases hacc : s.immutable = false ∧ ∃ w isIn i f, v = some w ∧ locate name s.qf = some (isIn, i, f) ∧
        Accepted rs s r b w isIn f
    · obtain ⟨_, w, k, i, f, hw, hl, ha⟩ := hacc
      obtain ⟨l1, l2⟩ := locate_some hl
      exact ⟨w, k, i, f, hw, l1, l2, ha⟩
    · obtain ⟨s1, c, he, _⟩ := setField_err rs s r b v name hacc
      rw [he] at e; cases e
  · rintro ⟨w, k, i, f, rfl, h1, h2, ha⟩
    exact ⟨_, setField_ok hI.mutable (locate_eq hI.nodup h1 h2) ha⟩

/-- **C41.** An accepted call fills in exactly the field named, with the objects given. -/
theorem C41_stored {rs : Nat → Rstr} {once : Prop} {s s' : OpI α} (h : Built rs once s) {name : List Char} {r : Arg Nat}
    {b : Arg (Bas α)} {v : Option FVec} (e : setField rs name r b v s = .ok s' ()) :
    ∃ (w : FVec) (k : Bool) (i : Nat) (f : QFunction.Field), v = some w ∧ (s.tab k)[i]? = some f ∧ f.name = name ∧ s'.slot k i = .set ⟨name, w, r.opt, b.opt⟩ ∧
      ∀ k' j, (k', j) ≠ (k, i) → s'.slot k' j = s.slot k' j := by
  obtain ⟨w, k, i, f, rfl, h1, h2, ha⟩ := (C41_accept h name r b v).1 ⟨s', e⟩
  rw [setField_ok h.inv.mutable (locate_eq h.inv.nodup h1 h2) ha] at e
  cases e
  obtain ⟨_, f2, _⟩ := fill_rest rs s.freeze k i name r b w
  refine ⟨w, k, i, f, rfl, h1, h2, ?_, fun k' j hne => ?_⟩
  · rw [f2, if_pos ⟨rfl, rfl⟩]
  · rw [f2, if_neg (fun x => hne (by rw [x.1, x.2]))]; rfl

/-- **C41.** After every history, each field that is set is right for its QFunction field and agrees with the element
count, the number of quadrature points and the active vector length of the operator; hence all fields agree with each
other. -/
theorem C41_consistent {rs : Nat → Rstr} {s : OpI α} (h : Built rs False s) {k : Bool} {i : Nat} {v : FVal α}
    (hv : s.slot k i = .set v) : 0 < s.Q ∧ ∃ f, (s.tab k)[i]? = some f ∧ Agrees rs s k f v :=
  h.inv.agrees k i v hv

theorem checkReady_ok {s s' : OpI α} (e : checkReady s = .ok s' ()) :
    s'.ready = true ∧ (s' = s ∨ s' = { s.freeze with ready := true }) := by
  unfold checkReady at e
  simp only [M.bind_apply, getO_apply, Out.bind_ok] at e
  split at e
  · rename_i hr
    cases e; exact ⟨hr, Or.inl rfl⟩
  · simp only [M.bind_apply, modO_apply, M.check_apply] at e
    split at e
    · rw [Out.bind_ok, Out.bind_ok] at e
      split at e
      · rw [Out.bind_ok] at e
        split at e
        · rw [Out.bind_ok] at e
          split at e
          · cases e; exact ⟨rfl, Or.inr rfl⟩
          · cases e
        · cases e
      · cases e
    · cases e

/-- **C41.** If no field is set again after it has been set, an operator that passes `CeedOperatorCheckReady` has every
field of the QFunction set, all right for the QFunction and in agreement. (Missing: histories that set a field twice, for
which this is false: `C41_twice_witness`, `C41_refused_witness`.) -/
theorem C41_ready_partial {rs : Nat → Rstr} {s s' : OpI α} (h : Built rs True s) (e : checkReady s = .ok s' ()) :
    s'.hasR = true ∧ 0 < s'.Q ∧
    ∀ k i f, (s'.tab k)[i]? = some f → ∃ v, s'.slot k i = .set v ∧ Agrees rs s' k f v := by
  have hI := (Built.checkReady h e).inv
  obtain ⟨_, h2, h3, h4⟩ := hI.ready (checkReady_ok e).1
  refine ⟨h2, h3, fun k i f hf => ?_⟩
  obtain ⟨v, hv⟩ := hI.full trivial (h4 trivial) k (List.getElem?_eq_some_iff.1 hf).1
  obtain ⟨_, g, hg, ha⟩ := hI.agrees k i v hv
  rw [hf] at hg; cases hg
  exact ⟨v, hv, ha⟩

/-- **C41.** After the readiness check the fields of the QFunction can no longer change, and `CeedOperatorSetField`
accepts no field except those already set. (Missing: fields already set can be replaced, `C41_changed_witness`.) -/
theorem C41_unchangeable_partial {rs : Nat → Rstr} {s s1 s2 : OpI α} (h : Built rs True s) (e : checkReady s = .ok s1 ())
    (h2 : Built rs True s2) (hr : s2.ready = true) :
    (∀ q, QFunction.Calls s1.qf q → q.inputs = s.qf.inputs ∧ q.outputs = s.qf.outputs) ∧
    ∀ name r b v, (∃ s', setField rs name r b v s2 = .ok s' ()) → IsSet s2 name := by
  constructor
  · intro q hq
    obtain ⟨h1, h3⟩ := checkReady_ok e
    have hi := ((Built.checkReady h e).inv.ready h1).1
    obtain ⟨_, f2, f3⟩ := QFunction.frozen hq hi
    rcases h3 with rfl | rfl
    · exact ⟨f2, f3⟩
    · exact ⟨f2, f3⟩
  · rintro name r b v hok
    obtain ⟨w, k, i, f, rfl, h3, h4, ha⟩ := (C41_accept h2 name r b v).1 hok
    obtain ⟨_, _, _, h5⟩ := h2.inv.ready hr
    obtain ⟨v', hv⟩ := h2.inv.full trivial (h5 trivial) k (List.getElem?_eq_some_iff.1 h3).1
    obtain ⟨_, g, hg, hag⟩ := h2.inv.agrees k i v' hv
    rw [h3] at hg; cases hg
    exact ⟨k, i, v', hv, hag.name.trans h4⟩

/-! ## From readiness to application -/

/-- QFunctions give weights the size one and have no weights among the outputs. -/
theorem calls_weights {v : Int} {q : QFunction.QFunc} (h : QFunction.Calls (QFunction.QFunc.create v) q) :
    (∀ f ∈ q.inputs, f.mode = .weight → f.size = 1) ∧ ∀ f ∈ q.outputs, f.mode ≠ .weight := by
  refine h.ind (P := fun q => (∀ f ∈ q.inputs, f.mode = .weight → f.size = 1) ∧ ∀ f ∈ q.outputs, f.mode ≠ .weight)
    ⟨by simp [QFunction.QFunc.create], by simp [QFunction.QFunc.create]⟩ ?_
  intro c q1 q2 ⟨i1, i2⟩ hc
  rcases QFunction.call_cases hc with rfl | ⟨h1, h2, _⟩ | ⟨n, z, m, rfl, h1, h2, h3, rfl⟩ | ⟨n, z, m, rfl, h1, h2, h3, rfl⟩
  · exact ⟨i1, i2⟩
  · rw [h1, h2]; exact ⟨i1, i2⟩
  · refine ⟨fun f hf hm => ?_, i2⟩
    rcases List.mem_append.1 hf with hf | hf
    · exact i1 f hf hm
    · rw [List.mem_singleton] at hf
      subst hf
      by_contra hne
      simp only [QFunction.qexec, QFunction.addInput_eq] at hc
      rw [if_neg h1, if_pos ⟨hm, hne⟩] at hc
      rcases hc with ⟨a, hc⟩ | ⟨a, hc⟩
      · cases hc
      · injection hc with hc _
        have := congrArg (fun q => q.inputs.length) hc
        simp at this
  · refine ⟨i1, fun f hf hm => ?_⟩
    rcases List.mem_append.1 hf with hf | hf
    · exact i2 f hf hm
    · rw [List.mem_singleton] at hf
      subst hf
      simp only [QFunction.qexec, QFunction.addOutput_eq] at hc
      rw [if_neg h1, if_pos hm] at hc
      rcases hc with ⟨a, hc⟩ | ⟨a, hc⟩
      · cases hc
      · injection hc with hc _
        have := congrArg (fun q => q.outputs.length) hc
        simp at this

/-- What a ready operator needs beyond the checks of the interface: restrictions made by their creation functions, bases
with as many nodes as the restriction, acting by the matrices `S.mIn`, `S.mOut` and weights `S.w`, no vector for weights,
and the conditions on sharing. -/
structure Proper [CommRing α] (rs : Nat → Rstr) (s : OpI α) (S : Meaning α) (op : Oper α) : Prop where
  made : ∀ k i v r, s.slot k i = .set v → v.rid = some r → ∃ l, Made .plain (rs r) 1 l (S.D r)
  nodes : ∀ k i v r b, s.slot k i = .set v → v.rid = some r → v.basis = some b → b.P = (S.D r).es
  mulIn : ∀ i, i < op.nin → isBasisMode (op.inp i).mode = true → ∀ b, (op.inp i).basis = some b →
    Basis.MulBy b (op.inp i).mode (S.mIn i)
  weights : ∀ i, i < op.nin → (op.inp i).mode = .weight → (op.inp i).vec = .none ∧
    ∀ b, (op.inp i).basis = some b → WeightBy b (S.w i)
  mulOut : ∀ o, o < op.nout → isBasisMode (op.out o).mode = true → ∀ b, (op.out o).basis = some b →
    Basis.MulByT b (op.out o).mode (S.mOut o) ∧
    ((∃ j < o, (op.out j).same (op.out o) = true) → Basis.AddByT b (op.out o).mode (S.mOut o))
  shareIn : ∀ i j, i < j → j < op.nin → (op.inp i).same (op.inp j) = true →
    (∀ k < i, (op.inp k).same (op.inp j) = false) → isBasisMode (op.inp i).mode = true
  shareOut : ∀ j o, j < o → o < op.nout → (op.out j).same (op.out o) = true → isBasisMode (op.out o).mode = true
  ident : op.isId = true → op.nin = 1 ∧ op.nout = 1 ∧ (op.out 0).size = (op.inp 0).size ∧
    ((op.inp 0).mode = .none → (op.out 0).mode = .none → (op.inp 0).vec = .active ∧ (op.out 0).vec = .active) ∧
    ((op.inp 0).mode = .weight → (op.out 0).mode ≠ .none)

theorem emode_weight {m : QFunction.EvalMode} : emode m = .weight ↔ m = .weight := by cases m <;> simp [emode]
theorem emode_none {m : QFunction.EvalMode} : emode m = .none ↔ m = .none := by cases m <;> simp [emode]

/-- A field that agrees with a ready operator, as the backend sees it. -/
theorem field_ok [CommRing α] {rs : Nat → Rstr} {s : OpI α} {S : Meaning α} {op : Oper α} (hp : Proper rs s S op)
    (hne : op.ne = s.ne.toNat) (hQ : op.Q = s.Q) (hrs : op.rstrs = rs) {k : Bool} {i : Nat} {v : FVal α} {f : QFunction.Field}
    (hv : s.slot k i = .set v) (ha : Agrees rs s k f v) (a : OField α)
    (hfa : a = ⟨v.vec, v.rid, v.basis, emode f.mode, f.size.toNat⟩) :
    (a.mode ≠ .weight → HasRstr op S a) ∧
    (a.mode = .none → (S.dat a).es = op.Q ∧ a.size = (S.dat a).nc) ∧
    (a.mode = .weight → a.rid = none ∧ ∃ b, a.basis = some b ∧ b.Q = op.Q) ∧
    (isBasisMode a.mode = true → ∃ b, Fits op S a b) := by
  subst hfa
  have hr : f.mode ≠ .weight → ∃ r, v.rid = some r ∧ ∃ l, Made .plain (rs r) 1 l (S.D r) := by
    intro hw
    cases hrid : v.rid with
    | none => exact absurd (ha.suits.rstr.1 hrid) hw
    | some r => exact ⟨r, rfl, hp.made k i v r hv hrid⟩
  have hb : f.mode ≠ .none → ∃ b, v.basis = some b := by
    intro hn
    cases hbb : v.basis with
    | none => exact absurd (ha.suits.basis.1 hbb) hn
    | some b => exact ⟨b, rfl⟩
  refine ⟨fun hm => ?_, fun hm => ?_, fun hm => ?_, fun hm => ?_⟩
  · obtain ⟨r, h1, l, h2⟩ := hr (fun e => hm (emode_weight.2 e))
    refine ⟨r, l, h1, by rw [hrs]; exact h2, ?_⟩
    have h3 := (ha.elems r h1).2
    have h4 := h2.rep.1.ne
    rw [hne, ← h3, h4]; simp
  · have hm' := emode_none.1 hm
    obtain ⟨r, h1, l, h2⟩ := hr (by rw [hm']; simp)
    have hD : S.dat ⟨v.vec, v.rid, v.basis, emode f.mode, f.size.toNat⟩ = S.D r := by
      unfold Meaning.dat; simp only [h1]; rfl
    rw [hD]
    constructor
    · rw [hQ, ← ha.points, ← h2.rep.1.es]
      unfold FVal.qpts
      rw [ha.suits.basis.2 hm', h1]
    · show f.size.toNat = _
      rw [ha.suits.direct hm' r h1, ← h2.rep.1.nc]; simp
  · have hm' := emode_weight.1 hm
    obtain ⟨b, h1⟩ := hb (by rw [hm']; simp)
    refine ⟨ha.suits.rstr.2 hm', b, h1, ?_⟩
    rw [hQ, ← ha.points]
    unfold FVal.qpts
    rw [h1]
  · have hm1 : f.mode ≠ .none := fun e => by rw [show emode f.mode = .none from emode_none.2 e] at hm; cases hm
    have hm2 : f.mode ≠ .weight := fun e => by rw [show emode f.mode = .weight from emode_weight.2 e] at hm; cases hm
    obtain ⟨r, h1, l, h2⟩ := hr hm2
    obtain ⟨b, h3⟩ := hb hm1
    have hD : S.dat ⟨v.vec, v.rid, v.basis, emode f.mode, f.size.toNat⟩ = S.D r := by
      unfold Meaning.dat; simp only [h1]; rfl
    have hnc := ha.suits.comps r b h1 h3
    rw [h2.rep.1.nc] at hnc
    refine ⟨b, h3, by rw [hD]; exact hp.nodes k i v r b hv h1 h3, by rw [hD]; exact hnc.symm, ?_, ?_⟩
    · rw [hQ, ← ha.points]
      unfold FVal.qpts
      rw [h3]
    · rw [hD, hnc]
      show f.size.toNat = _
      rw [ha.suits.values hm1 hm2 b h3, ← Nat.cast_mul]; exact Int.toNat_natCast _

/-- **C41, C37.** An operator that was built through the interface without setting a field twice, passes the readiness
check and is proper, meets the hypotheses of all theorems on application (C37, C39, C40). -/
theorem C41_applicable [CommRing α] {rs : Nat → Rstr} {s s' : OpI α} {S : Meaning α} {isId : Bool}
    {f : (Nat → Nat → α) → Nat → Nat → α} (h : Built rs True s) (e : checkReady s = .ok s' ())
    (hp : Proper rs s' S (s'.oper rs isId f)) : OpOK (s'.oper rs isId f) S := by
  obtain ⟨_, _, hc⟩ := C41_ready_partial h e
  obtain ⟨w, hw⟩ := (Built.checkReady h e).inv.calls
  obtain ⟨w1, w2⟩ := calls_weights hw
  refine ⟨fun i hi => ?_, fun o ho => ?_, hp.shareIn, hp.shareOut, hp.ident⟩
  · have hi' : i < s'.qf.inputs.length := hi
    have hf : (s'.tab true)[i]? = some (s'.qf.inputs[i]) := List.getElem?_eq_getElem hi'
    obtain ⟨v, hv, ha⟩ := hc true i _ hf
    have hfa : (s'.oper rs isId f).inp i =
        ⟨v.vec, v.rid, v.basis, emode (s'.qf.inputs[i]).mode, (s'.qf.inputs[i]).size.toNat⟩ := by
      show (match s'.inF i, s'.qf.inputs[i]? with
        | .set v, some g => (⟨v.vec, v.rid, v.basis, emode g.mode, g.size.toNat⟩ : OField α)
        | _, _ => ⟨.none, Option.none, Option.none, .none, 0⟩) = _
      rw [show s'.inF i = .set v from hv, show s'.qf.inputs[i]? = some (s'.qf.inputs[i]) from hf]
    obtain ⟨c1, c2, c3, c4⟩ := field_ok hp rfl rfl rfl hv ha _ hfa
    have hmul := hp.mulIn i hi
    have hwt := hp.weights i hi
    unfold InOK
    cases hm : ((s'.oper rs isId f).inp i).mode with
    | weight =>
      obtain ⟨d1, b, d2, d3⟩ := c3 hm
      obtain ⟨d4, d5⟩ := hwt hm
      refine ⟨d4, d1, ?_, b, d2, d3, d5 b d2⟩
      rw [hfa] at hm ⊢
      show (s'.qf.inputs[i]).size.toNat = 1
      rw [w1 _ (List.getElem_mem hi') (emode_weight.1 hm)]; rfl
    | none => exact ⟨c1 (by rw [hm]; simp), c2 hm⟩
    | interp =>
      obtain ⟨b, hb⟩ := c4 (by rw [hm]; rfl)
      exact ⟨c1 (by rw [hm]; simp), b, hb, hm ▸ hmul (by rw [hm]; rfl) b hb.1⟩
    | grad =>
      obtain ⟨b, hb⟩ := c4 (by rw [hm]; rfl)
      exact ⟨c1 (by rw [hm]; simp), b, hb, hm ▸ hmul (by rw [hm]; rfl) b hb.1⟩
    | div =>
      obtain ⟨b, hb⟩ := c4 (by rw [hm]; rfl)
      exact ⟨c1 (by rw [hm]; simp), b, hb, hm ▸ hmul (by rw [hm]; rfl) b hb.1⟩
    | curl =>
      obtain ⟨b, hb⟩ := c4 (by rw [hm]; rfl)
      exact ⟨c1 (by rw [hm]; simp), b, hb, hm ▸ hmul (by rw [hm]; rfl) b hb.1⟩
  · have ho' : o < s'.qf.outputs.length := ho
    have hf : (s'.tab false)[o]? = some (s'.qf.outputs[o]) := List.getElem?_eq_getElem ho'
    obtain ⟨v, hv, ha⟩ := hc false o _ hf
    have hfa : (s'.oper rs isId f).out o =
        ⟨v.vec, v.rid, v.basis, emode (s'.qf.outputs[o]).mode, (s'.qf.outputs[o]).size.toNat⟩ := by
      show (match s'.outF o, s'.qf.outputs[o]? with
        | .set v, some g => (⟨v.vec, v.rid, v.basis, emode g.mode, g.size.toNat⟩ : OField α)
        | _, _ => ⟨.none, Option.none, Option.none, .none, 0⟩) = _
      rw [show s'.outF o = .set v from hv, show s'.qf.outputs[o]? = some (s'.qf.outputs[o]) from hf]
    obtain ⟨c1, c2, c3, c4⟩ := field_ok hp rfl rfl rfl hv ha _ hfa
    have hmul := hp.mulOut o ho
    unfold OutOK
    cases hm : ((s'.oper rs isId f).out o).mode with
    | weight =>
      rw [hfa] at hm
      exact absurd (emode_weight.1 hm) (w2 _ (List.getElem_mem ho'))
    | none => exact ⟨c1 (by rw [hm]; simp), c2 hm⟩
    | interp =>
      obtain ⟨b, hb⟩ := c4 (by rw [hm]; rfl)
      exact ⟨c1 (by rw [hm]; simp), b, hb, hm ▸ hmul (by rw [hm]; rfl) b hb.1⟩
    | grad =>
      obtain ⟨b, hb⟩ := c4 (by rw [hm]; rfl)
      exact ⟨c1 (by rw [hm]; simp), b, hb, hm ▸ hmul (by rw [hm]; rfl) b hb.1⟩
    | div =>
      obtain ⟨b, hb⟩ := c4 (by rw [hm]; rfl)
      exact ⟨c1 (by rw [hm]; simp), b, hb, hm ▸ hmul (by rw [hm]; rfl) b hb.1⟩
    | curl =>
      obtain ⟨b, hb⟩ := c4 (by rw [hm]; rfl)
      exact ⟨c1 (by rw [hm]; simp), b, hb, hm ▸ hmul (by rw [hm]; rfl) b hb.1⟩

end Operator
end Verif
