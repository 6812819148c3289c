import Verif.Operator.FallbackProps

/-!
# C75: the theorems on fallback operators
-/

set_option linter.unusedSectionVars false

namespace Verif
namespace Operator

open Finset
open Restriction (Rstr)
open Basis (Bas EMode)

variable {α : Type}

/-- The restrictions have nodes and no negative length, as their creation functions check. -/
def SizedRs (rs : Nat → Rstr) : Prop := ∀ r, 0 < (rs r).elemSize ∧ 0 ≤ (rs r).lSize

theorem getFallback_new {rs : Nat → Rstr} {s : FOp α} (hf : s.fb = none) {o t : OpI α} (e : copyOp rs s.self.op = .ok o t) :
    getFallback rs true s =
      .ok ⟨⟨o, s.self.qi⟩, some ⟨t, QInfo.create s.self.qi.f s.self.qi.ctx⟩⟩
        (some ⟨t, QInfo.create s.self.qi.f s.self.qi.ctx⟩) := by
  obtain ⟨self, fb⟩ := s
  cases hf
  unfold getFallback createFallback
  simp only [M.bind_apply, getF, Out.bind_ok, if_true, onSelf]
  rw [show copyOp rs self.op = .ok o t from e]
  rfl

/-- **C75.** The first request for the fallback of an operator that passes the readiness check succeeds. The result is
ready and a copy: the same QFunction fields with the same user function and context, the same restriction, basis and vector
for every field, and the same numbers of elements, points and active entries. The operator itself is as after its readiness
check. (Missing: histories that set a field twice, `C75_twice_witness`; a field replaced later, `C75_stale_witness`; what
else the QFunction holds, `C75_flops_witness`, `C75_writable_witness`; operators at points.) -/
theorem C75_faithful_partial {rs : Nat → Rstr} {s : FOp α} (h : Built rs True s.self.op) (hz : SizedRs rs) {o : OpI α}
    (e : checkReady s.self.op = .ok o ()) (hf : s.fb = none) :
    ∃ t, getFallback rs true s = .ok ⟨⟨o, s.self.qi⟩, some t⟩ (some t) ∧ CopyOf o t.op ∧ Built rs True t.op ∧
      t.qi.f = s.self.qi.f ∧ t.qi.ctx = s.self.qi.ctx ∧ t.qi.isId = false := by
  obtain ⟨t, ht, hc, hb⟩ := copyOp_ok h hz e
  exact ⟨_, getFallback_new hf ht, hc, hb, rfl, rfl, rfl⟩

/-- **C75.** A copy is the same operator for the backend. -/
theorem C75_same [CommRing α] {rs : Nat → Rstr} {s t : OpI α} (h : CopyOf s t) (isId : Bool)
    (f : (Nat → Nat → α) → Nat → Nat → α) : t.oper rs isId f = s.oper rs isId f := by
  have hi : ∀ i, i < s.qf.inputs.length → t.inF i = s.inF i := fun i hi => h.slots true i hi
  have ho : ∀ i, i < s.qf.outputs.length → t.outF i = s.outF i := fun i hi => h.slots false i hi
  unfold OpI.oper
  congr 1
  · rw [h.ne]
  · rw [h.Q]
  · rw [h.inputs]
  · rw [h.outputs]
  · funext i
    rw [h.inputs]
    by_cases hl : i < s.qf.inputs.length
    · rw [hi i hl]
    · rw [List.getElem?_eq_none (by omega)]
      cases t.inF i <;> cases s.inF i <;> rfl
  · funext i
    rw [h.outputs]
    by_cases hl : i < s.qf.outputs.length
    · rw [ho i hl]
    · rw [List.getElem?_eq_none (by omega)]
      cases t.outF i <;> cases s.outF i <;> rfl

/-- **C75.** The fallback is applied as the operator itself: it meets the hypotheses of the theorems on application (C37,
C39, C40) if the operator does, and what these theorems say it adds to every vector is the same. Identity QFunctions lose
their flag, so that their user function must copy its input, as that of the gallery does. -/
theorem C75_action_partial [CommRing α] {rs : Nat → Rstr} {s : FOp α} (h : Built rs True s.self.op) (hz : SizedRs rs)
    {o : OpI α} (e : checkReady s.self.op = .ok o ()) (hf : s.fb = none) {S : Meaning α}
    (hp : OpOK (o.oper rs s.self.qi.isId s.self.qi.f) S)
    (hid : s.self.qi.isId = true → ∀ x, ∀ j < o.qf.outputs.length, ∀ c, s.self.qi.f x j c = x j c) :
    ∃ s' t, getFallback rs true s = .ok s' (some t) ∧ OpOK (t.op.oper rs t.qi.isId t.qi.f) S ∧
      ∀ L inv outv v x, S.action (t.op.oper rs t.qi.isId t.qi.f) L inv outv v x =
        S.action (o.oper rs s.self.qi.isId s.self.qi.f) L inv outv v x := by
  obtain ⟨t, ht, hc, _, t1, _, t3⟩ := C75_faithful_partial h hz e hf
  refine ⟨_, t, ht, ?_, ?_⟩
  · rw [t1, t3, C75_same hc]
    exact ⟨hp.inp, hp.out, hp.shareIn, hp.shareOut, fun hh => by cases hh⟩
  · intro L inv outv v x
    rw [t1, t3, C75_same hc]
    cases hi : s.self.qi.isId with
    | false => rfl
    | true =>
      unfold Meaning.action
      refine Finset.sum_congr rfl fun j hj => ?_
      have hj' : j < o.qf.outputs.length := Finset.mem_range.1 hj
      have ha : ∀ e c, S.outArr (o.oper rs false s.self.qi.f) L inv e j c = S.outArr (o.oper rs true s.self.qi.f) L inv e j c := by
        intro e c
        unfold Meaning.outArr
        rw [if_neg (by simp [OpI.oper]), if_pos (by simp [OpI.oper])]
        exact hid hi _ j hj' c
      have hE : ∀ e k n, S.elemOut (o.oper rs false s.self.qi.f) L inv j e k n =
          S.elemOut (o.oper rs true s.self.qi.f) L inv j e k n := by
        intro e k n
        unfold Meaning.elemOut
        simp only [ha]
        rfl
      show (if ((o.oper rs true s.self.qi.f).out j).vec.ptr outv = .vec v then _ else _) = _
      unfold Meaning.adds
      simp only [hE]
      rfl

/-- **C75.** Every later request gives the same fallback and changes nothing. -/
theorem C75_once {rs : Nat → Rstr} {has : Bool} {s s' : FOp α} {t : Full α} (e : getFallback rs has s = .ok s' (some t))
    (has' : Bool) : getFallback rs has' s' = .ok s' (some t) := by
  have hf : s'.fb = some t := by
    obtain ⟨self, fb⟩ := s
    cases fb with
    | some u => cases e; rfl
    | none =>
      cases has with
      | false => cases e
      | true =>
        unfold getFallback at e
        simp only [M.bind_apply, getF, Out.bind_ok, if_true] at e
        rw [Out.bind_eq_ok] at e
        obtain ⟨s1, _, _, e2⟩ := e
        simp only [M.pure_apply] at e2
        injection e2 with e3 e4
        rw [← e3]; exact e4
  unfold getFallback
  simp only [M.bind_apply, getF, Out.bind_ok, hf]
  rfl

/-- **C75.** Without a fallback `Ceed` there is no fallback, and nothing changes; an operator that does not pass the
readiness check has no fallback either: the request returns the error of that check, and no fallback is kept. -/
theorem C75_errors_partial {rs : Nat → Rstr} {s : FOp α} (hf : s.fb = none) :
    getFallback rs false s = .ok s none ∧
    ∀ o c, Built rs True s.self.op → checkReady s.self.op = .err o c →
      ∃ s', getFallback rs true s = .err s' c ∧ s'.fb = none ∧ s'.self.op = s.self.op.freeze ∧ s'.self.qi = s.self.qi := by
  obtain ⟨self, fb⟩ := s
  cases hf
  refine ⟨rfl, fun o c h e => ⟨⟨⟨self.op.freeze, self.qi⟩, none⟩, ?_, rfl, rfl, rfl⟩⟩
  · unfold getFallback createFallback
    simp only [M.bind_apply, getF, Out.bind_ok, if_true, onSelf]
    rw [show copyOp rs self.op = .err self.op.freeze c from copyOp_err h e]
    rfl

theorem checkReady_def (s : OpI α) : checkReady s ≠ .ub := by
  intro e
  unfold checkReady at e
  simp only [M.bind_apply, getO_apply, Out.bind_ok] at e
  split at e
  · cases e
  · simp only [M.bind_apply, modO_apply, M.check_apply] at e
    split at e
    · rw [Out.bind_ok, Out.bind_ok] at e
      split at e
      · rw [Out.bind_ok] at e
        split at e
        · rw [Out.bind_ok] at e
          split at e
          · cases e
          · cases e
        · cases e
      · cases e
    · cases e

/-- **C75.** A request for a fallback is defined in every history that sets no field twice. -/
theorem C75_defined_partial {rs : Nat → Rstr} {s : FOp α} (h : Built rs True s.self.op) (hz : SizedRs rs) (has : Bool) :
    getFallback rs has s ≠ .ub := by
  cases hf : s.fb with
  | some t =>
    unfold getFallback
    simp only [M.bind_apply, getF, Out.bind_ok, hf]
    intro hh; cases hh
  | none =>
    cases has with
    | false => rw [(C75_errors_partial hf).1]; intro hh; cases hh
    | true =>
      cases e : checkReady s.self.op with
      | ok o u =>
        obtain ⟨t, ht, _⟩ := C75_faithful_partial h hz e hf
        rw [ht]; intro hh; cases hh
      | err o c =>
        obtain ⟨s', hs, _⟩ := (C75_errors_partial hf).2 o c h e
        rw [hs]; intro hh; cases hh
      | ub => exact absurd e (checkReady_def _)

/-- **C75.** The fallback of a composite operator has, in order, a fallback of every suboperator, each of them a copy.
(Missing: suboperators without a fallback `Ceed`, `C75_composite_witness`.) -/
theorem C75_composite_partial {rs : Nat → Rstr} (hz : SizedRs rs) (l : List (FOp α))
    (h : ∀ s ∈ l, s.fb = none ∧ Built rs True s.self.op ∧ ∃ o, checkReady s.self.op = .ok o ()) :
    ∃ l' ts, compFallback rs (l.map (Prod.mk true)) = .ok l' ts ∧
      List.Forall₂ (fun s t => ∃ o, checkReady s.self.op = .ok o () ∧ CopyOf o t.op ∧ t.qi.f = s.self.qi.f ∧
        t.qi.ctx = s.self.qi.ctx) l ts ∧
      List.Forall₂ (fun s' t => s'.2.fb = some t) l' ts := by
  induction l with
  | nil => exact ⟨[], [], rfl, .nil, .nil⟩
  | cons s l ih =>
    obtain ⟨l', ts, e, h1, h2⟩ := ih fun x hx => h x (List.mem_cons_of_mem _ hx)
    obtain ⟨a, b, o, c⟩ := h s List.mem_cons_self
    obtain ⟨t, ht, t1, _, t2, t3, _⟩ := C75_faithful_partial b hz c a
    refine ⟨(true, ⟨⟨o, s.self.qi⟩, some t⟩) :: l', t :: ts, ?_, .cons ⟨o, c, t1, t2, t3⟩ h1, .cons rfl h2⟩
    rw [List.map_cons, compFallback]
    simp only [ht, e]

theorem foldl_addRoot (l : List (List Char)) (c : Jit) : l.foldl Jit.addRoot c = { c with roots := c.roots ++ l } := by
  induction l generalizing c with
  | nil => simp
  | cons x l ih => rw [List.foldl_cons, ih]; simp [Jit.addRoot]

/-- **C75.** The fallback `Ceed` finds sources at every root of the `Ceed` that it belongs to. (Missing: the defines, which
become roots: `C75_defines_witness`.) -/
theorem C75_roots_partial (init c : Jit) : ∀ r ∈ c.roots, r ∈ (fallbackJit init c).roots := by
  intro r hr
  unfold fallbackJit
  rw [foldl_addRoot, foldl_addRoot]
  simp [hr]

end Operator
end Verif
