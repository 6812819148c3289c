import Verif.Operator.Fields
import Verif.Operator.Spec
import Verif.QFunction.FieldsProps
import Mathlib.Algebra.BigOperators.Group.Finset.Basic

/-!
# C41: a ready operator is complete
-/

set_option linter.unusedSectionVars false

namespace Verif
namespace Operator

open Finset
open Restriction (Rstr)
open Basis (Bas EMode)

variable {α : Type}

/-! ## Specification -/

/-- Input or output table of the QFunction. -/
def OpI.tab (s : OpI α) (isIn : Bool) : List QFunction.Field := if isIn then s.qf.inputs else s.qf.outputs

/-- Input or output field of the operator. -/
def OpI.slot (s : OpI α) (isIn : Bool) (i : Nat) : Slot α := if isIn then s.inF i else s.outF i

/-- Recorded length of the active input or output vector. -/
def OpI.len (s : OpI α) (isIn : Bool) : Int := if isIn then s.inSize else s.outSize

/-- Number of quadrature points of a field: those of its basis, or the element size if there is none. -/
def FVal.qpts (rs : Nat → Rstr) (v : FVal α) : Nat :=
  match v.basis, v.rid with
  | some b, _ => b.Q
  | none, some r => (rs r).elemSize
  | none, none => 0

/-- Length of the L-vector of a field. -/
def FVal.llen (rs : Nat → Rstr) (v : FVal α) : Int :=
  match v.rid with
  | some r => (rs r).lSize
  | none => 0

/-- The restriction and basis `r`, `b` are right for the QFunction field `f`: no restriction exactly for weights, no basis
exactly for `CEED_EVAL_NONE`, equal numbers of components, and the size that the QFunction declares. -/
structure Suits (rs : Nat → Rstr) (f : QFunction.Field) (r : Option Nat) (b : Option (Bas α)) : Prop where
  rstr : r = none ↔ f.mode = .weight
  basis : b = none ↔ f.mode = .none
  comps : ∀ r' b', r = some r' → b = some b' → (rs r').numComp = b'.nc
  direct : f.mode = .none → ∀ r', r = some r' → f.size = (rs r').numComp
  values : f.mode ≠ .none → f.mode ≠ .weight → ∀ b', b = some b' → f.size = b'.nc * b'.qComp (emode f.mode)

/-- The field `v` is right for the QFunction field `f` and agrees with the number of elements, the number of quadrature
points and the length of the active vector of the operator. -/
structure Agrees (rs : Nat → Rstr) (s : OpI α) (isIn : Bool) (f : QFunction.Field) (v : FVal α) : Prop where
  name : v.name = f.name
  suits : Suits rs f v.rid v.basis
  standard : ∀ r, v.rid = some r → (rs r).rtype ≠ .points
  elems : ∀ r, v.rid = some r → s.hasR = true ∧ (rs r).numElem = s.ne
  points : v.qpts rs = s.Q
  length : v.vec = .active → v.llen rs = s.len isIn

/-- The field of this name has been set. -/
def IsSet (s : OpI α) (name : List Char) : Prop := ∃ isIn i v, s.slot isIn i = .set v ∧ v.name = name

/-- Bases and restrictions have points and nodes, as their creation functions check; L-vectors have no negative length. -/
def Sized (rs : Nat → Rstr) (b : Arg (Bas α)) : Prop :=
  (∀ r, 0 < (rs r).elemSize ∧ 0 ≤ (rs r).lSize) ∧ ∀ b', b = .obj b' → 0 < b'.Q

/-- All histories of an operator: calls of `CeedOperatorSetField` and `CeedOperatorCheckReady`, successful or not, and
calls on its QFunction. If `once`, no field is set again after it has been set. -/
inductive Built (rs : Nat → Rstr) (once : Prop) : OpI α → Prop
  | create {v : Int} {q : QFunction.QFunc} (h : QFunction.Calls (QFunction.QFunc.create v) q) : Built rs once (OpI.create q)
  | qf {s : OpI α} {q : QFunction.QFunc} (h : Built rs once s) (hq : QFunction.Calls s.qf q) :
      Built rs once { s with qf := q }
  | setField {s s' : OpI α} {name : List Char} {r : Arg Nat} {b : Arg (Bas α)} {v : Option FVec} (h : Built rs once s)
      (hs : Sized rs b) (ho : once → ¬ IsSet s name) (e : setField rs name r b v s = .ok s' ()) : Built rs once s'
  | setFieldErr {s s' : OpI α} {name : List Char} {r : Arg Nat} {b : Arg (Bas α)} {v : Option FVec} {c : Err}
      (h : Built rs once s) (ho : once → ¬ IsSet s name) (e : setField rs name r b v s = .err s' c) : Built rs once s'
  | checkReady {s s' : OpI α} (h : Built rs once s) (e : checkReady s = .ok s' ()) : Built rs once s'
  | checkReadyErr {s s' : OpI α} {c : Err} (h : Built rs once s) (e : checkReady s = .err s' c) : Built rs once s'

/-! ## The calls, decided -/

/-- The operator with an immutable QFunction. -/
def OpI.freeze (s : OpI α) : OpI α := { s with qf := { s.qf with immutable := true } }

/-- The operator with entry `i` of a table changed. -/
def OpI.put (s : OpI α) (isIn : Bool) (i : Nat) (x : Slot α) : OpI α :=
  if isIn then { s with inF := Function.update s.inF i x } else { s with outF := Function.update s.outF i x }

/-- The operator with the length of the active vector recorded. -/
def OpI.recLen (s : OpI α) (isIn : Bool) (n : Int) : OpI α :=
  if isIn then (if s.inSize = -1 then { s with inSize := n } else s)
  else (if s.outSize = -1 then { s with outSize := n } else s)

/-- The operator after a field has been set. -/
def OpI.fill (rs : Nat → Rstr) (s : OpI α) (isIn : Bool) (i : Nat) (name : List Char) (r : Arg Nat) (b : Arg (Bas α))
    (v : FVec) : OpI α :=
  let s1 := s.put isIn i (.set ⟨name, v, r.opt, b.opt⟩)
  let s2 := if v = .active then s1.recLen isIn (argLen rs r) else s1
  let s3 := if r.isNone = false ∧ s2.hasR = false then { s2 with ne := argNe rs r, hasR := true } else s2
  let s4 := if s3.Q = 0 then { s3 with Q := argQ rs r b } else s3
  { s4 with nf := s4.nf + 1 }

theorem getO_apply (s : OpI α) : getO s = .ok s s := rfl
theorem modO_apply (g : OpI α → OpI α) (s : OpI α) : modO g s = .ok (g s) () := rfl

theorem findName_some {name : List Char} {l : List QFunction.Field} {k i : Nat} {f : QFunction.Field}
    (h : findName name l k = some (i, f)) : k ≤ i ∧ l[i - k]? = some f ∧ f.name = name := by
  induction l generalizing k with
  | nil => cases h
  | cons g t ih =>
    unfold findName at h
    split at h
    · rename_i hn
      cases h
      simp [hn]
    · obtain ⟨h1, h2, h3⟩ := ih h
      refine ⟨by omega, ?_, h3⟩
      have : i - k = (i - (k + 1)) + 1 := by omega
      rw [this]; simpa using h2

theorem findName_none {name : List Char} {l : List QFunction.Field} {k : Nat} (h : findName name l k = none) :
    ∀ f ∈ l, f.name ≠ name := by
  induction l generalizing k with
  | nil => simp
  | cons g t ih =>
    unfold findName at h
    split at h
    · cases h
    · rename_i hn
      intro f hf
      rcases List.mem_cons.1 hf with rfl | hf
      · exact fun e => hn e.symm
      · exact ih h f hf

theorem locate_some {name : List Char} {s : OpI α} {isIn : Bool} {i : Nat} {f : QFunction.Field}
    (h : locate name s.qf = some (isIn, i, f)) : (s.tab isIn)[i]? = some f ∧ f.name = name := by
  unfold locate at h
  split at h
  · rename_i j g hg
    cases h
    have := findName_some hg
    exact ⟨by simpa [OpI.tab] using this.2.1, this.2.2⟩
  · split at h
    · rename_i j g hg
      cases h
      have := findName_some hg
      exact ⟨by simpa [OpI.tab] using this.2.1, this.2.2⟩
    · cases h

theorem locate_none {name : List Char} {s : OpI α} (h : locate name s.qf = none) (isIn : Bool) :
    ∀ f ∈ s.tab isIn, f.name ≠ name := by
  unfold locate at h
  split at h
  · cases h
  · split at h
    · cases h
    · rename_i h1 _ h2
      cases isIn
      · exact findName_none h2
      · exact findName_none h1

/-- With distinct names the search finds the field of that name. -/
theorem locate_eq {name : List Char} {s : OpI α} (hn : (QFunction.names s.qf).Nodup) {isIn : Bool} {i : Nat}
    {f : QFunction.Field} (hf : (s.tab isIn)[i]? = some f) (hname : f.name = name) :
    locate name s.qf = some (isIn, i, f) := by
  have hpos : ∀ (b : Bool) (j : Nat) (g : QFunction.Field), (s.tab b)[j]? = some g → g.name = name → b = isIn ∧ j = i := by
    intro b j g hg hgn
    have key : ∀ (b : Bool) (j : Nat) (g : QFunction.Field), (s.tab b)[j]? = some g →
        (QFunction.names s.qf)[(if b then 0 else s.qf.inputs.length) + j]? = some g.name ∧
        (b = true → j < s.qf.inputs.length) := by
      intro b j g hg
      obtain ⟨hl, hg'⟩ := List.getElem?_eq_some_iff.1 hg
      cases b
      · refine ⟨?_, by simp⟩
        unfold QFunction.names
        rw [List.getElem?_map, List.getElem?_append_right (by simp)]
        have : (s.qf.outputs)[j]? = some g := hg
        simp [this]
      · refine ⟨?_, fun _ => hl⟩
        unfold QFunction.names
        have : (s.qf.inputs)[j]? = some g := hg
        rw [if_pos rfl, Nat.zero_add, List.getElem?_map, List.getElem?_append_left (show j < s.qf.inputs.length from hl)]
        simp [this]
    obtain ⟨a1, a2⟩ := key b j g hg
    obtain ⟨b1, b2⟩ := key isIn i f hf
    rw [hgn] at a1; rw [hname] at b1
    have hlt := (List.getElem?_eq_some_iff.1 a1).1
    have := (List.nodup_iff_getElem?_ne_getElem?.1 hn)
    have heq : (if b then 0 else s.qf.inputs.length) + j = (if isIn then 0 else s.qf.inputs.length) + i := by
      rcases Nat.lt_trichotomy ((if b then 0 else s.qf.inputs.length) + j)
        ((if isIn then 0 else s.qf.inputs.length) + i) with h | h | h
      · exact absurd (a1.trans b1.symm) (this _ _ h (List.getElem?_eq_some_iff.1 b1).1)
      · exact h
      · exact absurd (b1.trans a1.symm) (this _ _ h hlt)
    cases b <;> cases isIn <;> simp at heq a2 b2 ⊢ <;> omega
  cases h : locate name s.qf with
  | none => exact absurd hname (locate_none h isIn f (List.mem_of_getElem? hf))
  | some x =>
    obtain ⟨b, j, g⟩ := x
    obtain ⟨h1, h2⟩ := locate_some h
    obtain ⟨rfl, rfl⟩ := hpos b j g h1 h2
    rw [hf] at h1; cases h1; rfl

open Classical in
/-- What `CeedOperatorCheckField` checks. -/
theorem checkField_eq (rs : Nat → Rstr) (f : QFunction.Field) {r : Arg Nat} {b : Arg (Bas α)} (hr : r.ok = true)
    (hb : b.ok = true) (s : OpI α) :
    (Suits rs f r.opt b.opt → checkField rs f r b s = .ok s ()) ∧
    (¬ Suits rs f r.opt b.opt → ∃ e, checkField rs f r b s = .err s e) := by
  have hrn : r.isNone = true ↔ r.opt = none := by cases r <;> simp [Arg.isNone, Arg.opt, Arg.ok] at hr ⊢
  have hbn : b.isNone = true ↔ b.opt = none := by cases b <;> simp [Arg.isNone, Arg.opt, Arg.ok] at hb ⊢
  have heq : checkField rs f r b s =
      if ¬ (r.opt = none ↔ f.mode = .weight) then .err s .incompatible
      else if ¬ (b.opt = none ↔ f.mode = .none) then .err s .incompatible
      else if ¬ (∀ r' b', r.opt = some r' → b.opt = some b' → (rs r').numComp = b'.nc) then .err s .dimension
      else if ¬ (f.mode = .none → ∀ r', r.opt = some r' → f.size = (rs r').numComp) then .err s .dimension
      else if ¬ (f.mode ≠ .none → f.mode ≠ .weight → ∀ b', b.opt = some b' → f.size = b'.nc * b'.qComp (emode f.mode))
        then .err s .dimension
      else .ok s () := by
    unfold checkField
    simp only [M.bind_apply, M.check_apply]
    by_cases h1 : r.opt = none ↔ f.mode = .weight
    · rw [if_neg (not_not.2 h1), if_pos (by rw [Bool.eq_iff_iff, hrn, decide_eq_true_eq]; exact h1), Out.bind_ok]
      by_cases h2 : b.opt = none ↔ f.mode = .none
      · rw [if_neg (not_not.2 h2), if_pos (by rw [Bool.eq_iff_iff, hbn, decide_eq_true_eq]; exact h2), Out.bind_ok]
        have hc : checkComps rs r b s =
            if ∀ r' b', r.opt = some r' → b.opt = some b' → (rs r').numComp = b'.nc then .ok s () else .err s .dimension := by
          unfold checkComps
          cases b with
          | null => cases hb
          | none => simp [Arg.opt]
          | obj b =>
            cases r with
            | null => cases hr
            | none => simp [Arg.opt, Arg.isNone]
            | obj r => simp [Arg.opt, Arg.isNone, M.check_apply, argNc]
        rw [hc]
        by_cases h3 : ∀ r' b', r.opt = some r' → b.opt = some b' → (rs r').numComp = b'.nc
        · rw [if_neg (not_not.2 h3), if_pos h3, Out.bind_ok]
          by_cases hn : f.mode = .none
          · rw [if_pos hn]
            obtain ⟨r', rfl⟩ : ∃ r', r = .obj r' := by
              cases r with
              | null => cases hr
              | none => exact absurd (h1.1 rfl) (by rw [hn]; simp)
              | obj r' => exact ⟨r', rfl⟩
            rw [M.check_apply]
            simp only [argNc, Arg.opt, hn, Option.some.injEq, forall_eq', forall_const, ne_eq, not_true_eq_false, false_implies, if_false]
            by_cases h : f.size = (rs r').numComp <;> simp [h]
          · rw [if_neg hn]
            by_cases hw : f.mode = .weight
            · rw [if_pos hw]; simp [hw]
            · rw [if_neg hw]
              obtain ⟨b', rfl⟩ : ∃ b', b = .obj b' := by
                cases b with
                | null => cases hb
                | none => exact absurd (h2.1 rfl) hn
                | obj b' => exact ⟨b', rfl⟩
              rw [M.check_apply]
              simp [argSize, Arg.opt, hn, hw]
        · rw [if_pos h3, if_neg h3, Out.bind_err]
      · rw [if_pos h2, if_neg (by rw [Bool.eq_iff_iff, hbn, decide_eq_true_eq]; exact h2), Out.bind_err]
    · rw [if_pos h1, if_neg (by rw [Bool.eq_iff_iff, hrn, decide_eq_true_eq]; exact h1), Out.bind_err]
  constructor
  · intro h
    rw [heq, if_neg (not_not.2 h.rstr), if_neg (not_not.2 h.basis), if_neg (not_not.2 h.comps), if_neg (not_not.2 h.direct),
      if_neg (not_not.2 h.values)]
  · intro h
    rw [heq]
    by_cases h1 : r.opt = none ↔ f.mode = .weight
    · rw [if_neg (not_not.2 h1)]
      by_cases h2 : b.opt = none ↔ f.mode = .none
      · rw [if_neg (not_not.2 h2)]
        by_cases h3 : ∀ r' b', r.opt = some r' → b.opt = some b' → (rs r').numComp = b'.nc
        · rw [if_neg (not_not.2 h3)]
          by_cases h4 : f.mode = .none → ∀ r', r.opt = some r' → f.size = (rs r').numComp
          · rw [if_neg (not_not.2 h4)]
            by_cases h5 : f.mode ≠ .none → f.mode ≠ .weight → ∀ b', b.opt = some b' →
                f.size = b'.nc * b'.qComp (emode f.mode)
            · exact absurd ⟨h1, h2, h3, h4, h5⟩ h
            · rw [if_pos h5]; exact ⟨_, rfl⟩
          · rw [if_pos h4]; exact ⟨_, rfl⟩
        · rw [if_pos h3]; exact ⟨_, rfl⟩
      · rw [if_pos h2]; exact ⟨_, rfl⟩
    · rw [if_pos h1]; exact ⟨_, rfl⟩

/-- When `CeedOperatorSetField` is accepted for entry `i` of a table, holding the QFunction field `f`. -/
structure Accepted (rs : Nat → Rstr) (s : OpI α) (r : Arg Nat) (b : Arg (Bas α)) (v : FVec) (isIn : Bool)
    (f : QFunction.Field) : Prop where
  rstrOk : r.ok = true
  basisOk : b.ok = true
  suits : Suits rs f r.opt b.opt
  elems : ∀ r', r = .obj r' → s.hasR = true → (rs r').numElem = s.ne
  standard : ∀ r', r = .obj r' → (rs r').rtype ≠ .points
  points : s.Q = 0 ∨ argQ rs r b = s.Q
  length : v = .active → s.len isIn = -1 ∨ argLen rs r = s.len isIn

theorem elems_iff (rs : Nat → Rstr) (s : OpI α) {r : Arg Nat} (hr : r.ok = true) :
    (r.isNone = true ∨ s.hasR = false ∨ argNe rs r = s.ne) ↔ ∀ r', r = .obj r' → s.hasR = true → (rs r').numElem = s.ne := by
  cases r with
  | null => cases hr
  | none => simp [Arg.isNone]
  | obj r =>
    simp only [Arg.isNone, argNe, Bool.false_eq_true, false_or, Arg.obj.injEq]
    cases s.hasR <;> simp

theorem standard_iff (rs : Nat → Rstr) (r : Arg Nat) :
    argPts rs r = false ↔ ∀ r', r = .obj r' → (rs r').rtype ≠ .points := by
  cases r <;> simp [argPts]

theorem activeLen_eq (isIn : Bool) (n : Int) (s : OpI α) :
    activeLen isIn n s = if s.len isIn = -1 ∨ n = s.len isIn then .ok (s.recLen isIn n) () else .err (s.recLen isIn n) .incompatible := by
  unfold activeLen
  rw [M.bind_apply]
  cases isIn
  · show (if s.outSize = -1 ∨ n = s.outSize then _ else _) = _
    rfl
  · show (if s.inSize = -1 ∨ n = s.inSize then _ else _) = _
    rfl

theorem recLen_reject {s : OpI α} {isIn : Bool} {n : Int} (h : ¬ (s.len isIn = -1 ∨ n = s.len isIn)) :
    s.recLen isIn n = s := by
  unfold OpI.len OpI.recLen at *
  cases isIn <;> simp only [Bool.false_eq_true, if_false, if_true] at h ⊢ <;> rw [if_neg (fun e => h (Or.inl e))]

theorem put_recLen (s : OpI α) (isIn : Bool) (i : Nat) (x : Slot α) (n : Int) :
    (s.put isIn i x).recLen isIn n = (s.recLen isIn n).put isIn i x := by
  unfold OpI.put OpI.recLen
  cases isIn <;> simp only [Bool.false_eq_true, if_false, if_true] <;> split <;> rfl

theorem put_put (s : OpI α) (isIn : Bool) (i : Nat) (x y : Slot α) : (s.put isIn i x).put isIn i y = s.put isIn i y := by
  unfold OpI.put
  cases isIn <;> simp

theorem len_put (s : OpI α) (isIn : Bool) (i : Nat) (x : Slot α) : (s.put isIn i x).len isIn = s.len isIn := by
  unfold OpI.put OpI.len
  cases isIn <;> rfl

/-- `CeedOperatorSetField` once the field has been found. -/
theorem fillField_eq (rs : Nat → Rstr) (name : List Char) (isIn : Bool) (i : Nat) (f : QFunction.Field) {r : Arg Nat}
    {b : Arg (Bas α)} (v : FVec) (hr : r.ok = true) (hb : b.ok = true) (s : OpI α) :
    (Suits rs f r.opt b.opt → (v = .active → s.len isIn = -1 ∨ argLen rs r = s.len isIn) →
      fillField rs name isIn i f r b v s = .ok (s.fill rs isIn i name r b v) ()) ∧
    (¬ Suits rs f r.opt b.opt → ∃ e, fillField rs name isIn i f r b v s = .err s e) ∧
    (Suits rs f r.opt b.opt → ¬ (v = .active → s.len isIn = -1 ∨ argLen rs r = s.len isIn) →
      fillField rs name isIn i f r b v s = .err (s.put isIn i .half) .incompatible) := by
  obtain ⟨c1, c2⟩ := checkField_eq rs f hr hb s
  have hput : ∀ (x : Slot α) (s : OpI α), putSlot isIn i x s = .ok (s.put isIn i x) () := fun x s => rfl
  refine ⟨fun hs hl => ?_, fun hs => ?_, fun hs hl => ?_⟩
  · unfold fillField
    simp only [M.bind_apply, c1 hs, Out.bind_ok, hput]
    by_cases hv : v = .active
    · simp only [hv, if_true, activeLen_eq]
      rw [if_pos (by rw [len_put]; exact hl hv)]
      simp only [Out.bind_ok, modO_apply, put_recLen, put_put]
      unfold OpI.fill
      simp only [if_true, put_recLen]
    · simp only [hv, if_false, M.pure_apply, Out.bind_ok, modO_apply, put_put]
      unfold OpI.fill
      simp only [hv, if_false]
  · obtain ⟨e, he⟩ := c2 hs
    refine ⟨e, ?_⟩
    unfold fillField
    simp only [M.bind_apply, he, Out.bind_err]
  · unfold fillField
    simp only [M.bind_apply, c1 hs, Out.bind_ok, hput]
    have hv : v = .active := by
      by_contra hv
      exact hl (fun h => absurd h hv)
    have hl' : ¬ (s.len isIn = -1 ∨ argLen rs r = s.len isIn) := fun h => hl (fun _ => h)
    simp only [hv, if_true, activeLen_eq]
    rw [if_neg (by rw [len_put]; exact hl'), recLen_reject (by rw [len_put]; exact hl'), Out.bind_err]

/-- An accepted call. -/
theorem setField_ok {rs : Nat → Rstr} {s : OpI α} {r : Arg Nat} {b : Arg (Bas α)} {v : FVec} {isIn : Bool} {i : Nat}
    {f : QFunction.Field} {name : List Char} (hi : s.immutable = false) (hl : locate name s.qf = some (isIn, i, f))
    (h : Accepted rs s r b v isIn f) :
    setField rs name r b (some v) s = .ok (s.freeze.fill rs isIn i name r b v) () := by
  unfold setField
  simp only [M.bind_apply, getO_apply, modO_apply, Out.bind_ok, M.check_apply]
  rw [if_pos hi, Out.bind_ok, if_pos h.rstrOk, Out.bind_ok, if_pos h.basisOk, Out.bind_ok, if_pos (by simp), Out.bind_ok,
    if_pos ((elems_iff rs s h.rstrOk).2 h.elems), Out.bind_ok, if_pos ((standard_iff rs r).2 h.standard), Out.bind_ok,
    if_pos h.points, Out.bind_ok, hl]
  exact (fillField_eq rs name isIn i f v h.rstrOk h.basisOk s.freeze).1 h.suits h.length

/-- A call that is not accepted. -/
theorem setField_err (rs : Nat → Rstr) (s : OpI α) (r : Arg Nat) (b : Arg (Bas α)) (v : Option FVec) (name : List Char)
    (h : ¬ (s.immutable = false ∧ ∃ w isIn i f, v = some w ∧ locate name s.qf = some (isIn, i, f) ∧ Accepted rs s r b w isIn f)) :
    ∃ s' e, setField rs name r b v s = .err s' e ∧ (s' = s ∨ s' = s.freeze ∨
      ∃ isIn i f, locate name s.qf = some (isIn, i, f) ∧ s' = s.freeze.put isIn i .half) := by
  unfold setField
  simp only [M.bind_apply, getO_apply, modO_apply, Out.bind_ok, M.check_apply]
  by_cases hi : s.immutable = false
  · by_cases h1 : r.ok = true
    · by_cases h2 : b.ok = true
      · by_cases h3 : v ≠ none
        · by_cases h4 : r.isNone = true ∨ s.hasR = false ∨ argNe rs r = s.ne
          · by_cases h5 : argPts rs r = false
            · by_cases h6 : s.Q = 0 ∨ argQ rs r b = s.Q
              · rw [if_pos hi, Out.bind_ok, if_pos h1, Out.bind_ok, if_pos h2, Out.bind_ok, if_pos h3, Out.bind_ok,
                  if_pos h4, Out.bind_ok, if_pos h5, Out.bind_ok, if_pos h6, Out.bind_ok]
                cases hl : locate name s.qf with
                | none => exact ⟨s.freeze, .incomplete, rfl, Or.inr (Or.inl rfl)⟩
                | some x =>
                  obtain ⟨isIn, i, f⟩ := x
                  obtain ⟨w, rfl⟩ := Option.ne_none_iff_exists'.1 h3
                  obtain ⟨_, c2, c3⟩ := fillField_eq rs name isIn i f w h1 h2 s.freeze
                  by_cases hs : Suits rs f r.opt b.opt
                  · by_cases hw : w = .active → s.len isIn = -1 ∨ argLen rs r = s.len isIn
                    · exact absurd ⟨hi, w, isIn, i, f, rfl, hl, h1, h2, hs, (elems_iff rs s h1).1 h4,
                        (standard_iff rs r).1 h5, h6, hw⟩ h
                    · exact ⟨_, _, c3 hs hw, Or.inr (Or.inr ⟨isIn, i, f, rfl, rfl⟩)⟩
                  · obtain ⟨e, he⟩ := c2 hs
                    exact ⟨_, e, he, Or.inr (Or.inl rfl)⟩
              · rw [if_pos hi, Out.bind_ok, if_pos h1, Out.bind_ok, if_pos h2, Out.bind_ok, if_pos h3, Out.bind_ok,
                  if_pos h4, Out.bind_ok, if_pos h5, Out.bind_ok, if_neg h6]
                exact ⟨_, _, rfl, Or.inl rfl⟩
            · rw [if_pos hi, Out.bind_ok, if_pos h1, Out.bind_ok, if_pos h2, Out.bind_ok, if_pos h3, Out.bind_ok,
                if_pos h4, Out.bind_ok, if_neg h5]
              exact ⟨_, _, rfl, Or.inl rfl⟩
          · rw [if_pos hi, Out.bind_ok, if_pos h1, Out.bind_ok, if_pos h2, Out.bind_ok, if_pos h3, Out.bind_ok, if_neg h4]
            exact ⟨_, _, rfl, Or.inl rfl⟩
        · rw [if_pos hi, Out.bind_ok, if_pos h1, Out.bind_ok, if_pos h2, Out.bind_ok, if_neg h3]
          exact ⟨_, _, rfl, Or.inl rfl⟩
      · rw [if_pos hi, Out.bind_ok, if_pos h1, Out.bind_ok, if_neg h2]
        exact ⟨_, _, rfl, Or.inl rfl⟩
    · rw [if_pos hi, Out.bind_ok, if_neg h1]
      exact ⟨_, _, rfl, Or.inl rfl⟩
  · rw [if_neg hi]
    exact ⟨_, _, rfl, Or.inl rfl⟩

/-! ## Effect of an accepted call -/

section
variable {rs : Nat → Rstr} {s : OpI α} {isIn : Bool} {i : Nat} {name : List Char} {r : Arg Nat} {b : Arg (Bas α)} {v : FVec}

theorem slot_put (s : OpI α) (isIn : Bool) (i : Nat) (x : Slot α) (k : Bool) (j : Nat) :
    (s.put isIn i x).slot k j = if k = isIn ∧ j = i then x else s.slot k j := by
  unfold OpI.put OpI.slot
  cases isIn <;> cases k <;> simp [Function.update_apply]

theorem slot_recLen (s : OpI α) (isIn : Bool) (n : Int) (k : Bool) (j : Nat) :
    (s.recLen isIn n).slot k j = s.slot k j := by
  unfold OpI.recLen OpI.slot
  cases isIn <;> cases k <;> simp only [Bool.false_eq_true, if_false, if_true] <;> split <;> rfl

theorem len_recLen (s : OpI α) (isIn : Bool) (n : Int) (k : Bool) :
    (s.recLen isIn n).len k = if k = isIn ∧ s.len isIn = -1 then n else s.len k := by
  unfold OpI.recLen OpI.len
  cases isIn <;> cases k <;> simp <;> split <;> simp_all

theorem recLen_rest (s : OpI α) (isIn : Bool) (n : Int) :
    (s.recLen isIn n).qf = s.qf ∧ (s.recLen isIn n).ne = s.ne ∧ (s.recLen isIn n).Q = s.Q ∧ (s.recLen isIn n).nf = s.nf ∧
    (s.recLen isIn n).hasR = s.hasR ∧ (s.recLen isIn n).ready = s.ready ∧ (s.recLen isIn n).immutable = s.immutable := by
  unfold OpI.recLen
  cases isIn <;> simp only [Bool.false_eq_true, if_false, if_true] <;> split <;> exact ⟨rfl, rfl, rfl, rfl, rfl, rfl, rfl⟩

theorem put_rest (s : OpI α) (isIn : Bool) (i : Nat) (x : Slot α) :
    (s.put isIn i x).qf = s.qf ∧ (s.put isIn i x).ne = s.ne ∧ (s.put isIn i x).Q = s.Q ∧ (s.put isIn i x).nf = s.nf ∧
    (s.put isIn i x).hasR = s.hasR ∧ (s.put isIn i x).ready = s.ready ∧ (s.put isIn i x).immutable = s.immutable ∧
    ∀ k, (s.put isIn i x).len k = s.len k := by
  unfold OpI.put OpI.len
  cases isIn <;> exact ⟨rfl, rfl, rfl, rfl, rfl, rfl, rfl, fun _ => rfl⟩

theorem fill_rest (rs : Nat → Rstr) (s : OpI α) (isIn : Bool) (i : Nat) (name : List Char) (r : Arg Nat)
    (b : Arg (Bas α)) (v : FVec) :
    (s.fill rs isIn i name r b v).qf = s.qf ∧
    (∀ k j, (s.fill rs isIn i name r b v).slot k j =
      if k = isIn ∧ j = i then .set ⟨name, v, r.opt, b.opt⟩ else s.slot k j) ∧
    (s.fill rs isIn i name r b v).nf = s.nf + 1 ∧
    (s.fill rs isIn i name r b v).Q = (if s.Q = 0 then argQ rs r b else s.Q) ∧
    (s.fill rs isIn i name r b v).hasR = (s.hasR || !r.isNone) ∧
    (s.fill rs isIn i name r b v).ne = (if r.isNone = false ∧ s.hasR = false then argNe rs r else s.ne) ∧
    (∀ k, (s.fill rs isIn i name r b v).len k =
      if v = .active ∧ k = isIn ∧ s.len isIn = -1 then argLen rs r else s.len k) ∧
    (s.fill rs isIn i name r b v).ready = s.ready ∧ (s.fill rs isIn i name r b v).immutable = s.immutable := by
  obtain ⟨p1, p2, p3, p4, p5, p6, p7, p8⟩ := put_rest s isIn i (.set ⟨name, v, r.opt, b.opt⟩)
  have ps := slot_put s isIn i (.set ⟨name, v, r.opt, b.opt⟩)
  unfold OpI.fill
  generalize s.put isIn i (.set ⟨name, v, r.opt, b.opt⟩) = s1 at *
  obtain ⟨s2, hs2⟩ : ∃ s2, s2 = (if v = .active then s1.recLen isIn (argLen rs r) else s1) := ⟨_, rfl⟩
  have q : s2.qf = s.qf ∧ s2.ne = s.ne ∧ s2.Q = s.Q ∧ s2.nf = s.nf ∧ s2.hasR = s.hasR ∧ s2.ready = s.ready ∧
      s2.immutable = s.immutable ∧ (∀ k j, s2.slot k j = s1.slot k j) ∧
      ∀ k, s2.len k = if v = .active ∧ k = isIn ∧ s.len isIn = -1 then argLen rs r else s.len k := by
    by_cases hv : v = .active
    · rw [if_pos hv] at hs2
      obtain ⟨a1, a2, a3, a4, a5, a6, a7⟩ := recLen_rest s1 isIn (argLen rs r)
      subst hs2
      refine ⟨a1.trans p1, a2.trans p2, a3.trans p3, a4.trans p4, a5.trans p5, a6.trans p6, a7.trans p7,
        fun k j => slot_recLen _ _ _ _ _, fun k => ?_⟩
      rw [len_recLen, p8, p8]
      simp [hv]
    · rw [if_neg hv] at hs2
      subst hs2
      refine ⟨p1, p2, p3, p4, p5, p6, p7, fun _ _ => rfl, fun k => ?_⟩
      rw [p8]; simp [hv]
  obtain ⟨q1, q2, q3, q4, q5, q6, q7, q8, q9⟩ := q
  simp only [← hs2]
  have hb : ∀ x : OpI α, ∀ k j, x.slot k j = if k then x.inF j else x.outF j := fun x k j => rfl
  have hl : ∀ x : OpI α, ∀ k, x.len k = if k then x.inSize else x.outSize := fun x k => rfl
  refine ⟨?_, fun k j => ?_, ?_, ?_, ?_, ?_, fun k => ?_, ?_, ?_⟩
  · split <;> split <;> exact q1
  · rw [← ps, ← q8]
    rw [hb, hb]
    split <;> split <;> split <;> rfl
  · split <;> split <;> simp [q4]
  · have : ∀ x : OpI α, (if x.Q = 0 then { x with Q := argQ rs r b } else x).Q = if x.Q = 0 then argQ rs r b else x.Q := by
      intro x; split <;> rfl
    show (if _ then _ else _ : OpI α).Q = _
    rw [this]
    split <;> rw [q3]
  · cases hr : r.isNone <;> cases hh : s.hasR <;> rw [hh] at q5 <;> simp [q5] <;> split <;> simp [q5]
  · cases hr : r.isNone <;> cases hh : s.hasR <;> rw [hh] at q5 <;> simp [q5] <;> split <;> simp [q2]
  · rw [← q9, hl, hl]
    split <;> split <;> split <;> rfl
  · split <;> split <;> exact q6
  · split <;> split <;> exact q7

end

/-! ## Invariant -/

/-- A filled entry. -/
def Slot.filled : Slot α → Bool
  | .set _ => true
  | _ => false

/-- Number of filled entries of a table. -/
def OpI.count (s : OpI α) (isIn : Bool) : Nat :=
  ((range (s.tab isIn).length).filter (fun i => (s.slot isIn i).filled = true)).card

/-- Invariant of all histories. -/
structure BInv (rs : Nat → Rstr) (once : Prop) (s : OpI α) : Prop where
  calls : ∃ v, QFunction.Calls (QFunction.QFunc.create v) s.qf
  fresh : s.qf.immutable = false → s.nf = 0 ∧ ∀ k j, s.slot k j = .empty
  agrees : ∀ k j v, s.slot k j = .set v → 0 < s.Q ∧ ∃ f, (s.tab k)[j]? = some f ∧ Agrees rs s k f v
  count : once → s.nf = s.count true + s.count false
  mutable : s.immutable = false
  ready : s.ready = true → s.qf.immutable = true ∧ s.hasR = true ∧ 0 < s.Q ∧
    (once → s.nf = s.qf.inputs.length + s.qf.outputs.length)

theorem Calls.trans {q q1 q2 : QFunction.QFunc} (h : QFunction.Calls q q1) (h' : QFunction.Calls q1 q2) :
    QFunction.Calls q q2 := by
  induction h' with
  | refl => exact h
  | ok _ hr ih => exact .ok ih hr
  | err _ hr ih => exact .err ih hr

theorem calls_freeze (q : QFunction.QFunc) : QFunction.Calls q { q with immutable := true } :=
  .ok (c := .getFields) .refl rfl

theorem BInv.nodup {rs : Nat → Rstr} {once : Prop} {s : OpI α} (h : BInv rs once s) : (QFunction.names s.qf).Nodup := by
  obtain ⟨v, hv⟩ := h.calls
  exact QFunction.C36_unique hv

/-- Calls on the QFunction keep the invariant. -/
theorem BInv.qf {rs : Nat → Rstr} {once : Prop} {s : OpI α} (h : BInv rs once s) {q : QFunction.QFunc}
    (hq : QFunction.Calls s.qf q) : BInv rs once { s with qf := q } := by
  obtain ⟨v, hv⟩ := h.calls
  have hsl : ∀ k j, ({ s with qf := q } : OpI α).slot k j = s.slot k j := fun _ _ => rfl
  by_cases hi : s.qf.immutable = true
  · obtain ⟨h1, h2, h3⟩ := QFunction.frozen hq hi
    have ht : ∀ k, ({ s with qf := q } : OpI α).tab k = s.tab k := by
      intro k; cases k
      · exact h3
      · exact h2
    refine ⟨⟨v, Calls.trans hv hq⟩, fun hf => absurd h1 (by rw [show q.immutable = false from hf]; simp), fun k j v' e => ?_,
      fun ho => ?_, h.mutable, fun hr => ?_⟩
    · obtain ⟨a, f, b, c⟩ := h.agrees k j v' e
      refine ⟨a, f, by rw [ht]; exact b, c.name, c.suits, c.standard, c.elems, c.points, c.length⟩
    · refine (h.count ho).trans ?_
      unfold OpI.count
      rw [ht, ht]
      rfl
    · show q.immutable = true ∧ s.hasR = true ∧ 0 < s.Q ∧ (once → s.nf = q.inputs.length + q.outputs.length)
      rw [h2, h3]
      exact ⟨h1, (h.ready hr).2⟩
  · obtain ⟨h0, he⟩ := h.fresh (by simpa using hi)
    refine ⟨⟨v, Calls.trans hv hq⟩, fun _ => ⟨h0, he⟩, fun k j v' e => ?_, fun ho => ?_, h.mutable, fun hr => ?_⟩
    · rw [hsl, he] at e; cases e
    · refine h0.trans ?_
      unfold OpI.count
      simp [hsl, he, Slot.filled]
    · exact absurd (h.ready hr).1 hi

theorem BInv.freeze {rs : Nat → Rstr} {once : Prop} {s : OpI α} (h : BInv rs once s) : BInv rs once s.freeze :=
  h.qf (calls_freeze s.qf)

/-- Once every field is set, no table entry is unset. -/
theorem BInv.full {rs : Nat → Rstr} {once : Prop} {s : OpI α} (h : BInv rs once s) (ho : once)
    (hn : s.nf = s.qf.inputs.length + s.qf.outputs.length) (k : Bool) {j : Nat} (hj : j < (s.tab k).length) :
    ∃ v, s.slot k j = .set v := by
  have hc := h.count ho
  have hle : ∀ k, s.count k ≤ (s.tab k).length := fun k => by
    have := card_filter_le (range (s.tab k).length) (fun i => (s.slot k i).filled = true)
    rw [card_range] at this; exact this
  have h1 : (s.tab true).length = s.qf.inputs.length := rfl
  have h2 : (s.tab false).length = s.qf.outputs.length := rfl
  have hk : s.count k = (s.tab k).length := by
    have a := hle true
    have b := hle false
    cases k <;> omega
  unfold OpI.count at hk
  have := card_filter_eq_iff (s := range (s.tab k).length) (p := fun i => (s.slot k i).filled = true) |>.1
    (by rw [hk, card_range])
  have hf := this j (mem_range.2 hj)
  cases hs : s.slot k j with
  | set v => exact ⟨v, rfl⟩
  | empty => rw [hs] at hf; cases hf
  | half => rw [hs] at hf; cases hf

/-- An entry that is not filled becomes half filled. -/
theorem BInv.put {rs : Nat → Rstr} {once : Prop} {s : OpI α} (h : BInv rs once s) {k : Bool} {i : Nat}
    (hi : s.qf.immutable = true) (hu : once → (s.slot k i).filled = false) : BInv rs once (s.put k i .half) := by
  obtain ⟨p1, p2, p3, p4, p5, p6, p7, p8⟩ := put_rest s k i .half
  have ht : ∀ k', (s.put k i .half).tab k' = s.tab k' := fun k' => by unfold OpI.tab; rw [p1]
  refine ⟨by rw [p1]; exact h.calls, fun hf => absurd hi (by rw [p1] at hf; rw [hf]; simp), fun k' j v e => ?_, fun ho => ?_,
    by rw [p7]; exact h.mutable, fun hr => ?_⟩
  · rw [slot_put] at e
    split at e
    · cases e
    · obtain ⟨a, f, b, c⟩ := h.agrees k' j v e
      refine ⟨by rw [p3]; exact a, f, by rw [ht]; exact b, c.name, c.suits, c.standard, fun r hr => ?_, ?_, fun hv => ?_⟩
      · rw [p5, p2]; exact c.elems r hr
      · rw [p3]; exact c.points
      · rw [p8]; exact c.length hv
  · rw [p4, h.count ho]
    have : ∀ k', (s.put k i .half).count k' = s.count k' := fun k' => by
      unfold OpI.count
      rw [ht]
      congr 1
      refine filter_congr (fun j _ => ?_)
      rw [slot_put]
      split
      · rename_i e; rw [e.1, e.2, hu ho]; rfl
      · rfl
    rw [this, this]
  · rw [p6] at hr
    rw [p1, p5, p3, p4]
    exact h.ready hr

theorem qpts_eq (rs : Nat → Rstr) {r : Arg Nat} {b : Arg (Bas α)} (name : List Char) (v : FVec) :
    (⟨name, v, r.opt, b.opt⟩ : FVal α).qpts rs = argQ rs r b := by
  unfold FVal.qpts argQ
  cases r <;> cases b <;> rfl

theorem llen_eq (rs : Nat → Rstr) {r : Arg Nat} {b : Option (Bas α)} (name : List Char) (v : FVec) :
    (⟨name, v, r.opt, b⟩ : FVal α).llen rs = argLen rs r := by
  unfold FVal.llen argLen
  cases r <;> rfl

/-- An accepted call keeps the invariant. -/
theorem BInv.fill {rs : Nat → Rstr} {once : Prop} {s : OpI α} (h : BInv rs once s) {k : Bool} {i : Nat} {name : List Char}
    {r : Arg Nat} {b : Arg (Bas α)} {v : FVec} {f : QFunction.Field} (hi : s.qf.immutable = true) (hz : Sized rs b)
    (hu : once → (s.slot k i).filled = false) (hf : (s.tab k)[i]? = some f) (hn : f.name = name)
    (ha : Accepted rs s r b v k f) : BInv rs once (s.fill rs k i name r b v) := by
  obtain ⟨f1, f2, f3, f4, f5, f6, f7, f8, f9⟩ := fill_rest rs s k i name r b v
  generalize s.fill rs k i name r b v = t at *
  have ht : ∀ k', t.tab k' = s.tab k' := fun k' => by unfold OpI.tab; rw [f1]
  have hQ : 0 < argQ rs r b := by
    have hb := ha.basisOk
    have hr := ha.rstrOk
    cases b with
    | null => cases hb
    | obj b' => cases r <;> exact hz.2 b' rfl
    | none =>
      cases r with
      | null => cases hr
      | obj r' => exact (hz.1 r').1
      | none =>
        have h1 := ha.suits.rstr.1 rfl
        have h2 := ha.suits.basis.1 rfl
        rw [h1] at h2; cases h2
  have hQt : t.Q = argQ rs r b ∧ 0 < t.Q := by
    rw [f4]
    rcases ha.points with e | e
    · rw [if_pos e]; exact ⟨rfl, hQ⟩
    · by_cases e0 : s.Q = 0
      · rw [if_pos e0]; exact ⟨rfl, hQ⟩
      · rw [if_neg e0]; exact ⟨e.symm, by omega⟩
  refine ⟨by rw [f1]; exact h.calls, fun hf' => absurd hi (by rw [f1] at hf'; rw [hf']; simp), fun k' j w e => ?_, fun ho => ?_,
    by rw [f9]; exact h.mutable, fun hr => ?_⟩
  · rw [f2] at e
    split at e
    · rename_i hkj
      obtain ⟨rfl, rfl⟩ := hkj
      injection e with e
      subst e
      refine ⟨hQt.2, f, by rw [ht]; exact hf, hn.symm, ha.suits, fun r' hr' => ?_, fun r' hr' => ?_, ?_, fun hv => ?_⟩
      · cases r <;> cases hr'
        exact ha.standard _ rfl
      · cases r with
        | null => cases hr'
        | none => cases hr'
        | obj r0 =>
          cases hr'
          refine ⟨by rw [f5]; simp [Arg.isNone], ?_⟩
          rw [f6]
          cases hh : s.hasR with
          | true => rw [if_neg (by simp)]; exact ha.elems _ rfl hh
          | false => rw [if_pos (by simp [Arg.isNone])]; rfl
      · rw [qpts_eq]; exact hQt.1.symm
      · rw [llen_eq, f7]
        have hv' : v = .active := hv
        by_cases hl : s.len k' = -1
        · rw [if_pos ⟨hv', rfl, hl⟩]
        · rw [if_neg (fun x => hl x.2.2)]
          exact (ha.length hv').resolve_left hl
    · obtain ⟨a, g, b', c⟩ := h.agrees k' j w e
      refine ⟨hQt.2, g, by rw [ht]; exact b', c.name, c.suits, c.standard, fun r' hr' => ?_, ?_, fun hv => ?_⟩
      · obtain ⟨c1, c2⟩ := c.elems r' hr'
        rw [f5, f6, c1]
        exact ⟨rfl, by rw [if_neg (by simp)]; exact c2⟩
      · rw [f4, if_neg (by omega)]; exact c.points
      · rw [f7]
        have hl := c.length hv
        have : s.len k' ≠ -1 := by
          rw [← hl]
          unfold FVal.llen
          cases hrid : w.rid with
          | none => simp
          | some r' => have := (hz.1 r').2; simp only; omega
        by_cases hc : v = .active ∧ k' = k ∧ s.len k = -1
        · exact absurd hc.2.2 (hc.2.1 ▸ this)
        · rw [if_neg hc]; exact hl
  · rw [f3, h.count ho]
    have hlt : i < (s.tab k).length := (List.getElem?_eq_some_iff.1 hf).1
    have hc : ∀ k', t.count k' = s.count k' + if k' = k then 1 else 0 := by
      intro k'
      unfold OpI.count
      rw [ht]
      by_cases hk : k' = k
      · subst hk
        rw [if_pos rfl]
        have : (range (s.tab k').length).filter (fun j => (t.slot k' j).filled = true) =
            insert i ((range (s.tab k').length).filter (fun j => (s.slot k' j).filled = true)) := by
          ext j
          simp only [mem_filter, mem_range, mem_insert, f2]
          by_cases hj : j = i
          · subst hj; simp [hlt, Slot.filled]
          · simp [hj]
        rw [this, card_insert_of_notMem]
        simp [hu ho]
      · rw [if_neg hk, Nat.add_zero]
        congr 1
        refine filter_congr (fun j _ => ?_)
        rw [f2, if_neg (fun e => hk e.1)]
    rw [hc, hc]
    cases k <;> simp <;> omega
  · rw [f8] at hr
    obtain ⟨a, b', c, d⟩ := h.ready hr
    refine ⟨by rw [f1]; exact a, by rw [f5, b']; rfl, hQt.2, fun ho => ?_⟩
    obtain ⟨w, hw⟩ := h.full ho (d ho) k ((List.getElem?_eq_some_iff.1 hf).1)
    have := hu ho
    rw [hw] at this; cases this

/-- Every history satisfies the invariant. -/
theorem Built.inv {rs : Nat → Rstr} {once : Prop} {s : OpI α} (h : Built rs once s) : BInv rs once s := by
  have unset : ∀ {s : OpI α} {name : List Char} {k : Bool} {i : Nat} {f : QFunction.Field}, BInv rs once s →
      locate name s.qf = some (k, i, f) → (once → ¬ IsSet s name) → once → (s.slot k i).filled = false := by
    intro s name k i f hI hl hs ho
    cases hc : s.slot k i with
    | empty => rfl
    | half => rfl
    | set v =>
      obtain ⟨_, g, hg, ha⟩ := hI.agrees k i v hc
      obtain ⟨l1, l2⟩ := locate_some hl
      rw [l1] at hg; cases hg
      exact absurd ⟨k, i, v, hc, ha.name.trans l2⟩ (hs ho)
  induction h with
  | create hq =>
    refine ⟨⟨_, hq⟩, fun _ => ⟨rfl, fun k j => by cases k <;> rfl⟩, fun k j v e => ?_, fun _ => ?_, rfl, fun h => by cases h⟩
    · cases k <;> cases e
    · unfold OpI.count
      simp [OpI.create, OpI.slot, Slot.filled]
  | qf _ hq ih => exact ih.qf hq
  | @setField s s' name r b v _ hz ho e ih =>
    by_cases hacc : s.immutable = false ∧ ∃ w isIn i f, v = some w ∧ locate name s.qf = some (isIn, i, f) ∧
        Accepted rs s r b w isIn f
    · obtain ⟨hi, w, k, i, f, rfl, hl, ha⟩ := hacc
      rw [setField_ok hi hl ha] at e
      cases e
      obtain ⟨l1, l2⟩ := locate_some hl
      have hu := unset ih hl ho
      exact ih.freeze.fill rfl hz hu l1 l2
        ⟨ha.rstrOk, ha.basisOk, ha.suits, ha.elems, ha.standard, ha.points, ha.length⟩
    · obtain ⟨s1, c, he, _⟩ := setField_err rs s r b v name hacc
      rw [he] at e; cases e
  | @setFieldErr s s' name r b v c _ ho e ih =>
    by_cases hacc : s.immutable = false ∧ ∃ w isIn i f, v = some w ∧ locate name s.qf = some (isIn, i, f) ∧
        Accepted rs s r b w isIn f
    · obtain ⟨hi, w, k, i, f, rfl, hl, ha⟩ := hacc
      rw [setField_ok hi hl ha] at e
      cases e
    · obtain ⟨s1, c', he, hs⟩ := setField_err rs s r b v name hacc
      rw [he] at e; cases e
      rcases hs with rfl | rfl | ⟨k, i, f, hl, rfl⟩
      · exact ih
      · exact ih.freeze
      · have hu := unset ih hl ho
        exact ih.freeze.put rfl hu
  | @checkReady s s' _ e ih =>
    unfold Operator.checkReady at e
    simp only [M.bind_apply, getO_apply, Out.bind_ok] at e
    split at e
    · cases e; exact ih
    · simp only [M.bind_apply, modO_apply, M.check_apply] at e
      split at e
      · rw [Out.bind_ok, Out.bind_ok] at e
        split at e
        · rw [Out.bind_ok] at e
          split at e
          · rw [Out.bind_ok] at e
            split at e
            · rename_i h1 h2 h3 h4
              cases e
              have := ih.freeze
              exact ⟨this.calls, this.fresh, fun k j v he => by
                obtain ⟨a, f, b, c⟩ := this.agrees k j v he
                exact ⟨a, f, b, c.name, c.suits, c.standard, c.elems, c.points, c.length⟩, this.count, this.mutable,
                fun _ => ⟨rfl, h3, h4, fun _ => h2⟩⟩
            · cases e
          · cases e
        · cases e
      · cases e
  | @checkReadyErr s s' c _ e ih =>
    unfold Operator.checkReady at e
    simp only [M.bind_apply, getO_apply, Out.bind_ok] at e
    split at e
    · cases e
    · simp only [M.bind_apply, modO_apply, M.check_apply] at e
      split at e
      · rw [Out.bind_ok, Out.bind_ok] at e
        split at e
        · rw [Out.bind_ok] at e
          split at e
          · rw [Out.bind_ok] at e
            split at e
            · cases e
            · cases e; exact ih.freeze
          · cases e; exact ih.freeze
        · cases e; exact ih.freeze
      · cases e; exact ih

end Operator
end Verif
