import Verif.Operator.FallbackMain
import Verif.Operator.ReadyExamples

/-!
# C75: a fallback operator, and where fallbacks are not faithful
-/

set_option linter.unusedSectionVars false

namespace Verif
namespace Operator

open Restriction (Rstr)
open Basis (Bas EMode)

/-- An operator of the examples, with a context that the user function only reads, and an estimate of its work. -/
def withInfo (o : OpI Int) : FOp Int := ⟨⟨o, ⟨fun x => x, false, some 3, false, 12⟩⟩, none⟩

/-- The fallback, if the request succeeds. -/
def fbOf (x : Out (FOp Int) (Option (Full Int))) : Option (Full Int) :=
  match x with
  | .ok _ t => t
  | _ => none

/-- The operator after a successful request. -/
def leftF (x : Out (FOp Int) (Option (Full Int))) (s : FOp Int) : FOp Int :=
  match x with
  | .ok s' _ => s'
  | _ => s

theorem exSizedRs : SizedRs exRs := (exSized .none (Or.inl rfl)).1

theorem exReady_eq : checkReady exBuilt = .ok exReady () := by
  have h : succeeds (checkReady exBuilt) = true := by decide +kernel
  cases e : checkReady exBuilt with
  | ok s a => unfold exReady; rw [e]; rfl
  | err s c => rw [e] at h; cases h
  | ub => rw [e] at h; cases h

/-- The hypotheses of `C75_faithful_partial` are met by the operator with six fields. -/
example : ∃ t, getFallback exRs true (withInfo exBuilt) = .ok ⟨⟨exReady, (withInfo exBuilt).self.qi⟩, some t⟩ (some t) ∧
    CopyOf exReady t.op ∧ t.qi.ctx = some 3 := by
  obtain ⟨t, h1, h2, _, _, h3, _⟩ := C75_faithful_partial (s := withInfo exBuilt) exBuilt_built exSizedRs exReady_eq rfl
  exact ⟨t, h1, h2, h3⟩

/-- The hypotheses of `C75_action_partial` are met. -/
example : ∃ s' t, getFallback exRs true ⟨⟨exBuilt, ⟨exOp.f, false, none, true, -1⟩⟩, none⟩ = .ok s' (some t) ∧
    ∀ L inv outv v x, exMeaning.action (t.op.oper exRs t.qi.isId t.qi.f) L inv outv v x =
      exMeaning.action (exReady.oper exRs false exOp.f) L inv outv v x := by
  obtain ⟨s', t, h1, _, h2⟩ := C75_action_partial (s := ⟨⟨exBuilt, ⟨exOp.f, false, none, true, -1⟩⟩, none⟩) exBuilt_built
    exSizedRs exReady_eq rfl (C41_applicable exBuilt_built exReady_eq exReady_proper) (fun h => by cases h)
  exact ⟨s', t, h1, h2⟩

/-- The same, by running the model. -/
example : ((fbOf (getFallback exRs true (withInfo exBuilt))).map fun t =>
    (t.op.nf, t.op.Q, t.op.ne, t.op.inSize, t.op.outSize, (t.op.slot true 0).vec, (t.op.slot true 1).vec,
      (t.op.slot false 1).vec)) = some (6, 1, 2, 3, 3, some (.vec 2), some .none, some .active) := rfl

/-- An operator without fields is refused. -/
example : (match getFallback exRs true (withInfo (OpI.create exQF)) with
    | .err s .incomplete => s.fb.isNone
    | _ => false) = true := by decide +kernel

/-- **C75 fails** for the estimate of the work of a QFunction: the fallback has none, so that estimates of the flops of the
fallback operator fail. -/
theorem C75_flops_witness :
    ∃ s : FOp Int, Built exRs True s.self.op ∧ s.self.qi.flops = 12 ∧
      (fbOf (getFallback exRs true s)).map (fun t => t.qi.flops) = some (-1) :=
  ⟨withInfo exBuilt, exBuilt_built, rfl, by decide +kernel⟩

/-- **C75 fails** for contexts that the user function does not write: the fallback takes the shared context for writing. -/
theorem C75_writable_witness :
    ∃ s : FOp Int, Built exRs True s.self.op ∧ s.self.qi.writable = false ∧
      (fbOf (getFallback exRs true s)).map (fun t => (t.qi.writable, t.qi.ctx)) = some (true, s.self.qi.ctx) :=
  ⟨withInfo exBuilt, exBuilt_built, rfl, by decide +kernel⟩

/-- A ready operator with an input and an output. -/
def twoReady : OpI Int :=
  broken [.set ['u'] (.obj 0) (.obj exBasis) (some .active), .set ['v'] (.obj 0) (.obj exBasis) (some .active), .ready]

/-- The operator with its fallback. -/
def twoFb : FOp Int := leftF (getFallback exRs true (withInfo twoReady)) (withInfo twoReady)

/-- The vector of the input replaced after that. -/
def twoChanged : FOp Int :=
  { twoFb with self := { twoFb.self with
    op := left (setField exRs ['u'] (.obj 0) (.obj exBasis) (some (.vec 7)) twoFb.self.op) twoFb.self.op } }

/-- **C75 fails** once a field is replaced: the operator accepts another vector for its input, but its fallback, made
before, keeps the old one. -/
theorem C75_stale_witness :
    Built exRs False twoReady ∧
    (fbOf (getFallback exRs true (withInfo twoReady))).isSome = true ∧
    succeeds (setField exRs ['u'] (.obj 0) (.obj exBasis) (some (.vec 7)) twoFb.self.op) = true ∧
    (twoChanged.self.op.slot true 0).vec = some (.vec 7) ∧
    (fbOf (getFallback exRs true twoChanged)).map (fun t => (t.op.slot true 0).vec) = some (some .active) :=
  ⟨broken_built _ (by simp), by decide +kernel, by decide +kernel, by decide +kernel, by decide +kernel⟩

/-- **C75 fails** for a field set twice: the operator passes the readiness check without its output, and the request for
its fallback dereferences the missing field. -/
theorem C75_twice_witness :
    ∃ s : OpI Int, Built exRs False s ∧ succeeds (checkReady s) = true ∧
      (match getFallback exRs true (withInfo s) with
        | .ub => true
        | _ => false) = true :=
  ⟨broken [.set ['u'] (.obj 0) (.obj exBasis) (some .active), .set ['u'] (.obj 0) (.obj exBasis) (some .active)],
    broken_built _ (by simp), by decide +kernel, by decide +kernel⟩

/-- **C75 fails** for composite operators with a suboperator whose `Ceed` has no fallback: the missing fallback is
dereferenced. -/
theorem C75_composite_witness :
    ∃ s : FOp Int, Built exRs True s.self.op ∧ (fbOf (getFallback exRs true s)).isSome = true ∧
      (match compFallback exRs [(true, s), (false, s)] with
        | .ub => true
        | _ => false) = true :=
  ⟨withInfo exBuilt, exBuilt_built, by decide +kernel, by decide +kernel⟩

/-- Two suboperators with fallbacks. -/
example : (match compFallback exRs [(true, withInfo exBuilt), (true, withInfo twoReady)] with
    | .ok _ ts => decide (ts.map (fun t => t.op.nf) = [6, 2])
    | _ => false) = true := by decide +kernel

/-- **C75 fails** for defines: the fallback `Ceed` gets them as source roots. -/
theorem C75_defines_witness :
    fallbackJit ⟨[['d']], []⟩ ⟨[['d'], ['r']], [['N', '=', '3']]⟩ = ⟨[['d'], ['d'], ['r'], ['N', '=', '3']], []⟩ := rfl

end Operator
end Verif
