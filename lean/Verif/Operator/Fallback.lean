import Verif.Operator.Fields

/-!
# Operators: fallback copies

Models `CeedQFunctionCreateFallback`, `CeedOperatorCreateFallback` (`interface/ceed-preconditioning.c` 37-95, 107-204),
`CeedOperatorGetFallback` (1821-1845) and `CeedGetOperatorFallbackCeed` (`interface/ceed.c` 651-693) for operators that are
not at points. The second and third QFunction (`dqf`, `dqfT`), names, debug output, reference counts and the sharing of
the assembled QFunction data (line 187) are not modelled.
-/

namespace Verif
namespace Operator

open Restriction (Rstr)
open Basis (Bas EMode)

variable {α : Type _}

/-- What a QFunction holds besides its fields: user function, flag `is_identity`, context, flag `is_context_writable`,
`user_flop_estimate` (`include/ceed-impl.h` 245-269). Contexts are numbered objects. -/
structure QInfo (α : Type _) where
  f : (Nat → Nat → α) → Nat → Nat → α
  isId : Bool
  ctx : Option Nat
  writable : Bool
  flops : Int

/-- An operator with what its QFunction holds. -/
structure Full (α : Type _) where
  op : OpI α
  qi : QInfo α

/-- An operator and its fallback `op_fallback`, if it has been created. -/
structure FOp (α : Type _) where
  self : Full α
  fb : Option (Full α)

/-- `CeedQFunctionCreateInterior` (`interface/ceed-qfunction.c` 641-661) with a function, then `CeedQFunctionSetContext`
(930-940). -/
def QInfo.create (f : (Nat → Nat → α) → Nat → Nat → α) (ctx : Option Nat) : QInfo α := ⟨f, false, ctx, true, -1⟩

/-- `interface/ceed-preconditioning.c` 76-83: all inputs, in order. -/
def addInputs : List QFunction.Field → M QFunction.QFunc Unit
  | [] => pure ()
  | f :: t => do
    QFunction.addInput f.name f.size f.mode
    addInputs t

/-- `interface/ceed-preconditioning.c` 84-91: all outputs, in order. -/
def addOutputs : List QFunction.Field → M QFunction.QFunc Unit
  | [] => pure ()
  | f :: t => do
    QFunction.addOutput f.name f.size f.mode
    addOutputs t

/-- A call on an object of its own inside a call: its errors are passed on, the object is the result. -/
def within {σ τ : Type _} (m : M τ Unit) (t : τ) : M σ τ :=
  match m t with
  | .ok t' _ => pure t'
  | .err _ e => M.fail e
  | .ub => M.undef

/-- Lines 76-91. -/
def addFields (ins outs : List QFunction.Field) : M QFunction.QFunc Unit := do
  addInputs ins
  addOutputs outs

/-- `interface/ceed-preconditioning.c` 37-95 `CeedQFunctionCreateFallback`; `CeedQFunctionGetFields` makes the QFunction
immutable. -/
def fallbackQF : M (OpI α) QFunction.QFunc := do
  let s ← getO
  modO (fun s => { s with qf := { s.qf with immutable := true } })
  within (addFields s.qf.inputs s.qf.outputs) (QFunction.QFunc.create s.qf.vecLength)

/-- The argument for a stored restriction or basis; a missing one is `..._NONE`. -/
def fbArg {β : Type _} : Option β → Arg β
  | some b => .obj b
  | none => .none

/-- `interface/ceed-preconditioning.c` 155-166 and 167-178: `n` fields of one table, from entry `i` on, are read and set
on the copy. A null entry is dereferenced, an entry not filled in has no name. -/
def copyFields (rs : Nat → Rstr) (tab : Nat → Slot α) : Nat → Nat → M (OpI α) Unit
  | 0, _ => pure ()
  | n + 1, i =>
    match tab i with
    | .set v => do
      setField rs v.name (fbArg v.rid) (fbArg v.basis) (some v.vec)
      copyFields rs tab n (i + 1)
    | _ => M.undef

/-- Lines 155-195 on the copy of the operator `s`. -/
def copyAll (rs : Nat → Rstr) (s : OpI α) : M (OpI α) Unit := do
  copyFields rs s.inF s.qf.inputs.length 0
  copyFields rs s.outF s.qf.outputs.length 0
  checkReady

/-- `interface/ceed-preconditioning.c` 132-195: the copy of an operator that is neither composite nor at points.
`CeedOperatorGetFields` (154) checks that the operator is ready. -/
def copyOp (rs : Nat → Rstr) : M (OpI α) (OpI α) := do
  let q ← fallbackQF
  checkReady
  let s ← getO
  within (copyAll rs s) (OpI.create q)

/-- A call on the operator itself. -/
def onSelf {β : Type _} (m : M (OpI α) β) : M (FOp α) β := fun s =>
  match m s.self.op with
  | .ok o b => .ok { s with self := { s.self with op := o } } b
  | .err o e => .err { s with self := { s.self with op := o } } e
  | .ub => .ub

/-- Store the fallback (line 198). -/
def putFb (t : Full α) : M (FOp α) Unit := fun s => .ok { s with fb := some t } ()

/-- Read the operator and its fallback. -/
def getF : M (FOp α) (FOp α) := fun s => .ok s s

/-- `interface/ceed-preconditioning.c` 107-204 `CeedOperatorCreateFallback` with a fallback `Ceed`. -/
def createFallback (rs : Nat → Rstr) : M (FOp α) Unit := do
  let s ← getF
  let t ← onSelf (copyOp rs)
  putFb ⟨t, QInfo.create s.self.qi.f s.self.qi.ctx⟩

/-- `interface/ceed-preconditioning.c` 1821-1845 `CeedOperatorGetFallback`. `has`: the `Ceed` has a fallback resource
(lines 116-119). The result is `NULL` otherwise. -/
def getFallback (rs : Nat → Rstr) (has : Bool) : M (FOp α) (Option (Full α)) := do
  let s ← getF
  match s.fb with
  | some t => pure (some t)
  | none =>
    if has then do
      createFallback rs
      let s ← getF
      pure s.fb
    else pure none

/-- `interface/ceed-preconditioning.c` 126-139: the fallback of a composite operator is the composite of the fallbacks of
its suboperators, each with the flag `has` of its own `Ceed`. `CeedCompositeOperatorAddSub` dereferences a missing
fallback. Its checks of number and lengths are not modelled; they were made before on the same numbers. -/
def compFallback (rs : Nat → Rstr) : List (Bool × FOp α) → Out (List (Bool × FOp α)) (List (Full α))
  | [] => .ok [] []
  | (has, s) :: l =>
    match getFallback rs has s with
    | .ok s' (some t) =>
      match compFallback rs l with
      | .ok l' ts => .ok ((has, s') :: l') (t :: ts)
      | .err l' e => .err ((has, s') :: l') e
      | .ub => .ub
    | .ok _ none => .ub
    | .err s' e => .err ((has, s') :: l) e
    | .ub => .ub

/-- Source roots and defines for compilation at run time (`include/ceed-impl.h`, `struct Ceed_private`). -/
structure Jit where
  roots : List (List Char)
  defines : List (List Char)
deriving DecidableEq

/-- `CeedAddJitSourceRoot`: `interface/ceed.c` 1361-1380. -/
def Jit.addRoot (c : Jit) (x : List Char) : Jit := { c with roots := c.roots ++ [x] }

/-- `interface/ceed.c` 651-693 `CeedGetOperatorFallbackCeed`: the new `Ceed`, starting from what `CeedInit` made, gets the
roots (670-678), and the defines by the same call (680-689). -/
def fallbackJit (init c : Jit) : Jit := c.defines.foldl Jit.addRoot (c.roots.foldl Jit.addRoot init)

end Operator
end Verif
