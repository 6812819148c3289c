import Verif.State

/-!
# Composite operators: active vector lengths

Operators are addressed by numbers. Of an operator without sub-operators only the lengths recorded by
`CeedOperatorSetField` and the outcome of its own readiness check are kept (`Verif/Operator/Fields.lean` has the rest).
The flag `is_immutable` of operators is never set anywhere in the library, so its test is left out. The calls are
recursive over the sub-operators; they take a bound on the depth, and running into the bound is undefined (an
unbounded recursion overflows the stack).
-/

namespace Verif.Composite

/-- The parts of `CeedOperator_private` (`include/ceed-impl.h` 349-391) that matter here: `is_composite`, `sub_operators`,
`input_size`, `output_size`, `is_interface_setup`; `complete` stands for the checks of `CeedOperatorCheckReady` on an
operator that is not composite. -/
structure Node where
  comp : Bool
  subs : List Nat
  inSize : Int
  outSize : Int
  complete : Bool
  ready : Bool
deriving DecidableEq

/-- All operators. -/
abbrev Heap := Nat → Node

/-- `CeedCompositeOperatorCreate`, `CeedOperatorCreate`: `interface/ceed-operator.c` 753-778, 830-855. -/
def Node.create (comp : Bool) : Node := ⟨comp, [], -1, -1, false, false⟩

/-- `CEED_COMPOSITE_MAX`: `include/ceed/backend.h` 29. -/
def compositeMax : Nat := 16

/-- Read the operators. -/
def getH : M Heap Heap := fun h => .ok h h
/-- Change an operator. -/
def modN (k : Nat) (g : Node → Node) : M Heap Unit := fun h => .ok (Function.update h k (g (h k))) ()

@[simp] theorem getH_apply (h : Heap) : getH h = .ok h h := rfl
@[simp] theorem modN_apply (k : Nat) (g : Node → Node) (h : Heap) :
    modN k g h = .ok (Function.update h k (g (h k))) () := rfl

/-- Take over the lengths of a sub-operator where none is known: `interface/ceed-operator.c` 1279-1280, 1458-1459. -/
def Node.record (a b : Int) (x : Node) : Node :=
  { x with inSize := if x.inSize = -1 then a else x.inSize, outSize := if x.outSize = -1 then b else x.outSize }

/-- Lengths `a`, `b` of a sub-operator agree with the composite: lines 1282, 1461. -/
def Node.fits (a b : Int) (x : Node) : Prop := (a = -1 ∨ a = x.inSize) ∧ (b = -1 ∨ b = x.outSize)

instance (a b : Int) (x : Node) : Decidable (x.fits a b) := inferInstanceAs (Decidable (_ ∧ _))

/-- Take over and compare. -/
def join (k : Nat) (a b : Int) : M Heap Unit := do
  modN k (Node.record a b)
  let h ← getH
  M.check ((h k).fits a b) .major

/-- The loop over sub-operators, `interface/ceed-operator.c` 1454-1467. -/
def lensLoop (g : Nat → M Heap (Int × Int)) (k : Nat) : List Nat → M Heap Unit
  | [] => pure ()
  | s :: t => do
    let r ← g s
    join k r.1 r.2
    lensLoop g k t

/-- `CeedOperatorGetActiveVectorLengths`: `interface/ceed-operator.c` 1440-1469. The lengths returned are read before the
loop. -/
def getLens : Nat → Nat → M Heap (Int × Int)
  | 0, _ => M.undef
  | n + 1, k => do
    let h ← getH
    if (h k).comp = true ∧ ((h k).inSize = -1 ∨ (h k).outSize = -1) then do
      lensLoop (getLens n) k (h k).subs
      pure ((h k).inSize, (h k).outSize)
    else pure ((h k).inSize, (h k).outSize)

/-- `CeedCompositeOperatorAddSub`: `interface/ceed-operator.c` 1266-1295. -/
def addSub (n c s : Nat) : M Heap Unit := do
  let h ← getH
  M.check ((h c).comp = true) .minor
  M.check ((h c).subs.length < compositeMax) .unsupported
  let r ← getLens n s
  join c r.1 r.2
  modN c (fun x => { x with subs := x.subs ++ [s] })

/-- A call for each operator of a list. -/
def forAll (g : Nat → M Heap Unit) : List Nat → M Heap Unit
  | [] => pure ()
  | s :: t => do
    g s
    forAll g t

/-- The composite branch of `CeedOperatorCheckReady`: `interface/ceed-operator.c` 1386-1404. -/
def readyComposite (n : Nat) (g : Nat → M Heap Unit) (k : Nat) (subs : List Nat) : M Heap Unit :=
  if subs = [] then modN k (fun x => { x with inSize := 0, outSize := 0 })
  else do
    forAll g subs
    let _ ← getLens n k
    pure ()

/-- `CeedOperatorCheckReady`: `interface/ceed-operator.c` 1377-1425. -/
def checkReady : Nat → Nat → M Heap Unit
  | 0, _ => M.undef
  | n + 1, k => do
    let h ← getH
    if (h k).ready = true then pure ()
    else do
      (if (h k).comp = true then readyComposite (n + 1) (checkReady n) k (h k).subs
        else M.check ((h k).complete = true) .incomplete)
      modN k (fun x => { x with ready := true })

end Verif.Composite
