import Verif.State
import Mathlib.Data.Finset.Card
import Mathlib.Data.Finset.Range

/-!
# Trees of Ceeds: delegates, operator fallbacks, error routing

The Ceeds of a program, with the pointers between them, their error handlers and their stored messages. Simplifications:
a message is an opaque value (its formatting is left out), the error handlers that do not return (`CeedErrorAbort`,
`CeedErrorExit`) are one handler `stop`, JiT paths, function tables and backend data are left out. `CeedInit` of a
backend with delegates is the sequence of calls made by its `init` function: a new Ceed, then for each delegate a
`CeedInit`, a `CeedSetDelegate` / `CeedSetObjectDelegate` and a `CeedDestroy` of the local handle
(for example `backends/opt/ceed-opt-serial.c` 22-54).
-/

namespace Verif.Ceed

/-- Error handlers: `interface/ceed.c` 1533-1597. -/
inductive Handler
  | store | ret | stop
deriving DecidableEq

/-- A Ceed: `include/ceed-impl.h` 88-134. `msg = none` is the text "No error message stored". -/
structure Node (μ : Type) where
  parent : Option Nat
  fbParent : Option Nat
  delegate : Option Nat
  objs : List (List Char × Nat)
  fallback : Option Nat
  fbValid : Bool
  handler : Handler
  msg : Option μ
  refs : Int
deriving DecidableEq

/-- All Ceeds (`none`: not allocated, or freed), and the error handler named by `CEED_ERROR_HANDLER`. -/
structure Forest (μ : Type) where
  node : Nat → Option (Node μ)
  next : Nat
  env : Handler

variable {μ : Type}

/-- No Ceeds. -/
def Forest.init (env : Handler) : Forest μ := ⟨fun _ => none, 0, env⟩

/-- Replace a Ceed. -/
def Forest.set (w : Forest μ) (c : Nat) (n : Option (Node μ)) : Forest μ :=
  { w with node := fun k => if k = c then n else w.node k }

@[simp] theorem Forest.set_node (w : Forest μ) (c k : Nat) (n : Option (Node μ)) :
    (w.set c n).node k = if k = c then n else w.node k := rfl
@[simp] theorem Forest.set_next (w : Forest μ) (c : Nat) (n : Option (Node μ)) : (w.set c n).next = w.next := rfl
@[simp] theorem Forest.set_env (w : Forest μ) (c : Nat) (n : Option (Node μ)) : (w.set c n).env = w.env := rfl

/-- Dereference a Ceed. -/
def get (c : Nat) : M (Forest μ) (Node μ) := fun w =>
  match w.node c with
  | some n => .ok w n
  | none => .ub

/-- Write to a Ceed. -/
def modify (c : Nat) (f : Node μ → Node μ) : M (Forest μ) Unit := fun w =>
  match w.node c with
  | some n => .ok (w.set c (some (f n))) ()
  | none => .ub

/-- `if (p) f(p)` for a pointer `p` that may be `NULL`. -/
def onSome (p : Option Nat) (f : Nat → M (Forest μ) Unit) : M (Forest μ) Unit :=
  match p with
  | some d => f d
  | none => pure ()

/-- A new Ceed: `interface/ceed.c` 1123-1132, 1213-1216 (the fallback resource is `""` and `resource` is not yet set, so
that the fallback resource is not valid). -/
def newCeed : M (Forest μ) Nat := fun w =>
  .ok { w with node := fun k => if k = w.next then some ⟨none, none, none, [], none, false, w.env, none, 1⟩ else w.node k,
               next := w.next + 1 } w.next

/-- `CeedReference`: `interface/ceed.c` 816-819. -/
def reference (c : Nat) : M (Forest μ) Unit := modify c fun n => { n with refs := n.refs + 1 }

/-- `CeedDestroy`: `interface/ceed.c` 1445-1484 (`fuel` bounds the nesting of calls). JiT readers and work vectors are
left out. -/
def release : Nat → Nat → M (Forest μ) Unit
  | 0, _ => M.undef
  | f + 1, c => do
    modify c fun n => { n with refs := n.refs - 1 }
    let n ← get c
    if 0 < n.refs then pure ()
    else do
      onSome n.delegate (release f)
      M.loop n.objs.length fun i => onSome (n.objs[i]?.map Prod.snd) (release f)
      onSome n.fallback (release f)
      fun w => .ok (w.set c none) ()

/-- `CeedDestroy` of a handle that is not `NULL`. -/
def destroy (c : Nat) : M (Forest μ) Unit := fun w => release (w.next + 1) c w

/-- `CeedGetParent`: `interface/ceed.c` 520-528. -/
def parentFrom : Nat → Nat → M (Forest μ) Nat
  | 0, _ => M.undef
  | f + 1, c => do
    let n ← get c
    match n.parent with
    | some p => parentFrom f p
    | none => do reference c; pure c

/-- `CeedGetParent`: `interface/ceed.c` 520-528; the recursion is at most as deep as there are Ceeds. -/
def getParent (c : Nat) : M (Forest μ) Nat := fun w => parentFrom w.next c w

/-- `CeedGetDelegate`: `interface/ceed.c` 540-544. -/
def getDelegate (c : Nat) : M (Forest μ) (Option Nat) := do
  let n ← get c
  match n.delegate with
  | some d => do reference d; pure (some d)
  | none => pure none

/-- `CeedSetDelegate`: `interface/ceed.c` 557-561, with `CeedReferenceCopy` (1287-1292). -/
def setDelegate (c d : Nat) : M (Forest μ) Unit := do
  reference d
  let n ← get c
  onSome n.delegate destroy
  modify c fun n => { n with delegate := some d }
  modify d fun n => { n with parent := some c }

/-- `CeedGetObjectDelegate`: `interface/ceed.c` 574-588. Every turn of the loop looks at the first entry. -/
def getObjectDelegate (c : Nat) (name : List Char) : M (Forest μ) (Option Nat) := do
  let n ← get c
  match n.objs with
  | [] => getDelegate c
  | (x, d) :: _ => if name = x then do reference d; pure (some d) else getDelegate c

/-- `CeedSetObjectDelegate`: `interface/ceed.c` 605-624. From the second entry on, the entry comes from `realloc`, so
that `CeedReferenceCopy` destroys an indeterminate pointer. -/
def setObjectDelegate (c d : Nat) (name : List Char) : M (Forest μ) Unit := do
  let n ← get c
  if n.objs.length = 0 then do
    reference d
    modify c fun n => { n with objs := n.objs ++ [(name, d)] }
    modify d fun n => { n with parent := some c }
  else M.undef

/-- `CeedSetOperatorFallbackResource`: `interface/ceed.c` 711-721; `valid` is the outcome of its comparison of the new
fallback resource with the resource of the Ceed. -/
def setFallbackResource (c : Nat) (valid : Bool) : M (Forest μ) Unit := modify c fun n => { n with fbValid := valid }

/-- First part of `CeedGetOperatorFallbackCeed`: `interface/ceed.c` 657-692. -/
def makeFallback (c made : Nat) : M (Forest μ) Unit := do
  let n ← get c
  if n.fallback = none ∧ n.fbValid then do
    modify made fun m => { m with fbParent := some c, handler := n.handler }
    modify c fun n => { n with fallback := some made }
  else pure ()

/-- `CeedGetOperatorFallbackCeed`: `interface/ceed.c` 651-697; `made` is the Ceed returned by the `CeedInit` in it. -/
def getFallback (c made : Nat) : M (Forest μ) (Option Nat) := do
  makeFallback c made
  let n ← get c
  match n.fallback with
  | some d => do reference d; pure (some d)
  | none => pure none

/-- The recursion of `CeedErrorStore` (1553-1563), `CeedGetErrorMessage` (1623-1628) and `CeedResetErrorMessage`
(1642-1648) in `interface/ceed.c`: to the parent, else to the fallback parent, else this Ceed. -/
def topFrom : Nat → Nat → M (Forest μ) Nat
  | 0, _ => M.undef
  | f + 1, c => do
    let n ← get c
    match n.parent with
    | some p => topFrom f p
    | none =>
      match n.fbParent with
      | some p => topFrom f p
      | none => pure c

/-- See `topFrom`; the recursion is at most as deep as there are Ceeds. -/
def top (c : Nat) : M (Forest μ) Nat := fun w => topFrom w.next c w

/-- `CeedError`: `CeedErrorImpl` (`interface/ceed.c` 1503-1525) with the handlers of 1533-1597. Returns whether control
comes back to the caller. -/
def raise (c : Nat) (x : μ) : M (Forest μ) Bool := do
  let n ← get c
  match n.handler with
  | .store => do
    let t ← top c
    modify t fun n => { n with msg := some x }
    pure true
  | .ret => pure true
  | .stop => pure false

/-- `CeedGetErrorMessage`: `interface/ceed.c` 1623-1628. -/
def getMessage (c : Nat) : M (Forest μ) (Option μ) := do
  let t ← top c
  let n ← get t
  pure n.msg

/-- `CeedResetErrorMessage`: `interface/ceed.c` 1642-1648. -/
def resetMessage (c : Nat) : M (Forest μ) Unit := do
  let t ← top c
  modify t fun n => { n with msg := none }

/-- `CeedSetErrorHandler`: `interface/ceed.c` 1605-1610. -/
def setHandlerFrom (h : Handler) : Nat → Nat → M (Forest μ) Unit
  | 0, _ => M.undef
  | f + 1, c => do
    modify c fun n => { n with handler := h }
    let n ← get c
    onSome n.delegate (setHandlerFrom h f)
    M.loop n.objs.length fun i => onSome (n.objs[i]?.map Prod.snd) (setHandlerFrom h f)

/-- `CeedSetErrorHandler`: `interface/ceed.c` 1605-1610; the recursion is at most as deep as there are Ceeds. -/
def setHandler (c : Nat) (h : Handler) : M (Forest μ) Unit := fun w => setHandlerFrom h w.next c w

end Verif.Ceed
