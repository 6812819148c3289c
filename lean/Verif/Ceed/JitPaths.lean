import Verif.State

/-!
# JiT source roots and JiT defines of a `Ceed`

The two lists of strings a user adds to a `Ceed` for the compilation of QFunctions at run time, where they are kept
(in the parent at the top), how they are lent, and how an operator fallback gets them. `Ceed`s are numbered in the
order of their creation; strings are compared as values.
-/

namespace Verif
namespace JitPaths

/-- One list (`include/ceed-impl.h` 101-104): allocated length, strings, number of readers. -/
structure JL where
  cap : Nat
  items : List String
  readers : Int

/-- The two lists. -/
inductive Kind
  | roots
  | defs
deriving DecidableEq

/-- The part of `struct Ceed_private` used here. `fbRes` is `has_valid_op_fallback_resource`. -/
structure Cd where
  par : Option Nat
  roots : JL
  defs : JL
  ref : Int
  alive : Bool
  fbRes : Bool
  fb : Option Nat

def Cd.jl (d : Cd) : Kind → JL
  | .roots => d.roots
  | .defs => d.defs

def Cd.setJl (d : Cd) (k : Kind) (l : JL) : Cd :=
  match k with
  | .roots => { d with roots := l }
  | .defs => { d with defs := l }

/-- All `Ceed`s, and the number of the next one. -/
structure W where
  cd : Nat → Cd
  next : Nat

/-- Change of one `Ceed`. -/
def W.upd (w : W) (c : Nat) (g : Cd → Cd) : W := { w with cd := fun x => if x = c then g (w.cd c) else w.cd x }

def upd (c : Nat) (g : Cd → Cd) : M W Unit := fun w => .ok (w.upd c g) ()
def look (c : Nat) : M W Cd := fun w => if (w.cd c).alive then .ok w (w.cd c) else .ub

/-- The recursion of `CeedGetParent`, `interface/ceed.c` 520-528. A parent is created before its delegates, so that the
number of a `Ceed` bounds the depth. -/
def topF : Nat → (Nat → Cd) → Nat → Nat
  | 0, _, c => c
  | k + 1, cd, c =>
    match (cd c).par with
    | some p => topF k cd p
    | none => c

/-- `interface/ceed.c` 520-528 `CeedGetParent`, with the reference it takes. -/
def getParent (c : Nat) : M W Nat := fun w =>
  (do
    let _ ← look c
    let _ ← look (topF c w.cd c)
    upd (topF c w.cd c) fun d => { d with ref := d.ref + 1 }
    pure (topF c w.cd c) : M W Nat) w

/-- `interface/ceed.c` 1445-1454, 1482-1483 `CeedDestroy`. Delegates, fallback and work vectors of a `Ceed` that is freed
are left out (C34 covers delegates and fallback). -/
def destroy (c : Nat) : M W Unit := do
  let d ← look c
  upd c fun d => { d with ref := d.ref - 1 }
  if 0 < d.ref - 1 then pure () else do
    M.check (d.roots.readers = 0) .access
    M.check (d.defs.readers = 0) .access
    upd c fun d => { d with alive := false }

/-- Allocated length after lines 1370-1374 and 1401-1405. -/
def grow (l : JL) : Nat := if l.items.length = l.cap then (if l.cap = 0 then 1 else l.cap) * 2 else l.cap

/-- `interface/ceed.c` 1361-1380 `CeedAddJitSourceRoot` and 1392-1411 `CeedAddJitDefine`; a write behind the allocated
array is undefined. -/
def add (k : Kind) (c : Nat) (s : String) : M W Unit := do
  let p ← getParent c
  let d ← look p
  M.check ((d.jl k).readers = 0) .access
  if (d.jl k).items.length < grow (d.jl k) then
    upd p fun d => d.setJl k { d.jl k with cap := grow (d.jl k), items := (d.jl k).items ++ [s] }
  else M.undef
  destroy p

/-- `interface/ceed.c` 908-917 `CeedGetJitSourceRoots` and 952-961 `CeedGetJitDefines`. -/
def getL (k : Kind) (c : Nat) : M W (List String) := do
  let p ← getParent c
  let d ← look p
  upd p fun d => d.setJl k { d.jl k with readers := (d.jl k).readers + 1 }
  destroy p
  pure (d.jl k).items

/-- `interface/ceed.c` 929-937 `CeedRestoreJitSourceRoots` and 973-981 `CeedRestoreJitDefines`. -/
def restoreL (k : Kind) (c : Nat) : M W Unit := do
  let p ← getParent c
  upd p fun d => d.setJl k { d.jl k with readers := (d.jl k).readers - 1 }
  destroy p

/-- The loops of lines 674-676 and 684-686. -/
def addAll (k : Kind) (c : Nat) : List String → M W Unit
  | [] => pure ()
  | s :: l => do
    add k c s
    addAll k c l

/-- What `CeedInit` (`interface/ceed.c` 1046-1245) leaves in a new `Ceed`, as far as it is used here: one reference, the
default source root (line 1240). Delegates the backend makes are left out. -/
def fresh (dflt : String) : Cd :=
  { par := none, roots := { cap := 2, items := [dflt], readers := 0 }, defs := { cap := 0, items := [], readers := 0 },
    ref := 1, alive := true, fbRes := false, fb := none }

/-- The block of lines 658-689: make the fallback `Ceed`. Line 685 adds the defines with `CeedAddJitSourceRoot`. -/
def makeFallback (dflt : String) (c : Nat) : M W Unit := fun w =>
  (do
    upd w.next fun _ => fresh dflt
    (fun v => .ok { v with next := v.next + 1 } () : M W Unit)
    upd c fun d => { d with fb := some w.next }
    let r ← getL .roots c
    addAll .roots w.next r
    restoreL .roots c
    let l ← getL .defs c
    addAll .roots w.next l
    restoreL .defs c : M W Unit) w

/-- `interface/ceed.c` 651-693 `CeedGetOperatorFallbackCeed`. -/
def fallback (dflt : String) (c : Nat) : M W (Option Nat) := do
  let d ← look c
  if d.fb = none ∧ d.fbRes = true then makeFallback dflt c else pure ()
  let d ← look c
  match d.fb with
  | some f => do
    let _ ← look f
    upd f fun e => { e with ref := e.ref + 1 }
    pure (some f)
  | none => pure none

/-! ## Specification -/

/-- `t` is the ancestor of `c` without parent. -/
inductive IsTop (cd : Nat → Cd) : Nat → Nat → Prop
  | here {c} : (cd c).par = none → IsTop cd c c
  | step {c p t} : (cd c).par = some p → IsTop cd p t → IsTop cd c t

/-- Parents are created before their delegates. -/
def Ordered (cd : Nat → Cd) : Prop := ∀ c p, (cd c).par = some p → p < c

/-- `c` and its top ancestor `t` exist, and somebody holds a reference to `t`. -/
def Usable (w : W) (c t : Nat) : Prop :=
  Ordered w.cd ∧ IsTop w.cd c t ∧ (w.cd c).alive = true ∧ (w.cd t).alive = true ∧ 1 ≤ (w.cd t).ref

/-- The strings fit in the array. -/
def Fits (l : JL) : Prop := l.items.length ≤ l.cap

end JitPaths
end Verif
