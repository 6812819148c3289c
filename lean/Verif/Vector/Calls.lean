import Verif.Vector.Model

/-!
# Programs using vectors

The calls a program can make, what the program knows from the calls it made and their results (`View`), the contract a
program has to respect (`Legal`), and the histories of programs (`Reach`, `Steps`). Nothing here looks into a vector
object; `View` is computed from calls and results alone.
-/

namespace Verif
namespace Vector

/-- Public calls on vectors, and what the program does with its own arrays (`malloc`, `free`, loads, stores). -/
inductive Call (α : Type)
  | create (parent : Nat) (len : Int)
  | reference (v : Vid)
  | destroy (v : Vid)
  | setArray (v : Vid) (mem : Mem) (mode : Mode) (src : Option Addr)
  | takeArray (v : Vid) (mem : Mem)
  | getArray (v : Vid) (mem : Mem)
  | getArrayRead (v : Vid) (mem : Mem)
  | getArrayWrite (v : Vid) (mem : Mem)
  | restoreArray (v : Vid)
  | restoreArrayRead (v : Vid)
  | syncArray (v : Vid) (mem : Mem)
  | setValue (v : Vid) (value : α)
  | setValueStrided (v : Vid) (start stop step : Int) (value : α)
  | copy (v c : Vid)
  | copyStrided (v : Vid) (start stop step : Int) (c : Vid)
  | norm (v : Vid) (t : NormType)
  | scale (v : Vid) (alpha : α)
  | axpy (y : Vid) (alpha : α) (x : Vid)
  | axpby (y : Vid) (alpha beta : α) (x : Vid)
  | pointwiseMult (w x y : Vid)
  | reciprocal (v : Vid)
  | malloc (b : Buf α)
  | mfree (a : Addr)
  | load (a : Addr) (i : Int)
  | store (a : Addr) (i : Int) (x : α)

/-- Result of a call. -/
inductive Ret (α : Type)
  | unit
  | vec (v : Vid)
  | ptr (p : Option Addr)
  | num (x : α)

section
variable {α : Type} [Field α] [LinearOrder α]

/-- Perform a call. `sqrt` is the C function and `eps` is `CEED_EPSILON`. -/
def exec (sqrt : α → α) (eps : α) : Call α → M (World α) (Ret α)
  | .create p n => do let v ← create p n; pure (.vec v)
  | .reference v => do reference v; pure .unit
  | .destroy v => do destroy v; pure .unit
  | .setArray v m mode src => do setArray v m mode src; pure .unit
  | .takeArray v m => do let p ← takeArray v m; pure (.ptr p)
  | .getArray v m => do let p ← getArray v m; pure (.ptr p)
  | .getArrayRead v m => do let p ← getArrayRead v m; pure (.ptr p)
  | .getArrayWrite v m => do let p ← getArrayWrite v m; pure (.ptr p)
  | .restoreArray v => do restoreArray v; pure .unit
  | .restoreArrayRead v => do restoreArrayRead v; pure .unit
  | .syncArray v m => do syncArray v m; pure .unit
  | .setValue v z => do setValue v z; pure .unit
  | .setValueStrided v start stop step z => do setValueStrided v start stop step z; pure .unit
  | .copy v c => do copy v c; pure .unit
  | .copyStrided v start stop step c => do copyStrided v start stop step c; pure .unit
  | .norm v t => do let s ← norm sqrt v t; pure (.num s)
  | .scale v z => do scale v z; pure .unit
  | .axpy y z x => do axpy y z x; pure .unit
  | .axpby y z z' x => do axpby y z z' x; pure .unit
  | .pointwiseMult w x y => do pointwiseMult w x y; pure .unit
  | .reciprocal v => do reciprocal eps v; pure .unit
  | .malloc b => fun w => .ok (w.push b) (.ptr (some w.next))
  | .mfree a => do free (some a); pure .unit
  | .load a i => do let z ← ld (some a) i; pure (.num z)
  | .store a i z => do st (some a) i z; pure .unit

end

/-- What a program knows.
* `handles v`: handles of `v` it holds; `broken v`: a `CeedVectorDestroy` of `v` returned an error;
* `len v`: length given at creation;
* `mine a`: length of the array `a` if the program allocated it and is responsible for freeing it;
* `lent v`: array lent to `v` with `CEED_USE_POINTER` and not taken back or replaced;
* `writes v`, `reads v`: pointers from write and read accesses to `v` that were granted and not restored. -/
structure View where
  handles : Vid → Nat
  broken : Vid → Bool
  len : Vid → Int
  mine : Addr → Option Nat
  lent : Vid → Option Addr
  writes : Vid → List (Option Addr)
  reads : Vid → List (Option Addr)

/-- Change a function at one point. -/
def upd {β : Type _} (f : Nat → β) (v : Nat) (x : β) : Nat → β := fun u => if u = v then x else f u

@[simp] theorem upd_same {β : Type _} (f : Nat → β) (v : Nat) (x : β) : upd f v x v = x := by simp [upd]
theorem upd_ne {β : Type _} (f : Nat → β) {v u : Nat} (x : β) (h : u ≠ v) : upd f v x u = f u := by simp [upd, h]

/-- A program that has done nothing. -/
def View.init : View := ⟨fun _ => 0, fun _ => false, fun _ => 0, fun _ => none, fun _ => none, fun _ => [], fun _ => []⟩

/-- What the program knows after a successful call. -/
def View.ok {α : Type} (g : View) (c : Call α) (r : Ret α) : View :=
  match c, r with
  | .create _ n, .vec v =>
    { g with handles := upd g.handles v 1, broken := upd g.broken v false, len := upd g.len v n,
             lent := upd g.lent v none, writes := upd g.writes v [], reads := upd g.reads v [] }
  | .reference v, _ => { g with handles := upd g.handles v (g.handles v + 1) }
  | .destroy v, _ =>
    { g with handles := upd g.handles v (g.handles v - 1),
             lent := if g.handles v = 1 then upd g.lent v none else g.lent }
  | .setArray v _ .usePointer src, _ => if 0 < g.len v then { g with lent := upd g.lent v src } else g
  | .setArray v _ .ownPointer src, _ =>
    if 0 < g.len v then
      { g with lent := upd g.lent v none,
               mine := fun a => if src = some a then none else g.mine a }
    else g
  | .takeArray v _, _ => if 0 < g.len v then { g with lent := upd g.lent v none } else g
  | .getArray v _, .ptr p => { g with writes := upd g.writes v (p :: g.writes v) }
  | .getArrayWrite v _, .ptr p => { g with writes := upd g.writes v (p :: g.writes v) }
  | .getArrayRead v _, .ptr p => { g with reads := upd g.reads v (p :: g.reads v) }
  | .restoreArray v, _ => { g with writes := upd g.writes v (g.writes v).tail }
  | .restoreArrayRead v, _ => { g with reads := upd g.reads v (g.reads v).tail }
  | .malloc b, .ptr (some a) => { g with mine := upd g.mine a (some b.len) }
  | .mfree a, _ => { g with mine := upd g.mine a none }
  | _, _ => g

/-- What the program knows after a call that returned an error: only a failed `CeedVectorDestroy` is remembered. -/
def View.err {α : Type} (g : View) (c : Call α) : View :=
  match c with
  | .destroy v => { g with broken := upd g.broken v true }
  | _ => g

/-- The program holds a handle of `v`. -/
def View.has (g : View) (v : Vid) : Prop := 1 ≤ g.handles v

/-- The array is lent to no vector except possibly `v`. -/
def View.onlyTo (g : View) (v : Vid) (a : Addr) : Prop := ∀ u, u ≠ v → g.lent u ≠ some a
/-- The array is lent to no vector. -/
def View.notLent (g : View) (a : Addr) : Prop := ∀ u, g.lent u ≠ some a

/-- The contract of a program.
* Vectors are used through handles the program holds; after a failed `CeedVectorDestroy` no new handle of that vector is
  made.
* Arrays given to vectors are the program's own and long enough; an array is lent to one vector at a time and an array
  given away with `CEED_OWN_POINTER` is not lent to another vector and goes to a vector that is not empty.
* Values are copied from an array of the program or an array accessed, long enough, and not from the array lent to the
  same vector.
* The program frees its own arrays only, when they are not lent.
* The program writes to its own arrays when they are not lent, and to arrays while it holds write access.
* Strides are positive, and `CeedVectorSetValueStrided` does not start below zero. -/
def Legal {α : Type} (g : View) : Call α → Prop
  | .create _ _ => True
  | .reference v => g.has v ∧ g.broken v = false
  | .destroy v => g.has v
  | .setArray v _ mode src => g.has v ∧ ∀ a, src = some a →
    match mode with
    | .copyValues => g.lent v ≠ some a ∧ ((∃ n, g.mine a = some n ∧ g.len v ≤ n) ∨
        ∃ u, some a ∈ g.writes u ++ g.reads u ∧ g.len v ≤ g.len u)
    | .usePointer => ∃ n, g.mine a = some n ∧ g.len v ≤ n ∧ g.onlyTo v a
    | .ownPointer => ∃ n, g.mine a = some n ∧ g.len v ≤ n ∧ g.onlyTo v a ∧ 0 < g.len v
  | .takeArray v _ => g.has v
  | .getArray v _ => g.has v
  | .getArrayRead v _ => g.has v
  | .getArrayWrite v _ => g.has v
  | .restoreArray v => g.has v
  | .restoreArrayRead v => g.has v
  | .syncArray v _ => g.has v
  | .setValue v _ => g.has v
  | .setValueStrided v start _ step _ => g.has v ∧ 0 ≤ start ∧ 0 < step
  | .copy v c => g.has v ∧ g.has c
  | .copyStrided v _ _ step c => g.has v ∧ g.has c ∧ 0 < step
  | .norm v _ => g.has v
  | .scale v _ => g.has v
  | .axpy y _ x => g.has y ∧ g.has x
  | .axpby y _ _ x => g.has y ∧ g.has x
  | .pointwiseMult w x y => g.has w ∧ g.has x ∧ g.has y
  | .reciprocal v => g.has v
  | .malloc _ => True
  | .mfree a => (∃ n, g.mine a = some n) ∧ g.notLent a
  | .load a i => 0 ≤ i ∧ ((∃ n, g.mine a = some n ∧ i < n) ∨ ∃ u, some a ∈ g.writes u ++ g.reads u ∧ i < g.len u)
  | .store a i _ => 0 ≤ i ∧ ((∃ n, g.mine a = some n ∧ i < n ∧ g.notLent a) ∨ ∃ u, some a ∈ g.writes u ∧ i < g.len u)

/-- No contract. -/
def Any {α : Type} (_ : View) (_ : Call α) : Prop := True

section
variable {α : Type} [Field α] [LinearOrder α]

/-- One call of a program that respects the contract `L`; calls that return an error are allowed if `F` holds. -/
inductive Step (L : View → Call α → Prop) (F : Prop) (sqrt : α → α) (eps : α) : World α × View → World α × View → Prop
  | ok {w w' : World α} {g : View} {c : Call α} {r : Ret α} (h : L g c) (e : exec sqrt eps c w = .ok w' r) :
      Step L F sqrt eps (w, g) (w', g.ok c r)
  | err {w w' : World α} {g : View} {c : Call α} {e : Err} (h : L g c) (hF : F) (e : exec sqrt eps c w = .err w' e) :
      Step L F sqrt eps (w, g) (w', g.err c)

/-- Any number of calls. -/
inductive Steps (L : View → Call α → Prop) (F : Prop) (sqrt : α → α) (eps : α) : World α × View → World α × View → Prop
  | refl (s : World α × View) : Steps L F sqrt eps s s
  | tail {s t u : World α × View} (h : Steps L F sqrt eps s t) (hs : Step L F sqrt eps t u) : Steps L F sqrt eps s u

/-- States reached by histories from the start of the program. -/
def Reach (L : View → Call α → Prop) (F : Prop) (sqrt : α → α) (eps : α) (w : World α) (g : View) : Prop :=
  Steps L F sqrt eps (World.init, View.init) (w, g)

end

end Vector
end Verif
