import Verif.Context.Model

/-!
# Histories of calls on a context

Calls of the library and actions of the program on its own arrays, what the program knows after them, and which calls obey
the documented rules.
-/

namespace Verif
namespace Context

/-- Calls of the library, and the program allocating, freeing and writing its own arrays. -/
inductive Call (β : Type)
  | reference
  | destroy
  | register (name : String) (offset : Nat) (descr : Option String) (type : FieldType) (num : Nat)
  | getFieldLabel (name : String)
  | setData (mem : Mem) (mode : Mode) (size : Nat) (src : Option Nat)
  | takeData (mem : Mem)
  | getData (mem : Mem)
  | getDataRead (mem : Mem)
  | restoreData
  | restoreDataRead
  | setField (l : Label) (type : FieldType) (values : Buf β)
  | getField (l : Label) (type : FieldType)
  | restoreField (l : Label) (type : FieldType)
  | setDataDestroy (mem : Mem)
  | malloc (b : Buf β)
  | mfree (a : Nat)
  | store (a i : Nat) (v : β)

/-- What a call hands to the program. -/
inductive Ret
  | none
  | ptr (p : Option Nat)
  | label (l : Option Label)
  | field (num : Nat) (p : Option Nat) (offset : Nat)
deriving DecidableEq, Repr

/-- The program writes one byte of an array. -/
def store {β : Type} (a i : Nat) (v : β) : M (World β) Unit := do
  let b ← getB (some a)
  if i < b.len then putB (some a) ⟨b.len, fun j => if j = i then v else b.val j⟩ else M.undef

/-- Carry out a call. -/
def exec {β : Type} [DecidableEq β] : Call β → M (World β) Ret
  | .reference => do reference; pure .none
  | .destroy => do destroy; pure .none
  | .register name offset descr type num => do register name offset descr type num; pure .none
  | .getFieldLabel name => do let l ← getFieldLabel name; pure (.label l)
  | .setData mem mode size src => do setData mem mode size src; pure .none
  | .takeData mem => do let p ← takeData mem; pure (.ptr p)
  | .getData mem => do let p ← getData mem; pure (.ptr p)
  | .getDataRead mem => do let p ← getDataRead mem; pure (.ptr p)
  | .restoreData => do restoreData; pure .none
  | .restoreDataRead => do restoreDataRead; pure .none
  | .setField l type values => do setField l type values; pure .none
  | .getField l type => do let r ← getField l type; pure (.field r.1 r.2.1 r.2.2)
  | .restoreField l type => do restoreField l type; pure .none
  | .setDataDestroy mem => do setDataDestroy mem; pure .none
  | .malloc b => do let a ← alloc b; pure (.ptr (some a))
  | .mfree a => do free (some a); pure .none
  | .store a i v => do store a i v; pure .none

/-- What the program knows: the handles it holds; whether destroying the last one has failed; its own arrays with their
lengths; the array lent to the context; the pointers handed out for writing and for reading and not restored yet; the
fields registered, in order; the size of the data in the context, if there is any. -/
structure View where
  handles : Nat
  broken : Bool
  mine : Nat → Option Nat
  lent : Option Nat
  writes : List Nat
  reads : List Nat
  regs : List Label
  size : Option Nat

/-- After creation. -/
def View.init : View := ⟨1, false, fun _ => none, none, [], [], [], none⟩

/-- The label a registration asks for. -/
def labelOf (name : String) (offset : Nat) (descr : String) (type : FieldType) (num : Nat) : Label :=
  ⟨name, descr, type, type.bytes * num, num, offset⟩

/-- What the program knows after a call that succeeded. -/
def View.after {β : Type} (g : View) : Call β → Ret → View
  | .reference, _ => { g with handles := g.handles + 1 }
  | .destroy, _ => { g with handles := g.handles - 1 }
  | .register name offset (some d) type num, _ => { g with regs := g.regs ++ [labelOf name offset d type num] }
  | .setData _ mode size src, _ =>
    { g with
      lent := if mode = .usePointer then src else none
      mine := fun c => if mode = .ownPointer ∧ src = some c then none else g.mine c
      size := if mode = .copyValues then some size else src.map fun _ => size }
  | .takeData _, _ => { g with lent := none, size := none }
  | .getData _, .ptr (some p) => { g with writes := p :: g.writes }
  | .getDataRead _, .ptr (some p) => { g with reads := p :: g.reads }
  | .getField _ _, .field _ (some p) _ => { g with reads := p :: g.reads }
  | .restoreData, _ => { g with writes := g.writes.tail }
  | .restoreDataRead, _ => { g with reads := g.reads.tail }
  | .restoreField _ _, _ => { g with reads := g.reads.tail }
  | .malloc b, .ptr (some a) => { g with mine := fun c => if c = a then some b.len else g.mine c }
  | .mfree a, _ => { g with mine := fun c => if c = a then none else g.mine c }
  | _, _ => g

/-- What the program knows after a call that returned an error. -/
def View.failed {β : Type} (g : View) : Call β → View
  | .destroy => { g with broken := true }
  | _ => g

/-- The rules: a context is used through a handle the program holds; data is handed over from an array of the program that
is long enough, in host memory; data with outstanding read access is not replaced, taken back or destroyed; the values of a
field lie inside the data; lent arrays are left alone except through write access. -/
def Legal {β : Type} (g : View) : Call β → Prop
  | .reference => 0 < g.handles ∧ g.broken = false
  | .destroy => 0 < g.handles ∧ (g.handles = 1 → g.reads = [])
  | .register _ _ descr _ _ => 0 < g.handles ∧ descr.isSome
  | .getFieldLabel _ => 0 < g.handles
  | .setData mem _ size src => 0 < g.handles ∧ g.reads = [] ∧ mem = .host ∧
      ∃ a len, src = some a ∧ g.mine a = some len ∧ size ≤ len
  | .takeData _ => 0 < g.handles ∧ g.reads = []
  | .getData _ => 0 < g.handles
  | .getDataRead _ => 0 < g.handles
  | .restoreData => 0 < g.handles
  | .restoreDataRead => 0 < g.handles
  | .setField l _ values => 0 < g.handles ∧ (∀ s, g.size = some s → l.offset + l.size ≤ s) ∧ l.size ≤ values.len
  | .getField _ _ => 0 < g.handles
  | .restoreField _ _ => 0 < g.handles
  | .setDataDestroy _ => 0 < g.handles
  | .malloc _ => True
  | .mfree a => g.mine a ≠ none ∧ g.lent ≠ some a
  | .store a i _ => (∃ len, g.mine a = some len ∧ i < len ∧ g.lent ≠ some a) ∨
      (a ∈ g.writes ∧ ∃ s, g.size = some s ∧ i < s)

/-- States reached by any defined calls from creation. -/
inductive Reach {β : Type} [DecidableEq β] : View → World β → Prop
  | start : Reach .init .init
  | ok {g : View} {w w' : World β} {c : Call β} {r : Ret} : Reach g w → exec c w = .ok w' r → Reach (g.after c r) w'
  | err {g : View} {w w' : World β} {c : Call β} {e : Err} : Reach g w → exec c w = .err w' e → Reach (g.failed c) w'

/-- Steps that obey the rules, from one state to another. -/
inductive Steps {β : Type} [DecidableEq β] (g0 : View) (w0 : World β) : View → World β → Prop
  | refl : Steps g0 w0 g0 w0
  | ok {g : View} {w w' : World β} {c : Call β} {r : Ret} :
      Steps g0 w0 g w → Legal g c → exec c w = .ok w' r → Steps g0 w0 (g.after c r) w'
  | err {g : View} {w w' : World β} {c : Call β} {e : Err} :
      Steps g0 w0 g w → Legal g c → exec c w = .err w' e → Steps g0 w0 (g.failed c) w'

end Context
end Verif
