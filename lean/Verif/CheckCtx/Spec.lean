import Verif.CheckCtx.Model

/-!
# Contexts of the checking backend: contract, histories and values
-/

namespace Verif
namespace CheckCtx

open Vector (Mem Mode)

variable {β : Type}

/-- The context keeps the array `a`. -/
def Held (w : W β) (a : Nat) : Prop := ∃ x s, w.ctx = some x ∧ x.ptr s = some a

/-- The context has not been destroyed. -/
def Is (w : W β) : Prop := ∃ x, w.ctx = some x

/-- No copy for readers exists: all read access was given back without error. -/
def Unread (w : W β) : Prop := ∃ x, w.ctx = some x ∧ x.ptr .ro = none

/-- What a program may do. Data is set from the host (`C77_device_witness`), with arrays that are allocated, long enough and
not of the library; an array is not lent or given away while the context keeps it, except that a lent array can be set again.
Data is not set or taken, and the context not destroyed, while it is read (`C77_reset_witness`, `C77_take_witness`,
`C77_leak_witness`). Fields lie inside the data. Arrays are not freed while the context keeps them. A program writes to arrays
that the context does not keep, to the array granted for writing, and, wrongly, to the array granted for reading. -/
def Legal (w : W β) : Call β → Prop
  | .setData m mode size a => ∃ x b, w.ctx = some x ∧ x.ptr .ro = none ∧ m = .host ∧ w.heap a = some b ∧
      size ≤ b.buf.len ∧ b.lib = false ∧ (mode ≠ .copyValues → Held w a → x.ptr .bor = some a)
  | .takeData _ | .destroy => Unread w
  | .getData _ | .getDataRead _ | .restoreData | .restoreDataRead | .setDestroy _ => Is w
  | .setField o v => ∃ x, w.ctx = some x ∧ o + v.len ≤ x.size
  | .malloc _ => True
  | .mfree a => (∃ b, w.heap a = some b) ∧ ¬ Held w a
  | .store a i _ => ∃ b, w.heap a = some b ∧ i < b.buf.len ∧
      (¬ Held w a ∨ ∃ x, w.ctx = some x ∧ (x.ptr .wr = some a ∨ x.ptr .ro = some a))

variable [DecidableEq β]

/-- The world after a call, whether it succeeds or fails. -/
inductive Step (w : W β) (c : Call β) : W β → Prop
  | ok {w' r} (h : exec c w = .ok w' r) : Step w c w'
  | err {w' e} (h : exec c w = .err w' e) : Step w c w'

/-- Worlds that calls of a program lead to. -/
inductive Reach : W β → Prop
  | init : Reach W.init
  | step {w w' c} (hr : Reach w) (hl : Legal w c) (hs : Step w c w') : Reach w'

/-- The pointer leads to an array that has `n` bytes and contains `f`. -/
def Gives (w : W β) (p : Option Nat) (n : Nat) (f : Nat → β) : Prop :=
  ∃ a b, p = some a ∧ w.heap a = some b ∧ n ≤ b.buf.len ∧ ∀ i < n, b.buf.val i = f i

/-- The context holds `n` bytes with the values `f`. -/
def HasVals (w : W β) (n : Nat) (f : Nat → β) : Prop := ∃ x, w.ctx = some x ∧ x.size = n ∧ Gives w (x.ptr .alloc) n f

/-- The context exists and has no data. -/
def NoVals (w : W β) : Prop := ∃ x, w.ctx = some x ∧ x.ptr .alloc = none

/-- The same values in both worlds, or none in both. -/
def Keeps (w w' : W β) : Prop := (∀ n f, HasVals w n f → HasVals w' n f) ∧ (NoVals w → NoVals w')

/-- The array is lent to the context. -/
def Lent (w : W β) (a : Nat) : Prop := ∃ x, w.ctx = some x ∧ x.ptr .bor = some a

/-- Access for writing is granted to the array. -/
def Writing (w : W β) (p : Option Nat) : Prop := ∃ x, w.ctx = some x ∧ x.state % 2 = 1 ∧ x.ptr .wr = p

/-- No reader has changed the array granted for reading, if there is one. -/
def Clean (w : W β) : Prop := ∃ x, w.ctx = some x ∧ (x.ptr .ro = none ∨
  ∀ f, Gives w (x.ptr .alloc) x.size f → Gives w (x.ptr .ro) x.size f)

/-- What the documentation says about a successful call with result `p`. -/
def Doc (w w' : W β) (p : Option Nat) : Call β → Prop
  | .setData _ mode size a => (∃ b, w.heap a = some b ∧ HasVals w' size b.buf.val) ∧ (mode = .usePointer → Lent w' a)
  | .takeData _ => ∃ n f, HasVals w n f ∧ Gives w' p n f ∧ (∀ a, p = some a → Lent w a ∧ ¬ Held w' a) ∧ NoVals w'
  | .getData m => m = .host ∧ ∃ n f, HasVals w n f ∧ HasVals w' n f ∧ Gives w' p n f ∧ p ≠ none ∧ Writing w' p ∧
      ∀ a, p = some a → w.heap a = none
  | .getDataRead m => m = .host ∧ ∃ n f, HasVals w n f ∧ HasVals w' n f ∧ (Clean w → Gives w' p n f ∧ Clean w') ∧
      ∃ x, w'.ctx = some x ∧ 0 < x.readers ∧ x.ptr .ro = p
  | .restoreData => ∃ n g p, Writing w p ∧ Gives w p n g ∧ HasVals w' n g
  | .setField o v => Clean w → ∃ n f, HasVals w n f ∧
      HasVals w' n fun i => if o ≤ i ∧ i < o + v.len then v.val (i - o) else f i
  | .restoreDataRead | .setDestroy _ | .malloc _ | .mfree _ | .store _ _ _ => Keeps w w'
  | .destroy => w'.ctx = none

/-- The access granted before and after a successful call. -/
def Access (x x' : KCtx) : Call β → Prop
  | .getData _ => x.state % 2 = 0 ∧ x.readers = 0 ∧ x'.state % 2 = 1 ∧ x'.readers = 0
  | .getDataRead _ => x.state % 2 = 0 ∧ x'.state % 2 = 0 ∧ x'.readers = x.readers + 1
  | .restoreData => x.state % 2 = 1 ∧ x'.state % 2 = 0 ∧ x'.readers = x.readers
  | .restoreDataRead => 0 < x.readers ∧ x'.readers = x.readers - 1 ∧ x'.state % 2 = x.state % 2
  | .setData _ _ _ _ | .takeData _ | .setField _ _ => x.state % 2 = 0 ∧ x'.state % 2 = 0 ∧ x'.readers = x.readers
  | .destroy | .setDestroy _ | .malloc _ | .mfree _ | .store _ _ _ => x'.state % 2 = x.state % 2 ∧ x'.readers = x.readers

end CheckCtx
end Verif
