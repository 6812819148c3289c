import Verif.DevCtx.Model

/-!
# Contexts on the host and on the device: contract, histories and values
-/

namespace Verif
namespace DevCtx

open Vector (Mem Mode)

variable {β : Type}

/-- The context keeps the array `a`: the program has lent it or given it away, or the library has allocated it. -/
def Held (w : W β) (a : Nat) : Prop := ∃ x m, w.ctx = some x ∧ ((x.side m).own = some a ∨ (x.side m).bor = some a)

/-- The context has not been destroyed. -/
def Is (w : W β) : Prop := ∃ x, w.ctx = some x

/-- What a program may do. Arrays given to the context are allocated in the memory they are said to be in and are long
enough; values are not copied from an array of the library; an array is not lent or given away twice, except that a lent
array can be set again. A new size is not larger than the arrays that the context keeps for the *other* memory type
(`C76_resize_witness`); if a data destroy function is set, which then acts on a copy of the present data, the new data is not
in an array that the context keeps, and not longer than the present data if the function wants the other memory type. Fields lie inside the data. Arrays are not freed while the context keeps them, and are written to only
if it does not keep them, or while access for writing to them is granted. -/
def Legal (w : W β) : Call β → Prop
  | .setData m mode size a => ∃ x b, w.ctx = some x ∧ w.heap a = some b ∧ b.mem = m ∧ size ≤ b.buf.len ∧ b.lib = false ∧
      (mode ≠ .copyValues → Held w a → (x.side m).bor = some a) ∧
      (x.destroyFn ≠ none → ¬ Held w a) ∧ (x.destroyFn = some (other m) → size ≤ x.size) ∧
      ∀ c d, (x.side (other m)).own = some c ∨ (x.side (other m)).bor = some c → w.heap c = some d → size ≤ d.buf.len
  | .takeData _ | .getData _ | .getDataRead _ | .restoreData | .restoreDataRead | .setDestroy _ | .destroy => Is w
  | .setField o v => ∃ x, w.ctx = some x ∧ o + v.len ≤ x.size
  | .malloc _ _ => True
  | .mfree a => (∃ b, w.heap a = some b) ∧ ¬ Held w a
  | .store a i _ => ∃ b, w.heap a = some b ∧ i < b.buf.len ∧
      (¬ Held w a ∨ ∃ x m, w.ctx = some x ∧ x.state % 2 = 1 ∧ (x.side m).arr = some a)

variable [DecidableEq β]

/-- The world after a call, whether it succeeds or fails. -/
inductive Step (w : W β) (c : Call β) : W β → Prop
  | ok {w' r} (h : exec c w = .ok w' r) : Step w c w'
  | err {w' e} (h : exec c w = .err w' e) : Step w c w'

/-- Worlds that calls of a program lead to. -/
inductive Reach : W β → Prop
  | init : Reach W.init
  | step {w w' c} (hr : Reach w) (hl : Legal w c) (hs : Step w c w') : Reach w'

/-- The pointer leads to an array in the memory `m` that has `n` bytes and contains `f`. -/
def Gives (w : W β) (p : Option Nat) (m : Mem) (n : Nat) (f : Nat → β) : Prop :=
  ∃ a b, p = some a ∧ w.heap a = some b ∧ b.mem = m ∧ n ≤ b.buf.len ∧ ∀ i < n, b.buf.val i = f i

/-- The context holds `n` bytes with the values `f`: at least one of its copies is valid, and every valid copy lives in its
memory, is long enough and contains `f`. -/
def HasVals (w : W β) (n : Nat) (f : Nat → β) : Prop :=
  ∃ x, w.ctx = some x ∧ x.size = n ∧ (∃ m, (x.side m).arr ≠ none) ∧
    ∀ m, (x.side m).arr ≠ none → Gives w (x.side m).arr m n f

/-- The context exists and has no data. -/
def NoVals (w : W β) : Prop := ∃ x, w.ctx = some x ∧ ∀ m, (x.side m).arr = none

/-- The same values in both worlds, or none in both. -/
def Keeps (w w' : W β) : Prop := (∀ n f, HasVals w n f → HasVals w' n f) ∧ (NoVals w → NoVals w')

/-- The array lent to the context for a memory type. -/
def Lent (w : W β) (m : Mem) (a : Nat) : Prop := ∃ x, w.ctx = some x ∧ (x.side m).bor = some a

/-- What the documentation says about a successful call with result `p`. -/
def Doc (w w' : W β) (p : Option Nat) : Call β → Prop
  | .setData m mode size a => (∃ b, w.heap a = some b ∧ HasVals w' size b.buf.val) ∧ (mode = .usePointer → Lent w' m a)
  | .takeData m => ∃ n f, HasVals w n f ∧ Gives w' p m n f ∧ (∀ a, p = some a → Lent w m a ∧ ¬ Held w' a) ∧
      (HasVals w' n f ∨ NoVals w')
  | .getData m => ∃ n f, HasVals w n f ∧ HasVals w' n f ∧ Gives w' p m n f ∧
      ∃ x, w'.ctx = some x ∧ x.state % 2 = 1 ∧ (x.side m).arr = p
  | .getDataRead m => ∃ n f, HasVals w n f ∧ HasVals w' n f ∧ Gives w' p m n f ∧
      ∃ x, w'.ctx = some x ∧ 0 < x.readers ∧ (x.side m).arr = p
  | .restoreData | .restoreDataRead | .setDestroy _ | .malloc _ _ | .mfree _ => Keeps w w'
  | .setField o v => ∃ n f, HasVals w n f ∧
      HasVals w' n fun i => if o ≤ i ∧ i < o + v.len then v.val (i - o) else f i
  | .destroy => w'.ctx = none
  | .store a i z => (¬ Held w a → Keeps w w') ∧
      (Held w a → ∀ n f, HasVals w n f → HasVals w' n fun j => if j = i then z else f j)

end DevCtx
end Verif
