import Verif.Memcheck.Model

/-!
# Vectors of the memcheck backend: contract, histories, and what calls do
-/

namespace Verif
namespace Memcheck

open Vector (Mem Mode)

variable {α : Type}

/-- The array `a` of the program is lent to a vector or given away to it. -/
def Held (w : W α) (a : Nat) : Prop := ∃ v x, w.vecs v = some x ∧ (x.owned = some a ∨ x.borrowed = some a)

/-- The vector exists. -/
def Is (w : W α) (v : Nat) : Prop := ∃ x, w.vecs v = some x

/-- What a program may do. Arrays given to a vector are allocated and long enough; arrays that are lent or given away are not
freed, lent or given away again before they are back; handles are valid. Writing to an array that was granted for reading is
included: finding such programs is what the backend is for. -/
def Legal (w : W α) : Call α → Prop
  | .create v _ => w.vecs v = none
  | .destroy v | .takeArray v _ | .getArray v _ | .getArrayRead v _ | .getArrayWrite v _ | .restoreArray v | .restoreArrayRead v
  | .syncArray v _ | .setValue v _ | .scale v _ | .reciprocal v => Is w v
  | .setArray v _ _ none => Is w v
  | .setArray v _ mode (some a) => ∃ x b, w.vecs v = some x ∧ w.heap a = some b ∧ x.len ≤ b.len ∧ (mode ≠ .copyValues → ¬ Held w a)
  | .setValueStrided v start _ step _ => Is w v ∧ 0 ≤ start ∧ 0 < step
  | .axpy y _ x | .axpby y _ _ x => Is w y ∧ Is w x
  | .pointwiseMult u x y => Is w u ∧ Is w x ∧ Is w y
  | .malloc a _ => w.heap a = none
  | .mfree a => (∃ b, w.heap a = some b) ∧ ¬ Held w a
  | .store a i _ => ∃ b, w.heap a = some b ∧ i < b.len
  | .storeWrite v i _ => ∃ x, w.vecs v = some x ∧ x.state % 2 = 1 ∧ i < x.len
  | .storeRead v i _ => ∃ x, w.vecs v = some x ∧ 0 < x.readers ∧ i < x.len

/-- Vectors for which the library has reported that an array granted for reading was changed. -/
def flag (c : Call α) (e : Err) (bad : Nat → Bool) : Nat → Bool :=
  match c with
  | .restoreArrayRead v => if e = .backend then fun u => if u = v then true else bad u else bad
  | _ => bad

/-- A new vector has a clean record. -/
def unflag (c : Call α) (bad : Nat → Bool) : Nat → Bool :=
  match c with
  | .create v _ => fun u => if u = v then false else bad u
  | _ => bad

/-- Histories of programs; calls may fail. -/
inductive Reach [DecidableEq α] (A : Arith α) : W α → (Nat → Bool) → Prop
  | init : Reach A W.init (fun _ => false)
  | ok {w w' : W α} {bad : Nat → Bool} {c : Call α} {r : Option Nat} (h : Reach A w bad) (hl : Legal w c)
      (e : exec A c w = .ok w' r) : Reach A w' (unflag c bad)
  | err {w w' : W α} {bad : Nat → Bool} {c : Call α} {k : Err} (h : Reach A w bad) (hl : Legal w c)
      (e : exec A c w = .err w' k) : Reach A w' (flag c k bad)

/-- The values of a vector, if it has any. -/
def vals (w : W α) (v : Nat) : Option (Nat → α) := (w.vecs v).bind (fun x => x.alloc.map (·.val))

/-- Its length. -/
def lenOf (w : W α) (v : Nat) : Nat := ((w.vecs v).map (·.len)).getD 0

/-- The array a program has got for reading, and for writing. -/
def readArr (w : W α) (v : Nat) : Option (Nat → α) := (w.vecs v).bind (fun x => x.rcopy.map (·.val))
def writeArr (w : W α) (v : Nat) : Option (Nat → α) := (w.vecs v).bind (fun x => x.wcopy.map (·.val))

/-- An array of the program. -/
def contents (w : W α) (a : Nat) : Option (Nat → α) := (w.heap a).map (·.val)

/-- The array lent to a vector with `CEED_USE_POINTER`. -/
def lent (w : W α) (v : Nat) : Option Nat := (w.vecs v).bind (·.borrowed)

/-- Replace one value of a function. -/
def put {β : Type} (f : Nat → β) (v : Nat) (x : β) : Nat → β := fun u => if u = v then x else f u

/-- The index `i` is `start`, `start + step`, ... and below `stop` (`-1`: the length). -/
def InRange (start stop step : Int) (n i : Nat) : Prop :=
  ∃ k : Nat, (i : Int) = start + step * k ∧ (i : Int) < (if stop = -1 then (n : Int) else stop)

/-- What the documentation says about the values of all vectors after a successful call. -/
noncomputable def newVals (A : Arith α) (w : W α) (c : Call α) : Nat → Option (Nat → α) :=
  open Classical in
  match c with
  | .create v _ => put (vals w) v none
  | .destroy v => put (vals w) v none
  | .setArray v _ _ none => put (vals w) v (some fun _ => A.nan)
  | .setArray v _ _ (some a) => put (vals w) v (contents w a)
  | .takeArray v _ => put (vals w) v none
  | .getArrayWrite v _ => put (vals w) v (some ((vals w v).getD fun _ => A.nan))
  | .restoreArray v => put (vals w) v (writeArr w v)
  | .setValue v z => put (vals w) v (some fun _ => z)
  | .setValueStrided v start stop step z => put (vals w) v
      (some fun i => if InRange start stop step (lenOf w v) i then z else ((vals w v).getD fun _ => A.nan) i)
  | .scale v z => put (vals w) v ((vals w v).map fun f i => A.mul (f i) z)
  | .axpy y z x => put (vals w) y ((vals w x).bind fun f => (vals w y).map fun g i => A.add (g i) (A.mul z (f i)))
  | .axpby y z z' x => put (vals w) y
      ((vals w x).bind fun f => (vals w y).map fun g i => A.add (A.mul z (f i)) (A.mul z' (g i)))
  | .pointwiseMult u x y => put (vals w) u ((vals w x).bind fun f => (vals w y).map fun g i => A.mul (f i) (g i))
  | .reciprocal v => put (vals w) v ((vals w v).map fun f i => if A.big (f i) then A.inv (f i) else f i)
  | _ => vals w

/-- The arrays lent to all vectors after a successful call: `CeedVectorSetArray` with `CEED_USE_POINTER` lends one (and with
`CEED_OWN_POINTER` ends that), `CeedVectorTakeArray` takes it back. -/
def newLent (w : W α) (c : Call α) : Nat → Option Nat :=
  match c with
  | .create v _ | .destroy v => put (lent w) v none
  | .setArray v _ .usePointer src => if lenOf w v = 0 then lent w else put (lent w) v src
  | .setArray v _ .ownPointer _ => if lenOf w v = 0 then lent w else put (lent w) v none
  | .takeArray v _ => if lenOf w v = 0 then lent w else put (lent w) v none
  | _ => lent w

/-- Equal values at the first `n` indices. -/
def SameOn (n : Nat) (f g : Option (Nat → α)) : Prop :=
  match f, g with
  | none, none => True
  | some f, some g => ∀ i < n, f i = g i
  | _, _ => n = 0

/-- Calls that change the values of `v` in place without asking for access. -/
def Arithmetic (v : Nat) : Call α → Prop
  | .scale u _ | .reciprocal u | .axpy u _ _ | .axpby u _ _ _ | .pointwiseMult u _ _ => u = v
  | _ => False

/-- Part of a history during which the program has read access to `v` and calls no arithmetic on `v`. -/
inductive Reading [DecidableEq α] (A : Arith α) (v : Nat) : W α → W α → Prop
  | refl (w : W α) : Reading A v w w
  | step {w w1 w2 : W α} {c : Call α} (h : Reading A v w w1) (hl : Legal w1 c) (hc : ¬ Arithmetic v c)
      (e : (∃ r, exec A c w1 = .ok w2 r) ∨ ∃ k, exec A c w1 = .err w2 k)
      (hr : ∃ x, w2.vecs v = some x ∧ 0 < x.readers) : Reading A v w w2

/-- A part of a history without arithmetic on `v`. -/
inductive Steps [DecidableEq α] (A : Arith α) (P : Call α → Prop) : W α → W α → Prop
  | refl (w : W α) : Steps A P w w
  | step {w w1 w2 : W α} {c : Call α} (h : Steps A P w w1) (hl : Legal w1 c) (hc : P c)
      (e : (∃ r, exec A c w1 = .ok w2 r) ∨ ∃ k, exec A c w1 = .err w2 k) : Steps A P w w2

end Memcheck
end Verif
