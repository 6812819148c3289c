import Verif.DevVec.Model

/-!
# Vectors with arrays on the host and on the device: contract, histories, and what calls do
-/

namespace Verif
namespace DevVec

open Vector (Mem Mode NormType)

variable {α : Type} [CommRing α] [DecidableEq α]

/-- A vector keeps the array `a`: the program has lent it or given it away, or the library has allocated it. -/
def HeldBy (w : W α) (v a : Nat) : Prop := ∃ x m, w.vecs v = some x ∧ ((x.side m).own = some a ∨ (x.side m).bor = some a)

/-- Some vector keeps the array. -/
def Held (w : W α) (a : Nat) : Prop := ∃ v, HeldBy w v a

/-- The vector exists. -/
def Is (w : W α) (v : Nat) : Prop := ∃ x, w.vecs v = some x

/-- What a program may do. Handles are valid. An array given to a vector is allocated in the memory it is said to be in and is long
enough; it is not lent or given away while another vector has it; values are not copied to a vector from its own array. Arrays are not
freed while a vector has them, and are written to only if no vector has them or while access for writing is granted. Windows start
at a valid index and have a positive step; with the 64-bit interface of cuBLAS, the step for copies is one. -/
def Legal (E : Env α) (w : W α) : Call α → Prop
  | .create v _ => w.vecs v = none
  | .destroy v | .takeArray v _ | .getArray v _ | .getArrayRead v _ | .getArrayWrite v _ | .restoreArray v | .restoreArrayRead v
  | .syncArray v _ | .setValue v _ | .norm v _ | .scale v _ | .reciprocal v => Is w v
  | .setArray v _ _ none => Is w v
  | .setArray v m mode (some a) => ∃ x b, w.vecs v = some x ∧ w.heap a = some b ∧ b.mem = m ∧ x.len ≤ b.buf.len ∧
      (mode = .copyValues → ¬ HeldBy w v a) ∧
      (mode ≠ .copyValues → ∀ u, HeldBy w u a → u = v ∧ (x.side m).bor = some a)
  | .setValueStrided v start _ step _ => Is w v ∧ 0 ≤ start ∧ 0 < step
  | .axpy y _ x | .axpby y _ _ x | .copy x y => Is w y ∧ Is w x
  | .copyStrided x _ _ step y => Is w y ∧ Is w x ∧ x ≠ y ∧ 0 < step ∧ (E.blas64 = true → step = 1)
  | .pointwiseMult u x y => Is w u ∧ Is w x ∧ Is w y
  | .malloc _ _ => True
  | .mfree a => (∃ b, w.heap a = some b) ∧ ¬ Held w a
  | .store a i _ => ∃ b, w.heap a = some b ∧ i < b.buf.len ∧
      (¬ Held w a ∨ ∃ v x m, w.vecs v = some x ∧ x.state % 2 = 1 ∧ (x.side m).arr = some a)

/-- The world after a call, whether it succeeds or fails. -/
inductive Step (E : Env α) (w : W α) (c : Call α) : W α → Prop
  | ok {w' r} (h : exec E c w = .ok w' r) : Step E w c w'
  | err {w' e} (h : exec E c w = .err w' e) : Step E w c w'

/-- Worlds that calls of a program lead to. -/
inductive Reach (E : Env α) : W α → Prop
  | init : Reach E W.init
  | step {w w' c} (hr : Reach E w) (hl : Legal E w c) (hs : Step E w c w') : Reach E w'

/-- The vector has the values `f`: it has at least one valid array, and every valid array lives in its memory, is long enough and
contains `f`. -/
def HasVals (w : W α) (v : Nat) (f : Nat → α) : Prop :=
  ∃ x, w.vecs v = some x ∧ (∃ m, (x.side m).arr ≠ none) ∧
    ∀ m a, (x.side m).arr = some a → ∃ b, w.heap a = some b ∧ b.mem = m ∧ x.len ≤ b.buf.len ∧ ∀ i < x.len, b.buf.val i = f i

/-- The vector exists and has no valid array. -/
def NoVals (w : W α) (v : Nat) : Prop := ∃ x, w.vecs v = some x ∧ ∀ m, (x.side m).arr = none

/-- The length of the vector. -/
def Len (w : W α) (v n : Nat) : Prop := ∃ x, w.vecs v = some x ∧ x.len = n

/-- The array lent to the vector for a memory type. -/
def Lent (w : W α) (v : Nat) (m : Mem) (a : Nat) : Prop := ∃ x, w.vecs v = some x ∧ (x.side m).bor = some a

/-- The vector has the same values in both worlds, or none in both. -/
def Keeps (w w' : W α) (v : Nat) : Prop := (∀ f, HasVals w v f → HasVals w' v f) ∧ (NoVals w v → NoVals w' v)

/-- Entry `i` lies in the window `start, start + step, ...` before `stop`. -/
def InWindow (start stop step : Int) (i : Nat) : Prop := ∃ k : Nat, (i : Int) = start + k * step ∧ (i : Int) < stop

open Classical in
/-- What the documentation says about the vector that a successful call is about. -/
def Doc (E : Env α) (w w' : W α) : Call α → Prop
  | .create v n => NoVals w' v ∧ Len w' v n
  | .destroy v => w'.vecs v = none
  | .setArray v _ mode none => (∀ n, 0 < n → Len w v n → mode = .copyValues → ∃ f, HasVals w' v f)
  | .setArray v m mode (some a) => ∀ n, 0 < n → Len w v n → (∃ b, w.heap a = some b ∧ HasVals w' v b.buf.val) ∧
      (mode = .usePointer → Lent w' v m a)
  | .takeArray v m => (∀ f, HasVals w v f → HasVals w' v f ∨ NoVals w' v) ∧ ∀ a, ¬ Lent w' v m a
  | .getArray v _ | .getArrayRead v _ | .restoreArray v | .restoreArrayRead v | .syncArray v _ | .norm v _ => Keeps w w' v
  | .getArrayWrite v _ => ∀ n, 0 < n → Len w v n → ∃ f, HasVals w' v f
  | .setValue v z => ∀ n, 0 < n → Len w v n → HasVals w' v fun _ => z
  | .setValueStrided v start stop step z => ∀ n f, Len w v n → HasVals w v f →
      HasVals w' v fun i => if InWindow start (if stop = -1 then n else stop) step i then z else f i
  | .scale v k => ∀ f, HasVals w v f → HasVals w' v fun i => k * f i
  | .axpy y k x => ∀ f g, HasVals w x f → HasVals w y g → HasVals w' y fun i => k * f i + g i
  | .axpby y k l x => ∀ f g, HasVals w x f → HasVals w y g → HasVals w' y fun i => k * f i + l * g i
  | .pointwiseMult u x y => ∀ f g n, 0 < n → Len w u n → HasVals w x f → HasVals w y g → HasVals w' u fun i => f i * g i
  | .reciprocal v => ∀ f, HasVals w v f → HasVals w' v fun i => if E.big .host (f i) = true then E.inv (f i) else f i
  | .copy v u => ∀ f, HasVals w v f → HasVals w' u f
  | .copyStrided v start stop step u => ∀ f g n k, Len w v n → Len w u k → HasVals w v f → HasVals w u g →
      HasVals w' u fun i => if InWindow start (if stop = -1 then (min n k : Nat) else stop) step i then f i else g i
  | .malloc _ _ | .mfree _ => True
  | .store a i z => ∀ v x m f, w.vecs v = some x → (x.side m).arr = some a → HasVals w v f →
      HasVals w' v fun j => if j = i then z else f j

/-- The pointer leads to an array in the memory `m` that has `n` entries and contains `f`. -/
def Gives (w : W α) (p : Option Nat) (m : Mem) (n : Nat) (f : Nat → α) : Prop :=
  ∃ a b, p = some a ∧ w.heap a = some b ∧ b.mem = m ∧ n ≤ b.buf.len ∧ ∀ i < n, b.buf.val i = f i

/-- Access for writing to the array is granted. -/
def Writable (w : W α) (v a : Nat) : Prop := ∃ x m, w.vecs v = some x ∧ x.state % 2 = 1 ∧ (x.side m).arr = some a

/-- Access for reading is granted, and the array is one of the vector. -/
def Readable (w : W α) (v a : Nat) : Prop := ∃ x m, w.vecs v = some x ∧ 0 < x.readers ∧ ((x.side m).own = some a ∨ (x.side m).bor = some a)

/-- What a successful call returns. -/
def Returns (E : Env α) (w w' : W α) : Call α → Ret α → Prop
  | .getArray v m, .ptr p => ∀ n, 0 < n → Len w v n → (∃ f, HasVals w v f ∧ Gives w' p m n f) ∧ ∀ a, p = some a → Writable w' v a
  | .getArrayRead v m, .ptr p => ∀ n, 0 < n → Len w v n → (∃ f, HasVals w v f ∧ Gives w' p m n f) ∧ ∀ a, p = some a → Readable w' v a
  | .getArrayWrite v m, .ptr p => ∀ n, 0 < n → Len w v n → (∃ f, HasVals w' v f ∧ Gives w' p m n f) ∧ ∀ a, p = some a → Writable w' v a
  | .takeArray v m, .ptr p => ∀ n, 0 < n → Len w v n → (∃ f, HasVals w v f ∧ Gives w' p m n f) ∧ ∀ a, p = some a → Lent w v m a ∧ ¬ Held w' a
  | .syncArray v m, .none => ∀ n f a, Len w v n → HasVals w v f → Lent w v m a → Gives w' (some a) m n f
  | .norm v ty, .num z => (Len w v 0 → z = 0) ∧ ∀ n f, Len w v n → HasVals w v f → ∃ g, z = E.norm ty n g ∧ ∀ i < n, g i = f i
  | .malloc m n, .ptr (some a) => w.heap a = none ∧ w'.heap a = some ⟨m, ⟨n, fun _ => 0⟩, false⟩
  | .malloc _ _, _ | .getArray _ _, _ | .getArrayRead _ _, _ | .getArrayWrite _ _, _ | .takeArray _ _, _ | .syncArray _ _, _ | .norm _ _, _ => False
  | _, r => r = .none

/-- The vector whose values the call may change. -/
def Target (w : W α) : Call α → Nat → Prop
  | .create v _, u | .destroy v, u | .setArray v _ _ _, u | .takeArray v _, u | .getArrayWrite v _, u | .setValue v _, u
  | .setValueStrided v _ _ _ _, u | .scale v _, u | .axpy v _ _, u | .axpby v _ _ _, u | .pointwiseMult v _ _, u | .reciprocal v, u
  | .copy _ v, u | .copyStrided _ _ _ _ v, u => u = v
  | .store a _ _, u => HeldBy w u a
  | _, _ => False

/-- The vectors the call is given. -/
def Args : Call α → Nat → Prop
  | .create v _, u | .destroy v, u | .setArray v _ _ _, u | .takeArray v _, u | .getArray v _, u | .getArrayRead v _, u
  | .getArrayWrite v _, u | .restoreArray v, u | .restoreArrayRead v, u | .syncArray v _, u | .setValue v _, u
  | .setValueStrided v _ _ _ _, u | .norm v _, u | .scale v _, u | .reciprocal v, u => u = v
  | .axpy v _ t, u | .copy v t, u => u = v ∨ u = t
  | .axpby v _ _ t, u | .copyStrided v _ _ _ t, u => u = v ∨ u = t
  | .pointwiseMult v s t, u => u = v ∨ u = s ∨ u = t
  | .malloc _ _, _ | .mfree _, _ | .store _ _ _, _ => False

/-- The arithmetic on a vector that is done without asking for access. -/
def Arithmetic (v : Nat) : Call α → Prop
  | .scale u _ | .axpy u _ _ | .axpby u _ _ _ | .pointwiseMult u _ _ | .reciprocal u => u = v
  | _ => False

end DevVec
end Verif
