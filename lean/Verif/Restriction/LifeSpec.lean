import Verif.Restriction.Life

/-!
# What the user of restrictions knows

The user counts their own references to every restriction, knows which restrictions are copies, and keeps a list of the arrays
that they borrowed.
-/

namespace Verif
namespace RstrLife

open Finset

/-- An array that was borrowed: the restriction that counts it, the pointer, and which array it is. -/
structure Loan where
  owner : Nat
  ptr : Nat
  kind : Kind
deriving DecidableEq, Repr

/-- The books of the user: the number of restrictions made so far, the references they hold to each, the original of each copy,
the arrays given when an original was made, the arrays borrowed, and the originals for which a destruction was refused. -/
structure Ledger where
  num : Nat
  hand : Nat → Nat
  base : Nat → Option Nat
  blk : Nat → Block
  loans : List Loan
  refused : Nat → Bool

/-- Nothing was done. -/
def Ledger.init : Ledger := ⟨0, fun _ => 0, fun _ => none, fun _ _ => none, [], fun _ => false⟩

/-- The original of a restriction: itself unless it is a copy. -/
def Ledger.orig (l : Ledger) (o : Nat) : Nat := (l.base o).getD o

/-- Offsets are borrowed from the original, orientations from the restriction itself. -/
def Ledger.lender (l : Ledger) : Kind → Nat → Nat
  | .offsets, o => l.orig o
  | .orients, o => o
  | .curlOrients, o => o

/-- The copies of `o` to which the user holds a reference. -/
def Ledger.copies (l : Ledger) (o : Nat) : Nat := ∑ p ∈ range l.num, if l.base p = some o ∧ 1 ≤ l.hand p then 1 else 0

/-- The number of borrowed arrays that `o` counts. -/
def Ledger.lent (l : Ledger) (o : Nat) : Nat := l.loans.countP (fun i => i.owner = o)

/-- The books after a call that succeeded and returned `r`. -/
def Ledger.succeeded (l : Ledger) (r : Nat) : Call → Ledger
  | .create c =>
    { l with num := l.num + 1, hand := Function.update l.hand r 1, base := Function.update l.base r none, blk := Function.update l.blk r c }
  | .copy o => { l with num := l.num + 1, hand := Function.update l.hand r 1, base := Function.update l.base r (some o) }
  | .refCopy o _ => { l with hand := Function.update l.hand o (l.hand o + 1) }
  | .get k _ o => { l with loans := ⟨l.lender k o, r, k⟩ :: l.loans }
  | .restore k o => { l with loans := l.loans.erase ⟨l.lender k o, l.orig o, k⟩ }
  | .destroy o => { l with hand := Function.update l.hand o (l.hand o - 1) }
  | .use _ => l

/-- The books after a call that returned an error: only a refused destruction is noted. -/
def Ledger.failed (l : Ledger) : Call → Ledger
  | .destroy o => { l with refused := Function.update l.refused (l.orig o) true }
  | _ => l

/-- What the user may do: use restrictions to which they hold a reference, give back what they borrowed. Beyond that, which the
documentation does not ask for: no copies are made of copies, nor of a restriction that counts a borrowed array; and no references
or copies are made of a restriction, or its copies, after one of them could not be destroyed. References are copied to variables
that are `NULL` (replacing a reference is this followed by a destruction). -/
def Legal (l : Ledger) : Call → Prop
  | .create _ => True
  | .copy o => 1 ≤ l.hand o ∧ l.base o = none ∧ l.lent o = 0 ∧ l.refused o = false
  | .refCopy o old => 1 ≤ l.hand o ∧ l.refused (l.orig o) = false ∧ old = none
  | .get _ _ o => 1 ≤ l.hand o
  | .restore k o => 1 ≤ l.hand o ∧ ⟨l.lender k o, l.orig o, k⟩ ∈ l.loans
  | .destroy o => 1 ≤ l.hand o
  | .use o => 1 ≤ l.hand o

/-- The histories of the user. -/
inductive Reach : Heap → Ledger → Prop
  | init : Reach Heap.init Ledger.init
  | ok {h h' : Heap} {l : Ledger} {c : Call} {r : Nat} :
    Reach h l → Legal l c → exec c h = .ok h' r → Reach h' (l.succeeded r c)
  | err {h h' : Heap} {l : Ledger} {c : Call} {e : Err} :
    Reach h l → Legal l c → exec c h = .err h' e → Reach h' (l.failed c)

/-- Nobody but the caller needs the restriction: one reference is left in all. -/
def Ledger.last (l : Ledger) (o : Nat) : Prop := l.hand o + l.copies o = 1

/-- The destruction of `o` has to wait: it is the last reference, and an array is still borrowed from it, or from its original when
the copy is the only one to need that. -/
def Ledger.busy (l : Ledger) (o : Nat) : Prop :=
  l.last o ∧ (l.lent o ≠ 0 ∨ ∃ b, l.base o = some b ∧ l.last b ∧ l.lent b ≠ 0)

end RstrLife
end Verif
