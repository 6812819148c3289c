import Verif.CheckQF.Model

/-!
# QFunction application of the checking backend: contract and effect
-/

namespace Verif
namespace CheckQF

variable {S T : Type}

/-- Nobody has access to the vector. -/
def Vec.Idle (x : Vec S) : Prop := x.state % 2 = 0 ∧ x.readers = 0 ∧ x.ro = none ∧ x.wr = none

/-- Nobody has access to the context, and it has data. -/
def Cx.Idle (c : Cx T) : Prop := c.state % 2 = 0 ∧ c.readers = 0 ∧ c.ro = none ∧ c.wr = none ∧ c.data.isSome

/-- The vectors can be used: inputs have values, outputs are long enough, no output is used twice or as an input. A vector may
be used for several inputs. -/
structure Ready (w : W S T) (q : QF S T) (Q : Nat) (us vs : List Nat) : Prop where
  vecLen : 0 < q.vecLen
  points : Q % q.vecLen = 0
  ins : ∀ v ∈ us, (w.vec v).Idle ∧ ((w.vec v).len = 0 ∨ (w.vec v).arr.isSome)
  outs : ∀ v ∈ vs, (w.vec v).Idle ∧ v ∉ us
  nodup : vs.Nodup
  sizes : List.Forall₂ (fun n v => n * Q ≤ (w.vec v).len) q.sizes vs
  ctx : ∀ c, w.ctx = some c → c.Idle

/-- The data of the context. -/
def ctxData (w : W S T) : Option T := w.ctx.bind Cx.data

/-- The contents of an input array. -/
def inVal (bad : S) (w : W S T) (v : Nat) : Nat → S := if (w.vec v).len = 0 then fun _ => bad else (w.vec v).arr.getD fun _ => bad

/-- What the user function does in the application: it gets the data of the context, the values of the inputs, and outputs
that are marked as unset. -/
def Runs (bad : S) (w : W S T) (q : QF S T) (Q : Nat) (us vs : List Nat) (r : UserOut S T) : Prop :=
  q.user (ctxData w) Q (us.map (inVal bad w)) (vs.map fun _ => fun _ => bad) = some r ∧ r.outs.length = vs.length

/-- The user function has left alone what it should only read. -/
structure ReadsOnly (bad : S) (w : W S T) (q : QF S T) (us : List Nat) (r : UserOut S T) : Prop where
  ins : List.Forall₂ (fun v g => ∀ i < (w.vec v).len, g i = inVal bad w v i) us r.ins
  ctx : q.writable = false → r.ctx = ctxData w
  valid : w.ctx.isSome → r.ctx.isSome

/-- Every entry of every output that belongs to the field is set. -/
def AllSet (nan : S → Bool) (q : QF S T) (Q : Nat) (r : UserOut S T) : Prop :=
  List.Forall₂ (fun n g => ∀ j < n * Q, nan (g j) = false) q.sizes r.outs

/-- The vector holds these values. -/
def Vec.Has (x : Vec S) (g : Nat → S) : Prop := x.len = 0 ∨ ∃ a, x.arr = some a ∧ ∀ i < x.len, a i = g i

/-- The effect of an application: the outputs hold what the user function has written, other vectors are as before, the context
holds what a writing user function has left in it, and all access is given back. -/
structure Applied (w w' : W S T) (q : QF S T) (vs : List Nat) (r : UserOut S T) : Prop where
  outs : List.Forall₂ (fun v g => (w'.vec v).Idle ∧ (w'.vec v).len = (w.vec v).len ∧ (w'.vec v).Has g ∧
    (w'.vec v).state = (w.vec v).state + 2) vs r.outs
  others : ∀ v, v ∉ vs → w'.vec v = w.vec v
  ctx : ∀ c, w.ctx = some c → ∃ c', w'.ctx = some c' ∧ c'.Idle ∧ c'.data = if q.writable then r.ctx else c.data
  noCtx : w.ctx = none → w'.ctx = none

end CheckQF
end Verif
