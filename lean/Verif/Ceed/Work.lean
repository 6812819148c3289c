import Verif.State

/-!
# Work vectors

The pool of work vectors of a Ceed: `CeedGetWorkVector`, `CeedRestoreWorkVector`, `CeedWorkVectorsCreate`,
`CeedWorkVectorsDestroy`, and the part of `CeedDestroy` that concerns it. A vector is its length and its reference
count; array locks of work vectors are in the vector model (`Verif/Vector`). Lengths are natural numbers.
-/

namespace Verif.Ceed

/-- A Ceed with its pool. `own`: the Ceed implements `VectorCreate` itself, otherwise vectors are made by its delegate,
whose count is `deleg`. `tab`: `work_vectors` (`NULL` is `none`), one entry per vector: the vector and `is_in_use`;
`cap`: `max_vecs`. `include/ceed-impl.h` 86-91, 128, 133. -/
structure Work where
  own : Bool
  alive : Bool
  refs : Int
  deleg : Int
  vec : Nat → Option (Nat × Int)
  next : Nat
  tab : Option (List (Nat × Bool))
  cap : Nat

/-- A Ceed as made by `CeedInit`, with `n` references to it. -/
def Work.start (own : Bool) (n : Nat) : Work := ⟨own, true, n, 1, fun _ => none, 0, none, 0⟩

/-- `CeedWorkVectorsCreate`, if `work_vectors` is `NULL`: `interface/ceed.c` 150-153, 836. -/
def ensureTab : M Work (List (Nat × Bool)) := fun w =>
  if w.alive then
    match w.tab with
    | some t => .ok w t
    | none => .ok { w with tab := some [], cap := 0 } []
  else .ub

/-- The search: `interface/ceed.c` 839-845; `i` is the loop counter. The result is the row found or the number of rows. -/
def search (vec : Nat → Option (Nat × Int)) (len : Nat) : List (Nat × Bool) → Nat → Res Nat
  | [], i => .ok i
  | (v, used) :: t, i =>
    if used then search vec len t (i + 1)
    else
      match vec v with
      | none => .ub
      | some (l, _) => if len ≤ l then .ok i else search vec len t (i + 1)

/-- Growing the arrays: `interface/ceed.c` 848-856. -/
def growCap (cap i : Nat) : Nat := if cap = 0 then 1 else if cap = i then cap * 2 else cap

/-- `CeedVectorCreate` (`interface/ceed-vector.c` 161-179): the count of the Ceed that makes the vector goes up. -/
def createVec (w : Work) (len : Nat) : Work :=
  { w with vec := fun k => if k = w.next then some (len, 1) else w.vec k, next := w.next + 1,
           refs := if w.own then w.refs + 1 else w.refs, deleg := if w.own then w.deleg else w.deleg + 1 }

/-- A new entry: `interface/ceed.c` 847-859. The entry is written at row `i`, which must be inside the arrays. -/
def addVec (len i : Nat) (t : List (Nat × Bool)) : M Work (List (Nat × Bool)) := fun w =>
  if i < growCap w.cap i then
    let w1 := createVec { w with cap := growCap w.cap i } len
    .ok { w1 with refs := w1.refs - 1 } (t ++ [(w.next, false)])
  else .ub

/-- The end of `CeedGetWorkVector`: `interface/ceed.c` 862-866, with `CeedVectorReferenceCopy`. -/
def handOut (i : Nat) (t : List (Nat × Bool)) : M Work Nat := fun w =>
  match t[i]? with
  | none => .ub
  | some (v, _) =>
    match w.vec v with
    | none => .ub
    | some (l, c) =>
      .ok { w with tab := some (t.set i (v, true)), refs := w.refs + 1,
                   vec := fun k => if k = v then some (l, c + 1) else w.vec k } v

/-- The search as a step of `CeedGetWorkVector`. -/
def searchTab (len : Nat) (t : List (Nat × Bool)) : M Work Nat := fun w =>
  match search w.vec len t 0 with
  | .ok i => .ok w i
  | .err e => .err w e
  | .ub => .ub

/-- `CeedGetWorkVector`: `interface/ceed.c` 833-868. -/
def getWork (len : Nat) : M Work Nat := do
  let t ← ensureTab
  let i ← searchTab len t
  if i = t.length then do
    let t' ← addVec len i t
    handOut i t'
  else handOut i t

/-- `CeedVectorDestroy` of a handle (`interface/ceed-vector.c` 1106-1119). When the last reference goes the vector is
freed and the Ceed that made it loses a reference; if that were the last one, `CeedDestroy` would be entered from here,
which is not modelled (it does not happen: `C35_get`, `C35_restore`, `C35_destroy` prove that `.ub` is not reached). -/
def dropVec (v : Nat) : M Work Unit := fun w =>
  match w.vec v with
  | none => .ub
  | some (l, c) =>
    if 0 < c - 1 then .ok { w with vec := fun k => if k = v then some (l, c - 1) else w.vec k } ()
    else if w.own then
      if 0 < w.refs - 1 then .ok { w with vec := fun k => if k = v then none else w.vec k, refs := w.refs - 1 } () else .ub
    else .ok { w with vec := fun k => if k = v then none else w.vec k, deleg := w.deleg - 1 } ()

/-- The first row holding `v`: the loop of `interface/ceed.c` 881-882. -/
def rowOf (v : Nat) : List (Nat × Bool) → Nat → Option (Nat × Bool)
  | [], _ => none
  | (u, b) :: t, i => if v = u then some (i, b) else rowOf v t (i + 1)

/-- `CeedRestoreWorkVector`: `interface/ceed.c` 880-893. -/
def restoreWork (v : Nat) : M Work Unit := fun w =>
  if w.alive then
    match w.tab with
    | none => .ub
    | some t =>
      match rowOf v t 0 with
      | none => .err w .major
      | some (i, b) =>
        if b then
          (dropVec v w).bind fun w1 _ => .ok { w1 with tab := some (t.set i (v, false)), refs := w1.refs - 1 } ()
        else .err w .access
  else .ub

/-- The loop of `CeedWorkVectorsDestroy`: `interface/ceed.c` 166-171. -/
def dropAll : List (Nat × Bool) → M Work Unit
  | [] => pure ()
  | (v, used) :: t => fun w =>
    if used then .err w .access
    else
      (dropVec v { w with refs := w.refs + 2 }).bind fun w1 _ => dropAll t { w1 with refs := w1.refs - 1 }

/-- `CeedDestroy` of a handle: `interface/ceed.c` 1445-1484 restricted to counts, delegate and pool. -/
def destroyCeed : M Work Unit := fun w =>
  if w.alive then
    if 0 < w.refs - 1 then .ok { w with refs := w.refs - 1 } ()
    else
      (dropAll (w.tab.getD []) { w with refs := w.refs - 1, deleg := if w.own then w.deleg else w.deleg - 1 }).bind
        fun w1 _ => .ok { w1 with tab := none, cap := 0, alive := false } ()
  else .ub

/-- `CeedReference`: `interface/ceed.c` 816-819. -/
def referenceCeed : M Work Unit := fun w => if w.alive then .ok { w with refs := w.refs + 1 } () else .ub

end Verif.Ceed
