import Mathlib.Algebra.BigOperators.Group.Finset.Basic
import Mathlib.Algebra.BigOperators.Ring.Finset
import Mathlib.Algebra.BigOperators.Intervals

/-!
# Basic vocabulary of the model

Outcomes of C calls, arrays with bounds, counted loops.
-/

namespace Verif

/-- Error codes returned by the library: `include/ceed/types.h` 134-153 (`CeedErrorType`). -/
inductive Err
  | minor | dimension | incomplete | incompatible | access | major | backend | unsupported
deriving DecidableEq, Repr

/-- Outcome of a pure computation: a value, an error return, or undefined behaviour of C. -/
inductive Res (α : Type _)
  | ok (a : α)
  | err (e : Err)
  | ub
deriving DecidableEq, Repr

namespace Res

variable {α : Type _} {β : Type _}

/-- Sequencing, as done by the macros `CeedCall` / `CeedCallBackend` (`include/ceed/backend.h`): the first error
code returned is propagated. -/
protected def bind (x : Res α) (f : α → Res β) : Res β :=
  match x with
  | ok a => f a
  | err e => err e
  | ub => ub

instance : Monad Res where
  pure := Res.ok
  bind := Res.bind

@[simp] theorem bind_ok (a : α) (f : α → Res β) : (Res.ok a >>= f) = f a := rfl
@[simp] theorem bind_err (e : Err) (f : α → Res β) : ((Res.err e : Res α) >>= f) = Res.err e := rfl
@[simp] theorem bind_ub (f : α → Res β) : ((Res.ub : Res α) >>= f) = Res.ub := rfl
@[simp] theorem pure_eq (a : α) : (pure a : Res α) = Res.ok a := rfl

theorem bind_assoc' {γ : Type _} (x : Res α) (f : α → Res β) (g : β → Res γ) :
    (x >>= f >>= g) = (x >>= fun a => f a >>= g) := by
  cases x <;> rfl

theorem bind_eq_ok {x : Res α} {f : α → Res β} {b : β} :
    (x >>= f) = Res.ok b ↔ ∃ a, x = Res.ok a ∧ f a = Res.ok b := by
  cases x <;> simp

@[simp] theorem bind_ok_right (x : Res α) : (x >>= fun a => Res.ok a) = x := by cases x <;> rfl

/-- The macro `CeedCheck(cond, ceed, code, ...)` (`include/ceed/backend.h`): an error return unless `cond`. -/
def check (c : Prop) [Decidable c] (e : Err) : Res Unit := if c then ok () else err e

@[simp] theorem check_true {c : Prop} [Decidable c] (h : c) (e : Err) : check c e = ok () := by simp [check, h]
@[simp] theorem check_false {c : Prop} [Decidable c] (h : ¬ c) (e : Err) : check c e = err e := by simp [check, h]

theorem check_eq_ok {c : Prop} [Decidable c] {e : Err} {u : Unit} : check c e = ok u ↔ c := by
  unfold check; split <;> simp_all

end Res

/-- A C array of `len` entries. `val` outside `[0,len)` is never read or written by the model. -/
@[ext] structure Buf (α : Type _) where
  len : Nat
  val : Nat → α

namespace Buf

variable {α : Type _}

/-- `b[i]`, undefined outside the array. -/
def rd (b : Buf α) (i : Nat) : Res α := if i < b.len then .ok (b.val i) else .ub

/-- `b[i] = x`, undefined outside the array. -/
def wr (b : Buf α) (i : Nat) (x : α) : Res (Buf α) :=
  if i < b.len then .ok ⟨b.len, fun j => if j = i then x else b.val j⟩ else .ub

/-- `b[i]` for a signed index. -/
def rdI (b : Buf α) (i : Int) : Res α := if 0 ≤ i then b.rd i.toNat else .ub

/-- `b[i] = x` for a signed index. -/
def wrI (b : Buf α) (i : Int) (x : α) : Res (Buf α) := if 0 ≤ i then b.wr i.toNat x else .ub

/-- `b[i] += x`. -/
def addAt [Add α] (b : Buf α) (i : Nat) (x : α) : Res (Buf α) := do
  let y ← b.rd i
  b.wr i (y + x)

/-- `b[i] += x` for a signed index. -/
def addAtI [Add α] (b : Buf α) (i : Int) (x : α) : Res (Buf α) := if 0 ≤ i then b.addAt i.toNat x else .ub

/-- A literal array. -/
def ofList [Inhabited α] (l : List α) : Buf α := ⟨l.length, fun i => l.getD i default⟩

/-- The readable contents. -/
def toList (b : Buf α) : List α := (List.range b.len).map b.val

/-- Same length and same readable contents. -/
def Same (a b : Buf α) : Prop := a.len = b.len ∧ ∀ i < a.len, a.val i = b.val i

@[simp] theorem rd_lt {b : Buf α} {i : Nat} (h : i < b.len) : b.rd i = .ok (b.val i) := by simp [rd, h]
@[simp] theorem rd_ge {b : Buf α} {i : Nat} (h : ¬ i < b.len) : b.rd i = .ub := by simp [rd, h]

theorem rdI_lt {b : Buf α} {i : Int} (h0 : 0 ≤ i) (h : i < b.len) : b.rdI i = .ok (b.val i.toNat) := by
  have : i.toNat < b.len := by omega
  simp [rdI, h0, this]

theorem wr_lt {b : Buf α} {i : Nat} (h : i < b.len) (x : α) :
    b.wr i x = .ok ⟨b.len, fun j => if j = i then x else b.val j⟩ := by simp [wr, h]

theorem addAt_lt [Add α] {b : Buf α} {i : Nat} (h : i < b.len) (x : α) :
    b.addAt i x = .ok ⟨b.len, fun j => if j = i then b.val i + x else b.val j⟩ := by
  simp [addAt, h, wr_lt]

theorem addAt_ge [Add α] {b : Buf α} {i : Nat} (h : ¬ i < b.len) (x : α) : b.addAt i x = .ub := by
  simp [addAt, h]

end Buf

/-- `for (i = 0; i < n; i++) body(i)` on a loop-carried state. -/
def loop {σ : Type _} (n : Nat) (body : Nat → σ → Res σ) (s : σ) : Res σ :=
  match n with
  | 0 => .ok s
  | n + 1 => loop n body s >>= body n

section loopLemmas
variable {σ : Type _}

@[simp] theorem loop_zero (body : Nat → σ → Res σ) (s : σ) : loop 0 body s = .ok s := rfl
theorem loop_succ (n : Nat) (body : Nat → σ → Res σ) (s : σ) :
    loop (n + 1) body s = (loop n body s >>= body n) := rfl

/-- Loop rule: an invariant indexed by the iteration number. -/
theorem loop_inv {n : Nat} {body : Nat → σ → Res σ} {s : σ} (I : Nat → σ → Prop) (h0 : I 0 s)
    (hs : ∀ i < n, ∀ s, I i s → ∃ s', body i s = .ok s' ∧ I (i + 1) s') :
    ∃ s', loop n body s = .ok s' ∧ I n s' := by
  induction n with
  | zero => exact ⟨s, rfl, h0⟩
  | succ n ih =>
    obtain ⟨s1, e1, h1⟩ := ih (fun i hi => hs i (by omega))
    obtain ⟨s2, e2, h2⟩ := hs n (by omega) s1 h1
    exact ⟨s2, by rw [loop_succ, e1, Res.bind_ok, e2], h2⟩

theorem loop_congr {n : Nat} {f g : Nat → σ → Res σ} {s : σ} (h : ∀ i < n, ∀ s, f i s = g i s) :
    loop n f s = loop n g s := by
  induction n with
  | zero => rfl
  | succ n ih =>
    rw [loop_succ, loop_succ, ih (fun i hi => h i (by omega))]
    cases loop n g s <;> simp [h n (by omega)]

/-- Loops of pure updates. -/
theorem loop_pure {n : Nat} {body : Nat → σ → Res σ} {f : Nat → σ} {s : σ} (h0 : f 0 = s)
    (h : ∀ i < n, body i (f i) = .ok (f (i + 1))) : loop n body s = .ok (f n) := by
  obtain ⟨s', e, rfl⟩ := loop_inv (n := n) (body := body) (s := s) (fun i s => s = f i) h0.symm
    (fun i hi s hs => ⟨f (i+1), by rw [hs]; exact h i hi, rfl⟩)
  exact e

end loopLemmas

/-! ## Accumulating programs -/

section Adds
open Finset
variable {α : Type _} [AddCommMonoid α]

/-- `f` succeeds on every array of length `L` and adds `c j` to entry `j`, for all `j`. -/
def Adds (f : Buf α → Res (Buf α)) (L : Nat) (c : Nat → α) : Prop :=
  ∀ v : Buf α, v.len = L → f v = .ok ⟨L, fun j => v.val j + c j⟩

theorem Adds.congr {f : Buf α → Res (Buf α)} {L : Nat} {c c' : Nat → α} (h : Adds f L c) (e : ∀ j, c j = c' j) :
    Adds f L c' := by
  have : c = c' := funext e
  rwa [← this]

theorem Adds.skip {L : Nat} : Adds (fun v : Buf α => Res.ok v) L (fun _ => 0) := by
  intro v hv; subst hv; simp

theorem Adds.addAt {L i : Nat} (h : i < L) (x : α) :
    Adds (fun v => v.addAt i x) L (fun j => if j = i then x else 0) := by
  intro v hv
  subst hv
  show v.addAt i x = _
  rw [Buf.addAt_lt h]
  congr 2
  funext j
  split <;> simp_all

theorem Adds.seq {f g : Buf α → Res (Buf α)} {L : Nat} {c d : Nat → α} (hf : Adds f L c) (hg : Adds g L d) :
    Adds (fun v => f v >>= g) L (fun j => c j + d j) := by
  intro v hv
  simp only [hf v hv, Res.bind_ok]
  rw [hg _ rfl]
  simp [add_assoc]

theorem Adds.loop {n : Nat} {body : Nat → Buf α → Res (Buf α)} {L : Nat} {c : Nat → Nat → α}
    (h : ∀ i < n, Adds (body i) L (c i)) :
    Adds (Verif.loop n body) L (fun j => ∑ i ∈ range n, c i j) := by
  induction n with
  | zero => intro v hv; subst hv; simp
  | succ n ih =>
    intro v hv
    rw [loop_succ, ih (fun i hi => h i (by omega)) v hv, Res.bind_ok, h n (by omega) _ rfl]
    simp [sum_range_succ, add_assoc]

end Adds

/-! ## Assigning programs -/

section Sets
variable {α : Type _}

/-- `f` succeeds on every array of length `L`, sets every entry `j` with `S j` to `g j` and leaves the others. -/
def Sets (f : Buf α → Res (Buf α)) (L : Nat) (S : Nat → Prop) (g : Nat → α) : Prop :=
  ∀ v : Buf α, v.len = L → ∃ v', f v = .ok v' ∧ v'.len = L ∧
    (∀ j, S j → v'.val j = g j) ∧ ∀ j, ¬ S j → v'.val j = v.val j

theorem Sets.congr {f : Buf α → Res (Buf α)} {L : Nat} {S S' : Nat → Prop} {g g' : Nat → α} (h : Sets f L S g)
    (hS : ∀ j, S j ↔ S' j) (e : ∀ j, S j → g j = g' j) : Sets f L S' g' := by
  intro v hv
  obtain ⟨v', h1, h2, h3, h4⟩ := h v hv
  exact ⟨v', h1, h2, fun j hj => by rw [h3 j ((hS j).2 hj), e j ((hS j).2 hj)],
    fun j hj => h4 j (fun hh => hj ((hS j).1 hh))⟩

theorem Sets.skip {L : Nat} {g : Nat → α} : Sets (fun v : Buf α => Res.ok v) L (fun _ => False) g := by
  intro v hv; exact ⟨v, rfl, hv, by simp, by simp⟩

theorem Sets.wr {L i : Nat} (h : i < L) {x : α} {g : Nat → α} (hx : x = g i) :
    Sets (fun v => v.wr i x) L (fun j => j = i) g := by
  intro v hv
  subst hv
  refine ⟨_, Buf.wr_lt h x, rfl, ?_, ?_⟩
  · rintro j rfl; simp [hx]
  · intro j hj; simp [hj]

theorem Sets.seq {f f' : Buf α → Res (Buf α)} {L : Nat} {S S' : Nat → Prop} {g : Nat → α} (h : Sets f L S g)
    (h' : Sets f' L S' g) : Sets (fun v => f v >>= f') L (fun j => S j ∨ S' j) g := by
  intro v hv
  obtain ⟨v1, e1, l1, a1, b1⟩ := h v hv
  obtain ⟨v2, e2, l2, a2, b2⟩ := h' v1 l1
  refine ⟨v2, by simp [e1, e2], l2, ?_, ?_⟩
  · intro j hj
    by_cases h2 : S' j
    · exact a2 j h2
    · rw [b2 j h2]; exact a1 j (hj.resolve_right h2)
  · intro j hj
    rw [b2 j (fun h => hj (Or.inr h)), b1 j (fun h => hj (Or.inl h))]

theorem Sets.loop {n : Nat} {body : Nat → Buf α → Res (Buf α)} {L : Nat} {S : Nat → Nat → Prop} {g : Nat → α}
    (h : ∀ i < n, Sets (body i) L (S i) g) :
    Sets (Verif.loop n body) L (fun j => ∃ i < n, S i j) g := by
  induction n with
  | zero => exact (Sets.skip (g := g)).congr (by simp) (by simp)
  | succ n ih =>
    refine ((ih (fun i hi => h i (by omega))).seq (h n (by omega))).congr ?_ (by simp)
    intro j
    constructor
    · rintro (⟨i, hi, hS⟩ | hS)
      · exact ⟨i, by omega, hS⟩
      · exact ⟨n, by omega, hS⟩
    · rintro ⟨i, hi, hS⟩
      rcases Nat.lt_succ_iff_lt_or_eq.1 hi with h | rfl
      · exact Or.inl ⟨i, h, hS⟩
      · exact Or.inr hS

/-- Setting all entries determines the result. -/
theorem Sets.all {f : Buf α → Res (Buf α)} {L : Nat} {S : Nat → Prop} {g : Nat → α} (h : Sets f L S g)
    (hS : ∀ j < L, S j) {v : Buf α} (hv : v.len = L) :
    ∃ v', f v = .ok v' ∧ v'.len = L ∧ ∀ j < L, v'.val j = g j := by
  obtain ⟨v', e, l, a, _⟩ := h v hv
  exact ⟨v', e, l, fun j hj => a j (hS j hj)⟩

end Sets

/-- `for (i = 0; i < n; i++) v[i] = x` -/
def Buf.fill {α : Type _} (n : Nat) (x : α) (v : Buf α) : Res (Buf α) := loop n (fun i v => v.wr i x) v

theorem Sets.fill {α : Type _} {n L : Nat} (h : n ≤ L) (x : α) {g : Nat → α} (hg : ∀ j < n, g j = x) :
    Sets (Buf.fill n x) L (fun j => j < n) g := by
  refine (Sets.loop (S := fun i j => j = i) (g := g) (fun i hi => Sets.wr (by omega) (hg i hi).symm)).congr ?_ (by simp)
  intro j; constructor
  · rintro ⟨i, hi, rfl⟩; exact hi
  · intro hj; exact ⟨j, hj, rfl⟩

end Verif
