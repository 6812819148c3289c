import Verif.Basic

/-!
# Stateful calls

A call acts on a state. An error return leaves a state behind, because the C code does not roll back.
-/

namespace Verif

/-- Outcome of a stateful C call. -/
inductive Out (σ β : Type _)
  | ok (s : σ) (a : β)
  | err (s : σ) (e : Err)
  | ub

namespace Out
variable {σ β γ : Type _}

/-- Sequencing, as done by `CeedCall` / `CeedCallBackend` (`include/ceed/backend.h`): the first error is returned, with
the state reached at that point. -/
def bind (x : Out σ β) (f : σ → β → Out σ γ) : Out σ γ :=
  match x with
  | ok s a => f s a
  | err s e => err s e
  | ub => ub

@[simp] theorem bind_ok (s : σ) (a : β) (f : σ → β → Out σ γ) : (Out.ok s a).bind f = f s a := rfl
@[simp] theorem bind_err (s : σ) (e : Err) (f : σ → β → Out σ γ) : (Out.err s e : Out σ β).bind f = .err s e := rfl
@[simp] theorem bind_ub (f : σ → β → Out σ γ) : (Out.ub : Out σ β).bind f = .ub := rfl

/-- The state left behind satisfies `P`, whatever the return code (nothing is said about undefined behaviour). -/
def Post (x : Out σ β) (P : σ → Prop) : Prop :=
  match x with
  | ok s _ => P s
  | err s _ => P s
  | ub => True

@[simp] theorem post_ok (s : σ) (a : β) (P : σ → Prop) : (Out.ok s a).Post P ↔ P s := Iff.rfl
@[simp] theorem post_err (s : σ) (e : Err) (P : σ → Prop) : (Out.err s e : Out σ β).Post P ↔ P s := Iff.rfl
@[simp] theorem post_ub (P : σ → Prop) : (Out.ub : Out σ β).Post P ↔ True := Iff.rfl

theorem Post.bind {x : Out σ β} {f : σ → β → Out σ γ} {P Q : σ → Prop} (hx : x.Post P) (hPQ : ∀ s, P s → Q s)
    (hf : ∀ s a, x = .ok s a → P s → (f s a).Post Q) : (x.bind f).Post Q := by
  cases x with
  | ok s a => exact hf s a rfl hx
  | err s e => exact hPQ s hx
  | ub => trivial

theorem bind_eq_ok {x : Out σ β} {f : σ → β → Out σ γ} {s' : σ} {c : γ} :
    x.bind f = .ok s' c ↔ ∃ s a, x = .ok s a ∧ f s a = .ok s' c := by
  cases x <;> simp

theorem bind_eq_err {x : Out σ β} {f : σ → β → Out σ γ} {s' : σ} {e : Err} :
    x.bind f = .err s' e ↔ x = .err s' e ∨ ∃ s a, x = .ok s a ∧ f s a = .err s' e := by
  cases x <;> simp

end Out

/-- A stateful call. -/
def M (σ β : Type _) := σ → Out σ β

namespace M
variable {σ β γ : Type _}

instance : Monad (M σ) where
  pure a := fun s => .ok s a
  bind m f := fun s => (m s).bind (fun s a => f a s)

@[simp] theorem pure_apply (a : β) (s : σ) : (pure a : M σ β) s = .ok s a := rfl
@[simp] theorem bind_apply (m : M σ β) (f : β → M σ γ) (s : σ) : (m >>= f) s = (m s).bind (fun s a => f a s) := rfl

/-- Error return. -/
def fail (e : Err) : M σ β := fun s => .err s e
/-- Undefined behaviour. -/
def undef : M σ β := fun _ => .ub
/-- `CeedCheck(c, ceed, e, ...)`. -/
def check (c : Prop) [Decidable c] (e : Err) : M σ Unit := fun s => if c then .ok s () else .err s e
/-- A call of the library or undefined behaviour, on a part of the state. -/
def lift (r : Res β) : M σ β := fun s =>
  match r with
  | .ok a => .ok s a
  | .err e => .err s e
  | .ub => .ub

@[simp] theorem fail_apply (e : Err) (s : σ) : (fail e : M σ β) s = .err s e := rfl
@[simp] theorem undef_apply (s : σ) : (undef : M σ β) s = .ub := rfl
theorem check_apply (c : Prop) [Decidable c] (e : Err) (s : σ) : check c e s = if c then .ok s () else .err s e := rfl
@[simp] theorem check_true {c : Prop} [Decidable c] (h : c) (e : Err) (s : σ) : check c e s = .ok s () := if_pos h
@[simp] theorem check_false {c : Prop} [Decidable c] (h : ¬ c) (e : Err) (s : σ) : check c e s = .err s e := if_neg h
@[simp] theorem lift_ok (a : β) (s : σ) : (lift (.ok a) : M σ β) s = .ok s a := rfl
@[simp] theorem lift_err (e : Err) (s : σ) : (lift (.err e) : M σ β) s = .err s e := rfl
@[simp] theorem lift_ub (s : σ) : (lift .ub : M σ β) s = .ub := rfl

/-- `for (i = 0; i < n; i++) body(i)`. -/
def loop (n : Nat) (body : Nat → M σ Unit) : M σ Unit :=
  match n with
  | 0 => pure ()
  | n + 1 => do
    loop n body
    body n

@[simp] theorem loop_zero (body : Nat → M σ Unit) (s : σ) : loop 0 body s = .ok s () := rfl
theorem loop_succ (n : Nat) (body : Nat → M σ Unit) (s : σ) :
    loop (n + 1) body s = (loop n body s).bind (fun s _ => body n s) := rfl

/-! ## Weakest preconditions -/

/-- Started in `s`, `m` ends in a state satisfying `Q` when it succeeds, `E` when it returns an error, and its behaviour
is defined if `S` holds. -/
def wp (S : Prop) (m : M σ β) (s : σ) (Q : σ → β → Prop) (E : σ → Err → Prop) : Prop :=
  match m s with
  | .ok s' a => Q s' a
  | .err s' e => E s' e
  | .ub => ¬ S

variable {S : Prop} {s : σ} {Q : σ → β → Prop} {E : σ → Err → Prop}

theorem wp_bind {m : M σ β} {f : β → M σ γ} {Q : σ → γ → Prop} :
    wp S (m >>= f) s Q E ↔ wp S m s (fun s a => wp S (f a) s Q E) E := by
  unfold wp
  simp only [bind_apply]
  cases m s <;> simp [Out.bind]

theorem wp_pure {a : β} : wp S (pure a : M σ β) s Q E ↔ Q s a := Iff.rfl
theorem wp_fail {e : Err} : wp S (fail e : M σ β) s Q E ↔ E s e := Iff.rfl
theorem wp_undef : wp S (undef : M σ β) s Q E ↔ ¬ S := Iff.rfl
theorem wp_check {c : Prop} [Decidable c] {e : Err} {Q : σ → Unit → Prop} (h1 : c → Q s ()) (h2 : ¬ c → E s e) :
    wp S (check c e) s Q E := by
  unfold wp check
  split <;> rename_i h <;> split at h <;> simp_all

theorem wp_mono {m : M σ β} {Q' : σ → β → Prop} {E' : σ → Err → Prop} (h : wp S m s Q' E')
    (hQ : ∀ s a, Q' s a → Q s a) (hE : ∀ s e, E' s e → E s e) : wp S m s Q E := by
  unfold wp at *
  cases hm : m s <;> simp_all

theorem wp_ite {c : Prop} [Decidable c] {m n : M σ β} (h1 : c → wp S m s Q E) (h2 : ¬ c → wp S n s Q E) :
    wp S (if c then m else n) s Q E := by
  split
  · exact h1 ‹_›
  · exact h2 ‹_›

/-- Loop rule. -/
theorem wp_loop {n : Nat} {body : Nat → M σ Unit} (I : Nat → σ → Prop) (h0 : I 0 s)
    (hb : ∀ i < n, ∀ s, I i s → wp S (body i) s (fun s _ => I (i + 1) s) E) :
    wp S (loop n body) s (fun s _ => I n s) E := by
  induction n with
  | zero => exact h0
  | succ n ih =>
    show wp S (loop n body >>= fun _ => body n) s _ E
    rw [wp_bind]
    exact wp_mono (ih (fun i hi => hb i (by omega))) (fun s _ h => hb n (by omega) s h) (fun _ _ h => h)

theorem wp_ok {m : M σ β} {s' : σ} {a : β} (h : wp S m s Q E) (e : m s = .ok s' a) : Q s' a := by
  unfold wp at h; rw [e] at h; exact h
theorem wp_err {m : M σ β} {s' : σ} {a : Err} (h : wp S m s Q E) (e : m s = .err s' a) : E s' a := by
  unfold wp at h; rw [e] at h; exact h
theorem wp_ub {m : M σ β} (h : wp S m s Q E) (e : m s = .ub) : ¬ S := by
  unfold wp at h; rw [e] at h; exact h
theorem wp_of_eq_ok {m : M σ β} {s' : σ} {a : β} (e : m s = .ok s' a) (h : Q s' a) : wp S m s Q E := by
  unfold wp; rw [e]; exact h
theorem wp_of_eq_err {m : M σ β} {s' : σ} {a : Err} (e : m s = .err s' a) (h : E s' a) : wp S m s Q E := by
  unfold wp; rw [e]; exact h
theorem wp_of_eq_ub {m : M σ β} (e : m s = .ub) (h : ¬ S) : wp S m s Q E := by
  unfold wp; rw [e]; exact h

end M
end Verif
