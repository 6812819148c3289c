import Verif.Basic

/-!
# Device kernels: threads, blocks, barriers and schedules

A kernel launch `CeedRunKernel_Cuda(ceed, kernel, grid_size, block_size, args)` (`backends/cuda/ceed-cuda-compile.cpp`
234-296) runs `grid_size` blocks of `block_size` threads. A thread is a sequential program over device memory; the
threads of all blocks are interleaved arbitrarily, one memory access at a time, except that `__syncthreads()` holds a
thread until every thread of its block has arrived or ended.

Simplifications, stated here once: accesses take effect in the order of some interleaving (a run with a data race has no
meaning in CUDA, so absence of races is part of every claim); one-dimensional grids and blocks (two-dimensional blocks
are numbered `y * blockDim.x + x`); registers and local arrays are values of the thread's program; integer arrays handed
to a kernel (offsets, orientations) are constants which it reads with bounds; integers are unbounded; scalars are an
arbitrary commutative ring, so that the order of atomic additions does not matter, which is only approximately so for
floating point numbers.
-/

namespace Verif.Gpu

/-- The scalar arrays a kernel can access: its input `u`, its output `v`, the read-only tables of a basis and the
shared buffers of a block. -/
inductive Arr
  | u
  | v
  | table (j : Nat)
  | shared (blk j : Nat)
deriving DecidableEq, Repr

/-- Program of one thread: the sequence of its memory accesses, the continuation depending on the values read. `fault`
is undefined behaviour before any access (an index array read out of bounds). -/
inductive Prog (α : Type) : Type
  | done
  | fault
  | rd (a : Arr) (i : Int) (k : α → Prog α)
  | wr (a : Arr) (i : Int) (x : α) (k : Prog α)
  | add (a : Arr) (i : Int) (x : α) (k : Prog α)
  | sync (k : Prog α)

/-- Contents of the arrays. -/
abbrev Vals (α : Type) := Arr → Nat → α

/-- Device memory: allocated lengths and contents. -/
structure Mem (α : Type) where
  len : Arr → Nat
  val : Vals α

/-- A state of a launch: memory and what is left of each thread (block, thread in block). -/
structure Cfg (α : Type) where
  mem : Mem α
  prog : Nat → Nat → Prog α

variable {α : Type}

/-- Index inside the array. -/
def InB (len : Arr → Nat) (a : Arr) (i : Int) : Prop := 0 ≤ i ∧ i < len a

instance (len : Arr → Nat) (a : Arr) (i : Int) : Decidable (InB len a i) := inferInstanceAs (Decidable (_ ∧ _))

/-- Contents after `a[i] = x`. -/
def upd (s : Vals α) (a : Arr) (i : Nat) (x : α) : Vals α := fun a' i' => if a' = a ∧ i' = i then x else s a' i'

/-- Replace the program of one thread. -/
def setProg (p : Nat → Nat → Prog α) (b t : Nat) (q : Prog α) : Nat → Nat → Prog α :=
  fun b' t' => if b' = b ∧ t' = t then q else p b' t'

/-- The thread waits at a barrier or has ended. -/
def Prog.Waits : Prog α → Prop
  | .sync _ => True
  | .done => True
  | _ => False

/-- The program after the barrier. -/
def Prog.pass : Prog α → Prog α
  | .sync k => k
  | p => p

/-- Release of the threads of a block from a barrier. -/
def passBlock (p : Nat → Nat → Prog α) (b : Nat) : Nat → Nat → Prog α :=
  fun b' t' => if b' = b then (p b' t').pass else p b' t'

section Steps
variable [Add α]

/-- One step of a launch of `G` blocks of `B` threads: some thread makes its next access, or the threads of some block,
all of which have arrived, leave a barrier. -/
inductive Step (G B : Nat) : Cfg α → Cfg α → Prop
  | rd {c : Cfg α} {b t : Nat} {a : Arr} {i : Int} {k : α → Prog α} (hb : b < G) (ht : t < B)
      (h : c.prog b t = .rd a i k) (hi : InB c.mem.len a i) :
      Step G B c ⟨c.mem, setProg c.prog b t (k (c.mem.val a i.toNat))⟩
  | wr {c : Cfg α} {b t : Nat} {a : Arr} {i : Int} {x : α} {k : Prog α} (hb : b < G) (ht : t < B)
      (h : c.prog b t = .wr a i x k) (hi : InB c.mem.len a i) :
      Step G B c ⟨⟨c.mem.len, upd c.mem.val a i.toNat x⟩, setProg c.prog b t k⟩
  | add {c : Cfg α} {b t : Nat} {a : Arr} {i : Int} {x : α} {k : Prog α} (hb : b < G) (ht : t < B)
      (h : c.prog b t = .add a i x k) (hi : InB c.mem.len a i) :
      Step G B c ⟨⟨c.mem.len, upd c.mem.val a i.toNat (c.mem.val a i.toNat + x)⟩, setProg c.prog b t k⟩
  | sync {c : Cfg α} {b t : Nat} {k : Prog α} (hb : b < G) (ht : t < B) (h : c.prog b t = .sync k)
      (hall : ∀ t' < B, (c.prog b t').Waits) :
      Step G B c ⟨c.mem, passBlock c.prog b⟩

/-- States some schedule can reach. -/
inductive Reach (G B : Nat) (c₀ : Cfg α) : Cfg α → Prop
  | start : Reach G B c₀ c₀
  | step {c c' : Cfg α} (h : Reach G B c₀ c) (hs : Step G B c c') : Reach G B c₀ c'

end Steps

/-- The next access of a thread: array, index, and whether it is a plain write or an atomic addition. -/
inductive Kind
  | read | write | atomic
deriving DecidableEq, Repr

/-- The access a thread is about to make. -/
def Prog.next : Prog α → Option (Arr × Int × Kind)
  | .rd a i _ => some (a, i, .read)
  | .wr a i _ _ => some (a, i, .write)
  | .add a i _ _ => some (a, i, .atomic)
  | _ => none

/-- Some thread is about to do something undefined: an access outside an array, or an index array read out of
bounds. -/
def Fault (G B : Nat) (c : Cfg α) : Prop :=
  ∃ b < G, ∃ t < B, c.prog b t = .fault ∨ ∃ a i κ, (c.prog b t).next = some (a, i, κ) ∧ ¬ InB c.mem.len a i

/-- Two threads are about to access the same entry, and neither are both accesses reads nor both atomic. -/
def Race (G B : Nat) (c : Cfg α) : Prop :=
  ∃ b < G, ∃ t < B, ∃ b' < G, ∃ t' < B, (b, t) ≠ (b', t') ∧
    ∃ a i κ κ', (c.prog b t).next = some (a, i, κ) ∧ (c.prog b' t').next = some (a, i, κ') ∧
      ¬ (κ = .read ∧ κ' = .read) ∧ ¬ (κ = .atomic ∧ κ' = .atomic)

/-- All threads have ended. -/
def Final (G B : Nat) (c : Cfg α) : Prop := ∀ b < G, ∀ t < B, c.prog b t = .done

/-- What a launch has to satisfy: on no schedule is there a fault or a data race, every schedule ends, none blocks before
all threads have ended, and the memory left by each of them satisfies `Q`. -/
structure Runs [Add α] (G B : Nat) (c₀ : Cfg α) (Q : Vals α → Prop) : Prop where
  safe : ∀ c, Reach G B c₀ c → ¬ Fault G B c ∧ ¬ Race G B c
  ends : ¬ ∃ f : Nat → Cfg α, f 0 = c₀ ∧ ∀ n, Step G B (f n) (f (n + 1))
  progress : ∀ c, Reach G B c₀ c → Final G B c ∨ ∃ c', Step G B c c'
  result : ∀ c, Reach G B c₀ c → Final G B c → Q c.mem.val

/-! ## Writing kernels -/

/-- A piece of a kernel returning a value of type `β` to the rest of the program. -/
def K (α β : Type) := (β → Prog α) → Prog α

instance : Monad (K α) where
  pure x := fun k => k x
  bind m f := fun k => m (fun x => f x k)

/-- Read of a scalar array. -/
def rd (a : Arr) (i : Int) : K α α := fun k => .rd a i k

/-- Plain write. -/
def wr (a : Arr) (i : Int) (x : α) : K α Unit := fun k => .wr a i x (k ())

/-- `atomicAdd(&a[i], x)`. -/
def atomicAdd (a : Arr) (i : Int) (x : α) : K α Unit := fun k => .add a i x (k ())

/-- `__syncthreads()`. -/
def syncthreads : K α Unit := fun k => .sync (k ())

/-- Read of an integer array handed to the kernel. -/
def ird {β : Type} (b : Buf β) (i : Int) : K α β := fun k =>
  match b.rdI i with
  | .ok x => k x
  | _ => .fault

/-- `for` over a list of values of the loop variable, in order, updating local variables `s`. -/
def forIn' {σ β : Type} (l : List β) (body : β → σ → K α σ) (s : σ) : K α σ :=
  match l with
  | [] => pure s
  | x :: l => do
    let s ← body x s
    forIn' l body s

/-- `for (i = 0; i < n; i++)`. -/
def forN {σ : Type} (n : Nat) (body : Nat → σ → K α σ) (s : σ) : K α σ := forIn' (List.range n) body s

/-- Values of the loop variable in `for (i = start; i < n; i += step)`; at most `n` of them if `step` is positive, as it
is in the loops `for (i = blockIdx.x * blockDim.x + threadIdx.x; i < n; i += blockDim.x * gridDim.x)`. -/
def strideList (n : Nat) (step : Nat) : (fuel : Nat) → (start : Nat) → List Nat
  | 0, _ => []
  | f + 1, i => if i < n then i :: strideList n step f (i + step) else []

/-- `for (i = start; i < n; i += step)`, no local variables. -/
def strideFor (n start step : Nat) (body : Nat → K α Unit) : K α Unit :=
  forIn' (strideList n step n start) (fun i _ => body i) ()

/-- A launch: every thread `(b, t)` runs `kern b t`. -/
def launch (kern : Nat → Nat → K α Unit) (m : Mem α) : Cfg α := ⟨m, fun b t => kern b t (fun _ => .done)⟩

end Verif.Gpu
