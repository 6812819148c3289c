import Verif.Gpu.BasisProps
import Verif.Gpu.Examples

/-!
# Concrete cases of C62
-/

namespace Verif.Gpu
open Verif.Restriction (TMode)
open Verif.Basis (Bas EMode Space)

/-- The thread waits at a barrier or has ended. -/
def Prog.waitsB {α : Type} : Prog α → Bool
  | .sync _ => true
  | .done => true
  | _ => false

/-- Run a thread up to its next barrier or its end. -/
def runThread (G B : Nat) (b t : Nat) : Nat → Cfg Int → Cfg Int
  | 0, c => c
  | n + 1, c => match stepT G B c b t with
    | some c' => runThread G B b t n c'
    | none => c

/-- Run the threads of a block up to a barrier in the order `l`, then release them; `n` times. -/
def runBlock (G B : Nat) (b : Nat) (l : List Nat) : Nat → Cfg Int → Cfg Int
  | 0, c => c
  | n + 1, c =>
    let c := l.foldl (fun c t => runThread G B b t 100 c) c
    runBlock G B b l n (if (List.range B).all fun t => (c.prog b t).waitsB then ⟨c.mem, passBlock c.prog b⟩ else c)

/-- Run the blocks and threads of a launch in the given orders, and read `n` entries of the output. -/
def runSome (bl tl : List Nat) (n : Nat) (r : Res (Launch Int)) : Option (Bool × List Int) :=
  match r with
  | .ok L =>
    let c := bl.foldl (fun c b => runBlock L.G L.B b tl 12 c) L.cfg
    some ((List.range L.G).all fun b => (List.range L.B).all fun t => (c.prog b t).isDone,
      (List.range n).map (c.mem.val .v))
  | _ => none

/-- 1D matrices: two nodes, three quadrature points. -/
def exI : Buf Int := Buf.ofList [1, 0, 2, 3, 0, 1]

/-- 1D gradient. -/
def exG : Buf Int := Buf.ofList [-1, 1, -2, 2, -3, 3]

/-- Weights. -/
def exW : Buf Int := Buf.ofList [2, 3, 5]

/-- Calls on the tensor basis in two dimensions with two components. -/
def exTensor (f : DBas Int → Res (Launch Int)) : Res (Launch Int) := do
  let x ← createTensorDev 1 2 2 3 exI exG (some exW)
  f x

/-- A device with two threads per block of the tensor kernels. -/
def twoDevice : Device := ⟨1024, 2⟩

/-- Input `1, 2, 3, …`. -/
def count (n : Nat) : Buf Int := ⟨n, fun i => (i : Int) + 1⟩

/-- The hypotheses of the tensor theorems are met on the devices of both backends. -/
example : (∃ x, createTensorDev 2 2 2 3 exI exG (some exW) = .ok x ∧ DevTensorBasis x exI exG (some exW) ∧ x.bas.dim = 2 ∧
      x.bas.Q1 * (if x.bas.dim ≥ 2 then x.bas.Q1 else 1) ≤ cudaDevice.maxThreads) ∧
    0 < cudaDevice.maxBlock ∧ cudaDevice.maxBlock ≤ cudaDevice.maxThreads ∧
    0 < hipDevice.maxBlock ∧ hipDevice.maxBlock ≤ hipDevice.maxThreads :=
  ⟨⟨_, rfl, ⟨2, 2, 2, 3, rfl⟩, rfl, by decide⟩, by decide, by decide, by decide, by decide⟩

/-- A basis in four dimensions, and one without weights. -/
example : (∃ x, DevTensorBasis x exI exG (some exW) ∧ 3 < x.bas.dim ∧ x.bas.Q1 * x.bas.Q1 ≤ cudaDevice.maxThreads) ∧
    ∃ x, DevTensorBasis x exI exG none :=
  ⟨⟨_, ⟨4, 1, 2, 3, rfl⟩, by decide, by decide⟩, _, ⟨1, 1, 2, 3, rfl⟩⟩

/-- Non-tensor bases, and one with more quadrature points than a block of a (tiny) device may have threads. -/
example : (∃ x, DevNonTensorBasis x .hdiv (count 12) (count 6) (some exW) ∧ x.bas.P ≤ cudaDevice.maxThreads ∧
      x.bas.Q ≤ cudaDevice.maxThreads) ∧
    ∃ x, DevNonTensorBasis x .h1 (count 6) (count 6) none ∧ (⟨2, 2⟩ : Device).maxThreads < x.bas.Q :=
  ⟨⟨_, ⟨2, 1, 2, 3, rfl⟩, by decide, by decide⟩, _, ⟨1, 1, 2, 3, rfl⟩, by decide⟩

/-- The same basis on the host. -/
example : ∃ b, Basis.TensorBasis b exI exG exW ∧ b.dim = 2 ∧ b.nc = 2 ∧ b.P1 = 2 ∧ b.Q1 = 3 := by
  refine ⟨_, ⟨fun _ => false, fun _ _ _ _ => .ok (Buf.ofList [-1, 0, 1, -2, 0, 2, -3, 0, 3]), 2, 2, 2, 3, rfl,
    fun h => ?_, fun cg h => ?_⟩, rfl, rfl, rfl, rfl⟩
  · cases h
  · cases h
    exact ⟨rfl, by decide +kernel⟩

/-- Interpolation of two elements of two components: components of element 0 start at 0 and 4. -/
example : runSome [0, 1] [0, 1] 12
      (exTensor fun x => applyDev twoDevice (fun _ _ => 7) x 2 .noTranspose .interp (some (count 8)) (zeroV 12)) =
    some (true, [1, 8, 2, 3, 18, 4, 5, 28, 6, 7, 38, 8]) := by decide +kernel

/-- The same with the blocks and the threads in the other order. -/
example : runSome [1, 0] [1, 0] 12
      (exTensor fun x => applyDev twoDevice (fun _ _ => 7) x 2 .noTranspose .interp (some (count 8)) (zeroV 12)) =
    some (true, [1, 8, 2, 3, 18, 4, 5, 28, 6, 7, 38, 8]) := by decide +kernel

/-- Transposed gradient, added to a vector of ones. -/
example : runSome [1, 0] [1, 0] 8
      (exTensor fun x => applyAddDev twoDevice (fun _ _ => 7) x 2 .transpose .grad (some (count 12)) ⟨8, fun _ => 1⟩) =
    some (true, [-13, 15, -31, 33, -49, 51, -67, 69]) := by decide +kernel

/-- Weights. -/
example : runSome [0, 1] [2, 0, 1] 6
      (exTensor fun x => applyDev cudaDevice (fun _ _ => 7) x 2 .noTranspose .weight none (zeroV 6)) =
    some (true, [2, 3, 5, 2, 3, 5]) := by decide +kernel

end Verif.Gpu
