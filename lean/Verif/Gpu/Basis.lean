import Verif.Gpu.Rstr
import Verif.Basis.Model

/-!
# Bases on a device

Kernels of `include/ceed/jit-source/cuda/cuda-ref-basis-tensor.h`, `cuda-ref-basis-nontensor.h` and
`cuda-ref-basis-nontensor-templates.h`, and the host functions of `backends/cuda-ref/ceed-cuda-ref-basis.c` that launch
them. (The sources for HIP, `include/ceed/jit-source/hip/hip-ref-basis-*.h` and `backends/hip-ref/ceed-hip-ref-basis.c`,
are the same text up to names and block sizes.)

Simplifications: the parts `s_interp_1d`, `s_buffer_1`, `s_buffer_2`, `s_grad_1d` of the shared array `s_mem` of block `b`
are separate arrays `shared b 0`, `1`, `2`, `3`, so that leaving one of them counts as a fault; shared memory has arbitrary
contents at the start; a null pointer is an array of length zero; the vectors are given by their device arrays, locks and
transfers between host and device are not part of this model.
-/

namespace Verif.Gpu
open Verif.Restriction (TMode copyIn)
open Verif.Basis (Bas EMode Space)

variable {α : Type} [CommRing α]

/-! ## Tensor kernels -/

/-- A pointer into a scalar array. -/
abbrev Ptr := Arr × Nat

/-- `in` of the loop over directions, `cuda-ref-basis-tensor.h` 53, 117. -/
def inPtr (b d : Nat) (cur : Ptr) : Ptr :=
  if d = 0 then cur else if d % 2 ≠ 0 then (.shared b 2, 0) else (.shared b 1, 0)

/-- `out` of the loop over directions, 54, 118. -/
def outPtr (b dim d : Nat) (cur : Ptr) : Ptr :=
  if d = dim - 1 then cur else if d % 2 ≠ 0 then (.shared b 1, 0) else (.shared b 2, 0)

/-- The body of the loop over `k`, 58-67 and 122-131: one entry of the contraction of `op` with the middle index. -/
def cellBody (P Q post s0 s1 : Nat) (acc : Bool) (op : Arr) (inp out : Ptr) (k : Nat) : K α Unit := do
  let c := k % post
  let j := k / post % Q
  let a := k / (post * Q)
  let vk ← forN P (fun b vk => do
    let x ← rd op ((j * s0 + b * s1 : Nat) : Int)
    let y ← rd inp.1 ((inp.2 + ((a * P + b) * post + c) : Nat) : Int)
    pure (vk + x * y)) 0
  if acc = true then (do
    let z ← rd out.1 ((out.2 + k : Nat) : Int)
    wr out.1 ((out.2 + k : Nat) : Int) (z + vk))
  else wr out.1 ((out.2 + k : Nat) : Int) vk

/-- The loop over directions, 49-69 in `Interp` and 112-133 in `Grad`; `op d` is the table used in direction `d`. The local
variables are `pre` and `post`. -/
def dirLoop (B b t dim P Q s0 s1 size : Nat) (tr : Bool) (op : Nat → Arr) (curU curV : Ptr) : K α Unit := do
  let _ ← forN dim (fun d (pp : Nat × Nat) => do
    syncthreads
    let pre := pp.1 / P
    let post := pp.2
    strideFor (pre * post * Q) t B
      (cellBody P Q post s0 s1 (tr && decide (d = dim - 1)) (op d) (inPtr b d curU) (outPtr b dim d curV))
    pure (pre, post * Q)) (size, 1)
  pure ()

/-- `cuda-ref-basis-tensor.h` 19-72 `Interp`, launched with `G` blocks of `B` threads, in thread `t` of block `b`. -/
def interpKernel (dim nc P1 Q1 ne : Nat) (tr : Bool) (G B b t : Nat) : K α Unit := do
  strideFor (Q1 * P1) t B (fun k => do
    let x ← rd (.table 0) (k : Nat)
    wr (.shared b 0) (k : Nat) x)
  let P := if tr then Q1 else P1
  let Q := if tr then P1 else Q1
  let s0 := if tr then 1 else P1
  let s1 := if tr then P1 else 1
  let uStride := if tr then Q1 ^ dim else P1 ^ dim
  let vStride := if tr then P1 ^ dim else Q1 ^ dim
  let uComp := ne * (if tr then Q1 ^ dim else P1 ^ dim)
  let vComp := ne * (if tr then P1 ^ dim else Q1 ^ dim)
  let size := if tr then Q1 ^ dim else P1 ^ dim
  strideFor ne b G (fun elem => forN nc (fun comp _ =>
    dirLoop B b t dim P Q s0 s1 size tr (fun _ => .shared b 0) (.u, elem * uStride + comp * uComp)
      (.v, elem * vStride + comp * vComp)) ())

/-- 77-137 `Grad`. -/
def gradKernel (dim nc P1 Q1 ne : Nat) (tr : Bool) (G B b t : Nat) : K α Unit := do
  strideFor (Q1 * P1) t B (fun k => do
    let x ← rd (.table 0) (k : Nat)
    wr (.shared b 0) (k : Nat) x
    let y ← rd (.table 1) (k : Nat)
    wr (.shared b 3) (k : Nat) y)
  let P := if tr then Q1 else P1
  let Q := if tr then P1 else Q1
  let s0 := if tr then 1 else P1
  let s1 := if tr then P1 else 1
  let uStride := if tr then Q1 ^ dim else P1 ^ dim
  let vStride := if tr then P1 ^ dim else Q1 ^ dim
  let uComp := ne * (if tr then Q1 ^ dim else P1 ^ dim)
  let vComp := ne * (if tr then P1 ^ dim else Q1 ^ dim)
  let uDim := if tr then ne * Q1 ^ dim * nc else 0
  let vDim := if tr then 0 else ne * Q1 ^ dim * nc
  let size := if tr then Q1 ^ dim else P1 ^ dim
  strideFor ne b G (fun elem => forN nc (fun comp _ => forN dim (fun dim1 _ =>
    dirLoop B b t dim P Q s0 s1 size tr (fun dim2 => if dim1 = dim2 then .shared b 3 else .shared b 0)
      (.u, elem * uStride + dim1 * uDim + comp * uComp)
      (.v, elem * vStride + dim1 * vDim + comp * vComp)) ()) ())

/-- 142-150 `Weight1d`, 155-168 `Weight2d`, 173-188 `Weight3d` and 193-197 `Weight`, in thread
`(i, j) = (t % Q_1d, t / Q_1d)` of block `b`; the table is `table 0`. Nothing is done in other dimensions. -/
def weightKernel (dim Q1 ne : Nat) (b t : Nat) : K α Unit :=
  let i := t % Q1
  let j := t / Q1
  if dim = 1 then
    if i < Q1 ∧ b < ne then do
      let x ← rd (.table 0) (i : Nat)
      wr .v ((b * Q1 + i : Nat) : Int) x
    else pure ()
  else if dim = 2 then
    if i < Q1 ∧ j < Q1 ∧ b < ne then do
      let x ← rd (.table 0) (i : Nat)
      let y ← rd (.table 0) (j : Nat)
      wr .v (((b * Q1 + j) * Q1 + i : Nat) : Int) (x * y)
    else pure ()
  else if dim = 3 then
    if i < Q1 ∧ j < Q1 ∧ b < ne then
      forN Q1 (fun k _ => do
        let x ← rd (.table 0) (i : Nat)
        let y ← rd (.table 0) (j : Nat)
        let z ← rd (.table 0) (k : Nat)
        wr .v ((((b * Q1 + k) * Q1 + j) * Q1 + i : Nat) : Int) (x * y * z)) ()
    else pure ()
  else pure ()

/-! ## Non-tensor kernels -/

/-- `cuda-ref-basis-nontensor-templates.h` 15-37 `Contract`, in the thread with `threadIdx.x = tId`. -/
def contractDev (nc qc P Q : Nat) (elem seU seV scU scV sqV tId : Nat) : K α Unit :=
  forN nc (fun comp _ => do
    let uo := elem * seU + comp * scU
    let r ← forN P (fun i r => do
      let val ← rd .u ((uo + i : Nat) : Int)
      forN qc (fun d r => do
        let x ← rd (.table 0) ((i + tId * P + d * P * Q : Nat) : Int)
        pure (setAt r d (r d + x * val))) r) (fun _ => 0)
    forN qc (fun d _ => wr .v ((elem * seV + comp * scV + d * sqV + tId : Nat) : Int) (r d)) ()) ()

/-- 42-60 `ContractTranspose`. -/
def contractTDev (nc qc P Q : Nat) (elem seU seV scU scV sqU tId : Nat) : K α Unit :=
  forN nc (fun comp _ => do
    let r ← forN qc (fun d r => do
      let uo := elem * seU + comp * scU + d * sqU
      forN Q (fun i r => do
        let x ← rd (.table 0) ((tId + i * P + d * P * Q : Nat) : Int)
        let y ← rd .u ((uo + i : Nat) : Int)
        pure (r + x * y)) r) 0
    let z ← rd .v ((elem * seV + comp * scV + tId : Nat) : Int)
    wr .v ((elem * seV + comp * scV + tId : Nat) : Int) (z + r)) ()

/-- `cuda-ref-basis-nontensor.h` 21-27 `Interp` and 40-46 `Deriv` (number of quadrature components `qc`), in thread
`(threadIdx.x, threadIdx.z) = (t % X, t / X)` of a block of `X * Z` threads. -/
def matKernel (nc qc P Q ne X Z : Nat) (G b t : Nat) : K α Unit :=
  strideFor ne (b * Z + t / X) (Z * G) (fun elem =>
    contractDev nc qc P Q elem P Q (P * ne) (Q * ne) (nc * Q * ne) (t % X))

/-- 29-35 `InterpTranspose` and 48-54 `DerivTranspose`. -/
def matTKernel (nc qc P Q ne X Z : Nat) (G b t : Nat) : K α Unit :=
  strideFor ne (b * Z + t / X) (Z * G) (fun elem =>
    contractTDev nc qc P Q elem Q P (Q * ne) (P * ne) (nc * Q * ne) (t % X))

/-- 59-66 `Weight`. -/
def weightsKernel (Q ne X Z : Nat) (G b t : Nat) : K α Unit :=
  strideFor ne (b * Z + t / X) (Z * G) (fun elem => do
    let x ← rd (.table 0) ((t % X : Nat) : Int)
    wr .v ((elem * Q + t % X : Nat) : Int) x)

/-! ## Host functions -/

/-- A basis on a device: the fields of the interface and the array of weights of the backend, null if none were given. -/
structure DBas (α : Type) where
  bas : Bas α
  weights : Option (Buf α)

/-- Copy of an optional array. -/
def copyOpt (w : Option (Buf α)) (n : Nat) : Res (Option (Buf α)) :=
  match w with
  | none => .ok none
  | some w => do
    let w ← copyIn w n
    .ok (some w)

/-- `interface/ceed-basis.c` 1456-1497 `CeedBasisCreateTensorH1` with `backends/cuda-ref/ceed-cuda-ref-basis.c` 399-441
`CeedBasisCreateTensorH1_Cuda`: checks and copies of the arrays. (Compilation of the kernels is not modelled; it can
fail if `s_mem` exceeds the shared memory of the device.) -/
def createTensorDev (dim nc P1 Q1 : Int) (interp1 grad1 : Buf α) (qWeight : Option (Buf α)) : Res (DBas α) := do
  Res.check (0 < dim) .dimension
  Res.check (0 < nc) .dimension
  Res.check (0 < P1) .dimension
  Res.check (0 < Q1) .dimension
  let (dim, nc, P1, Q1) := (dim.toNat, nc.toNat, P1.toNat, Q1.toNat)
  let w ← copyOpt qWeight Q1
  let i1 ← copyIn interp1 (Q1 * P1)
  let g1 ← copyIn grad1 (Q1 * P1)
  .ok { weights := w,
        bas := { isTensor := true, isH1 := true, dim := dim, nc := nc, P1 := P1, Q1 := Q1, P := P1 ^ dim, Q := Q1 ^ dim,
                 interp1 := i1, grad1 := g1, qWeight := w.getD ⟨0, fun _ => 0⟩, interp := none, grad := none,
                 div := none, curl := none, colloInterp := false, colloGrad := none } }

/-- `interface/ceed-basis.c` 1594-1755 `CeedBasisCreateH1`, `CeedBasisCreateHdiv`, `CeedBasisCreateHcurl` with
`ceed-cuda-ref-basis.c` 446-496, 501-551, 556-606. -/
def createNonTensorDev (sp : Space) (dim : Nat) (nc P Q : Int) (interp deriv : Buf α) (qWeight : Option (Buf α)) :
    Res (DBas α) := do
  Res.check (0 < nc) .dimension
  Res.check (0 < P) .dimension
  Res.check (0 < Q) .dimension
  let (nc, P, Q) := (nc.toNat, P.toNat, Q.toNat)
  let w ← copyOpt qWeight Q
  let i ← copyIn interp ((if sp = .h1 then 1 else dim) * Q * P)
  let d ← copyIn deriv ((match sp with | .h1 => dim | .hdiv => 1 | .hcurl => if dim < 3 then 1 else dim) * Q * P)
  .ok { weights := w,
        bas := { isTensor := false, isH1 := decide (sp = .h1), dim := dim, nc := nc, P1 := 0, Q1 := 0, P := P, Q := Q,
                 interp1 := ⟨0, fun _ => 0⟩, grad1 := ⟨0, fun _ => 0⟩, qWeight := w.getD ⟨0, fun _ => 0⟩,
                 interp := some i, grad := if sp = .h1 then some d else none,
                 div := if sp = .hdiv then some d else none, curl := if sp = .hcurl then some d else none,
                 colloInterp := false, colloGrad := none } }

/-- A device: the largest block it accepts, and the constant `max_block_size` of the backend (`ceed-cuda-ref-basis.c` 27,
`backends/hip-ref/ceed-hip-ref-basis.c` 26). -/
structure Device where
  maxThreads : Nat
  maxBlock : Nat

/-- Compute capability 2 and later. -/
def cudaDevice : Device := ⟨1024, 32⟩

/-- AMD devices. -/
def hipDevice : Device := ⟨1024, 64⟩

/-- Device memory of a basis kernel: the arrays of the two vectors, the tables, and the shared memory of the blocks with
the lengths of `cuda-ref-basis-tensor.h` 23-26 and 81-85 (`BASIS_BUF_LEN` is that of `ceed-cuda-ref-basis.c` 424). -/
def memBasis (tabLen bufLen : Nat) (junk : Vals α) (t0 t1 u v : Buf α) : Mem α where
  len a := match a with
    | .u => u.len
    | .v => v.len
    | .table 0 => t0.len
    | .table 1 => t1.len
    | .table _ => 0
    | .shared _ 0 => tabLen
    | .shared _ 1 => bufLen
    | .shared _ 2 => bufLen
    | .shared _ 3 => tabLen
    | .shared _ _ => 0
  val a := match a with
    | .u => u.val
    | .v => v.val
    | .table 0 => t0.val
    | .table 1 => t1.val
    | .table _ => fun _ => 0
    | .shared b j => junk (.shared b j)

/-- `CeedRunKernel_Cuda`, `CeedRunKernelDim_Cuda` (`backends/cuda/ceed-cuda-compile.cpp` 217-272): the driver refuses
launches of no block and of blocks of more threads than the device allows. -/
def runDev (dv : Device) (grid block : Nat) (kern : Nat → Nat → K α Unit) (m : Mem α) : Res (Launch α) :=
  if grid = 0 ∨ dv.maxThreads < block then .err .backend else .ok ⟨grid, block, launch kern m⟩

/-- `BASIS_BUF_LEN`, `ceed-cuda-ref-basis.c` 424. -/
def bufLenDev (b : Bas α) : Nat := b.Q1 * (if b.Q1 > b.P1 then b.Q1 else b.P1) ^ (b.dim - 1)

/-- Nothing is launched; the vectors keep the contents given. -/
def noLaunch (m : Mem α) : Launch α := ⟨0, 0, launch (fun _ _ => pure ()) m⟩

/-- `CeedVectorSetArray(v, CEED_MEM_DEVICE, CEED_COPY_VALUES, d_u)`: as many entries as `v` has are copied. -/
def copyAll (u v : Buf α) : Res (Buf α) := if v.len ≤ u.len then .ok ⟨v.len, u.val⟩ else .ub

/-- `ceed-cuda-ref-basis.c` 22-85 `CeedBasisApplyCore_Cuda`. -/
def applyTensorDev (dv : Device) (junk : Vals α) (x : DBas α) (add : Bool) (ne : Nat) (tm : TMode) (em : EMode)
    (u : Option (Buf α)) (v : Buf α) : Res (Launch α) := do
  let b := x.bas
  let tr := decide (tm = .transpose)
  Res.check (u.isSome ∨ em = .weight) .backend
  let u := u.getD ⟨0, fun _ => 0⟩
  let v : Buf α := if add = false ∧ tr = true then ⟨v.len, fun _ => 0⟩ else v
  let mem := memBasis (b.Q1 * b.P1) (bufLenDev b) junk
  match em with
  | .interp =>
    let B := min (b.Q1 ^ b.dim) dv.maxBlock
    runDev dv ne B (interpKernel b.dim b.nc b.P1 b.Q1 ne tr ne B) (mem b.interp1 b.grad1 u v)
  | .grad => runDev dv ne dv.maxBlock (gradKernel b.dim b.nc b.P1 b.Q1 ne tr ne dv.maxBlock) (mem b.interp1 b.grad1 u v)
  | .weight => do
    Res.check x.weights.isSome .backend
    runDev dv ne (b.Q1 * (if b.dim ≥ 2 then b.Q1 else 1)) (weightKernel b.dim b.Q1 ne)
      (mem (x.weights.getD ⟨0, fun _ => 0⟩) b.grad1 u v)
  | .none => do
    let v ← copyAll u v
    .ok (noLaunch (mem b.interp1 b.grad1 u v))
  | _ => .err .backend

/-- `ceed-cuda-ref-basis.c` 255-340 `CeedBasisApplyNonTensorCore_Cuda`; `elems_per_block` is 1. The number of quadrature
components of the derivative kernels is that of the space of the basis (480, 539, 598), whatever the mode. -/
def applyNonTensorDev (dv : Device) (junk : Vals α) (x : DBas α) (add : Bool) (ne : Nat) (tm : TMode) (em : EMode)
    (u : Option (Buf α)) (v : Buf α) : Res (Launch α) := do
  let b := x.bas
  let tr := decide (tm = .transpose)
  Res.check (u.isSome ∨ em = .weight) .backend
  let u := u.getD ⟨0, fun _ => 0⟩
  let v : Buf α := if add = false ∧ tr = true then ⟨v.len, fun _ => 0⟩ else v
  let X := if tr then b.P else b.Q
  let mem (t : Buf α) := memBasis 0 0 junk t ⟨0, fun _ => 0⟩ u v
  let qcDeriv := if b.grad.isSome then b.qComp .grad else if b.div.isSome then b.qComp .div else b.qComp .curl
  let run (qc : Nat) (t : Option (Buf α)) : Res (Launch α) :=
    let t := t.getD ⟨0, fun _ => 0⟩
    if tr then runDev dv ne X (matTKernel b.nc qc b.P b.Q ne X 1 ne) (mem t)
    else runDev dv ne X (matKernel b.nc qc b.P b.Q ne X 1 ne) (mem t)
  match em with
  | .interp => run (b.qComp .interp) b.interp
  | .grad => run qcDeriv b.grad
  | .div => run qcDeriv b.div
  | .curl => run qcDeriv b.curl
  | .weight => do
    Res.check x.weights.isSome .backend
    runDev dv ne b.Q (weightsKernel b.Q ne b.Q 1 ne) (mem (x.weights.getD ⟨0, fun _ => 0⟩))
  | .none => do
    let v ← copyAll u v
    .ok (noLaunch (memBasis 0 0 junk ⟨0, fun _ => 0⟩ ⟨0, fun _ => 0⟩ u v))

/-- `interface/ceed-basis.c` 1944-1949 `CeedBasisApply` on the device. -/
def applyDev (dv : Device) (junk : Vals α) (x : DBas α) (ne : Nat) (tm : TMode) (em : EMode) (u : Option (Buf α))
    (v : Buf α) : Res (Launch α) := do
  Basis.checkDims x.bas ne tm em u v
  if x.bas.isTensor then applyTensorDev dv junk x false ne tm em u v
  else applyNonTensorDev dv junk x false ne tm em u v

/-- `interface/ceed-basis.c` 1972-1978 `CeedBasisApplyAdd` on the device. -/
def applyAddDev (dv : Device) (junk : Vals α) (x : DBas α) (ne : Nat) (tm : TMode) (em : EMode) (u : Option (Buf α))
    (v : Buf α) : Res (Launch α) := do
  Res.check (tm = .transpose) .unsupported
  Basis.checkDims x.bas ne tm em u v
  if x.bas.isTensor then applyTensorDev dv junk x true ne tm em u v
  else applyNonTensorDev dv junk x true ne tm em u v

end Verif.Gpu
