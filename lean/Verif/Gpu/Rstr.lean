import Verif.Gpu.Machine
import Verif.Restriction.Spec

/-!
# Element restrictions on a device: model of the kernels and of the code that prepares and launches them

`include/ceed/jit-source/cuda/cuda-ref-restriction-*.h` and `backends/cuda-ref/ceed-cuda-ref-restriction.c`. The kernels
of the `hip-ref` backend have the same text. Sizes, strides and the number of nodes are compile-time constants of the
kernels (`CeedElemRestrictionSetupCompile_Cuda`, 24-111), here parameters.
-/

namespace Verif.Gpu
open Verif.Restriction

variable {α : Type} [CommRing α]

/-! ## Kernels -/

/-- Index `loc_node + comp * RSTR_ELEM_SIZE * RSTR_NUM_ELEM + elem * RSTR_ELEM_SIZE` of the E-vector. -/
def ePosC (ne es : Nat) (loc comp elem : Int) : Int := loc + comp * es * ne + elem * es

/-- The loop of the L-vector to E-vector kernels, `cuda-ref-restriction-offset.h` 15-25 `OffsetNoTranspose`,
`-oriented.h` 15-27, `-curl-oriented.h` 15-35 and 40-60, `-strided.h` 15-25: for every node and component the right-hand
side `term` is assigned to the entry of the E-vector. Simplification: offsets and orientations are read once per node in
the code, once per node and component here. -/
def gatherKernel (ne es nc : Nat) (term : Nat → Nat → K α α) (G B b t : Nat) : K α Unit :=
  strideFor (ne * es) (b * B + t) (B * G) fun node =>
    forN nc (fun comp _ => do
      let x ← term node comp
      wr .v (ePosC ne es (node % es : Nat) comp (node / es : Nat)) x) ()

/-- `u[ind + comp * RSTR_COMP_STRIDE]`, `ind = indices[node]` (`cuda-ref-restriction-offset.h` 17, 22). -/
def offsetTerm (cs : Int) (indices : Buf Int) (node comp : Nat) : K α α := do
  let ind ← ird indices node
  rd .u (ind + comp * cs)

/-- `u[ind + comp * RSTR_COMP_STRIDE] * (orient ? -1.0 : 1.0)` (`cuda-ref-restriction-oriented.h` 18-24). -/
def orientedTerm (cs : Int) (indices : Buf Int) (orients : Buf Bool) (node comp : Nat) : K α α := do
  let ind ← ird indices node
  let orient ← ird orients node
  let x ← rd .u (ind + comp * cs)
  pure (x * (if orient then -1 else 1))

/-- One summand `u[ind + comp * RSTR_COMP_STRIDE] * curl_orient`, 0 if its condition does not hold. -/
def curlPart (cond : Bool) (m : K α α) : K α α := if cond then m else pure 0

/-- `u[indices[i] + comp * RSTR_COMP_STRIDE] * curl_orients[j]`. -/
def curlRead (cs : Int) (indices : Buf Int) (cur : Buf Int) (conv : Int → α) (i j : Int) (comp : Nat) : K α α := do
  let ind ← ird indices i
  let c ← ird cur j
  let x ← rd .u (ind + comp * cs)
  pure (x * conv c)

/-- The sum of `cuda-ref-restriction-curl-oriented.h` 18-31 (`conv` the conversion to a scalar) and 43-56 (the absolute
value). Simplification: the absolute value of a `CeedInt8` is stored in a `CeedInt8`, which differs for the value -128,
which no orientation takes. -/
def curlTerm (es : Nat) (cs : Int) (indices cur : Buf Int) (conv : Int → α) (node comp : Nat) : K α α := do
  let x ← curlPart (0 < node % es) (curlRead cs indices cur conv ((node : Int) - 1) (3 * node + 0) comp)
  let y ← curlRead cs indices cur conv node (3 * node + 1) comp
  let z ← curlPart (node % es < es - 1) (curlRead cs indices cur conv (node + 1) (3 * node + 2) comp)
  pure (0 + x + y + z)

/-- `u[loc_node * RSTR_STRIDE_NODES + comp * RSTR_STRIDE_COMP + elem * RSTR_STRIDE_ELEM]`
(`cuda-ref-restriction-strided.h` 21-22). -/
def stridedTerm (es : Nat) (s : Int × Int × Int) (node comp : Nat) : K α α :=
  rd .u ((node % es : Nat) * s.1 + comp * s.2.1 + (node / es : Nat) * s.2.2)

/-- The loop of the E-vector to L-vector kernels with atomic additions: `cuda-ref-restriction-offset.h` 31-41,
`-oriented.h` 33-46, `-curl-oriented.h` 66-85 and 124-143. -/
def atomicKernel (ne es nc : Nat) (cs : Int) (indices : Buf Int) (term : Nat → Nat → K α α) (G B b t : Nat) :
    K α Unit :=
  strideFor (ne * es) (b * B + t) (B * G) fun node =>
    forN nc (fun comp _ => do
      let ind ← ird indices node
      let x ← term node comp
      atomicAdd .v (ind + comp * cs) x) ()

/-- `u[loc_node + comp * RSTR_ELEM_SIZE * RSTR_NUM_ELEM + elem * RSTR_ELEM_SIZE]` for `loc_node = t_ind % es`,
`elem = t_ind / es` (`cuda-ref-restriction-offset.h` 38 with `t_ind = node`, 59). -/
def offsetTermT (ne es : Nat) (tInd : Int) (comp : Nat) : K α α :=
  rd .u (ePosC ne es (tInd.tmod es) comp (tInd.tdiv es))

/-- The same with the sign of the node (`cuda-ref-restriction-oriented.h` 42-43, 61-67). -/
def orientedTermT (ne es : Nat) (orients : Buf Bool) (tInd : Int) (comp : Nat) : K α α := do
  let orient ← ird orients tInd
  let x ← rd .u (ePosC ne es (tInd.tmod es) comp (tInd.tdiv es))
  pure (x * (if orient then -1 else 1))

/-- `u[loc_node + d + comp * RSTR_ELEM_SIZE * RSTR_NUM_ELEM + elem * RSTR_ELEM_SIZE] * curl_orients[j]`. -/
def curlReadT (ne es : Nat) (cur : Buf Int) (conv : Int → α) (tInd d j : Int) (comp : Nat) : K α α := do
  let c ← ird cur j
  let x ← rd .u (ePosC ne es (tInd.tmod es + d) comp (tInd.tdiv es))
  pure (x * conv c)

/-- The sum of `cuda-ref-restriction-curl-oriented.h` 69-82 and 101-112, and with absolute values 127-140 and
159-170. -/
def curlTermT (ne es : Nat) (cur : Buf Int) (conv : Int → α) (tInd : Int) (comp : Nat) : K α α := do
  let x ← curlPart (0 < tInd.tmod es) (curlReadT ne es cur conv tInd (-1) (3 * tInd - 1) comp)
  let y ← curlReadT ne es cur conv tInd 0 (3 * tInd + 1) comp
  let z ← curlPart (tInd.tmod es < (es : Int) - 1) (curlReadT ne es cur conv tInd 1 (3 * tInd + 3) comp)
  pure (0 + x + y + z)

/-- Local array update `value[comp] = x`. -/
def setAt (value : Nat → α) (comp : Nat) (x : α) : Nat → α := fun c => if c = comp then x else value c

/-- Values of the loop variable in `for (j = lo; j < hi; j++)`. -/
def intRange (lo hi : Int) : List Int := (List.range (hi - lo).toNat).map fun (j : Nat) => lo + (j : Int)

/-- The deterministic E-vector to L-vector kernels: `cuda-ref-restriction-offset.h` 43-66, `-oriented.h` 48-73,
`-curl-oriented.h` 87-117 and 145-175. One thread per L-vector node; it adds up what the node receives and then adds the
sum to the L-vector, not atomically. -/
def detKernel (nn nc : Nat) (cs : Int) (lVec tIndices tOffsets : Buf Int) (term : Int → Nat → K α α)
    (G B b t : Nat) : K α Unit :=
  strideFor nn (b * B + t) (B * G) fun i => do
    let ind ← ird lVec i
    let lo ← ird tOffsets i
    let hi ← ird tOffsets (i + 1)
    let value ← forIn' (intRange lo hi) (fun j value => do
      let tInd ← ird tIndices j
      forN nc (fun comp value => do
        let x ← term tInd comp
        pure (setAt value comp (value comp + x))) value) (fun _ => 0)
    forN nc (fun comp _ => do
      let y ← rd .v (ind + comp * cs)
      wr .v (ind + comp * cs) (y + value comp)) ()

/-- `cuda-ref-restriction-strided.h` 30-40 `StridedTranspose`: the addition is not atomic. -/
def stridedTransposeKernel (ne es nc : Nat) (s : Int × Int × Int) (G B b t : Nat) : K α Unit :=
  strideFor (ne * es) (b * B + t) (B * G) fun node =>
    forN nc (fun comp _ => do
      let x ← rd .u (ePosC ne es (node % es : Nat) comp (node / es : Nat))
      let i : Int := (node % es : Nat) * s.1 + comp * s.2.1 + (node / es : Nat) * s.2.2
      let y ← rd .v i
      wr .v i (y + x)) ()

/-! ## Host code -/

/-- What `CeedElemRestriction_Cuda` (`backends/cuda-ref/ceed-cuda-ref.h`) adds to the restriction: the number of nodes
and, if the backend is deterministic, the transposed offsets (`d_l_vec_indices != NULL`). -/
structure CRstr where
  base : Rstr
  numNodes : Nat
  det : Option (Buf Int × Buf Int × Buf Int)

/-- `++t[i]`. -/
def incAt (b : Buf Int) (i : Int) : Res (Buf Int) := do
  let x ← b.rdI i
  b.wrI i (x + 1)

/-- `ceed-cuda-ref-restriction.c` 436: mark the nodes. -/
def markNodes (size : Nat) (indices : Buf Int) (isNode : Buf Bool) : Res (Buf Bool) :=
  loop size (fun i n => do
    let ind ← indices.rd i
    n.wrI ind true) isNode

/-- 437: count the nodes. -/
def countNodes (lSize : Nat) (isNode : Buf Bool) : Res Nat :=
  loop lSize (fun i n => do
    let x ← isNode.rd i
    .ok (n + if x then 1 else 0)) 0

/-- 443-448: number the nodes; the state is `l_vec_indices`, `ind_to_offset` and `j`. -/
def numberNodes (lSize : Nat) (isNode : Buf Bool) (lVec toOff : Buf Int) : Res (Buf Int × Buf Int × Nat) :=
  loop lSize (fun i (s : Buf Int × Buf Int × Nat) => do
    let x ← isNode.rd i
    if x then do
      let lVec ← s.1.wr s.2.2 (i : Int)
      let toOff ← s.2.1.wr i (s.2.2 : Int)
      .ok (lVec, toOff, s.2.2 + 1)
    else .ok s) (lVec, toOff, 0)

/-- 457-459: count how often each node occurs. -/
def countMult (ne es : Nat) (indices toOff tOff : Buf Int) : Res (Buf Int) :=
  loop ne (fun e tOff => loop es (fun i tOff => do
    let ind ← indices.rd (es * e + i)
    let o ← toOff.rdI ind
    incAt tOff (o + 1)) tOff) tOff

/-- 461: running sum. -/
def runningSum (n : Nat) (tOff : Buf Int) : Res (Buf Int) :=
  loop (n - 1) (fun i tOff => do
    let x ← tOff.rd (i + 1)
    let y ← tOff.rd i
    tOff.wr (i + 1) (x + y)) tOff

/-- 463-470: list the E-vector indices of each node. -/
def listNodes (ne es : Nat) (indices toOff : Buf Int) (s : Buf Int × Buf Int) : Res (Buf Int × Buf Int) :=
  loop ne (fun e s => loop es (fun i (s : Buf Int × Buf Int) => do
    let ind ← indices.rd (es * e + i)
    let o ← toOff.rdI ind
    let p ← s.1.rdI o
    let tOff ← s.1.wrI o (p + 1)
    let tInd ← s.2.wrI p ((es * e + i : Nat) : Int)
    .ok (tOff, tInd)) s) s

/-- 472-473: `for (i = size_offsets - 1; i > 0; --i) t_offsets[i] = t_offsets[i - 1]; t_offsets[0] = 0`. -/
def resetSum (n : Nat) (tOff : Buf Int) : Res (Buf Int) := do
  let tOff ← loop (n - 1) (fun i tOff => do
    let x ← tOff.rd (n - 1 - i - 1)
    tOff.wr (n - 1 - i) x) tOff
  tOff.wr 0 0

/-- `ceed-cuda-ref-restriction.c` 416-497 `CeedElemRestrictionOffset_Cuda`: `l_vec_indices`, `t_indices`, `t_offsets`
and the number of nodes. `t_indices` is allocated without initialisation; its first contents are those of `junk`. -/
def offsetCuda (ne es : Nat) (lSize : Int) (indices : Buf Int) (junk : Nat → Int) :
    Res (Nat × Buf Int × Buf Int × Buf Int) := do
  let l := lSize.toNat
  let isNode ← markNodes (ne * es) indices (calloc l false)
  let nn ← countNodes l isNode
  let s ← numberNodes l isNode (calloc nn 0) (calloc l 0)
  let tOff ← countMult ne es indices s.2.1 (calloc (nn + 1) 0)
  let tOff ← runningSum (nn + 1) tOff
  let s' ← listNodes ne es indices s.2.1 (tOff, ⟨ne * es, junk⟩)
  let tOff ← resetSum (nn + 1) s'.1
  .ok (nn, s.1, s'.2, tOff)

/-- Where the user's offset array lives (`CeedMemType`). -/
inductive MemType
  | host | device
deriving DecidableEq, Repr

/-- `ceed-cuda-ref-restriction.c` 498-663 `CeedElemRestrictionCreate_Cuda` for the types other than points, on the fields
filled in by the interface. For offsets on the device, the deterministic backend passes the device pointer to
`CeedElemRestrictionOffset_Cuda` (604), which reads it on the host: undefined unless there is nothing to read. -/
def createCuda (det : Bool) (mtype : MemType) (junk : Nat → Int) (r : Rstr) : Res CRstr :=
  let size := r.numElem.toNat * r.elemSize
  if r.rtype = .strided then .ok ⟨r, size, none⟩
  else if det then
    if mtype = .device ∧ 0 < size then .ub
    else do
      let x ← offsetCuda r.numElem.toNat r.elemSize r.lSize r.offsets junk
      .ok ⟨r, x.1, some x.2⟩
  else .ok ⟨r, size, none⟩

/-- A launch: number of blocks, threads per block, initial state. -/
structure Launch (α : Type) where
  G : Nat
  B : Nat
  cfg : Cfg α

/-- `CeedDivUpInt(n, block)`. -/
def divUp (n block : Nat) : Nat := (n + block - 1) / block

/-- Device memory of a restriction kernel: the arrays of the two vectors. -/
def memOf (u v : Buf α) : Mem α where
  len a := match a with | .u => u.len | .v => v.len | _ => 0
  val a := match a with | .u => u.val | .v => v.val | _ => fun _ => 0

/-- `CeedRunKernel_Cuda`: a launch of no block is refused by the driver, an error return. -/
def runKernel (grid block : Nat) (kern : Nat → Nat → Nat → Nat → K α Unit) (u v : Buf α) : Res (Launch α) :=
  if grid = 0 then .err .backend else .ok ⟨grid, block, launch (kern grid block) (memOf u v)⟩

/-- Block size of the L-vector to E-vector kernels, `ceed-cuda-ref-restriction.c` 149. -/
def blockNT (es : Nat) : Nat := if es < 1024 then (if 32 < es then es else 32) else 1024

/-- Strides the kernels are compiled with (49-54): the user's, or `{1, num_elem * elem_size, elem_size}`. -/
def cudaStrides (ne es : Nat) (s : Int × Int × Int) : Int × Int × Int :=
  if s = (0, 0, 0) then (1, ((ne * es : Nat) : Int), (es : Int)) else s

/-- `ceed-cuda-ref-restriction.c` 143-190: L-vector to E-vector. -/
def launchNT (x : CRstr) (signs orients : Bool) (u v : Buf α) : Res (Launch α) :=
  let r := x.base
  let ne := r.numElem.toNat
  let es := r.elemSize
  let nc := r.numComp
  let cs := r.compStride
  let block := blockNT es
  let run (term : Nat → Nat → K α α) := runKernel (divUp x.numNodes block) block (gatherKernel ne es nc term) u v
  match r.rtype with
  | .strided => match r.strides with
    | none => .err .minor
    | some s => run (stridedTerm es (cudaStrides ne es s))
  | .oriented =>
    if signs then run (orientedTerm cs r.offsets r.orients) else run (offsetTerm cs r.offsets)
  | .curlOriented =>
    if signs && orients then run (curlTerm es cs r.offsets r.curlOrients (fun c => (c : α)))
    else if orients then run (curlTerm es cs r.offsets r.curlOrients (fun c => ((c.natAbs : Int) : α)))
    else run (offsetTerm cs r.offsets)
  | _ => run (offsetTerm cs r.offsets)

/-- 191-281: E-vector to L-vector, blocks of 32 threads. -/
def launchT (x : CRstr) (signs orients : Bool) (u v : Buf α) : Res (Launch α) :=
  let r := x.base
  let ne := r.numElem.toNat
  let es := r.elemSize
  let nc := r.numComp
  let cs := r.compStride
  let grid := divUp x.numNodes 32
  let run (term : Int → Nat → K α α) := match x.det with
    | none => runKernel grid 32 (atomicKernel ne es nc cs r.offsets (fun node => term (node : Int))) u v
    | some (lVec, tInd, tOff) => runKernel grid 32 (detKernel x.numNodes nc cs lVec tInd tOff term) u v
  match r.rtype with
  | .strided => match r.strides with
    | none => .err .minor
    | some s => runKernel grid 32 (stridedTransposeKernel ne es nc (cudaStrides ne es s)) u v
  | .oriented => if signs then run (orientedTermT ne es r.orients) else run (offsetTermT ne es)
  | .curlOriented =>
    if signs && orients then run (curlTermT ne es r.curlOrients (fun c => (c : α)))
    else if orients then run (curlTermT ne es r.curlOrients (fun c => ((c.natAbs : Int) : α)))
    else run (offsetTermT ne es)
  | _ => run (offsetTermT ne es)

/-- `interface/ceed-elemrestriction.c` 1296-1318 `CeedElemRestrictionApply`, calling `ceed-cuda-ref-restriction.c`
116-315. Nothing is launched if there are no elements. Simplification: the vectors are given by their device arrays; the
transfers between host and device are those of `CeedVectorGetArray*`. -/
def applyCuda (x : CRstr) (var : Variant) (tm : TMode) (u v : Buf α) : Res (Launch α) := do
  let (minU, minV) : Int × Int := match tm with
    | .noTranspose => (x.base.lSize, (x.base.eSize : Int))
    | .transpose => ((x.base.eSize : Int), x.base.lSize)
  Res.check (minU ≤ u.len) .dimension
  Res.check (minV ≤ v.len) .dimension
  if 0 < x.base.numElem then
    match tm with
    | .noTranspose => launchNT x var.flags.1 var.flags.2 u v
    | .transpose => launchT x var.flags.1 var.flags.2 u v
  else .ok ⟨0, 0, launch (fun _ _ => pure ()) (memOf u v)⟩

end Verif.Gpu
