import Verif.Basic

/-!
# Element restrictions: model of the reference kernels, creation and application

Scalars are an arbitrary commutative ring. Vectors are passed as arrays (`Buf`); the access locks taken by
`CeedElemRestrictionApply_Ref_Core` are the subject of `Verif/Vector`. Requests are not modelled.
-/

namespace Verif

/-- Pointer shifted back by `off`: `(b - off)[i]`, as in `vv[i - v_offset]`. -/
def Buf.rdS {α : Type _} (b : Buf α) (i off : Nat) : Res α := if off ≤ i then b.rd (i - off) else .ub

/-- `vv[i - v_offset] = x`. -/
def Buf.wrS {α : Type _} (b : Buf α) (i off : Nat) (x : α) : Res (Buf α) := if off ≤ i then b.wr (i - off) x else .ub

namespace Restriction

/-- `CeedRestrictionType`, `include/ceed/types.h`. -/
inductive RType
  | strided | standard | oriented | curlOriented | points
deriving DecidableEq, Repr

/-- `CeedTransposeMode`. -/
inductive TMode
  | noTranspose | transpose
deriving DecidableEq, Repr

/-- The fields of `struct CeedElemRestriction_private` (`include/ceed-impl.h`) and `CeedElemRestriction_Ref`
(`backends/ref/ceed-ref.h`) that applying a restriction reads. `strides = none` is a null `strides` pointer. -/
structure Rstr where
  rtype : RType
  numElem : Int
  elemSize : Nat
  numComp : Nat
  compStride : Int
  lSize : Int
  eSize : Nat
  numBlock : Nat
  blockSize : Nat
  numPoints : Nat
  strides : Option (Int × Int × Int)
  offsets : Buf Int
  orients : Buf Bool
  curlOrients : Buf Int

section Kernels
variable {α : Type _} [CommRing α]

/-- `backends/ref/ceed-ref-restriction.c` 19-57 `CeedElemRestrictionApplyStridedNoTranspose_Ref_Core`.
`idx n k e` is the L-vector index computed in the innermost loop: `n + k*elem_size + e*elem_size*num_comp` for backend
strides (line 36), `n*strides[0] + k*strides[1] + e*strides[2]` otherwise (line 50). The block loop variable `e` of the
C code is `(start + b) * block_size`. -/
def stridedNT (nc bs es : Nat) (ne : Int) (start stop : Nat) (voff : Nat) (idx : Int → Int → Int → Int)
    (uu vv : Buf α) : Res (Buf α) :=
  loop (stop - start) (fun b vv =>
    let e := (start + b) * bs
    loop nc (fun k vv => loop es (fun n vv => loop bs (fun j vv => do
      let x ← uu.rdI (idx n k (min ((e + j : Nat) : Int) (ne - 1)))
      vv.wrS (e * es * nc + (k * es + n) * bs + j) voff x) vv) vv) vv) vv

/-- Index expression of lines 36 and 195: CPU backend strides `{1, elem_size, elem_size*num_comp}`. -/
def backendIdx (es nc : Nat) (n k e : Int) : Int := n + k * es + e * es * nc

/-- Index expression of lines 50 and 210. -/
def userIdx (s : Int × Int × Int) (n k e : Int) : Int := n * s.1 + k * s.2.1 + e * s.2.2

/-- `ceed-ref-restriction.c` 59-75 `CeedElemRestrictionApplyOffsetNoTranspose_Ref_Core`. -/
def offsetNT (nc bs es : Nat) (cs : Int) (start stop voff : Nat) (offs : Buf Int) (uu vv : Buf α) : Res (Buf α) :=
  loop (stop - start) (fun b vv =>
    let e := (start + b) * bs
    loop nc (fun k vv => loop (es * bs) (fun i vv => do
      let o ← offs.rd (i + e * es)
      let x ← uu.rdI (o + k * cs)
      vv.wrS (es * (k * bs + e * nc) + i) voff x) vv) vv) vv

/-- `ceed-ref-restriction.c` 77-94 `CeedElemRestrictionApplyOrientedNoTranspose_Ref_Core`. -/
def orientedNT (nc bs es : Nat) (cs : Int) (start stop voff : Nat) (offs : Buf Int) (ors : Buf Bool)
    (uu vv : Buf α) : Res (Buf α) :=
  loop (stop - start) (fun b vv =>
    let e := (start + b) * bs
    loop nc (fun k vv => loop (es * bs) (fun i vv => do
      let o ← offs.rd (i + e * es)
      let x ← uu.rdI (o + k * cs)
      let s ← ors.rd (i + e * es)
      vv.wrS (es * (k * bs + e * nc) + i) voff (x * (if s then -1 else 1))) vv) vv) vv

/-- One product `uu[offsets[j + m*bs + e*es] + k*cs] * curl_orients[j + (3n+d)*bs + e*3*es]` of lines 113-132 /
156-175; `conv` is the conversion to `CeedScalar` (96-136) or that of the absolute value (138-179). -/
def curlTermNT (bs es : Nat) (cs : Int) (offs cur : Buf Int) (conv : Int → α) (uu : Buf α) (e k j m n d : Nat) :
    Res α := do
  let o ← offs.rd (j + m * bs + e * es)
  let x ← uu.rdI (o + k * cs)
  let c ← cur.rd (j + (3 * n + d) * bs + e * 3 * es)
  .ok (x * conv c)

/-- Value of the loop variable `n` after `for (n = 1; n < elem_size - 1; n++)`. -/
def lastN (es : Nat) : Nat := if 1 < es - 1 then es - 1 else 1

/-- `ceed-ref-restriction.c` 96-136 `CeedElemRestrictionApplyCurlOrientedNoTranspose_Ref_Core` and (with `conv` the
absolute value) 138-179 `...CurlOrientedUnsignedNoTranspose_Ref_Core`; the two C functions differ only in `abs`. -/
def curlNT (nc bs es : Nat) (cs : Int) (start stop voff : Nat) (offs cur : Buf Int) (conv : Int → α)
    (uu vv : Buf α) : Res (Buf α) :=
  loop (stop - start) (fun b vv =>
    let e := (start + b) * bs
    let t := curlTermNT bs es cs offs cur conv uu e
    loop nc (fun k vv => do
      let vv ← loop bs (fun j vv => do
        let x ← t k j 0 0 1
        let y ← t k j 1 0 2
        vv.wrS (e * es * nc + (k * es + 0) * bs + j) voff (x + y)) vv
      let vv ← loop (es - 2) (fun n' vv =>
        let n := n' + 1
        loop bs (fun j vv => do
          let x ← t k j (n - 1) n 0
          let y ← t k j n n 1
          let z ← t k j (n + 1) n 2
          vv.wrS (e * es * nc + (k * es + n) * bs + j) voff (x + y + z)) vv) vv
      let n := lastN es
      loop bs (fun j vv => do
        let x ← t k j (n - 1) n 0
        let y ← t k j n n 1
        vv.wrS (e * es * nc + (k * es + n) * bs + j) voff (x + y)) vv) vv) vv

/-- Loop bound `CeedIntMin(block_size, num_elem - e)` that discards padding elements. -/
def laneEnd (bs : Nat) (ne : Int) (e : Nat) : Nat := (min (bs : Int) (ne - e)).toNat

/-- `ceed-ref-restriction.c` 181-218 `CeedElemRestrictionApplyStridedTranspose_Ref_Core`. -/
def stridedT (nc bs es : Nat) (ne : Int) (start stop voff : Nat) (idx : Int → Int → Int → Int)
    (uu vv : Buf α) : Res (Buf α) :=
  loop (stop - start) (fun b vv =>
    let e := (start + b) * bs
    loop nc (fun k vv => loop es (fun n vv => loop (laneEnd bs ne e) (fun j vv => do
      let x ← uu.rdS (e * es * nc + (k * es + n) * bs + j) voff
      vv.addAtI (idx n k ((e + j : Nat) : Int)) x) vv) vv) vv) vv

/-- `ceed-ref-restriction.c` 220-242 `CeedElemRestrictionApplyOffsetTranspose_Ref_Core`. The C loops over
`i = 0, block_size, ...` and `j = i + j'`. -/
def offsetT (nc bs es : Nat) (ne : Int) (cs : Int) (start stop voff : Nat) (offs : Buf Int)
    (uu vv : Buf α) : Res (Buf α) :=
  loop (stop - start) (fun b vv =>
    let e := (start + b) * bs
    loop nc (fun k vv => loop es (fun n vv => loop (laneEnd bs ne e) (fun j' vv => do
      let j := n * bs + j'
      let x ← uu.rdS (es * (k * bs + e * nc) + j) voff
      let o ← offs.rd (j + e * es)
      vv.addAtI (o + k * cs) x) vv) vv) vv) vv

/-- `ceed-ref-restriction.c` 244-266 `CeedElemRestrictionApplyOrientedTranspose_Ref_Core`. -/
def orientedT (nc bs es : Nat) (ne : Int) (cs : Int) (start stop voff : Nat) (offs : Buf Int) (ors : Buf Bool)
    (uu vv : Buf α) : Res (Buf α) :=
  loop (stop - start) (fun b vv =>
    let e := (start + b) * bs
    loop nc (fun k vv => loop es (fun n vv => loop (laneEnd bs ne e) (fun j' vv => do
      let j := n * bs + j'
      let x ← uu.rdS (es * (k * bs + e * nc) + j) voff
      let s ← ors.rd (j + e * es)
      let o ← offs.rd (j + e * es)
      vv.addAtI (o + k * cs) (x * (if s then -1 else 1))) vv) vv) vv) vv

/-- One product `uu[e*es*nc + (k*es + m)*bs + j - v_offset] * curl_orients[j + c*bs + e*3*es]` of lines 284-311 /
335-362. -/
def curlTermT (nc bs es voff : Nat) (cur : Buf Int) (conv : Int → α) (uu : Buf α) (e k j m c : Nat) : Res α := do
  let x ← uu.rdS (e * es * nc + (k * es + m) * bs + j) voff
  let y ← cur.rd (j + c * bs + e * 3 * es)
  .ok (x * conv y)

/-- `ceed-ref-restriction.c` 268-317 `CeedElemRestrictionApplyCurlOrientedTranspose_Ref_Core` and (with `conv` the
absolute value) 319-368 `...CurlOrientedUnsignedTranspose_Ref_Core`. Simplification: the C code computes the lane values
into the local array `vv_loc[j]` and then adds them in a second loop over the same lanes; the model adds each value as
it is computed (`vv_loc` depends on `uu` only). -/
def curlT (nc bs es : Nat) (ne : Int) (cs : Int) (start stop voff : Nat) (offs cur : Buf Int) (conv : Int → α)
    (uu vv : Buf α) : Res (Buf α) :=
  loop (stop - start) (fun b vv =>
    let e := (start + b) * bs
    let t := curlTermT nc bs es voff cur conv uu e
    let be := laneEnd bs ne e
    loop nc (fun k vv => do
      let vv ← loop be (fun j vv => do
        let x ← t k j 0 1
        let y ← t k j 1 3
        let o ← offs.rd (j + 0 * bs + e * es)
        vv.addAtI (o + k * cs) (x + y)) vv
      let vv ← loop (es - 2) (fun n' vv =>
        let n := n' + 1
        loop be (fun j vv => do
          let x ← t k j (n - 1) (3 * n - 1)
          let y ← t k j n (3 * n + 1)
          let z ← t k j (n + 1) (3 * n + 3)
          let o ← offs.rd (j + n * bs + e * es)
          vv.addAtI (o + k * cs) (x + y + z)) vv) vv
      let n := lastN es
      loop be (fun j vv => do
        let x ← t k j (n - 1) (3 * n - 1)
        let y ← t k j n (3 * n + 1)
        let o ← offs.rd (j + n * bs + e * es)
        vv.addAtI (o + k * cs) (x + y)) vv) vv) vv

/-- `interface/ceed-elemrestriction.c` 1536-1548 `CeedElemRestrictionGetNumPointsInElement` (the read access taken on
the offsets is returned before the call ends and is not modelled here). -/
def numPointsInElement (r : Rstr) (elem : Int) : Res Int := do
  Res.check (r.rtype = .points) .incompatible
  let a ← r.offsets.rdI (elem + 1)
  let b ← r.offsets.rdI elem
  .ok (a - b)

/-- `ceed-ref-restriction.c` 370-393 `CeedElemRestrictionApplyAtPointsInElement_Ref_Core`. The state of the element
loop is the array and the running `e_vec_offset`. Loop bounds that are negative run zero times. -/
def pointsKernel (r : Rstr) (nc start stop : Nat) (tm : TMode) (uu vv : Buf α) : Res (Buf α) := do
  let s ← loop (stop - start) (fun b (s : Buf α × Int) => do
    let e : Int := ((start + b : Nat) : Int)
    let lOff ← r.offsets.rdI e
    let np ← numPointsInElement r e
    let vv ← (match tm with
      | .noTranspose => loop np.toNat (fun i vv => loop nc (fun j vv => do
          let o ← r.offsets.rdI ((i : Int) + lOff)
          let x ← uu.rdI (o * nc + j)
          vv.wrI (j * np + i + s.2) x) vv) s.1
      | .transpose => loop np.toNat (fun i vv => loop nc (fun j vv => do
          let o ← r.offsets.rdI ((i : Int) + lOff)
          let x ← uu.rdI (j * np + i + s.2)
          vv.addAtI (o * nc + j) x) vv) s.1)
    Res.ok (vv, s.2 + np * nc)) (vv, 0)
  .ok s.1

/-- `ceed-elemrestriction.c` 443-467 `CeedElemRestrictionGetAtPointsElementOffset` (default layout; the CPU
backends do not override it). -/
def atPointsElementOffset (r : Rstr) (elem : Int) : Res Int := do
  Res.check (r.rtype = .points) .incompatible
  loop elem.toNat (fun i off => do
    let np ← numPointsInElement r i
    Res.ok (off + np * r.numComp)) 0

/-- `ceed-elemrestriction.c` 1561-1588 `CeedElemRestrictionGetMinMaxPointsInElement` with both results requested
(`GetMinPointsInElement` / `GetMaxPointsInElement` request one). -/
def minMaxPointsInElement (r : Rstr) : Res (Int × Int) := do
  Res.check (r.rtype = .points) .incompatible
  if r.numElem = 0 then .ok (0, 0)
  else
    let np ← numPointsInElement r 0
    loop (r.numElem - 1).toNat (fun i (s : Int × Int) => do
      let np ← numPointsInElement r ((i + 1 : Nat) : Int)
      Res.ok (min np s.1, max np s.2)) (np, np)

/-- `CEED_STRIDES_BACKEND` (`ceed-elemrestriction.c` 601) test, 221-226 `CeedElemRestrictionHasBackendStrides`. -/
def stridedIdx (r : Rstr) (es nc : Nat) : Res (Int → Int → Int → Int) :=
  match r.strides with
  | none => .err .minor
  | some s => .ok (if s = (0, 0, 0) then backendIdx es nc else userIdx s)

/-- `ceed-ref-restriction.c` 395-502 `CeedElemRestrictionApply_Ref_Core`: dispatch on type and flags. -/
def applyCore (r : Rstr) (nc bs : Nat) (cs : Int) (start stop : Nat) (tm : TMode) (useSigns useOrients : Bool)
    (uu vv : Buf α) : Res (Buf α) :=
  let es := r.elemSize
  let ne := r.numElem
  let voff := start * bs * es * nc
  match tm with
  | .transpose =>
    match r.rtype with
    | .strided => do
      let idx ← stridedIdx r es nc
      stridedT nc bs es ne start stop voff idx uu vv
    | .standard => offsetT nc bs es ne cs start stop voff r.offsets uu vv
    | .oriented =>
      if useSigns then orientedT nc bs es ne cs start stop voff r.offsets r.orients uu vv
      else offsetT nc bs es ne cs start stop voff r.offsets uu vv
    | .curlOriented =>
      if useSigns && useOrients then curlT nc bs es ne cs start stop voff r.offsets r.curlOrients (fun c => (c : α)) uu vv
      else if useOrients then
        curlT nc bs es ne cs start stop voff r.offsets r.curlOrients (fun c => ((c.natAbs : Int) : α)) uu vv
      else offsetT nc bs es ne cs start stop voff r.offsets uu vv
    | .points => pointsKernel r nc start stop tm uu vv
  | .noTranspose =>
    match r.rtype with
    | .strided => do
      let idx ← stridedIdx r es nc
      stridedNT nc bs es ne start stop voff idx uu vv
    | .standard => offsetNT nc bs es cs start stop voff r.offsets uu vv
    | .oriented =>
      if useSigns then orientedNT nc bs es cs start stop voff r.offsets r.orients uu vv
      else offsetNT nc bs es cs start stop voff r.offsets uu vv
    | .curlOriented =>
      if useSigns && useOrients then curlNT nc bs es cs start stop voff r.offsets r.curlOrients (fun c => (c : α)) uu vv
      else if useOrients then
        curlNT nc bs es cs start stop voff r.offsets r.curlOrients (fun c => ((c.natAbs : Int) : α)) uu vv
      else offsetNT nc bs es cs start stop voff r.offsets uu vv
    | .points => pointsKernel r nc start stop tm uu vv

/-- Selection of the specialised kernel at creation (`ceed-ref-restriction.c` 807-857) followed by the call
`impl->Apply(rstr, num_comp, block_size, comp_stride, ...)`: the wrappers of lines 507-581 replace the arguments by
literals. The selection uses the sizes stored in the restriction, the call passes `nc bs cs`. -/
def implApply (r : Rstr) (nc bs : Nat) (cs : Int) (start stop : Nat) (tm : TMode) (useSigns useOrients : Bool)
    (uu vv : Buf α) : Res (Buf α) :=
  let index : Int := if r.blockSize < 10 then 100 * r.numComp + 10 * r.blockSize + (if r.compStride = 1 then 1 else 0) else -1
  if index = 110 then applyCore r 1 1 cs start stop tm useSigns useOrients uu vv
  else if index = 111 then applyCore r 1 1 1 start stop tm useSigns useOrients uu vv
  else if index = 180 then applyCore r 1 8 cs start stop tm useSigns useOrients uu vv
  else if index = 181 then applyCore r 1 8 1 start stop tm useSigns useOrients uu vv
  else if index = 310 then applyCore r 3 1 cs start stop tm useSigns useOrients uu vv
  else if index = 311 then applyCore r 3 1 1 start stop tm useSigns useOrients uu vv
  else if index = 380 then applyCore r 3 8 cs start stop tm useSigns useOrients uu vv
  else if index = 381 then applyCore r 3 8 1 start stop tm useSigns useOrients uu vv
  else if index = 510 then applyCore r 5 1 cs start stop tm useSigns useOrients uu vv
  else if index = 511 then applyCore r 5 1 1 start stop tm useSigns useOrients uu vv
  else if index = 580 then applyCore r 5 8 cs start stop tm useSigns useOrients uu vv
  else if index = 581 then applyCore r 5 8 1 start stop tm useSigns useOrients uu vv
  else applyCore r nc bs cs start stop tm useSigns useOrients uu vv

/-- Which backend function the `Apply` pointer of the restriction refers to: `ceed-ref-restriction.c` 586-631
(`Apply`, `ApplyUnsigned`, `ApplyUnoriented`); `CreateUnsignedCopy` / `CreateUnorientedCopy`
(`ceed-elemrestriction.c` 1184-1234) copy the restriction and replace the pointer. -/
inductive Variant
  | plain | unsigned | unoriented
deriving DecidableEq, Repr

/-- `(use_signs, use_orients)` passed by the three backend functions. -/
def Variant.flags : Variant → Bool × Bool
  | .plain => (true, true)
  | .unsigned => (false, true)
  | .unoriented => (false, false)

/-- `interface/ceed-elemrestriction.c` 1296-1318 `CeedElemRestrictionApply` on a restriction whose `Apply` pointer is
the given variant, calling `ceed-ref-restriction.c` 586-631. -/
def apply (r : Rstr) (var : Variant) (tm : TMode) (u ru : Buf α) : Res (Buf α) := do
  let (minU, minRu) : Int × Int := match tm with
    | .noTranspose => (r.lSize, (r.eSize : Int))
    | .transpose => ((r.eSize : Int), r.lSize)
  Res.check (minU ≤ u.len) .dimension
  Res.check (minRu ≤ ru.len) .dimension
  if 0 < r.numElem then
    implApply r r.numComp r.blockSize r.compStride 0 r.numBlock tm var.flags.1 var.flags.2 u ru
  else .ok ru

/-- `ceed-elemrestriction.c` 1390-1428 `CeedElemRestrictionApplyBlock`, calling `ceed-ref-restriction.c` 649-660.
For a negative block number the kernel reads `offsets[i + block*block_size*elem_size]` (or the L-vector, for strided
restrictions, at an index the length check does not cover) before the array; the model records `ub` without running the
kernel. -/
def applyBlock (r : Rstr) (block : Int) (tm : TMode) (u ru : Buf α) : Res (Buf α) := do
  let blk : Int := (r.blockSize : Int) * r.elemSize * r.numComp
  let (minU, minRu) : Int × Int := match tm with
    | .noTranspose => (r.lSize, blk)
    | .transpose => (blk, r.lSize)
  Res.check (minU = u.len) .dimension
  Res.check (minRu = ru.len) .dimension
  Res.check ((r.blockSize : Int) * block ≤ r.numElem) .dimension
  if block < 0 then .ub
  else implApply r r.numComp r.blockSize r.compStride block.toNat (block.toNat + 1) tm true true u ru

/-- `ceed-elemrestriction.c` 1707-1722 `CeedElemRestrictionGetMultiplicity`. The intermediate E-vector is a new vector
whose array is allocated, zeroed, by `CeedVectorGetArrayWrite`. -/
def getMultiplicity (r : Rstr) (var : Variant) (mult : Buf α) : Res (Buf α) := do
  let ones ← Buf.fill mult.len 1 mult
  let e ← apply r var .noTranspose ones ⟨r.eSize, fun _ => 0⟩
  let zeros ← Buf.fill ones.len 0 ones
  apply r var .transpose e zeros

/-- `ceed-elemrestriction.c` 1335-1373 `CeedElemRestrictionApplyAtPointsInElement`, calling `ceed-ref-restriction.c`
636-644 (registered for points restrictions only, line 858). Reading `offsets[elem + 1]` precedes the range check. -/
def applyAtPointsInElement (r : Rstr) (elem : Int) (tm : TMode) (u ru : Buf α) : Res (Buf α) := do
  Res.check (r.rtype = .points) .unsupported
  let np ← numPointsInElement r elem
  let (minU, minRu) : Int × Int := match tm with
    | .noTranspose => (r.lSize, np * r.numComp)
    | .transpose => (np * r.numComp, r.lSize)
  Res.check (minU ≤ u.len) .dimension
  Res.check (minRu ≤ ru.len) .dimension
  Res.check (elem < r.numElem) .dimension
  if 0 < r.numElem then
    implApply r r.numComp 0 1 elem.toNat (elem.toNat + 1) tm false false u ru
  else .ok ru

end Kernels

/-! ## Creation -/

section Create

/-- `ceed-elemrestriction.c` 38-48 `CeedPermutePadOffsets`; 64-73 and 89-99 are the same loop on `bool` and
`CeedInt8`. -/
def permutePad {β : Type _} (src : Buf β) (dst : Buf β) (numBlock : Nat) (ne : Int) (bs es : Nat) : Res (Buf β) :=
  loop numBlock (fun b dst =>
    let e := b * bs
    loop bs (fun j dst => loop es (fun k dst => do
      let x ← src.rdI (min ((e + j : Nat) : Int) (ne - 1) * es + k)
      dst.wr (e * es + k * bs + j) x) dst) dst) dst

/-- A zero-initialised array, `CeedCalloc(n, ...)`. -/
def calloc {β : Type _} (n : Nat) (z : β) : Buf β := ⟨n, fun _ => z⟩

/-- Range check of `ceed-ref-restriction.c` 783-790, made when the root resource is `/cpu/self/ref/serial` or
`/cpu/self/ref/blocked` (`checked`). -/
def checkOffsets (checked : Bool) (ne : Int) (es nc : Nat) (cs lSize : Int) (offs : Buf Int) : Res Unit :=
  if checked then
    loop (ne * es).toNat (fun i _ => do
      let o ← offs.rd i
      Res.check (0 ≤ o ∧ o + ((nc : Int) - 1) * cs < lSize) .backend) ()
  else .ok ()

/-- Common part of the creation functions for offset based restrictions: `CeedElemRestrictionCreate_Ref`
(`ceed-ref-restriction.c` 721-873) on the fields filled in by the interface, for host memory. The arrays handed over are
the ones the kernels read (`CeedSetHost*Array` copies or keeps them). -/
def createRef (checked : Bool) (r : Rstr) : Res Rstr := do
  checkOffsets checked r.numElem r.elemSize r.numComp r.compStride r.lSize r.offsets
  .ok r

/-- Copy of the first `n` entries of the user's array, `CeedSetHostGenericArray` with `CEED_COPY_VALUES`
(`interface/ceed.c` 348-360: `memcpy` of `num_values` entries). -/
def copyIn {β : Type _} (src : Buf β) (n : Nat) : Res (Buf β) := if n ≤ src.len then .ok ⟨n, src.val⟩ else .ub

/-- Orientation data given by the user, selecting between `Create` / `CreateOriented` / `CreateCurlOriented`. -/
inductive Orient
  | none
  | signs (s : Buf Bool)
  | curl (c : Buf Int)

def Orient.rtype : Orient → RType
  | .none => .standard
  | .signs _ => .oriented
  | .curl _ => .curlOriented

/-- `ceed-elemrestriction.c` 628-659 `CeedElemRestrictionCreate`, 684-717 `CeedElemRestrictionCreateOriented`,
743-776 `CeedElemRestrictionCreateCurlOriented` (identical but for the type and the orientation array), on a backend
that creates its own restrictions, with `CEED_COPY_VALUES` (the other copy modes keep the pointer, the values read are
the same as long as the user does not modify them). -/
def create (checked : Bool) (ne es nc cs lSize : Int) (offsets : Buf Int) (o : Orient) : Res Rstr := do
  Res.check (0 ≤ ne) .dimension
  Res.check (0 < es) .dimension
  Res.check (0 < nc) .dimension
  Res.check (nc = 1 ∨ 0 < cs) .dimension
  let n := (ne * es).toNat
  let r : Rstr := { rtype := o.rtype, numElem := ne, elemSize := es.toNat, numComp := nc.toNat, compStride := cs,
                    lSize := lSize, eSize := (ne * es * nc).toNat, numBlock := ne.toNat, blockSize := 1, numPoints := 0,
                    strides := none, offsets := offsets, orients := ⟨0, fun _ => false⟩, curlOrients := ⟨0, fun _ => 0⟩ }
  let r ← createRef checked r
  let offs ← copyIn offsets n
  match o with
  | .none => .ok { r with offsets := offs }
  | .signs s => do
    let s ← copyIn s n
    .ok { r with offsets := offs, orients := s }
  | .curl c => do
    let c ← copyIn c (3 * n)
    .ok { r with offsets := offs, curlOrients := c }

/-- `ceed-elemrestriction.c` 798-832 `CeedElemRestrictionCreateStrided`. -/
def createStrided (ne es nc lSize : Int) (strides : Int × Int × Int) : Res Rstr := do
  Res.check (0 ≤ ne) .dimension
  Res.check (0 < es) .dimension
  Res.check (0 < nc) .dimension
  Res.check (ne * es * nc ≤ lSize) .dimension
  .ok { rtype := .strided, numElem := ne, elemSize := es.toNat, numComp := nc.toNat, compStride := 0,
        lSize := lSize, eSize := (ne * es * nc).toNat, numBlock := ne.toNat, blockSize := 1, numPoints := 0,
        strides := some strides, offsets := ⟨0, fun _ => 0⟩, orients := ⟨0, fun _ => false⟩,
        curlOrients := ⟨0, fun _ => 0⟩ }

/-- `num_block = (num_elem / block_size) + !!(num_elem % block_size)`, computed before any check
(`ceed-elemrestriction.c` 929, 999, 1072, 1135); division by zero is undefined. -/
def numBlocks (ne bs : Int) : Res Int :=
  if bs = 0 then .ub else .ok (ne.tdiv bs + (if ne.tmod bs ≠ 0 then 1 else 0))

/-- `ceed-elemrestriction.c` 926-966 `CeedElemRestrictionCreateBlocked`, 995-1038 `...CreateBlockedOriented`,
1068-1112 `...CreateBlockedCurlOriented`. The oriented version lacks the check on `num_elem` (1012). `calloc` of a
negative number of entries fails (`CEED_ERROR_MAJOR`). -/
def createBlocked (checked : Bool) (ne es bs nc cs lSize : Int) (offsets : Buf Int) (o : Orient) : Res Rstr := do
  let nb ← numBlocks ne bs
  match o with
  | .signs _ => pure ()
  | _ => Res.check (0 ≤ ne) .dimension
  Res.check (0 < es) .dimension
  Res.check (0 < bs) .dimension
  Res.check (0 < nc) .dimension
  Res.check (nc = 1 ∨ 0 < cs) .dimension
  Res.check (0 ≤ nb) .major
  let n := (nb * bs * es).toNat
  let r : Rstr := { rtype := o.rtype, numElem := ne, elemSize := es.toNat, numComp := nc.toNat, compStride := cs,
                    lSize := lSize, eSize := (nb * bs * es * nc).toNat, numBlock := nb.toNat, blockSize := bs.toNat,
                    numPoints := 0, strides := none, offsets := ⟨0, fun _ => 0⟩, orients := ⟨0, fun _ => false⟩,
                    curlOrients := ⟨0, fun _ => 0⟩ }
  match o with
  | .none => do
    let offs ← permutePad offsets (calloc n 0) nb.toNat ne bs.toNat es.toNat
    createRef checked { r with offsets := offs }
  | .signs s => do
    let offs ← permutePad offsets (calloc n 0) nb.toNat ne bs.toNat es.toNat
    let s ← permutePad s (calloc n false) nb.toNat ne bs.toNat es.toNat
    createRef checked { r with offsets := offs, orients := s }
  | .curl c => do
    let offs ← permutePad offsets (calloc n 0) nb.toNat ne bs.toNat es.toNat
    let c ← permutePad c (calloc (3 * n) 0) nb.toNat ne bs.toNat (3 * es.toNat)
    createRef checked { r with offsets := offs, curlOrients := c }

/-- `ceed-elemrestriction.c` 1133-1170 `CeedElemRestrictionCreateBlockedStrided`. -/
def createBlockedStrided (ne es bs nc lSize : Int) (strides : Int × Int × Int) : Res Rstr := do
  let nb ← numBlocks ne bs
  Res.check (0 ≤ ne) .dimension
  Res.check (0 < es) .dimension
  Res.check (0 < bs) .dimension
  Res.check (0 < nc) .dimension
  Res.check (ne * es * nc ≤ lSize) .dimension
  .ok { rtype := .strided, numElem := ne, elemSize := es.toNat, numComp := nc.toNat, compStride := 0,
        lSize := lSize, eSize := (nb * bs * es * nc).toNat, numBlock := nb.toNat, blockSize := bs.toNat, numPoints := 0,
        strides := some strides, offsets := ⟨0, fun _ => 0⟩, orients := ⟨0, fun _ => false⟩,
        curlOrients := ⟨0, fun _ => 0⟩ }

/-- `ceed-elemrestriction.c` 866-899 `CeedElemRestrictionCreateAtPoints` with `ceed-ref-restriction.c` 757-800
(E-vector size of an at-points restriction; `elem_size` is 0 so the offset check covers nothing). -/
def createAtPoints (ne np nc lSize : Int) (offsets : Buf Int) : Res Rstr := do
  Res.check (0 ≤ ne) .dimension
  Res.check (0 ≤ np) .dimension
  Res.check (0 < nc) .dimension
  Res.check (np * nc ≤ lSize) .dimension
  let s ← loop ne.toNat (fun i (s : Int × Int) => do
    let a ← offsets.rdI ((i : Int) + 1)
    let b ← offsets.rdI (i : Int)
    Res.ok (max s.1 (a - b), s.2 + (a - b))) (0, 0)
  let a ← offsets.rdI ne
  let b ← offsets.rdI (ne - 1)
  let total := s.2 + (s.1 - (a - b))
  Res.check (np * nc ≤ total * nc) .incompatible
  let offs ← copyIn offsets (ne + 1 + np).toNat
  .ok { rtype := .points, numElem := ne, elemSize := 0, numComp := nc.toNat, compStride := 1,
        lSize := lSize, eSize := (total * nc).toNat, numBlock := ne.toNat, blockSize := 1, numPoints := np.toNat,
        strides := none, offsets := offs, orients := ⟨0, fun _ => false⟩, curlOrients := ⟨0, fun _ => 0⟩ }

end Create

end Restriction
end Verif
