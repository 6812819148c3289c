import Verif.Gpu.Asm
import Verif.Operator.Diag

/-!
# Assembly of diagonals on a device

Models the kernel `include/ceed/jit-source/cuda/cuda-ref-operator-assemble-diagonal.h` (`LinearDiagonal`) and
`backends/cuda-ref/ceed-cuda-ref-operator.c` 1099-1440. (`backends/hip-ref/ceed-hip-ref-operator.hip.cpp` and its kernel
are the same.) The assembled QFunction is an argument, as in `Verif.Gpu.Asm`. Locks of vectors are not modelled; compilation
succeeds.
-/

namespace Verif.Gpu

open Verif.Basis (EMode)
open Verif.Operator (Oper Prec ABasis OField basisPtr ident activePair pointBlock)
open Verif.Restriction (Variant Rstr)

variable {α : Type} [CommRing α]

/-! ## The kernel -/

/-- Constants compiled into `LinearDiagonal`: `NUM_EVAL_MODES_OUT`, `NUM_COMP`, `NUM_NODES`, `NUM_QPTS`, and the argument
`num_elem`. -/
structure DiagK where
  (eO nc P Q ne : Nat)

/-- Lines 21-42 `GetBasisPointer`: the table of the device for an evaluation mode: `identity`, then `interp`, `grad`, `div`,
`curl` of the input and of the output. -/
def diagTab (out : Bool) : EMode → Nat
  | .none => 0
  | .interp => if out then 5 else 1
  | .grad => if out then 6 else 2
  | .div => if out then 7 else 3
  | .curl => if out then 8 else 4
  | .weight => 9

/-- The variables `d_out`, `eval_modes_out_prev` (lines 60-61, 69-71) and `d_in`, `eval_modes_in_prev` (64-65, 77-79): the
number of the part of the table used for each entry. `prev = none` is the first entry. -/
def diagDirs : Option EMode → Nat → List EMode → List (EMode × Nat)
  | _, _, [] => []
  | prev, d, m :: l =>
    let d' := if prev = some m then d + 1 else 0
    (m, d') :: diagDirs (some m) d' l

/-- Entry `y` of the list. -/
def dirAt (l : List EMode) (y : Nat) : EMode × Nat := ((diagDirs none 0 l)[y]?).getD (.none, 0)

/-- Lines 86-95 and 100-109: `e_value` for the entries `x`, `y` of the modes and the components `ci`, `co`. -/
def diagSum (k : DiagK) (mi mo : List EMode) (x ci y co e tid : Nat) : K α α :=
  forN k.Q (fun q r => do
    let d ← rd .u ((((((x * k.nc + ci) * k.eO + y) * k.nc + co) * k.ne + e) * k.Q + q : Nat) : Int)
    let bt ← rd (.table (diagTab true (dirAt mo y).1)) (((dirAt mo y).2 * k.Q * k.P + (q * k.P + tid) : Nat) : Int)
    let b ← rd (.table (diagTab false (dirAt mi x).1)) (((dirAt mi x).2 * k.Q * k.P + (q * k.P + tid) : Nat) : Int)
    pure (r + bt * d * b)) 0

/-- `elem_diag_array[i] += x`. -/
def incV (i : Nat) (x : α) : K α Unit := do
  let y ← rd .v ((i : Nat) : Int)
  wr .v ((i : Nat) : Int) (y + x)

/-- Lines 81-112: the components, of the point block diagonal if `pb`. -/
def diagComps (k : DiagK) (pb : Bool) (mi mo : List EMode) (x y e tid : Nat) : K α Unit :=
  forN k.nc (fun co _ =>
    if pb then
      forN k.nc (fun ci _ => do
        let r ← diagSum k mi mo x ci y co e tid
        incV (((co * k.nc + ci) * k.ne + e) * k.P + tid) r) ()
    else do
      let r ← diagSum k mi mo x co y co e tid
      incV ((co * k.ne + e) * k.P + tid) r) ()

/-- `cuda-ref-operator-assemble-diagonal.h` 47-116 `LinearDiagonal` in thread `t` of block `b`; `elems_per_block` is 1. -/
def diagKernel (k : DiagK) (pb : Bool) (mi mo : List EMode) (G b t : Nat) : K α Unit :=
  if k.P ≤ t then pure () else
  strideFor k.ne b G (fun e => forN mo.length (fun y _ => forN mi.length (fun x _ => diagComps k pb mi mo x y e t) ()) ())

/-! ## Host functions -/

/-- Memory of `LinearDiagonal`: the assembled QFunction, `elem_diag`, and the tables. -/
def memDiag (tabs : Nat → Buf α) (D v : Buf α) : Mem α where
  len a := match a with
    | .u => D.len
    | .v => v.len
    | .table j => (tabs j).len
    | .shared _ _ => 0
  val a := match a with
    | .u => D.val
    | .v => v.val
    | .table j => (tabs j).val
    | .shared _ _ => fun _ => 0

/-- Lines 1177-1260 of `CeedOperatorAssembleDiagonalSetup_Cuda`: the tables of one side are copied to the device, with
`num_nodes * num_qpts` of the input basis entries per quadrature component. Simplification: tables of modes that no field
uses are not copied; nothing reads them. -/
def devTabs (p : Prec α) (bid : Option Nat) (P Q : Nat) (out : Bool) : List EMode → (Nat → Buf α) → Res (Nat → Buf α)
  | [], t => .ok t
  | m :: l, t => do
    let B ← basisPtr p bid m (ident P Q)
    if P * Q * p.qComp bid m ≤ B.len then
      devTabs p bid P Q out l (Function.update t (diagTab out m) ⟨P * Q * p.qComp bid m, B.val⟩)
    else .ub

/-- `ceed-cuda-ref-operator.c` 1362-1433 `CeedOperatorAssembleDiagonalCore_Cuda` with 1099-1280
`CeedOperatorAssembleDiagonalSetup_Cuda` and 1285-1357 `CeedOperatorAssembleDiagonalSetupCompile_Cuda`, up to the launch of
the kernel: the launch, the number of the restriction, and the length of `elem_diag`. `D` is the assembled QFunction. (What
the setup prepares is kept for later calls; nothing it depends on changes.) -/
def diagonalDev (dv : Device) (pb : Bool) (op : Oper α) (p : Prec α) (D : Buf α) : Res (Launch α × Nat × Nat) := do
  let a ← oneBasis p op.inp p.inB op.nin
  let b ← oneBasis p op.out p.outB op.nout
  let mi := a.modes.map Prod.fst
  let mo := b.modes.map Prod.fst
  let P := p.P a.bid
  let Q := p.Q a.bid
  let t ← devTabs p a.bid P Q false mi (fun _ => ⟨0, fun _ => 0⟩)
  let t ← devTabs p b.bid P Q true mo t
  let r ← activePair op
  Res.check (r.1 = r.2) .backend
  let R := op.rstrs r.2
  let ne := R.numElem.toNat
  let n := if pb then ne * (R.numComp * R.numComp) * R.elemSize else ne * R.numComp * R.elemSize
  let m := memDiag t D ⟨n, fun _ => 0⟩
  let L ← if 0 < R.elemSize then
      runDev dv ne R.elemSize (diagKernel ⟨mo.length, p.nc a.bid, P, Q, ne⟩ pb mi mo ne) m
    else .ok (noLaunch m)
  .ok (L, r.2, n)

/-- Line 1436: `CeedElemRestrictionApply(diag_rstr, CEED_TRANSPOSE, elem_diag, assembled)`. `X` is the restriction on the
device, applied without its signs (line 1397, `CeedElemRestrictionCreateUnsignedCopy`), or that of the point blocks (line
1400). -/
def diagScatter (pb : Bool) (X : CRstr) (elem assembled : Buf α) : Res (Launch α) :=
  applyCuda X (if pb then .plain else .unsigned) .transpose elem assembled

end Verif.Gpu
