import Verif.Operator.Fields
import Verif.Restriction.Model
import Mathlib.Algebra.Order.Ring.Abs
import Mathlib.Algebra.Order.Field.Basic

/-!
# Operators: multigrid levels

Models `CeedSingleOperatorMultigridLevel` (`interface/ceed-preconditioning.c` 868-1066), which creates the coarse operator
of a multigrid level and the operators that transfer between the levels. Names of operators, the sharing of the assembled
QFunction and reference counts are left out; objects are allocated at the numbers `ρ` (a restriction) and `μ` (a vector).
-/

namespace Verif
namespace Operator

open Restriction (Rstr)
open Basis (Bas EMode)

/-- A call on one object, followed by further calls only if it succeeds (`CeedCall`); the object is what later code sees. -/
def runOn {σ β : Type _} (m : M σ β) (s : σ) : Res σ :=
  match m s with
  | .ok s' _ => .ok s'
  | .err _ e => .err e
  | .ub => .ub

/-- The object made by `CeedElemRestrictionCreateUnsignedCopy` (`interface/ceed-elemrestriction.c` 1184-1202) as
restrictions are applied by operators: the copy calls `ApplyUnsigned` where the original calls `Apply`. For restrictions
that are not curl-oriented (the only ones copied here) this is the restriction without the signs. -/
def unsignedCopy (r : Rstr) : Rstr :=
  match r.rtype with
  | .oriented => { r with rtype := .standard, orients := ⟨0, fun _ => false⟩ }
  | _ => r

/-- `CEED_ELEMRESTRICTION_NONE` or `CEED_BASIS_NONE` where the field has no object: `CeedOperatorFieldGetElemRestriction`,
`CeedOperatorFieldGetBasis` (`interface/ceed-operator.c` 1189-1215). -/
def argOf {β : Type _} : Option β → Arg β
  | some b => .obj b
  | Option.none => .none

section
variable {α : Type _}

/-- Cloning one field: `interface/ceed-preconditioning.c` 897-912 and 922-937. -/
def cloneField (rs : Nat → Rstr) (rc : Nat) (bc : Bas α) (v : FVal α) : M (OpI α) Unit :=
  if v.vec = .active then setField rs v.name (.obj rc) (.obj bc) (some .active)
  else setField rs v.name (argOf v.rid) (argOf v.basis) (some v.vec)

/-- The local variable `rstr_fine` after a field: lines 902 and 927. `none` is the null pointer, `some none` is
`CEED_ELEMRESTRICTION_NONE`. -/
def pickFine (v : FVal α) (rf : Option (Option Nat)) : Option (Option Nat) :=
  match rf with
  | some x => some x
  | Option.none => if v.vec = .active then some v.rid else Option.none

/-- Cloning one table: lines 891-916 and 918-941. A field that is not filled in is a null or wild pointer. -/
def cloneFields (rs : Nat → Rstr) (rc : Nat) (bc : Bas α) (F : Nat → Slot α) (n : Nat)
    (st : OpI α × Option (Option Nat)) : Res (OpI α × Option (Option Nat)) :=
  loop n (fun i st =>
    match F i with
    | .set v => do
      let s ← runOn (cloneField rs rc bc v) st.1
      .ok (s, pickFine v st.2)
    | _ => .ub) st

/-- Lines 886-941: the coarse operator, before its readiness check, and `rstr_fine`. `CeedOperatorGetFields` checks that
the fine operator is ready. -/
def cloneOper (rs : Nat → Rstr) (rc : Nat) (bc : Bas α) (fine : OpI α) : Res (OpI α × Option (Option Nat)) := do
  let fine ← runOn checkReady fine
  let st ← cloneFields rs rc bc fine.inF fine.qf.inputs.length (OpI.create fine.qf, Option.none)
  cloneFields rs rc bc fine.outF fine.qf.outputs.length st

/-- Lines 985-1001: the restriction operator. -/
def restrictOper (rs : Nat → Rstr) (nc rf ρ rc μ : Nat) (bcf : Bas α) : Res (OpI α) := do
  let q ← runOn (do
    QFunction.addInput "input".toList nc .none
    QFunction.addInput "scale".toList nc .none
    QFunction.addOutput "output".toList nc .interp) (QFunction.QFunc.create 1)
  runOn (do
    setField rs "input".toList (.obj rf) .none (some .active)
    setField rs "scale".toList (.obj ρ) .none (some (.vec μ))
    setField rs "output".toList (.obj rc) (.obj bcf) (some .active)
    checkReady) (OpI.create q)

/-- Lines 1018-1034: the prolongation operator. -/
def prolongOper (rs : Nat → Rstr) (nc rf ρ rc μ : Nat) (bcf : Bas α) : Res (OpI α) := do
  let q ← runOn (do
    QFunction.addInput "input".toList nc .interp
    QFunction.addInput "scale".toList nc .none
    QFunction.addOutput "output".toList nc .none) (QFunction.QFunc.create 1)
  runOn (do
    setField rs "input".toList (.obj rc) (.obj bcf) (some .active)
    setField rs "scale".toList (.obj ρ) .none (some (.vec μ))
    setField rs "output".toList (.obj rf) .none (some .active)
    checkReady) (OpI.create q)

end

section
variable {α : Type _} [Field α] [LinearOrder α]

/-- User function of the QFunction `Scale` as a function of the input arrays (`gallery/scale/ceed-scale.h` 13-27; the
kernel that writes to an array is `QFunction.scaleK`). -/
def scaleF (x : Nat → Nat → α) : Nat → Nat → α := fun _ i => x 0 i * x 1 i

/-- Lines 951-968: `mult_vec`. `CeedVectorReciprocal` is `interface/ceed-vector.c` 965-994, `eps` is `CEED_EPSILON`. -/
def multVec (eps : α) (r : Rstr) (pm : Buf α) : Res (Buf α) := do
  let e ← Restriction.apply r .unsigned .noTranspose pm ⟨r.eSize, fun _ => 0⟩
  let m ← Restriction.apply r .unsigned .transpose e ⟨r.lSize.toNat, fun _ => 0⟩
  loop m.len (fun i m => do
    let z ← m.rd i
    if eps < |z| then m.wr i (1 / z) else .ok m) m

/-- What the call leaves behind: the operators requested, the restrictions including the unsigned copy, the contents of
`mult_vec`. -/
structure Level (α : Type _) where
  coarse : OpI α
  restrict : Option (OpI α)
  prolong : Option (OpI α)
  rstrs : Nat → Rstr
  mult : Option (Buf α)

/-- Lines 944-969: restriction and contents of `mult_vec`, if an operator that needs them is requested. -/
def levelMult (rs : Nat → Rstr) (eps : α) (rf : Option (Option Nat)) (pm : Option (Buf α)) : Res (Nat × Buf α) :=
  match rf with
  | Option.none => .ub
  | some Option.none => .ub
  | some (some r) => do
    Res.check ((rs r).rtype ≠ .curlOriented) .unsupported
    match pm with
    | Option.none => .err .incompatible
    | some p => do
      let m ← multVec eps (rs r) p
      .ok (r, m)

/-- Lines 975-1057: the transfer operators. -/
def levelOpers (rs : Nat → Rstr) (nc rf ρ rc μ : Nat) (bcf : Option (Bas α)) (wantR wantP : Bool) :
    Res (Option (OpI α) × Option (OpI α)) :=
  match bcf with
  | Option.none => .err .incompatible
  | some b => do
    let R ← (if wantR then do
      let s ← restrictOper rs nc rf ρ rc μ b
      .ok (some s)
      else .ok Option.none)
    let P ← (if wantP then do
      let s ← prolongOper rs nc rf ρ rc μ b
      .ok (some s)
      else .ok Option.none)
    .ok (R, P)

/-- Lines 881-1066 `CeedSingleOperatorMultigridLevel`. `composite` is `CeedOperatorIsComposite(op_fine)`; `wantR`, `wantP`
are `op_restrict`, `op_prolong` being non-null; `pm`, `bcf` are `p_mult_fine` and `basis_c_to_f`, possibly null. -/
def multigridLevel (rs : Nat → Rstr) (eps : α) (composite : Bool) (fine : OpI α) (pm : Option (Buf α)) (rc : Nat) (bc : Bas α)
    (bcf : Option (Bas α)) (ρ μ : Nat) (wantR wantP : Bool) : Res (Level α) := do
  Res.check (composite = false) .unsupported
  let (coarse, rf) ← cloneOper rs rc bc fine
  if wantR = true ∨ wantP = true then do
    let (r, m) ← levelMult rs eps rf pm
    let rs' := Function.update rs ρ (unsignedCopy (rs r))
    let (R, P) ← levelOpers rs' bc.nc r ρ rc μ bcf wantR wantP
    let coarse ← runOn checkReady coarse
    .ok ⟨coarse, R, P, rs', some m⟩
  else do
    let coarse ← runOn checkReady coarse
    .ok ⟨coarse, Option.none, Option.none, rs, Option.none⟩

end

end Operator
end Verif
