import Verif.Operator.Assemble

/-!
# Operators: data for the assembly of diagonals and matrices

Models `CeedOperatorAssemblyData` of `interface/ceed-preconditioning.c` and the selection of basis matrices.
-/

namespace Verif
namespace Operator

open Basis (Bas EMode)

variable {α : Type _} [CommRing α]

/-- What assembly uses of an operator besides `Oper`: the basis objects of the fields, numbered so that the comparison of
pointers can be modelled (`none` is `CEED_BASIS_NONE`), and the lengths of the active vectors (`input_size`,
`output_size`, `include/ceed-impl.h`). -/
structure Prec (α : Type _) where
  inB : Nat → Option Nat
  outB : Nat → Option Nat
  bas : Nat → Bas α
  inSize : Int
  outSize : Int

/-- `CeedBasisGetNumComponents`; `CEED_BASIS_NONE` is a static object filled with zeros (`interface/ceed-basis.c` 20-27,
1941-1944). -/
def Prec.nc (p : Prec α) : Option Nat → Nat
  | some b => (p.bas b).nc
  | none => 0

/-- `CeedBasisGetNumNodes`, `interface/ceed-basis.c` 1956-1959. -/
def Prec.P (p : Prec α) : Option Nat → Nat
  | some b => (p.bas b).P
  | none => 0

/-- Line 299: quadrature points of a basis; `CEED_BASIS_NONE` has as many as nodes. -/
def Prec.Q (p : Prec α) : Option Nat → Nat
  | some b => (p.bas b).Q
  | none => 0

/-- `CeedBasisGetNumQuadratureComponents` (`interface/ceed-basis.c` 841-867); for `CEED_BASIS_NONE` the mode is
`CEED_EVAL_NONE`. -/
def Prec.qComp (p : Prec α) : Option Nat → EMode → Nat
  | some b, m => (p.bas b).qComp m
  | none, _ => 1

/-- One active basis in `CeedOperatorAssemblyData` (`include/ceed-impl.h`): the basis, the restriction of the first field
that uses it, and the evaluation modes with their offsets (`eval_modes`, `eval_mode_offsets`). -/
structure ABasis where
  bid : Option Nat
  rid : Option Nat
  modes : List (EMode × Nat)

/-- Lines 1452-1477: append the modes of a field to the entry of its basis, which is created if there is none. (The code
finds the last matching entry; entries have different bases.) -/
def addModes (bid rid : Option Nat) (new : List (EMode × Nat)) : List ABasis → List ABasis
  | [] => [⟨bid, rid, new⟩]
  | a :: as => if a.bid = bid then { a with modes := a.modes ++ new } :: as else a :: addModes bid rid new as

/-- Lines 1478-1488: `q_comp` entries, `num_comp` components apart; none for weights. -/
def newModes (p : Prec α) (bid : Option Nat) (m : EMode) (off : Nat) : List (EMode × Nat) :=
  if m = .weight then [] else (List.range (p.qComp bid m)).map (fun d => (m, off + d * p.nc bid))

/-- `interface/ceed-preconditioning.c` 1436-1492 and 1494-1553 `CeedOperatorAssemblyDataCreate`, the first `n` fields `f`
with basis objects `ids`: the active bases and the number of components. -/
def asmData (p : Prec α) (f : Nat → OField α) (ids : Nat → Option Nat) : Nat → List ABasis × Nat
  | 0 => ([], 0)
  | n + 1 =>
    let s := asmData p f ids n
    if (f n).vec = .active then
      let new := newModes p (ids n) (f n).mode s.2
      (addModes (ids n) (f n).rid new s.1, s.2 + new.length * p.nc (ids n))
    else s

/-- The variables `d_in`, `eval_mode_in_prev` (lines 322-345 and 1643-1660): for modes with several components, successive
entries of the same mode use successive parts of the matrix. `prev = none` is the first entry. -/
def dirs (qc : EMode → Nat) : Option EMode → Nat → List (EMode × Nat) → List (EMode × Nat × Nat)
  | _, _, [] => []
  | prev, d, (m, o) :: l =>
    if 1 < qc m then
      let d' := if prev = some m then d + 1 else 0
      (m, o, d') :: dirs qc (some m) d' l
    else (m, o, 0) :: dirs qc (some m) d l

/-- Lines 308-311 and 1637-1642: the matrix used for `CEED_EVAL_NONE`. (The code fills it in a loop.) -/
def ident (P Q : Nat) : Buf α := ⟨Q * P, fun x => if x / P = x % P then 1 else 0⟩

/-- `interface/ceed-preconditioning.c` 1105-1138 `CeedOperatorGetBasisPointer`. A null pointer is read later. -/
def basisPtr (p : Prec α) (bid : Option Nat) (m : EMode) (identity : Buf α) : Res (Buf α) :=
  match m, bid with
  | .none, _ => .ok identity
  | .interp, some b => Basis.getInterp (p.bas b) >>= Basis.deref
  | .grad, some b => Basis.getGrad (p.bas b) >>= Basis.deref
  | .div, some b => Basis.deref (p.bas b).div
  | .curl, some b => Basis.deref (p.bas b).curl
  | _, _ => .ub

/-- `for` over the entries of an array. -/
def loopL {β σ : Type _} (l : List β) (body : β → σ → Res σ) (s : σ) : Res σ :=
  match l with
  | [] => .ok s
  | x :: xs => do
    let s ← body x s
    loopL xs body s

/-- The same for functions of the state. -/
def forEach {β σ : Type _} (l : List β) (body : β → M σ Unit) : M σ Unit :=
  match l with
  | [] => pure ()
  | x :: xs => do
    body x
    forEach xs body

/-- Entry of the assembled QFunction: `assembled_qf_array[q * layout[0] + c * layout[1] + e * layout[2]]` with the layout
`{1, Q, Q * szIn * szOut}` of the strided restriction created with the vector (`ceed-ref-operator.c` 545-550,
`ceed-ref-restriction.c` 737-741). -/
def qfAt (D : Buf α) (Q sz q c e : Nat) : Res α := D.rd (q + c * Q + e * (Q * sz))

end Operator
end Verif
