import Verif.Gpu.AsmQFProps
import Verif.Gpu.OperExamples

/-!
# C73: concrete runs and disagreements
-/

namespace Verif.Gpu

open Verif.Operator (VPtr FVec LVec Meaning)

/-- A new operator. -/
def qStart : QSt Int where
  st := gStart
  act := []
  nOut := 0
  freed := fun _ => false
  built := none
  reuse := false
  needs := false
  arr := ⟨0, fun _ => 7⟩
  pos := 0
  dst := fun _ => none

/-- The assembled vector. -/
def qResult (x : Out (QSt Int) (Buf Int)) : Option (List Int) :=
  match x with
  | .ok _ b => some b.toList
  | _ => none

/-- The error of a call. -/
def qErr {β : Type} (x : Out (QSt Int) β) : Option Err :=
  match x with
  | .err _ e => some e
  | _ => none

/-- Undefined behaviour. -/
def qUb {β : Type} (x : Out (QSt Int) β) : Bool :=
  match x with
  | .ub => true
  | _ => false

/-- Columns of values and of gradients; in each, the outputs of values and of gradients, for both elements. -/
example : qResult (assembleQFG gOp (execDev twoDevice) qStart) = some [3, 30, 0, 0, 0, 0, 1, 10] := by decide +kernel

/-- Twice, with other quadrature data. -/
noncomputable def qTwice : M (QSt Int) (Buf Int) := do
  let _ ← assembleQFG gOp (execDev twoDevice)
  modQ (fun s => { s with st := { s.st with vecs := Function.update s.st.vecs 2 ⟨4, true, Buf.ofList [0, 1]⟩ } })
  assembleQFG gOp (execDev twoDevice)

example : qResult (qTwice qStart) = some [0, 3, 0, 0, 0, 0, 0, 1] := by decide +kernel

/-- Apply, assemble, apply, assemble; with two active components the second assembly is right. -/
noncomputable def qMixed (op : GOper Int) : M (QSt Int) (Buf Int) := do
  applyQ op (execDev twoDevice) gWork (.vec 0) (.vec 1)
  let _ ← assembleQFG op (execDev twoDevice)
  applyQ op (execDev twoDevice) gWork (.vec 0) (.vec 1)
  assembleQFG op (execDev twoDevice)

example : qResult (qMixed gOp qStart) = some [3, 30, 0, 0, 0, 0, 1, 10] := by decide +kernel

/-- Built once and kept, then built again on request. -/
noncomputable def qKept (again : Bool) : M (QSt Int) (Buf Int) := do
  setReuseG true
  let _ ← buildOrUpdateG gOp (execDev twoDevice)
  modQ (fun s => { s with st := { s.st with vecs := Function.update s.st.vecs 2 ⟨4, true, Buf.ofList [0, 1]⟩ } })
  if again then setNeedsG true else pure ()
  buildOrUpdateG gOp (execDev twoDevice)

example : qResult (qKept false qStart) = some [3, 30, 0, 0, 0, 0, 1, 10] ∧
    qResult (qKept true qStart) = some [0, 3, 0, 0, 0, 0, 0, 1] := by decide +kernel

theorem qStart_unassembled (op : GOper Int) (D : Dev Int) : QUnassembled op D qStart := by
  refine .start _ rfl (fun i => ?_) rfl rfl rfl fun _ => rfl
  match i with
  | 0 => intro h; cases h
  | 1 => intro h; cases h
  | 2 => intro h; cases h
  | 3 => intro h; cases h
  | n + 4 => intro _; rfl

/-- The hypotheses of the theorems are met. -/
example : GOK twoDevice gOp gM ∧ (execDev twoDevice).Real twoDevice ∧ Assemblable gOp ∧ BasisActive gOp ∧ gOp.host.cIn ≤ 2 ∧
    QReach gOp (execDev twoDevice) qStart ∧ QUnassembled gOp (execDev twoDevice) qStart ∧
    QNoApply gOp (execDev twoDevice) qStart qStart ∧ PassiveReadyG gOp qStart.st ∧ qStart.built = none := by
  refine ⟨gOp_ok (by decide), execDev_real _, ⟨by decide, by decide, by decide⟩, ?_, by decide, (qStart_unassembled _ _).reach.1,
    qStart_unassembled _ _, .refl _, ?_, rfl⟩
  · have : ∀ i < 4, (gOp.inp i).vec = .active → (gOp.inp i).mode ≠ .none := by decide +kernel
    exact this
  · intro i hi hw hna
    have hi' : i < 4 := hi
    rcases (by omega : i = 0 ∨ i = 1 ∨ i = 2 ∨ i = 3) with rfl | rfl | rfl | rfl
    · exact ⟨1, 2, rfl, rfl, rfl, by decide⟩
    · exact absurd rfl hw
    · exact absurd rfl hna
    · exact absurd rfl hna

/-- Three active inputs with basis, of which the first is weighted by 1, the second by 10, the third by 100. -/
def triOp : GOper Int where
  ne := 2
  Q := 1
  nin := 3
  nout := 1
  inp := fun _ => fNodes .active
  out := fun _ => fNodes .active
  rstrs := fun r => if r = 0 then gNodes else gData
  g := fun x _ _ => x 0 0 + 10 * x 1 0 + 100 * x 2 0

theorem triOp_ok : GOK twoDevice triOp (fM triOp) := by
  refine ⟨by decide, fun i _ => ?_, fun o _ => ?_, ?_, ?_, ?_, ?_⟩
  · exact among_in (by decide) rfl rfl rfl rfl (among_nodes (by decide)) rfl
  · exact among_out (by decide) rfl rfl rfl rfl (among_nodes (by decide)) rfl
  · exact fun i j _ _ _ _ hm => by cases hm
  · exact fun i _ _ _ _ hm => by cases hm
  · exact fun i _ j _ _ _ => rfl
  · exact fun i j k _ _ _ hm => by cases hm

/-- Three active components: after an assembly and an application, the first column of the next assembly is wrong, as the
second component still holds the values of the application (3 and 6 instead of 0): assembled values are wrong although
every call succeeds. `ceed-cuda-ref-operator.c` 1036-1041 clears only the component set before, and the arrays are set to
zero only when the vectors of components are made (line 977). -/
theorem C73_stale_witness :
    GOK twoDevice triOp (fM triOp) ∧ Assemblable triOp ∧ BasisActive triOp ∧
    qResult (assembleQFG triOp (execDev twoDevice) qStart) = some [1, 1, 10, 10, 100, 100] ∧
    qResult (qMixed triOp qStart) = some [1 + 10 * 3, 1 + 10 * 6, 10, 10, 100, 100] := by
  refine ⟨triOp_ok, ⟨by decide, by decide, by decide⟩, (fun i _ _ h => by cases h), by decide +kernel, by decide +kernel⟩

/-- An active input without basis: after an assembly and an application, the next assembly writes through a pointer to an
array that the application has freed (`ceed-cuda-ref-operator.c` 433 and 1038, `backends/cuda/ceed-cuda-common.c` 72-76). -/
theorem C73_dangling_witness :
    let op := inOp [fData .active]
    FieldsOK twoDevice op (fM op) ∧ Assemblable op ∧
    qResult (assembleQFG op (execDev twoDevice) qStart) = some [1, 1] ∧ qUb (qMixed op qStart) = true := by
  refine ⟨inOp_fields (by decide) ?_, ⟨by decide, by decide, by decide⟩, by decide +kernel, by decide +kernel⟩
  intro a ha
  simp only [List.mem_cons, List.not_mem_nil, or_false] at ha
  subst ha
  exact among_data (by decide)

/-- Without elements there is nothing to assemble, yet the assembly fails, while an application succeeds. -/
theorem C73_empty_witness :
    qErr (assembleQFG { outOp [fNodes .active] with ne := 0 } (execDev twoDevice) qStart) = some .backend ∧
    gResult (applyAddG { outOp [fNodes .active] with ne := 0 } (execDev twoDevice) gWork (.vec 0) (.vec 1) gStart) 1 =
      some [100, 200, 300] := by decide +kernel

/-- Without active outputs there is nothing to assemble either. -/
example : qErr (assembleQFG (outOp []) (execDev twoDevice) qStart) = some .backend := by decide +kernel

end Verif.Gpu
