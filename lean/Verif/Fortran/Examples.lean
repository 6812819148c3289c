import Verif.Fortran.Props

/-!
# C59: cases that meet the hypotheses, and programs for which handles fail
-/

namespace Verif
namespace Fortran

/-- Read a result, for evaluation. -/
def okD {A : Type} (d : A) : Res A → A
  | .ok a => a
  | _ => d

/-- Two vectors `10` and `20`. -/
def ft1 : Tbl Nat := (okD (Tbl.empty, none) (Tbl.empty.create (.ok 10))).1
def ft2 : Tbl Nat := (okD (Tbl.empty, none) (ft1.create (.ok 20))).1

/-- A program with two vectors. -/
theorem ft2_reach : Reach ft2 (Function.update (Function.update (fun _ => 0) 0 0) 1 1)
    (Function.update (Function.update (fun _ => none) 0 (some 10)) 1 (some 20)) := by
  refine Reach.create 1 20 (Reach.create 0 10 (Reach.start _) (T' := ft1) ?_) ?_
  · rfl
  · rfl

/-- It meets the hypotheses of the theorems. -/
example : ft2.lookup 0 = .ok (.obj 10) ∧ ft2.lookup 1 = .ok (.obj 20) :=
  ⟨C59_designates_partial ft2_reach (by decide), C59_designates_partial ft2_reach (by decide)⟩

example : ∃ T', ft2.destroy 0 true = .ok (T', fnull, true) ∧ T'.lookup 1 = .ok (.obj 20) := by
  obtain ⟨T', h1, h2, _⟩ := C59_destroy ft2_reach (i := 0) (o := 10) (by decide)
  exact ⟨T', h1, h2 1 20 (by decide) (by decide)⟩

/-- Three operators beside two. -/
example : ∃ T', ft2.create3 1 2 3 = .ok (T', 2, 3, 4) := by
  obtain ⟨T', h, _⟩ := create3_ok ft2_reach.inv 1 2 3
  exact ⟨T', h⟩

/-- The history goes on: destroy both, and the table is free again. -/
example : ∃ T1 T2, ft2.destroy 0 true = .ok (T1, fnull, true) ∧ T1.destroy 1 true = .ok (T2, fnull, true) ∧ T2 = Tbl.empty :=
  ⟨_, _, rfl, rfl, rfl⟩

/-- A copy of a handle that was already destroyed is destroyed as well, which does nothing in C: the second destruction frees
the table while the other vector exists, and its handle reads freed memory. -/
theorem C59_copy_witness : ∃ T1 T2, ft2.destroy 0 true = .ok (T1, fnull, true) ∧ T1.destroy 0 true = .ok (T2, fnull, true) ∧
    T1.lookup 1 = .ok (.obj 20) ∧ T2.lookup 1 = .ub := ⟨_, _, rfl, rfl, rfl, rfl⟩

/-- `FORTRAN_VECTOR_NONE` is known to `CeedOperatorApply` and to `CeedOperatorSetField`, but `CeedOperatorApplyAdd` reads the
table at `-6`. -/
theorem C59_apply_add_witness : ft2.vecApply fnone = .ok .none ∧ ft2.vecApplyAdd fnone = .ub := ⟨rfl, rfl⟩

/-- A Fortran string of 1024 characters is written past the end of the array. -/
theorem C59_string_witness : fixString ⟨1024, fun _ => 65⟩ = .ub := rfl

example : fixString (Buf.ofList [47, 99, 112, 117]) = .ok [47, 99, 112, 117] := by decide +kernel

/-- If the creation of the first QFunction fails, a pointer that was never initialized is used. -/
theorem C59_interior_witness : createInterior (Tbl.empty : Tbl Nat) (.fail none) true = .ub := rfl

/-- With a context, an error in the Fortran function is lost. -/
theorem C59_stub_witness : stub none 7 = 7 ∧ stub (some (0, 0)) 7 = 0 := ⟨rfl, rfl⟩

/-- If the program destroys its handle of the context, which the C interface allows, the next evaluation uses freed memory. -/
theorem C59_context_witness : ∃ w1 w2, Ctx.set ⟨fun _ => 1, none⟩ 0 = .ok w1 ∧ w1.destroy 0 = .ok w2 ∧ w1.eval = .ok (some 0) ∧
    w2.eval = .ub := ⟨_, _, rfl, rfl, rfl, rfl⟩

end Fortran
end Verif
