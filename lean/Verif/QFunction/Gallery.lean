import Verif.Basic
import Verif.Ceed.Init
import Mathlib.Algebra.Field.Defs

/-!
# The gallery of QFunctions

`CeedQFunctionRegister`, `CeedQFunctionCreateInteriorByName`, and the user functions of the gallery
(`include/ceed/jit-source/gallery`). A user function reads its input arrays and writes its output array with checked
indices; `[d][c][i]` of the C arrays is entry `(d * nc + c) * Q + i`.
-/

namespace Verif.QFunction

/-! ### Lookup by name -/

/-- Rows of `gallery_qfunctions`: `interface/ceed-qfunction.c` 34-40 (name and user function). -/
structure Entry (ι : Type) where
  name : List Char
  f : ι

/-- `CeedQFunctionRegister`: `interface/ceed-qfunction.c` 64-87; the table has 1024 rows, names are cut to 1023
characters. -/
def registerQF {ι : Type} (name : List Char) (f : ι) : M (List (Entry ι)) Unit := fun t =>
  if t.length < 1024 then .ok (t ++ [⟨name.take 1023, f⟩]) () else .err t .major

/-- The search loop: `interface/ceed-qfunction.c` 681-690; `best` is `match_len` and `match_index`. -/
def scanQF {ι : Type} (name : List Char) : List (Entry ι) → Nat → Nat × Nat → Nat × Nat
  | [], _, best => best
  | e :: t, i, best =>
    scanQF name t (i + 1) (if best.1 < Ceed.matchLen e.name name then (Ceed.matchLen e.name name, i) else best)

/-- `CeedQFunctionCreateInteriorByName`: `interface/ceed-qfunction.c` 675-704. The `init` function of every gallery
QFunction compares its name with the requested one first (for example `gallery/mass/ceed-massapply.c` 18-19). The
result is the user function. A `NULL` name is `none`. -/
def byName {ι : Type} (t : List (Entry ι)) : Option (List Char) → Res ι
  | none => .err .incomplete
  | some name =>
    let best := scanQF name t 0 (0, 4294967295)
    if 0 < best.1 then
      match t[best.2]? with
      | none => .ub
      | some e => if e.name = name then .ok e.f else .err .unsupported
    else .err .unsupported

/-- The names registered by `gallery/ceed-gallery-list.h` 15-30, in that order. -/
def galleryNames : List String :=
  ["Identity", "Mass1DBuild", "Mass2DBuild", "Mass3DBuild", "MassApply", "Vector3MassApply", "Poisson1DApply",
   "Poisson1DBuild", "Poisson2DApply", "Poisson2DBuild", "Poisson3DApply", "Poisson3DBuild", "Vector3Poisson1DApply",
   "Vector3Poisson2DApply", "Vector3Poisson3DApply", "Scale"]

/-- The table after `CeedQFunctionRegisterAll`, with the names standing for the user functions. -/
def gallery : List (Entry String) := galleryNames.map fun s => ⟨s.toList, s⟩

/-! ### User functions -/

section
variable {α : Type} [Field α]

/-- `Identity`: `ceed-identity.h` 17-31. -/
def identityK (size Q : Nat) (input output : Buf α) : Res (Buf α) :=
  loop (Q * size) (fun i v => do v.wr i (← input.rd i)) output

/-- `Scale`: `ceed-scale.h` 13-27. -/
def scaleK (size Q : Nat) (input scale output : Buf α) : Res (Buf α) :=
  loop (Q * size) (fun i v => do v.wr i ((← input.rd i) * (← scale.rd i))) output

/-- `Mass1DBuild`: `ceed-mass1dbuild.h` 13-24. -/
def mass1DBuild (Q : Nat) (J w q : Buf α) : Res (Buf α) :=
  loop Q (fun i v => do v.wr i ((← J.rd i) * (← w.rd i))) q

/-- `Mass2DBuild`: `ceed-mass2dbuild.h` 13-26. -/
def mass2DBuild (Q : Nat) (J w q : Buf α) : Res (Buf α) :=
  loop Q (fun i v => do
    v.wr i (((← J.rd ((0 * 2 + 0) * Q + i)) * (← J.rd ((1 * 2 + 1) * Q + i)) -
             (← J.rd ((0 * 2 + 1) * Q + i)) * (← J.rd ((1 * 2 + 0) * Q + i))) * (← w.rd i))) q

/-- `Mass3DBuild`: `ceed-mass3dbuild.h` 13-28. -/
def mass3DBuild (Q : Nat) (J w q : Buf α) : Res (Buf α) :=
  loop Q (fun i v => do
    let j00 ← J.rd ((0 * 3 + 0) * Q + i)
    let j01 ← J.rd ((0 * 3 + 1) * Q + i)
    let j02 ← J.rd ((0 * 3 + 2) * Q + i)
    let j10 ← J.rd ((1 * 3 + 0) * Q + i)
    let j11 ← J.rd ((1 * 3 + 1) * Q + i)
    let j12 ← J.rd ((1 * 3 + 2) * Q + i)
    let j20 ← J.rd ((2 * 3 + 0) * Q + i)
    let j21 ← J.rd ((2 * 3 + 1) * Q + i)
    let j22 ← J.rd ((2 * 3 + 2) * Q + i)
    v.wr i ((j00 * (j11 * j22 - j12 * j21) - j01 * (j10 * j22 - j12 * j20) + j02 * (j10 * j21 - j11 * j20)) *
      (← w.rd i))) q

/-- `MassApply`: `ceed-massapply.h` 13-24. -/
def massApply (Q : Nat) (u q v : Buf α) : Res (Buf α) :=
  loop Q (fun i v => do v.wr i ((← u.rd i) * (← q.rd i))) v

/-- `Vector3MassApply`: `ceed-vectormassapply.h` 13-30. -/
def vector3MassApply (Q : Nat) (u q v : Buf α) : Res (Buf α) :=
  loop Q (fun i v => loop 3 (fun c v => do v.wr (c * Q + i) ((← u.rd (c * Q + i)) * (← q.rd i))) v) v

/-- `Poisson1DBuild`: `ceed-poisson1dbuild.h` 13-28. -/
def poisson1DBuild (Q : Nat) (J w q : Buf α) : Res (Buf α) :=
  loop Q (fun i v => do v.wr i ((← w.rd i) / (← J.rd i))) q

/-- `Poisson2DBuild`: `ceed-poisson2dbuild.h` 13-38. -/
def poisson2DBuild (Q : Nat) (J w q : Buf α) : Res (Buf α) :=
  loop Q (fun i v => do
    let j00 ← J.rd ((0 * 2 + 0) * Q + i)
    let j10 ← J.rd ((0 * 2 + 1) * Q + i)
    let j01 ← J.rd ((1 * 2 + 0) * Q + i)
    let j11 ← J.rd ((1 * 2 + 1) * Q + i)
    let qw := (← w.rd i) / (j00 * j11 - j10 * j01)
    let v ← v.wr (0 * Q + i) (qw * (j01 * j01 + j11 * j11))
    let v ← v.wr (1 * Q + i) (qw * (j00 * j00 + j10 * j10))
    v.wr (2 * Q + i) (-qw * (j00 * j01 + j10 * j11))) q

/-- An entry of the array `A`: `ceed-poisson3dbuild.h` 31-32. -/
def cofactor (Q : Nat) (J : Buf α) (i k j : Nat) : Res α := do
  let a ← J.rd ((((k + 1) % 3) * 3 + (j + 1) % 3) * Q + i)
  let b ← J.rd ((((k + 2) % 3) * 3 + (j + 2) % 3) * Q + i)
  let c ← J.rd ((((k + 2) % 3) * 3 + (j + 1) % 3) * Q + i)
  let d ← J.rd ((((k + 1) % 3) * 3 + (j + 2) % 3) * Q + i)
  pure (a * b - c * d)

/-- `Poisson3DBuild`: `ceed-poisson3dbuild.h` 13-51. -/
def poisson3DBuild (Q : Nat) (J w q : Buf α) : Res (Buf α) :=
  loop Q (fun i v => do
    let a00 ← cofactor Q J i 0 0
    let a10 ← cofactor Q J i 1 0
    let a20 ← cofactor Q J i 2 0
    let a01 ← cofactor Q J i 0 1
    let a11 ← cofactor Q J i 1 1
    let a21 ← cofactor Q J i 2 1
    let a02 ← cofactor Q J i 0 2
    let a12 ← cofactor Q J i 1 2
    let a22 ← cofactor Q J i 2 2
    let j00 ← J.rd ((0 * 3 + 0) * Q + i)
    let j01 ← J.rd ((0 * 3 + 1) * Q + i)
    let j02 ← J.rd ((0 * 3 + 2) * Q + i)
    let qw := (← w.rd i) / (j00 * a00 + j01 * a01 + j02 * a02)
    let v ← v.wr (0 * Q + i) (qw * (a00 * a00 + a01 * a01 + a02 * a02))
    let v ← v.wr (1 * Q + i) (qw * (a10 * a10 + a11 * a11 + a12 * a12))
    let v ← v.wr (2 * Q + i) (qw * (a20 * a20 + a21 * a21 + a22 * a22))
    let v ← v.wr (3 * Q + i) (qw * (a10 * a20 + a11 * a21 + a12 * a22))
    let v ← v.wr (4 * Q + i) (qw * (a00 * a20 + a01 * a21 + a02 * a22))
    v.wr (5 * Q + i) (qw * (a00 * a10 + a01 * a11 + a02 * a12))) q

/-- The position of entry `(a, b)` of the symmetric matrix in the stored data: `ceed-poisson2dapply.h` 28-31. -/
def voigt2 (a b : Nat) : Nat := if a = 0 then (if b = 0 then 0 else 2) else (if b = 0 then 2 else 1)

/-- The position of entry `(a, b)` of the symmetric matrix in the stored data: `ceed-poisson3dapply.h` 29-33. -/
def voigt3 (a b : Nat) : Nat :=
  if a = 0 then (if b = 0 then 0 else if b = 1 then 5 else 4)
  else if a = 1 then (if b = 0 then 5 else if b = 1 then 1 else 3)
  else (if b = 0 then 4 else if b = 1 then 3 else 2)

/-- `Poisson1DApply` (`ceed-poisson1dapply.h` 13-25, `nc = 1`) and `Vector3Poisson1DApply`
(`ceed-vectorpoisson1dapply.h` 13-30, `nc = 3`). -/
def poisson1DApply (nc Q : Nat) (ug q vg : Buf α) : Res (Buf α) :=
  loop Q (fun i v => loop nc (fun c v => do v.wr (c * Q + i) ((← ug.rd (c * Q + i)) * (← q.rd i))) v) vg

/-- `Poisson2DApply` (`ceed-poisson2dapply.h` 13-39, `nc = 1`) and `Vector3Poisson2DApply`
(`ceed-vectorpoisson2dapply.h` 13-40, `nc = 3`). -/
def poisson2DApply (nc Q : Nat) (ug q vg : Buf α) : Res (Buf α) :=
  loop Q (fun i v => loop 2 (fun j v => loop nc (fun c v => do
    v.wr ((j * nc + c) * Q + i)
      ((← ug.rd ((0 * nc + c) * Q + i)) * (← q.rd (voigt2 0 j * Q + i)) +
       (← ug.rd ((1 * nc + c) * Q + i)) * (← q.rd (voigt2 1 j * Q + i)))) v) v) vg

/-- `Poisson3DApply` (`ceed-poisson3dapply.h` 13-41, `nc = 1`) and `Vector3Poisson3DApply`
(`ceed-vectorpoisson3dapply.h` 13-43, `nc = 3`). -/
def poisson3DApply (nc Q : Nat) (ug q vg : Buf α) : Res (Buf α) :=
  loop Q (fun i v => loop 3 (fun j v => loop nc (fun c v => do
    v.wr ((j * nc + c) * Q + i)
      ((← ug.rd ((0 * nc + c) * Q + i)) * (← q.rd (voigt3 0 j * Q + i)) +
       (← ug.rd ((1 * nc + c) * Q + i)) * (← q.rd (voigt3 1 j * Q + i)) +
       (← ug.rd ((2 * nc + c) * Q + i)) * (← q.rd (voigt3 2 j * Q + i)))) v) v) vg

end

end Verif.QFunction
