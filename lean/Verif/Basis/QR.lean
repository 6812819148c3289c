import Verif.Basis.Model
import Mathlib.Algebra.Order.Field.Basic

/-!
# Dense linear algebra: QR factorisation and pseudoinverse

Models `interface/ceed-basis.c` 99-108, 703-724, 1066-1076, 1091-1205. Scalars are an ordered field with a square root function;
arithmetic is exact. A division by zero, which gives an infinity or not-a-number in C, is the outcome `ub`, so that success means
that none occurs.
-/

namespace Verif
namespace Basis

open Restriction (TMode)

variable {K : Type} [Field K] [LinearOrder K]

/-- `x / y`, undefined for `y = 0`. -/
def fdiv (x y : K) : Res K := if y = 0 then .ub else .ok (x / y)

/-- `CeedHouseholderReflect`, lines 99-108, on the pointers `A + off` and `v + vo`. -/
def reflect (A : Buf K) (off : Nat) (v : Buf K) (vo : Nat) (b : K) (m n row col : Nat) : Res (Buf K) :=
  loop n (fun j A => do
    let w ← A.rd (off + (0 * row + j * col))
    let w ← loop (m - 1) (fun i' w => do
      let x ← v.rd (vo + (i' + 1))
      let y ← A.rd (off + ((i' + 1) * row + j * col))
      .ok (w + x * y)) w
    let x ← A.rd (off + (0 * row + j * col))
    let A ← A.wr (off + (0 * row + j * col)) (x - b * w)
    loop (m - 1) (fun i' A => do
      let x ← v.rd (vo + (i' + 1))
      let y ← A.rd (off + ((i' + 1) * row + j * col))
      A.wr (off + ((i' + 1) * row + j * col)) (y - b * w * x)) A) A

/-- `CeedMatrixMatrixMultiply`, lines 1066-1076. -/
def matmul (A B C : Buf K) (m n kk : Nat) : Res (Buf K) :=
  loop m (fun i C => loop n (fun j C => do
    let s ← loop kk (fun k s => do
      let x ← A.rd (k + i * kk)
      let y ← B.rd (j + k * n)
      .ok (s + x * y)) 0
    C.wr (j + i * n) s) C) C

/-- Variables of `CeedQRFactorization`: `mat`, `tau`, `v`, and whether the loop has been left by `break` (line 1102). -/
structure QR (K : Type) where
  mat : Buf K
  tau : Buf K
  v : Buf K
  stop : Bool

/-- Lines 1105-1109: copy column `i` below the diagonal, and its sum of squares. -/
def qrColumn (mat : Buf K) (m n i : Nat) (v : Buf K) : Res (Buf K × K) := do
  let x ← mat.rd (i + n * i)
  let v ← v.wr i x
  loop (m - (i + 1)) (fun j' (s : Buf K × K) => do
    let y ← mat.rd (i + n * (i + 1 + j'))
    let v ← s.1.wr (i + 1 + j') y
    .ok (v, s.2 + y * y)) (v, 0)

/-- Line 1118: scale the Householder vector. -/
def qrScale (m i : Nat) (v : Buf K) : Res (Buf K) :=
  loop (m - (i + 1)) (fun j' v => do
    let x ← v.rd (i + 1 + j')
    let y ← v.rd i
    let z ← fdiv x y
    v.wr (i + 1 + j') z) v

/-- Lines 1123-1124: save the Householder vector. -/
def qrSave (m n i : Nat) (v : Buf K) (Rii : K) (mat : Buf K) : Res (Buf K) := do
  let mat ← mat.wr (i + n * i) Rii
  loop (m - (i + 1)) (fun j' mat => do
    let x ← v.rd (i + 1 + j')
    mat.wr (i + n * (i + 1 + j')) x) mat

/-- Lines 1097-1125: one column. `copysign(norm, x)` is `norm` for `x = 0` (the sign of a zero is not represented). -/
def qrStep (sqrt : K → K) (m n i : Nat) (s : QR K) : Res (QR K) :=
  if s.stop then .ok s
  else if m ≤ i + 1 then do
    let tau ← s.tau.wr i 0
    .ok ⟨s.mat, tau, s.v, true⟩
  else do
    let (v, sigma) ← qrColumn s.mat m n i s.v
    let x ← v.rd i
    let norm := sqrt (x * x + sigma)
    let Rii := -(if 0 ≤ x then norm else -norm)
    let vi := x - Rii
    let v ← v.wr i vi
    let t ← fdiv (2 * vi * vi) (vi * vi + sigma)
    let tau ← s.tau.wr i t
    let v ← qrScale m i v
    let mat ← reflect s.mat (i * n + i + 1) v i t (m - i) (n - i - 1) n 1
    let mat ← qrSave m n i v Rii mat
    .ok ⟨mat, tau, v, false⟩

/-- `CeedQRFactorization`, lines 1091-1127; `v0` is the uninitialised local array `v` of `m` entries. -/
def qrFactor (sqrt : K → K) (v0 : Nat → K) (mat tau : Buf K) (m n : Nat) : Res (Buf K × Buf K) := do
  Res.check (n ≤ m) .unsupported
  let s ← loop n (qrStep sqrt m n) ⟨mat, tau, ⟨m, v0⟩, false⟩
  .ok (s.mat, s.tau)

/-- `CeedHouseholderApplyQ`, lines 1148-1161; `v0` is the uninitialised array `v`. -/
def applyQ (v0 : Nat → K) (A matQ tau : Buf K) (tm : TMode) (m n k row col : Nat) : Res (Buf K) := do
  let s ← loop k (fun ii (s : Buf K × Buf K) => do
    let i := if tm = .transpose then ii else k - 1 - ii
    let v ← loop (m - (i + 1)) (fun j' v => do
      let x ← matQ.rd ((i + 1 + j') * k + i)
      v.wr (i + 1 + j') x) s.2
    let t ← tau.rd i
    let A ← reflect s.1 (i * row) v i t (m - i) n row col
    .ok (A, v)) (A, ⟨m, v0⟩)
  .ok s.1

/-- Lines 1192-1199: column `j` of the back substitution, rows `n - 2` to `0`. -/
def backCol (I R : Buf K) (m n j : Nat) (p : Buf K) : Res (Buf K) := do
  let x ← I.rd (j + m * (n - 1))
  let y ← R.rd (n * n - 1)
  let z ← fdiv x y
  let p ← p.wr (j + m * (n - 1)) z
  loop (n - 1) (fun t p => do
    let i := n - 2 - t
    let x ← I.rd (j + m * i)
    let p ← p.wr (j + m * i) x
    let p ← loop (n - (i + 1)) (fun k' p => do
      let k := i + 1 + k'
      let x ← p.rd (j + m * i)
      let r ← R.rd (k + n * i)
      let y ← p.rd (j + m * k)
      p.wr (j + m * i) (x - r * y)) p
    let x ← p.rd (j + m * i)
    let r ← R.rd (i + n * i)
    let z ← fdiv x r
    p.wr (j + m * i) z) p

/-- `CeedMatrixPseudoinverse`, lines 1176-1205, for `n > 0` (for `n = 0` the index `n - 1` is negative). -/
def pseudoinverse (sqrt : K → K) (v0 v1 : Nat → K) (mat : Buf K) (m n : Nat) (pinv : Buf K) : Res (Buf K) := do
  let copy ← Restriction.copyIn mat (m * n)
  let (R, tau) ← qrFactor sqrt v0 copy ⟨m, fun _ => 0⟩ m n
  let I ← loop m (fun i (I : Buf K) => I.wr (i * m + i) 1) ⟨m * m, fun _ => 0⟩
  let I ← applyQ v1 I R tau .transpose m m n m 1
  if n = 0 then .ub else loop m (fun j p => backCol I R m n j p) pinv

/-- `CeedBasisGetCollocatedGrad`, lines 703-724. -/
def collocatedGrad (sqrt : K → K) (v0 v1 : Nat → K) (P1 Q1 : Nat) (interp1 grad1 : Buf K) : Res (Buf K) := do
  let p ← pseudoinverse sqrt v0 v1 interp1 Q1 P1 ⟨P1 * Q1, fun _ => 0⟩
  matmul grad1 p ⟨Q1 * Q1, fun _ => 0⟩ Q1 Q1 P1

end Basis
end Verif
