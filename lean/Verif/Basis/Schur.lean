import Verif.Basis.QR

/-!
# Symmetric Schur decomposition and simultaneous diagonalisation

Models `interface/ceed-basis.c` 129-146, 1220-1343 and 1364-1427, with the conventions of `Verif.Basis.QR`: arithmetic is exact, a division
by zero is the outcome `ub`; so is the square root of a negative number, which is not-a-number in C. `CEED_EPSILON` is the parameter `tol`.
Integers do not overflow (`n * n * n * n` does for `n > 215`).
-/

namespace Verif
namespace Basis

open Restriction (TMode)

variable {K : Type} [Field K] [LinearOrder K]

/-- `CeedGivensRotation`, lines 129-146. -/
def givens (A : Buf K) (c s : K) (tm : TMode) (i k m n : Nat) : Res (Buf K) :=
  let sj := if tm = .noTranspose then n else 1
  let sik := if tm = .noTranspose then 1 else m
  let its := if tm = .noTranspose then m else n
  loop its (fun j A => do
    let t1 ← A.rd (i * sik + j * sj)
    let t2 ← A.rd (k * sik + j * sj)
    let A ← A.wr (i * sik + j * sj) (c * t1 - s * t2)
    A.wr (k * sik + j * sj) (s * t1 + c * t2)) A

/-- `copysign(x, y)` for `x ≥ 0`; the sign of a zero is not represented. -/
def csign (x y : K) : K := if 0 ≤ y then x else -x

/-- Variables of the reduction to tridiagonal form: `mat_T`, `v`, `tau`. -/
structure Tri (K : Type) where
  T : Buf K
  v : Buf K
  tau : Buf K

/-- Lines 1236-1240: column `i` below the diagonal, and the sum of squares of all but its first entry. -/
def triColumn (T : Buf K) (n i : Nat) (v : Buf K) : Res (Buf K × K) := do
  let x ← T.rd (i + n * (i + 1))
  let v ← v.wr i x
  loop (n - 1 - (i + 1)) (fun j' (s : Buf K × K) => do
    let y ← T.rd (i + n * (i + 1 + j' + 1))
    let v ← s.1.wr (i + 1 + j') y
    .ok (v, s.2 + y * y)) (v, 0)

/-- Line 1249: scale the Householder vector. -/
def triScale (n i : Nat) (v : Buf K) : Res (Buf K) :=
  loop (n - 1 - (i + 1)) (fun j' v => do
    let x ← v.rd (i + 1 + j')
    let y ← v.rd i
    let z ← fdiv x y
    v.wr (i + 1 + j') z) v

/-- Lines 1252-1255: the entries that become zero. -/
def triZero (n i : Nat) (T : Buf K) : Res (Buf K) :=
  loop (n - (i + 2)) (fun j' T => do
    let T ← T.wr (i + n * (i + 2 + j')) 0
    T.wr (i + 2 + j' + n * i) 0) T

/-- Lines 1261-1265: save the Householder vector. -/
def triSave (n i : Nat) (v : Buf K) (R : K) (T : Buf K) : Res (Buf K) := do
  let T ← T.wr (i + n * (i + 1)) R
  let T ← T.wr (i + 1 + n * i) R
  loop (n - 1 - (i + 1)) (fun j' T => do
    let x ← v.rd (i + 1 + j')
    T.wr (i + n * (i + 1 + j' + 1)) x) T

/-- Line 1248: `tau[i]`. -/
def triTau (n i : Nat) (vi sigma : K) : Res K := if i = n - 2 then .ok 2 else fdiv (2 * vi * vi) (vi * vi + sigma)

/-- Lines 1232-1266: one column. -/
def triStep (sqrt : K → K) (n i : Nat) (s : Tri K) : Res (Tri K) := do
  let (v, sigma) ← triColumn s.T n i s.v
  let x ← v.rd i
  let norm := sqrt (x * x + sigma)
  let R := -(csign norm x)
  let vi := x - R
  let v ← v.wr i vi
  let t ← triTau n i vi sigma
  let tau ← s.tau.wr i t
  let v ← triScale n i v
  let T ← triZero n i s.T
  let T ← reflect T (i + 1 + n * (i + 1)) v i t (n - (i + 1)) (n - (i + 1)) n 1
  let T ← reflect T (i + 1 + n * (i + 1)) v i t (n - (i + 1)) (n - (i + 1)) 1 n
  let T ← triSave n i v R T
  .ok ⟨T, v, tau⟩

/-- Lines 1269-1277: apply reflection `i` to the matrix of eigenvectors. -/
def backStep (n i : Nat) (s : Buf K × Tri K) : Res (Buf K × Tri K) := do
  let t ← s.2.tau.rd i
  if 0 < t then do
    let v ← s.2.v.wr i 1
    let (v, T) ← loop (n - 1 - (i + 1)) (fun j' (s : Buf K × Buf K) => do
      let x ← s.2.rd (i + n * (i + 1 + j' + 1))
      let v ← s.1.wr (i + 1 + j') x
      let T ← s.2.wr (i + n * (i + 1 + j' + 1)) 0
      .ok (v, T)) (v, s.2.T)
    let mat ← reflect s.1 (i + 1 + n * (i + 1)) v i t (n - (i + 1)) (n - (i + 1)) n 1
    .ok (mat, ⟨T, v, s.2.tau⟩)
  else .ok s

/-- Lines 1287-1290 and 1291-1294: how many entries beside the diagonal, beginning with the one given by `at_ 0`, are small. The
second component tells that the loop was left by `break`. -/
def small (tol : K) (T : Buf K) (n len : Nat) (at_ : Nat → Nat) : Res (Nat × Bool) :=
  loop len (fun t (s : Nat × Bool) =>
    if s.2 then .ok s
    else do
      let x ← T.rd (at_ t + n * (at_ t + 1))
      if |x| < tol then .ok (s.1 + 1, false) else .ok (s.1, true)) (0, false)

/-- Lines 1306-1320: cosine and sine of the rotation that turns `(x, z)` to `(_, 0)`. -/
def rotation (sqrt : K → K) (tol x z : K) : Res (K × K) :=
  if tol < |z| then
    if |x| < |z| then do
      let tau ← fdiv (-x) z
      let s ← fdiv 1 (sqrt (1 + tau * tau))
      .ok (s * tau, s)
    else do
      let tau ← fdiv (-z) x
      let c ← fdiv 1 (sqrt (1 + tau * tau))
      .ok (c, c * tau)
  else .ok (1, 0)

/-- Variables of a sweep: `mat_T`, `mat`, `x`, `z`. -/
structure Sweep (K : Type) where
  T : Buf K
  mat : Buf K
  x : K
  z : K

/-- Lines 1304-1334: one rotation. -/
def sweepStep (sqrt : K → K) (tol : K) (n q k : Nat) (s : Sweep K) : Res (Sweep K) := do
  let (c, sn) ← rotation sqrt tol s.x s.z
  let T ← givens s.T c sn .noTranspose k (k + 1) n n
  let T ← givens T c sn .transpose k (k + 1) n n
  let mat ← givens s.mat c sn .noTranspose k (k + 1) n n
  if k < n - q - 2 then do
    let x ← T.rd (k + n * (k + 1))
    let z ← T.rd (k + n * (k + 2))
    .ok ⟨T, mat, x, z⟩
  else .ok ⟨T, mat, s.x, s.z⟩

/-- Lines 1297-1335: one sweep over the rows `p` to `n - q - 1`, with the shift of lines 1298-1302. -/
def qrSweep (sqrt : K → K) (tol : K) (n p q : Nat) (T mat : Buf K) : Res (Buf K × Buf K) := do
  let tnn ← T.rd (n - 1 - q + n * (n - 1 - q))
  let tnm ← T.rd (n - 2 - q + n * (n - 1 - q))
  let tmm ← T.rd (n - 2 - q + n * (n - 2 - q))
  let d ← fdiv (tmm - tnn) 2
  let f ← fdiv (tnm * tnm) (d + csign (sqrt (d * d + tnm * tnm)) d)
  let tpp ← T.rd (p + n * p)
  let z ← T.rd (p + n * (p + 1))
  let s ← loop (n - q - 1 - p) (fun k' s => sweepStep sqrt tol n q (p + k') s) ⟨T, mat, tpp - (tnn - f), z⟩
  .ok (s.T, s.mat)

/-- Lines 1283-1337: at most `fuel` more sweeps; the last component tells that the loop was left by `break`. -/
def schurLoop (sqrt : K → K) (tol : K) (n : Nat) : Nat → Buf K → Buf K → Res (Buf K × Buf K × Bool)
  | 0, T, mat => .ok (T, mat, false)
  | fuel + 1, T, mat => do
    let (q, _) ← small tol T n (n - 1) (fun t => n - 2 - t)
    let (p, _) ← small tol T n (n - q - 1) (fun t => t)
    if q = n - 1 then .ok (T, mat, true)
    else do
      let (T, mat) ← qrSweep sqrt tol n p q T mat
      schurLoop sqrt tol n fuel T mat

/-- Lines 1228-1231: the identity. -/
def identityIn (n : Nat) (mat : Buf K) : Res (Buf K) :=
  loop n (fun i mat => loop n (fun j mat => mat.wr (j + n * i) (if i = j then 1 else 0)) mat) mat

/-- `CeedSymmetricSchurDecomposition`, lines 1220-1343; `v0` and `t0` are the uninitialised arrays `v` and `tau`. -/
def schur (sqrt : K → K) (tol : K) (v0 t0 : Nat → K) (mat lam : Buf K) (n : Nat) : Res (Buf K × Buf K) := do
  Res.check (1 < n) .unsupported
  let T ← Restriction.copyIn mat (n * n)
  let mat ← identityIn n mat
  let s ← loop (n - 1) (triStep sqrt n) ⟨T, ⟨n - 1, v0⟩, ⟨n - 1, t0⟩⟩
  let (mat, s) ← loop (n - 1) (fun t s => backStep n (n - 2 - t) s) (mat, s)
  let (T, mat, done) ← schurLoop sqrt tol n (n * n * n * n) s.T mat
  let lam ← loop n (fun i lam => do
    let x ← T.rd (i + n * i)
    lam.wr i x) lam
  Res.check (done = true) .minor
  .ok (mat, lam)

/-- Lines 1379-1386 and 1409-1416: sort the eigenvalues by magnitude, exchanging the columns with them. -/
def sortEig (n : Nat) (lam mat : Buf K) : Res (Buf K × Buf K) :=
  loop n (fun i' s => loop (n - 1 - i') (fun j (s : Buf K × Buf K) => do
    let x ← s.1.rd j
    let y ← s.1.rd (j + 1)
    if |y| < |x| then do
      let lam ← s.1.wr j y
      let lam ← lam.wr (j + 1) x
      let mat ← loop n (fun k mat => do
        let a ← mat.rd (k * n + j)
        let b ← mat.rd (k * n + j + 1)
        let mat ← mat.wr (k * n + j) b
        mat.wr (k * n + j + 1) a) s.2
      .ok (lam, mat)
    else .ok s) s) (lam, mat)

/-- `sqrt(x)`, undefined for negative `x`. -/
def fsqrt (sqrt : K → K) (x : K) : Res K := if x < 0 then .ub else .ok (sqrt x)

/-- Lines 1391: `D = D^-1/2`. -/
def rootD (sqrt : K → K) (n : Nat) (D : Buf K) : Res (Buf K) :=
  loop n (fun i D => do
    let x ← D.rd i
    let y ← fsqrt sqrt x
    let z ← fdiv 1 y
    D.wr i z) D

/-- Lines 1394-1399: `G = G D^-1/2` and `C = D^-1/2 G^T`. -/
def scaleG (n : Nat) (D G C : Buf K) : Res (Buf K × Buf K) :=
  loop n (fun i s => loop n (fun j (s : Buf K × Buf K) => do
    let g ← s.1.rd (i * n + j)
    let d ← D.rd j
    let G ← s.1.wr (i * n + j) (g * d)
    let g ← G.rd (i * n + j)
    let C ← s.2.wr (j * n + i) g
    .ok (G, C)) s) (G, C)

/-- `CeedSimultaneousDiagonalization`, lines 1364-1427. -/
def simDiag (sqrt : K → K) (tol : K) (v0 t0 v1 t1 : Nat → K) (A B X lam : Buf K) (n : Nat) : Res (Buf K × Buf K) := do
  let G ← Restriction.copyIn B (n * n)
  let (G, D) ← schur sqrt tol v0 t0 G ⟨n, fun _ => 0⟩ n
  let (D, G) ← sortEig n D G
  let D ← rootD sqrt n D
  let (G, C) ← scaleG n D G ⟨n * n, fun _ => 0⟩
  let X ← matmul C A X n n n
  let C ← matmul X G C n n n
  let (C, lam) ← schur sqrt tol v1 t1 C lam n
  let (lam, C) ← sortEig n lam C
  let X ← matmul G C X n n n
  .ok (X, lam)

end Basis
end Verif
