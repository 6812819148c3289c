import Verif.Basis.QR

/-!
# Quadrature rules

Models `CeedGaussQuadrature` and `CeedLobattoQuadrature` (`interface/ceed-basis.c` 2388-2493). Scalars are exact; the values
of `cos` from which the iterations start are a parameter, as is the tolerance (`10 * CEED_EPSILON`). Division by zero is
undefined behaviour (the code computes infinities or NaNs).
-/

namespace Verif
namespace Quad

open Basis (fdiv)

variable {K : Type} [Field K] [LinearOrder K]

/-- Local variables `P0`, `P1`, `P2`. -/
structure Leg (K : Type) where
  p0 : K
  p1 : K
  p2 : K

/-- `interface/ceed-basis.c` 2397-2404, 2411-2417, 2458-2465 and 2472-2478: the recurrence for `j = 2, ..., n + 1`; `p2` is
the value of `P2` before. -/
def legLoop (xi : K) (n : Nat) (p2 : K) : Res (Leg K) :=
  loop n (fun j s => do
    let y ← fdiv ((2 * ((j : K) + 2) - 1) * xi * s.p1 - (((j : K) + 2) - 1) * s.p0) ((j : K) + 2)
    .ok ⟨s.p1, y, y⟩) ⟨1, xi, p2⟩

/-- Local variables `P2`, `dP2`, `xi`. -/
structure Newton (K : Type) where
  p : K
  d : K
  xi : K

/-- Lines 2397-2407 and 2411-2419: one step of the iteration for a Gauss point. -/
def gaussStep (Q : Int) (p2 xi : K) : Res (Newton K) := do
  let s ← legLoop xi (Q - 1).toNat p2
  let d ← fdiv ((xi * s.p2 - s.p0) * (Q : K)) (xi * xi - 1)
  let z ← fdiv s.p2 d
  .ok ⟨s.p2, d, xi - z⟩

/-- Lines 2394-2420: a Gauss point from the guess `g`. -/
def gaussPoint (tol : K) (Q : Int) (g : K) : Res (Newton K) := do
  let s ← gaussStep Q 0 g
  loop 100 (fun _ s => if tol < |s.p| then gaussStep Q s.p s.xi else .ok s) s

/-- `b[z] = v` with a signed index. -/
def wrAt (b : Buf K) (z : Int) (v : K) : Res (Buf K) := if 0 ≤ z then b.wr z.toNat v else .ub

/-- Points and weights. -/
structure Rule (K : Type) where
  x : Buf K
  w : Buf K

/-- Lines 2421-2426: store a point and its mirror image. -/
def store (Q : Int) (i : Nat) (xi wi : K) (r : Rule K) : Res (Rule K) := do
  let w ← r.w.wr i wi
  let w ← wrAt w (Q - 1 - i) wi
  let x ← r.x.wr i (-xi)
  let x ← wrAt x (Q - 1 - i) xi
  .ok ⟨x, w⟩

/-- Lines 2388-2428 `CeedGaussQuadrature`; `guess i` is the value of `cos` in line 2396, and the arrays are those of the
caller. -/
def gauss (guess : Nat → K) (tol : K) (Q : Int) (r : Rule K) : Res (Rule K) :=
  loop (Q.tdiv 2 + 1).toNat (fun i r => do
    let s ← gaussPoint tol Q (guess i)
    let wi ← fdiv 2 ((1 - s.xi * s.xi) * s.d * s.d)
    store Q i s.xi wi r) r

/-- Local variables `P2`, `dP2`, `xi` of the iteration for a Lobatto point. Lines 2458-2469 and 2472-2482: one step. -/
def lobattoStep (Q : Int) (p2 xi : K) : Res (Newton K) := do
  let s ← legLoop xi (Q - 2).toNat p2
  let d ← fdiv ((xi * s.p2 - s.p0) * (Q : K)) (xi * xi - 1)
  let d2 ← fdiv (2 * xi * d - ((Q * (Q - 1) : Int) : K) * s.p2) (1 - xi * xi)
  let z ← fdiv d d2
  .ok ⟨s.p2, d, xi - z⟩

/-- Lines 2455-2483: a Lobatto point from the guess `g`. -/
def lobattoPoint (tol : K) (Q : Int) (g : K) : Res (Newton K) := do
  let s ← lobattoStep Q 0 g
  loop 100 (fun _ s => if tol < |s.d| then lobattoStep Q s.p s.xi else .ok s) s

/-- Lines 2447-2452: the end points. -/
def lobattoEnds (Q : Int) (r : Rule K) : Res (Rule K) := do
  let wi ← fdiv 2 ((Q * (Q - 1) : Int) : K)
  let w ← r.w.wr 0 wi
  let w ← wrAt w (Q - 1) wi
  let x ← r.x.wr 0 (-1)
  let x ← wrAt x (Q - 1) 1
  .ok ⟨x, w⟩

/-- Lines 2441-2493 `CeedLobattoQuadrature` with an array for the weights; `guess i` is the value of `cos` in line 2457. -/
def lobatto (guess : Nat → K) (tol : K) (Q : Int) (r : Rule K) : Res (Rule K) := do
  Res.check (1 < Q) .dimension
  let r ← lobattoEnds Q r
  loop ((Q - 1).tdiv 2).toNat (fun i r => do
    let s ← lobattoPoint tol Q (guess (i + 1))
    let wi ← fdiv 2 (((Q * (Q - 1) : Int) : K) * s.p * s.p)
    store Q (i + 1) s.xi wi r) r

end Quad
end Verif
