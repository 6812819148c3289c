import Verif.Operator.Fdm
import Verif.Restriction.Spec
import Mathlib.LinearAlgebra.Matrix.NonsingularInverse
import Verif.Operator.MultigridProps
import Verif.Basis.ProjectionLemmas
import Verif.Basis.PointsLemmas

/-!
# Specification of element inverses by fast diagonalisation

The element problems are separable: with 1D matrices `M` (mass) and `L` (stiffness) the matrix of an element is
`a (c M⊗…⊗M + g Σ_d M⊗…⊗L⊗…⊗M)`, where `L` stands at place `d`.
-/

namespace Verif
namespace Operator

open Finset
open Basis (coord)

variable {K : Type} [Field K] [LinearOrder K]

/-- Entry of the product `A⊗…⊗A`. -/
def kronAll (A : Nat → Nat → K) (P dim n m : Nat) : K := ∏ d ∈ range dim, A (coord P d n) (coord P d m)

/-- Entry of the separable matrix `c M⊗…⊗M + g Σ_d M⊗…⊗L⊗…⊗M`. -/
def sepMat (c g : K) (M L : Nat → Nat → K) (P dim n m : Nat) : K :=
  c * kronAll M P dim n m +
    g * ∑ d ∈ range dim, ∏ d' ∈ range dim, (if d = d' then L else M) (coord P d' n) (coord P d' m)

/-- The 1D matrix `Σ_k A(k,i) w_k A(k,j)` of a quadrature rule. -/
def quad1 (A w : Buf K) (P Q i j : Nat) : K := ∑ k ∈ range Q, A.val (k * P + i) * w.val k * A.val (k * P + j)

/-- The 1D stiffness matrix with the perturbation on its diagonal. -/
def quadLap (A w : Buf K) (P Q dim i j : Nat) : K := quad1 A w P Q i j + if i = j then perturbation dim else 0

/-- Congruence `XᵀAX` in one dimension. -/
def cong (X A : Nat → Nat → K) (P p q : Nat) : K := ∑ n ∈ range P, ∑ m ∈ range P, X n p * A n m * X m q

/-- Sum of the 1D eigenvalues that belong to `n`. -/
def eigSum (lam : Nat → K) (P dim n : Nat) : K := ∑ d ∈ range dim, lam (coord P d n)

/-- Entry of the matrix that is applied on an element: `X⊗…⊗X` times the scales `s` times its transpose. -/
def fdmMat (X : Nat → Nat → K) (s : Nat → K) (P dim n m : Nat) : K :=
  ∑ q ∈ range (P ^ dim), kronAll X P dim n q * s q * kronAll X P dim m q

/-- The entries of an element that count for the average: larger in magnitude than the bound. -/
def counted (x : Nat → Nat → K) (bound : K) (Q ni : Nat) : Nat :=
  ∑ q ∈ range Q, ∑ i ∈ range ni, if bound < |x q i| then 1 else 0

/-- The average of an element: the mean of the entries that count, each divided by its quadrature weight. -/
def average (x : Nat → Nat → K) (w : Nat → K) (bound : K) (Q ni : Nat) : K :=
  if counted x bound Q ni = 0 then 1
  else (∑ q ∈ range Q, ∑ i ∈ range ni, if bound < |x q i| then x q i / w q else 0) / (counted x bound Q ni : K)

/-- A value, or the bound where the value is smaller in magnitude. -/
def clampTo (bound x : K) : K := if |x| < bound then bound else x

end Operator
end Verif
