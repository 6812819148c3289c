import Verif.Basis.Projection
import Verif.Basis.Spec

/-!
# What a projection basis does

Words used to state C57.
-/

namespace Verif
namespace Basis

open Finset
open Restriction (TMode)

variable {K : Type} [Field K] [LinearOrder K]

/-- Sum over `R` rows of the squared differences between `A y` and `f`. -/
def misfit (R P : Nat) (A : Nat → Nat → K) (f y : Nat → K) : K :=
  ∑ r ∈ range R, (∑ n ∈ range P, A r n * y n - f r) ^ 2

/-- The values `y` at the `P` nodes are the only ones with the least misfit. -/
def BestFit (R P : Nat) (A : Nat → Nat → K) (f y : Nat → K) : Prop :=
  ∀ z : Nat → K, (∃ n < P, z n ≠ y n) → misfit R P A f y < misfit R P A f z

/-- Number of values a basis has at the quadrature points, for one component. -/
def Bas.rows (b : Bas K) : Nat := b.qComp .interp * b.Q

/-- Applied to values `u` at the nodes of `from_`, the basis `b` gives values at the nodes of `to_`. These are, for every
component `c` of the evaluation mode, every component `k` of the field and every element `e`, the best fit: interpolated by
`to_` (matrix `mt`) they come closest to what the matrix `m` of `from_` gives at the quadrature points. The result is laid out as the
node values of `to_`. -/
def Projects (b from_ to_ : Bas K) (em : EMode) (mt m : Buf K) : Prop :=
  ∀ (junk : Nat → Nat → K) (ne : Nat) (u v : Buf K), ne * b.nc * from_.P ≤ u.len → ne * to_.P * b.nc * b.qComp em ≤ v.len →
    ∃ v', apply b junk ne .noTranspose em (some u) v = .ok v' ∧ v'.len = v.len ∧
      ∀ c < b.qComp em, ∀ k < b.nc, ∀ e < ne,
        BestFit to_.rows to_.P (fun r n => mt.val (r * to_.P + n))
          (fun r => ∑ p ∈ range from_.P, m.val ((c * to_.rows + r) * from_.P + p) * u.val (nodePos from_.P ne k p e))
          (fun n => v'.val (nodePos to_.P ne (c * b.nc + k) n e))

/-- Columns of a matrix of `R` rows and `P` columns are independent: different values at the nodes differ at some point. -/
def Separates (R P : Nat) (A : Nat → Nat → K) : Prop :=
  ∀ y : Nat → K, (∀ r < R, ∑ n ∈ range P, A r n * y n = 0) → ∀ n < P, y n = 0

/-- Whatever is evaluated at the points by the matrix `B` (columns `< Pf`) is also evaluated by the matrix `A` (columns `< Pt`). -/
def Contains (R Pf Pt : Nat) (B A : Nat → Nat → K) : Prop :=
  ∀ x : Nat → K, ∃ y : Nat → K, ∀ r < R, ∑ n ∈ range Pt, A r n * y n = ∑ p ∈ range Pf, B r p * x p

/-- A basis made by one of the creation functions, tensor or not. -/
def Created (b : Bas K) : Prop :=
  (∃ i1 g1 w, TensorBasis b i1 g1 w) ∨ ∃ sp i d w, NonTensorBasis b sp i d w

end Basis
end Verif
