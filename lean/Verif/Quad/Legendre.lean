import Mathlib.Algebra.Polynomial.Derivative
import Mathlib.Algebra.Polynomial.BigOperators
import Mathlib.Topology.Algebra.Polynomial
import Mathlib.Analysis.Calculus.Deriv.Polynomial
import Mathlib.Analysis.SpecialFunctions.Integrals.Basic
import Mathlib.LinearAlgebra.Lagrange
import Mathlib.Tactic.LinearCombination
import Mathlib.Tactic.FieldSimp

/-!
# Legendre polynomials

Recurrence, derivative, differential equation and orthogonality, as far as quadrature rules need them.
-/

namespace Verif
namespace Quad

open Polynomial Finset

noncomputable section

/-- Legendre polynomials, by their recurrence. -/
def leg : Nat → ℝ[X]
  | 0 => 1
  | 1 => X
  | n + 2 => C (1 / ((n : ℝ) + 2)) * ((2 * (n : ℝ[X]) + 3) * X * leg (n + 1) - ((n : ℝ[X]) + 1) * leg n)

theorem leg_rec (n : Nat) : ((n : ℝ[X]) + 2) * leg (n + 2) = (2 * (n : ℝ[X]) + 3) * X * leg (n + 1) - ((n : ℝ[X]) + 1) * leg n := by
  have h : ((n : ℝ[X]) + 2) * C (1 / ((n : ℝ) + 2)) = 1 := by
    have : ((n : ℝ[X]) + 2) = C ((n : ℝ) + 2) := by simp [C_ofNat]
    rw [this, ← C_mul]
    have h0 : (n : ℝ) + 2 ≠ 0 := by positivity
    rw [mul_one_div_cancel h0, C_1]
  rw [leg, ← mul_assoc, h, one_mul]

theorem cast_ne (n : Nat) (k : Nat) (hk : 0 < k) : ((n : ℝ[X]) + (k : ℝ[X])) ≠ 0 := by
  rw [← Nat.cast_add]
  exact Nat.cast_ne_zero.2 (by omega)

/-- Two relations of derivatives. -/
theorem leg_deriv (n : Nat) :
    derivative (leg (n + 1)) = X * derivative (leg n) + ((n : ℝ[X]) + 1) * leg n ∧
    X * derivative (leg (n + 1)) - derivative (leg n) = ((n : ℝ[X]) + 1) * leg (n + 1) := by
  induction n with
  | zero => simp [leg]
  | succ n ih =>
    obtain ⟨hB, hC⟩ := ih
    have hR := leg_rec n
    have hD := congrArg derivative hR
    simp only [derivative_mul, derivative_sub, derivative_add, derivative_natCast, derivative_ofNat, derivative_X, derivative_one] at hD
    have h2 : ((n : ℝ[X]) + 2) ≠ 0 := by simpa using cast_ne n 2 (by omega)
    have hB' : derivative (leg (n + 2)) = X * derivative (leg (n + 1)) + ((n : ℝ[X]) + 2) * leg (n + 1) := by
      refine mul_left_cancel₀ h2 ?_
      linear_combination hD + ((n : ℝ[X]) + 1) * hC
    refine ⟨?_, ?_⟩
    · push_cast
      linear_combination hB'
    · push_cast
      rw [show n + 1 + 1 = n + 2 from rfl]
      linear_combination X * hB' + X * hC - hR - hB

/-- The derivative at a point. -/
theorem leg_slope (n : Nat) : (X ^ 2 - 1) * derivative (leg (n + 1)) = ((n : ℝ[X]) + 1) * (X * leg (n + 1) - leg n) := by
  obtain ⟨hB, hC⟩ := leg_deriv n
  linear_combination X * hC - hB

/-- The differential equation. -/
theorem leg_ode (n : Nat) : derivative ((1 - X ^ 2) * derivative (leg n)) = -((n : ℝ[X]) * ((n : ℝ[X]) + 1)) * leg n := by
  cases n with
  | zero => simp [leg]
  | succ n =>
    obtain ⟨hB, hC⟩ := leg_deriv n
    have h := congrArg derivative (leg_slope n)
    simp only [derivative_mul, derivative_sub, derivative_add, derivative_natCast, derivative_X, derivative_one, derivative_X_pow] at h ⊢
    push_cast at h ⊢
    linear_combination -h - ((n : ℝ[X]) + 1) * hC

theorem leg_one (n : Nat) : (leg n).eval 1 = 1 := by
  induction n using Nat.twoStepInduction with
  | zero => simp [leg]
  | one => simp [leg]
  | more n h0 h1 =>
    have h := congrArg (eval 1) (leg_rec n)
    simp only [eval_mul, eval_sub, eval_add, eval_natCast, eval_ofNat, eval_X, eval_one, h0, h1] at h
    have h2 : (n : ℝ) + 2 ≠ 0 := by positivity
    refine mul_left_cancel₀ h2 ?_
    linear_combination h

/-- Even and odd. -/
theorem leg_neg (n : Nat) (x : ℝ) : (leg n).eval (-x) = (-1) ^ n * (leg n).eval x := by
  induction n using Nat.twoStepInduction with
  | zero => simp [leg]
  | one => simp [leg]
  | more n h0 h1 =>
    have h := congrArg (eval (-x)) (leg_rec n)
    have h' := congrArg (eval x) (leg_rec n)
    simp only [eval_mul, eval_sub, eval_add, eval_natCast, eval_ofNat, eval_X, eval_one, h0, h1] at h h'
    have h2 : (n : ℝ) + 2 ≠ 0 := by positivity
    refine mul_left_cancel₀ h2 ?_
    rw [h]
    linear_combination (-1) ^ (n + 2) * (-h')

theorem leg_sq_one (n : Nat) : (leg n).eval 1 ^ 2 = 1 ∧ (leg n).eval (-1) ^ 2 = 1 := by
  refine ⟨by rw [leg_one]; norm_num, ?_⟩
  rw [leg_neg, leg_one, mul_one, ← pow_mul, mul_comm, pow_mul]
  norm_num

theorem leg_ne (n : Nat) : leg n ≠ 0 := by
  intro h
  have := leg_one n
  rw [h] at this
  simp at this

theorem leg_degree (n : Nat) : (leg n).natDegree ≤ n := by
  induction n using Nat.twoStepInduction with
  | zero => simp [leg]
  | one => simp [leg]
  | more n h0 h1 =>
    rw [leg]
    refine (natDegree_C_mul_le _ _).trans ((natDegree_sub_le _ _).trans (max_le ?_ ?_))
    · refine natDegree_mul_le.trans ?_
      have : ((2 * (n : ℝ[X]) + 3) * X).natDegree ≤ 1 := by
        have h3 : (2 * (n : ℝ[X]) + 3) = C (2 * (n : ℝ) + 3) := by simp [C_ofNat]
        rw [h3]
        exact (natDegree_C_mul_le _ _).trans natDegree_X_le
      omega
    · have h3 : ((n : ℝ[X]) + 1) = C ((n : ℝ) + 1) := by simp
      rw [h3]
      exact (natDegree_C_mul_le _ _).trans (by omega)

/-! ## Integrals -/

/-- The integral over `[-1, 1]`. -/
def integ : ℝ[X] →ₗ[ℝ] ℝ where
  toFun p := ∫ x in (-1 : ℝ)..1, p.eval x
  map_add' p q := by
    simp only [eval_add]
    exact intervalIntegral.integral_add (p.continuous.intervalIntegrable _ _) (q.continuous.intervalIntegrable _ _)
  map_smul' c p := by simp

theorem integ_deriv (p : ℝ[X]) : integ (derivative p) = p.eval 1 - p.eval (-1) := by
  show ∫ x in (-1 : ℝ)..1, (derivative p).eval x = _
  exact intervalIntegral.integral_eq_sub_of_hasDerivAt (fun x _ => p.hasDerivAt x) ((derivative p).continuous.intervalIntegrable _ _)

theorem integ_nat (n : Nat) (p : ℝ[X]) : integ ((n : ℝ[X]) * p) = n * integ p := by
  rw [← nsmul_eq_mul, map_nsmul, nsmul_eq_mul]

theorem integ_const (c : ℝ) (p : ℝ[X]) : integ (C c * p) = c * integ p := by
  rw [← smul_eq_C_mul, map_smul, smul_eq_mul]

theorem integ_parts (p q : ℝ[X]) : integ (derivative p * q) = p.eval 1 * q.eval 1 - p.eval (-1) * q.eval (-1) - integ (p * derivative q) := by
  have := integ_deriv (p * q)
  rw [derivative_mul, map_add, eval_mul, eval_mul] at this
  linarith

/-- The operator of the differential equation is symmetric. -/
theorem leg_sym (n : Nat) (q : ℝ[X]) :
    (n : ℝ) * (n + 1) * integ (leg n * q) = - integ (leg n * derivative ((1 - X ^ 2) * derivative q)) ∧
    (n : ℝ) * (n + 1) * integ (leg n * q) = integ ((1 - X ^ 2) * derivative (leg n) * derivative q) := by
  have h1 := integ_parts ((1 - X ^ 2) * derivative (leg n)) q
  rw [leg_ode] at h1
  have e : -((n : ℝ[X]) * ((n : ℝ[X]) + 1)) * leg n * q = -(((n * (n + 1) : Nat) : ℝ[X]) * (leg n * q)) := by push_cast; ring
  rw [e, map_neg, integ_nat] at h1
  have h2 := integ_parts (leg n) ((1 - X ^ 2) * derivative q)
  simp only [eval_mul, eval_sub, eval_pow, eval_X, eval_one] at h1 h2
  push_cast at h1
  have h3 : integ (derivative (leg n) * ((1 - X ^ 2) * derivative q)) = integ ((1 - X ^ 2) * derivative (leg n) * derivative q) := by
    congr 1; ring
  rw [h3] at h2
  constructor <;> linarith

/-- Powers of lower degree are orthogonal. -/
theorem leg_orth_pow (n m : Nat) (h : m < n) : integ (leg n * X ^ m) = 0 := by
  induction m using Nat.strong_induction_on with
  | _ m ih =>
    have h1 := (leg_sym n (X ^ m)).1
    have h2 : integ (leg n * derivative ((1 - X ^ 2) * derivative (X ^ m : ℝ[X]))) = -((m : ℝ) * (m + 1)) * integ (leg n * X ^ m) := by
      match m, ih with
      | 0, _ => simp
      | 1, _ =>
        have : leg n * derivative ((1 - X ^ 2) * derivative (X ^ 1 : ℝ[X])) = C (-2) * (leg n * X ^ 1) := by
          simp only [pow_one, derivative_X, mul_one, derivative_sub, derivative_one, derivative_X_pow, map_neg, C_ofNat]
          have : (C 2 : ℝ[X]) = 2 := rfl
          push_cast
          rw [this]
          ring
        rw [this, integ_const]
        push_cast; ring
      | m + 2, ih =>
        have : leg n * derivative ((1 - X ^ 2) * derivative (X ^ (m + 2) : ℝ[X])) =
            (((m + 2) * (m + 1) : Nat) : ℝ[X]) * (leg n * X ^ m) - (((m + 2) * (m + 3) : Nat) : ℝ[X]) * (leg n * X ^ (m + 2)) := by
          simp only [derivative_X_pow, derivative_mul, derivative_sub, derivative_one, C_eq_natCast, derivative_natCast,
            show m + 2 - 1 = m + 1 from rfl, show m + 1 - 1 = m from rfl, show 2 - 1 = 1 from rfl]
          push_cast
          ring
        rw [this, map_sub, integ_nat, integ_nat, ih m (by omega) (by omega)]
        push_cast; ring
    rw [h2] at h1
    have h3 : ((n : ℝ) * (n + 1) - m * (m + 1)) * integ (leg n * X ^ m) = 0 := by linarith
    rcases mul_eq_zero.1 h3 with h4 | h4
    · exfalso
      have : (m : ℝ) < n := by exact_mod_cast h
      have hm : (0 : ℝ) ≤ m := by positivity
      nlinarith
    · exact h4

/-- Polynomials of lower degree are orthogonal. -/
theorem leg_orth {n : Nat} {q : ℝ[X]} (h : q.natDegree < n) : integ (leg n * q) = 0 := by
  conv_lhs => rw [q.as_sum_range_C_mul_X_pow]
  rw [mul_sum, map_sum]
  refine sum_eq_zero fun i hi => ?_
  rw [mem_range] at hi
  rw [show leg n * (C (q.coeff i) * X ^ i) = C (q.coeff i) * (leg n * X ^ i) by ring, integ_const, leg_orth_pow n i (by omega), mul_zero]

end

end Quad
end Verif
