import Verif.Quad.Legendre
import Mathlib.Algebra.Polynomial.FieldDivision

/-!
# Exactness of Gauss and Lobatto rules
-/

namespace Verif
namespace Quad

open Polynomial Finset

/-- Nodes at the zeros of a polynomial that is orthogonal to polynomials of degree less than `k`. -/
theorem rule_exists {Q k : Nat} {x : Nat → ℝ} (hx : Set.InjOn x (range Q)) {N : ℝ[X]} (h0 : N ≠ 0) (hd : N.natDegree ≤ Q)
    (hN : ∀ i < Q, N.eval (x i) = 0) (ho : ∀ d : ℝ[X], d.natDegree < k → integ (N * d) = 0) :
    ∃ W : Nat → ℝ, ∀ f : ℝ[X], f.natDegree < Q + k → integ f = ∑ i ∈ range Q, W i * f.eval (x i) := by
  refine ⟨fun i => integ (Lagrange.basis (range Q) x i), fun f hf => ?_⟩
  have hdeg : N.natDegree = Q := by
    refine le_antisymm hd ?_
    by_contra h
    refine h0 (Polynomial.eq_zero_of_degree_lt_of_eval_index_eq_zero (range Q) hx ?_ fun i hi => hN i (mem_range.1 hi))
    rw [card_range]
    exact lt_of_le_of_lt degree_le_natDegree (by exact_mod_cast not_le.1 h)
  have hdN : N.degree = Q := by rw [degree_eq_natDegree h0, hdeg]
  have hr := EuclideanDomain.div_add_mod f N
  have hq : integ (N * (f / N)) = 0 := by
    by_cases hz : f / N = 0
    · rw [hz, mul_zero, map_zero]
    · refine ho _ ?_
      have hle : N.degree ≤ f.degree := not_lt.1 fun h => hz ((Polynomial.div_eq_zero_iff h0).2 h)
      have hf0 : f ≠ 0 := by
        rintro rfl
        simp at hz
      have := degree_add_div h0 hle
      rw [hdN, degree_eq_natDegree hz, degree_eq_natDegree hf0] at this
      have : Q + (f / N).natDegree = f.natDegree := by exact_mod_cast this
      omega
  have hm : (f % N).degree < #(range Q) := by
    rw [card_range, ← hdN]
    exact degree_mod_lt f h0
  have hi := Lagrange.eq_interpolate (v := x) hx hm
  have he : ∀ i < Q, (f % N).eval (x i) = f.eval (x i) := by
    intro i hi
    conv_rhs => rw [← hr]
    rw [eval_add, eval_mul, hN i hi, zero_mul, zero_add]
  conv_lhs => rw [← hr]
  rw [map_add, hq, zero_add, hi, Lagrange.interpolate_apply, map_sum]
  refine sum_congr rfl fun i hi => ?_
  rw [integ_const, he i (mem_range.1 hi), mul_comm]

theorem sum_single' {Q i : Nat} {W : Nat → ℝ} {x : Nat → ℝ} {f : ℝ[X]} (hi : i < Q) (h : ∀ j < Q, j ≠ i → f.eval (x j) = 0) :
    ∑ j ∈ range Q, W j * f.eval (x j) = W i * f.eval (x i) := by
  refine sum_eq_single i (fun j hj hji => by rw [h j (mem_range.1 hj) hji, mul_zero]) fun h' => absurd (mem_range.2 hi) h'

/-- The rule of Gauss. -/
theorem gauss_rule {Q : Nat} {x w : Nat → ℝ} (hx : Set.InjOn x (range Q)) (hr : ∀ i < Q, (leg Q).eval (x i) = 0)
    (hw : ∀ i < Q, w i = 2 / ((1 - x i ^ 2) * (derivative (leg Q)).eval (x i) ^ 2)) {f : ℝ[X]} (hf : f.natDegree < 2 * Q) :
    integ f = ∑ i ∈ range Q, w i * f.eval (x i) := by
  obtain ⟨W, hW⟩ := rule_exists (k := Q) hx (leg_ne Q) (leg_degree Q) hr fun d hd => leg_orth hd
  rw [hW f (by omega)]
  refine sum_congr rfl fun i hi => ?_
  rw [mem_range] at hi
  congr 1
  obtain ⟨q, hq⟩ := dvd_iff_isRoot.2 (show (leg Q).IsRoot (x i) from hr i hi)
  have hq0 : q ≠ 0 := by
    rintro rfl
    exact leg_ne Q (by rw [hq, mul_zero])
  have hqd : q.natDegree < Q := by
    have h1 := leg_degree Q
    rw [hq, natDegree_mul (X_sub_C_ne_zero _) hq0, natDegree_X_sub_C] at h1
    omega
  have hP' : derivative (leg Q) = q + (X - C (x i)) * derivative q := by
    conv_lhs => rw [hq]
    simp
  have h1 : (1 : ℝ) - x i ≠ 0 := by
    intro h
    have h1 : x i = 1 := by linarith
    have := hr i hi
    rw [h1, leg_one] at this
    norm_num at this
  have h2 : (1 : ℝ) + x i ≠ 0 := by
    intro h
    have h1 : x i = -1 := by linarith
    have := hr i hi
    have h3 := (leg_sq_one Q).2
    rw [h1] at this
    rw [this] at h3
    norm_num at h3
  have hI : integ (q * q) = 2 / (1 - x i ^ 2) := by
    have e1 : q * q = q * derivative (leg Q) - leg Q * derivative q := by rw [hP', hq]; ring
    have e2 := integ_parts (leg Q) q
    have e3 : integ (leg Q * derivative q) = 0 := leg_orth (lt_of_le_of_lt (natDegree_derivative_le q) (by omega))
    rw [e1, map_sub, e3, sub_zero, mul_comm, e2, e3, sub_zero]
    have a1 := congrArg (eval 1) hq
    have a2 := congrArg (eval (-1)) hq
    simp only [eval_mul, eval_sub, eval_X, eval_C] at a1 a2
    obtain ⟨b1, b2⟩ := leg_sq_one Q
    have c1 : (leg Q).eval 1 * q.eval 1 = 1 / (1 - x i) := by
      rw [eq_div_iff h1]
      rw [a1] at b1 ⊢
      linear_combination b1
    have c2 : (leg Q).eval (-1) * q.eval (-1) = - (1 / (1 + x i)) := by
      rw [← neg_div, eq_div_iff h2]
      rw [a2] at b2 ⊢
      linear_combination - b2
    rw [c1, c2]
    have h3 : (1 : ℝ) - x i ^ 2 ≠ 0 := by
      rw [show (1 : ℝ) - x i ^ 2 = (1 - x i) * (1 + x i) by ring]
      exact mul_ne_zero h1 h2
    field_simp
    ring
  have hdq : (q * q).natDegree < Q + Q := by
    rw [natDegree_mul hq0 hq0]; omega
  have hs := hW _ hdq
  rw [sum_single' hi fun j hj hji => by
    have := hr j hj
    rw [hq, eval_mul] at this
    have hne : (X - C (x i)).eval (x j) ≠ 0 := by
      simp only [eval_sub, eval_X, eval_C]
      exact sub_ne_zero.2 fun h => hji (hx (mem_coe.2 (mem_range.2 hj)) (mem_coe.2 (mem_range.2 hi)) h)
    rw [eval_mul, (mul_eq_zero.1 this).resolve_left hne, mul_zero], hI, eval_mul] at hs
  have hPi : (derivative (leg Q)).eval (x i) = q.eval (x i) := by
    rw [hP']
    simp
  have h3 : (1 : ℝ) - x i ^ 2 ≠ 0 := by
    rw [show (1 : ℝ) - x i ^ 2 = (1 - x i) * (1 + x i) by ring]
    exact mul_ne_zero h1 h2
  have hqi : q.eval (x i) ≠ 0 := by
    intro h
    rw [h] at hs
    simp only [mul_zero] at hs
    exact (div_ne_zero two_ne_zero h3) hs
  rw [hw i hi, hPi, eq_div_iff (mul_ne_zero h3 (pow_ne_zero _ hqi))]
  rw [div_eq_iff h3] at hs
  linear_combination - hs

/-- The rule of Lobatto, with `n + 1` nodes. -/
theorem lobatto_rule {n : Nat} (hn : 0 < n) {x w : Nat → ℝ} (hx : Set.InjOn x (range (n + 1)))
    (hr : ∀ i < n + 1, (1 - x i ^ 2) * (derivative (leg n)).eval (x i) = 0)
    (hw : ∀ i < n + 1, w i = 2 / ((n : ℝ) * (n + 1) * (leg n).eval (x i) ^ 2)) {f : ℝ[X]} (hf : f.natDegree < 2 * n) :
    integ f = ∑ i ∈ range (n + 1), w i * f.eval (x i) := by
  have hn0 : (n : ℝ) ≠ 0 := by exact_mod_cast hn.ne'
  have hn1 : (n : ℝ) + 1 ≠ 0 := by positivity
  have hode := leg_ode n
  have hXX : derivative (1 - X ^ 2 : ℝ[X]) = -(2 * X) := by
    rw [pow_two, derivative_sub, derivative_one, derivative_mul, derivative_X]
    ring
  rw [derivative_mul, hXX] at hode
  have hode' : ∀ y : ℝ, -(2 * y) * (derivative (leg n)).eval y + (1 - y ^ 2) * (derivative (derivative (leg n))).eval y =
      -((n : ℝ) * (n + 1)) * (leg n).eval y := by
    intro y
    have := congrArg (eval y) hode
    simp only [eval_add, eval_mul, eval_neg, eval_ofNat, eval_X, eval_sub, eval_one, eval_pow, eval_natCast] at this
    linear_combination this
  obtain ⟨s1, s2⟩ := leg_sq_one n
  have d1 := hode' 1
  have d2 := hode' (-1)
  have hD0 : derivative (leg n) ≠ 0 := by
    intro h
    rw [h] at d1
    simp only [eval_zero, leg_one, derivative_zero] at d1
    have : (n : ℝ) * (n + 1) ≠ 0 := mul_ne_zero hn0 hn1
    apply this
    linarith
  have hDd : (derivative (leg n)).natDegree ≤ n - 1 := (natDegree_derivative_le _).trans (Nat.sub_le_sub_right (leg_degree n) 1)
  have hX0 : (1 - X ^ 2 : ℝ[X]) ≠ 0 := by
    intro h
    have := congrArg (eval 0) h
    simp at this
  have hXd : (1 - X ^ 2 : ℝ[X]).natDegree ≤ 2 := by
    refine (natDegree_sub_le _ _).trans ?_
    simp
  obtain ⟨W, hW⟩ := rule_exists (Q := n + 1) (k := n - 1) (N := (1 - X ^ 2) * derivative (leg n)) hx (mul_ne_zero hX0 hD0)
    (natDegree_mul_le.trans (by omega)) (fun i hi => by simpa using hr i hi) (fun d hd => by
      have e : (1 - X ^ 2) * derivative (leg n) * d = derivative (leg n) * ((1 - X ^ 2) * d) := by ring
      rw [e, integ_parts]
      simp only [eval_mul, eval_sub, eval_pow, eval_X, eval_one]
      have : integ (leg n * derivative ((1 - X ^ 2) * d)) = 0 := by
        refine leg_orth (lt_of_le_of_lt (natDegree_derivative_le _) ?_)
        have : ((1 - X ^ 2) * d).natDegree ≤ 2 + d.natDegree := natDegree_mul_le.trans (by omega)
        omega
      rw [this]
      norm_num)
  rw [hW f (by omega)]
  refine sum_congr rfl fun i hi => ?_
  rw [mem_range] at hi
  congr 1
  have hne : ∀ j < n + 1, j ≠ i → x j ≠ x i := fun j hj hji h =>
    hji (hx (mem_coe.2 (mem_range.2 hj)) (mem_coe.2 (mem_range.2 hi)) h)
  have horth1 : integ (leg n) = 0 := by
    have := leg_orth (n := n) (q := 1) (by simpa using hn)
    rwa [mul_one] at this
  rw [hw i hi]
  by_cases hx1 : x i = 1
  · have hs := hW (derivative (leg n) * (1 + X)) (lt_of_le_of_lt natDegree_mul_le (by
      have : (1 + X : ℝ[X]).natDegree ≤ 1 := (natDegree_add_le _ _).trans (by simp)
      omega))
    rw [sum_single' hi fun j hj hji => by
      have h1 := hr j hj
      rw [show (1 : ℝ) - x j ^ 2 = (1 - x j) * (1 + x j) by ring, mul_assoc] at h1
      have h2 := (mul_eq_zero.1 h1).resolve_left (sub_ne_zero.2 fun h => hne j hj hji (by rw [hx1, ← h]))
      simp only [eval_mul, eval_add, eval_one, eval_X]
      rw [mul_comm]; exact h2, integ_parts] at hs
    simp only [derivative_add, derivative_one, derivative_X, zero_add, mul_one, horth1, eval_add, eval_one, eval_X, eval_mul, hx1, leg_one] at hs d1
    rw [hx1, leg_one]
    field_simp
    linear_combination - hs + W i * d1
  · by_cases hx2 : x i = -1
    · have hs := hW (derivative (leg n) * (1 - X)) (lt_of_le_of_lt natDegree_mul_le (by
        have : (1 - X : ℝ[X]).natDegree ≤ 1 := (natDegree_sub_le _ _).trans (by simp)
        omega))
      rw [sum_single' hi fun j hj hji => by
        have h1 := hr j hj
        rw [show (1 : ℝ) - x j ^ 2 = (1 + x j) * (1 - x j) by ring, mul_assoc] at h1
        have h2 := (mul_eq_zero.1 h1).resolve_left (fun h => hne j hj hji (by rw [hx2]; linarith))
        simp only [eval_mul, eval_sub, eval_one, eval_X]
        rw [mul_comm]; exact h2, integ_parts] at hs
      simp only [derivative_sub, derivative_one, derivative_X, zero_sub, mul_neg, mul_one, map_neg, horth1, eval_sub, eval_one, eval_X, eval_mul, hx2] at hs d2
      have hz : (leg n).eval (-1) ≠ 0 := by
        intro h
        rw [h] at s2
        norm_num at s2
      rw [hx2]
      have key : W i * ((n : ℝ) * (n + 1)) = 2 := by
        refine mul_right_cancel₀ hz ?_
        linear_combination hs + W i * d2
      rw [s2, mul_one, eq_div_iff (mul_ne_zero hn0 hn1)]
      exact key
    · have h1 : (1 : ℝ) - x i ≠ 0 := fun h => hx1 (by linarith)
      have h2 : (1 : ℝ) + x i ≠ 0 := fun h => hx2 (by linarith)
      have h3 : (1 : ℝ) - x i ^ 2 ≠ 0 := by
        rw [show (1 : ℝ) - x i ^ 2 = (1 - x i) * (1 + x i) by ring]
        exact mul_ne_zero h1 h2
      have hD := (mul_eq_zero.1 (hr i hi)).resolve_left h3
      obtain ⟨r, hrr⟩ := dvd_iff_isRoot.2 (show (derivative (leg n)).IsRoot (x i) from hD)
      have hr0 : r ≠ 0 := by
        rintro rfl
        exact hD0 (by rw [hrr, mul_zero])
      have hrd : r.natDegree + 1 ≤ n - 1 := by
        rw [hrr, natDegree_mul (X_sub_C_ne_zero _) hr0, natDegree_X_sub_C] at hDd
        omega
      have hP'' : derivative (derivative (leg n)) = r + (X - C (x i)) * derivative r := by
        conv_lhs => rw [hrr]
        simp
      have hri : (derivative (derivative (leg n))).eval (x i) = r.eval (x i) := by rw [hP'']; simp
      have hc := hode' (x i)
      rw [hD, hri, mul_zero, zero_add] at hc
      have hI : integ ((1 - X ^ 2) * (r * r)) = 2 * (n : ℝ) * (n + 1) / (1 - x i ^ 2) := by
        have e0 : integ ((1 - X ^ 2) * derivative (leg n) * derivative r) = 0 := by
          rw [← (leg_sym n r).2, leg_orth (by omega), mul_zero]
        have e1 : (1 - X ^ 2) * (r * r) = (1 - X ^ 2) * derivative (derivative (leg n)) * r - (1 - X ^ 2) * derivative (leg n) * derivative r := by
          rw [hP'', hrr]; ring
        have e2 : (1 - X ^ 2) * derivative (derivative (leg n)) * r = C 2 * (derivative (leg n) * (X * r)) - ((n * (n + 1) : Nat) : ℝ[X]) * (leg n * r) := by
          have c2 : (C 2 : ℝ[X]) = 2 := rfl
          rw [c2]
          push_cast
          linear_combination r * hode
        rw [e1, map_sub, e0, sub_zero, e2, map_sub, integ_nat, leg_orth (q := r) (by omega), mul_zero, sub_zero, integ_const, integ_parts]
        have e3 : integ (leg n * derivative (X * r)) = 0 := by
          refine leg_orth (lt_of_le_of_lt (natDegree_derivative_le _) ?_)
          rw [natDegree_X_mul hr0]; omega
        rw [e3, sub_zero]
        have a1 := congrArg (eval 1) hrr
        have a2 := congrArg (eval (-1)) hrr
        simp only [eval_mul, eval_sub, eval_X, eval_C] at a1 a2 ⊢
        have b1 : (leg n).eval 1 * (1 * r.eval 1) = (n : ℝ) * (n + 1) / 2 / (1 - x i) := by
          rw [eq_div_iff h1]
          rw [leg_one] at d1 ⊢
          linear_combination - a1 - d1 / 2
        have b2 : (leg n).eval (-1) * (-1 * r.eval (-1)) = -((n : ℝ) * (n + 1) / 2 / (1 + x i)) * (-1) * (-1) := by
          have : (leg n).eval (-1) * (-1 * r.eval (-1)) * (1 + x i) = -((n : ℝ) * (n + 1) / 2) := by
            linear_combination - (leg n).eval (-1) * a2 + (leg n).eval (-1) * d2 / 2 - (n : ℝ) * (n + 1) / 2 * s2
          rw [eq_comm]
          field_simp
          linear_combination - 2 * this
        rw [b1, b2]
        field_simp
        ring
      have hs := hW ((1 - X ^ 2) * (r * r)) (lt_of_le_of_lt natDegree_mul_le (by
        have : (r * r).natDegree = r.natDegree + r.natDegree := natDegree_mul hr0 hr0
        omega))
      rw [sum_single' hi fun j hj hji => by
        have h1 := hr j hj
        rw [hrr, eval_mul] at h1
        have hne' : (X - C (x i)).eval (x j) ≠ 0 := by
          simp only [eval_sub, eval_X, eval_C]
          exact sub_ne_zero.2 (hne j hj hji)
        simp only [eval_mul, eval_sub, eval_one, eval_pow, eval_X]
        rcases mul_eq_zero.1 h1 with h | h
        · rw [h, zero_mul]
        · rw [(mul_eq_zero.1 h).resolve_left hne', mul_zero, mul_zero], hI] at hs
      simp only [eval_mul, eval_sub, eval_one, eval_pow, eval_X] at hs
      have hleg : (leg n).eval (x i) ≠ 0 := by
        intro h
        rw [h, mul_zero] at hc
        have hz := (mul_eq_zero.1 hc).resolve_left h3
        rw [hz, mul_zero, mul_zero, mul_zero] at hs
        exact (div_ne_zero (mul_ne_zero (mul_ne_zero two_ne_zero hn0) hn1) h3) hs
      rw [div_eq_iff h3] at hs
      rw [eq_div_iff (mul_ne_zero (mul_ne_zero hn0 hn1) (pow_ne_zero _ hleg))]
      refine mul_right_cancel₀ (mul_ne_zero hn0 hn1) ?_
      linear_combination - hs + W i * ((n : ℝ) * (n + 1) * (leg n).eval (x i) - (1 - x i ^ 2) * r.eval (x i)) * hc

end Quad
end Verif
