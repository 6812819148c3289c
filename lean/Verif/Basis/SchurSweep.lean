import Verif.Basis.SchurRot

/-!
# Sweeps of the symmetric QR algorithm
-/

namespace Verif
namespace Basis

open Finset Restriction

set_option linter.unusedSectionVars false

variable {K : Type} [Field K] [LinearOrder K] [IsStrictOrderedRing K]

theorem rotation_ok {sqrt : K → K} (hs : IsSqrt sqrt) {tol x z : K} (ht : 0 ≤ tol) :
    ∃ c s, rotation sqrt tol x z = .ok (c, s) ∧ c * c + s * s = 1 ∧ (s * x + c * z) * (s * x + c * z) ≤ tol * tol := by
  unfold rotation
  by_cases h1 : tol < |z|
  · have hz : z ≠ 0 := fun h => by rw [h, abs_zero] at h1; exact absurd h1 (not_lt.2 ht)
    simp only [h1, if_true]
    have key : ∀ tau : K, 0 < 1 + tau * tau := fun tau => by nlinarith [mul_self_nonneg tau]
    have root : ∀ tau : K, sqrt (1 + tau * tau) ≠ 0 := fun tau h => by
      have := (hs _ (key tau).le).2
      rw [h, mul_zero] at this
      exact (key tau).ne this
    have unit : ∀ tau : K, 1 / sqrt (1 + tau * tau) * (1 / sqrt (1 + tau * tau)) + 1 / sqrt (1 + tau * tau) * tau * (1 / sqrt (1 + tau * tau) * tau) = 1 := fun tau => by
      have h3 := (hs _ (key tau).le).2
      have h4 := root tau
      generalize sqrt (1 + tau * tau) = r at h3 h4
      have : 1 / r * (1 / r) + 1 / r * tau * (1 / r * tau) = (1 + tau * tau) / (r * r) := by field_simp
      rw [this, h3, div_self (key tau).ne']
    by_cases h2 : |x| < |z|
    · simp only [h2, if_true]
      refine ⟨_, _, by rw [fdiv_ok hz, Res.bind_ok, fdiv_ok (root _), Res.bind_ok], ?_, ?_⟩
      · rw [add_comm]
        exact unit _
      · have : 1 / sqrt (1 + -x / z * (-x / z)) * x + 1 / sqrt (1 + -x / z * (-x / z)) * (-x / z) * z = 0 := by field_simp; ring
        rw [this, mul_zero]
        exact mul_nonneg ht ht
    · have hx : x ≠ 0 := fun h => by
        rw [h, abs_zero] at h2
        exact h2 (lt_of_le_of_lt ht h1)
      simp only [h2, if_false]
      refine ⟨_, _, by rw [fdiv_ok hx, Res.bind_ok, fdiv_ok (root _), Res.bind_ok], ?_, ?_⟩
      · exact unit _
      · have : 1 / sqrt (1 + -z / x * (-z / x)) * (-z / x) * x + 1 / sqrt (1 + -z / x * (-z / x)) * z = 0 := by field_simp; ring
        rw [this, mul_zero]
        exact mul_nonneg ht ht
  · simp only [h1, if_false]
    refine ⟨1, 0, rfl, by ring, ?_⟩
    rw [zero_mul, zero_add, one_mul, ← abs_mul_abs_self z]
    exact mul_le_mul (not_lt.1 h1) (not_lt.1 h1) (abs_nonneg _) ht

/-- How many entries beside the diagonal are small, counted from one end. -/
theorem small_ok {tol : K} {T : Buf K} {n len : Nat} {at_ : Nat → Nat} (h : ∀ t < len, at_ t + n * (at_ t + 1) < T.len) :
    ∃ q b, small tol T n len at_ = .ok (q, b) ∧ q ≤ len ∧ (∀ t < q, |T.val (at_ t + n * (at_ t + 1))| < tol) ∧
      (q < len → tol ≤ |T.val (at_ q + n * (at_ q + 1))|) := by
  obtain ⟨⟨q, b⟩, e, h1, h2, h3, h4⟩ := loop_inv (n := len) (s := ((0 : Nat), false)) (body := fun t (s : Nat × Bool) =>
      if s.2 then .ok s
      else do
        let x ← T.rd (at_ t + n * (at_ t + 1))
        if |x| < tol then .ok (s.1 + 1, false) else .ok (s.1, true))
    (fun t s => s.1 ≤ t ∧ (s.2 = false → s.1 = t) ∧ (∀ j < s.1, |T.val (at_ j + n * (at_ j + 1))| < tol) ∧
      (s.2 = true → s.1 < t ∧ tol ≤ |T.val (at_ s.1 + n * (at_ s.1 + 1))|))
    ⟨le_refl _, fun _ => rfl, fun j hj => absurd hj (by simp), fun h => by cases h⟩ (by
      intro t ht ⟨q, b⟩ ⟨h1, h2, h3, h4⟩
      cases b with
      | true => exact ⟨(q, true), by simp, by simp at h1 ⊢; omega, fun h => absurd h (by simp), h3, fun _ => ⟨by have := (h4 rfl).1; simp at this ⊢; omega, (h4 rfl).2⟩⟩
      | false =>
        obtain rfl : q = t := h2 rfl
        simp only [Bool.false_eq_true, if_false]
        rw [Buf.rd_lt (h q ht), Res.bind_ok]
        by_cases hx : |T.val (at_ q + n * (at_ q + 1))| < tol
        · rw [if_pos hx]
          refine ⟨_, rfl, le_refl _, fun _ => rfl, fun j hj => ?_, fun h => by cases h⟩
          rcases Nat.lt_succ_iff_lt_or_eq.1 hj with hj | rfl
          · exact h3 j hj
          · exact hx
        · rw [if_neg hx]
          exact ⟨_, rfl, by simp, fun h => absurd h (by simp), h3, fun _ => ⟨by simp, not_lt.1 hx⟩⟩)
  refine ⟨q, b, e, h1, h3, fun hq => ?_⟩
  cases b with
  | true => exact (h4 rfl).2
  | false => exact absurd (h2 rfl) (by simp; omega)

/-! ## The part off the tridiagonal -/

/-- A sum of squares with weights. -/
def wsum (n : Nat) (w f : Nat → Nat → K) : K := ∑ r ∈ range n, ∑ c ∈ range n, w r c * (f r c * f r c)

/-- Weights of the entries that are not on the diagonal and not beside it. -/
def offTri (r c : Nat) : K := if r + 1 < c ∨ c + 1 < r then 1 else 0

/-- The same without the entries that a rotation of rows `k` and `k + 1` moves from beside the diagonal. -/
def offTriAt (k r c : Nat) : K :=
  if r + 1 = k ∧ c = k + 1 ∨ r = k + 1 ∧ c + 1 = k ∨ r = k + 2 ∧ c = k ∨ r = k ∧ c = k + 2 then 0 else offTri r c

theorem wsum_colRot {n k : Nat} (hk : k + 1 < n) {c s : K} (h : c * c + s * s = 1) {w : Nat → Nat → K} (hw : ∀ r, w r k = w r (k + 1)) (f : Nat → Nat → K) :
    wsum n w (colRot k c s f) = wsum n w f := by
  refine sum_congr rfl fun r _ => sum_two hk (fun j h1 h2 => ?_) ?_
  · simp only [colRot, h1, h2, if_false]
  · simp only [colRot, if_true]
    rw [if_neg (by omega), hw r]
    linear_combination (w r (k + 1) * (f r k * f r k + f r (k + 1) * f r (k + 1))) * h

theorem wsum_swap {n : Nat} (w f : Nat → Nat → K) : wsum n w f = wsum n (fun r c => w c r) (fun r c => f c r) := sum_comm

theorem wsum_rowRot {n k : Nat} (hk : k + 1 < n) {c s : K} (h : c * c + s * s = 1) {w : Nat → Nat → K} (hw : ∀ r, w k r = w (k + 1) r) (f : Nat → Nat → K) :
    wsum n w (rowRot k c s f) = wsum n w f := by
  rw [wsum_swap w f, wsum_swap w (rowRot k c s f)]
  exact wsum_colRot hk h hw fun r c => f c r

theorem offTriAt_col (k r : Nat) : (offTriAt k r k : K) = offTriAt k r (k + 1) := by
  unfold offTriAt offTri
  split_ifs <;> first | rfl | (exfalso; omega)

theorem offTriAt_row (k r : Nat) : (offTriAt k k r : K) = offTriAt k (k + 1) r := by
  unfold offTriAt offTri
  split_ifs <;> first | rfl | (exfalso; omega)

/-- The square of one entry, as a sum. -/
theorem one_sq {n a b : Nat} (f : Nat → Nat → K) : (∑ r ∈ range n, ∑ c ∈ range n, if r = a ∧ c = b then f r c * f r c else 0) = if a < n ∧ b < n then f a b * f a b else 0 := by
  have : ∀ r ∈ range n, (∑ c ∈ range n, if r = a ∧ c = b then f r c * f r c else 0) = if r = a then (if b < n then f a b * f a b else 0) else 0 := fun r _ => by
    by_cases hr : r = a
    · subst hr
      simp only [true_and, if_true]
      rw [sum_ite_eq' (range n) b]
      simp only [mem_range]
    · simp only [hr, false_and, if_false, sum_const_zero]
  rw [sum_congr rfl this, sum_ite_eq' (range n) a]
  simp only [mem_range]
  split_ifs <;> first | rfl | (exfalso; tauto)

/-- The square of the entry that the rotation before has left. -/
def bulge (k : Nat) (f : Nat → Nat → K) : K := if 0 < k then f (k - 1) (k + 1) * f (k - 1) (k + 1) else 0

/-- The square of the entry that the next rotation removes. -/
def ahead (n k : Nat) (f : Nat → Nat → K) : K := if k + 2 < n then f (k + 2) k * f (k + 2) k else 0

theorem wsum_split {n k : Nat} (hk : k + 1 < n) {f : Nat → Nat → K} (hf : ∀ r < n, ∀ c < n, f r c = f c r) :
    wsum n offTri f = wsum n (offTriAt k) f + 2 * bulge k f + 2 * ahead n k f := by
  have e : wsum n offTri f = wsum n (offTriAt k) f + ((if 0 < k then ∑ r ∈ range n, ∑ c ∈ range n, (if r = k - 1 ∧ c = k + 1 then f r c * f r c else 0) else 0) +
      (if 0 < k then ∑ r ∈ range n, ∑ c ∈ range n, (if r = k + 1 ∧ c = k - 1 then f r c * f r c else 0) else 0)) +
      ((∑ r ∈ range n, ∑ c ∈ range n, if r = k + 2 ∧ c = k then f r c * f r c else 0) + ∑ r ∈ range n, ∑ c ∈ range n, if r = k ∧ c = k + 2 then f r c * f r c else 0) := by
    by_cases h0 : 0 < k
    · simp only [h0, if_true]
      unfold wsum
      simp only [← sum_add_distrib]
      refine sum_congr rfl fun r _ => sum_congr rfl fun c _ => ?_
      unfold offTriAt offTri
      split_ifs <;> first | (exfalso; omega) | ring
    · simp only [h0, if_false, add_zero]
      unfold wsum
      simp only [← sum_add_distrib]
      refine sum_congr rfl fun r _ => sum_congr rfl fun c _ => ?_
      unfold offTriAt offTri
      split_ifs <;> first | (exfalso; omega) | ring
  rw [e, one_sq, one_sq, one_sq, one_sq]
  unfold bulge ahead
  have c1 : (k + 2 < n ∧ k < n) ↔ k + 2 < n := by omega
  have c2 : (k < n ∧ k + 2 < n) ↔ k + 2 < n := by omega
  have c3 : (k - 1 < n ∧ k + 1 < n) := by omega
  have c4 : (k + 1 < n ∧ k - 1 < n) := by omega
  simp only [c1, c2, c3, and_self, if_true]
  have hb : (if 0 < k then f (k + 1) (k - 1) * f (k + 1) (k - 1) else 0) = if 0 < k then f (k - 1) (k + 1) * f (k - 1) (k + 1) else 0 := by rw [hf (k + 1) (by omega) (k - 1) (by omega)]
  have ha : (if k + 2 < n then f k (k + 2) * f k (k + 2) else 0) = if k + 2 < n then f (k + 2) k * f (k + 2) k else 0 := by
    by_cases h : k + 2 < n
    · rw [if_pos h, if_pos h, hf k (by omega) (k + 2) h]
    · rw [if_neg h, if_neg h]
  rw [hb, ha]
  ring

theorem wsum_congr {n : Nat} {w f g : Nat → Nat → K} (h : ∀ r < n, ∀ c < n, f r c = g r c) : wsum n w f = wsum n w g :=
  sum_congr rfl fun r hr => sum_congr rfl fun c hc => by rw [h r (mem_range.1 hr) c (mem_range.1 hc)]

theorem sq_le {c s a b : K} (h : c * c + s * s = 1) : (c * a + s * b) * (c * a + s * b) ≤ a * a + b * b := by
  have : a * a + b * b - (c * a + s * b) * (c * a + s * b) = (s * a - c * b) * (s * a - c * b) := by linear_combination (-(a * a + b * b)) * h
  nlinarith [mul_self_nonneg (s * a - c * b)]

/-- Both sides rotated. -/
def bothRot (k : Nat) (c s : K) (f : Nat → Nat → K) : Nat → Nat → K := rowRot k c s (colRot k c s f)

/-- What a rotation does to the part off the tridiagonal. -/
theorem rot_bound {n k : Nat} (hk : k + 1 < n) {c s : K} (h : c * c + s * s = 1) {f g : Nat → Nat → K} (hf : ∀ r < n, ∀ c < n, f r c = f c r)
    (hg : ∀ r < n, ∀ c < n, g r c = g c r) (hgf : ∀ r < n, ∀ j < n, g r j = bothRot k c s f r j) :
    wsum n offTri g - 2 * bulge k g - 2 * ahead n k g = wsum n offTri f - 2 * bulge k f - 2 * ahead n k f ∧
      (0 < k → g (k - 1) (k + 1) = s * f (k - 1) k + c * f (k - 1) (k + 1)) ∧
      (k + 2 < n → ahead n k g ≤ f (k + 2) k * f (k + 2) k + f (k + 2) (k + 1) * f (k + 2) (k + 1)) ∧
      ∀ r < n, ∀ j < n, k + 1 < r → k + 1 < j → g r j = f r j := by
  refine ⟨?_, fun h0 => ?_, fun h2 => ?_, fun r hr j hj h1 h2 => ?_⟩
  · rw [wsum_split hk hf, wsum_split hk hg, wsum_congr (f := g) hgf]
    unfold bothRot
    rw [wsum_rowRot hk h (offTriAt_row k), wsum_colRot hk h (offTriAt_col k)]
    ring
  · rw [hgf _ (by omega) _ (by omega)]
    unfold bothRot rowRot colRot
    simp only [if_true]
    rw [if_neg (by omega), if_neg (by omega), if_neg (by omega)]
  · unfold ahead
    rw [if_pos h2, hgf _ (by omega) _ (by omega)]
    unfold bothRot rowRot colRot
    simp only [if_true]
    rw [if_neg (by omega), if_neg (by omega)]
    have := sq_le (c := c) (s := -s) (a := f (k + 2) k) (b := f (k + 2) (k + 1)) (by linear_combination h)
    have e : c * f (k + 2) k - s * f (k + 2) (k + 1) = c * f (k + 2) k + -s * f (k + 2) (k + 1) := by ring
    rw [e]
    exact this
  · rw [hgf r hr j hj]
    unfold bothRot rowRot colRot
    simp only
    rw [if_neg (by omega), if_neg (by omega), if_neg (by omega), if_neg (by omega)]

end Basis
end Verif
