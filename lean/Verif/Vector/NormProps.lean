import Verif.Vector.ArithProps
import Mathlib.Analysis.Real.Sqrt
import Mathlib.Algebra.Order.BigOperators.Group.Finset

/-!
# C08: norms

Over the real numbers, with the exact square root.
-/

namespace Verif
namespace Vector

open Finset

/-- What the norm of a vector with entries `f 0, ..., f (n-1)` is. -/
def IsNorm (t : NormType) (n : Nat) (f : Int → ℝ) (s : ℝ) : Prop :=
  match t with
  | .one => s = ∑ i ∈ range n, |f i|
  | .two => s = Real.sqrt (∑ i ∈ range n, f i ^ 2)
  | .max => (∀ i < n, |f i| ≤ s) ∧ ((n = 0 ∧ s = 0) ∨ ∃ i < n, s = |f i|)

section
variable {eps : ℝ} {w w' : World ℝ} {g : View} {v : Vid}

theorem normVal_one (f : Nat → ℝ) (n : Nat) : normVal .one f n = ∑ i ∈ range n, |f i| := by
  induction n with
  | zero => rfl
  | succ n ih => rw [sum_range_succ, ← ih]; rfl

theorem normVal_two (f : Nat → ℝ) (n : Nat) : normVal .two f n = ∑ i ∈ range n, f i ^ 2 := by
  induction n with
  | zero => rfl
  | succ n ih =>
    rw [sum_range_succ, ← ih, ← abs_mul_abs_self (f n) |>.trans (pow_two (f n)).symm]
    rfl

theorem normVal_max (f : Nat → ℝ) (n : Nat) :
    (∀ i < n, |f i| ≤ normVal .max f n) ∧ ((n = 0 ∧ normVal .max f n = 0) ∨ ∃ i < n, normVal .max f n = |f i|) := by
  induction n with
  | zero => exact ⟨by simp, Or.inl ⟨rfl, rfl⟩⟩
  | succ n ih =>
    obtain ⟨h1, h2⟩ := ih
    have e : normVal .max f (n + 1) = if normVal .max f n > |f n| then normVal .max f n else |f n| := rfl
    rw [e]
    split
    · rename_i h
      refine ⟨?_, Or.inr ?_⟩
      · intro i hi
        by_cases hin : i = n
        · subst hin; exact le_of_lt h
        · exact h1 i (by omega)
      · rcases h2 with ⟨_, h0⟩ | ⟨i, hi, hs⟩
        · rw [h0] at h
          exact absurd (abs_nonneg (f n)) (not_le.2 h)
        · exact ⟨i, by omega, hs⟩
    · rename_i h
      refine ⟨?_, Or.inr ⟨n, by omega, rfl⟩⟩
      intro i hi
      by_cases hin : i = n
      · subst hin; exact le_rfl
      · exact le_trans (h1 i (by omega)) (not_lt.1 h)

theorem isNorm_congr {t : NormType} {n : Nat} {f k : Int → ℝ} {s : ℝ} (h : ∀ i : Nat, i < n → f i = k i) (hs : IsNorm t n f s) :
    IsNorm t n k s := by
  cases t with
  | one =>
    simp only [IsNorm] at *
    rw [hs]
    exact sum_congr rfl fun i hi => by rw [h i (mem_range.1 hi)]
  | two =>
    simp only [IsNorm] at *
    rw [hs]
    congr 1
    exact sum_congr rfl fun i hi => by rw [h i (mem_range.1 hi)]
  | max =>
    simp only [IsNorm] at *
    refine ⟨fun i hi => by rw [← h i hi]; exact hs.1 i hi, ?_⟩
    rcases hs.2 with h0 | ⟨i, hi, e⟩
    · exact Or.inl h0
    · exact Or.inr ⟨i, hi, by rw [← h i hi]; exact e⟩

theorem isNorm_unique {t : NormType} {n : Nat} {f : Int → ℝ} {s s' : ℝ} (h : IsNorm t n f s) (h' : IsNorm t n f s') : s = s' := by
  cases t with
  | one => simp only [IsNorm] at *; rw [h, h']
  | two => simp only [IsNorm] at *; rw [h, h']
  | max =>
    simp only [IsNorm] at *
    obtain ⟨h1, h2⟩ := h
    obtain ⟨h3, h4⟩ := h'
    rcases h2 with ⟨hn, h2⟩ | ⟨i, hi, h2⟩ <;> rcases h4 with ⟨hn', h4⟩ | ⟨j, hj, h4⟩
    · rw [h2, h4]
    · omega
    · omega
    · exact le_antisymm (h2 ▸ h3 i hi) (h4 ▸ h1 j hj)

/-- C08: `CeedVectorNorm` succeeds on every vector that can be read, changes nothing, and returns the sum of the sizes, the
root of the sum of squares, or the greatest size of the entries. -/
theorem C08_norm (h : Reach Legal True Real.sqrt eps w g) (hn : 0 ≤ g.len v) {f : Int → ℝ} (hc : Contents w v (g.len v) f)
    (t : NormType) : ∃ s, exec Real.sqrt eps (.norm v t) w = .ok w (.num s) ∧ IsNorm t (g.len v).toNat f s := by
  have hi := inv_reach h
  obtain ⟨x, hx, hr, ha⟩ := canRead_vec hc.1
  have hlen := (hi.base.vec v x hx).len
  simp only [exec, M.bind_apply]
  by_cases hl : 0 < x.len
  · obtain ⟨a, b, hd⟩ := hi.data hx hl (ha hl).1
    rw [norm_eq hd hr]
    refine ⟨_, rfl, ?_⟩
    have hv : ∀ i : Nat, i < (g.len v).toNat → (fun i : Int => b.val i.toNat) i = f i := by
      intro i hi
      have := hc.val hd (i := i) (by omega) (by omega)
      simpa using this
    refine isNorm_congr (f := fun i : Int => b.val i.toNat) hv ?_
    rw [← hlen]
    cases t with
    | one => simp only [IsNorm]; simp [normVal_one]
    | two => simp only [IsNorm]; simp [normVal_two]
    | max =>
      have := normVal_max b.val (g.len v).toNat
      simp only [IsNorm]
      simpa using this
  · have h0 : x.len = 0 := by omega
    refine ⟨0, by simp [norm, hasValid_eq hx, hx, h0, Vec.valid, M.check_apply], ?_⟩
    have : (g.len v).toNat = 0 := by omega
    rw [this]
    cases t <;> simp [IsNorm]

theorem isNorm_nonneg {t : NormType} {n : Nat} {f : Int → ℝ} {s : ℝ} (h : IsNorm t n f s) : 0 ≤ s := by
  cases t with
  | one => simp only [IsNorm] at h; rw [h]; exact sum_nonneg fun i _ => abs_nonneg _
  | two => simp only [IsNorm] at h; rw [h]; exact Real.sqrt_nonneg _
  | max =>
    simp only [IsNorm] at h
    rcases h.2 with ⟨_, e⟩ | ⟨i, _, e⟩
    · exact le_of_eq e.symm
    · rw [e]; exact abs_nonneg _

theorem isNorm_zero {t : NormType} {n : Nat} {f : Int → ℝ} {s : ℝ} (h : IsNorm t n f s) : s = 0 ↔ ∀ i < n, f (i : Nat) = 0 := by
  cases t with
  | one =>
    simp only [IsNorm] at h
    rw [h, sum_eq_zero_iff_of_nonneg (fun i _ => abs_nonneg _)]
    simp
  | two =>
    simp only [IsNorm] at h
    rw [h, Real.sqrt_eq_zero (sum_nonneg fun i _ => sq_nonneg _), sum_eq_zero_iff_of_nonneg (fun i _ => sq_nonneg _)]
    simp
  | max =>
    simp only [IsNorm] at h
    constructor
    · rintro rfl i hi
      exact abs_nonpos_iff.1 (h.1 i hi)
    · intro hz
      rcases h.2 with ⟨_, e⟩ | ⟨i, hi, e⟩
      · exact e
      · rw [e, hz i hi, abs_zero]

theorem isNorm_scale {t : NormType} {n : Nat} {f : Int → ℝ} {s : ℝ} (h : IsNorm t n f s) (z : ℝ) :
    IsNorm t n (fun i => f i * z) (|z| * s) := by
  cases t with
  | one =>
    simp only [IsNorm] at *
    rw [h, mul_sum]
    exact sum_congr rfl fun i _ => by rw [abs_mul, mul_comm]
  | two =>
    simp only [IsNorm] at *
    have e : ∑ i ∈ range n, (f i * z) ^ 2 = z ^ 2 * ∑ i ∈ range n, f i ^ 2 := by
      rw [mul_sum]
      exact sum_congr rfl fun i _ => by rw [mul_pow, mul_comm]
    rw [h, e, Real.sqrt_mul (sq_nonneg z), Real.sqrt_sq_eq_abs]
  | max =>
    simp only [IsNorm] at *
    refine ⟨fun i hi => ?_, ?_⟩
    · rw [abs_mul, mul_comm]
      exact mul_le_mul_of_nonneg_left (h.1 i hi) (abs_nonneg z)
    · rcases h.2 with ⟨hn, e⟩ | ⟨i, hi, e⟩
      · exact Or.inl ⟨hn, by rw [e, mul_zero]⟩
      · exact Or.inr ⟨i, hi, by rw [e, abs_mul, mul_comm]⟩

/-- C08: the value returned is not negative, and zero exactly when all entries are zero. -/
theorem C08_positive (h : Reach Legal True Real.sqrt eps w g) (hn : 0 ≤ g.len v) {f : Int → ℝ} (hc : Contents w v (g.len v) f)
    (t : NormType) : ∃ s, exec Real.sqrt eps (.norm v t) w = .ok w (.num s) ∧ 0 ≤ s ∧
      (s = 0 ↔ ∀ i, 0 ≤ i → i < g.len v → f i = 0) := by
  obtain ⟨s, e, hs⟩ := C08_norm h hn hc t
  refine ⟨s, e, isNorm_nonneg hs, ?_⟩
  rw [isNorm_zero hs]
  constructor
  · intro hz i h0 h1
    have := hz i.toNat (by omega)
    rwa [Int.toNat_of_nonneg h0] at this
  · intro hz i hi
    exact hz i (by omega) (by omega)

/-- C08: scaling the vector by `z` multiplies its norm by `|z|`. -/
theorem C08_scaling (h : Reach Legal True Real.sqrt eps w g) (hv : g.has v) (hn : 0 ≤ g.len v) (hw : CanWrite w v)
    (hr : CanRead w v) (z : ℝ) (t : NormType) :
    ∃ s w', exec Real.sqrt eps (.norm v t) w = .ok w (.num s) ∧ exec Real.sqrt eps (.scale v z) w = .ok w' .unit ∧
      exec Real.sqrt eps (.norm v t) w' = .ok w' (.num (|z| * s)) := by
  obtain ⟨f, hc⟩ := contents_exists h hr
  obtain ⟨s, e, hs⟩ := C08_norm h hn hc t
  obtain ⟨w', e', hc', _⟩ := C07_scale h hn hw hc z
  obtain ⟨s', e2, hs'⟩ := C08_norm (h.ok (c := .scale v z) hv e') hn hc' t
  refine ⟨s, w', e, e', ?_⟩
  rw [e2, isNorm_unique hs' (isNorm_scale hs z)]

end

/-- C07, C08, a case: a legal program sets a vector of three entries. -/
example : ∃ (w : World ℝ) (g : View), Reach Legal True Real.sqrt 0 w g ∧ g.has 0 ∧ g.len 0 = 3 ∧ CanWrite w 0 ∧ CanRead w 0 ∧
    Contents w 0 3 (fun _ => -2) := by
  have h : Reach Legal True Real.sqrt (0 : ℝ) _ _ := Reach.start.ok (c := .create 0 3) trivial rfl
  obtain ⟨w', e, hc, _⟩ := C07_setValue h (v := 0) (by decide) ⟨_, _, rfl⟩ (-2)
  refine ⟨w', _, h.ok (c := .setValue 0 (-2)) (Nat.le_refl 1) e, Nat.le_refl 1, rfl, ?_, hc.1, hc⟩
  have hi := inv_reach (h.ok (c := .setValue 0 (-2)) (Nat.le_refl 1) e)
  cases e
  exact ⟨_, _, rfl⟩

end Vector
end Verif
