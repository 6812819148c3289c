import Verif.Quad.Model
import Verif.Quad.Rules

/-!
# Quadrature rules: the loops
-/

namespace Verif
namespace Quad

open Polynomial Finset
open Basis (fdiv)

theorem fdiv_ok {K : Type} [Field K] [LinearOrder K] {x y z : K} (h : fdiv x y = .ok z) : y ≠ 0 ∧ z = x / y := by
  unfold fdiv at h
  split at h
  · cases h
  · rename_i hh; cases h; exact ⟨hh, rfl⟩

/-- An invariant of a loop that succeeds. -/
theorem loop_keep {σ : Type _} {n : Nat} {body : Nat → σ → Res σ} {s s' : σ} (I : Nat → σ → Prop) (h0 : I 0 s)
    (hs : ∀ i < n, ∀ s s', I i s → body i s = .ok s' → I (i + 1) s') (h : loop n body s = .ok s') : I n s' := by
  induction n generalizing s' with
  | zero => cases h; exact h0
  | succ n ih =>
    rw [loop_succ] at h
    obtain ⟨s1, e1, e2⟩ := Res.bind_eq_ok.1 h
    exact hs n (by omega) s1 s' (ih (fun i hi => hs i (by omega)) e1) e2

theorem leg_next (n : Nat) (x : ℝ) : (leg (n + 2)).eval x =
    ((2 * ((n : ℝ) + 2) - 1) * x * (leg (n + 1)).eval x - (((n : ℝ) + 2) - 1) * (leg n).eval x) / ((n : ℝ) + 2) := by
  have h := congrArg (eval x) (leg_rec n)
  simp only [eval_mul, eval_sub, eval_add, eval_natCast, eval_ofNat, eval_X, eval_one] at h
  have h2 : (n : ℝ) + 2 ≠ 0 := by positivity
  rw [eq_div_iff h2]
  linear_combination h

/-- The recurrence evaluates Legendre polynomials. -/
theorem legLoop_eq (x : ℝ) (n : Nat) (p2 : ℝ) :
    legLoop x n p2 = .ok ⟨(leg n).eval x, (leg (n + 1)).eval x, if n = 0 then p2 else (leg (n + 1)).eval x⟩ := by
  unfold legLoop
  refine loop_pure (f := fun n => (⟨(leg n).eval x, (leg (n + 1)).eval x, if n = 0 then p2 else (leg (n + 1)).eval x⟩ : Leg ℝ)) (by simp [leg]) fun i _ => ?_
  have h2 : (i : ℝ) + 2 ≠ 0 := by positivity
  unfold fdiv
  simp only [Nat.succ_ne_zero, if_false]
  rw [if_neg h2, Res.bind_ok, ← leg_next]

theorem leg_slope_at {n : Nat} (x : ℝ) (hx : x * x - 1 ≠ 0) :
    (derivative (leg (n + 1))).eval x = (x * (leg (n + 1)).eval x - (leg n).eval x) * ((n : ℝ) + 1) / (x * x - 1) := by
  have h := congrArg (eval x) (leg_slope n)
  simp only [eval_mul, eval_sub, eval_add, eval_natCast, eval_pow, eval_X, eval_one] at h
  rw [eq_div_iff hx]
  linear_combination h

/-- Newton's iteration for the zeros of `P_n`. -/
noncomputable def newt (n : Nat) (g : ℝ) : Nat → ℝ
  | 0 => g
  | k + 1 => newt n g k - (leg n).eval (newt n g k) / (derivative (leg n)).eval (newt n g k)

theorem gaussStep_inv {n : Nat} (hn : 2 ≤ n) {p2 x : ℝ} {s : Newton ℝ} (h : gaussStep n p2 x = .ok s) :
    x * x - 1 ≠ 0 ∧ (derivative (leg n)).eval x ≠ 0 ∧
    s = ⟨(leg n).eval x, (derivative (leg n)).eval x, x - (leg n).eval x / (derivative (leg n)).eval x⟩ := by
  obtain ⟨m, rfl⟩ : ∃ m, n = m + 2 := ⟨n - 2, by omega⟩
  unfold gaussStep at h
  have hc : (((m + 2 : Nat) : Int) - 1).toNat = m + 1 := by omega
  rw [hc, legLoop_eq, Res.bind_ok] at h
  simp only [Nat.succ_ne_zero, if_false] at h
  obtain ⟨d, e1, h⟩ := Res.bind_eq_ok.1 h
  obtain ⟨z, e2, h⟩ := Res.bind_eq_ok.1 h
  obtain ⟨h1, rfl⟩ := fdiv_ok e1
  obtain ⟨h2, rfl⟩ := fdiv_ok e2
  have hd : (x * (leg (m + 2)).eval x - (leg (m + 1)).eval x) * (((m + 2 : Nat) : Int) : ℝ) / (x * x - 1) = (derivative (leg (m + 2))).eval x := by
    rw [leg_slope_at x h1]
    push_cast
    ring
  rw [hd] at h h2
  cases h
  exact ⟨h1, h2, rfl⟩

/-- Where the iteration stops: at the first small residual, or after 100 more steps. -/
def StopsAt (res : Nat → ℝ) (tol : ℝ) (k : Nat) : Prop := k ≤ 100 ∧ (|res k| ≤ tol ∨ k = 100) ∧ ∀ j < k, tol < |res j|

theorem stopsAt_unique {res : Nat → ℝ} {tol : ℝ} {k l : Nat} (hk : StopsAt res tol k) (hl : StopsAt res tol l) : k = l := by
  obtain ⟨k1, k2, k3⟩ := hk
  obtain ⟨l1, l2, l3⟩ := hl
  rcases Nat.lt_trichotomy k l with h | h | h
  · exfalso
    rcases k2 with h' | h'
    · exact absurd (l3 k h) (not_lt.2 h')
    · omega
  · exact h
  · exfalso
    rcases l2 with h' | h'
    · exact absurd (k3 l h) (not_lt.2 h')
    · omega

/-- A loop that goes on until a residual is small. -/
theorem iterate_inv {σ : Type} {step : σ → Res σ} {res : σ → ℝ} {tol : ℝ} {s s' : σ} {st : Nat → σ} (h0 : st 0 = s)
    (hs : ∀ k s', step (st k) = .ok s' → s' = st (k + 1))
    (h : loop 100 (fun _ s => if tol < |res s| then step s else .ok s) s = .ok s') :
    ∃ k, StopsAt (fun k => res (st k)) tol k ∧ s' = st k := by
  have := loop_keep (fun m s => ∃ k ≤ m, s = st k ∧ (k = m ∨ |res (st k)| ≤ tol) ∧ ∀ j < k, tol < |res (st j)|)
    ⟨0, le_refl _, h0.symm, .inl rfl, fun j hj => absurd hj (by omega)⟩ (fun m _ s s' hm e => ?_) h
  · obtain ⟨k, hk, rfl, h1, h2⟩ := this
    exact ⟨k, ⟨hk, h1.symm, h2⟩, rfl⟩
  · obtain ⟨k, hk, rfl, h1, h2⟩ := hm
    split at e
    · rename_i hlt
      have hkm : k = m := h1.resolve_right (not_le.2 hlt)
      subst hkm
      refine ⟨k + 1, le_refl _, hs k s' e, .inl rfl, fun j hj => ?_⟩
      rcases Nat.lt_succ_iff_lt_or_eq.1 hj with h | rfl
      · exact h2 j h
      · exact hlt
    · rename_i hlt
      cases e
      exact ⟨k, by omega, rfl, .inr (not_lt.1 hlt), h2⟩

/-- A Gauss point: Newton's iteration, up to a small residual. -/
theorem gaussPoint_inv {n : Nat} (hn : 2 ≤ n) {tol g : ℝ} {s : Newton ℝ} (h : gaussPoint tol n g = .ok s) :
    ∃ k, StopsAt (fun k => (leg n).eval (newt n g k)) tol k ∧ s.p = (leg n).eval (newt n g k) ∧
      s.d = (derivative (leg n)).eval (newt n g k) ∧ s.xi = newt n g (k + 1) := by
  unfold gaussPoint at h
  obtain ⟨s0, e0, h⟩ := Res.bind_eq_ok.1 h
  obtain ⟨_, _, rfl⟩ := gaussStep_inv hn e0
  obtain ⟨k, hk, rfl⟩ := iterate_inv (res := Newton.p) (step := fun s => gaussStep n s.p s.xi)
    (st := fun k => ⟨(leg n).eval (newt n g k), (derivative (leg n)).eval (newt n g k), newt n g (k + 1)⟩) rfl
    (fun k s' e => (gaussStep_inv hn e).2.2) h
  exact ⟨k, hk, rfl, rfl, rfl⟩

theorem gaussPoint_one {tol g : ℝ} (ht : 0 ≤ tol) {s : Newton ℝ} (h : gaussPoint tol 1 g = .ok s) : s.xi = g ∧ (g = 0 → s.d = 1) := by
  unfold gaussPoint at h
  obtain ⟨s0, e0, h⟩ := Res.bind_eq_ok.1 h
  have h0 : s0.p = 0 ∧ s0.xi = g ∧ (g = 0 → s0.d = 1) := by
    unfold gaussStep at e0
    rw [show ((1 : Int) - 1).toNat = 0 from rfl, legLoop_eq, Res.bind_ok] at e0
    simp only [if_true] at e0
    obtain ⟨d, e1, e0⟩ := Res.bind_eq_ok.1 e0
    obtain ⟨z, e2, e0⟩ := Res.bind_eq_ok.1 e0
    obtain ⟨h1, rfl⟩ := fdiv_ok e1
    obtain ⟨h2, rfl⟩ := fdiv_ok e2
    cases e0
    refine ⟨rfl, by simp, ?_⟩
    rintro rfl
    simp [leg]
  have : s = s0 := by
    refine loop_keep (fun _ s => s = s0) rfl (fun _ _ s s' hs e => ?_) h
    subst hs
    rw [if_neg (by rw [h0.1]; simpa using ht)] at e
    cases e
    rfl
  subst this
  exact h0.2

/-! ## Storing -/

section
variable {K : Type} [Field K] [LinearOrder K]

omit [Field K] [LinearOrder K] in
theorem wr_ok {b b' : Buf K} {i : Nat} {x : K} (h : b.wr i x = .ok b') :
    i < b.len ∧ b' = ⟨b.len, fun j => if j = i then x else b.val j⟩ := by
  by_cases hh : i < b.len
  · rw [Buf.wr_lt hh] at h; cases h; exact ⟨hh, rfl⟩
  · unfold Buf.wr at h
    rw [if_neg hh] at h; cases h

omit [Field K] [LinearOrder K] in
theorem wrAt_ok {b b' : Buf K} {z : Int} {x : K} (h : wrAt b z x = .ok b') :
    0 ≤ z ∧ z.toNat < b.len ∧ b' = ⟨b.len, fun j => if j = z.toNat then x else b.val j⟩ := by
  unfold wrAt at h
  split at h
  · rename_i hz
    exact ⟨hz, wr_ok h⟩
  · cases h

/-- Index of the iteration that wrote position `p` last, among the first `k`, and whether as the mirror image. -/
def writer (n k p : Nat) : Nat × Bool :=
  if n - 1 - p < k ∧ (p ≤ n - 1 - p ∨ ¬ p < k) then (n - 1 - p, true) else (p, false)

/-- The arrays after the iterations `lo, …, k - 1`. -/
def Stored (n lo k : Nat) (y v : Nat → K) (r : Rule K) : Prop :=
  ∀ p < n, lo ≤ p → lo ≤ n - 1 - p → (p < k ∨ n - 1 - p < k) →
    r.x.val p = (if (writer n k p).2 then y (writer n k p).1 else - y (writer n k p).1) ∧ r.w.val p = v (writer n k p).1

theorem store_inv {n i lo : Nat} {y v : Nat → K} {r r' : Rule K} (hs : Stored n lo i y v r)
    (h : store n i (y i) (v i) r = .ok r') : i < n ∧ Stored n lo (i + 1) y v r' ∧ (∀ p, p ≠ i → p + i + 1 ≠ n → r'.x.val p = r.x.val p ∧ r'.w.val p = r.w.val p) ∧
      r'.x.len = r.x.len ∧ r'.w.len = r.w.len := by
  unfold store at h
  obtain ⟨w1, e1, h⟩ := Res.bind_eq_ok.1 h
  obtain ⟨w2, e2, h⟩ := Res.bind_eq_ok.1 h
  obtain ⟨x1, e3, h⟩ := Res.bind_eq_ok.1 h
  obtain ⟨x2, e4, h⟩ := Res.bind_eq_ok.1 h
  cases h
  obtain ⟨_, rfl⟩ := wr_ok e1
  obtain ⟨hz, _, rfl⟩ := wrAt_ok e2
  obtain ⟨_, rfl⟩ := wr_ok e3
  obtain ⟨_, _, rfl⟩ := wrAt_ok e4
  have hi : i < n := by omega
  have ht : ((n : Int) - 1 - i).toNat = n - 1 - i := by omega
  refine ⟨hi, ?_, ?_, rfl, rfl⟩
  · intro p hp hl1 hl2 hw
    simp only [ht]
    by_cases h1 : p = n - 1 - i
    · have : writer n (i + 1) p = (i, true) := by
        unfold writer
        rw [if_pos (by omega)]
        congr 1
        omega
      rw [this, if_pos h1, if_pos h1]
      simp
    · by_cases h2 : p = i
      · have : writer n (i + 1) p = (i, false) := by
          unfold writer
          rw [if_neg (by omega), h2]
        rw [this, if_neg h1, if_neg h1, if_pos h2, if_pos h2]
        simp
      · have h3 : writer n (i + 1) p = writer n i p := by
          unfold writer
          by_cases hc : n - 1 - p < i ∧ (p ≤ n - 1 - p ∨ ¬ p < i)
          · rw [if_pos hc, if_pos (by omega)]
          · rw [if_neg hc, if_neg (by omega)]
        rw [h3, if_neg h1, if_neg h1, if_neg h2, if_neg h2]
        exact hs p hp hl1 hl2 (by omega)
  · intro p h1 h2
    simp only [ht]
    have h3 : ¬ p = n - 1 - i := by omega
    simp [h1, h3]

end

end Quad
end Verif
