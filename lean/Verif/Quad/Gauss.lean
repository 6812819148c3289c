import Verif.Quad.Lemmas

/-!
# Gauss points: the stored rule
-/

namespace Verif
namespace Quad

open Polynomial Finset
open Basis (fdiv)

section
variable {K : Type} [Field K] [LinearOrder K]

/-- Point of a successful iteration. -/
def xiOf (s : Res (Newton K)) : K := match s with
  | .ok s => s.xi
  | _ => 0

/-- Weight of a Gauss point. -/
def gwOf (s : Res (Newton K)) : K := match s with
  | .ok s => 2 / ((1 - s.xi * s.xi) * s.d * s.d)
  | _ => 0

/-- Weight of a Lobatto point. -/
def lwOf (Q : Int) (s : Res (Newton K)) : K := match s with
  | .ok s => 2 / (((Q * (Q - 1) : Int) : K) * s.p * s.p)
  | _ => 0

theorem gauss_inv {guess : Nat → K} {tol : K} {n : Nat} {r r' : Rule K} (h : gauss guess tol n r = .ok r') :
    (∀ i ≤ n / 2, ∃ s, gaussPoint tol n (guess i) = .ok s) ∧
    Stored n 0 (n / 2 + 1) (fun i => xiOf (gaussPoint tol n (guess i))) (fun i => gwOf (gaussPoint tol n (guess i))) r' ∧
    r'.x.len = r.x.len ∧ r'.w.len = r.w.len ∧ n ≤ r.x.len ∧ n ≤ r.w.len ∧ n / 2 < n := by
  unfold gauss at h
  have hc : ((n : Int).tdiv 2 + 1).toNat = n / 2 + 1 := by
    have : (n : Int).tdiv 2 = ((n / 2 : Nat) : Int) := by rw [Int.tdiv_eq_ediv_of_nonneg (by omega)]; rfl
    rw [this]; omega
  rw [hc] at h
  have := loop_keep (fun m r' => (∀ i < m, ∃ s, gaussPoint tol n (guess i) = .ok s) ∧
    Stored n 0 m (fun i => xiOf (gaussPoint tol n (guess i))) (fun i => gwOf (gaussPoint tol n (guess i))) r' ∧
    r'.x.len = r.x.len ∧ r'.w.len = r.w.len ∧ (0 < m → n ≤ r.x.len ∧ n ≤ r.w.len) ∧ ∀ i < m, i < n) ⟨fun i hi => absurd hi (by omega), fun p _ _ _ hp => absurd hp (by omega), rfl, rfl, fun hm => absurd hm (by omega), fun i hi => absurd hi (by omega)⟩ (fun m _ s s' hm e => ?_) h
  · obtain ⟨h1, h2, h3, h4, h5, h6⟩ := this
    obtain ⟨h7, h8⟩ := h5 (by omega)
    exact ⟨fun i hi => h1 i (by omega), h2, h3, h4, h7, h8, h6 (n / 2) (by omega)⟩
  · obtain ⟨h1, h2, h3, h4, h5, h6⟩ := hm
    obtain ⟨t, e1, e⟩ := Res.bind_eq_ok.1 e
    obtain ⟨wi, e2, e⟩ := Res.bind_eq_ok.1 e
    obtain ⟨_, rfl⟩ := fdiv_ok e2
    have hl : 0 < m + 1 → n ≤ r.x.len ∧ n ≤ r.w.len := by
      intro _
      rcases Nat.eq_zero_or_pos m with rfl | hm
      · have e' := e
        unfold store at e'
        obtain ⟨w1, e3, e'⟩ := Res.bind_eq_ok.1 e'
        obtain ⟨w2, e4, e'⟩ := Res.bind_eq_ok.1 e'
        obtain ⟨x1, e5, e'⟩ := Res.bind_eq_ok.1 e'
        obtain ⟨x2, e6, e'⟩ := Res.bind_eq_ok.1 e'
        obtain ⟨_, rfl⟩ := wr_ok e3
        obtain ⟨_, h7, _⟩ := wrAt_ok e4
        obtain ⟨_, rfl⟩ := wr_ok e5
        obtain ⟨_, h8, _⟩ := wrAt_ok e6
        dsimp only at h7 h8
        omega
      · exact h5 hm
    have hst := store_inv (y := fun i => xiOf (gaussPoint tol n (guess i))) (v := fun i => gwOf (gaussPoint tol n (guess i)))
      (lo := 0) (n := n) (i := m) (r := s) (r' := s') h2 (by simp only [e1, xiOf, gwOf]; exact e)
    obtain ⟨g1, g2, g3, g4, g5⟩ := hst
    refine ⟨fun i hi => ?_, g2, by rw [g4, h3], by rw [g5, h4], hl, fun i hi => ?_⟩
    · rcases Nat.lt_succ_iff_lt_or_eq.1 hi with h | rfl
      · exact h1 i h
      · exact ⟨t, e1⟩
    · rcases Nat.lt_succ_iff_lt_or_eq.1 hi with h | rfl
      · exact h6 i h
      · exact g1

theorem lobatto_inv {guess : Nat → K} {tol : K} {n : Nat} (hn : 1 ≤ n) {r r' : Rule K} (h : lobatto guess tol ((n + 1 : Nat) : Int) r = .ok r') :
    (∀ i, 1 ≤ i → i ≤ n / 2 → ∃ s, lobattoPoint tol ((n + 1 : Nat) : Int) (guess i) = .ok s) ∧
    Stored (n + 1) 1 (n / 2 + 1) (fun i => xiOf (lobattoPoint tol ((n + 1 : Nat) : Int) (guess i)))
      (fun i => lwOf ((n + 1 : Nat) : Int) (lobattoPoint tol ((n + 1 : Nat) : Int) (guess i))) r' ∧
    (r'.x.val 0 = -1 ∧ r'.x.val n = 1 ∧ r'.w.val 0 = 2 / ((((n + 1 : Nat) : Int) * (((n + 1 : Nat) : Int) - 1) : Int) : K) ∧
      r'.w.val n = 2 / ((((n + 1 : Nat) : Int) * (((n + 1 : Nat) : Int) - 1) : Int) : K)) ∧
    r'.x.len = r.x.len ∧ r'.w.len = r.w.len ∧ n < r.x.len ∧ n < r.w.len := by
  unfold lobatto at h
  rw [Res.check, if_pos (by omega), Res.bind_ok] at h
  obtain ⟨r1, e0, h⟩ := Res.bind_eq_ok.1 h
  have hc : ((((n + 1 : Nat) : Int) - 1).tdiv 2).toNat = n / 2 := by
    have : (((n + 1 : Nat) : Int) - 1) = (n : Int) := by omega
    have h2 : (n : Int).tdiv 2 = ((n / 2 : Nat) : Int) := by rw [Int.tdiv_eq_ediv_of_nonneg (by omega)]; rfl
    rw [this, h2]; omega
  rw [hc] at h
  have hr1 : (r1.x.val 0 = -1 ∧ r1.x.val n = 1 ∧ r1.w.val 0 = 2 / ((((n + 1 : Nat) : Int) * (((n + 1 : Nat) : Int) - 1) : Int) : K) ∧
      r1.w.val n = 2 / ((((n + 1 : Nat) : Int) * (((n + 1 : Nat) : Int) - 1) : Int) : K)) ∧
    r1.x.len = r.x.len ∧ r1.w.len = r.w.len ∧ n < r.x.len ∧ n < r.w.len := by
    unfold lobattoEnds at e0
    obtain ⟨wi, e1, e0⟩ := Res.bind_eq_ok.1 e0
    obtain ⟨w1, e2, e0⟩ := Res.bind_eq_ok.1 e0
    obtain ⟨w2, e3, e0⟩ := Res.bind_eq_ok.1 e0
    obtain ⟨x1, e4, e0⟩ := Res.bind_eq_ok.1 e0
    obtain ⟨x2, e5, e0⟩ := Res.bind_eq_ok.1 e0
    cases e0
    obtain ⟨_, rfl⟩ := fdiv_ok e1
    obtain ⟨_, rfl⟩ := wr_ok e2
    obtain ⟨_, h7, rfl⟩ := wrAt_ok e3
    obtain ⟨_, rfl⟩ := wr_ok e4
    obtain ⟨_, h8, rfl⟩ := wrAt_ok e5
    have ht : (((n + 1 : Nat) : Int) - 1).toNat = n := by omega
    dsimp only at h7 h8 ⊢
    rw [ht] at h7 h8 ⊢
    have : ¬ 0 = n := by omega
    simp [this, h7, h8]
  have := loop_keep (fun m r' => (∀ i, 1 ≤ i → i ≤ m → ∃ s, lobattoPoint tol ((n + 1 : Nat) : Int) (guess i) = .ok s) ∧
    Stored (n + 1) 1 (m + 1) (fun i => xiOf (lobattoPoint tol ((n + 1 : Nat) : Int) (guess i)))
      (fun i => lwOf ((n + 1 : Nat) : Int) (lobattoPoint tol ((n + 1 : Nat) : Int) (guess i))) r' ∧
    (r'.x.val 0 = -1 ∧ r'.x.val n = 1 ∧ r'.w.val 0 = 2 / ((((n + 1 : Nat) : Int) * (((n + 1 : Nat) : Int) - 1) : Int) : K) ∧
      r'.w.val n = 2 / ((((n + 1 : Nat) : Int) * (((n + 1 : Nat) : Int) - 1) : Int) : K)) ∧
    r'.x.len = r1.x.len ∧ r'.w.len = r1.w.len) ⟨fun i hi hi' => absurd hi (by omega), fun p _ _ _ hp => absurd hp (by omega), hr1.1, rfl, rfl⟩ (fun m hm s s' hI e => ?_) h
  · obtain ⟨h1, h2, h3, h4, h5⟩ := this
    obtain ⟨_, k1, k2, k3, k4⟩ := hr1
    exact ⟨h1, h2, h3, by omega, by omega, k3, k4⟩
  · obtain ⟨h1, h2, h3, h4, h5⟩ := hI
    obtain ⟨t, e1, e⟩ := Res.bind_eq_ok.1 e
    obtain ⟨wi, e2, e⟩ := Res.bind_eq_ok.1 e
    obtain ⟨_, rfl⟩ := fdiv_ok e2
    have hst := store_inv (y := fun i => xiOf (lobattoPoint tol ((n + 1 : Nat) : Int) (guess i))) (v := fun i => lwOf ((n + 1 : Nat) : Int) (lobattoPoint tol ((n + 1 : Nat) : Int) (guess i)))
      (lo := 1) (n := n + 1) (i := m + 1) (r := s) (r' := s') h2 (by simp only [e1, xiOf, lwOf]; exact e)
    obtain ⟨g1, g2, g3, g4, g5⟩ := hst
    refine ⟨fun i hi hi' => ?_, g2, ?_, by rw [g4, h4], by rw [g5, h5]⟩
    · rcases Nat.lt_or_eq_of_le hi' with h | rfl
      · exact h1 i hi (by omega)
      · exact ⟨t, e1⟩
    · have a := g3 0 (by omega) (by omega)
      have b := g3 n (by omega) (by omega)
      rw [a.1, a.2, b.1, b.2]
      exact h3

end

theorem leg_eval_neg (n : Nat) (x : ℝ) : (leg n).eval (-x) = (-1) ^ n * (leg n).eval x := by
  exact leg_neg n x

theorem dleg_neg_sq (n : Nat) (x : ℝ) : ((derivative (leg n)).eval (-x)) ^ 2 = ((derivative (leg n)).eval x) ^ 2 := by
  have h : (leg n).comp (-X) = C ((-1) ^ n) * leg n := by
    apply Polynomial.funext
    intro y
    rw [eval_comp, eval_neg, eval_X, leg_eval_neg, eval_mul, eval_C]
  have h2 := congrArg (fun p => (eval x (derivative p)) ^ 2) h
  simp only [derivative_comp, derivative_neg, derivative_X, eval_mul, eval_neg, eval_one, eval_comp, eval_X, derivative_C_mul, eval_C] at h2
  rcases neg_one_pow_eq_or ℝ n with h3 | h3 <;> rw [h3] at h2 <;> linear_combination h2

end Quad
end Verif
