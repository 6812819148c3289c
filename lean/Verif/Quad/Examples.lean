import Verif.Quad.Props

/-!
# C68: concrete rules
-/

namespace Verif
namespace Quad

open Polynomial Finset
open Basis (fdiv)

/-- Arrays of zeros. -/
def zeros (K : Type) [Field K] (n : Nat) : Rule K := ⟨⟨n, fun _ => 0⟩, ⟨n, fun _ => 0⟩⟩

/-- What a run stores. -/
def shown {K : Type} (n : Nat) (r : Res (Rule K)) : Option (List K × List K) := match r with
  | .ok r => some ((List.range n).map r.x.val, (List.range n).map r.w.val)
  | _ => none

/-- The rule with one point. -/
example : shown 1 (gauss (fun _ => (0 : ℚ)) 0 1 (zeros ℚ 1)) = some ([0], [2]) := by decide +kernel

/-- The rules with two and three Lobatto points: the trapezoidal rule and Simpson's. -/
example : shown 2 (lobatto (fun _ => (0 : ℚ)) 0 2 (zeros ℚ 2)) = some ([-1, 1], [1, 1]) := by decide +kernel
example : shown 3 (lobatto (fun _ => (0 : ℚ)) 0 3 (zeros ℚ 3)) = some ([-1, 0, 1], [1 / 3, 4 / 3, 1 / 3]) := by decide +kernel

/-- The five point Gauss rule has its middle point at zero and the weight 128/225 there: the iterations end where they begin
with a generous tolerance. -/
example : (match gauss (fun i => if i = 0 then (9 / 10 : ℚ) else if i = 1 then 5 / 9 else 0) (1 / 10) 5 (zeros ℚ 5) with
    | .ok r => (r.x.val 2, r.w.val 2, r.x.val 0 + r.x.val 4, decide (|r.x.val 4 - 9061798 / 10000000| < 1 / 1000))
    | _ => (1, 1, 1, false)) = (0, 128 / 225, 0, true) := by decide +kernel

/-- Arrays that are too short. -/
example : shown 2 (gauss (fun i => if i = 0 then (1 / 2 : ℚ) else -1 / 2) 1 2 (zeros ℚ 1)) = none := by decide +kernel

/-- From a zero the iteration does not move. -/
theorem gaussPoint_root {n : Nat} (hn : 2 ≤ n) {tol g : ℝ} (ht : 0 ≤ tol) (hg : (leg n).eval g = 0) (h1 : g * g - 1 ≠ 0)
    (hd : (derivative (leg n)).eval g ≠ 0) : gaussPoint tol n g = .ok ⟨0, (derivative (leg n)).eval g, g⟩ := by
  obtain ⟨m, rfl⟩ : ∃ m, n = m + 2 := ⟨n - 2, by omega⟩
  have hs : ∀ p2, gaussStep ((m + 2 : Nat) : Int) p2 g = .ok ⟨0, (derivative (leg (m + 2))).eval g, g⟩ := by
    intro p2
    unfold gaussStep
    have hc : (((m + 2 : Nat) : Int) - 1).toNat = m + 1 := by omega
    rw [hc, legLoop_eq, Res.bind_ok]
    simp only [Nat.succ_ne_zero, if_false]
    have hd' : (g * (leg (m + 2)).eval g - (leg (m + 1)).eval g) * (((m + 2 : Nat) : Int) : ℝ) / (g * g - 1) = (derivative (leg (m + 2))).eval g := by
      rw [leg_slope_at g h1]
      push_cast
      ring
    unfold fdiv
    rw [if_neg h1, Res.bind_ok, show m + 1 + 1 = m + 2 from rfl, hd', if_neg hd, Res.bind_ok, hg]
    simp
  unfold gaussPoint
  rw [hs, Res.bind_ok]
  refine loop_pure (f := fun _ => _) rfl fun i _ => ?_
  rw [if_neg (by simpa using ht)]

theorem store_ok {K : Type} [Field K] [LinearOrder K] {n i : Nat} (hi : i < n) {xi wi : K} {r : Rule K} (hx : r.x.len = n) (hw : r.w.len = n) :
    store n i xi wi r = .ok ⟨⟨n, fun p => if p = n - 1 - i then xi else if p = i then -xi else r.x.val p⟩,
      ⟨n, fun p => if p = n - 1 - i then wi else if p = i then wi else r.w.val p⟩⟩ := by
  have ht : ((n : Int) - 1 - i).toNat = n - 1 - i := by omega
  unfold store wrAt
  rw [Buf.wr_lt (by omega), Res.bind_ok, if_pos (by omega), ht, Buf.wr_lt (by dsimp only; omega), Res.bind_ok, Buf.wr_lt (by omega), Res.bind_ok,
    if_pos (by omega), Buf.wr_lt (by dsimp only; omega), Res.bind_ok, hx, hw]

theorem leg_two (x : ℝ) : (leg 2).eval x = (3 * x ^ 2 - 1) / 2 := by
  rw [leg_next 0]; simp [leg]; ring

theorem dleg_two (x : ℝ) : (derivative (leg 2)).eval x = 3 * x := by
  have h := (leg_deriv 1).1
  rw [show (1 : ℕ) + 1 = 2 from rfl] at h
  rw [h]
  simp [leg]
  ring

/-- The two point Gauss rule: the hypotheses of the theorems are met, with points `-s` and `s` for `3 s^2 = 1`. -/
theorem two_points : ∃ (s : ℝ) (r' : Rule ℝ), 3 * s ^ 2 = 1 ∧ 0 < s ∧
    gauss (fun i => if i = 0 then s else -s) 0 ((2 : Nat) : Int) (zeros ℝ 2) = .ok r' ∧
    (∀ i ≤ 2 / 2, ∀ k, StopsAt (fun j => (leg 2).eval (newt 2 (if i = 0 then s else -s) j)) 0 k →
      (leg 2).eval (newt 2 (if i = 0 then s else -s) k) = 0) ∧
    (∀ p < 2, ∀ q < 2, r'.x.val p = r'.x.val q → p = q) ∧ r'.x.val 0 = -s ∧ r'.x.val 1 = s ∧ r'.w.val 0 = 1 ∧ r'.w.val 1 = 1 := by
  refine ⟨1 / √3, ?_⟩
  have hs : 3 * (1 / √3 : ℝ) ^ 2 = 1 := by
    rw [div_pow, Real.sq_sqrt (by norm_num)]; norm_num
  have hp : 0 < (1 / √3 : ℝ) := by positivity
  generalize (1 / √3 : ℝ) = s at hs hp
  have hroot : ∀ i : Nat, (leg 2).eval (if i = 0 then s else -s) = 0 := by
    intro i; rw [leg_two]; split <;> nlinarith
  have hpt : ∀ i : Nat, gaussPoint 0 ((2 : Nat) : Int) (if i = 0 then s else -s) =
      .ok ⟨0, (derivative (leg 2)).eval (if i = 0 then s else -s), if i = 0 then s else -s⟩ := by
    intro i
    refine gaussPoint_root (by omega) (le_refl _) (hroot i) ?_ ?_
    · split <;> nlinarith
    · rw [dleg_two]
      split <;> [skip; skip] <;> intro h <;> nlinarith
  have hw : ∀ i : Nat, fdiv 2 ((1 - (if i = 0 then s else -s) * (if i = 0 then s else -s)) *
      (derivative (leg 2)).eval (if i = 0 then s else -s) * (derivative (leg 2)).eval (if i = 0 then s else -s)) = .ok (1 : ℝ) := by
    intro i
    have : ((1 - (if i = 0 then s else -s) * (if i = 0 then s else -s)) *
      (derivative (leg 2)).eval (if i = 0 then s else -s) * (derivative (leg 2)).eval (if i = 0 then s else -s)) = 2 := by
      rw [dleg_two]
      split
      · have : s * s = 1 / 3 := by nlinarith
        calc _ = (1 - s * s) * 9 * (s * s) := by ring
          _ = 2 := by rw [this]; norm_num
      · have : s * s = 1 / 3 := by nlinarith
        calc _ = (1 - s * s) * 9 * (s * s) := by ring
          _ = 2 := by rw [this]; norm_num
    rw [this]
    unfold fdiv
    norm_num
  refine ⟨⟨⟨2, fun p => if p = 0 then -s else if p = 1 then s else 0⟩, ⟨2, fun p => if p = 0 then 1 else if p = 1 then 1 else 0⟩⟩, hs, hp, ?_, ?_, ?_, rfl, rfl, rfl, rfl⟩
  · unfold gauss
    rw [show (((2 : Nat) : Int).tdiv 2 + 1).toNat = 1 + 1 by decide, loop_succ, loop_succ]
    show ((Res.ok (zeros ℝ 2) >>= _) >>= _) = _
    rw [Res.bind_ok, hpt, Res.bind_ok]
    dsimp only
    rw [hw 0, Res.bind_ok, store_ok (n := 2) (by omega) rfl rfl, Res.bind_ok, hpt, Res.bind_ok]
    dsimp only
    rw [hw 1, Res.bind_ok, store_ok (n := 2) (by omega) rfl rfl]
    congr 3 <;> funext p <;> rcases p with _ | _ | p <;> simp [zeros]
  · intro i _ k hk
    have : k = 0 := by
      refine stopsAt_unique hk ⟨by omega, .inl ?_, fun j hj => absurd hj (by omega)⟩
      show |(leg 2).eval (newt 2 _ 0)| ≤ 0
      rw [newt, hroot]
      simp
    rw [this, newt]
    exact hroot i
  · intro p hp' q hq h
    have : p = 0 ∨ p = 1 := by omega
    have hq' : q = 0 ∨ q = 1 := by omega
    rcases this with rfl | rfl <;> rcases hq' with rfl | rfl <;> simp at h ⊢ <;> linarith

/-- The two point rule integrates cubics: `x^2` has integral 2/3. -/
example : ∃ (s : ℝ) (r' : Rule ℝ), gauss (fun i => if i = 0 then s else -s) 0 ((2 : Nat) : Int) (zeros ℝ 2) = .ok r' ∧
    ∀ f : ℝ[X], f.natDegree ≤ 3 → ∫ t in (-1 : ℝ)..1, f.eval t = f.eval (-s) + f.eval s := by
  obtain ⟨s, r', _, _, h, hz, hd, a, b, c, d⟩ := two_points
  refine ⟨s, r', h, fun f hf => ?_⟩
  rw [C68_gauss_partial (n := 2) (le_refl _) h hz hd (f := f) (by omega), Finset.sum_range_succ, Finset.sum_range_one, a, b, c, d]
  ring

end Quad
end Verif
