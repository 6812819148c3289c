import Verif.Quad.Gauss

/-!
# C68: quadrature rules

`leg n` is the Legendre polynomial `P_n`, `newt n g k` the `k`-th iterate of Newton's method for `P_n` from `g`, and
`StopsAt res tol k` says that `k` is the first index with `|res k| ≤ tol`, or 100.
-/

namespace Verif
namespace Quad

open Polynomial Finset
open Basis (fdiv)

/-- The iteration for the interior Lobatto points: `y - D(y) / E(y)` with `D = (n + 1) / n * P_n'`. -/
noncomputable def lobD (n : Nat) (y : ℝ) : ℝ := ((n : ℝ) + 1) / n * (derivative (leg n)).eval y

/-- The iterates. -/
noncomputable def lobt (n : Nat) (g : ℝ) : Nat → ℝ
  | 0 => g
  | k + 1 => lobt n g k - lobD n (lobt n g k) /
      ((2 * lobt n g k * lobD n (lobt n g k) - (n : ℝ) * (n + 1) * (leg n).eval (lobt n g k)) / (1 - lobt n g k ^ 2))

theorem lobattoStep_inv {n : Nat} (hn : 2 ≤ n) {p2 x : ℝ} {s : Newton ℝ} (h : lobattoStep ((n + 1 : Nat) : Int) p2 x = .ok s) :
    x * x - 1 ≠ 0 ∧ s = ⟨(leg n).eval x, lobD n x, x - lobD n x / ((2 * x * lobD n x - (n : ℝ) * (n + 1) * (leg n).eval x) / (1 - x ^ 2))⟩ := by
  obtain ⟨m, rfl⟩ : ∃ m, n = m + 2 := ⟨n - 2, by omega⟩
  unfold lobattoStep at h
  have hc : (((m + 2 + 1 : Nat) : Int) - 2).toNat = m + 1 := by omega
  rw [hc, legLoop_eq, Res.bind_ok] at h
  simp only [Nat.succ_ne_zero, if_false] at h
  obtain ⟨d, e1, h⟩ := Res.bind_eq_ok.1 h
  obtain ⟨d2, e2, h⟩ := Res.bind_eq_ok.1 h
  obtain ⟨z, e3, h⟩ := Res.bind_eq_ok.1 h
  obtain ⟨h1, rfl⟩ := fdiv_ok e1
  obtain ⟨h2, rfl⟩ := fdiv_ok e2
  obtain ⟨h3, rfl⟩ := fdiv_ok e3
  cases h
  have hd : (x * (leg (m + 2)).eval x - (leg (m + 1)).eval x) * (((m + 2 + 1 : Nat) : Int) : ℝ) / (x * x - 1) = lobD (m + 2) x := by
    unfold lobD
    rw [leg_slope_at x h1]
    have : (m : ℝ) + 2 ≠ 0 := by positivity
    push_cast
    field_simp
    ring
  rw [show m + 1 + 1 = m + 2 from rfl, hd]
  refine ⟨h1, ?_⟩
  have : ((((m + 2 + 1 : Nat) : Int) * (((m + 2 + 1 : Nat) : Int) - 1) : Int) : ℝ) = (((m + 2 : Nat) : ℝ)) * (((m + 2 : Nat) : ℝ) + 1) := by
    push_cast; ring
  rw [this, ← pow_two]

/-- A Lobatto point. -/
theorem lobattoPoint_inv {n : Nat} (hn : 2 ≤ n) {tol g : ℝ} {s : Newton ℝ} (h : lobattoPoint tol ((n + 1 : Nat) : Int) g = .ok s) :
    ∃ k, StopsAt (fun k => lobD n (lobt n g k)) tol k ∧ s.p = (leg n).eval (lobt n g k) ∧
      s.d = lobD n (lobt n g k) ∧ s.xi = lobt n g (k + 1) := by
  unfold lobattoPoint at h
  obtain ⟨s0, e0, h⟩ := Res.bind_eq_ok.1 h
  obtain ⟨_, rfl⟩ := lobattoStep_inv hn e0
  obtain ⟨k, hk, rfl⟩ := iterate_inv (res := Newton.d) (step := fun s => lobattoStep ((n + 1 : Nat) : Int) s.p s.xi)
    (st := fun k => ⟨(leg n).eval (lobt n g k), lobD n (lobt n g k), lobt n g (k + 1)⟩) rfl
    (fun k s' e => (lobattoStep_inv hn e).2) h
  exact ⟨k, hk, rfl, rfl, rfl⟩

/-! ## Gauss -/

/-- C68: the points of a Gauss rule are zeros of `P_n` found by Newton's method, with their mirror images, in this order. -/
theorem C68_gauss {n : Nat} (hn : 2 ≤ n) {guess : Nat → ℝ} {tol : ℝ} {r r' : Rule ℝ} (h : gauss guess tol n r = .ok r') :
    ∃ k : Nat → Nat, (∀ i ≤ n / 2, StopsAt (fun j => (leg n).eval (newt n (guess i) j)) tol (k i)) ∧
      ∃ y v : Nat → ℝ, (∀ i ≤ n / 2, y i = newt n (guess i) (k i + 1) ∧
        v i = 2 / ((1 - y i ^ 2) * (derivative (leg n)).eval (newt n (guess i) (k i)) ^ 2)) ∧
      ∀ p < n, (p + n / 2 + 1 = n → r'.x.val p = y (n / 2) ∧ r'.w.val p = v (n / 2)) ∧
        (p ≤ n / 2 → p + n / 2 + 1 ≠ n → r'.x.val p = - y p ∧ r'.w.val p = v p) ∧
        (n / 2 < p → r'.x.val p = y (n - 1 - p) ∧ r'.w.val p = v (n - 1 - p)) := by
  obtain ⟨h1, h2, -⟩ := gauss_inv h
  have h3 : ∀ i, ∃ k, i ≤ n / 2 → StopsAt (fun j => (leg n).eval (newt n (guess i) j)) tol k ∧
      xiOf (gaussPoint tol n (guess i)) = newt n (guess i) (k + 1) ∧
      gwOf (gaussPoint tol n (guess i)) = 2 / ((1 - newt n (guess i) (k + 1) ^ 2) * (derivative (leg n)).eval (newt n (guess i) k) ^ 2) := by
    intro i
    by_cases hi : i ≤ n / 2
    · obtain ⟨s, e⟩ := h1 i hi
      obtain ⟨k, a, b, c, d⟩ := gaussPoint_inv hn e
      refine ⟨k, fun _ => ⟨a, ?_⟩⟩
      rw [e, xiOf, gwOf, c, d]
      refine ⟨rfl, ?_⟩
      rw [mul_assoc, ← pow_two, ← pow_two]
    · exact ⟨0, fun hh => absurd hh hi⟩
  choose k hk using h3
  refine ⟨k, fun i hi => (hk i hi).1, fun i => xiOf (gaussPoint tol n (guess i)), fun i => gwOf (gaussPoint tol n (guess i)),
    fun i hi => ⟨(hk i hi).2.1, ?_⟩, fun p hp => ⟨fun hh => ?_, fun hh hne => ?_, fun hh => ?_⟩⟩
  · dsimp only
    rw [(hk i hi).2.1]
    exact (hk i hi).2.2
  · have := h2 p hp (by omega) (by omega) (by omega)
    have hw : writer n (n / 2 + 1) p = (n / 2, true) := by
      unfold writer
      rw [if_pos (by omega)]
      congr 1
      omega
    rw [hw] at this
    simpa using this
  · have := h2 p hp (by omega) (by omega) (by omega)
    have hw : writer n (n / 2 + 1) p = (p, false) := by
      unfold writer
      rw [if_neg (by omega)]
    rw [hw] at this
    simpa using this
  · have := h2 p hp (by omega) (by omega) (by omega)
    have hw : writer n (n / 2 + 1) p = (n - 1 - p, true) := by
      unfold writer
      rw [if_pos (by omega)]
    rw [hw] at this
    simpa using this

/-- C68: Gauss rules are symmetric, whatever the iterations found. -/
theorem C68_gauss_symmetric {n : Nat} {guess : Nat → ℝ} {tol : ℝ} {r r' : Rule ℝ} (h : gauss guess tol n r = .ok r') {p : Nat} (hp : p < n) :
    r'.w.val (n - 1 - p) = r'.w.val p ∧ (2 * p + 1 ≠ n → r'.x.val (n - 1 - p) = - r'.x.val p) := by
  obtain ⟨h1, h2, -⟩ := gauss_inv h
  have ha := h2 p hp (by omega) (by omega) (by omega)
  have hb := h2 (n - 1 - p) (by omega) (by omega) (by omega) (by omega)
  by_cases hm : 2 * p + 1 = n
  · rw [show n - 1 - p = p by omega]
    exact ⟨rfl, fun hh => absurd hm hh⟩
  · have hw : (writer n (n / 2 + 1) (n - 1 - p)).1 = (writer n (n / 2 + 1) p).1 ∧
        (writer n (n / 2 + 1) (n - 1 - p)).2 = !(writer n (n / 2 + 1) p).2 := by
      unfold writer
      by_cases hc : n - 1 - p < n / 2 + 1 ∧ (p ≤ n - 1 - p ∨ ¬ p < n / 2 + 1)
      · rw [if_pos hc, if_neg (by omega)]
        exact ⟨rfl, rfl⟩
      · rw [if_neg hc, if_pos (by omega)]
        exact ⟨by dsimp only; omega, rfl⟩
    refine ⟨by rw [ha.2, hb.2, hw.1], fun _ => ?_⟩
    rw [ha.1, hb.1, hw.1, hw.2]
    cases (writer n (n / 2 + 1) p).2 <;> simp

/-- C68: only the first `n` entries of each array are written, and both arrays must have that many. -/
theorem C68_gauss_bounds {n : Nat} {guess : Nat → ℝ} {tol : ℝ} {r r' : Rule ℝ} (h : gauss guess tol n r = .ok r') :
    0 < n ∧ n ≤ r.x.len ∧ n ≤ r.w.len ∧ r'.x.len = r.x.len ∧ r'.w.len = r.w.len := by
  obtain ⟨_, _, h3, h4, h5, h6, h7⟩ := gauss_inv h
  exact ⟨by omega, h5, h6, h3, h4⟩

/-- C68: when the iterations end in zeros of `P_n`, and in different ones, the Gauss rule with `n` points integrates every
polynomial of degree at most `2 n - 1`. Missing: that Newton's method converges from the guesses, and rounding. -/
theorem C68_gauss_partial {n : Nat} (hn : 2 ≤ n) {guess : Nat → ℝ} {tol : ℝ} {r r' : Rule ℝ} (h : gauss guess tol n r = .ok r')
    (hz : ∀ i ≤ n / 2, ∀ k, StopsAt (fun j => (leg n).eval (newt n (guess i) j)) tol k → (leg n).eval (newt n (guess i) k) = 0)
    (hd : ∀ p < n, ∀ q < n, r'.x.val p = r'.x.val q → p = q) {f : ℝ[X]} (hf : f.natDegree ≤ 2 * n - 1) :
    ∫ t in (-1 : ℝ)..1, f.eval t = ∑ p ∈ range n, r'.w.val p * f.eval (r'.x.val p) := by
  obtain ⟨k, hk, y, v, hy, hp⟩ := C68_gauss hn h
  have hroot : ∀ i ≤ n / 2, (leg n).eval (y i) = 0 ∧ v i = 2 / ((1 - y i ^ 2) * (derivative (leg n)).eval (y i) ^ 2) := by
    intro i hi
    have h0 := hz i hi _ (hk i hi)
    have : y i = newt n (guess i) (k i) := by
      rw [(hy i hi).1, newt, h0]
      simp
    refine ⟨by rw [this]; exact h0, ?_⟩
    rw [(hy i hi).2, this]
  have hall : ∀ p < n, ∃ i ≤ n / 2, (r'.x.val p = y i ∨ r'.x.val p = - y i) ∧ r'.w.val p = v i := by
    intro p hpn
    obtain ⟨a, b, c⟩ := hp p hpn
    by_cases h1 : p + n / 2 + 1 = n
    · exact ⟨n / 2, le_refl _, .inl (a h1).1, (a h1).2⟩
    · by_cases h2 : p ≤ n / 2
      · exact ⟨p, h2, .inr (b h2 h1).1, (b h2 h1).2⟩
      · exact ⟨n - 1 - p, by omega, .inl (c (by omega)).1, (c (by omega)).2⟩
  refine gauss_rule (x := r'.x.val) (w := r'.w.val) (fun p hp q hq e => hd p (by simpa using hp) q (by simpa using hq) e) ?_ ?_ (by omega)
  · intro p hpn
    obtain ⟨i, hi, hx | hx, _⟩ := hall p hpn <;> rw [hx]
    · exact (hroot i hi).1
    · rw [leg_eval_neg, (hroot i hi).1, mul_zero]
  · intro p hpn
    obtain ⟨i, hi, hx | hx, hw⟩ := hall p hpn <;> rw [hx, hw, (hroot i hi).2]
    rw [dleg_neg_sq, neg_sq]

/-- C68: one point. The iteration does nothing, and the rule is the midpoint rule if `cos (PI / 2)` is zero. -/
theorem C68_gauss_one {guess : Nat → ℝ} {tol : ℝ} (ht : 0 ≤ tol) {r r' : Rule ℝ} (h : gauss guess tol 1 r = .ok r') :
    r'.x.val 0 = guess 0 ∧ (guess 0 = 0 → r'.w.val 0 = 2 ∧ ∀ f : ℝ[X], f.natDegree ≤ 1 →
      ∫ t in (-1 : ℝ)..1, f.eval t = r'.w.val 0 * f.eval (r'.x.val 0)) := by
  obtain ⟨h1, h2, -⟩ := gauss_inv (n := 1) h
  obtain ⟨s, e⟩ := h1 0 (by omega)
  have h3 := h2 0 (by omega) (by omega) (by omega) (by omega)
  have hw : writer 1 (1 / 2 + 1) 0 = (0, true) := rfl
  rw [hw] at h3
  dsimp only at h3
  rw [e] at h3
  simp only [xiOf, gwOf, if_true] at h3
  obtain ⟨h4, h5⟩ := gaussPoint_one ht e
  rw [h3.1, h4]
  refine ⟨rfl, fun hg => ?_⟩
  have hw2 : r'.w.val 0 = 2 := by
    rw [h3.2, h4, h5 hg, hg]
    norm_num
  refine ⟨hw2, fun f hf => ?_⟩
  have := gauss_rule (Q := 1) (x := fun _ => (0 : ℝ)) (w := fun _ => 2) (fun p hp q hq _ => by simp at hp hq; omega) (by simp [leg])
    (by simp [leg]) (f := f) (by omega)
  rw [hw2, hg]
  simp only [Finset.sum_range_one] at this
  exact this

/-- C68 (counterexample): no points, or minus one, are not refused; the function divides zero by zero, or writes before its arrays. -/
theorem C68_gauss_witness (guess : Nat → ℝ) (tol : ℝ) (r : Rule ℝ) : gauss guess tol 0 r = .ub ∧ gauss guess tol (-1) r = .ub := by
  have hb : ∀ (b : Buf ℝ) (z : Int) (v : ℝ), z < 0 → wrAt b z v = .ub := by
    intro b z v hz
    unfold wrAt
    rw [if_neg (by omega)]
  have hs : ∀ (Q : Int) (xi wi : ℝ) (r : Rule ℝ), Q ≤ 0 → ∀ r', store Q 0 xi wi r ≠ .ok r' := by
    intro Q xi wi r hQ r' e
    unfold store at e
    obtain ⟨w1, _, e⟩ := Res.bind_eq_ok.1 e
    rw [hb _ _ _ (by omega)] at e
    cases e
  have hf : ∀ x y : ℝ, ∀ c, fdiv x y ≠ .err c := by
    intro x y c
    unfold fdiv
    split <;> simp
  have hg : ∀ Q : Int, Q ≤ 0 → ∀ p2 xi : ℝ, ∀ c, gaussStep Q p2 xi ≠ .err c := by
    intro Q hQ p2 xi c e
    unfold gaussStep at e
    rw [legLoop_eq, Res.bind_ok] at e
    have hb2 : ∀ {β : Type} (x y : ℝ) (k : ℝ → Res β), (∀ z, k z ≠ .err c) → (fdiv x y >>= k) ≠ .err c := by
      intro β x y k hk e
      unfold fdiv at e
      split at e
      · cases e
      · rw [Res.bind_ok] at e
        exact hk _ e
    exact hb2 _ _ _ (fun d => hb2 _ _ _ (fun z e => by cases e)) e
  have hp : ∀ Q : Int, Q ≤ 0 → ∀ g : ℝ, ∀ c, gaussPoint tol Q g ≠ .err c := by
    intro Q hQ g c e
    unfold gaussPoint at e
    cases hstep : gaussStep Q 0 g with
    | err c => exact hg Q hQ _ _ _ hstep
    | ub => rw [hstep] at e; cases e
    | ok s =>
      rw [hstep, Res.bind_ok] at e
      have : ∀ m (s : Newton ℝ), loop m (fun _ s => if tol < |s.p| then gaussStep Q s.p s.xi else .ok s) s ≠ .err c := by
        intro m
        induction m with
        | zero => intro s e; cases e
        | succ m ih =>
          intro s e
          rw [loop_succ] at e
          cases hl : loop m (fun _ s => if tol < |s.p| then gaussStep Q s.p s.xi else .ok s) s with
          | err d => rw [hl] at e; cases e; exact ih s hl
          | ub => rw [hl] at e; cases e
          | ok t =>
            rw [hl, Res.bind_ok] at e
            split at e
            · exact hg Q hQ _ _ _ e
            · cases e
      exact this 100 s e
  have key : ∀ Q : Int, Q ≤ 0 → (Q.tdiv 2 + 1).toNat = 1 → gauss guess tol Q r = .ub := by
    intro Q hQ hc
    unfold gauss
    rw [hc, loop_succ]
    show (Res.ok r >>= _) = _
    rw [Res.bind_ok]
    cases hpt : gaussPoint tol Q (guess 0) with
    | err c => exact absurd hpt (hp Q hQ _ c)
    | ub => rfl
    | ok s =>
      rw [Res.bind_ok]
      cases hw : fdiv 2 ((1 - s.xi * s.xi) * s.d * s.d) with
      | err c => exact absurd hw (hf _ _ c)
      | ub => rfl
      | ok wi =>
        rw [Res.bind_ok]
        cases hst : store Q 0 s.xi wi r with
        | ok r' => exact absurd hst (hs Q _ _ _ hQ r')
        | ub => rfl
        | err c =>
          unfold store at hst
          unfold Buf.wr at hst
          split at hst
          · rw [Res.bind_ok, hb _ _ _ (by omega)] at hst
            cases hst
          · cases hst
  exact ⟨key 0 (by omega) (by decide), key (-1) (by omega) (by decide)⟩

/-! ## Lobatto -/

/-- C68: the points of a Lobatto rule. -/
theorem C68_lobatto {n : Nat} (hn : 1 ≤ n) {guess : Nat → ℝ} {tol : ℝ} {r r' : Rule ℝ}
    (h : lobatto guess tol ((n + 1 : Nat) : Int) r = .ok r') :
    (r'.x.val 0 = -1 ∧ r'.x.val n = 1 ∧ r'.w.val 0 = 2 / ((n : ℝ) * (n + 1)) ∧ r'.w.val n = 2 / ((n : ℝ) * (n + 1))) ∧
    ∃ k : Nat → Nat, (∀ i, 1 ≤ i → i ≤ n / 2 → StopsAt (fun j => lobD n (lobt n (guess i) j)) tol (k i)) ∧
      ∃ y v : Nat → ℝ, (∀ i, 1 ≤ i → i ≤ n / 2 → y i = lobt n (guess i) (k i + 1) ∧
        v i = 2 / ((n : ℝ) * (n + 1) * (leg n).eval (lobt n (guess i) (k i)) ^ 2)) ∧
      ∀ p, 1 ≤ p → p < n → (2 * p < n → r'.x.val p = - y p ∧ r'.w.val p = v p) ∧
        (n ≤ 2 * p → r'.x.val p = y (n - p) ∧ r'.w.val p = v (n - p)) := by
  obtain ⟨h1, h2, h3, -⟩ := lobatto_inv hn h
  have hQ : ((((n + 1 : Nat) : Int) * (((n + 1 : Nat) : Int) - 1) : Int) : ℝ) = (n : ℝ) * (n + 1) := by push_cast; ring
  rw [hQ] at h3
  refine ⟨h3, ?_⟩
  have h4 : ∀ i, ∃ k, 1 ≤ i → i ≤ n / 2 → StopsAt (fun j => lobD n (lobt n (guess i) j)) tol k ∧
      xiOf (lobattoPoint tol ((n + 1 : Nat) : Int) (guess i)) = lobt n (guess i) (k + 1) ∧
      lwOf ((n + 1 : Nat) : Int) (lobattoPoint tol ((n + 1 : Nat) : Int) (guess i)) = 2 / ((n : ℝ) * (n + 1) * (leg n).eval (lobt n (guess i) k) ^ 2) := by
    intro i
    by_cases hi : 1 ≤ i ∧ i ≤ n / 2
    · obtain ⟨s, e⟩ := h1 i hi.1 hi.2
      obtain ⟨k, a, b, c, d⟩ := lobattoPoint_inv (by omega) e
      refine ⟨k, fun _ _ => ⟨a, ?_⟩⟩
      rw [e, xiOf, lwOf, b, d, hQ]
      refine ⟨rfl, ?_⟩
      rw [mul_assoc (_ * _), ← pow_two]
    · exact ⟨0, fun h1 h2 => absurd ⟨h1, h2⟩ hi⟩
  choose k hk using h4
  refine ⟨k, fun i hi hi' => (hk i hi hi').1, fun i => xiOf (lobattoPoint tol ((n + 1 : Nat) : Int) (guess i)),
    fun i => lwOf ((n + 1 : Nat) : Int) (lobattoPoint tol ((n + 1 : Nat) : Int) (guess i)),
    fun i hi hi' => (hk i hi hi').2, fun p hp hpn => ⟨fun hh => ?_, fun hh => ?_⟩⟩
  · have := h2 p (by omega) hp (by omega) (by omega)
    have hw : writer (n + 1) (n / 2 + 1) p = (p, false) := by
      unfold writer
      rw [if_neg (by omega)]
    rw [hw] at this
    simpa using this
  · have := h2 p (by omega) hp (by omega) (by omega)
    have hw : writer (n + 1) (n / 2 + 1) p = (n - p, true) := by
      unfold writer
      rw [if_pos (by omega)]
      congr 1
    rw [hw] at this
    simpa using this

/-- C68: Lobatto rules are symmetric, whatever the iterations found. -/
theorem C68_lobatto_symmetric {n : Nat} (hn : 1 ≤ n) {guess : Nat → ℝ} {tol : ℝ} {r r' : Rule ℝ}
    (h : lobatto guess tol ((n + 1 : Nat) : Int) r = .ok r') {p : Nat} (hp : p ≤ n) :
    r'.w.val (n - p) = r'.w.val p ∧ (2 * p ≠ n → r'.x.val (n - p) = - r'.x.val p) := by
  obtain ⟨⟨h1, h2, h3, h4⟩, _, _, y, v, _, h5⟩ := C68_lobatto hn h
  by_cases h0 : p = 0
  · subst h0
    simp [h1, h2, h3, h4]
  by_cases h0' : p = n
  · subst h0'
    simp [h1, h2, h3, h4]
  have ha := h5 p (by omega) (by omega)
  have hb := h5 (n - p) (by omega) (by omega)
  have hc : n - (n - p) = p := by omega
  rw [hc] at hb
  rcases Nat.lt_trichotomy (2 * p) n with hh | hh | hh
  · have := ha.1 hh
    have hb := hb.2 (by omega)
    exact ⟨by rw [this.2, hb.2], fun _ => by rw [this.1, hb.1, neg_neg]⟩
  · rw [show n - p = p by omega]
    exact ⟨rfl, fun hne => absurd hh hne⟩
  · have := ha.2 (by omega)
    have hb := hb.1 (by omega)
    exact ⟨by rw [this.2, hb.2], fun _ => by rw [this.1, hb.1]⟩

/-- C68: arrays of a Lobatto rule. -/
theorem C68_lobatto_bounds {n : Nat} (hn : 1 ≤ n) {guess : Nat → ℝ} {tol : ℝ} {r r' : Rule ℝ}
    (h : lobatto guess tol ((n + 1 : Nat) : Int) r = .ok r') :
    n < r.x.len ∧ n < r.w.len ∧ r'.x.len = r.x.len ∧ r'.w.len = r.w.len := by
  obtain ⟨_, _, _, h4, h5, h6, h7⟩ := lobatto_inv hn h
  exact ⟨h6, h7, h4, h5⟩

/-- C68: fewer than two points are refused. -/
theorem C68_lobatto_few {guess : Nat → ℝ} {tol : ℝ} {r : Rule ℝ} {Q : Int} (hQ : Q ≤ 1) : lobatto guess tol Q r = .err .dimension := by
  unfold lobatto
  rw [Res.check, if_neg (by omega)]
  rfl

/-- C68: when the iterations end in zeros of `P_n'`, and in different ones, the Lobatto rule with `n + 1` points integrates
every polynomial of degree at most `2 n - 1`. Missing: that the iteration converges from the guesses, and rounding. -/
theorem C68_lobatto_partial {n : Nat} (hn : 1 ≤ n) {guess : Nat → ℝ} {tol : ℝ} {r r' : Rule ℝ}
    (h : lobatto guess tol ((n + 1 : Nat) : Int) r = .ok r')
    (hz : ∀ i, 1 ≤ i → i ≤ n / 2 → ∀ k, StopsAt (fun j => lobD n (lobt n (guess i) j)) tol k →
      (derivative (leg n)).eval (lobt n (guess i) k) = 0)
    (hd : ∀ p ≤ n, ∀ q ≤ n, r'.x.val p = r'.x.val q → p = q) {f : ℝ[X]} (hf : f.natDegree ≤ 2 * n - 1) :
    ∫ t in (-1 : ℝ)..1, f.eval t = ∑ p ∈ range (n + 1), r'.w.val p * f.eval (r'.x.val p) := by
  obtain ⟨⟨h1, h2, h3, h4⟩, k, hk, y, v, hy, h5⟩ := C68_lobatto hn h
  have hroot : ∀ i, 1 ≤ i → i ≤ n / 2 → (derivative (leg n)).eval (y i) = 0 ∧ v i = 2 / ((n : ℝ) * (n + 1) * (leg n).eval (y i) ^ 2) := by
    intro i hi hi'
    have h0 := hz i hi hi' _ (hk i hi hi')
    have : y i = lobt n (guess i) (k i) := by
      rw [(hy i hi hi').1, lobt]
      simp [lobD, h0]
    refine ⟨by rw [this]; exact h0, ?_⟩
    rw [(hy i hi hi').2, this]
  have hsq : ∀ x : ℝ, (leg n).eval (-x) ^ 2 = (leg n).eval x ^ 2 := by
    intro x
    rw [leg_eval_neg, mul_pow, ← pow_mul, mul_comm n, pow_mul]
    norm_num
  have hone : ∀ p, p = 0 ∨ p = n → (1 - r'.x.val p ^ 2) * (derivative (leg n)).eval (r'.x.val p) = 0 ∧
      r'.w.val p = 2 / ((n : ℝ) * (n + 1) * (leg n).eval (r'.x.val p) ^ 2) := by
    rintro p (rfl | rfl)
    · rw [h1, h3, (leg_sq_one n).2]; norm_num
    · rw [h2, h4, (leg_sq_one p).1]; norm_num
  have hin : ∀ p, 1 ≤ p → p < n → (1 - r'.x.val p ^ 2) * (derivative (leg n)).eval (r'.x.val p) = 0 ∧
      r'.w.val p = 2 / ((n : ℝ) * (n + 1) * (leg n).eval (r'.x.val p) ^ 2) := by
    intro p hp hpn
    obtain ⟨a, b⟩ := h5 p hp hpn
    by_cases hh : 2 * p < n
    · obtain ⟨hx, hw⟩ := a hh
      obtain ⟨r1, r2⟩ := hroot p hp (by omega)
      rw [hx, hw, r2, hsq]
      refine ⟨?_, rfl⟩
      have := dleg_neg_sq n (y p)
      rw [r1] at this
      have : (derivative (leg n)).eval (- y p) = 0 := by simpa using this
      rw [this, mul_zero]
    · obtain ⟨hx, hw⟩ := b (by omega)
      obtain ⟨r1, r2⟩ := hroot (n - p) (by omega) (by omega)
      rw [hx, hw, r2, r1, mul_zero]
      exact ⟨rfl, rfl⟩
  have hall : ∀ p < n + 1, (1 - r'.x.val p ^ 2) * (derivative (leg n)).eval (r'.x.val p) = 0 ∧
      r'.w.val p = 2 / ((n : ℝ) * (n + 1) * (leg n).eval (r'.x.val p) ^ 2) := by
    intro p hp
    by_cases h0 : p = 0 ∨ p = n
    · exact hone p h0
    · exact hin p (by omega) (by omega)
  exact lobatto_rule (x := r'.x.val) (w := r'.w.val) hn
    (fun p hp q hq e => hd p (by simp at hp; omega) q (by simp at hq; omega) e) (fun p hp => (hall p hp).1) (fun p hp => (hall p hp).2) (by omega)

end Quad
end Verif
