import Verif.Basis.QRFactor

/-!
# Application of the stored reflections, back substitution and products
-/

namespace Verif
namespace Basis

open Finset Restriction

set_option linter.unusedSectionVars false

variable {K : Type} [Field K] [LinearOrder K]

/-- An array read as a matrix with the given strides. -/
def strided (b : Buf K) (m n row col : Nat) : Matrix (Fin m) (Fin n) K := fun r c => b.val (r * row + c * col)

theorem applyQ_step {A matQ tau v : Buf K} {m n k row col i : Nat} (hi : i < k) (hk : k ≤ m) (hw : Window A 0 m n row col)
    (hQ : matQ.len = m * k) (ht : k ≤ tau.len) (hv : v.len = m) :
    ∃ A' v', (do
      let v ← loop (m - (i + 1)) (fun j' (v : Buf K) => do
        let x ← matQ.rd ((i + 1 + j') * k + i)
        v.wr (i + 1 + j') x) v
      let t ← tau.rd i
      let A ← reflect A (i * row) v i t (m - i) n row col
      Res.ok (A, v)) = .ok (A', v') ∧ v'.len = m ∧ A'.len = A.len ∧
      strided A' m n row col = houseM matQ tau m k i * strided A m n row col ∧
      ∀ x, (∀ r < m, ∀ c < n, x ≠ r * row + c * col) → A'.val x = A.val x := by
  have key := loop_inv (n := m - (i + 1)) (body := fun j' (v : Buf K) => do
        let x ← matQ.rd ((i + 1 + j') * k + i)
        v.wr (i + 1 + j') x) (s := v)
    (fun t w => w.len = m ∧ ∀ r, i < r → r < i + 1 + t → w.val r = matQ.val (i + k * r)) ⟨hv, by intro r h h'; omega⟩ ?_
  · obtain ⟨v', e, hl, hv'⟩ := key
    have hidx : ∀ i' c, i * row + (i' * row + c * col) = 0 + ((i + i') * row + c * col) := by intro i' c; ring
    have hwin : Window A (i * row) (m - i) n row col := by
      refine ⟨?_, ?_⟩
      · intro a ha b hb c hc d hd h
        have := hw.inj (i + a) (by omega) b hb (i + c) (by omega) d hd (by linear_combination h)
        exact ⟨by omega, this.2⟩
      · intro a ha b hb
        rw [hidx]
        exact hw.lt _ (by omega) b hb
    obtain ⟨A', e2, hl2, h2, h2'⟩ := reflect_ok (v := v') (vo := i) (tau.val i) (show 1 ≤ m - i by omega) hwin (by omega)
    refine ⟨A', v', ?_, hl, hl2, ?_, ?_⟩
    · rw [e, Res.bind_ok, Buf.rd_lt (by omega), Res.bind_ok, e2, Res.bind_ok]
    · ext r c
      rw [houseM_mul]
      simp only [strided]
      have hu : ∀ q, i < q → q < m → matQ.val (i + k * q) = v'.val q := fun q h h' => (hv' q h (by omega)).symm
      by_cases hr : r.val < i
      · rw [show uvec matQ k i r = 0 by simp [uvec, hr]]
        rw [h2' _ (by
          intro a ha b hb h'
          rw [hidx] at h'
          have := (hw.inj r r.isLt c c.isLt (i + a) (by omega) b hb (by omega)).1
          omega)]
        ring
      · have h3 := h2 (r - i) (by omega) c c.isLt
        simp only [hidx] at h3
        rw [show i + (r.val - i) = r.val by omega, Nat.zero_add] at h3
        rw [h3, sum_uvec_hvec (show i < m by omega) hu (fun q => A.val (0 + (q * row + c * col)))]
        have : hvec v' i (r - i) = uvec matQ k i r := by
          unfold hvec uvec
          by_cases h : r.val = i
          · simp [h]
          · rw [if_neg (by omega), if_neg hr, if_neg h, hu r (by omega) r.isLt, show i + (r.val - i) = r.val by omega]
        rw [this, ← Fin.sum_univ_eq_sum_range (fun q => uvec matQ k i q * A.val (0 + (q * row + c * col)))]
        simp only [Nat.zero_add]
    · intro x hx
      refine h2' x ?_
      intro a ha b hb h'
      rw [hidx, Nat.zero_add] at h'
      exact hx _ (by omega) b hb h'
  · intro t ht' w ⟨h1, h2⟩
    have hlt : (i + 1 + t) * k + i < matQ.len := by
      rw [hQ, show (i + 1 + t) * k + i = i + k * (i + 1 + t) by ring]
      exact idx_lt hi (by omega)
    refine ⟨_, by rw [Buf.rd_lt hlt, Res.bind_ok, Buf.wr_lt (by omega)], ?_, ?_⟩
    · exact h1
    · intro r h h'
      simp only
      split
      · next hh => rw [hh]; congr 1; ring
      · exact h2 r h (by omega)

/-- The stored orthogonal matrix, or its transpose, is applied. -/
theorem applyQ_ok {A matQ tau : Buf K} {m n k row col : Nat} (v0 : Nat → K) (tm : TMode) (hk : k ≤ m) (hw : Window A 0 m n row col)
    (hQ : matQ.len = m * k) (ht : k ≤ tau.len) :
    ∃ A', applyQ v0 A matQ tau tm m n k row col = .ok A' ∧ A'.len = A.len ∧
      strided A' m n row col = (if tm = .transpose then qtM matQ tau m k k else (qtM matQ tau m k k).transpose) *
        strided A m n row col ∧
      ∀ x, (∀ r < m, ∀ c < n, x ≠ r * row + c * col) → A'.val x = A.val x := by
  by_cases htm : tm = .transpose
  · have key := loop_inv (n := k) (body := fun ii (s : Buf K × Buf K) => do
      let i := if tm = .transpose then ii else k - 1 - ii
      let v ← loop (m - (i + 1)) (fun j' v => do
        let x ← matQ.rd ((i + 1 + j') * k + i)
        v.wr (i + 1 + j') x) s.2
      let t ← tau.rd i
      let A ← reflect s.1 (i * row) v i t (m - i) n row col
      Res.ok (A, v)) (s := (A, ⟨m, v0⟩))
      (fun ii s => s.2.len = m ∧ s.1.len = A.len ∧ strided s.1 m n row col = qtM matQ tau m k ii * strided A m n row col ∧
        ∀ x, (∀ r < m, ∀ c < n, x ≠ r * row + c * col) → s.1.val x = A.val x)
      ⟨rfl, rfl, by simp [qtM], fun _ _ => rfl⟩ ?_
    · obtain ⟨⟨A', v'⟩, e, _, h2, h3, h4⟩ := key
      refine ⟨A', ?_, h2, ?_, h4⟩
      · unfold applyQ
        rw [e, Res.bind_ok]
      · rw [if_pos htm]; exact h3
    · intro i hi ⟨B, v⟩ ⟨h1, h2, h3, h4⟩
      obtain ⟨A', v', e, g1, g2, g3, g4⟩ := applyQ_step (i := i) (A := B) hi hk ⟨hw.inj, fun a ha b hb => h2 ▸ hw.lt a ha b hb⟩ hQ ht h1
      refine ⟨(A', v'), ?_, g1, g2.trans h2, ?_, ?_⟩
      · rw [if_pos htm]; exact e
      · simp only; rw [g3, h3, qtM, Matrix.mul_assoc]
      · intro x hx
        exact (g4 x hx).trans (h4 x hx)
  · have key := loop_inv (n := k) (body := fun ii (s : Buf K × Buf K) => do
      let i := if tm = .transpose then ii else k - 1 - ii
      let v ← loop (m - (i + 1)) (fun j' v => do
        let x ← matQ.rd ((i + 1 + j') * k + i)
        v.wr (i + 1 + j') x) s.2
      let t ← tau.rd i
      let A ← reflect s.1 (i * row) v i t (m - i) n row col
      Res.ok (A, v)) (s := (A, ⟨m, v0⟩))
      (fun ii s => s.2.len = m ∧ s.1.len = A.len ∧
        (qtM matQ tau m k (k - ii)).transpose * strided s.1 m n row col = (qtM matQ tau m k k).transpose * strided A m n row col ∧
        ∀ x, (∀ r < m, ∀ c < n, x ≠ r * row + c * col) → s.1.val x = A.val x)
      ⟨rfl, rfl, by simp, fun _ _ => rfl⟩ ?_
    · obtain ⟨⟨A', v'⟩, e, _, h2, h3, h4⟩ := key
      refine ⟨A', ?_, h2, ?_, h4⟩
      · unfold applyQ
        rw [e, Res.bind_ok]
      · rw [if_neg htm, ← h3]; simp [qtM]
    · intro ii hi ⟨B, v⟩ ⟨h1, h2, h3, h4⟩
      obtain ⟨A', v', e, g1, g2, g3, g4⟩ := applyQ_step (i := k - 1 - ii) (A := B) (by omega) hk
        ⟨hw.inj, fun a ha b hb => h2 ▸ hw.lt a ha b hb⟩ hQ ht h1
      refine ⟨(A', v'), ?_, g1, g2.trans h2, ?_, ?_⟩
      · rw [if_neg htm]; exact e
      · simp only
        rw [g3, ← h3, ← Matrix.mul_assoc]
        congr 1
        rw [show k - ii = (k - 1 - ii) + 1 by omega, qtM, Matrix.transpose_mul, houseM_transpose]
        congr 3
        omega
      · intro x hx
        exact (g4 x hx).trans (h4 x hx)

/-- Back substitution of one column solves the triangular system. -/
theorem backCol_ok {I R p : Buf K} {m n j : Nat} (hn : 0 < n) (hnm : n ≤ m) (hj : j < m) (hI : I.len = m * m) (hR : R.len = m * n)
    (hp : p.len = n * m) (hd : ∀ k < n, R.val (k + n * k) ≠ 0) :
    ∃ p', backCol I R m n j p = .ok p' ∧ p'.len = p.len ∧
      (∀ r < n, R.val (r + n * r) * p'.val (j + m * r) +
        ∑ k ∈ range (n - (r + 1)), R.val (r + 1 + k + n * r) * p'.val (j + m * (r + 1 + k)) = I.val (j + m * r)) ∧
      ∀ x, (∀ r < n, x ≠ j + m * r) → p'.val x = p.val x := by
  have hIx : ∀ r < n, j + m * r < I.len := by
    intro r hr; rw [hI]; exact idx_lt hj (by omega)
  have hRx : ∀ c < n, ∀ r < n, c + n * r < R.len := by
    intro c hc r hr; rw [hR]; exact idx_lt hc (by omega)
  have hpx : ∀ r < n, j + m * r < p.len := by
    intro r hr; rw [hp]; exact idx_lt hj hr
  have hnn : n * n - 1 = (n - 1) + n * (n - 1) := by
    obtain ⟨q, rfl⟩ : ∃ q, n = q + 1 := ⟨n - 1, by omega⟩
    have : (q + 1) * (q + 1) = q + (q + 1) * q + 1 := by ring
    rw [this]; rfl
  have hinj : ∀ a b, j + m * a = j + m * b → a = b := fun a b h => (idx_inj hj hj h).2
  have key := loop_inv (n := n - 1) (body := fun t (p : Buf K) => do
    let i := n - 2 - t
    let x ← I.rd (j + m * i)
    let p ← p.wr (j + m * i) x
    let p ← loop (n - (i + 1)) (fun k' p => do
      let k := i + 1 + k'
      let x ← p.rd (j + m * i)
      let r ← R.rd (k + n * i)
      let y ← p.rd (j + m * k)
      p.wr (j + m * i) (x - r * y)) p
    let x ← p.rd (j + m * i)
    let r ← R.rd (i + n * i)
    let z ← fdiv x r
    p.wr (j + m * i) z)
    (s := ⟨p.len, fun x => if x = j + m * (n - 1) then I.val (j + m * (n - 1)) / R.val ((n - 1) + n * (n - 1)) else p.val x⟩)
    (fun t w => w.len = p.len ∧
      (∀ r < n, n - 1 - t ≤ r → R.val (r + n * r) * w.val (j + m * r) +
        ∑ k ∈ range (n - (r + 1)), R.val (r + 1 + k + n * r) * w.val (j + m * (r + 1 + k)) = I.val (j + m * r)) ∧
      ∀ x, (∀ r < n, x ≠ j + m * r) → w.val x = p.val x)
    ⟨rfl, ?_, ?_⟩ ?_
  · obtain ⟨p', e, h1, h2, h3⟩ := key
    refine ⟨p', ?_, h1, fun r hr => h2 r hr (by omega), h3⟩
    unfold backCol
    rw [Buf.rd_lt (hIx _ (by omega)), Res.bind_ok, hnn, Buf.rd_lt (hRx _ (by omega) _ (by omega)), Res.bind_ok,
      fdiv_ok (hd _ (by omega)), Res.bind_ok, Buf.wr_lt (hpx _ (by omega)), Res.bind_ok]
    exact e
  · intro r hr hr'
    have : r = n - 1 := by omega
    subst this
    rw [show n - (n - 1 + 1) = 0 by omega]
    simp only [range_zero, sum_empty, add_zero, if_true]
    exact mul_div_cancel₀ _ (hd _ hr)
  · intro x hx
    simp only
    rw [if_neg (hx _ (by omega))]
  · intro t ht w ⟨h1, h2, h3⟩
    generalize hi : n - 2 - t = i
    have hin : i + 1 < n := by omega
    have key2 := loop_inv (n := n - (i + 1)) (body := fun k' (p : Buf K) => do
        let k := i + 1 + k'
        let x ← p.rd (j + m * i)
        let r ← R.rd (k + n * i)
        let y ← p.rd (j + m * k)
        p.wr (j + m * i) (x - r * y)) (s := ⟨w.len, fun x => if x = j + m * i then I.val (j + m * i) else w.val x⟩)
      (fun T q => q.len = w.len ∧ q.val (j + m * i) = I.val (j + m * i) -
          ∑ k ∈ range T, R.val (i + 1 + k + n * i) * w.val (j + m * (i + 1 + k)) ∧
        ∀ x, x ≠ j + m * i → q.val x = w.val x)
      ⟨rfl, by simp, by intro x hx; simp only; rw [if_neg hx]⟩ ?_
    · obtain ⟨q, e, g1, g2, g3⟩ := key2
      refine ⟨⟨q.len, fun x => if x = j + m * i then q.val (j + m * i) / R.val (i + n * i) else q.val x⟩, ?_, ?_, ?_, ?_⟩
      · simp only
        rw [Buf.rd_lt (hIx i (by omega)), Res.bind_ok, Buf.wr_lt (by rw [h1]; exact hpx i (by omega)), Res.bind_ok, e, Res.bind_ok,
          Buf.rd_lt (by rw [g1, h1]; exact hpx i (by omega)), Res.bind_ok, Buf.rd_lt (hRx _ (by omega) _ (by omega)), Res.bind_ok,
          fdiv_ok (hd i (by omega)), Res.bind_ok, Buf.wr_lt (by rw [g1, h1]; exact hpx i (by omega))]
      · exact g1.trans h1
      · intro r hr hr'
        simp only
        have hsum : ∑ k ∈ range (n - (r + 1)), R.val (r + 1 + k + n * r) *
            (if j + m * (r + 1 + k) = j + m * i then q.val (j + m * i) / R.val (i + n * i) else q.val (j + m * (r + 1 + k))) =
            ∑ k ∈ range (n - (r + 1)), R.val (r + 1 + k + n * r) * w.val (j + m * (r + 1 + k)) := by
          refine sum_congr rfl fun k hk => ?_
          have hne : ¬ j + m * (r + 1 + k) = j + m * i := by
            intro h; have := hinj _ _ h; omega
          rw [if_neg hne, g3 _ hne]
        rw [hsum]
        by_cases hri : r = i
        · subst hri
          rw [if_pos rfl, mul_div_cancel₀ _ (hd r hr), g2]
          ring
        · have hne : ¬ j + m * r = j + m * i := fun h => hri (hinj _ _ h)
          rw [if_neg hne, g3 _ hne]
          exact h2 r hr (by omega)
      · intro x hx
        simp only
        rw [if_neg (hx i (by omega)), g3 x (hx i (by omega)), h3 x hx]
    · intro T hT q ⟨g1, g2, g3⟩
      have hlt : j + m * i < q.len := by rw [g1, h1]; exact hpx i (by omega)
      refine ⟨_, by
        simp only
        rw [Buf.rd_lt hlt, Res.bind_ok, Buf.rd_lt (hRx _ (by omega) _ (by omega)), Res.bind_ok,
          Buf.rd_lt (by rw [g1, h1]; exact hpx _ (by omega)), Res.bind_ok, Buf.wr_lt hlt], ?_, ?_, ?_⟩
      · exact g1
      · simp only [if_true]
        rw [g2, sum_range_succ, g3 _ (by intro h; have := hinj _ _ h; omega)]
        ring
      · intro x hx
        simp only
        rw [if_neg hx, g3 x hx]

theorem matmul_ok {A B C : Buf K} {m n kk : Nat} (hA : A.len = m * kk) (hB : B.len = kk * n) (hC : C.len = m * n) :
    ∃ C', matmul A B C m n kk = .ok C' ∧ C'.len = m * n ∧ asMat C' m n = asMat A m kk * asMat B kk n := by
  have hAx : ∀ k < kk, ∀ i < m, k + i * kk < A.len := by
    intro k hk i hi; rw [hA, Nat.mul_comm i kk]; exact idx_lt hk hi
  have hBx : ∀ j < n, ∀ k < kk, j + k * n < B.len := by
    intro j hj k hk; rw [hB, Nat.mul_comm k n]; exact idx_lt hj hk
  have key := loop_inv (n := m) (body := fun i (C : Buf K) => loop n (fun j C => do
    let s ← loop kk (fun k s => do
      let x ← A.rd (k + i * kk)
      let y ← B.rd (j + k * n)
      .ok (s + x * y)) 0
    C.wr (j + i * n) s) C) (s := C)
    (fun I D => D.len = m * n ∧ ∀ i < I, ∀ j < n, D.val (j + n * i) = ∑ k ∈ range kk, A.val (k + kk * i) * B.val (j + n * k))
    ⟨hC, by intro i hi; omega⟩ ?_
  · obtain ⟨C', e, h1, h2⟩ := key
    refine ⟨C', e, h1, ?_⟩
    ext r c
    rw [Matrix.mul_apply]
    simp only [asMat]
    rw [h2 r r.isLt c c.isLt, Fin.sum_univ_eq_sum_range (fun k => A.val (k + kk * r) * B.val (c + n * k))]
  · intro i hi D ⟨hD, hD'⟩
    have key2 := loop_inv (n := n) (body := fun j (C : Buf K) => do
      let s ← loop kk (fun k s => do
        let x ← A.rd (k + i * kk)
        let y ← B.rd (j + k * n)
        .ok (s + x * y)) 0
      C.wr (j + i * n) s) (s := D)
      (fun J E => E.len = m * n ∧
        (∀ j < J, E.val (j + n * i) = ∑ k ∈ range kk, A.val (k + kk * i) * B.val (j + n * k)) ∧
        ∀ i' < i, ∀ j < n, E.val (j + n * i') = D.val (j + n * i'))
      ⟨hD, by intro j hj; omega, fun _ _ _ _ => rfl⟩ ?_
    · obtain ⟨E, e, h1, h2, h3⟩ := key2
      refine ⟨E, e, h1, ?_⟩
      intro i' hi' j hj
      by_cases h : i' = i
      · subst h; exact h2 j hj
      · rw [h3 i' (by omega) j hj, hD' i' (by omega) j hj]
    · intro j hj E ⟨h1, h2, h3⟩
      have hs : loop kk (fun k s => do
        let x ← A.rd (k + i * kk)
        let y ← B.rd (j + k * n)
        Res.ok (s + x * y)) 0 = .ok (∑ k ∈ range kk, A.val (k + kk * i) * B.val (j + n * k)) := by
        refine loop_pure (f := fun t => ∑ k ∈ range t, A.val (k + kk * i) * B.val (j + n * k)) (by simp) ?_
        intro k hk
        rw [Buf.rd_lt (hAx k hk i hi), Res.bind_ok, Buf.rd_lt (hBx j hj k hk), Res.bind_ok, sum_range_succ, Nat.mul_comm i kk,
          Nat.mul_comm k n]
      have hlt : j + i * n < E.len := by rw [h1, Nat.mul_comm i n]; exact idx_lt hj hi
      refine ⟨_, by rw [hs, Res.bind_ok, Buf.wr_lt hlt], ?_, ?_, ?_⟩
      · exact h1
      · intro j' hj'
        simp only
        rw [Nat.mul_comm i n]
        by_cases h : j' = j
        · subst h; simp
        · rw [if_neg (by omega)]
          exact h2 j' (by omega)
      · intro i' hi' j' hj'
        simp only
        rw [Nat.mul_comm i n, if_neg, h3 i' hi' j' hj']
        intro h
        have := (idx_inj hj' hj h).2
        omega

end Basis
end Verif
