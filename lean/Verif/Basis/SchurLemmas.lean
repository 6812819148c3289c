import Verif.Basis.Schur
import Verif.Basis.PinvProps

/-!
# Effects of the loops of the symmetric Schur decomposition
-/

namespace Verif
namespace Basis

open Finset Restriction

set_option linter.unusedSectionVars false

variable {K : Type} [Field K] [LinearOrder K]

/-! ## Reflections -/

/-- `1 - t u uᵀ`. -/
def refl {n : Nat} (u : Fin n → K) (t : K) : Matrix (Fin n) (Fin n) K := 1 - t • Matrix.vecMulVec u u

theorem refl_mul {n q : Nat} (u : Fin n → K) (t : K) (B : Matrix (Fin n) (Fin q) K) (r : Fin n) (c : Fin q) :
    (refl u t * B) r c = B r c - t * u r * ∑ k, u k * B k c := by
  unfold refl
  rw [Matrix.sub_mul, Matrix.one_mul, Matrix.sub_apply, Matrix.smul_mul, Matrix.smul_apply, Matrix.mul_apply, smul_eq_mul]
  simp only [Matrix.vecMulVec_apply]
  rw [mul_assoc]
  congr 2
  rw [mul_sum]
  exact sum_congr rfl fun k _ => by ring

theorem refl_transpose {n : Nat} (u : Fin n → K) (t : K) : (refl u t).transpose = refl u t := by
  ext r c
  simp only [refl, Matrix.transpose_apply, Matrix.sub_apply, Matrix.smul_apply, Matrix.vecMulVec_apply, Matrix.one_apply]
  simp only [eq_comm (a := c) (b := r), mul_comm]

theorem mul_refl {n q : Nat} (u : Fin n → K) (t : K) (B : Matrix (Fin q) (Fin n) K) (r : Fin q) (c : Fin n) :
    (B * refl u t) r c = B r c - t * u c * ∑ k, u k * B r k := by
  have := refl_mul u t B.transpose c r
  rw [← Matrix.transpose_apply (B * refl u t), Matrix.transpose_mul, refl_transpose, this]
  rfl

theorem refl_self {n : Nat} {u : Fin n → K} {t : K} (h : t * ∑ k, u k * u k = 2) : refl u t * refl u t = 1 := by
  ext r c
  rw [refl_mul]
  have : ∑ k, u k * refl u t k c = u c - u c * (t * ∑ k, u k * u k) := by
    simp only [refl, Matrix.sub_apply, Matrix.smul_apply, Matrix.vecMulVec_apply, Matrix.one_apply, smul_eq_mul, mul_sub,
      sum_sub_distrib]
    congr 1
    · simp
    · rw [mul_sum, mul_sum]
      exact sum_congr rfl fun k _ => by ring
  rw [this, h]
  simp only [refl, Matrix.sub_apply, Matrix.smul_apply, Matrix.vecMulVec_apply, smul_eq_mul]
  ring

/-- The Householder vector in `v` at step `i`. -/
def uvT (v : Buf K) (i r : Nat) : K := if r ≤ i then 0 else hvec v i (r - (i + 1))

theorem sum_uvT {v : Buf K} {n i : Nat} (hi : i + 1 ≤ n) (F : Nat → K) :
    ∑ k ∈ range (n - (i + 1)), hvec v i k * F (i + 1 + k) = ∑ r : Fin n, uvT v i r * F r := by
  rw [Fin.sum_univ_eq_sum_range (fun r => uvT v i r * F r) n]
  obtain ⟨m, rfl⟩ : ∃ m, n = i + 1 + m := ⟨n - (i + 1), by omega⟩
  have h0 : ∑ r ∈ range (i + 1), uvT v i r * F r = 0 := sum_eq_zero fun r hr => by
    have := mem_range.1 hr
    unfold uvT
    rw [if_pos (by omega), zero_mul]
  rw [sum_range_add, h0, zero_add, Nat.add_sub_cancel_left]
  · refine sum_congr rfl fun k _ => ?_
    unfold uvT
    rw [if_neg (by omega), Nat.add_sub_cancel_left]

/-- The lower right panel from row and column `i + 1` is a window for both orders of strides. -/
theorem panel_window {T : Buf K} {n i : Nat} (hT : T.len = n * n) (hi : i + 1 < n) :
    Window T (i + 1 + n * (i + 1)) (n - (i + 1)) (n - (i + 1)) n 1 ∧ Window T (i + 1 + n * (i + 1)) (n - (i + 1)) (n - (i + 1)) 1 n := by
  have e : ∀ a b, i + 1 + n * (i + 1) + (a * n + b * 1) = (i + 1 + b) + n * (i + 1 + a) := by intro a b; ring
  refine ⟨⟨fun a ha b hb c hc d hd h => ?_, fun a ha b hb => ?_⟩, ⟨fun a ha b hb c hc d hd h => ?_, fun a ha b hb => ?_⟩⟩
  · have := idx_inj (n := n) (a := b) (b := a) (c := d) (d := c) (by omega) (by omega) (by rw [Nat.mul_comm n a, Nat.mul_comm n c]; omega)
    exact ⟨this.2, this.1⟩
  · rw [e, hT]
    exact idx_lt (by omega) (by omega)
  · have := idx_inj (n := n) (a := a) (b := b) (c := c) (d := d) (by omega) (by omega) (by rw [Nat.mul_comm n b, Nat.mul_comm n d]; omega)
    exact this
  · rw [show i + 1 + n * (i + 1) + (a * 1 + b * n) = i + 1 + n * (i + 1) + (b * n + a * 1) by ring, e, hT]
    exact idx_lt (by omega) (by omega)

/-- The first reflection of the panel, by rows. -/
theorem reflect_rows {T v : Buf K} {n i : Nat} (t : K) (hT : T.len = n * n) (hi : i + 1 < n) (hv : v.len = n - 1) :
    ∃ T', reflect T (i + 1 + n * (i + 1)) v i t (n - (i + 1)) (n - (i + 1)) n 1 = .ok T' ∧ T'.len = n * n ∧
      (∀ r < n, ∀ c < n, i < c → T'.val (c + n * r) = T.val (c + n * r) - t * uvT v i r * ∑ k : Fin n, uvT v i k * T.val (c + n * k)) ∧
      ∀ r < n, ∀ c < n, (r ≤ i ∨ c ≤ i) → T'.val (c + n * r) = T.val (c + n * r) := by
  have e : ∀ a b, i + 1 + n * (i + 1) + (a * n + b * 1) = (i + 1 + b) + n * (i + 1 + a) := by intro a b; ring
  obtain ⟨T', h1, h2, h3, h4⟩ := reflect_ok (v := v) (vo := i) t (show 1 ≤ n - (i + 1) by omega) (panel_window hT hi).1 (by omega)
  have hout : ∀ r < n, ∀ c < n, (r ≤ i ∨ c ≤ i) → T'.val (c + n * r) = T.val (c + n * r) := by
    intro r hr c hc h
    refine h4 _ fun a ha b hb h' => ?_
    rw [e] at h'
    have := idx_inj hc (by omega) h'
    omega
  refine ⟨T', h1, h2.trans hT, fun r hr c hc hic => ?_, hout⟩
  by_cases hri : r ≤ i
  · rw [hout r hr c hc (.inl hri)]
    unfold uvT
    rw [if_pos hri]
    ring
  · have := h3 (r - (i + 1)) (by omega) (c - (i + 1)) (by omega)
    simp only [e] at this
    rw [show i + 1 + (c - (i + 1)) = c by omega, show i + 1 + (r - (i + 1)) = r by omega] at this
    rw [this, sum_uvT (by omega) (fun k => T.val (c + n * k))]
    congr 2
    unfold uvT
    rw [if_neg hri]

/-- The second reflection of the panel, by columns. -/
theorem reflect_cols {T v : Buf K} {n i : Nat} (t : K) (hT : T.len = n * n) (hi : i + 1 < n) (hv : v.len = n - 1) :
    ∃ T', reflect T (i + 1 + n * (i + 1)) v i t (n - (i + 1)) (n - (i + 1)) 1 n = .ok T' ∧ T'.len = n * n ∧
      (∀ r < n, ∀ c < n, i < r → T'.val (c + n * r) = T.val (c + n * r) - t * uvT v i c * ∑ k : Fin n, uvT v i k * T.val (k + n * r)) ∧
      ∀ r < n, ∀ c < n, (r ≤ i ∨ c ≤ i) → T'.val (c + n * r) = T.val (c + n * r) := by
  have e : ∀ a b, i + 1 + n * (i + 1) + (a * 1 + b * n) = (i + 1 + a) + n * (i + 1 + b) := by intro a b; ring
  obtain ⟨T', h1, h2, h3, h4⟩ := reflect_ok (v := v) (vo := i) t (show 1 ≤ n - (i + 1) by omega) (panel_window hT hi).2 (by omega)
  have hout : ∀ r < n, ∀ c < n, (r ≤ i ∨ c ≤ i) → T'.val (c + n * r) = T.val (c + n * r) := by
    intro r hr c hc h
    refine h4 _ fun a ha b hb h' => ?_
    rw [e] at h'
    have := idx_inj hc (by omega) h'
    omega
  refine ⟨T', h1, h2.trans hT, fun r hr c hc hir => ?_, hout⟩
  by_cases hci : c ≤ i
  · rw [hout r hr c hc (.inr hci)]
    unfold uvT
    rw [if_pos hci]
    ring
  · have := h3 (c - (i + 1)) (by omega) (r - (i + 1)) (by omega)
    simp only [e] at this
    rw [show i + 1 + (c - (i + 1)) = c by omega, show i + 1 + (r - (i + 1)) = r by omega] at this
    rw [this, sum_uvT (by omega) (fun k => T.val (k + n * r))]
    congr 2
    unfold uvT
    rw [if_neg hci]

/-! ## Loops of one column -/

theorem triColumn_ok {T v : Buf K} {n i : Nat} (hi : i + 1 < n) (hT : T.len = n * n) (hv : v.len = n - 1) :
    ∃ v', triColumn T n i v = .ok (v', ∑ k ∈ range (n - 1 - (i + 1)), T.val (i + n * (i + 1 + k + 1)) * T.val (i + n * (i + 1 + k + 1))) ∧
      v'.len = n - 1 ∧ ∀ k, i ≤ k → k < n - 1 → v'.val k = T.val (i + n * (k + 1)) := by
  have hidx : ∀ k < n, i + n * k < T.len := fun k hk => hT ▸ idx_lt (by omega) hk
  obtain ⟨s, e, h1, h2, h3⟩ := loop_inv (n := n - 1 - (i + 1)) (body := fun j' (s : Buf K × K) => do
    let y ← T.rd (i + n * (i + 1 + j' + 1))
    let v ← s.1.wr (i + 1 + j') y
    .ok (v, s.2 + y * y)) (s := (⟨v.len, fun j => if j = i then T.val (i + n * (i + 1)) else v.val j⟩, 0))
    (fun t s => s.1.len = n - 1 ∧ s.2 = ∑ k ∈ range t, T.val (i + n * (i + 1 + k + 1)) * T.val (i + n * (i + 1 + k + 1)) ∧
      ∀ k, i ≤ k → k < i + 1 + t → s.1.val k = T.val (i + n * (k + 1)))
    ⟨hv, by simp, fun k h h' => by obtain rfl : k = i := by omega
                                   simp⟩ (by
      intro t ht s ⟨h1, h2, h3⟩
      refine ⟨_, by rw [Buf.rd_lt (hidx _ (by omega)), Res.bind_ok, Buf.wr_lt (by omega), Res.bind_ok], by exact h1, ?_, ?_⟩
      · simp only
        rw [h2, sum_range_succ]
      · intro k h h'
        simp only
        split
        · next hk => rw [hk]
        · next hk => exact h3 k h (by omega))
  refine ⟨s.1, ?_, h1, fun k h h' => h3 k h (by omega)⟩
  unfold triColumn
  rw [Buf.rd_lt (hidx _ (by omega)), Res.bind_ok, Buf.wr_lt (by omega), Res.bind_ok, e, ← h2]

theorem triScale_ok {v : Buf K} {n i : Nat} (hi : i + 1 < n) (hv : v.len = n - 1) (h0 : i + 2 < n → v.val i ≠ 0) :
    ∃ v', triScale n i v = .ok v' ∧ v'.len = n - 1 ∧ ∀ k, i < k → k < n - 1 → v'.val k = v.val k / v.val i := by
  obtain ⟨w, e, h1, h2, h3, -⟩ := loop_inv (n := n - 1 - (i + 1)) (body := fun j' (v : Buf K) => do
    let x ← v.rd (i + 1 + j')
    let y ← v.rd i
    let z ← fdiv x y
    v.wr (i + 1 + j') z) (s := v)
    (fun t (w : Buf K) => w.len = n - 1 ∧ w.val i = v.val i ∧
      (∀ k, i < k → k < n - 1 → w.val k = if k < i + 1 + t then v.val k / v.val i else v.val k) ∧ (t ≤ n - 1 - (i + 1)))
    ⟨hv, rfl, fun k h _ => by rw [if_neg (by omega)], by omega⟩ (by
      intro t ht w ⟨h1, h2, h3, _⟩
      refine ⟨_, by rw [Buf.rd_lt (by omega), Res.bind_ok, Buf.rd_lt (by omega), Res.bind_ok, fdiv_ok (by rw [h2]; exact h0 (by omega)), Res.bind_ok, Buf.wr_lt (by omega)], by exact h1, ?_, ?_, by omega⟩
      · simp only
        rw [if_neg (by omega), h2]
      · intro k h h'
        simp only
        split
        · next hk =>
          rw [h3 _ (by omega) (by omega), if_neg (by omega), h2, if_pos (by omega), hk]
        · next hk =>
          rw [h3 k h h']
          have : k < i + 1 + t ↔ k < i + 1 + (t + 1) := by omega
          simp only [this])
  exact ⟨w, e, h1, fun k h h' => by rw [h3 k h h', if_pos (by omega)]⟩

theorem triZero_ok {T : Buf K} {n i : Nat} (hi : i + 1 < n) (hT : T.len = n * n) :
    ∃ T', triZero n i T = .ok T' ∧ T'.len = n * n ∧ ∀ r < n, ∀ c < n, T'.val (c + n * r) = if (c = i ∧ i + 1 < r) ∨ (r = i ∧ i + 1 < c) then 0 else T.val (c + n * r) := by
  obtain ⟨w, e, h1, h2⟩ := loop_inv (n := n - (i + 2)) (body := fun j' (T : Buf K) => do
    let T ← T.wr (i + n * (i + 2 + j')) 0
    T.wr (i + 2 + j' + n * i) 0) (s := T)
    (fun t (w : Buf K) => w.len = n * n ∧ ∀ r < n, ∀ c < n, w.val (c + n * r) =
      if (c = i ∧ i + 1 < r ∧ r < i + 2 + t) ∨ (r = i ∧ i + 1 < c ∧ c < i + 2 + t) then 0 else T.val (c + n * r))
    ⟨hT, fun r _ c _ => by rw [if_neg (by omega)]⟩ (by
      intro t ht w ⟨h1, h2⟩
      have l1 : i + n * (i + 2 + t) < w.len := h1 ▸ idx_lt (by omega) (by omega)
      have l2 : i + 2 + t + n * i < w.len := h1 ▸ idx_lt (by omega) (by omega)
      refine ⟨_, by rw [Buf.wr_lt l1, Res.bind_ok, Buf.wr_lt (by exact l2)], by exact h1, fun r hr c hc => ?_⟩
      simp only
      by_cases ha : c + n * r = i + 2 + t + n * i
      · have := idx_inj hc (by omega) ha
        rw [if_pos ha, if_pos (by omega)]
      · rw [if_neg ha]
        by_cases hb : c + n * r = i + n * (i + 2 + t)
        · have := idx_inj hc (by omega) hb
          rw [if_pos hb, if_pos (by omega)]
        · rw [if_neg hb, h2 r hr c hc]
          have ha' : ¬ (c = i + 2 + t ∧ r = i) := fun ⟨h, h'⟩ => ha (by rw [h, h'])
          have hb' : ¬ (c = i ∧ r = i + 2 + t) := fun ⟨h, h'⟩ => hb (by rw [h, h'])
          refine if_congr ?_ rfl rfl
          omega)
  refine ⟨w, e, h1, fun r hr c hc => ?_⟩
  rw [h2 r hr c hc]
  refine if_congr ?_ rfl rfl
  omega

theorem triSave_ok {T v : Buf K} {n i : Nat} (R : K) (hi : i + 1 < n) (hT : T.len = n * n) (hv : v.len = n - 1) :
    ∃ T', triSave n i v R T = .ok T' ∧ T'.len = n * n ∧ ∀ r < n, ∀ c < n, T'.val (c + n * r) =
      if c = i ∧ i + 1 < r then v.val (r - 1) else if (c = i ∧ r = i + 1) ∨ (c = i + 1 ∧ r = i) then R else T.val (c + n * r) := by
  have l1 : i + n * (i + 1) < T.len := hT ▸ idx_lt (by omega) (by omega)
  have l2 : i + 1 + n * i < T.len := hT ▸ idx_lt (by omega) (by omega)
  obtain ⟨w, e, h1, h2⟩ := loop_inv (n := n - 1 - (i + 1)) (body := fun j' (T : Buf K) => do
    let x ← v.rd (i + 1 + j')
    T.wr (i + n * (i + 1 + j' + 1)) x)
    (s := ⟨T.len, fun x => if x = i + 1 + n * i then R else if x = i + n * (i + 1) then R else T.val x⟩)
    (fun t (w : Buf K) => w.len = n * n ∧ ∀ r < n, ∀ c < n, w.val (c + n * r) =
      if c = i ∧ i + 1 < r ∧ r < i + 2 + t then v.val (r - 1) else if (c = i ∧ r = i + 1) ∨ (c = i + 1 ∧ r = i) then R else T.val (c + n * r))
    ⟨hT, fun r hr c hc => by
      rw [if_neg (by omega)]
      simp only
      by_cases ha : c + n * r = i + 1 + n * i
      · have := idx_inj hc (by omega) ha
        rw [if_pos ha, if_pos (by omega)]
      · rw [if_neg ha]
        have ha' : ¬ (c = i + 1 ∧ r = i) := fun ⟨h, h'⟩ => ha (by rw [h, h'])
        by_cases hb : c + n * r = i + n * (i + 1)
        · have := idx_inj hc (by omega) hb
          rw [if_pos hb, if_pos (by omega)]
        · have hb' : ¬ (c = i ∧ r = i + 1) := fun ⟨h, h'⟩ => hb (by rw [h, h'])
          rw [if_neg hb, if_neg (by omega)]⟩ (by
      intro t ht w ⟨h1, h2⟩
      have l3 : i + n * (i + 1 + t + 1) < w.len := h1 ▸ idx_lt (by omega) (by omega)
      refine ⟨_, by rw [Buf.rd_lt (by omega), Res.bind_ok, Buf.wr_lt l3], by exact h1, fun r hr c hc => ?_⟩
      simp only
      by_cases ha : c + n * r = i + n * (i + 1 + t + 1)
      · have := idx_inj hc (by omega) ha
        rw [if_pos ha, if_pos (by omega), this.2]
        congr 1
      · have ha' : ¬ (c = i ∧ r = i + 1 + t + 1) := fun ⟨h, h'⟩ => ha (by rw [h, h'])
        rw [if_neg ha, h2 r hr c hc]
        refine if_congr ?_ rfl rfl
        omega)
  refine ⟨w, ?_, h1, fun r hr c hc => ?_⟩
  · unfold triSave
    rw [Buf.wr_lt l1, Res.bind_ok, Buf.wr_lt (by exact l2), Res.bind_ok]
    exact e
  · rw [h2 r hr c hc]
    refine if_congr ?_ rfl rfl
    omega

end Basis
end Verif
