import Verif.Basis.SchurLemmas

/-!
# One column of the reduction to tridiagonal form
-/

namespace Verif
namespace Basis

open Finset Restriction

set_option linter.unusedSectionVars false

variable {K : Type} [Field K] [LinearOrder K]

/-- The matrix being reduced, after `i` columns; Householder vectors are stored in its zeros. -/
def workT (b : Buf K) (n i : Nat) : Matrix (Fin n) (Fin n) K := fun r c => if c.val < i ∧ c.val + 1 < r.val then 0 else b.val (c + n * r)

/-- The Householder vector stored in column `i`. -/
def uS (T : Buf K) (n i : Nat) (r : Fin n) : K := if r.val ≤ i then 0 else if r.val = i + 1 then 1 else T.val (i + n * r)

variable [IsStrictOrderedRing K]

theorem sqrt_zero {sqrt : K → K} (hs : IsSqrt sqrt) : sqrt 0 = 0 := by
  have := (hs 0 le_rfl).2
  exact mul_self_eq_zero.1 this

theorem csign_root {sqrt : K → K} (hs : IsSqrt sqrt) (a : K) : csign (sqrt (a * a)) a = a := by
  obtain ⟨h1, h2⟩ := hs (a * a) (mul_self_nonneg a)
  rcases mul_self_eq_mul_self_iff.1 h2 with h | h
  · unfold csign
    split
    · exact h
    · next hc =>
      push Not at hc
      rw [h] at h1
      exact absurd h1 (not_le.2 hc)
  · unfold csign
    split
    · next hc =>
      have : a = 0 := by rw [h] at h1; linarith
      rw [h, this, neg_zero]
    · rw [h, neg_neg]

theorem triStep_ok {sqrt : K → K} (hs : IsSqrt sqrt) {n i : Nat} {s : Tri K} (hi : i + 1 < n) (hT : s.T.len = n * n) (hv : s.v.len = n - 1)
    (htau : s.tau.len = n - 1) (hsym : (workT s.T n i).transpose = workT s.T n i) (hcol : i + 2 < n → ∃ k, i < k ∧ k < n ∧ s.T.val (i + n * k) ≠ 0) :
    ∃ s' : Tri K, triStep sqrt n i s = .ok s' ∧ s'.T.len = n * n ∧ s'.v.len = n - 1 ∧ s'.tau.len = n - 1 ∧
      (∀ k, k ≠ i → s'.tau.val k = s.tau.val k) ∧ 0 < s'.tau.val i ∧ s'.tau.val i * ∑ k, uS s'.T n i k * uS s'.T n i k = 2 ∧
      (∀ r < n, ∀ c < i, s'.T.val (c + n * r) = s.T.val (c + n * r)) ∧
      workT s'.T n (i + 1) = refl (uS s'.T n i) (s'.tau.val i) * workT s.T n i * refl (uS s'.T n i) (s'.tau.val i) := by
  obtain ⟨v1, e1, hl1, hv1⟩ := triColumn_ok (v := s.v) hi hT hv
  generalize hS : ∑ k ∈ range (n - 1 - (i + 1)), s.T.val (i + n * (i + 1 + k + 1)) * s.T.val (i + n * (i + 1 + k + 1)) = S at e1
  have hS0 : 0 ≤ S := by rw [← hS]; exact sum_nonneg fun k _ => mul_self_nonneg _
  generalize ha : s.T.val (i + n * (i + 1)) = a
  generalize hR : -(csign (sqrt (a * a + S)) a) = R
  generalize hvi : a - R = vi
  generalize ht : (if i = n - 2 then 2 else 2 * vi * vi / (vi * vi + S)) = t
  have hS' : i = n - 2 → S = 0 := by
    intro h
    rw [← hS, h, show n - 1 - (n - 2 + 1) = 0 by omega, range_zero, sum_empty]
  -- the algebra
  have key : (i + 2 < n → vi ≠ 0 ∧ vi * vi + S ≠ 0) ∧ 0 < t ∧ t * (a + S / vi) = a - R ∧ t * (1 + S / (vi * vi)) = 2 ∧
      (i + 2 < n → t * (a + S / vi) = vi) := by
    by_cases hin : i = n - 2
    · have h2 : t = 2 := by rw [← ht, if_pos hin]
      rw [hS' hin, add_zero, csign_root hs] at hR
      rw [hS' hin, h2, ← hR]
      refine ⟨fun h => by omega, by norm_num, ?_, ?_, fun h => by omega⟩
      · simp; ring
      · simp
    · obtain ⟨k, hk, hkn, hk0⟩ := hcol (by omega)
      have hne : a * a + S ≠ 0 := by
        intro h
        have haa : 0 ≤ a * a := mul_self_nonneg a
        have hS' : S = 0 := by linarith
        by_cases hki : k = i + 1
        · subst hki
          have : a * a = 0 := by linarith
          rw [ha] at hk0
          exact hk0 (mul_self_eq_zero.1 this)
        · have := (sum_eq_zero_iff_of_nonneg (fun k _ => mul_self_nonneg _)).1 (hS.trans hS') (k - (i + 2)) (mem_range.2 (by omega))
          rw [show i + 1 + (k - (i + 2)) + 1 = k by omega] at this
          exact hk0 (mul_self_eq_zero.1 this)
      obtain ⟨hN, hN2⟩ := hs (a * a + S) (by have := mul_self_nonneg a; linarith)
      obtain ⟨h1, h2, h3, h4, h5⟩ := house_alg hS0 hN hN2 hne
      rw [show -(if 0 ≤ a then sqrt (a * a + S) else -sqrt (a * a + S)) = R from hR, hvi] at h2 h3 h4 h5
      rw [if_neg hin] at ht
      rw [ht] at h4 h5
      refine ⟨fun _ => ⟨h2, h3⟩, ?_, h4.trans hvi.symm, h5, fun _ => h4⟩
      rw [← ht]
      have hv2 : 0 < vi * vi := mul_self_pos.2 h2
      refine div_pos (by linarith) (by linarith)
  obtain ⟨k1, k2, k3, k4, k5⟩ := key
  clear hcol
  have hin : i < n := by omega
  obtain ⟨v2, e2, hl2, hv2⟩ := triScale_ok (v := ⟨v1.len, fun j => if j = i then vi else v1.val j⟩) hi hl1 (fun h => by simpa using (k1 h).1)
  have hv2' : ∀ k, i < k → k < n - 1 → v2.val k = s.T.val (i + n * (k + 1)) / vi := by
    intro k hk hkm
    rw [hv2 k hk hkm]
    simp only [if_true]
    rw [if_neg (by omega), hv1 k (by omega) hkm]
  obtain ⟨T1, e3, hl3, hT1⟩ := triZero_ok hi hT
  obtain ⟨T2, e4, hl4, hT2, hT2'⟩ := reflect_rows (v := v2) t hl3 hi hl2
  obtain ⟨T3, e5, hl5, hT3, hT3'⟩ := reflect_cols (v := v2) t hl4 hi hl2
  obtain ⟨T4, e6, hl6, hT4⟩ := triSave_ok (v := v2) R hi hl5 hl2
  have hu : ∀ r : Fin n, uS T4 n i r = uvT v2 i r := by
    intro r
    have := r.isLt
    unfold uS uvT hvec
    by_cases h1 : r.val ≤ i
    · rw [if_pos h1, if_pos h1]
    · rw [if_neg h1, if_neg h1]
      by_cases h2 : r.val = i + 1
      · rw [if_pos h2, if_pos (by omega)]
      · rw [if_neg h2, if_neg (by omega), hT4 r r.isLt i (by omega), if_pos ⟨rfl, by omega⟩]
        congr 1
        omega
  have hu0 : ∀ r : Fin n, r.val ≤ i → uS T4 n i r = 0 := fun r h => if_pos h
  have hu1 : ∀ r : Fin n, r.val = i + 1 → uS T4 n i r = 1 := fun r h => by unfold uS; rw [if_neg (by omega), if_pos h]
  have hu2 : ∀ r : Fin n, i + 1 < r.val → uS T4 n i r = s.T.val (i + n * r) / vi := fun r h => by
    have := r.isLt
    rw [hu]
    unfold uvT hvec
    rw [if_neg (by omega), if_neg (by omega), hv2' _ (by omega) (by omega), show i + (r.val - (i + 1)) + 1 = r.val by omega]
  have hsumF : ∀ F : Nat → K, ∑ k : Fin n, uS T4 n i k * F k = F (i + 1) + ∑ k ∈ range (n - 1 - (i + 1)), s.T.val (i + n * (i + 1 + k + 1)) / vi * F (i + 1 + k + 1) := by
    intro F
    rw [sum_congr rfl fun k _ => by rw [hu k], ← sum_uvT (by omega) F, sum_hvec _ _ _ (by omega) (fun k => F (i + 1 + k)), show n - (i + 1) - 1 = n - 1 - (i + 1) by omega]
    congr 1
    refine sum_congr rfl fun k hk => ?_
    have := mem_range.1 hk
    rw [show i + (k + 1) = i + 1 + k by omega, hv2' (i + 1 + k) (by omega) (by omega)]
    rfl
  have hWi : ∀ k : Fin n, workT s.T n i k ⟨i, hin⟩ = s.T.val (i + n * k) := fun k => if_neg (by simp)
  have hsum1 : ∑ k : Fin n, uS T4 n i k * s.T.val (i + n * k) = a + S / vi := by
    rw [hsumF (fun k => s.T.val (i + n * k)), ha, ← hS, sum_div]
    congr 1
    exact sum_congr rfl fun k _ => by ring
  have hsum2 : t * ∑ k : Fin n, uS T4 n i k * uS T4 n i k = 2 := by
    rw [sum_congr rfl fun k _ => show uS T4 n i k * uS T4 n i k = uS T4 n i k * (fun r => if r = i + 1 then 1 else s.T.val (i + n * r) / vi) k.val from ?_,
      hsumF (fun r => if r = i + 1 then 1 else s.T.val (i + n * r) / vi)]
    · rw [← k4, ← hS, sum_div]
      simp only [if_true]
      congr 2
      refine sum_congr rfl fun k hk => ?_
      rw [if_neg (by omega)]
      ring
    · by_cases h1 : k.val ≤ i
      · rw [hu0 k h1]; ring
      · by_cases h2 : k.val = i + 1
        · simp only [h2, if_true]; rw [hu1 k h2]
        · simp only [h2, if_false]; rw [hu2 k (by omega)]
  have K1 : ∀ r : Fin n, i < r.val → workT s.T n i r ⟨i, hin⟩ - t * uS T4 n i r * ∑ k, uS T4 n i k * workT s.T n i k ⟨i, hin⟩ = if r.val = i + 1 then R else 0 := by
    intro r hr
    rw [sum_congr rfl fun k _ => by rw [hWi k], hsum1, hWi r]
    by_cases h2 : r.val = i + 1
    · rw [if_pos h2, hu1 r h2, h2, ha, mul_one, k3]
      ring
    · have hin : i + 2 < n := by have := r.isLt; omega
      rw [if_neg h2, hu2 r (by omega), show t * (s.T.val (i + n * r) / vi) * (a + S / vi) = s.T.val (i + n * r) / vi * (t * (a + S / vi)) by ring, k5 hin,
        div_mul_cancel₀ _ (k1 hin).1, sub_self]
  refine ⟨⟨T4, v2, ⟨s.tau.len, fun j => if j = i then t else s.tau.val j⟩⟩, ?_, hl6, hl2, htau, fun k hk => if_neg hk, ?_, ?_, ?_, ?_⟩
  · unfold triStep
    rw [e1]
    simp only [Res.bind_ok]
    rw [Buf.rd_lt (by omega), Res.bind_ok, hv1 i le_rfl (by omega), ha, hR, hvi, Buf.wr_lt (by omega), Res.bind_ok]
    have : triTau n i vi S = .ok t := by
      unfold triTau
      rw [← ht]
      by_cases hin : i = n - 2
      · rw [if_pos hin, if_pos hin]
      · rw [if_neg hin, if_neg hin, fdiv_ok (k1 (by omega)).2]
    rw [this, Res.bind_ok, Buf.wr_lt (by omega), Res.bind_ok, e2, Res.bind_ok, e3, Res.bind_ok, e4, Res.bind_ok, e5, Res.bind_ok, e6, Res.bind_ok]
  · simpa using k2
  · simpa using hsum2
  · intro r hr c hc
    show T4.val _ = _
    rw [hT4 r hr c (by omega), if_neg (by omega), if_neg (by omega), hT3' r hr c (by omega) (by omega), hT2' r hr c (by omega) (by omega), hT1 r hr c (by omega), if_neg (by omega)]
  · show workT T4 n (i + 1) = refl (uS T4 n i) (if i = i then t else _) * workT s.T n i * refl (uS T4 n i) (if i = i then t else _)
    rw [if_pos rfl]
    have hsym' : ∀ r c : Fin n, workT s.T n i r c = workT s.T n i c r := fun r c => by
      conv_lhs => rw [← hsym]
      rfl
    ext r c
    rw [mul_refl]
    simp only [refl_mul]
    have hr := r.isLt
    have hc := c.isLt
    rcases lt_trichotomy c.val i with hci | hci | hci
    · -- earlier columns
      have h0 : ∑ k, uS T4 n i k * workT s.T n i k c = 0 := sum_eq_zero fun k _ => by
        by_cases hk : k.val ≤ i
        · rw [hu0 k hk, zero_mul]
        · rw [show workT s.T n i k c = 0 from if_pos ⟨hci, by omega⟩, mul_zero]
      rw [hu0 c (by omega), h0]
      have : T4.val (c + n * r) = s.T.val (c + n * r) := by
        rw [hT4 r hr c hc, if_neg (by omega), if_neg (by omega), hT3' r hr c hc (by omega), hT2' r hr c hc (by omega), hT1 r hr c hc, if_neg (by omega)]
      unfold workT
      rw [this]
      by_cases hm : c.val + 1 < r.val
      · rw [if_pos ⟨by omega, hm⟩, if_pos ⟨hci, hm⟩]; ring
      · rw [if_neg (by omega), if_neg (by omega)]; ring
    · -- the column itself
      obtain rfl : c = ⟨i, hin⟩ := Fin.ext hci
      rw [hu0 ⟨i, hin⟩ le_rfl]
      by_cases hri : r.val ≤ i
      · rw [hu0 r hri, hWi]
        unfold workT
        rw [if_neg (by simp only; omega)]
        simp only
        rw [hT4 r hr i (by omega), if_neg (by omega), if_neg (by omega), hT3' r hr i (by omega) (by omega), hT2' r hr i (by omega) (by omega), hT1 r hr i (by omega), if_neg (by omega)]
        ring
      · have := K1 r (by omega)
        rw [this]
        by_cases h2 : r.val = i + 1
        · rw [if_pos h2]
          unfold workT
          rw [if_neg (by simp only; omega)]
          simp only
          rw [hT4 r hr i (by omega), if_neg (by omega), if_pos (.inl ⟨rfl, h2⟩)]
          ring
        · rw [if_neg h2]
          unfold workT
          rw [if_pos ⟨by simp only; omega, by simp only; omega⟩]
          ring
    · -- later columns
      have hL : workT T4 n (i + 1) r c = T4.val (c + n * r) := if_neg (by omega)
      have hWc : ∀ k : Fin n, workT s.T n i k c = s.T.val (c + n * k) := fun k => if_neg (by omega)
      rw [hL]
      rcases lt_trichotomy r.val i with hri | hri | hri
      · have hz : ∀ k : Fin n, i < k.val → workT s.T n i r k = 0 := fun k hk => by rw [hsym']; exact if_pos ⟨hri, by omega⟩
        have h0 : ∑ k, uS T4 n i k * (workT s.T n i r k - t * uS T4 n i r * ∑ k_1, uS T4 n i k_1 * workT s.T n i k_1 k) = 0 := sum_eq_zero fun k _ => by
          by_cases hk : k.val ≤ i
          · rw [hu0 k hk, zero_mul]
          · rw [hz k (by omega), hu0 r (by omega)]; ring
        rw [h0, hu0 r (by omega), hWc, hT4 r hr c hc, if_neg (by omega), if_neg (by omega), hT3' r hr c hc (by omega), hT2' r hr c hc (by omega), hT1 r hr c hc,
          if_neg (by omega)]
        ring
      · obtain rfl : r = ⟨i, hin⟩ := Fin.ext hri
        have h0 : ∀ k : Fin n, uS T4 n i k * (workT s.T n i ⟨i, hin⟩ k - t * uS T4 n i ⟨i, hin⟩ * ∑ k_1, uS T4 n i k_1 * workT s.T n i k_1 k) = uS T4 n i k * workT s.T n i k ⟨i, hin⟩ := fun k => by
          rw [hu0 ⟨i, hin⟩ le_rfl, hsym' _ k]; ring
        rw [sum_congr rfl fun k _ => h0 k, hu0 ⟨i, hin⟩ le_rfl, hsym' _ c]
        have := K1 c hci
        rw [show workT s.T n i c ⟨i, hin⟩ - t * 0 * ∑ k, uS T4 n i k * workT s.T n i k c - t * uS T4 n i c * ∑ k, uS T4 n i k * workT s.T n i k ⟨i, hin⟩ =
          workT s.T n i c ⟨i, hin⟩ - t * uS T4 n i c * ∑ k, uS T4 n i k * workT s.T n i k ⟨i, hin⟩ by ring, this]
        simp only
        rw [hT4 i (by omega) c hc, if_neg (by omega)]
        by_cases h2 : c.val = i + 1
        · rw [if_pos (.inr ⟨h2, rfl⟩), if_pos h2]
        · rw [if_neg (by omega), if_neg h2, hT3' i (by omega) c hc (by omega), hT2' i (by omega) c hc (by omega), hT1 i (by omega) c hc, if_pos (by omega)]
      · have hT2v : ∀ k : Fin n, i < k.val → T2.val (k + n * r) = workT s.T n i r k - t * uS T4 n i r * ∑ k_1, uS T4 n i k_1 * workT s.T n i k_1 k := fun k hk => by
          have hz : ∀ j : Fin n, i < j.val → T1.val (k + n * j) = workT s.T n i j k := fun j hj => by
            rw [hT1 j j.isLt k k.isLt, if_neg (by omega)]
            exact (if_neg (by omega)).symm
          rw [hT2 r hr k k.isLt hk, hz r hri, ← hu r]
          congr 2
          refine sum_congr rfl fun j _ => ?_
          rw [← hu j]
          by_cases hj : j.val ≤ i
          · rw [hu0 j hj, zero_mul, zero_mul]
          · rw [hz j (by omega)]
        rw [hT4 r hr c hc, if_neg (by omega), if_neg (by omega), hT3 r hr c hc hri, hT2v c hci, ← hu c]
        congr 2
        refine sum_congr rfl fun k _ => ?_
        rw [← hu k]
        by_cases hk : k.val ≤ i
        · rw [hu0 k hk, zero_mul, zero_mul]
        · rw [hT2v k (by omega)]

/-- A column that is zero already divides zero by zero. -/
theorem triStep_ub {sqrt : K → K} (hs : IsSqrt sqrt) {n i : Nat} {s : Tri K} (hi : i + 2 < n) (hT : s.T.len = n * n) (hv : s.v.len = n - 1)
    (hcol : ∀ k, i < k → k < n → s.T.val (i + n * k) = 0) : triStep sqrt n i s = .ub := by
  obtain ⟨v1, e1, hl1, hv1⟩ := triColumn_ok (v := s.v) (show i + 1 < n by omega) hT hv
  rw [sum_eq_zero fun k hk => by
    have := mem_range.1 hk
    rw [hcol _ (by omega) (by omega), mul_zero]] at e1
  unfold triStep
  rw [e1]
  simp only [Res.bind_ok]
  rw [Buf.rd_lt (by omega), Res.bind_ok, hv1 i le_rfl (by omega), hcol _ (by omega) (by omega), Buf.wr_lt (by omega), Res.bind_ok]
  unfold triTau
  rw [if_neg (by omega)]
  have : sqrt (0 * 0 + 0) = 0 := by rw [mul_zero, add_zero]; exact sqrt_zero hs
  rw [this]
  simp [fdiv, csign]

end Basis
end Verif
