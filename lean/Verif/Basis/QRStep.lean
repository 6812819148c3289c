import Verif.Basis.QRLemmas
import Mathlib.Algebra.BigOperators.Field
import Mathlib.Algebra.Order.BigOperators.Ring.Finset

/-!
# One column of the QR factorisation
-/

namespace Verif
namespace Basis

open Finset Restriction

set_option linter.unusedSectionVars false

variable {K : Type} [Field K] [LinearOrder K]

/-- Entry `r` of the Householder vector stored below the diagonal in column `i` of an array with `n` columns. -/
def uvec (mat : Buf K) (n i : Nat) (r : Nat) : K := if r < i then 0 else if r = i then 1 else mat.val (i + n * r)

theorem sum_split {m i : Nat} (hi : i < m) (U F : Nat → K) (h0 : ∀ r < i, U r = 0) (h1 : U i = 1) :
    ∑ r ∈ range m, U r * F r = F i + ∑ k ∈ range (m - (i + 1)), U (i + 1 + k) * F (i + 1 + k) := by
  obtain ⟨p, rfl⟩ : ∃ p, m = i + 1 + p := ⟨m - (i + 1), by omega⟩
  rw [sum_range_add, sum_range_succ, h1, one_mul, Nat.add_sub_cancel_left]
  rw [sum_eq_zero (fun r hr => by rw [h0 r (mem_range.1 hr), zero_mul]), zero_add]

theorem sum_uvec_hvec {mat v : Buf K} {m n i : Nat} (hi : i < m) (hu : ∀ k, i < k → k < m → mat.val (i + n * k) = v.val k)
    (F : Nat → K) :
    ∑ k ∈ range (m - i), hvec v i k * F (i + k) = ∑ r ∈ range m, uvec mat n i r * F r := by
  rw [sum_split hi (uvec mat n i) F (fun r hr => by simp [uvec, hr]) (by simp [uvec]),
    sum_hvec v i (m - i) (by omega) (fun k => F (i + k))]
  congr 1
  have : m - i - 1 = m - (i + 1) := by omega
  rw [this]
  refine sum_congr rfl fun k hk => ?_
  have hk := mem_range.1 hk
  have : uvec mat n i (i + 1 + k) = v.val (i + (k + 1)) := by
    unfold uvec
    rw [if_neg (by omega), if_neg (by omega), hu _ (by omega) (by omega)]
    congr 1; omega
  rw [this]
  congr 2; omega

variable [IsStrictOrderedRing K]

/-- The scalar algebra of a Householder reflection: `a` is the diagonal entry, `S` the sum of squares below it, `N` the norm. -/
theorem house_alg {a S N : K} (hS : 0 ≤ S) (hN : 0 ≤ N) (hN2 : N * N = a * a + S) (hne : a * a + S ≠ 0) :
    let R := -(if 0 ≤ a then N else -N)
    let v := a - R
    R ≠ 0 ∧ v ≠ 0 ∧ v * v + S ≠ 0 ∧ 2 * v * v / (v * v + S) * (a + S / v) = v ∧
      2 * v * v / (v * v + S) * (1 + S / (v * v)) = 2 := by
  intro R v
  have hN0 : N ≠ 0 := by
    rintro rfl
    exact hne (by rw [← hN2]; ring)
  have hNp : 0 < N := lt_of_le_of_ne hN (Ne.symm hN0)
  have hR2 : R * R = a * a + S := by
    simp only [R]; split <;> linear_combination hN2
  have hR : R ≠ 0 := by
    intro h; rw [h] at hR2; exact hne (by rw [← hR2]; ring)
  have hv : v ≠ 0 := by
    simp only [v, R]
    split
    · next h => linarith
    · next h => push Not at h; linarith
  have hd : v * v + S = -2 * R * v := by
    simp only [v]; linear_combination -hR2
  have hd0 : v * v + S ≠ 0 := by
    rw [hd]
    exact mul_ne_zero (mul_ne_zero (by norm_num) hR) hv
  refine ⟨hR, hv, hd0, ?_, ?_⟩
  · have e : a + S / v = -R := by
      field_simp
      simp only [v]; linear_combination -hR2
    rw [e, hd]
    field_simp
  · have e : 1 + S / (v * v) = (v * v + S) / (v * v) := by field_simp
    rw [e]
    field_simp

/-- What one iteration does to the array. -/
theorem qrStep_ok {sqrt : K → K} (hs : ∀ x, 0 ≤ x → 0 ≤ sqrt x ∧ sqrt x * sqrt x = x) {m n i : Nat} {s : QR K}
    (h0 : s.stop = false) (him : i + 1 < m) (hin : i < n) (hmat : s.mat.len = m * n) (htau : i < s.tau.len) (hv : s.v.len = m)
    (hcol : ∃ k, i ≤ k ∧ k < m ∧ s.mat.val (i + n * k) ≠ 0) :
    ∃ s' : QR K, qrStep sqrt m n i s = .ok s' ∧ s'.stop = false ∧ s'.mat.len = m * n ∧ s'.tau.len = s.tau.len ∧ s'.v.len = m ∧
      (∀ k, k ≠ i → s'.tau.val k = s.tau.val k) ∧
      (∀ r < m, ∀ c < i, s'.mat.val (c + n * r) = s.mat.val (c + n * r)) ∧
      (∀ r < m, (if i < r then 0 else s'.mat.val (i + n * r)) = s.mat.val (i + n * r) -
        s'.tau.val i * uvec s'.mat n i r * ∑ k ∈ range m, uvec s'.mat n i k * s.mat.val (i + n * k)) ∧
      (∀ r < m, ∀ c < n, i < c → s'.mat.val (c + n * r) = s.mat.val (c + n * r) -
        s'.tau.val i * uvec s'.mat n i r * ∑ k ∈ range m, uvec s'.mat n i k * s.mat.val (c + n * k)) ∧
      s'.tau.val i * ∑ k ∈ range m, uvec s'.mat n i k * uvec s'.mat n i k = 2 ∧ s'.mat.val (i + n * i) ≠ 0 := by
  obtain ⟨v1, e1, hl1, hv1⟩ := qrColumn_ok (v := s.v) (show i < m by omega) hin (le_of_eq hmat.symm) hv
  generalize hS : ∑ k ∈ range (m - (i + 1)), s.mat.val (i + n * (i + 1 + k)) * s.mat.val (i + n * (i + 1 + k)) = S at e1
  have hS0 : 0 ≤ S := by rw [← hS]; exact sum_nonneg fun k _ => mul_self_nonneg _
  generalize ha : s.mat.val (i + n * i) = a
  have hne : a * a + S ≠ 0 := by
    obtain ⟨k, hk, hkm, hk0⟩ := hcol
    intro h
    have haa : 0 ≤ a * a := mul_self_nonneg a
    have hS' : S = 0 := by linarith
    by_cases hki : k = i
    · subst hki
      have : a * a = 0 := by linarith
      rw [ha] at hk0
      exact hk0 (mul_self_eq_zero.1 this)
    · have := (sum_eq_zero_iff_of_nonneg (fun k _ => mul_self_nonneg _)).1 (hS.trans hS') (k - (i + 1)) (mem_range.2 (by omega))
      rw [show i + 1 + (k - (i + 1)) = k by omega] at this
      exact hk0 (mul_self_eq_zero.1 this)
  obtain ⟨hN, hN2⟩ := hs (a * a + S) (by have := mul_self_nonneg a; linarith)
  obtain ⟨hR, hvi, hd0, hkill, horth⟩ := house_alg hS0 hN hN2 hne
  generalize hRii : -(if 0 ≤ a then sqrt (a * a + S) else -sqrt (a * a + S)) = R at hR hvi hd0 hkill horth
  generalize hvi' : a - R = vi at hvi hd0 hkill horth
  generalize ht : 2 * vi * vi / (vi * vi + S) = t at hkill horth
  obtain ⟨v2, e2, hl2, hv2⟩ := qrScale_ok (v := ⟨v1.len, fun j => if j = i then vi else v1.val j⟩) (show i < m by omega) hl1
    (by simpa using hvi)
  have hv2' : ∀ k, i < k → k < m → v2.val k = s.mat.val (i + n * k) / vi := by
    intro k hk hkm
    rw [hv2 k hk hkm]
    simp only [if_true]
    rw [if_neg (by omega), hv1 k (by omega) hkm]
  have hidx : ∀ i' j', i * n + i + 1 + (i' * n + j' * 1) = (i + 1 + j') + n * (i + i') := by intro i' j'; ring
  have hwin : Window s.mat (i * n + i + 1) (m - i) (n - i - 1) n 1 := by
    refine ⟨?_, ?_⟩
    · intro a ha b hb c hc d hd h
      have := idx_inj (n := n) (a := b) (b := a) (c := d) (d := c) (by omega) (by omega) (by rw [Nat.mul_comm n a, Nat.mul_comm n c]; omega)
      exact ⟨this.2, this.1⟩
    · intro a ha b hb
      rw [hidx, hmat]
      exact idx_lt (by omega) (by omega)
  obtain ⟨m3, e3, hl3, hm3, hm3'⟩ := reflect_ok (v := v2) (vo := i) t (show 1 ≤ m - i by omega) hwin (by omega)
  obtain ⟨m4, e4, hl4, hm4, hm4', hm4''⟩ := qrSave_ok (v := v2) (mat := m3) (n := n) R (show i < m by omega) hin
    (by rw [hl3, hmat]) hl2
  have hout : ∀ c < n, ∀ r, c ≠ i → m4.val (c + n * r) = m3.val (c + n * r) := by
    intro c hc r hci
    refine hm4'' _ ?_
    intro k _ _ h
    exact hci (idx_inj hc hin h).1
  have hu : ∀ k, i < k → k < m → m4.val (i + n * k) = v2.val k := hm4'
  have huval : ∀ k, i < k → k < m → uvec m4 n i k = s.mat.val (i + n * k) / vi := by
    intro k hk hkm
    unfold uvec
    rw [if_neg (by omega), if_neg (by omega), hu k hk hkm, hv2' k hk hkm]
  refine ⟨⟨m4, ⟨s.tau.len, fun j => if j = i then t else s.tau.val j⟩, v2, false⟩, ?_, rfl, by simp only; omega, rfl, hl2, ?_, ?_, ?_, ?_, ?_, ?_⟩
  · unfold qrStep
    rw [h0, if_neg (by simp), if_neg (by omega), e1]
    simp only [Res.bind_ok]
    rw [Buf.rd_lt (by omega), Res.bind_ok, hv1 i le_rfl (by omega), ha, hRii, hvi']
    rw [Buf.wr_lt (by omega), Res.bind_ok, fdiv_ok hd0, Res.bind_ok, ht, Buf.wr_lt htau, Res.bind_ok, e2, Res.bind_ok, e3, Res.bind_ok,
      e4, Res.bind_ok]
  · intro k hk
    simp only
    rw [if_neg hk]
  · intro r hr c hc
    simp only
    rw [hout c (by omega) r (by omega)]
    refine hm3' _ ?_
    intro i' hi' j' hj' h
    rw [hidx] at h
    have := (idx_inj (by omega) (by omega) h).1
    omega
  · intro r hr
    simp only [if_true]
    have hsum : ∑ k ∈ range m, uvec m4 n i k * s.mat.val (i + n * k) = a + S / vi := by
      rw [sum_split (show i < m by omega) _ _ (fun r hr => by simp [uvec, hr]) (by simp [uvec]), ha, ← hS, sum_div]
      congr 1
      refine sum_congr rfl fun k hk => ?_
      have hk := mem_range.1 hk
      rw [huval _ (by omega) (by omega)]
      ring
    rw [hsum]
    rcases lt_trichotomy r i with h | h | h
    · rw [if_neg (by omega)]
      rw [show uvec m4 n i r = 0 by simp [uvec, h]]
      rw [hm4'' _ (by intro k hk _ h'; have := (idx_inj hin hin h').2; omega)]
      rw [hm3' _ (by
        intro i' hi' j' hj' h'
        rw [hidx] at h'
        have := (idx_inj hin (by omega) h').1
        omega)]
      ring
    · subst h
      rw [if_neg (by omega), hm4, ha, show uvec m4 n r r = 1 by simp [uvec]]
      linear_combination hkill - hvi'
    · rw [if_pos h, huval r h hr]
      have : t * (s.mat.val (i + n * r) / vi) * (a + S / vi) = s.mat.val (i + n * r) / vi * vi := by
        linear_combination (s.mat.val (i + n * r) / vi) * hkill
      rw [this, div_mul_cancel₀ _ hvi, sub_self]
  · intro r hr c hc hic
    simp only [if_true]
    rw [hout c hc r (by omega)]
    by_cases hri : r < i
    · rw [show uvec m4 n i r = 0 by simp [uvec, hri]]
      rw [hm3' _ (by
        intro i' hi' j' hj' h'
        rw [hidx] at h'
        have := (idx_inj hc (by omega) h').2
        omega)]
      ring
    · have h1 := hm3 (r - i) (by omega) (c - i - 1) (by omega)
      simp only [hidx] at h1
      rw [show i + 1 + (c - i - 1) = c by omega, show i + (r - i) = r by omega] at h1
      rw [h1, sum_uvec_hvec (show i < m by omega) hu (fun k => s.mat.val (c + n * k))]
      have : hvec v2 i (r - i) = uvec m4 n i r := by
        unfold hvec uvec
        by_cases h : r = i
        · simp [h]
        · rw [if_neg (by omega), if_neg hri, if_neg h, hu r (by omega) hr, show i + (r - i) = r by omega]
      rw [this]
  · simp only [if_true]
    have hsum : ∑ k ∈ range m, uvec m4 n i k * uvec m4 n i k = 1 + S / (vi * vi) := by
      rw [sum_split (show i < m by omega) _ _ (fun r hr => by simp [uvec, hr]) (by simp [uvec]), ← hS, sum_div,
        show uvec m4 n i i = 1 by simp [uvec]]
      congr 1
      refine sum_congr rfl fun k hk => ?_
      have hk := mem_range.1 hk
      rw [huval _ (by omega) (by omega)]
      field_simp
    rw [hsum, horth]
  · simp only
    rw [hm4]
    exact hR

end Basis
end Verif
