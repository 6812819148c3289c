import Verif.Basis.QRStep
import Mathlib.LinearAlgebra.Matrix.ToLin
import Mathlib.LinearAlgebra.FiniteDimensional.Lemmas
import Mathlib.LinearAlgebra.Matrix.NonsingularInverse
import Mathlib.LinearAlgebra.Matrix.Block

/-!
# The QR factorisation as matrices
-/

namespace Verif
namespace Basis

open Finset Restriction

set_option linter.unusedSectionVars false

variable {K : Type} [Field K] [LinearOrder K]

/-- An array read as a row-major matrix of `m` rows and `n` columns. -/
def asMat (b : Buf K) (m n : Nat) : Matrix (Fin m) (Fin n) K := fun r c => b.val (c + n * r)

/-- The upper triangle of an array of `m` rows and `n` columns, zero below the diagonal. -/
def upper (b : Buf K) (m n : Nat) : Matrix (Fin m) (Fin n) K := fun r c => if c.val < r.val then 0 else b.val (c + n * r)

/-- The columns of `A` are linearly independent. -/
def Independent {m n : Nat} (A : Matrix (Fin m) (Fin n) K) : Prop := ∀ x, A.mulVec x = 0 → x = 0

/-- The reflection stored in column `i`. -/
def houseM (mat tau : Buf K) (m n i : Nat) : Matrix (Fin m) (Fin m) K :=
  1 - tau.val i • Matrix.vecMulVec (fun r : Fin m => uvec mat n i r) (fun r : Fin m => uvec mat n i r)

/-- The product of the first `i` reflections, last first. -/
def qtM (mat tau : Buf K) (m n : Nat) : Nat → Matrix (Fin m) (Fin m) K
  | 0 => 1
  | i + 1 => houseM mat tau m n i * qtM mat tau m n i

theorem houseM_mul {mat tau : Buf K} {m n i q : Nat} (B : Matrix (Fin m) (Fin q) K) (r : Fin m) (c : Fin q) :
    (houseM mat tau m n i * B) r c = B r c - tau.val i * uvec mat n i r * ∑ k : Fin m, uvec mat n i k * B k c := by
  unfold houseM
  rw [Matrix.sub_mul, Matrix.one_mul, Matrix.sub_apply, Matrix.smul_mul, Matrix.smul_apply, Matrix.mul_apply, smul_eq_mul]
  simp only [Matrix.vecMulVec_apply]
  rw [mul_assoc]
  congr 2
  rw [mul_sum]
  exact sum_congr rfl fun k _ => by ring

theorem houseM_transpose (mat tau : Buf K) (m n i : Nat) : (houseM mat tau m n i).transpose = houseM mat tau m n i := by
  ext r c
  simp only [houseM, Matrix.transpose_apply, Matrix.sub_apply, Matrix.smul_apply, Matrix.vecMulVec_apply, Matrix.one_apply]
  simp only [eq_comm (a := c) (b := r), mul_comm]

theorem houseM_self {mat tau : Buf K} {m n i : Nat}
    (h : tau.val i = 0 ∨ tau.val i * ∑ k ∈ range m, uvec mat n i k * uvec mat n i k = 2) :
    houseM mat tau m n i * houseM mat tau m n i = 1 := by
  rcases h with h | h
  · simp [houseM, h]
  · ext r c
    rw [houseM_mul]
    have h' : tau.val i * ∑ k : Fin m, uvec mat n i k * uvec mat n i k = 2 := by
      rw [Fin.sum_univ_eq_sum_range (fun k => uvec mat n i k * uvec mat n i k)]; exact h
    have : ∑ k : Fin m, uvec mat n i k * houseM mat tau m n i k c =
        uvec mat n i c - uvec mat n i c * (tau.val i * ∑ k : Fin m, uvec mat n i k * uvec mat n i k) := by
      simp only [houseM, Matrix.sub_apply, Matrix.smul_apply, Matrix.vecMulVec_apply, Matrix.one_apply, smul_eq_mul, mul_sub,
        sum_sub_distrib]
      congr 1
      · simp
      · rw [mul_sum, mul_sum]
        exact sum_congr rfl fun k _ => by ring
    rw [this, h']
    simp only [houseM, Matrix.sub_apply, Matrix.smul_apply, Matrix.vecMulVec_apply, smul_eq_mul]
    ring

theorem qtM_congr {mat tau mat' tau' : Buf K} {m n i : Nat} (ht : ∀ k < i, tau'.val k = tau.val k)
    (hm : ∀ r < m, ∀ c < i, mat'.val (c + n * r) = mat.val (c + n * r)) : qtM mat' tau' m n i = qtM mat tau m n i := by
  induction i with
  | zero => rfl
  | succ i ih =>
    have hu : ∀ r : Fin m, uvec mat' n i r = uvec mat n i r := by
      intro r
      unfold uvec
      rw [hm r r.isLt i (by omega)]
    have : houseM mat' tau' m n i = houseM mat tau m n i := by
      unfold houseM
      rw [ht i (by omega)]
      simp only [hu]
    rw [qtM, qtM, this, ih (fun k hk => ht k (by omega)) (fun r hr c hc => hm r hr c (by omega))]

theorem houseM_congr {mat tau mat' tau' : Buf K} {m n i : Nat} (ht : tau'.val i = tau.val i)
    (hm : ∀ r < m, mat'.val (i + n * r) = mat.val (i + n * r)) : houseM mat' tau' m n i = houseM mat tau m n i := by
  have hu : ∀ r : Fin m, uvec mat' n i r = uvec mat n i r := by
    intro r
    unfold uvec
    rw [hm r r.isLt]
  unfold houseM
  rw [ht]
  simp only [hu]

theorem qtM_orth {mat tau : Buf K} {m n i : Nat} (h : ∀ k < i, houseM mat tau m n k * houseM mat tau m n k = 1) :
    (qtM mat tau m n i).transpose * qtM mat tau m n i = 1 := by
  induction i with
  | zero => simp [qtM]
  | succ i ih =>
    rw [qtM, Matrix.transpose_mul, houseM_transpose, Matrix.mul_assoc, ← Matrix.mul_assoc (houseM mat tau m n i), h i (by omega),
      Matrix.one_mul, ih (fun k hk => h k (by omega))]

/-- The matrix being reduced after `i` columns. -/
def work (b : Buf K) (m n i : Nat) : Matrix (Fin m) (Fin n) K :=
  fun r c => if c.val < i ∧ c.val < r.val then 0 else b.val (c + n * r)

/-- `i + 1` columns with entries in the first `i` rows only are dependent. -/
theorem dependent {m n i : Nat} (hi : i < n) (W : Matrix (Fin m) (Fin n) K)
    (h : ∀ r : Fin m, ∀ c : Fin n, i ≤ r.val → c.val ≤ i → W r c = 0) : ∃ x, x ≠ 0 ∧ W.mulVec x = 0 := by
  let W' : Matrix (Fin i) (Fin (i + 1)) K := fun r c =>
    if hr : r.val < m then W ⟨r, hr⟩ ⟨c, by omega⟩ else 0
  have hk := LinearMap.ker_ne_bot_of_finrank_lt (f := W'.mulVecLin) (by simp)
  obtain ⟨y, hy, hy0⟩ := (Submodule.ne_bot_iff _).1 hk
  rw [LinearMap.mem_ker, Matrix.mulVecLin_apply] at hy
  let g : Nat → K := fun c => if h : c < i + 1 then y ⟨c, h⟩ else 0
  refine ⟨fun c => g c, ?_, ?_⟩
  · intro h0
    apply hy0
    funext c
    have := congrFun h0 ⟨c.val, by omega⟩
    have hg : g c.val = y c := by simp only [g]; rw [dif_pos c.isLt]
    rw [← hg]
    exact this
  · funext r
    simp only [Matrix.mulVec, dotProduct, Pi.zero_apply]
    by_cases hr : i ≤ r.val
    · refine sum_eq_zero fun c _ => ?_
      by_cases hc : c.val ≤ i
      · rw [h r c hr hc, zero_mul]
      · have : g c = 0 := by simp only [g]; rw [dif_neg (by omega)]
        rw [this, mul_zero]
    · have hyr := congrFun hy ⟨r.val, by omega⟩
      simp only [Matrix.mulVec, dotProduct, Pi.zero_apply] at hyr
      let G : Nat → K := fun c => if hc : c < n then W r ⟨c, hc⟩ * g c else 0
      have e1 : ∑ c : Fin n, W r c * g c = ∑ c ∈ range n, G c := by
        rw [← Fin.sum_univ_eq_sum_range]
        refine sum_congr rfl fun c _ => ?_
        simp only [G]; rw [dif_pos c.isLt]
      have e2 : ∑ c : Fin (i + 1), W' ⟨r.val, by omega⟩ c * y c = ∑ c ∈ range (i + 1), G c := by
        rw [← Fin.sum_univ_eq_sum_range]
        refine sum_congr rfl fun c _ => ?_
        simp only [G, W', g]
        rw [dif_pos r.isLt, dif_pos (show c.val < n by omega), dif_pos c.isLt]
      rw [e1, ← hyr, e2]
      obtain ⟨p, rfl⟩ : ∃ p, n = i + 1 + p := ⟨n - (i + 1), by omega⟩
      rw [sum_range_add]
      rw [sum_eq_zero (s := range p), add_zero]
      intro c hc
      simp only [G, g]
      split
      · rw [dif_neg (by omega), mul_zero]
      · rfl

theorem Independent.mul {m n : Nat} {A : Matrix (Fin m) (Fin n) K} (h : Independent A) {Q : Matrix (Fin m) (Fin m) K}
    (hQ : Q.transpose * Q = 1) : Independent (Q * A) := by
  intro x hx
  apply h
  have : Q.transpose.mulVec ((Q * A).mulVec x) = A.mulVec x := by
    rw [Matrix.mulVec_mulVec, ← Matrix.mul_assoc, hQ, Matrix.one_mul]
  rw [← this, hx, Matrix.mulVec_zero]

variable [IsStrictOrderedRing K]

/-- State of the factorisation of `A` after `i` columns. -/
structure QRInv (A : Matrix (Fin m) (Fin n) K) (L i : Nat) (s : QR K) : Prop where
  stop : s.stop = true → m ≤ i
  mat : s.mat.len = m * n
  tau : s.tau.len = L
  v : s.v.len = m
  prod : qtM s.mat s.tau m n i * A = work s.mat m n i
  refl : ∀ k < i, houseM s.mat s.tau m n k * houseM s.mat s.tau m n k = 1
  diag : ∀ k < i, s.mat.val (k + n * k) ≠ 0

theorem QRInv.column {m n L i : Nat} {A : Matrix (Fin m) (Fin n) K} {s : QR K} (h : QRInv A L i s) (hA : Independent A) (hi : i < n) :
    ∃ k, i ≤ k ∧ k < m ∧ s.mat.val (i + n * k) ≠ 0 := by
  by_contra hc
  push Not at hc
  obtain ⟨x, hx0, hx⟩ := dependent hi (work s.mat m n i) (by
    intro r c hr hci
    unfold work
    split
    · rfl
    · next hn =>
      have : c.val = i := by
        by_contra hne
        exact hn ⟨by omega, by omega⟩
      rw [this]
      exact hc r hr r.isLt)
  rw [← h.prod] at hx
  exact hx0 (hA.mul (qtM_orth h.refl) x hx)

theorem QRInv.step {sqrt : K → K} (hs : ∀ x, 0 ≤ x → 0 ≤ sqrt x ∧ sqrt x * sqrt x = x) {m n L i : Nat}
    {A : Matrix (Fin m) (Fin n) K} {s : QR K} (h : QRInv A L i s) (hA : Independent A) (hi : i < n) (hnm : n ≤ m) (hL : n ≤ L) :
    ∃ s', qrStep sqrt m n i s = .ok s' ∧ QRInv A L (i + 1) s' := by
  have hst : s.stop = false := by
    cases hh : s.stop with
    | false => rfl
    | true => have := h.stop hh; omega
  have hcol := h.column hA hi
  by_cases him : m ≤ i + 1
  · have hlt : i < s.tau.len := by rw [h.tau]; omega
    refine ⟨⟨s.mat, ⟨s.tau.len, fun j => if j = i then 0 else s.tau.val j⟩, s.v, true⟩, ?_, ?_⟩
    · unfold qrStep
      rw [hst, if_neg (by simp), if_pos him, Buf.wr_lt hlt, Res.bind_ok]
    · have ho : houseM s.mat ⟨s.tau.len, fun j => if j = i then 0 else s.tau.val j⟩ m n i = 1 := by
        simp [houseM]
      have hq : qtM s.mat ⟨s.tau.len, fun j => if j = i then 0 else s.tau.val j⟩ m n i = qtM s.mat s.tau m n i :=
        qtM_congr (fun k hk => by simp only; rw [if_neg (by omega)]) (fun _ _ _ _ => rfl)
      refine ⟨fun _ => him, h.mat, h.tau, h.v, ?_, ?_, ?_⟩
      · simp only [qtM]
        rw [ho, Matrix.one_mul, hq, h.prod]
        ext r c
        unfold work
        have : (c.val < i ∧ c.val < r.val) ↔ (c.val < i + 1 ∧ c.val < r.val) := by
          have := r.isLt
          omega
        simp only [this]
      · intro k hk
        simp only
        by_cases hki : k = i
        · subst hki; rw [ho, Matrix.one_mul]
        · rw [houseM_congr (mat := s.mat) (tau := s.tau) (by simp only; rw [if_neg hki]) (fun _ _ => rfl)]
          exact h.refl k (by omega)
      · intro k hk
        simp only
        by_cases hki : k = i
        · obtain ⟨k', h1, h2, h3⟩ := hcol
          have : k' = i := by omega
          rw [hki]; rwa [this] at h3
        · exact h.diag k (by omega)
  · obtain ⟨s', e, h1, h2, h3, h4, h5, h6, h7, h8, h9, h10⟩ := qrStep_ok hs hst (show i + 1 < m by omega) hi h.mat
      (by rw [h.tau]; omega) h.v hcol
    refine ⟨s', e, fun hh => by rw [h1] at hh; simp at hh, h2, by rw [h3, h.tau], h4, ?_, ?_, ?_⟩
    · rw [qtM, Matrix.mul_assoc, qtM_congr (mat := s.mat) (tau := s.tau) (fun k hk => h5 k (by omega)) h6, h.prod]
      ext r c
      rw [houseM_mul]
      rcases lt_trichotomy c.val i with hc | hc | hc
      · have hz : ∀ k : Fin m, uvec s'.mat n i k * work s.mat m n i k c = 0 := by
          intro k
          by_cases hk : k.val < i
          · simp [uvec, hk]
          · unfold work; rw [if_pos ⟨hc, by omega⟩, mul_zero]
        rw [sum_eq_zero (fun k _ => hz k), mul_zero, sub_zero]
        unfold work
        by_cases hcr : c.val < r.val
        · rw [if_pos ⟨hc, hcr⟩, if_pos ⟨by omega, hcr⟩]
        · rw [if_neg (fun hh => hcr hh.2), if_neg (fun hh => hcr hh.2), h6 r r.isLt c hc]
      · have hw : ∀ k : Fin m, work s.mat m n i k c = s.mat.val (i + n * k) := by
          intro k; unfold work; rw [if_neg (by omega), hc]
        simp only [hw]
        rw [Fin.sum_univ_eq_sum_range (fun k => uvec s'.mat n i k * s.mat.val (i + n * k)), ← h7 r r.isLt]
        unfold work
        rw [hc]
        by_cases hr : i < r.val
        · rw [if_pos hr, if_pos ⟨by omega, hr⟩]
        · rw [if_neg hr, if_neg (fun hh => hr hh.2)]
      · have hw : ∀ k : Fin m, work s.mat m n i k c = s.mat.val (c + n * k) := by
          intro k; unfold work; rw [if_neg (by omega)]
        simp only [hw]
        rw [Fin.sum_univ_eq_sum_range (fun k => uvec s'.mat n i k * s.mat.val (c + n * k)), ← h8 r r.isLt c c.isLt hc]
        unfold work
        rw [if_neg (by omega)]
    · intro k hk
      by_cases hki : k = i
      · subst hki
        exact houseM_self (Or.inr h9)
      · rw [houseM_congr (mat := s.mat) (tau := s.tau) (h5 k hki) (fun r hr => h6 r hr k (by omega))]
        exact h.refl k (by omega)
    · intro k hk
      by_cases hki : k = i
      · rw [hki]; exact h10
      · rw [h6 k (by omega) k (by omega)]
        exact h.diag k (by omega)

/-- The factorisation succeeds on independent columns, with the reflections stored in the results. -/
theorem qrFactor_ok {sqrt : K → K} (hs : ∀ x, 0 ≤ x → 0 ≤ sqrt x ∧ sqrt x * sqrt x = x) {m n : Nat} (v0 : Nat → K)
    {mat tau : Buf K} (hnm : n ≤ m) (hmat : mat.len = m * n) (htau : n ≤ tau.len) (hA : Independent (asMat mat m n)) :
    ∃ F t, qrFactor sqrt v0 mat tau m n = .ok (F, t) ∧ F.len = m * n ∧ t.len = tau.len ∧
      qtM F t m n n * asMat mat m n = upper F m n ∧
      (qtM F t m n n).transpose * qtM F t m n n = 1 ∧ ∀ k < n, F.val (k + n * k) ≠ 0 := by
  obtain ⟨s, e, h⟩ := loop_inv (n := n) (body := qrStep sqrt m n) (s := (⟨mat, tau, ⟨m, v0⟩, false⟩ : QR K))
    (fun i s => QRInv (asMat mat m n) tau.len i s)
    ⟨by simp, hmat, rfl, rfl, by simp only [qtM, Matrix.one_mul]; ext r c; simp [work, asMat], by intro k hk; omega,
      by intro k hk; omega⟩
    (fun i hi s hs' => hs'.step hs hA hi hnm htau)
  refine ⟨s.mat, s.tau, ?_, h.mat, h.tau, ?_, qtM_orth h.refl, h.diag⟩
  · unfold qrFactor
    rw [Res.check_true hnm, Res.bind_ok, e, Res.bind_ok]
  · rw [h.prod]
    ext r c
    simp [work, upper, c.isLt]

end Basis
end Verif
