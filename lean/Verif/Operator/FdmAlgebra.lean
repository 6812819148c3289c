import Verif.Operator.FdmSpec

/-!
# Element inverses by fast diagonalisation: algebra of tensor products
-/

set_option linter.unusedSectionVars false

namespace Verif
namespace Operator

open Finset
open Basis (coord coord_lt sum_digits digits_ext)

variable {K : Type} [Field K] [LinearOrder K]

/-- A triple product of tensor products. -/
theorem kron_triple {P : Nat} (hP : 0 < P) (dim : Nat) (A : Nat → Nat → K) (B : Nat → Nat → Nat → K) (C : Nat → Nat → K) (p q : Nat) :
    ∑ n ∈ range (P ^ dim), ∑ m ∈ range (P ^ dim),
      kronAll A P dim n p * (∏ d ∈ range dim, B d (coord P d n) (coord P d m)) * kronAll C P dim m q =
    ∏ d ∈ range dim, ∑ n ∈ range P, ∑ m ∈ range P, A n (coord P d p) * B d n m * C m (coord P d q) := by
  unfold kronAll
  rw [← sum_digits (fun d n => ∑ m ∈ range P, A n (coord P d p) * B d n m * C m (coord P d q)) dim hP]
  refine sum_congr rfl fun n _ => ?_
  rw [← sum_digits (fun d m => A (coord P d n) (coord P d p) * B d (coord P d n) m * C m (coord P d q)) dim hP]
  refine sum_congr rfl fun m _ => ?_
  rw [← prod_mul_distrib, ← prod_mul_distrib]

theorem sep_cong {P : Nat} (hP : 0 < P) (dim : Nat) (X M L : Nat → Nat → K) (c g : K) (p q : Nat) :
    ∑ n ∈ range (P ^ dim), ∑ m ∈ range (P ^ dim), kronAll X P dim n p * sepMat c g M L P dim n m * kronAll X P dim m q =
      sepMat c g (cong X M P) (cong X L P) P dim p q := by
  have h1 := kron_triple hP dim X (fun _ => M) X p q
  have h2 : ∀ d, _ := fun d => kron_triple hP dim X (fun d' => if d = d' then L else M) X p q
  unfold sepMat
  simp only [mul_add, add_mul, sum_add_distrib]
  congr 1
  · have : ∀ n m, kronAll X P dim n p * (c * kronAll M P dim n m) * kronAll X P dim m q =
        c * (kronAll X P dim n p * (∏ d ∈ range dim, M (coord P d n) (coord P d m)) * kronAll X P dim m q) := by
      intro n m; unfold kronAll; ring
    simp only [this, ← mul_sum]
    rw [h1]
    rfl
  · have : ∀ n m, kronAll X P dim n p * (g * ∑ d ∈ range dim, ∏ d' ∈ range dim, (if d = d' then L else M) (coord P d' n) (coord P d' m)) *
        kronAll X P dim m q = g * ∑ d ∈ range dim, (kronAll X P dim n p *
          (∏ d' ∈ range dim, (if d = d' then L else M) (coord P d' n) (coord P d' m)) * kronAll X P dim m q) := by
      intro n m
      simp only [mul_sum, sum_mul]
      exact sum_congr rfl fun d _ => by ring
    simp only [this, ← mul_sum]
    congr 1
    have hs : ∑ n ∈ range (P ^ dim), ∑ m ∈ range (P ^ dim), ∑ d ∈ range dim, (kronAll X P dim n p *
          (∏ d' ∈ range dim, (if d = d' then L else M) (coord P d' n) (coord P d' m)) * kronAll X P dim m q) =
        ∑ d ∈ range dim, ∑ n ∈ range (P ^ dim), ∑ m ∈ range (P ^ dim), (kronAll X P dim n p *
          (∏ d' ∈ range dim, (if d = d' then L else M) (coord P d' n) (coord P d' m)) * kronAll X P dim m q) := by
      rw [sum_comm (s := range dim)]
      exact sum_congr rfl fun n _ => sum_comm
    rw [hs]
    refine sum_congr rfl fun d _ => ?_
    rw [h2 d]
    refine prod_congr rfl fun d' _ => ?_
    by_cases h : d = d'
    · simp only [if_pos h]; rfl
    · simp only [if_neg h]; rfl

theorem kron_one {P : Nat} (dim : Nat) {A : Nat → Nat → K} (hA : ∀ p < P, ∀ q < P, A p q = if p = q then 1 else 0) {p q : Nat}
    (hP : 0 < P) (hp : p < P ^ dim) (hq : q < P ^ dim) : kronAll A P dim p q = if p = q then 1 else 0 := by
  unfold kronAll
  split
  · rename_i h
    subst h
    exact prod_eq_one fun d _ => by rw [hA _ (coord_lt hP _ _) _ (coord_lt hP _ _), if_pos rfl]
  · rename_i h
    have : ∃ d < dim, coord P d p ≠ coord P d q := by
      by_contra hh
      push Not at hh
      exact h (digits_ext dim hp hq hh)
    obtain ⟨d, hd, hne⟩ := this
    exact prod_eq_zero (mem_range.2 hd) (by rw [hA _ (coord_lt hP _ _) _ (coord_lt hP _ _), if_neg hne])

theorem sep_diag {P : Nat} (dim : Nat) {A B : Nat → Nat → K} {lam : Nat → K} (hA : ∀ p < P, ∀ q < P, A p q = if p = q then 1 else 0)
    (hB : ∀ p < P, ∀ q < P, B p q = if p = q then lam p else 0) (c g : K) {p q : Nat}
    (hP : 0 < P) (hp : p < P ^ dim) (hq : q < P ^ dim) :
    sepMat c g A B P dim p q = if p = q then c + g * eigSum lam P dim p else 0 := by
  unfold sepMat
  rw [kron_one dim hA hP hp hq]
  by_cases h : p = q
  · subst h
    rw [if_pos rfl, if_pos rfl, mul_one]
    congr 2
    unfold eigSum
    refine sum_congr rfl fun d hd => ?_
    rw [prod_eq_single d]
    · rw [if_pos rfl, hB _ (coord_lt hP _ _) _ (coord_lt hP _ _), if_pos rfl]
    · intro d' _ hne
      rw [if_neg (Ne.symm hne), hA _ (coord_lt hP _ _) _ (coord_lt hP _ _), if_pos rfl]
    · intro hh; exact absurd hd hh
  · rw [if_neg h, if_neg h, mul_zero, zero_add]
    have : ∃ d < dim, coord P d p ≠ coord P d q := by
      by_contra hh
      push Not at hh
      exact h (digits_ext dim hp hq hh)
    obtain ⟨d, hd, hne⟩ := this
    rw [sum_eq_zero, mul_zero]
    intro e _
    refine prod_eq_zero (mem_range.2 hd) ?_
    by_cases he : e = d
    · rw [if_pos he, hB _ (coord_lt hP _ _) _ (coord_lt hP _ _), if_neg hne]
    · rw [if_neg he, hA _ (coord_lt hP _ _) _ (coord_lt hP _ _), if_neg hne]

/-- If `X` diagonalises, the matrix applied on an element is the inverse of the separable matrix, on both sides. -/
theorem fdm_inverse {P : Nat} (hP : 0 < P) (dim : Nat) {X M L : Nat → Nat → K} {lam : Nat → K} {c g a : K}
    (hM : ∀ p < P, ∀ q < P, cong X M P p q = if p = q then 1 else 0)
    (hL : ∀ p < P, ∀ q < P, cong X L P p q = if p = q then lam p else 0) (ha : a ≠ 0)
    (hd : ∀ q < P ^ dim, c + g * eigSum lam P dim q ≠ 0) {s : Nat → K}
    (hs : ∀ q < P ^ dim, s q = 1 / (a * (c + g * eigSum lam P dim q))) :
    (∀ n < P ^ dim, ∀ p < P ^ dim, ∑ m ∈ range (P ^ dim), a * sepMat c g M L P dim n m * fdmMat X s P dim m p = if n = p then 1 else 0) ∧
    ∀ n < P ^ dim, ∀ p < P ^ dim, ∑ m ∈ range (P ^ dim), fdmMat X s P dim n m * (a * sepMat c g M L P dim m p) = if n = p then 1 else 0 := by
  let N := P ^ dim
  let T : Matrix (Fin N) (Fin N) K := fun n q => kronAll X P dim n q
  let S : Matrix (Fin N) (Fin N) K := fun n m => sepMat c g M L P dim n m
  let U : Matrix (Fin N) (Fin N) K := fun q m => kronAll (fun x y => ∑ n ∈ range P, X n x * M n y) P dim q m
  let Dg : Matrix (Fin N) (Fin N) K := Matrix.diagonal fun q => c + g * eigSum lam P dim q
  let Di : Matrix (Fin N) (Fin N) K := Matrix.diagonal fun q => s q
  have hUT : U * T = 1 := by
    ext p q
    rw [Matrix.mul_apply, Matrix.one_apply]
    show ∑ n : Fin N, U p n * T n q = _
    have h0 : ∑ n : Fin N, U p n * T n q = kronAll (cong X M P) P dim p q := by
      rw [Fin.sum_univ_eq_sum_range (fun n => kronAll (fun x y => ∑ n ∈ range P, X n x * M n y) P dim p n * kronAll X P dim n q)]
      unfold kronAll
      rw [← prod_congr rfl (fun d _ => ?_), ← sum_digits (fun d n => (∑ k ∈ range P, X k (coord P d p) * M k n) * X n (coord P d q)) dim hP]
      · exact sum_congr rfl fun n _ => by rw [prod_mul_distrib]
      · unfold cong
        rw [sum_comm]
        exact sum_congr rfl fun n _ => by rw [sum_mul]
    rw [h0, kron_one dim hM hP p.isLt q.isLt]
    simp only [Fin.ext_iff]
  have hTU : T * U = 1 := mul_eq_one_comm.1 hUT
  have hTST : T.transpose * S * T = Dg := by
    ext p q
    rw [Matrix.mul_apply]
    simp only [Matrix.mul_apply, Matrix.transpose_apply, sum_mul]
    rw [sum_comm]
    show ∑ n : Fin N, ∑ m : Fin N, T n p * S n m * T m q = _
    have h0 : ∑ n : Fin N, ∑ m : Fin N, T n p * S n m * T m q = sepMat c g (cong X M P) (cong X L P) P dim p q := by
      rw [← sep_cong hP, Fin.sum_univ_eq_sum_range (fun n => ∑ m : Fin N, kronAll X P dim n p * sepMat c g M L P dim n m * kronAll X P dim m q)]
      exact sum_congr rfl fun n _ =>
        Fin.sum_univ_eq_sum_range (fun m => kronAll X P dim n p * sepMat c g M L P dim n m * kronAll X P dim m q) N
    rw [h0, sep_diag dim hM hL c g hP p.isLt q.isLt, show Dg p q = if p = q then c + g * eigSum lam P dim p else 0 from Matrix.diagonal_apply _ _ _]
    simp only [Fin.ext_iff]
  have hDD : Di * (a • Dg) = 1 := by
    ext p q
    rw [show a • Dg = Matrix.diagonal (fun q : Fin N => a * (c + g * eigSum lam P dim q)) by
      ext i j; simp only [Dg, Matrix.smul_apply, Matrix.diagonal_apply, smul_eq_mul, mul_ite, mul_zero]]
    rw [Matrix.diagonal_mul_diagonal, Matrix.diagonal_apply, Matrix.one_apply]
    split
    · rw [hs p p.isLt, one_div, inv_mul_cancel₀ (mul_ne_zero ha (hd p p.isLt))]
    · rfl
  have hF : (T * Di * T.transpose) * (a • S) = 1 := by
    have e1 : S = U.transpose * Dg * U := by
      rw [← hTST]
      have : T.transpose.transpose = T := rfl
      calc S = (T * U).transpose * S * (T * U) := by rw [hTU]; simp
        _ = _ := by rw [Matrix.transpose_mul]; simp only [Matrix.mul_assoc]
    calc (T * Di * T.transpose) * (a • S) = T * Di * (U * T).transpose * (a • Dg) * U := by
          rw [e1, Matrix.transpose_mul]
          simp only [Matrix.mul_assoc, Matrix.smul_mul, Matrix.mul_smul]
      _ = T * (Di * (a • Dg)) * U := by rw [hUT, Matrix.transpose_one, Matrix.mul_one]; simp only [Matrix.mul_assoc]
      _ = 1 := by rw [hDD, Matrix.mul_one, hTU]
  have hfd : ∀ n m : Fin N, (T * Di * T.transpose) n m = fdmMat X s P dim n m := by
    intro n m
    rw [Matrix.mul_apply]
    unfold fdmMat
    rw [← Fin.sum_univ_eq_sum_range (fun q => kronAll X P dim n q * s q * kronAll X P dim m q)]
    exact sum_congr rfl fun q _ => by rw [Matrix.mul_diagonal]; rfl
  constructor
  · intro n hn p hp
    have hF' : (a • S) * (T * Di * T.transpose) = 1 := mul_eq_one_comm.1 hF
    have h := congrFun (congrFun hF' ⟨n, hn⟩) ⟨p, hp⟩
    rw [Matrix.mul_apply, Matrix.one_apply] at h
    simp only [hfd, Fin.ext_iff] at h
    rw [← h]
    exact (Fin.sum_univ_eq_sum_range (fun m => a * sepMat c g M L P dim n m * fdmMat X s P dim m p) N).symm
  · intro n hn p hp
    have h := congrFun (congrFun hF ⟨n, hn⟩) ⟨p, hp⟩
    rw [Matrix.mul_apply, Matrix.one_apply] at h
    simp only [hfd, Fin.ext_iff] at h
    rw [← h]
    exact (Fin.sum_univ_eq_sum_range (fun m => fdmMat X s P dim n m * (a * sepMat c g M L P dim m p)) N).symm

end Operator
end Verif
