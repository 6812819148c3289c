import Verif.Basis.Pinv
import Verif.Basis.Create
import Verif.Basis.Spec
import Verif.Basis.LagrangeProps
import Mathlib.Analysis.Real.Sqrt

/-!
# QR factorisation, orthogonal application and pseudoinverse (C27)
-/

namespace Verif
namespace Basis

open Finset Restriction

set_option linter.unusedSectionVars false

variable {K : Type} [Field K] [LinearOrder K]

/-- `sqrt` is the square root. -/
def IsSqrt (sqrt : K → K) : Prop := ∀ x, 0 ≤ x → 0 ≤ sqrt x ∧ sqrt x * sqrt x = x

example : IsSqrt Real.sqrt := fun x hx => ⟨Real.sqrt_nonneg x, Real.mul_self_sqrt hx⟩

/-- C27: a matrix with more columns than rows is rejected, by the factorisation and by the pseudoinverse. -/
theorem C27_rejects (sqrt : K → K) (v0 v1 : Nat → K) (mat tau p : Buf K) {m n : Nat} (h : m < n) (hmat : m * n ≤ mat.len) :
    qrFactor sqrt v0 mat tau m n = .err .unsupported ∧ pseudoinverse sqrt v0 v1 mat m n p = .err .unsupported := by
  have hr : ∀ (mat tau : Buf K), qrFactor sqrt v0 mat tau m n = .err .unsupported := by
    intro mat tau
    unfold qrFactor
    rw [Res.check_false (by omega)]
    rfl
  refine ⟨hr _ _, ?_⟩
  unfold pseudoinverse
  rw [show copyIn mat (m * n) = .ok ⟨m * n, mat.val⟩ from if_pos hmat, Res.bind_ok, hr]
  rfl

variable [IsStrictOrderedRing K]

/-- C27: for every matrix of `m ≥ n` rows with linearly independent columns, `CeedQRFactorization` succeeds, without dividing by zero or
leaving an array, and there is an orthogonal matrix `Q` such that the given matrix is `Q` times the upper triangle of the result, which
has no zero on its diagonal, and `CeedHouseholderApplyQ` with the result multiplies any matrix, stored with any strides that keep its
entries apart, by `Q` or by the transpose of `Q`, changing nothing else in the array. -/
theorem C27_qr {sqrt : K → K} (hs : IsSqrt sqrt) {m n : Nat} (v0 : Nat → K) {mat tau : Buf K} (hnm : n ≤ m) (hmat : mat.len = m * n)
    (htau : tau.len = m) (hA : Independent (asMat mat m n)) :
    ∃ F t, qrFactor sqrt v0 mat tau m n = .ok (F, t) ∧ F.len = m * n ∧ t.len = m ∧
      ∃ Q : Matrix (Fin m) (Fin m) K, Q.transpose * Q = 1 ∧ Q * Q.transpose = 1 ∧ asMat mat m n = Q * upper F m n ∧
        (∀ k < n, F.val (k + n * k) ≠ 0) ∧
        ∀ (v1 : Nat → K) (B : Buf K) (nb row col : Nat) (tm : TMode), Window B 0 m nb row col →
          ∃ B', applyQ v1 B F t tm m nb n row col = .ok B' ∧ B'.len = B.len ∧
            strided B' m nb row col = (if tm = .transpose then Q.transpose else Q) * strided B m nb row col ∧
            ∀ x, (∀ r < m, ∀ c < nb, x ≠ r * row + c * col) → B'.val x = B.val x := by
  obtain ⟨F, t, e, hF, ht, hprod, horth, hdiag⟩ := qrFactor_ok hs v0 hnm hmat (tau := tau) (by omega) hA
  refine ⟨F, t, e, hF, ht.trans htau, (qtM F t m n n).transpose, ?_, ?_, ?_, hdiag, ?_⟩
  · rw [Matrix.transpose_transpose]; exact mul_eq_one_comm.1 horth
  · rw [Matrix.transpose_transpose]; exact horth
  · rw [← hprod, ← Matrix.mul_assoc, horth, Matrix.one_mul]
  · intro v1 B nb row col tm hw
    obtain ⟨B', e', h1, h2, h3⟩ := applyQ_ok v1 tm hnm hw hF (tau := t) (by rw [ht, htau]; exact hnm)
    refine ⟨B', e', h1, ?_, h3⟩
    rw [h2, Matrix.transpose_transpose]

theorem identity_ok (m : Nat) : ∃ I : Buf K, loop m (fun i (I : Buf K) => I.wr (i * m + i) 1) ⟨m * m, fun _ => 0⟩ = .ok I ∧
    I.len = m * m ∧ strided I m m m 1 = 1 := by
  obtain ⟨I, e, h1, h2⟩ := loop_inv (n := m) (body := fun i (I : Buf K) => I.wr (i * m + i) 1) (s := ⟨m * m, fun _ => 0⟩)
    (fun t I => I.len = m * m ∧ ∀ r < m, ∀ c < m, I.val (c + m * r) = if r = c ∧ r < t then 1 else 0)
    ⟨rfl, by intro r _ c _; simp⟩ (by
      intro i hi I ⟨h1, h2⟩
      have hlt : i * m + i < I.len := by
        rw [h1, Nat.add_comm, Nat.mul_comm i m]; exact idx_lt hi hi
      refine ⟨_, by rw [Buf.wr_lt hlt], ?_, ?_⟩
      · exact h1
      · intro r hr c hc
        simp only
        by_cases h : r = i ∧ c = i
        · rw [if_pos (by rw [h.1, h.2]; ring), if_pos (by omega)]
        · rw [if_neg, h2 r hr c hc]
          · have : (r = c ∧ r < i) ↔ (r = c ∧ r < i + 1) := by omega
            simp only [this]
          · intro hh
            have := idx_inj hc hi (show c + m * r = i + m * i by rw [hh]; ring)
            exact h ⟨this.2, this.1⟩)
  refine ⟨I, e, h1, ?_⟩
  ext r c
  unfold strided
  rw [show r.val * m + c.val * 1 = c.val + m * r.val by ring, h2 r r.isLt c c.isLt, Matrix.one_apply]
  have := r.isLt
  simp [Fin.ext_iff]

theorem upper_det {F : Buf K} {n : Nat} (hd : ∀ k < n, F.val (k + n * k) ≠ 0) : IsUnit (upper F n n).det := by
  rw [Matrix.det_of_isUpperTriangular]
  · rw [isUnit_iff_ne_zero]
    refine prod_ne_zero_iff.2 fun k _ => ?_
    simp only [upper, lt_self_iff_false, if_false]
    exact hd k k.isLt
  · intro r c h
    simp only [id] at h
    simp only [upper]
    exact if_pos (Fin.lt_def.1 h)

theorem pinv_ok {sqrt : K → K} (hs : IsSqrt sqrt) {m n : Nat} (v0 v1 : Nat → K) {mat p : Buf K} (hn : 0 < n) (hnm : n ≤ m)
    (hmat : m * n ≤ mat.len) (hp : p.len = n * m) (hA : Independent (asMat mat m n)) :
    ∃ X, pseudoinverse sqrt v0 v1 mat m n p = .ok X ∧ X.len = n * m ∧ asMat X n m * asMat mat m n = 1 ∧
      (asMat mat m n * asMat X n m).transpose = asMat mat m n * asMat X n m := by
  obtain ⟨F, t, e, hF, ht, hprod, horth, hdiag⟩ := qrFactor_ok hs v0 hnm (mat := ⟨m * n, mat.val⟩) (tau := ⟨m, fun _ => 0⟩) rfl hnm hA
  obtain ⟨I, eI, hI, hI1⟩ := identity_ok (K := K) m
  have hw : Window I 0 m m m 1 := by
    refine ⟨?_, ?_⟩
    · intro a ha b hb c hc d hd h
      have := idx_inj (n := m) hb hd (show b + m * a = d + m * c by linear_combination h)
      exact ⟨this.2, this.1⟩
    · intro a ha b hb
      rw [hI, show 0 + (a * m + b * 1) = b + m * a by ring]
      exact idx_lt hb ha
  obtain ⟨J, eJ, hJ, hJ1, _⟩ := applyQ_ok v1 .transpose hnm hw hF (tau := t) (by rw [ht]; exact hnm)
  rw [if_pos rfl, hI1, Matrix.mul_one] at hJ1
  have hJv : ∀ r c : Fin m, J.val (c + m * r) = qtM F t m n n r c := by
    intro r c
    rw [← hJ1]
    unfold strided
    congr 1; ring
  obtain ⟨X, eX, hX, hX1⟩ := loop_inv (n := m) (body := fun j p => backCol J F m n j p) (s := p)
    (fun j X => X.len = n * m ∧ ∀ j' < j, ∀ r < n, F.val (r + n * r) * X.val (j' + m * r) +
        ∑ k ∈ range (n - (r + 1)), F.val (r + 1 + k + n * r) * X.val (j' + m * (r + 1 + k)) = J.val (j' + m * r))
    ⟨hp, by intro j' hj'; omega⟩ (by
      intro j hj X ⟨h1, h2⟩
      obtain ⟨X', e', g1, g2, g3⟩ := backCol_ok (I := J) (R := F) (p := X) hn hnm hj (hJ.trans hI) hF h1 hdiag
      refine ⟨X', e', g1.trans h1, ?_⟩
      intro j' hj' r hr
      by_cases hjj : j' = j
      · subst hjj; exact g2 r hr
      · have hne : ∀ r, ∀ r' < n, j' + m * r ≠ j + m * r' := fun r r' _ h => hjj (idx_inj (by omega) hj h).1
        rw [g3 _ (hne r), ← h2 j' (by omega) r hr]
        congr 1
        refine sum_congr rfl fun k _ => ?_
        rw [g3 _ (hne _)])
  -- the triangular system, as matrices
  have hRX : ∀ r : Fin n, ∀ j : Fin m, (upper F n n * asMat X n m) r j = qtM F t m n n ⟨r, by omega⟩ j := by
    intro r j
    rw [Matrix.mul_apply, ← hJv ⟨r, by omega⟩ j, ← hX1 j j.isLt r r.isLt]
    simp only [upper, asMat]
    have hsp := sum_split r.isLt (fun c => if c < r.val then 0 else if c = r.val then 1 else F.val (c + n * r) : Nat → K)
      (fun c => if c = r.val then F.val (r + n * r) * X.val (j + m * r) else X.val (j + m * c))
      (fun c hc => by simp [hc]) (by simp)
    simp only [if_true] at hsp
    rw [Fin.sum_univ_eq_sum_range (fun c => (if c < r.val then 0 else F.val (c + n * r)) * X.val (j + m * c))]
    rw [show ∑ k ∈ range (n - (r.val + 1)), F.val (r + 1 + k + n * r) * X.val (j + m * (r + 1 + k)) =
      ∑ k ∈ range (n - (r.val + 1)), (if r.val + 1 + k < r.val then 0 else if r.val + 1 + k = r.val then 1 else F.val (r + 1 + k + n * r)) *
        (if r.val + 1 + k = r.val then F.val (r + n * r) * X.val (j + m * r) else X.val (j + m * (r + 1 + k))) from
      sum_congr rfl fun k _ => by
        rw [if_neg (by omega), if_neg (by omega), if_neg (by omega)]]
    rw [← hsp]
    refine sum_congr rfl fun c _ => ?_
    by_cases h1 : c < r.val
    · simp [h1]
    · by_cases h2 : c = r.val
      · simp [h2]
      · simp [h1, h2]
  have hRA : ∀ r c : Fin n, (upper F n n * (asMat X n m * asMat mat m n)) r c = upper F n n r c := by
    intro r c
    rw [← Matrix.mul_assoc, Matrix.mul_apply]
    simp only [hRX]
    have := congrFun (congrFun hprod ⟨r, by omega⟩) c
    rw [Matrix.mul_apply] at this
    simp only [asMat] at this ⊢
    rw [this]
    rfl
  have hXA : asMat X n m * asMat mat m n = 1 := by
    have hu : upper F n n * (asMat X n m * asMat mat m n) = upper F n n * 1 := by
      rw [Matrix.mul_one]; ext r c; exact hRA r c
    have hdet : IsUnit (upper F n n).det := upper_det hdiag
    have := congrArg (fun M => (upper F n n)⁻¹ * M) hu
    simp only [← Matrix.mul_assoc, Matrix.nonsing_inv_mul _ hdet, Matrix.one_mul] at this
    exact this
  refine ⟨X, ?_, hX, hXA, ?_⟩
  · unfold pseudoinverse
    rw [show copyIn mat (m * n) = .ok ⟨m * n, mat.val⟩ from if_pos hmat, Res.bind_ok, e, Res.bind_ok]
    simp only
    rw [eI, Res.bind_ok, eJ, Res.bind_ok, if_neg (by omega)]
    exact eX
  · -- A X = Qᵀ D Q with D the projection on the first n coordinates
    let D : Matrix (Fin m) (Fin m) K := Matrix.diagonal fun r => if r.val < n then 1 else 0
    have hUX : upper F m n * asMat X n m = D * qtM F t m n n := by
      ext r j
      rw [Matrix.diagonal_mul]
      by_cases hr : r.val < n
      · rw [if_pos hr, one_mul, ← hRX ⟨r, hr⟩ j, Matrix.mul_apply, Matrix.mul_apply]
        rfl
      · rw [if_neg hr, zero_mul, Matrix.mul_apply]
        refine sum_eq_zero fun c _ => ?_
        have := c.isLt
        simp only [upper]
        rw [if_pos (by omega), zero_mul]
    have hAX : asMat mat m n * asMat X n m = (qtM F t m n n).transpose * D * qtM F t m n n := by
      have h1 : asMat mat m n = (qtM F t m n n).transpose * upper F m n := by
        rw [← hprod, ← Matrix.mul_assoc, horth, Matrix.one_mul]; rfl
      rw [h1, Matrix.mul_assoc, hUX, Matrix.mul_assoc]
    rw [hAX, Matrix.transpose_mul, Matrix.transpose_mul, Matrix.transpose_transpose, Matrix.diagonal_transpose, Matrix.mul_assoc]

/-- C27: for every matrix of `m ≥ n > 0` rows with linearly independent columns, `CeedMatrixPseudoinverse` succeeds and returns the
Moore-Penrose inverse: a left inverse such that the product in the other order is symmetric, whatever the uninitialised arrays held. -/
theorem C27_pseudoinverse {sqrt : K → K} (hs : IsSqrt sqrt) {m n : Nat} (v0 v1 : Nat → K) {mat p : Buf K} (hn : 0 < n) (hnm : n ≤ m)
    (hmat : mat.len = m * n) (hp : p.len = n * m) (hA : Independent (asMat mat m n)) :
    ∃ X, pseudoinverse sqrt v0 v1 mat m n p = .ok X ∧ X.len = n * m ∧ asMat X n m * asMat mat m n = 1 ∧
      (asMat mat m n * asMat X n m).transpose = asMat mat m n * asMat X n m :=
  pinv_ok hs v0 v1 hn hnm (le_of_eq hmat.symm) hp hA

/-- C27: applied to a right-hand side, the pseudoinverse gives the least-squares solution: no other vector has a smaller residual. -/
theorem C27_least_squares {sqrt : K → K} (hs : IsSqrt sqrt) {m n : Nat} (v0 v1 : Nat → K) {mat p : Buf K} (hn : 0 < n) (hnm : n ≤ m)
    (hmat : mat.len = m * n) (hp : p.len = n * m) (hA : Independent (asMat mat m n)) {X : Buf K}
    (e : pseudoinverse sqrt v0 v1 mat m n p = .ok X) (f : Fin m → K) (y : Fin n → K) :
    ∑ r, ((asMat mat m n).mulVec ((asMat X n m).mulVec f) r - f r) ^ 2 ≤ ∑ r, ((asMat mat m n).mulVec y r - f r) ^ 2 := by
  obtain ⟨X', e', _, hl, hsym⟩ := C27_pseudoinverse hs v0 v1 hn hnm hmat hp hA
  rw [e] at e'
  injection e' with e'
  subst e'
  generalize asMat mat m n = A at *
  generalize asMat X n m = P at *
  let x := P.mulVec f
  let d := y - x
  have horth : ∑ r, A.mulVec d r * (A.mulVec x r - f r) = 0 := by
    -- Aᵀ(A P f - f) = 0
    have h1 : A.transpose * (A * P) = A.transpose := by
      rw [← hsym, Matrix.transpose_mul, ← Matrix.mul_assoc, ← Matrix.transpose_mul, hl, Matrix.transpose_one, Matrix.one_mul]
    have h2 : A.transpose.mulVec (A.mulVec x - f) = 0 := by
      rw [Matrix.mulVec_sub]
      simp only [x]
      rw [Matrix.mulVec_mulVec, Matrix.mulVec_mulVec, Matrix.mul_assoc, h1, sub_self]
    have h3 : A.mulVec d ⬝ᵥ (A.mulVec x - f) = d ⬝ᵥ A.transpose.mulVec (A.mulVec x - f) := by
      rw [Matrix.mulVec_transpose, dotProduct_comm, Matrix.dotProduct_mulVec, dotProduct_comm]
    rw [h2, dotProduct_zero] at h3
    exact h3
  have hsplit : ∀ r, (A.mulVec y r - f r) ^ 2 =
      (A.mulVec x r - f r) ^ 2 + 2 * (A.mulVec d r * (A.mulVec x r - f r)) + (A.mulVec d r) ^ 2 := by
    intro r
    have : A.mulVec y r = A.mulVec x r + A.mulVec d r := by
      simp only [d]
      rw [Matrix.mulVec_sub, Pi.sub_apply]
      ring
    rw [this]; ring
  rw [sum_congr rfl fun r _ => hsplit r, sum_add_distrib, sum_add_distrib, ← mul_sum, horth]
  have : 0 ≤ ∑ r, (A.mulVec d r) ^ 2 := sum_nonneg fun r _ => sq_nonneg _
  simp only [x] at *
  linarith

/-- C27: the matrix product. -/
theorem C27_matmul {A B C : Buf K} {m n kk : Nat} (hA : A.len = m * kk) (hB : B.len = kk * n) (hC : C.len = m * n) :
    ∃ C', matmul A B C m n kk = .ok C' ∧ C'.len = m * n ∧ asMat C' m n = asMat A m kk * asMat B kk n :=
  matmul_ok hA hB hC

/-- C27: `CeedBasisGetCollocatedGrad` of a basis with at least as many points as nodes, whose 1D interpolation has independent columns:
differentiation at the points of the interpolated function is the gradient. -/
theorem C27_collocated {sqrt : K → K} (hs : IsSqrt sqrt) (v0 v1 : Nat → K) {P1 Q1 : Nat} {i1 g1 : Buf K} (hP : 0 < P1) (hPQ : P1 ≤ Q1)
    (hi : i1.len = Q1 * P1) (hg : g1.len = Q1 * P1) (hA : Independent (asMat i1 Q1 P1)) :
    ∃ cg, collocatedGrad sqrt v0 v1 P1 Q1 i1 g1 = .ok cg ∧ cg.len = Q1 * Q1 ∧
      asMat cg Q1 Q1 * asMat i1 Q1 P1 = asMat g1 Q1 P1 := by
  obtain ⟨X, e, hX, hl, _⟩ := pinv_ok hs v0 v1 (p := ⟨P1 * Q1, fun _ => 0⟩) hP hPQ (le_of_eq hi.symm) rfl hA
  obtain ⟨cg, e', hcg, h⟩ := matmul_ok (A := g1) (B := X) (C := ⟨Q1 * Q1, fun _ => 0⟩) hg hX rfl
  refine ⟨cg, ?_, hcg, ?_⟩
  · unfold collocatedGrad
    rw [e, Res.bind_ok, e']
  · rw [h, Matrix.mul_assoc, hl, Matrix.mul_one]

/-- C22: creation of a tensor basis computes the collocated gradient itself, and gives a basis on which interpolation and gradients have
their matrices (`C21_interp_partial`, `C22_grad_partial`), for all 1D matrices, provided that the interpolation matrix has independent
columns whenever there are at least as many points as nodes, and that the test for collocated points accepts only zero. -/
theorem C22_creation_partial {sqrt : K → K} (hs : IsSqrt sqrt) (v0 v1 : Nat → K) {near : K → Bool} (hnear : ∀ x, near x = true → x = 0)
    {dim nc P1 Q1 : Nat} {i1 g1 w : Buf K} (hd : 0 < dim) (hnc : 0 < nc) (hP : 0 < P1) (hQ : 0 < Q1)
    (hi : i1.len = Q1 * P1) (hg : g1.len = Q1 * P1) (hw : w.len = Q1) (hA : P1 ≤ Q1 → Independent (asMat i1 Q1 P1)) :
    ∃ b, createTensorH1 near (collocatedGrad sqrt v0 v1) dim nc P1 Q1 i1 g1 w = .ok b ∧ TensorBasis b i1 g1 w := by
  obtain ⟨ci, eci, hci⟩ := colloTest_ok (near := near) (P1 := P1) (Q1 := Q1) (m := i1) (by
    by_cases h : Q1 = P1
    · left; rw [hi, h]
    · right; exact h)
  obtain ⟨cg, ecg, hcg⟩ : ∃ cg, colloOpt (collocatedGrad sqrt v0 v1) P1 Q1 i1 g1 ci = .ok cg ∧
      ∀ g, cg = some g → g.len = Q1 * Q1 ∧ asMat g Q1 Q1 * asMat i1 Q1 P1 = asMat g1 Q1 P1 := by
    unfold colloOpt
    split
    · next h =>
      obtain ⟨g, e, h1, h2⟩ := C27_collocated hs v0 v1 hP h.1 hi hg (hA h.1)
      refine ⟨some g, by rw [e, Res.bind_ok], ?_⟩
      intro g' hg'; injection hg' with hg'; subst hg'; exact ⟨h1, h2⟩
    · exact ⟨none, rfl, by intro g hg; cases hg⟩
  obtain ⟨b, eb, hb1, hb2, hb3, hb4⟩ : ∃ b, createTensorH1 near (collocatedGrad sqrt v0 v1) dim nc P1 Q1 i1 g1 w = .ok b ∧ b.P1 = P1 ∧
      b.Q1 = Q1 ∧ b.colloInterp = ci ∧ b.colloGrad = cg := by
    unfold createTensorH1
    rw [Res.check_true (by omega), Res.check_true (by omega), Res.check_true (by omega), Res.check_true (by omega)]
    simp only [Res.bind_ok, Int.toNat_natCast]
    rw [show copyIn w Q1 = .ok w from by rw [← hw]; simp [copyIn], Res.bind_ok,
      show copyIn i1 (Q1 * P1) = .ok i1 from by rw [← hi]; simp [copyIn], Res.bind_ok,
      show copyIn g1 (Q1 * P1) = .ok g1 from by rw [← hg]; simp [copyIn], Res.bind_ok, eci, Res.bind_ok, ecg, Res.bind_ok]
    exact ⟨_, rfl, rfl, rfl, rfl, rfl⟩
  refine ⟨b, eb, near, collocatedGrad sqrt v0 v1, dim, nc, P1, Q1, eb, ?_, ?_⟩
  · rw [hb1, hb3]
    intro hc i hi' j hj'
    obtain ⟨h1, h2⟩ := hci hc
    have h3 := h2 i hi' j hj'
    rw [show i * P1 + j = j + P1 * i by ring]
    by_cases hij : j = i
    · rw [if_pos hij] at h3
      rw [if_pos hij.symm]
      exact sub_eq_zero.1 (hnear _ h3)
    · rw [if_neg hij] at h3
      rw [if_neg (fun h => hij h.symm)]
      exact hnear _ h3
  · rw [hb1, hb2, hb4]
    intro g hgg
    obtain ⟨h1, h2⟩ := hcg g hgg
    refine ⟨h1, ?_⟩
    intro q hq p hp
    have := congrFun (congrFun h2 ⟨q, hq⟩) ⟨p, hp⟩
    rw [Matrix.mul_apply] at this
    simp only [asMat] at this
    rw [Fin.sum_univ_eq_sum_range (fun k => g.val (k + Q1 * q) * i1.val (p + P1 * k))] at this
    rw [show q * P1 + p = p + P1 * q by ring, ← this]
    refine sum_congr rfl fun k _ => ?_
    congr 2 <;> ring

/-- C26: with at least as many distinct points as nodes, the interpolation table of the Lagrange basis has independent columns. -/
theorem C26_independent {nodes qref : Buf K} {P Q : Nat} (hP : 0 < P) (hPQ : P ≤ Q) (hn : P ≤ nodes.len) (hq : Q ≤ qref.len)
    (hd : Distinct nodes P) (hdq : Distinct qref Q) {I G : Buf K} (e : fornberg P Q nodes qref = .ok (I, G)) :
    Independent (asMat I Q P) := by
  intro x hx
  let y : Nat → K := fun i => if h : i < P then x ⟨i, h⟩ else 0
  have hinj : Set.InjOn nodes.val (range P : Set Nat) := by
    intro a ha b hb hab
    simp only [coe_range, Set.mem_Iio] at ha hb
    exact hd a ha b hb hab
  let p : Polynomial K := Lagrange.interpolate (range P) nodes.val y
  have hdeg : p.degree < P := by
    have := Lagrange.degree_interpolate_lt (r := y) hinj
    rwa [card_range] at this
  have hnode : ∀ m < P, p.eval (nodes.val m) = y m := fun m hm => Lagrange.eval_interpolate_at_node y hinj (mem_range.2 hm)
  have hzero : ∀ i < Q, p.eval (qref.val i) = 0 := by
    intro i hi
    rw [← (C26_reproduces hP hn hq hd e hdeg hi).1]
    have := congrFun hx ⟨i, hi⟩
    simp only [Matrix.mulVec, dotProduct, asMat, Pi.zero_apply] at this
    rw [← Fin.sum_univ_eq_sum_range (fun m => I.val (i * P + m) * p.eval (nodes.val m)), ← this]
    refine sum_congr rfl fun m _ => ?_
    rw [hnode m m.isLt, show i * P + m.val = m.val + P * i by ring]
    simp only [y]
    rw [dif_pos m.isLt]
  have hp0 : p = 0 := by
    refine Polynomial.eq_zero_of_degree_lt_of_eval_index_eq_zero (s := range Q) (v := qref.val) ?_ ?_ ?_
    · intro a ha b hb hab
      simp only [coe_range, Set.mem_Iio] at ha hb
      exact hdq a ha b hb hab
    · rw [card_range]
      exact lt_of_lt_of_le hdeg (by exact_mod_cast hPQ)
    · intro i hi
      exact hzero i (mem_range.1 hi)
  funext c
  have := hnode c c.isLt
  rw [hp0, Polynomial.eval_zero] at this
  simp only [y] at this
  rw [dif_pos c.isLt] at this
  exact this.symm

/-- C26: with at least two nodes, and two points for the Gauss-Lobatto rule, distinct nodes and distinct points,
`CeedBasisCreateTensorH1Lagrange` creates a basis, for all dimensions and component counts, whose interpolation and gradients have the
matrices made from the tables of the cardinal polynomials (`C21_interp_partial`, `C22_grad_partial`, `C26_tables`). -/
theorem C26_usable_partial {sqrt : K → K} (hs : IsSqrt sqrt) (v0 v1 : Nat → K) {near : K → Bool} (hnear : ∀ x, near x = true → x = 0)
    {quad : Quad K} (hsz : quad.Sized) {dim nc P Q : Nat} {mode : QuadMode} (hdim : 0 < dim) (hnc : 0 < nc) (hP : 2 ≤ P) (hQ : 1 ≤ Q)
    {qref w : Buf K} (hr : quad.rule mode Q = .ok (qref, w)) (hd : Distinct (quad.lobatto P).1 P) (hdq : Distinct qref Q) :
    ∃ b I G, createLagrange near (collocatedGrad sqrt v0 v1) quad dim nc P Q mode = .ok (some b) ∧
      fornberg P Q (quad.lobatto P).1 qref = .ok (I, G) ∧ TensorBasis b I G w := by
  have hl : quad.lobattoRule P = .ok (quad.lobatto P) := if_pos (by omega)
  have hlen : qref.len = Q ∧ w.len = Q := by
    cases mode with
    | gauss =>
      simp only [Quad.rule, Res.ok.injEq] at hr
      have := hsz Q
      rw [hr] at this
      exact ⟨this.1, this.2.1⟩
    | gaussLobatto =>
      simp only [Quad.rule, Quad.lobattoRule] at hr
      split at hr
      · simp only [Res.ok.injEq] at hr
        have := hsz Q
        rw [hr] at this
        exact ⟨this.2.2.1, this.2.2.2⟩
      · cases hr
  obtain ⟨I, G, ef, lI, lG, _⟩ := fornberg_ok (P := P) (Q := Q) (nodes := (quad.lobatto P).1) (qref := qref) (by omega)
    (by rw [(hsz P).2.2.1]) (by omega) hd.lower
  obtain ⟨b, eb, hb⟩ := C22_creation_partial hs v0 v1 hnear (i1 := I) (g1 := G) (w := w) hdim hnc (show 0 < P by omega) hQ
    (by rw [lI, Nat.mul_comm]) (by rw [lG, Nat.mul_comm]) hlen.2
    (fun hPQ => C26_independent (by omega) hPQ (by rw [(hsz P).2.2.1]) (by omega) hd hdq ef)
  refine ⟨b, I, G, ?_, ef, hb⟩
  unfold createLagrange
  rw [Res.check_true (by omega), Res.check_true (by omega), Res.check_true (by omega), Res.check_true (by omega)]
  simp only [Res.bind_ok, Int.toNat_natCast]
  rw [hl, hr]
  simp only
  rw [ef, Res.bind_ok]
  simp only
  rw [eb, Res.bind_ok]

/-! ## Singular matrices -/

/-- C27 without independence: a zero column divides zero by zero. -/
theorem C27_singular_witness (sqrt : K → K) (h0 : sqrt 0 = 0) (v0 : Nat → K) (tau : Buf K) :
    qrFactor sqrt v0 ⟨2, fun _ => 0⟩ tau 2 1 = .ub := by
  simp [qrFactor, Res.check, loop, qrStep, qrColumn, Buf.rd, Buf.wr, fdiv, h0]

/-! ## Examples -/

/-- Square roots of squares of rationals. -/
def exSqrt (x : ℚ) : ℚ := (Nat.sqrt x.num.toNat : ℚ) / Nat.sqrt x.den

/-- `[3 1; 4 2]` and a tall matrix. -/
def exSq : Buf ℚ := Buf.ofList [3, 1, 4, 2]
def exTall : Buf ℚ := Buf.ofList [1, 2, 2]

example : (match qrFactor exSqrt (fun _ => 7) exSq ⟨2, fun _ => 9⟩ 2 2 with | .ok (F, t) => some (F.toList, t.toList) | _ => none) =
    some ([-5, -11/5, 1/2, 2/5], [8/5, 0]) := by decide +kernel

example : (match pseudoinverse exSqrt (fun _ => 7) (fun _ => 8) exSq 2 2 ⟨4, fun _ => 5⟩ with | .ok X => some X.toList | _ => none) =
    some [1, -1/2, -2, 3/2] := by decide +kernel

example : (match pseudoinverse exSqrt (fun _ => 7) (fun _ => 8) exTall 3 1 ⟨3, fun _ => 5⟩ with | .ok X => some X.toList | _ => none) =
    some [1/9, 2/9, 2/9] := by decide +kernel

/-- Hypotheses of the theorems over the reals. -/
example : Independent (asMat (⟨3, fun i => if i = 0 then 1 else 2⟩ : Buf ℝ) 3 1) := by
  intro x hx
  have := congrFun hx 0
  simp only [Matrix.mulVec, dotProduct, asMat, Fin.sum_univ_one, Pi.zero_apply] at this
  funext c
  have hc : c = 0 := Subsingleton.elim _ _
  rw [hc]
  simpa using this

end Basis
end Verif
