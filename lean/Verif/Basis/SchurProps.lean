import Verif.Basis.SchurLoop

/-!
# C64: symmetric Schur decomposition

Specification: a symmetric matrix `A` is decomposed into an orthogonal matrix `Q` and numbers `λ` with `A Q = Q diag(λ)` up to the
tolerance. `offSq M` is the sum of squares of the entries of `M` off the diagonal.
-/

namespace Verif
namespace Basis

open Finset Restriction

set_option linter.unusedSectionVars false

variable {K : Type} [Field K] [LinearOrder K]

/-- Sum of squares of the entries off the diagonal. -/
def offSq {n : Nat} (M : Matrix (Fin n) (Fin n) K) : K := ∑ r, ∑ c, if r = c then 0 else M r c * M r c

theorem identityIn_ok {n : Nat} {mat : Buf K} (h : mat.len = n * n) : ∃ m', identityIn n mat = .ok m' ∧ m'.len = n * n ∧ asMat m' n n = 1 := by
  obtain ⟨m', e, h1, h2⟩ := loop_inv (n := n) (s := mat) (body := fun i mat => loop n (fun j mat => mat.wr (j + n * i) (if i = j then 1 else 0)) mat)
    (fun i m => m.len = n * n ∧ ∀ r < i, ∀ c < n, m.val (c + n * r) = if r = c then (1 : K) else 0)
    ⟨h, fun r hr => absurd hr (by simp)⟩ (by
      intro i hi m ⟨h1, h2⟩
      obtain ⟨m', e, g1, g2⟩ := loop_inv (n := n) (s := m) (body := fun j mat => mat.wr (j + n * i) (if i = j then (1 : K) else 0))
        (fun j w => w.len = n * n ∧ ∀ r, ∀ c < n, r < i ∨ r = i ∧ c < j → w.val (c + n * r) = if r = c then (1 : K) else 0)
        ⟨h1, fun r c hc hr => by
          rcases hr with hr | hr
          · exact h2 r hr c hc
          · omega⟩ (by
          intro j hj w ⟨g1, g2⟩
          refine ⟨_, by rw [Buf.wr_lt (by rw [g1]; exact idx_lt hj hi)], by exact g1, fun r c hc hr => ?_⟩
          show (if c + n * r = j + n * i then _ else w.val (c + n * r)) = _
          by_cases he : c + n * r = j + n * i
          · obtain ⟨rfl, rfl⟩ := idx_inj hc hj he
            rw [if_pos he]
          · rw [if_neg he]
            refine g2 r c hc ?_
            rcases hr with hr | ⟨rfl, hr⟩
            · exact .inl hr
            · refine .inr ⟨rfl, ?_⟩
              refine lt_of_le_of_ne (by omega) fun hc => he (by rw [hc]))
      refine ⟨m', e, g1, fun r hr c hc => g2 r c hc ?_⟩
      rcases Nat.lt_succ_iff_lt_or_eq.1 hr with hr | hr
      · exact .inl hr
      · exact .inr ⟨hr, hc⟩)
  refine ⟨m', e, h1, ?_⟩
  ext r c
  rw [Matrix.one_apply]
  show m'.val (c + n * r) = _
  rw [h2 r r.isLt c c.isLt]
  simp only [Fin.ext_iff]

theorem lam_ok {n : Nat} {T lam : Buf K} (hT : T.len = n * n) (hl : lam.len = n) :
    ∃ l', loop n (fun i lam => do
      let x ← T.rd (i + n * i)
      lam.wr i x) lam = .ok l' ∧ l'.len = n ∧ ∀ i < n, l'.val i = T.val (i + n * i) := by
  obtain ⟨l', e, h1, h2⟩ := loop_inv (n := n) (s := lam) (body := fun i lam => do
      let x ← T.rd (i + n * i)
      lam.wr i x)
    (fun i l => l.len = n ∧ ∀ k < i, l.val k = T.val (k + n * k)) ⟨hl, fun k hk => absurd hk (by simp)⟩ (by
      intro i hi l ⟨h1, h2⟩
      refine ⟨_, by rw [Buf.rd_lt (by rw [hT]; exact idx_lt hi hi), Res.bind_ok, Buf.wr_lt (by rw [h1]; exact hi)], by exact h1, fun k hk => ?_⟩
      show (if k = i then _ else l.val k) = _
      by_cases he : k = i
      · rw [if_pos he, he]
      · rw [if_neg he, h2 k (by omega)])
  exact ⟨l', e, h1, h2⟩

variable [IsStrictOrderedRing K]

theorem offSq_wsum {n : Nat} (hn : 1 < n) {A : Matrix (Fin n) (Fin n) K} (hA : A.transpose = A) {T mat : Buf K} {tol : K} (ht : 0 < tol) (h : Sim A T mat)
    (hs : ∀ i, i + 1 < n → |ent T n (i + 1) i| < tol) : offSq (asMat T n n) ≤ wsum n offTri (ent T n) + 2 * ((n : K) - 1) * (tol * tol) := by
  have sq : ∀ x : K, |x| < tol → x * x ≤ tol * tol := fun x hx => by
    rw [← abs_mul_abs_self]
    exact mul_le_mul hx.le hx.le (abs_nonneg _) ht.le
  have e1 : offSq (asMat T n n) = ∑ r ∈ range n, ∑ c ∈ range n, (if r = c then 0 else ent T n r c * ent T n r c) := by
    rw [← Fin.sum_univ_eq_sum_range (fun r => ∑ c ∈ range n, (if r = c then 0 else ent T n r c * ent T n r c)) n]
    refine sum_congr rfl fun r _ => ?_
    rw [← Fin.sum_univ_eq_sum_range (fun c => (if r.val = c then 0 else ent T n r c * ent T n r c)) n]
    refine sum_congr rfl fun c _ => ?_
    simp only [Fin.ext_iff]
    rfl
  have e2 : ∀ r ∈ range n, ∑ c ∈ range n, (if r = c then 0 else ent T n r c * ent T n r c) ≤
      ∑ c ∈ range n, offTri r c * (ent T n r c * ent T n r c) + ((if r = 0 then 0 else tol * tol) + if r = n - 1 then 0 else tol * tol) := by
    intro r hr
    have hr' := mem_range.1 hr
    have : ∀ c ∈ range n, (if r = c then 0 else ent T n r c * ent T n r c) ≤
        offTri r c * (ent T n r c * ent T n r c) + ((if c = r - 1 then (if r = 0 then 0 else tol * tol) else 0) + if c = r + 1 then tol * tol else 0) := by
      intro c hc
      have hc' := mem_range.1 hc
      unfold offTri
      by_cases a1 : r = c
      · rw [if_pos a1, if_neg (by omega), zero_mul, zero_add, if_neg (show ¬ c = r + 1 by omega), add_zero]
        split_ifs
        · exact le_refl _
        · exact mul_nonneg ht.le ht.le
        · exact le_refl _
      · rw [if_neg a1]
        by_cases a2 : c = r + 1
        · subst a2
          rw [if_neg (by omega), if_neg (by omega), if_pos rfl, zero_mul, zero_add, zero_add, h.sym hA r hr' (r + 1) hc']
          exact sq _ (hs r hc')
        · by_cases a3 : c = r - 1
          · obtain rfl : r = c + 1 := by omega
            rw [if_neg (by omega), if_pos a3, if_neg (by omega), if_neg a2, zero_mul, zero_add, add_zero]
            exact sq _ (hs c hr')
          · rw [if_pos (by omega), if_neg a3, if_neg a2, one_mul, add_zero, add_zero]
    refine (sum_le_sum this).trans ?_
    rw [sum_add_distrib, sum_add_distrib, sum_ite_eq' (range n) (r - 1), sum_ite_eq' (range n) (r + 1), if_pos (mem_range.2 (by omega))]
    simp only [mem_range]
    refine add_le_add_right (add_le_add_right ?_ _) _
    by_cases hx : r = n - 1
    · rw [if_neg (by omega), if_pos hx]
    · rw [if_pos (by omega), if_neg hx]
  rw [e1]
  refine (sum_le_sum e2).trans ?_
  have cnt : ∀ a < n, (∑ r ∈ range n, if r = a then 0 else tol * tol) = ((n : K) - 1) * (tol * tol) := fun a ha => by
    have : ∀ r ∈ range n, (if r = a then 0 else tol * tol) = tol * tol - if r = a then tol * tol else 0 := fun r _ => by
      split_ifs
      · rw [sub_self]
      · rw [sub_zero]
    rw [sum_congr rfl this, sum_sub_distrib, sum_ite_eq' (range n) a, if_pos (mem_range.2 ha), sum_const, card_range, nsmul_eq_mul]
    ring
  rw [sum_add_distrib, sum_add_distrib, cnt 0 (by omega), cnt (n - 1) (by omega)]
  refine le_of_eq ?_
  show wsum n offTri (ent T n) + _ = _
  ring

/-- C64: the decomposition of a symmetric matrix. If the function returns, then the matrix that is written is orthogonal, the values are
the diagonal of `QᵀAQ`, and the entries of `QᵀAQ` off the diagonal are small: their squares add up to at most `2 n⁵ tol²`. The other
outcomes are the error "failed to converge" and, only if some proper subspace that contains the first unit vector is mapped to itself,
undefined arithmetic. Missing for the full claim: convergence, and the second case is not excluded (`C64_reducible_witness`). -/
theorem C64_schur_partial {sqrt : K → K} (hs : IsSqrt sqrt) {tol : K} (ht : 0 < tol) (v0 t0 : Nat → K) {n : Nat} (hn : 1 < n) {mat lam : Buf K}
    (hm : mat.len = n * n) (hl : lam.len = n) (hsym : (asMat mat n n).transpose = asMat mat n n) :
    (schur sqrt tol v0 t0 mat lam n = .ub ∧ Degenerate (asMat mat n n)) ∨ schur sqrt tol v0 t0 mat lam n = .err .minor ∨
      ∃ Q l, schur sqrt tol v0 t0 mat lam n = .ok (Q, l) ∧ Q.len = n * n ∧ l.len = n ∧ (asMat Q n n).transpose * asMat Q n n = 1 ∧
        (∀ i : Fin n, l.val i = ((asMat Q n n).transpose * asMat mat n n * asMat Q n n) i i) ∧
        offSq ((asMat Q n n).transpose * asMat mat n n * asMat Q n n) ≤ 2 * (n : K) ^ 5 * (tol * tol) := by
  have e0 : Restriction.copyIn mat (n * n) = .ok ⟨n * n, mat.val⟩ := by simp [Restriction.copyIn, hm]
  obtain ⟨I, e1, hI, hI1⟩ := identityIn_ok hm
  rcases tri_loop hs hn (T := ⟨n * n, mat.val⟩) (v := ⟨n - 1, v0⟩) (tau := ⟨n - 1, t0⟩) rfl rfl rfl hsym with ⟨e2, hd⟩ | ⟨s, e2, hT⟩
  · refine .inl ⟨?_, hd⟩
    unfold schur
    rw [Res.check, if_pos hn, Res.bind_ok, e0, Res.bind_ok, e1, Res.bind_ok, e2]
    rfl
  · obtain ⟨m1, s1, e3, l1, l2, o1, o2, o3⟩ := back_loop hn hT hI hI1
    have hsim : Sim (asMat mat n n) s1.T m1 := ⟨l2, l1, o1, o2⟩
    have hz : wsum n offTri (ent s1.T n) ≤ 0 := by
      refine le_of_eq (sum_eq_zero fun r hr => sum_eq_zero fun c hc => ?_)
      have hr := mem_range.1 hr
      have hc := mem_range.1 hc
      unfold offTri
      by_cases h1 : c + 1 < r
      · have : ent s1.T n r c = 0 := o3 ⟨r, hr⟩ ⟨c, hc⟩ h1
        rw [this, mul_zero, mul_zero]
      · by_cases h2 : r + 1 < c
        · have : ent s1.T n r c = 0 := by rw [hsim.sym hsym r hr c hc]; exact o3 ⟨c, hc⟩ ⟨r, hr⟩ h2
          rw [this, mul_zero, mul_zero]
        · rw [if_neg (by omega), zero_mul]
    obtain ⟨T2, m2, b, e4, hsim2, hb⟩ := schurLoop_ok hs ht hn hsym (n * n * n * n) hsim hz
    obtain ⟨l', e5, hl1, hl2⟩ := lam_ok (T := T2) hsim2.lT hl
    have run : schur sqrt tol v0 t0 mat lam n = (do
        Res.check (b = true) .minor
        .ok (m2, l')) := by
      unfold schur
      rw [Res.check, if_pos hn, Res.bind_ok, e0, Res.bind_ok, e1, Res.bind_ok, e2, Res.bind_ok, e3, Res.bind_ok]
      simp only
      rw [e4, Res.bind_ok]
      simp only
      rw [e5, Res.bind_ok]
    cases b with
    | false => exact .inr (.inl (by rw [run]; rfl))
    | true =>
      refine .inr (.inr ⟨m2, l', by rw [run]; rfl, hsim2.lm, hl1, hsim2.orth, fun i => ?_, ?_⟩)
      · rw [← hsim2.eq]
        exact hl2 i i.isLt
      · rw [← hsim2.eq]
        refine (offSq_wsum hn hsym ht hsim2 (hb rfl).2).trans ?_
        have h1 := (hb rfl).1
        have h2 : 0 ≤ tol * tol := mul_nonneg ht.le ht.le
        have h3 : (0 + 2 * (n : K) * (((n * n * n * n : Nat) : K) - 1) * (tol * tol)) + 2 * ((n : K) - 1) * (tol * tol) ≤ 2 * (n : K) ^ 5 * (tol * tol) := by
          push_cast
          nlinarith
        linarith

/-- C64: `CEED_ERROR_UNSUPPORTED` for a scalar problem; nothing is written. -/
theorem C64_scalar (sqrt : K → K) (tol : K) (v0 t0 : Nat → K) {n : Nat} (hn : n ≤ 1) (mat lam : Buf K) : schur sqrt tol v0 t0 mat lam n = .err .unsupported := by
  unfold schur
  rw [Res.check, if_neg (by omega)]
  rfl

/-- C64, as an approximate eigenvalue problem: what the function returns satisfies `‖A q - λ q‖² ≤ 2 n⁵ tol²` for every column `q` and its
value `λ`; the columns are orthonormal. -/
theorem C64_eigenpairs {sqrt : K → K} (hs : IsSqrt sqrt) {tol : K} (ht : 0 < tol) (v0 t0 : Nat → K) {n : Nat} {mat lam Q l : Buf K}
    (hm : mat.len = n * n) (hl : lam.len = n) (hsym : (asMat mat n n).transpose = asMat mat n n) (hok : schur sqrt tol v0 t0 mat lam n = .ok (Q, l)) (j : Fin n) :
    (∑ r, ((asMat mat n n * asMat Q n n) r j - l.val j * asMat Q n n r j) ^ 2 ≤ 2 * (n : K) ^ 5 * (tol * tol)) ∧
      ∀ k : Fin n, ∑ r, asMat Q n n r j * asMat Q n n r k = if j = k then 1 else 0 := by
  by_cases hn : 1 < n
  · rcases C64_schur_partial hs ht v0 t0 hn hm hl hsym with ⟨h, _⟩ | h | ⟨Q', l', e, _, _, ho, hd, hoff⟩
    · rw [h] at hok; cases hok
    · rw [h] at hok; cases hok
    · rw [e] at hok
      cases hok
      generalize asMat mat n n = A at *
      generalize asMat Q n n = P at *
      have hP' : P * P.transpose = 1 := mul_eq_one_comm.1 ho
      refine ⟨?_, fun k => ?_⟩
      · let M := P.transpose * A * P
        -- the residual is the column of `M` without its diagonal entry, turned by the orthogonal matrix
        let w : Fin n → K := fun k => if k = j then 0 else M k j
        have hres : ∀ r, (A * P) r j - l.val j * P r j = ∑ k, P r k * w k := fun r => by
          have e1 : A * P = P * M := by
            show A * P = P * (P.transpose * A * P)
            rw [← Matrix.mul_assoc, ← Matrix.mul_assoc, hP', Matrix.one_mul]
          rw [e1, Matrix.mul_apply, hd j]
          have : ∀ k ∈ (univ : Finset (Fin n)), P r k * w k = P r k * M k j - if k = j then M j j * P r j else 0 := fun k _ => by
            show P r k * (if k = j then 0 else M k j) = _
            by_cases hk : k = j
            · subst hk
              rw [if_pos rfl, if_pos rfl]
              ring
            · rw [if_neg hk, if_neg hk, sub_zero]
          rw [sum_congr rfl this, sum_sub_distrib, sum_ite_eq' univ j, if_pos (mem_univ _)]
        have hn2 : ∑ r, (∑ k, P r k * w k) ^ 2 = ∑ k, w k * w k := by
          have e1 : ∀ r, (∑ k, P r k * w k) ^ 2 = (P.mulVec w) r * (P.mulVec w) r := fun r => by rw [pow_two]; rfl
          simp only [e1]
          show dotProduct (P.mulVec w) (P.mulVec w) = dotProduct w w
          rw [Matrix.dotProduct_mulVec, Matrix.vecMul_mulVec, ho, Matrix.vecMul_one]
        simp only [hres]
        rw [hn2]
        refine le_trans ?_ hoff
        have hc : ∑ k, w k * w k = ∑ k, if k = j then 0 else M k j * M k j := sum_congr rfl fun k _ => by
          show (if k = j then 0 else M k j) * (if k = j then 0 else M k j) = _
          split_ifs <;> simp
        rw [hc]
        unfold offSq
        refine sum_le_sum fun r _ => ?_
        exact single_le_sum (f := fun c => if r = c then 0 else M r c * M r c) (fun c _ => by
          show 0 ≤ if r = c then 0 else M r c * M r c
          split_ifs
          · exact le_refl _
          · exact mul_self_nonneg _) (mem_univ j)
      · have := congrFun (congrFun ho j) k
        rw [Matrix.mul_apply, Matrix.one_apply] at this
        exact this
  · rw [C64_scalar sqrt tol v0 t0 (by omega)] at hok
    cases hok

theorem loop_ub_first {σ : Type} {n : Nat} {body : Nat → σ → Res σ} {s : σ} (hn : 0 < n) (h : body 0 s = .ub) : loop n body s = .ub := by
  obtain ⟨m, rfl⟩ : ∃ m, n = m + 1 := ⟨n - 1, by omega⟩
  induction m with
  | zero =>
    show (loop 0 body s >>= body 0) = _
    rw [loop_zero, Res.bind_ok, h]
  | succ m ih =>
    show (loop (m + 1) body s >>= body (m + 1)) = _
    rw [ih (by omega)]
    rfl

/-- C64 fails for every matrix with at least three rows whose first column is zero below the diagonal, such as a diagonal matrix: the
function divides zero by zero. -/
theorem C64_reducible_witness {sqrt : K → K} (hs : IsSqrt sqrt) (tol : K) (v0 t0 : Nat → K) {n : Nat} (hn : 2 < n) {mat : Buf K} (lam : Buf K)
    (hm : mat.len = n * n) (h0 : ∀ k, 0 < k → k < n → mat.val (n * k) = 0) : schur sqrt tol v0 t0 mat lam n = .ub := by
  have e0 : Restriction.copyIn mat (n * n) = .ok ⟨n * n, mat.val⟩ := by simp [Restriction.copyIn, hm]
  obtain ⟨I, e1, hI, hI1⟩ := identityIn_ok hm
  unfold schur
  rw [Res.check, if_pos (by omega), Res.bind_ok, e0, Res.bind_ok, e1, Res.bind_ok]
  have : loop (n - 1) (triStep sqrt n) ⟨⟨n * n, mat.val⟩, ⟨n - 1, v0⟩, ⟨n - 1, t0⟩⟩ = .ub :=
    loop_ub_first (by omega) (triStep_ub hs (by omega) rfl rfl fun k hk hk' => by rw [Nat.zero_add]; exact h0 k hk hk')
  rw [this]
  rfl

end Basis
end Verif
