import Verif.Basis.SimDiag
import Mathlib.Analysis.Real.Sqrt

/-!
# C64: simultaneous diagonalisation

Specification: for symmetric `A` and symmetric positive definite `B`, find `X` and `λ` with `XᵀAX = diag(λ)` and `XᵀBX = I` up to the
tolerance, `λ` sorted by magnitude. `allSq M` is the sum of squares of all entries.
-/

namespace Verif
namespace Basis

open Finset Restriction

set_option linter.unusedSectionVars false

variable {K : Type} [Field K] [LinearOrder K]

/-- Sum of squares of the entries. -/
def allSq {n : Nat} (M : Matrix (Fin n) (Fin n) K) : K := ∑ r, ∑ c, M r c * M r c

theorem rootD_ok [IsStrictOrderedRing K] {sqrt : K → K} (hs : IsSqrt sqrt) {n : Nat} {D : Buf K} (hD : D.len = n) (hpos : ∀ i < n, 0 < D.val i) :
    ∃ D', rootD sqrt n D = .ok D' ∧ D'.len = n ∧ ∀ i < n, D'.val i = 1 / sqrt (D.val i) := by
  have hr : ∀ x : K, 0 < x → sqrt x ≠ 0 := fun x hx h => by
    have := (hs x hx.le).2
    rw [h, mul_zero] at this
    exact hx.ne this
  obtain ⟨D', e, h1, h2, h3⟩ := loop_inv (n := n) (s := D) (body := fun i D => do
      let x ← D.rd i
      let y ← fsqrt sqrt x
      let z ← fdiv 1 y
      D.wr i z)
    (fun t w => w.len = n ∧ (∀ i < t, w.val i = 1 / sqrt (D.val i)) ∧ ∀ i, t ≤ i → w.val i = D.val i)
    ⟨hD, fun i hi => absurd hi (by simp), fun _ _ => rfl⟩ (by
      intro t ht w ⟨h1, h2, h3⟩
      have l1 : t < w.len := by rw [h1]; exact ht
      have e1 : fsqrt sqrt (w.val t) = .ok (sqrt (D.val t)) := by
        rw [h3 t (le_refl _), fsqrt, if_neg (not_lt.2 (hpos t ht).le)]
      refine ⟨_, by rw [Buf.rd_lt l1, Res.bind_ok, e1, Res.bind_ok, fdiv_ok (hr _ (hpos t ht)), Res.bind_ok, Buf.wr_lt l1], by exact h1, fun i hi => ?_, fun i hi => ?_⟩
      · show (if i = t then _ else w.val i) = _
        by_cases he : i = t
        · rw [if_pos he, he]
        · rw [if_neg he, h2 i (by omega)]
      · show (if i = t then _ else w.val i) = _
        rw [if_neg (by omega), h3 i (by omega)])
  exact ⟨D', e, h1, h2⟩

theorem scaleG_ok {n : Nat} {D G C : Buf K} (hD : D.len = n) (hG : G.len = n * n) (hC : C.len = n * n) :
    ∃ G' C', scaleG n D G C = .ok (G', C') ∧ G'.len = n * n ∧ C'.len = n * n ∧ (∀ r c : Fin n, asMat G' n n r c = asMat G n n r c * D.val c) ∧
      asMat C' n n = (asMat G' n n).transpose := by
  have i1 : ∀ a b, a * n + b = b + n * a := fun a b => by ring
  unfold scaleG
  simp only [i1]
  obtain ⟨s', e, h1, h2, h3, h4, h5⟩ := loop_inv (n := n) (s := (G, C)) (body := fun i s => loop n (fun j (s : Buf K × Buf K) => do
      let g ← s.1.rd (j + n * i)
      let d ← D.rd j
      let G ← s.1.wr (j + n * i) (g * d)
      let g ← G.rd (j + n * i)
      let C ← s.2.wr (i + n * j) g
      .ok (G, C)) s)
    (fun t s => s.1.len = n * n ∧ s.2.len = n * n ∧ (∀ r < n, ∀ c < n, r < t → s.1.val (c + n * r) = G.val (c + n * r) * D.val c) ∧
      (∀ r < n, ∀ c < n, t ≤ r → s.1.val (c + n * r) = G.val (c + n * r)) ∧ ∀ r < n, ∀ c < n, r < t → s.2.val (r + n * c) = s.1.val (c + n * r))
    ⟨hG, hC, fun r _ c _ h => absurd h (by simp), fun _ _ _ _ _ => rfl, fun r _ c _ h => absurd h (by simp)⟩ (by
      intro t ht s ⟨h1, h2, h3, h4, h5⟩
      obtain ⟨s', e, g1, g2, g3, g4, g5⟩ := loop_inv (n := n) (s := s) (body := fun j (s : Buf K × Buf K) => do
          let g ← s.1.rd (j + n * t)
          let d ← D.rd j
          let G ← s.1.wr (j + n * t) (g * d)
          let g ← G.rd (j + n * t)
          let C ← s.2.wr (t + n * j) g
          .ok (G, C))
        (fun j s => s.1.len = n * n ∧ s.2.len = n * n ∧ (∀ r < n, ∀ c < n, (r < t ∨ r = t ∧ c < j) → s.1.val (c + n * r) = G.val (c + n * r) * D.val c) ∧
          (∀ r < n, ∀ c < n, ¬ (r < t ∨ r = t ∧ c < j) → s.1.val (c + n * r) = G.val (c + n * r)) ∧
          ∀ r < n, ∀ c < n, (r < t ∨ r = t ∧ c < j) → s.2.val (r + n * c) = s.1.val (c + n * r))
        ⟨h1, h2, fun r hr c hc h => h3 r hr c hc (by omega), fun r hr c hc h => h4 r hr c hc (by omega), fun r hr c hc h => h5 r hr c hc (by omega)⟩ (by
          intro j hj w ⟨g1, g2, g3, g4, g5⟩
          have l1 : j + n * t < w.1.len := g1 ▸ idx_lt hj ht
          have l2 : t + n * j < w.2.len := g2 ▸ idx_lt ht hj
          have hv : w.1.val (j + n * t) = G.val (j + n * t) := g4 t ht j hj (by omega)
          refine ⟨_, by rw [Buf.rd_lt l1, Res.bind_ok, Buf.rd_lt (by rw [hD]; exact hj), Res.bind_ok, Buf.wr_lt l1, Res.bind_ok, Buf.rd_lt (by exact l1), Res.bind_ok, Buf.wr_lt l2, Res.bind_ok],
            by exact g1, by exact g2, fun r hr c hc h => ?_, fun r hr c hc h => ?_, fun r hr c hc h => ?_⟩
          · show (if c + n * r = j + n * t then _ else w.1.val (c + n * r)) = _
            by_cases he : c + n * r = j + n * t
            · obtain ⟨rfl, rfl⟩ := idx_inj hc hj he
              rw [if_pos he, hv]
            · rw [if_neg he]
              refine g3 r hr c hc ?_
              rcases h with h | ⟨rfl, h⟩
              · exact .inl h
              · exact .inr ⟨rfl, lt_of_le_of_ne (by omega) fun hx => he (by rw [hx])⟩
          · show (if c + n * r = j + n * t then _ else w.1.val (c + n * r)) = _
            rw [if_neg fun he => by
              obtain ⟨rfl, rfl⟩ := idx_inj hc hj he
              omega]
            exact g4 r hr c hc (by omega)
          · show (if r + n * c = t + n * j then (if j + n * t = j + n * t then _ else _) else w.2.val (r + n * c)) = if c + n * r = j + n * t then _ else w.1.val (c + n * r)
            by_cases he : r = t ∧ c = j
            · obtain ⟨rfl, rfl⟩ := he
              rw [if_pos rfl, if_pos rfl]
            · rw [if_neg fun hx => he (idx_inj hr ht hx), if_neg fun hx => he ⟨(idx_inj hc hj hx).2, (idx_inj hc hj hx).1⟩]
              exact g5 r hr c hc (by omega))
      exact ⟨s', e, g1, g2, fun r hr c hc h => g3 r hr c hc (by omega), fun r hr c hc h => g4 r hr c hc (by omega), fun r hr c hc h => g5 r hr c hc (by omega)⟩)
  refine ⟨s'.1, s'.2, e, h1, h2, fun r c => h3 r r.isLt c c.isLt r.isLt, ?_⟩
  ext r c
  exact h5 c c.isLt r r.isLt c.isLt

theorem Permuted.submatrix {n : Nat} {p : Equiv.Perm (Fin n)} {l m l' m' : Buf K} (h : Permuted n p l m l' m') : asMat m' n n = (asMat m n n).submatrix id p := by
  ext r c
  exact h.col r c

theorem Permuted.congr {n : Nat} {p : Equiv.Perm (Fin n)} {l m l' m' : Buf K} (h : Permuted n p l m l' m') (A : Matrix (Fin n) (Fin n) K) :
    (asMat m' n n).transpose * A * asMat m' n n = ((asMat m n n).transpose * A * asMat m n n).submatrix p p := by
  rw [h.submatrix]
  ext r c
  simp only [Matrix.mul_apply, Matrix.submatrix_apply, Matrix.transpose_apply, id]

theorem Permuted.orth {n : Nat} {p : Equiv.Perm (Fin n)} {l m l' m' : Buf K} (h : Permuted n p l m l' m') (ho : (asMat m n n).transpose * asMat m n n = 1) :
    (asMat m' n n).transpose * asMat m' n n = 1 := by
  have := h.congr 1
  rw [Matrix.mul_one, Matrix.mul_one, ho, Matrix.submatrix_one_equiv] at this
  exact this

theorem offSq_perm {n : Nat} (p : Equiv.Perm (Fin n)) (M : Matrix (Fin n) (Fin n) K) : offSq (M.submatrix p p) = offSq M := by
  unfold offSq
  rw [← Equiv.sum_comp p (fun r => ∑ c, if r = c then 0 else M r c * M r c)]
  refine sum_congr rfl fun r _ => ?_
  rw [← Equiv.sum_comp p (fun c => if p r = c then 0 else M (p r) c * M (p r) c)]
  refine sum_congr rfl fun c _ => ?_
  simp only [Matrix.submatrix_apply, EmbeddingLike.apply_eq_iff_eq]

theorem allSq_trace {n : Nat} (M : Matrix (Fin n) (Fin n) K) : allSq M = (M.transpose * M).trace := by
  unfold allSq Matrix.trace
  rw [sum_comm]
  refine sum_congr rfl fun c _ => ?_
  rw [Matrix.diag_apply, Matrix.mul_apply]
  rfl

theorem allSq_orth {n : Nat} {Q : Matrix (Fin n) (Fin n) K} (ho : Q.transpose * Q = 1) (M : Matrix (Fin n) (Fin n) K) : allSq (Q.transpose * M * Q) = allSq M := by
  have ho' : Q * Q.transpose = 1 := mul_eq_one_comm.1 ho
  rw [allSq_trace, allSq_trace]
  have e1 : (Q.transpose * M * Q).transpose * (Q.transpose * M * Q) = Q.transpose * (M.transpose * M * Q) := by
    rw [Matrix.transpose_mul, Matrix.transpose_mul, Matrix.transpose_transpose]
    calc Q.transpose * (M.transpose * Q) * (Q.transpose * M * Q) = Q.transpose * (M.transpose * (Q * Q.transpose) * M * Q) := by simp only [Matrix.mul_assoc]
      _ = _ := by rw [ho', Matrix.mul_one]
  rw [e1, Matrix.trace_mul_comm, Matrix.mul_assoc, Matrix.mul_assoc, ho', Matrix.mul_one]

variable [IsStrictOrderedRing K]

/-- The outcomes of the decomposition after the sort. -/
theorem schurSort {sqrt : K → K} (hs : IsSqrt sqrt) {tol : K} (ht : 0 < tol) (v0 t0 : Nat → K) {n : Nat} (hn : 1 < n) {mat lam : Buf K}
    (hm : mat.len = n * n) (hl : lam.len = n) (hsym : (asMat mat n n).transpose = asMat mat n n) :
    (schur sqrt tol v0 t0 mat lam n = .ub ∧ Degenerate (asMat mat n n)) ∨ schur sqrt tol v0 t0 mat lam n = .err .minor ∨
      ∃ Q1 l1 Q l, schur sqrt tol v0 t0 mat lam n = .ok (Q1, l1) ∧ sortEig n l1 Q1 = .ok (l, Q) ∧ Q.len = n * n ∧ l.len = n ∧
        (asMat Q n n).transpose * asMat Q n n = 1 ∧
        (∀ i : Fin n, l.val i = ((asMat Q n n).transpose * asMat mat n n * asMat Q n n) i i) ∧
        offSq ((asMat Q n n).transpose * asMat mat n n * asMat Q n n) ≤ 2 * (n : K) ^ 5 * (tol * tol) ∧
        ∀ a b, a ≤ b → b < n → |l.val a| ≤ |l.val b| := by
  rcases C64_schur_partial hs ht v0 t0 hn hm hl hsym with h | h | ⟨Q1, l1, e, h1, h2, h3, h4, h5⟩
  · exact .inl h
  · exact .inr (.inl h)
  · obtain ⟨l, Q, p, e2, hp, hsort⟩ := sortEig_ok h2 h1
    refine .inr (.inr ⟨Q1, l1, Q, l, e, e2, hp.lm, hp.ll, hp.orth h3, fun i => ?_, ?_, hsort⟩)
    · rw [hp.lam, h4, hp.congr]
      rfl
    · rw [hp.congr, offSq_perm]
      exact h5

/-- C64: simultaneous diagonalisation of a symmetric matrix `A` and a symmetric positive definite matrix `B` with `β xᵀx ≤ xᵀBx`. If the
function returns, the matrix `X` that is written has `XᵀAX` diagonal up to `2 n⁵ tol²`, with the values that are written on the diagonal, in
order of magnitude, and `XᵀBX` is the identity up to `2 n⁵ tol² / β²`. Otherwise it reports that it failed to converge, or its arithmetic is
undefined, which happens only if `B`, or `A` in a basis that is orthonormal in the same sense, maps a proper subspace with the first unit
vector to itself. Missing for the full claim: as for `C64_schur_partial`. -/
theorem C64_simdiag_partial {sqrt : K → K} (hs : IsSqrt sqrt) {tol : K} (ht : 0 < tol) (v0 t0 v1 t1 : Nat → K) {n : Nat} (hn : 1 < n) {A B X lam : Buf K}
    (hA : A.len = n * n) (hB : B.len = n * n) (hX : X.len = n * n) (hl : lam.len = n)
    (hsA : (asMat A n n).transpose = asMat A n n) (hsB : (asMat B n n).transpose = asMat B n n)
    {β : K} (hβ : 0 < β) (hpos : ∀ x : Fin n → K, β * dotProduct x x ≤ dotProduct x ((asMat B n n).mulVec x)) :
    (simDiag sqrt tol v0 t0 v1 t1 A B X lam n = .ub ∧ (Degenerate (asMat B n n) ∨ ∃ G : Matrix (Fin n) (Fin n) K,
        allSq (G.transpose * asMat B n n * G - 1) ≤ 2 * (n : K) ^ 5 * (tol * tol) / (β * β) ∧ Degenerate (G.transpose * asMat A n n * G))) ∨
      simDiag sqrt tol v0 t0 v1 t1 A B X lam n = .err .minor ∨
      ∃ X' l, simDiag sqrt tol v0 t0 v1 t1 A B X lam n = .ok (X', l) ∧ X'.len = n * n ∧ l.len = n ∧
        (∀ i : Fin n, l.val i = ((asMat X' n n).transpose * asMat A n n * asMat X' n n) i i) ∧
        offSq ((asMat X' n n).transpose * asMat A n n * asMat X' n n) ≤ 2 * (n : K) ^ 5 * (tol * tol) ∧
        allSq ((asMat X' n n).transpose * asMat B n n * asMat X' n n - 1) ≤ 2 * (n : K) ^ 5 * (tol * tol) / (β * β) ∧
        ∀ a b, a ≤ b → b < n → |l.val a| ≤ |l.val b| := by
  have e0 : Restriction.copyIn B (n * n) = .ok ⟨n * n, B.val⟩ := by simp [Restriction.copyIn, hB]
  have hB0 : asMat (⟨n * n, B.val⟩ : Buf K) n n = asMat B n n := rfl
  have hbind : ∀ {σ τ : Type} (f : σ → Res τ), (Res.ub >>= f) = .ub := fun _ => rfl
  have hbinde : ∀ {σ τ : Type} (e : Err) (f : σ → Res τ), (Res.err e >>= f) = .err e := fun _ _ => rfl
  rcases schurSort hs ht v0 t0 hn (mat := ⟨n * n, B.val⟩) (lam := ⟨n, fun _ => 0⟩) rfl rfl hsB with ⟨e1, hd⟩ | e1 | ⟨Q1, l1, Q, d, e1, e2, hQ, hd, ho, hdi, hoff, _⟩
  · refine .inl ⟨?_, .inl hd⟩
    unfold simDiag
    rw [e0, Res.bind_ok, e1, hbind]
  · refine .inr (.inl ?_)
    unfold simDiag
    rw [e0, Res.bind_ok, e1, hbinde]
  · rw [hB0] at hdi hoff
    -- the values are at least `β`
    have hge : ∀ i : Fin n, β ≤ d.val i := fun i => by
      rw [hdi]
      have h1 := hpos fun r => asMat Q n n r i
      have h2 : dotProduct (fun r => asMat Q n n r i) (fun r => asMat Q n n r i) = 1 := by
        have := congrFun (congrFun ho i) i
        rw [Matrix.mul_apply, Matrix.one_apply, if_pos rfl] at this
        exact this
      have h3 : dotProduct (fun r => asMat Q n n r i) ((asMat B n n).mulVec fun r => asMat Q n n r i) = ((asMat Q n n).transpose * asMat B n n * asMat Q n n) i i := by
        rw [Matrix.mul_assoc, Matrix.mul_apply]
        rfl
      rw [h2, h3, mul_one] at h1
      exact h1
    obtain ⟨D, e3, hD, hDv⟩ := rootD_ok hs hd fun i hi => lt_of_lt_of_le hβ (hge ⟨i, hi⟩)
    obtain ⟨G, C, e4, hG, hC, hGv, hCv⟩ := scaleG_ok (C := (⟨n * n, fun _ => 0⟩ : Buf K)) hD hQ rfl
    obtain ⟨X1, e5, hX1, hX1v⟩ := C27_matmul hC hA hX
    obtain ⟨C1, e6, hC1, hC1v⟩ := C27_matmul hX1 hG hC
    have hC1e : asMat C1 n n = (asMat G n n).transpose * asMat A n n * asMat G n n := by rw [hC1v, hX1v, hCv]
    have hC1s : (asMat C1 n n).transpose = asMat C1 n n := by
      rw [hC1e, Matrix.transpose_mul, Matrix.transpose_mul, Matrix.transpose_transpose, hsA, Matrix.mul_assoc]
    -- the scaled basis is orthonormal up to the tolerance
    have hGB : allSq ((asMat G n n).transpose * asMat B n n * asMat G n n - 1) ≤ 2 * (n : K) ^ 5 * (tol * tol) / (β * β) := by
      have hDi : ∀ i : Fin n, D.val i * D.val i * d.val i = 1 ∧ 0 ≤ D.val i * D.val i ∧ D.val i * D.val i ≤ 1 / β := fun i => by
        have hp : 0 < d.val i := lt_of_lt_of_le hβ (hge i)
        have h1 := (hs (d.val i) hp.le).2
        have h2 : D.val i * D.val i = 1 / d.val i := by
          rw [hDv i i.isLt, div_mul_div_comm, one_mul, h1]
        rw [h2]
        exact ⟨div_mul_cancel₀ 1 hp.ne', by positivity, one_div_le_one_div_of_le hβ (hge i)⟩
      have hent : ∀ r c, ((asMat G n n).transpose * asMat B n n * asMat G n n) r c = D.val r * D.val c * ((asMat Q n n).transpose * asMat B n n * asMat Q n n) r c := fun r c => by
        simp only [Matrix.mul_apply, Matrix.transpose_apply, hGv, sum_mul, mul_sum]
        refine sum_congr rfl fun x _ => sum_congr rfl fun y _ => ?_
        ring
      have hle : allSq ((asMat G n n).transpose * asMat B n n * asMat G n n - 1) ≤ 1 / (β * β) * offSq ((asMat Q n n).transpose * asMat B n n * asMat Q n n) := by
        unfold allSq offSq
        rw [mul_sum]
        refine sum_le_sum fun r _ => ?_
        rw [mul_sum]
        refine sum_le_sum fun c _ => ?_
        rw [Matrix.sub_apply, hent, Matrix.one_apply]
        obtain ⟨r1, r2, r3⟩ := hDi r
        obtain ⟨c1, c2, c3⟩ := hDi c
        by_cases hrc : r = c
        · subst hrc
          rw [if_pos rfl, if_pos rfl, ← hdi, r1, sub_self, mul_zero, mul_zero]
        · rw [if_neg hrc, if_neg hrc, sub_zero]
          generalize ((asMat Q n n).transpose * asMat B n n * asMat Q n n) r c = e
          have hb0 : 0 ≤ 1 / β := by positivity
          have h1 : D.val r * D.val r * (D.val c * D.val c) ≤ 1 / β * (1 / β) := mul_le_mul r3 c3 c2 hb0
          have h2 : 1 / β * (1 / β) = 1 / (β * β) := by rw [div_mul_div_comm, one_mul]
          rw [h2] at h1
          have h3 := mul_le_mul_of_nonneg_right h1 (mul_self_nonneg e)
          have e1 : D.val r * D.val c * e * (D.val r * D.val c * e) = D.val r * D.val r * (D.val c * D.val c) * (e * e) := by ring
          rw [e1]
          exact h3
      refine hle.trans ?_
      rw [one_div_mul_eq_div]
      exact div_le_div_of_nonneg_right hoff (by positivity)
    have run : simDiag sqrt tol v0 t0 v1 t1 A B X lam n = (schur sqrt tol v1 t1 C1 lam n >>= fun w => sortEig n w.2 w.1 >>= fun w => matmul G w.2 X1 n n n >>= fun X => .ok (X, w.1)) := by
      unfold simDiag
      rw [e0, Res.bind_ok, e1, Res.bind_ok]
      simp only
      rw [e2, Res.bind_ok]
      simp only
      rw [e3, Res.bind_ok, e4, Res.bind_ok]
      simp only
      rw [e5, Res.bind_ok, e6, Res.bind_ok]
    rcases schurSort hs ht v1 t1 hn hC1 hl hC1s with ⟨e7, hd7⟩ | e7 | ⟨P1, m1, P, l, e7, e8, hP, hl', hoP, hli, hoffP, hsort⟩
    · refine .inl ⟨by rw [run, e7]; rfl, .inr ⟨asMat G n n, hGB, ?_⟩⟩
      rw [← hC1e]
      exact hd7
    · exact .inr (.inl (by rw [run, e7]; rfl))
    · obtain ⟨X2, e9, hX2, hX2v⟩ := C27_matmul hG hP hX1
      have hcong : ∀ M : Matrix (Fin n) (Fin n) K, (asMat X2 n n).transpose * M * asMat X2 n n = (asMat P n n).transpose * ((asMat G n n).transpose * M * asMat G n n) * asMat P n n := fun M => by
        rw [hX2v, Matrix.transpose_mul]
        simp only [Matrix.mul_assoc]
      refine .inr (.inr ⟨X2, l, ?_, hX2, hl', fun i => ?_, ?_, ?_, hsort⟩)
      · rw [run, e7, Res.bind_ok]
        simp only
        rw [e8, Res.bind_ok]
        simp only
        rw [e9, Res.bind_ok]
      · rw [hcong, ← hC1e]
        exact hli i
      · rw [hcong, ← hC1e]
        exact hoffP
      · rw [hcong]
        have : (asMat P n n).transpose * ((asMat G n n).transpose * asMat B n n * asMat G n n) * asMat P n n - 1 =
            (asMat P n n).transpose * ((asMat G n n).transpose * asMat B n n * asMat G n n - 1) * asMat P n n := by
          rw [Matrix.mul_sub, Matrix.mul_one, Matrix.sub_mul, hoP]
        rw [this, allSq_orth hoP]
        exact hGB

/-- C64: scalar problems are rejected by the simultaneous diagonalisation as well. -/
theorem C64_simdiag_scalar (sqrt : K → K) (tol : K) (v0 t0 v1 t1 : Nat → K) {n : Nat} (hn : n ≤ 1) {A B X lam : Buf K} (hB : n * n ≤ B.len) :
    simDiag sqrt tol v0 t0 v1 t1 A B X lam n = .err .unsupported := by
  have e0 : Restriction.copyIn B (n * n) = .ok ⟨n * n, B.val⟩ := by simp [Restriction.copyIn, hB]
  unfold simDiag
  rw [e0, Res.bind_ok, C64_scalar sqrt tol v0 t0 hn]
  rfl

/-- C64 fails for a diagonal second matrix with at least three rows, such as the mass matrix of a basis whose nodes are its quadrature
points, whatever the first matrix is. -/
theorem C64_diagonal_mass_witness {sqrt : K → K} (hs : IsSqrt sqrt) (tol : K) (v0 t0 v1 t1 : Nat → K) {n : Nat} (hn : 2 < n) (A X lam : Buf K) {B : Buf K}
    (hB : B.len = n * n) (h0 : ∀ r c, r < n → c < n → r ≠ c → B.val (c + n * r) = 0) : simDiag sqrt tol v0 t0 v1 t1 A B X lam n = .ub := by
  have e0 : Restriction.copyIn B (n * n) = .ok ⟨n * n, B.val⟩ := by simp [Restriction.copyIn, hB]
  unfold simDiag
  rw [e0, Res.bind_ok, C64_reducible_witness hs tol v0 t0 hn (mat := ⟨n * n, B.val⟩) _ rfl fun k hk hk' => by
    have := h0 k 0 hk' (by omega) (by omega)
    rw [Nat.zero_add] at this
    exact this]
  rfl

/-! ## Concrete cases -/

/-- Square roots of squares of rational numbers. -/
def ratRoot (x : Rat) : Rat := (Nat.sqrt x.num.natAbs : Rat) / (Nat.sqrt x.den : Rat)

/-- The symmetric matrix with rows `-7, 24` and `24, 7`. -/
def demoA : Buf Rat := ⟨4, fun i => if i = 0 then -7 else if i = 3 then 7 else 24⟩

/-- The matrix with rows `4, 0` and `0, 4`, symmetric and positive definite. -/
def demoB : Buf Rat := ⟨4, fun i => if i = 0 ∨ i = 3 then 4 else 0⟩

/-- Entries of a result. -/
def entries (r : Res (Buf Rat × Buf Rat)) : Option (List Rat × List Rat) :=
  match r with
  | .ok (a, b) => some ((List.range a.len).map a.val, (List.range b.len).map b.val)
  | _ => none

example : entries (schur ratRoot (1 / 1000) (fun _ => 0) (fun _ => 0) demoA ⟨2, fun _ => 0⟩ 2) = some ([4 / 5, -3 / 5, -3 / 5, -4 / 5], [-25, 25]) := by
  decide +kernel

example : entries (simDiag ratRoot (1 / 1000) (fun _ => 0) (fun _ => 0) (fun _ => 0) (fun _ => 0) demoA demoB ⟨4, fun _ => 0⟩ ⟨2, fun _ => 0⟩ 2) =
    some ([2 / 5, 3 / 10, -3 / 10, 2 / 5], [-25 / 4, 25 / 4]) := by
  decide +kernel

/-- The hypotheses of the theorem on simultaneous diagonalisation are met by the stiffness and mass matrices of three linear elements with
fixed ends, which are tridiagonal, in the real numbers. -/
example : ∃ (A B : Buf ℝ), A.len = 2 * 2 ∧ B.len = 2 * 2 ∧ (asMat A 2 2).transpose = asMat A 2 2 ∧ (asMat B 2 2).transpose = asMat B 2 2 ∧
    (∀ x : Fin 2 → ℝ, (1 / 3) * dotProduct x x ≤ dotProduct x ((asMat B 2 2).mulVec x)) ∧ asMat A 2 2 0 1 ≠ 0 ∧ asMat B 2 2 0 1 ≠ 0 := by
  refine ⟨⟨4, fun i => if i = 0 ∨ i = 3 then 2 else -1⟩, ⟨4, fun i => if i = 0 ∨ i = 3 then 2 / 3 else 1 / 6⟩, rfl, rfl, ?_, ?_, fun x => ?_, ?_, ?_⟩
  · ext r c
    fin_cases r <;> fin_cases c <;> simp [asMat]
  · ext r c
    fin_cases r <;> fin_cases c <;> simp [asMat]
  · simp [asMat, dotProduct, Matrix.mulVec, Fin.sum_univ_two]
    nlinarith [sq_nonneg (x 0 + x 1), sq_nonneg (x 0 - x 1), sq_nonneg (x 0), sq_nonneg (x 1)]
  · simp [asMat]
  · simp [asMat]

end Basis
end Verif
