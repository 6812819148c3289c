import Verif.Basis.PointsLemmas
import Mathlib.Algebra.Polynomial.Sequence

/-!
# Evaluation at points: the basis of Chebyshev coefficients (helper lemmas)
-/

namespace Verif
namespace Basis

open Finset Polynomial
open Restriction (TMode copyIn copyIn_ok)

set_option linter.unusedSectionVars false

variable {K : Type} [Field K] [LinearOrder K] [IsStrictOrderedRing K]

local notation "U" => Chebyshev.U K

/-- The polynomials `U 0, U 1, ...` have degrees 0, 1, ... -/
noncomputable def chebSeq : Polynomial.Sequence K := ⟨fun k => U (k : Int), fun k => Chebyshev.degree_U_natCast K k⟩

theorem cheb_comb_degree {Q : Nat} (f : Nat → K) : (∑ k ∈ range Q, C (f k) * U (k : Int)).degree < Q := by
  refine lt_of_le_of_lt (degree_sum_le _ _) ?_
  refine (Finset.sup_lt_iff (WithBot.bot_lt_coe Q)).2 ?_
  intro k hk
  rw [← smul_eq_C_mul]
  refine lt_of_le_of_lt (degree_smul_le _ _) ?_
  rw [Chebyshev.degree_U_natCast]
  exact WithBot.coe_lt_coe.2 (mem_range.1 hk)

theorem cheb_eq_zero {Q : Nat} {f : Nat → K} (h : ∑ k ∈ range Q, C (f k) * U (k : Int) = 0) : ∀ k < Q, f k = 0 := by
  intro k hk
  have := linearIndependent_iff'.1 (chebSeq (K := K)).linearIndependent (range Q) f (by
    rw [← h]
    refine sum_congr rfl fun i _ => ?_
    rw [smul_eq_C_mul]; rfl) k (mem_range.2 hk)
  exact this

theorem poly_unique {q : Buf K} {Q : Nat} (hq : Distinct q Q) {f g : K[X]} (hf : f.degree < Q) (hg : g.degree < Q)
    (h : ∀ i < Q, f.eval (q.val i) = g.eval (q.val i)) : f = g := by
  refine eq_of_degrees_lt_of_eval_index_eq (range Q) (v := q.val) ?_ (by rwa [card_range]) (by rwa [card_range]) ?_
  · intro i hi j hj e
    exact hq i (mem_range.1 hi) j (mem_range.1 hj) e
  · intro i hi
    exact h i (mem_range.1 hi)

theorem chebMat_ok {q : Buf K} {Q1 : Nat} (hQ : 2 ≤ Q1) (hq : Q1 ≤ q.len) :
    ∃ A : Buf K, loop Q1 (fun i (A : Buf K) => do
      let x ← q.rd i
      chebVals x Q1 A (i * Q1)) ⟨Q1 * Q1, fun _ => 0⟩ = .ok A ∧ A.len = Q1 * Q1 ∧
      ∀ i < Q1, ∀ k < Q1, A.val (i * Q1 + k) = (U (k : Int)).eval (q.val i) := by
  have key := loop_inv (n := Q1) (body := fun i (A : Buf K) => do
      let x ← q.rd i
      chebVals x Q1 A (i * Q1)) (s := ⟨Q1 * Q1, fun _ => 0⟩) (fun t (A : Buf K) => A.len = Q1 * Q1 ∧
      ∀ i < t, ∀ k < Q1, A.val (i * Q1 + k) = (U (k : Int)).eval (q.val i)) ⟨rfl, by intro i hi; omega⟩ ?_
  · exact key
  · intro i hi A ⟨h1, h2⟩
    have hr : (i + 1) * Q1 ≤ Q1 * Q1 := Nat.mul_le_mul_right _ hi
    have e1 : (i + 1) * Q1 = i * Q1 + Q1 := by ring
    obtain ⟨A', e, g1, g2, g3⟩ := chebVals_ok (x := q.val i) (n := Q1) (off := i * Q1) (out := A) hQ (by omega)
    rw [Buf.rd_lt (by omega), Res.bind_ok]
    refine ⟨A', e, g1.trans h1, ?_⟩
    intro j hj k hk
    by_cases hji : j = i
    · subst hji; exact g2 k hk
    · have hr : (j + 1) * Q1 ≤ i * Q1 := Nat.mul_le_mul_right _ (by omega)
      have e2 : (j + 1) * Q1 = j * Q1 + Q1 := by ring
      rw [g3 _ (by omega), h2 j (by omega) k hk]

/-- The matrix `ci` maps node values to the Chebyshev coefficients of the polynomial with the interpolated values at the points. -/
def Coeffs (q i1 ci : Buf K) (P1 Q1 : Nat) : Prop :=
  ∀ i < Q1, ∀ n < P1, ∑ k ∈ range Q1, ci.val (k * P1 + n) * (U (k : Int)).eval (q.val i) = i1.val (i * P1 + n)

theorem chebInterp_ok {sqrt : K → K} (hs : IsSqrt sqrt) (v0 v1 : Nat → K) {P1 Q1 : Nat} {i1 q : Buf K} (hP : 0 < P1) (hQ : 2 ≤ Q1)
    (hi : i1.len = Q1 * P1) (hq : Q1 ≤ q.len) (hd : Distinct q Q1) :
    ∃ ci, chebInterp sqrt v0 v1 P1 Q1 i1 q = .ok ci ∧ ci.len = Q1 * P1 ∧ Coeffs q i1 ci P1 Q1 := by
  obtain ⟨A, eA, hA, hAv⟩ := chebMat_ok (q := q) hQ hq
  have hAm : ∀ i k : Fin Q1, asMat A Q1 Q1 i k = (U (k.val : Int)).eval (q.val i) := by
    intro i k
    unfold asMat
    rw [← hAv i i.isLt k k.isLt]
    congr 1; ring
  have hind : Independent (asMat A Q1 Q1) := by
    intro y hy
    have hz : ∑ k ∈ range Q1, C (if h : k < Q1 then y ⟨k, h⟩ else 0) * U (k : Int) = 0 := by
      refine poly_unique hd (cheb_comb_degree _) (by rw [degree_zero]; exact WithBot.bot_lt_coe _) ?_
      intro i hi
      have := congrFun hy ⟨i, hi⟩
      simp only [Matrix.mulVec, dotProduct, Pi.zero_apply] at this
      refine Eq.trans ?_ (this.trans eval_zero.symm)
      rw [eval_finsetSum, ← Fin.sum_univ_eq_sum_range (fun k => eval (q.val i)
        (C (if h : k < Q1 then y ⟨k, h⟩ else 0) * U (k : Int)))]
      refine sum_congr rfl fun k _ => ?_
      rw [hAm, eval_mul, eval_C, dif_pos k.isLt, mul_comm]
    funext k
    have := cheb_eq_zero hz k k.isLt
    rwa [dif_pos k.isLt] at this
  obtain ⟨X, eX, hX, hX1, _⟩ := pinv_ok hs v0 v1 (mat := A) (p := ⟨Q1 * Q1, fun _ => 0⟩) (by omega) le_rfl (by omega) rfl hind
  obtain ⟨ci, ec, hc, hcm⟩ := matmul_ok (A := X) (B := i1) (C := ⟨P1 * Q1, fun _ => 0⟩) (m := Q1) (n := P1) (kk := Q1) hX hi (Nat.mul_comm _ _)
  refine ⟨ci, ?_, hc, ?_⟩
  · unfold chebInterp
    rw [Res.check_true (by omega), Res.bind_ok, eA, Res.bind_ok, eX, Res.bind_ok, ec]
  · intro i hi n hn
    have hm : asMat A Q1 Q1 * asMat ci Q1 P1 = asMat i1 Q1 P1 := by
      rw [hcm, ← Matrix.mul_assoc, mul_eq_one_comm.1 hX1, Matrix.one_mul]
    have := congrFun (congrFun hm ⟨i, hi⟩) ⟨n, hn⟩
    rw [Matrix.mul_apply] at this
    rw [show i1.val (i * P1 + n) = asMat i1 Q1 P1 ⟨i, hi⟩ ⟨n, hn⟩ by unfold asMat; congr 1; simp only; ring, ← this,
      ← Fin.sum_univ_eq_sum_range (fun k => ci.val (k * P1 + n) * (U (k : Int)).eval (q.val i))]
    refine sum_congr rfl fun k _ => ?_
    rw [hAm, mul_comm]
    unfold asMat
    congr 2; simp only; ring

theorem Coeffs.shape {q i1 ci : Buf K} {P1 Q1 : Nat} (h : Coeffs q i1 ci P1 Q1) (hd : Distinct q Q1) {phi : Nat → K[X]}
    (hphi : Shape q i1 P1 Q1 phi) {n : Nat} (hn : n < P1) : phi n = ∑ k ∈ range Q1, C (ci.val (k * P1 + n)) * U (k : Int) := by
  refine poly_unique hd (hphi n hn).1 (cheb_comb_degree _) ?_
  intro i hi
  rw [(hphi n hn).2 i hi, ← h i hi n hn, eval_finsetSum]
  refine sum_congr rfl fun k _ => ?_
  rw [eval_mul, eval_C]

theorem pev_comb (der : Bool) (f : Nat → K) (Q : Nat) (x : K) :
    pev der (∑ k ∈ range Q, C (f k) * U (k : Int)) x = ∑ k ∈ range Q, pev der (U (k : Int)) x * f k := by
  unfold pev
  split
  · rw [derivative_sum, eval_finsetSum]
    refine sum_congr rfl fun k _ => ?_
    rw [derivative_C_mul, eval_mul, eval_C, mul_comm]
  · rw [eval_finsetSum]
    refine sum_congr rfl fun k _ => ?_
    rw [eval_mul, eval_C, mul_comm]

theorem Coeffs.shapeAt {b : Bas K} {q i1 ci : Buf K} (h : Coeffs q i1 ci b.P1 b.Q1) (hd : Distinct q b.Q1) {phi : Nat → K[X]}
    (hphi : Shape q i1 b.P1 b.Q1 phi) (hP : 0 < b.P1) (hQ : 0 < b.Q1) (em : EMode) (np : Nat) (x : Buf K) (k p n : Nat) :
    ∑ l ∈ range (b.Q1 ^ b.dim), wU b np x (along em k) p l *
      ∏ d ∈ range b.dim, ci.val (coord b.Q1 d l * b.P1 + coord b.P1 d n) = Basis.shapeAt b phi em np x k p n := by
  unfold wU Basis.shapeAt
  simp only [← prod_mul_distrib]
  rw [sum_digits (fun d j => pev (along em k d) (U (j : Int)) (x.val (d * np + p)) * ci.val (j * b.P1 + coord b.P1 d n)) _ hQ]
  refine prod_congr rfl fun d _ => ?_
  rw [h.shape hd hphi (coord_lt hP d n), pev_comb]

theorem create_dims {near : K → Bool} {collo : Nat → Nat → Buf K → Buf K → Res (Buf K)} {dim nc P1 Q1 : Nat} {i g w : Buf K} {b : Bas K}
    (h : createTensorH1 near collo dim nc P1 Q1 i g w = .ok b) : b.dim = dim ∧ b.nc = nc ∧ b.P1 = P1 ∧ b.Q1 = Q1 := by
  unfold createTensorH1 at h
  simp only [Res.bind_eq_ok, Res.check_eq_ok] at h
  obtain ⟨_, h1, _, h2, _, h3, _, h4, w', hw, i1', hi, g1', hg, ci, hci, cg, hcg, h⟩ := h
  injection h with h
  subst h
  exact ⟨Int.toNat_natCast _, Int.toNat_natCast _, Int.toNat_natCast _, Int.toNat_natCast _⟩

/-- A Chebyshev basis and vector that belong to the basis `b`. -/
def ChebOK (b : Bas K) (q i1 : Buf K) (c : Bas K × Buf K) : Prop :=
  ∃ ci g w, TensorBasis c.1 ci g w ∧ c.1.dim = b.dim ∧ c.1.nc = b.nc ∧ c.1.P1 = b.P1 ∧ c.1.Q1 = b.Q1 ∧ c.2.len = b.coefs ∧
    Coeffs q i1 ci b.P1 b.Q1

theorem makeCheb_ok {en : Env K} (hen : Exact en) {b : Bas K} (hb : TensorOK b) {q i1 : Buf K} (hQ : 2 ≤ b.Q1)
    (hi : ∀ q p, b.I1 q p = i1.val (q * b.P1 + p)) (hq : b.Q1 ≤ q.len) (hd : Distinct q b.Q1)
    (hA : b.P1 ≤ b.Q1 → Independent (asMat i1 b.Q1 b.P1)) :
    ∃ c, makeCheb en.sqrt en.v0 en.v1 en.near b q = .ok c ∧ ChebOK b q i1 c := by
  obtain ⟨ci, e, hc, hco⟩ := chebInterp_ok hen.1 en.v0 en.v1 (i1 := b.interp1) hb.P1 hQ hb.interp1 hq hd
  have hco' : Coeffs q i1 ci b.P1 b.Q1 := by
    intro i hi' n hn
    rw [hco i hi' n hn, ← hi]; rfl
  have hci : b.P1 ≤ b.Q1 → Independent (asMat ci b.Q1 b.P1) := by
    intro hle y hy
    refine hA hle y ?_
    funext i
    have h1 : ∀ k : Fin b.Q1, ∑ n : Fin b.P1, ci.val (k * b.P1 + n) * y n = 0 := by
      intro k
      have := congrFun hy k
      simp only [Matrix.mulVec, dotProduct, Pi.zero_apply, asMat] at this
      rw [← this]
      refine sum_congr rfl fun n _ => ?_
      congr 2; ring
    simp only [Matrix.mulVec, dotProduct, Pi.zero_apply, asMat]
    calc ∑ n : Fin b.P1, i1.val (n + b.P1 * i) * y n
        = ∑ n : Fin b.P1, ∑ k : Fin b.Q1, (U (k.val : Int)).eval (q.val i) * (ci.val (k * b.P1 + n) * y n) := by
          refine sum_congr rfl fun n _ => ?_
          rw [show n.val + b.P1 * i.val = i.val * b.P1 + n.val by ring, ← hco' i i.isLt n n.isLt, sum_mul,
            ← Fin.sum_univ_eq_sum_range (fun k => ci.val (k * b.P1 + n) * (U (k : Int)).eval (q.val i) * y n)]
          refine sum_congr rfl fun k _ => ?_
          ring
      _ = ∑ k : Fin b.Q1, (U (k.val : Int)).eval (q.val i) * ∑ n : Fin b.P1, ci.val (k * b.P1 + n) * y n := by
          rw [sum_comm]
          refine sum_congr rfl fun k _ => ?_
          rw [mul_sum]
      _ = 0 := sum_eq_zero fun k _ => by rw [h1, mul_zero]
  obtain ⟨cb, ecb, hcb⟩ := C22_creation_partial hen.1 en.v0 en.v1 hen.2 (dim := b.dim) (nc := b.nc) (i1 := ci)
    (g1 := ⟨b.P1 * b.Q1, fun _ => 0⟩) (w := ⟨b.Q1, fun _ => 0⟩) hb.dim hb.nc hb.P1 hb.Q1 hc (Nat.mul_comm _ _) rfl hci
  obtain ⟨d1, d2, d3, d4⟩ := create_dims ecb
  refine ⟨(cb, ⟨b.coefs, fun _ => 0⟩), ?_, ci, _, _, hcb, d1, d2, d3, d4, rfl, hco'⟩
  unfold makeCheb
  rw [e, Res.bind_ok, ecb, Res.bind_ok]

end Basis
end Verif
