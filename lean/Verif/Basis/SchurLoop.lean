import Verif.Basis.SchurSweep

/-!
# The symmetric QR algorithm
-/

namespace Verif
namespace Basis

open Finset Restriction

set_option linter.unusedSectionVars false

variable {K : Type} [Field K] [LinearOrder K] [IsStrictOrderedRing K]

/-- `T` is `A` in the orthogonal basis `mat`. -/
structure Sim {n : Nat} (A : Matrix (Fin n) (Fin n) K) (T mat : Buf K) : Prop where
  lT : T.len = n * n
  lm : mat.len = n * n
  orth : (asMat mat n n).transpose * asMat mat n n = 1
  eq : asMat T n n = (asMat mat n n).transpose * A * asMat mat n n

theorem Sim.sym {n : Nat} {A : Matrix (Fin n) (Fin n) K} (hA : A.transpose = A) {T mat : Buf K} (h : Sim A T mat) : ∀ r < n, ∀ c < n, ent T n r c = ent T n c r := by
  intro r hr c hc
  have : (asMat T n n).transpose = asMat T n n := by
    rw [h.eq, Matrix.transpose_mul, Matrix.transpose_mul, Matrix.transpose_transpose, hA, Matrix.mul_assoc]
  exact congrFun (congrFun this ⟨c, hc⟩) ⟨r, hr⟩

theorem sweepStep_ok {sqrt : K → K} (hs : IsSqrt sqrt) {tol : K} (ht : 0 ≤ tol) {n q k : Nat} (hk : k + 1 < n) {A : Matrix (Fin n) (Fin n) K} {s : Sweep K} (h : Sim A s.T s.mat) :
    ∃ s' c sn, sweepStep sqrt tol n q k s = .ok s' ∧ Sim A s'.T s'.mat ∧ c * c + sn * sn = 1 ∧ (sn * s.x + c * s.z) * (sn * s.x + c * s.z) ≤ tol * tol ∧
      (∀ r < n, ∀ j < n, ent s'.T n r j = bothRot k c sn (ent s.T n) r j) ∧
      (k < n - q - 2 → s'.x = ent s'.T n (k + 1) k ∧ s'.z = ent s'.T n (k + 2) k) := by
  obtain ⟨c, sn, e1, h1, h2⟩ := rotation_ok hs (x := s.x) (z := s.z) ht
  obtain ⟨T1, e2, l1, v1⟩ := givens_cols c sn hk h.lT
  obtain ⟨T2, e3, l2, v2⟩ := givens_rows c sn hk l1
  obtain ⟨m1, e4, l3, v3⟩ := givens_cols c sn hk h.lm
  have hsim : Sim A T2 m1 := by
    refine ⟨l2, l3, ?_, ?_⟩
    · rw [mul_rotM hk c sn v3, Matrix.transpose_mul, Matrix.mul_assoc, ← Matrix.mul_assoc (asMat s.mat n n).transpose, h.orth, Matrix.one_mul, rotM_orth hk h1]
    · rw [rotM_mul hk c sn v2, mul_rotM hk c sn v1, mul_rotM hk c sn v3, h.eq, Matrix.transpose_mul]
      simp only [Matrix.mul_assoc]
  have hb : ∀ r < n, ∀ j < n, ent T2 n r j = bothRot k c sn (ent s.T n) r j := fun r hr j hj => by
    rw [v2 r hr j hj]
    unfold bothRot
    unfold rowRot
    unfold colRot
    simp only
    by_cases a1 : r = k
    · rw [if_pos a1, if_pos a1, v1 k (by omega) j hj, v1 (k + 1) hk j hj]; rfl
    · rw [if_neg a1, if_neg a1]
      by_cases a2 : r = k + 1
      · rw [if_pos a2, if_pos a2, v1 k (by omega) j hj, v1 (k + 1) hk j hj]; rfl
      · rw [if_neg a2, if_neg a2, v1 r hr j hj]; rfl
  unfold sweepStep
  rw [e1, Res.bind_ok]
  simp only
  rw [e2, Res.bind_ok, e3, Res.bind_ok, e4, Res.bind_ok]
  by_cases hq : k < n - q - 2
  · rw [if_pos hq, Buf.rd_lt (by rw [l2]; exact idx_lt (by omega) (by omega)), Res.bind_ok, Buf.rd_lt (by rw [l2]; exact idx_lt (by omega) (by omega)), Res.bind_ok]
    exact ⟨_, c, sn, rfl, hsim, h1, h2, hb, fun _ => ⟨rfl, rfl⟩⟩
  · rw [if_neg hq]
    exact ⟨_, c, sn, rfl, hsim, h1, h2, hb, fun h => absurd h hq⟩

/-- What holds before the rotation of rows `p + t` and `p + t + 1`. -/
structure SweepInv {n : Nat} (A : Matrix (Fin n) (Fin n) K) (tol eps : K) (p q t : Nat) (s : Sweep K) : Prop where
  sim : Sim A s.T s.mat
  tail : 0 < q → t < n - q - 1 - p → ent s.T n (n - q) (n - q - 1) * ent s.T n (n - q) (n - q - 1) ≤ tol * tol
  first : t = 0 → wsum n offTri (ent s.T n) ≤ eps
  mid : 0 < t → t < n - q - 1 - p → wsum n offTri (ent s.T n) - 2 * bulge (p + t) (ent s.T n) ≤ eps + 2 * t * (tol * tol) ∧
    s.x = ent s.T n (p + t) (p + t - 1) ∧ s.z = ent s.T n (p + t + 1) (p + t - 1)
  last : t = n - q - 1 - p → wsum n offTri (ent s.T n) ≤ eps + 2 * (t + 1) * (tol * tol)

theorem schurSweep_loop {sqrt : K → K} (hs : IsSqrt sqrt) {tol eps : K} (ht : 0 ≤ tol) {n p q : Nat} (hp : p < n - q - 1) {A : Matrix (Fin n) (Fin n) K} (hA : A.transpose = A)
    {s : Sweep K} (h : Sim A s.T s.mat) (he : wsum n offTri (ent s.T n) ≤ eps) (hpt : 0 < p → ent s.T n (p - 1) p * ent s.T n (p - 1) p ≤ tol * tol)
    (hqt : 0 < q → ent s.T n (n - q) (n - q - 1) * ent s.T n (n - q) (n - q - 1) ≤ tol * tol) :
    ∃ s', loop (n - q - 1 - p) (fun k' s => sweepStep sqrt tol n q (p + k') s) s = .ok s' ∧ Sim A s'.T s'.mat ∧
      wsum n offTri (ent s'.T n) ≤ eps + 2 * n * (tol * tol) := by
  have htt : 0 ≤ tol * tol := mul_nonneg ht ht
  obtain ⟨s', e, h'⟩ := loop_inv (n := n - q - 1 - p) (body := fun k' s => sweepStep sqrt tol n q (p + k') s) (s := s)
    (fun t w => SweepInv A tol eps p q t w ∧ (t = 0 → w = s))
    ⟨⟨h, fun hq _ => hqt hq, fun _ => he, fun h0 => by omega, fun h0 => by omega⟩, fun _ => rfl⟩ (by
      intro t hlt w ⟨hw, hw0⟩
      have hk : p + t + 1 < n := by omega
      obtain ⟨w', c, sn, e, hsim, h1, h2, hb, hxz⟩ := sweepStep_ok hs (tol := tol) ht (q := q) hk hw.sim
      obtain ⟨b1, b2, b3, b4⟩ := rot_bound hk h1 (hw.sim.sym hA) (hsim.sym hA) hb
      have hstep : wsum n offTri (ent w.T n) - 2 * bulge (p + t) (ent w.T n) + 2 * bulge (p + t) (ent w'.T n) ≤ eps + 2 * (t + 1) * (tol * tol) := by
        rcases Nat.eq_zero_or_pos t with h0 | h0
        · subst h0
          have e0 := hw.first rfl
          have : bulge (p + 0) (ent w'.T n) ≤ tol * tol + bulge (p + 0) (ent w.T n) := by
            unfold bulge
            by_cases hp0 : 0 < p + 0
            · rw [if_pos hp0, if_pos hp0, b2 hp0]
              have i1 := sq_le (c := sn) (s := c) (a := ent w.T n (p + 0 - 1) (p + 0)) (b := ent w.T n (p + 0 - 1) (p + 0 + 1)) (by linear_combination h1)
              have i2 := hpt (by omega)
              rw [hw0 rfl] at i1 ⊢
              simp only [Nat.add_zero] at i1 ⊢
              exact i1.trans (add_le_add_left i2 _)
            · rw [if_neg hp0, if_neg hp0, add_zero]; exact htt
          push_cast
          linarith
        · obtain ⟨m1, m2, m3⟩ := hw.mid h0 hlt
          have : bulge (p + t) (ent w'.T n) ≤ tol * tol := by
            unfold bulge
            rw [if_pos (by omega), b2 (by omega), hw.sim.sym hA (p + t - 1) (by omega) (p + t) (by omega), hw.sim.sym hA (p + t - 1) (by omega) (p + t + 1) (by omega), ← m2, ← m3]
            exact h2
          linarith
      refine ⟨w', e, ⟨hsim, fun hq h0 => ?_, fun h0 => by omega, fun _ h0 => ⟨?_, ?_⟩, fun h0 => ?_⟩, fun h0 => by omega⟩
      · rw [b4 (n - q) (by omega) (n - q - 1) (by omega) (by omega) (by omega)]
        exact hw.tail hq hlt
      · have ea : bulge (p + (t + 1)) (ent w'.T n) = ahead n (p + t) (ent w'.T n) := by
          unfold bulge ahead
          rw [if_pos (by omega), if_pos (by omega), show p + (t + 1) - 1 = p + t by omega, show p + (t + 1) + 1 = p + t + 2 by omega, hsim.sym hA (p + t) (by omega) (p + t + 2) (by omega)]
        have ha : 0 ≤ ahead n (p + t) (ent w.T n) := by
          unfold ahead
          split_ifs
          · exact mul_self_nonneg _
          · exact le_refl _
        rw [ea]
        push_cast
        linarith
      · have := hxz (by omega)
        rw [show p + (t + 1) = p + t + 1 by omega, show p + t + 1 - 1 = p + t by omega]
        exact this
      · have ha : ahead n (p + t) (ent w'.T n) ≤ ahead n (p + t) (ent w.T n) + tol * tol := by
          by_cases hn : p + t + 2 < n
          · have i1 := b3 hn
            have i2 := hw.tail (by omega) hlt
            rw [show n - q = p + t + 2 by omega, show p + t + 2 - 1 = p + t + 1 by omega] at i2
            refine i1.trans ?_
            unfold ahead
            rw [if_pos hn]
            exact add_le_add_right i2 _
          · unfold ahead
            rw [if_neg hn, if_neg hn, zero_add]; exact htt
        push_cast
        linarith)
  refine ⟨s', e, h'.1.sim, (h'.1.last rfl).trans ?_⟩
  have : ((n - q - 1 - p : Nat) : K) + 1 ≤ n := by
    have : n - q - 1 - p + 1 ≤ n := by omega
    exact_mod_cast this
  nlinarith

theorem shift_ne {sqrt : K → K} (hs : IsSqrt sqrt) {d t : K} (ht : 0 < |t|) : d + csign (sqrt (d * d + t * t)) d ≠ 0 := by
  have h0 : 0 < t * t := by rw [← abs_mul_abs_self]; exact mul_pos ht ht
  obtain ⟨r0, r1⟩ := hs (d * d + t * t) (add_nonneg (mul_self_nonneg d) h0.le)
  have rp : 0 < sqrt (d * d + t * t) := lt_of_le_of_ne r0 fun h => by
    rw [← h, mul_zero] at r1
    nlinarith [mul_self_nonneg d]
  unfold csign
  split_ifs with hd
  · exact (add_pos_of_nonneg_of_pos hd rp).ne'
  · have := not_le.1 hd
    intro hc
    linarith

theorem qrSweep_ok {sqrt : K → K} (hs : IsSqrt sqrt) {tol eps : K} (ht : 0 < tol) {n p q : Nat} (hp : p < n - q - 1) {A : Matrix (Fin n) (Fin n) K} (hA : A.transpose = A)
    {T mat : Buf K} (h : Sim A T mat) (he : wsum n offTri (ent T n) ≤ eps) (hpt : 0 < p → |ent T n p (p - 1)| < tol)
    (hqt : 0 < q → |ent T n (n - q) (n - q - 1)| < tol) (hbig : tol ≤ |ent T n (n - 1 - q) (n - 2 - q)|) :
    ∃ T' mat', qrSweep sqrt tol n p q T mat = .ok (T', mat') ∧ Sim A T' mat' ∧ wsum n offTri (ent T' n) ≤ eps + 2 * n * (tol * tol) := by
  have rd : ∀ r < n, ∀ c < n, T.rd (c + n * r) = .ok (ent T n r c) := fun r hr c hc => Buf.rd_lt (by rw [h.lT]; exact idx_lt hc hr)
  have sq : ∀ x : K, |x| < tol → x * x ≤ tol * tol := fun x hx => by
    rw [← abs_mul_abs_self]
    exact mul_le_mul hx.le hx.le (abs_nonneg _) ht.le
  obtain ⟨s', e, h1, h2⟩ := schurSweep_loop hs (eps := eps) ht.le hp hA (s := ⟨T, mat, ent T n p p - (ent T n (n - 1 - q) (n - 1 - q) -
      ent T n (n - 1 - q) (n - 2 - q) * ent T n (n - 1 - q) (n - 2 - q) / ((ent T n (n - 2 - q) (n - 2 - q) - ent T n (n - 1 - q) (n - 1 - q)) / 2 +
        csign (sqrt ((ent T n (n - 2 - q) (n - 2 - q) - ent T n (n - 1 - q) (n - 1 - q)) / 2 * ((ent T n (n - 2 - q) (n - 2 - q) - ent T n (n - 1 - q) (n - 1 - q)) / 2) +
          ent T n (n - 1 - q) (n - 2 - q) * ent T n (n - 1 - q) (n - 2 - q))) ((ent T n (n - 2 - q) (n - 2 - q) - ent T n (n - 1 - q) (n - 1 - q)) / 2))),
      ent T n (p + 1) p⟩) h he (fun h0 => by
        show ent T n (p - 1) p * ent T n (p - 1) p ≤ _
        rw [h.sym hA (p - 1) (by omega) p (by omega)]; exact sq _ (hpt h0)) fun h0 => sq _ (hqt h0)
  refine ⟨s'.T, s'.mat, ?_, h1, h2⟩
  unfold qrSweep
  rw [rd _ (by omega) _ (by omega), Res.bind_ok, rd _ (by omega) _ (by omega), Res.bind_ok, rd _ (by omega) _ (by omega), Res.bind_ok, fdiv_ok two_ne_zero, Res.bind_ok,
    fdiv_ok (shift_ne hs (lt_of_lt_of_le ht hbig)), Res.bind_ok, rd _ (by omega) _ (by omega), Res.bind_ok, rd _ (by omega) _ (by omega), Res.bind_ok, e, Res.bind_ok]

theorem schurLoop_ok {sqrt : K → K} (hs : IsSqrt sqrt) {tol : K} (ht : 0 < tol) {n : Nat} (hn : 1 < n) {A : Matrix (Fin n) (Fin n) K} (hA : A.transpose = A) (fuel : Nat) :
    ∀ {T mat : Buf K} {eps : K}, Sim A T mat → wsum n offTri (ent T n) ≤ eps →
      ∃ T' mat' b, schurLoop sqrt tol n fuel T mat = .ok (T', mat', b) ∧ Sim A T' mat' ∧
        (b = true → wsum n offTri (ent T' n) ≤ eps + 2 * n * ((fuel : K) - 1) * (tol * tol) ∧ ∀ i, i + 1 < n → |ent T' n (i + 1) i| < tol) := by
  induction fuel with
  | zero => exact fun {T mat _} h _ => ⟨T, mat, false, rfl, h, fun hb => by cases hb⟩
  | succ fuel ih =>
    intro T mat eps h he
    obtain ⟨q, b1, e1, q1, q2, q3⟩ := small_ok (tol := tol) (T := T) (n := n) (len := n - 1) (at_ := fun t => n - 2 - t) fun t htt => by
      rw [h.lT]; exact idx_lt (by omega) (by omega)
    obtain ⟨p, b2, e2, p1, p2, p3⟩ := small_ok (tol := tol) (T := T) (n := n) (len := n - q - 1) (at_ := fun t => t) fun t htt => by
      rw [h.lT]; exact idx_lt (by omega) (by omega)
    unfold schurLoop
    rw [e1, Res.bind_ok]
    simp only
    rw [e2, Res.bind_ok]
    simp only
    by_cases hq : q = n - 1
    · rw [if_pos hq]
      refine ⟨T, mat, true, rfl, h, fun _ => ⟨?_, fun i hi => ?_⟩⟩
      · have : 0 ≤ 2 * (n : K) * (fuel : K) * (tol * tol) := by positivity
        push_cast
        rw [add_sub_cancel_right]
        linarith
      · have := q2 (n - 2 - i) (by omega)
        rw [show n - 2 - (n - 2 - i) = i by omega] at this
        exact this
    · rw [if_neg hq]
      have hbig := q3 (by omega)
      have hp : p < n - q - 1 := by
        refine lt_of_le_of_ne p1 fun hc => ?_
        have := p2 (n - 2 - q) (by omega)
        exact absurd this (not_lt.2 hbig)
      obtain ⟨T', mat', e3, s1, s2⟩ := qrSweep_ok hs ht hp hA h he (fun h0 => by
          have := p2 (p - 1) (by omega)
          simp only [show p - 1 + 1 = p by omega] at this
          exact this) (fun h0 => by
          have := q2 (q - 1) (by omega)
          rw [show n - 2 - (q - 1) = n - q - 1 by omega, show n - q - 1 + 1 = n - q by omega] at this
          exact this) (by
          rw [show n - 2 - q + 1 = n - 1 - q by omega] at hbig
          exact hbig)
      rw [e3, Res.bind_ok]
      simp only
      obtain ⟨T2, m2, b, e4, r1, r2⟩ := ih s1 s2
      refine ⟨T2, m2, b, e4, r1, fun hb => ⟨(r2 hb).1.trans (le_of_eq ?_), (r2 hb).2⟩⟩
      push_cast
      ring

end Basis
end Verif
