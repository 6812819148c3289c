import Verif.Basis.ProjectionSpec
import Verif.Basis.PinvProps
import Verif.Basis.PointsLemmas

namespace Verif
namespace Basis

open Finset Restriction

set_option linter.unusedSectionVars false

variable {K : Type} [Field K] [LinearOrder K] [IsStrictOrderedRing K]

/-- `X` is the pseudoinverse of `A`, which has independent columns. -/
structure PInverse (R P : Nat) (A X : Nat → Nat → K) : Prop where
  left : ∀ n < P, ∀ m < P, ∑ r ∈ range R, X n r * A r m = if n = m then 1 else 0
  sym : ∀ r < R, ∀ s < R, ∑ n ∈ range P, A r n * X n s = ∑ n ∈ range P, A s n * X n r

theorem PInverse.congr {R P : Nat} {A B X : Nat → Nat → K} (h : PInverse R P A X) (hB : ∀ r < R, ∀ n < P, B r n = A r n) :
    PInverse R P B X := by
  refine ⟨fun n hn m hm => ?_, fun r hr s hs => ?_⟩
  · rw [← h.left n hn m hm]
    exact sum_congr rfl fun r hr => by rw [hB r (mem_range.1 hr) m hm]
  · rw [sum_congr rfl fun n hn => by rw [hB r hr n (mem_range.1 hn)], h.sym r hr s hs]
    exact sum_congr rfl fun n hn => by rw [hB s hs n (mem_range.1 hn)]

theorem PInverse.normal {R P : Nat} {A X : Nat → Nat → K} (h : PInverse R P A X) (f : Nat → K) {n : Nat} (hn : n < P) :
    ∑ r ∈ range R, A r n * ∑ m ∈ range P, A r m * ∑ s ∈ range R, X m s * f s = ∑ s ∈ range R, A s n * f s := by
  have hAy : ∀ r < R, ∑ m ∈ range P, A r m * ∑ s ∈ range R, X m s * f s =
      ∑ s ∈ range R, (∑ m ∈ range P, A r m * X m s) * f s := by
    intro r _
    rw [sum_congr rfl fun m hm => by rw [mul_sum]]
    rw [sum_comm]
    refine sum_congr rfl fun s _ => ?_
    rw [sum_mul]
    exact sum_congr rfl fun m _ => by ring
  rw [sum_congr rfl fun r hr => by rw [hAy r (mem_range.1 hr), mul_sum]]
  rw [sum_comm]
  refine sum_congr rfl fun s hs => ?_
  rw [sum_congr rfl fun r hr => by rw [h.sym r (mem_range.1 hr) s (mem_range.1 hs), sum_mul, mul_sum]]
  rw [sum_comm]
  rw [show ∑ m ∈ range P, ∑ r ∈ range R, A r n * (A s m * X m r * f s) =
      ∑ m ∈ range P, (A s m * f s) * ∑ r ∈ range R, X m r * A r n from
    sum_congr rfl fun m _ => by rw [mul_sum]; exact sum_congr rfl fun r _ => by ring]
  rw [sum_congr rfl fun m hm => by rw [h.left m (mem_range.1 hm) n hn]]
  simp only [mul_ite, mul_one, mul_zero]
  rw [sum_ite_eq' (range P) n, if_pos (mem_range.2 hn)]

theorem bestFit_of {R P : Nat} {A X : Nat → Nat → K} (h : PInverse R P A X) {f y : Nat → K}
    (hy : ∀ n < P, y n = ∑ r ∈ range R, X n r * f r) : BestFit R P A f y := by
  intro z hz
  set e : Nat → K := fun r => ∑ n ∈ range P, A r n * y n - f r with he
  set d : Nat → K := fun r => ∑ n ∈ range P, A r n * (z n - y n) with hd
  have orth : ∀ n < P, ∑ r ∈ range R, A r n * e r = 0 := by
    intro n hn
    have : ∑ r ∈ range R, A r n * ∑ m ∈ range P, A r m * y m = ∑ s ∈ range R, A s n * f s := by
      rw [← h.normal f hn]
      exact sum_congr rfl fun r _ => by rw [sum_congr rfl fun m hm => by rw [hy m (mem_range.1 hm)]]
    simp only [he, mul_sub, sum_sub_distrib, this, sub_self]
  have cross : ∑ r ∈ range R, e r * d r = 0 := by
    have : ∀ r ∈ range R, e r * d r = ∑ n ∈ range P, (z n - y n) * (A r n * e r) := by
      intro r _
      simp only [hd, mul_sum]
      exact sum_congr rfl fun n _ => by ring
    rw [sum_congr rfl this, sum_comm]
    refine sum_eq_zero fun n hn => ?_
    rw [← mul_sum, orth n (mem_range.1 hn), mul_zero]
  have split : misfit R P A f z = misfit R P A f y + 2 * ∑ r ∈ range R, e r * d r + ∑ r ∈ range R, d r ^ 2 := by
    unfold misfit
    rw [mul_sum, ← sum_add_distrib, ← sum_add_distrib]
    refine sum_congr rfl fun r _ => ?_
    have : ∑ n ∈ range P, A r n * z n = ∑ n ∈ range P, A r n * y n + d r := by
      simp only [hd]
      rw [← sum_add_distrib]
      exact sum_congr rfl fun n _ => by ring
    rw [this]; simp only [he]; ring
  have pos : 0 < ∑ r ∈ range R, d r ^ 2 := by
    by_contra hc
    have h0 : ∑ r ∈ range R, d r ^ 2 = 0 := le_antisymm (not_lt.1 hc) (sum_nonneg fun r _ => sq_nonneg _)
    have hz0 : ∀ r < R, d r = 0 := fun r hr =>
      pow_eq_zero_iff (two_ne_zero) |>.1 ((sum_eq_zero_iff_of_nonneg fun r _ => sq_nonneg (d r)).1 h0 r (mem_range.2 hr))
    obtain ⟨n, hn, hne⟩ := hz
    refine hne (sub_eq_zero.1 ?_)
    have : ∑ r ∈ range R, X n r * d r = z n - y n := by
      simp only [hd, mul_sum]
      rw [sum_comm]
      rw [show ∑ m ∈ range P, ∑ r ∈ range R, X n r * (A r m * (z m - y m)) =
          ∑ m ∈ range P, (∑ r ∈ range R, X n r * A r m) * (z m - y m) from
        sum_congr rfl fun m _ => by rw [sum_mul]; exact sum_congr rfl fun r _ => by ring]
      rw [sum_congr rfl fun m hm => by rw [h.left n hn m (mem_range.1 hm)]]
      simp only [ite_mul, one_mul, zero_mul]
      rw [sum_ite_eq (range P) n, if_pos (mem_range.2 hn)]
    rw [← this]
    exact sum_eq_zero fun r hr => by rw [hz0 r (mem_range.1 hr), mul_zero]
  rw [split, cross, mul_zero, add_zero]
  linarith

theorem digits_ext {P : Nat} (dim : Nat) {n m : Nat} (hn : n < P ^ dim) (hm : m < P ^ dim)
    (h : ∀ d < dim, coord P d n = coord P d m) : n = m := by
  induction dim generalizing n m with
  | zero => simp at hn hm; omega
  | succ k ih =>
    have h0 := h 0 (Nat.succ_pos _)
    simp only [coord, pow_zero, Nat.div_one] at h0
    have h1 : n / P = m / P := by
      refine ih ?_ ?_ fun d hd => ?_
      · exact Nat.div_lt_of_lt_mul (by rw [pow_succ, mul_comm] at hn; exact hn)
      · exact Nat.div_lt_of_lt_mul (by rw [pow_succ, mul_comm] at hm; exact hm)
      · have := h (d + 1) (by omega)
        simp only [coord] at this ⊢
        rw [Nat.div_div_eq_div_mul, Nat.div_div_eq_div_mul, mul_comm P, ← pow_succ]
        exact this
    rw [← Nat.div_add_mod n P, ← Nat.div_add_mod m P, h0, h1]

/-- Pseudoinverse of a tensor product. -/
theorem PInverse.tensor {Q P : Nat} {A X : Nat → Nat → K} (h : PInverse Q P A X) (dim : Nat) (hQ : 0 < Q) (hP : 0 < P) :
    PInverse (Q ^ dim) (P ^ dim) (fun q n => ∏ d ∈ range dim, A (coord Q d q) (coord P d n))
      (fun n q => ∏ d ∈ range dim, X (coord P d n) (coord Q d q)) := by
  refine ⟨fun n hn m hm => ?_, fun r hr s hs => ?_⟩
  · simp only [← prod_mul_distrib]
    rw [sum_digits (fun d k => X (coord P d n) k * A k (coord P d m)) dim hQ]
    rw [prod_congr rfl fun d _ => h.left _ (coord_lt hP d n) _ (coord_lt hP d m)]
    by_cases hnm : n = m
    · subst hnm; simp
    · rw [if_neg hnm, prod_eq_zero_iff]
      by_contra hc
      push Not at hc
      refine hnm (digits_ext dim hn hm fun d hd => ?_)
      have := hc d (mem_range.2 hd)
      by_contra hne
      exact this (if_neg hne)
  · simp only [← prod_mul_distrib]
    rw [sum_digits (fun d k => A (coord Q d r) k * X k (coord Q d s)) dim hP,
      sum_digits (fun d k => A (coord Q d s) k * X k (coord Q d r)) dim hP]
    exact prod_congr rfl fun d _ => h.sym _ (coord_lt hQ d r) _ (coord_lt hQ d s)

/-- Product matrices applied to node values, one matrix per direction. -/
theorem kron_fit {Q Pf Pt dim : Nat} (hQ : 0 < Q) {X : Nat → Nat → K} {H M : Nat → Nat → Nat → K}
    (hM : ∀ d < dim, ∀ n < Pt, ∀ p < Pf, M d n p = ∑ r ∈ range Q, X n r * H d r p) (hPt : 0 < Pt) (hPf : 0 < Pf) (u : Nat → K) (n : Nat) :
    ∑ p ∈ range (Pf ^ dim), (∏ d ∈ range dim, M d (coord Pt d n) (coord Pf d p)) * u p =
      ∑ r ∈ range (Q ^ dim), (∏ d ∈ range dim, X (coord Pt d n) (coord Q d r)) *
        ∑ p ∈ range (Pf ^ dim), (∏ d ∈ range dim, H d (coord Q d r) (coord Pf d p)) * u p := by
  have : ∀ p ∈ range (Pf ^ dim), (∏ d ∈ range dim, M d (coord Pt d n) (coord Pf d p)) * u p =
      ∑ r ∈ range (Q ^ dim), (∏ d ∈ range dim, X (coord Pt d n) (coord Q d r)) *
        ((∏ d ∈ range dim, H d (coord Q d r) (coord Pf d p)) * u p) := by
    intro p _
    rw [prod_congr rfl fun d hd => hM d (mem_range.1 hd) _ (coord_lt hPt d n) _ (coord_lt hPf d p)]
    rw [← sum_digits (fun d k => X (coord Pt d n) k * H d k (coord Pf d p)) dim hQ, sum_mul]
    exact sum_congr rfl fun r _ => by rw [prod_mul_distrib]; ring
  rw [sum_congr rfl this, sum_comm]
  exact sum_congr rfl fun r _ => by rw [mul_sum]

theorem pinverse_of {R P : Nat} {A X : Buf K} (hl : asMat X P R * asMat A R P = 1)
    (hs : (asMat A R P * asMat X P R).transpose = asMat A R P * asMat X P R) :
    PInverse R P (fun r n => A.val (r * P + n)) (fun n r => X.val (n * R + r)) := by
  refine ⟨fun n hn m hm => ?_, fun r hr s hs' => ?_⟩
  · have := congrFun (congrFun hl ⟨n, hn⟩) ⟨m, hm⟩
    rw [Matrix.mul_apply, Matrix.one_apply] at this
    simp only [asMat, Fin.mk.injEq] at this
    rw [← this, ← Fin.sum_univ_eq_sum_range (fun r => X.val (n * R + r) * A.val (r * P + m))]
    exact Fintype.sum_congr _ _ fun r => by rw [Nat.add_comm, Nat.mul_comm, Nat.add_comm (_ * P), Nat.mul_comm _ P]
  · have := congrFun (congrFun hs ⟨s, hs'⟩) ⟨r, hr⟩
    rw [Matrix.transpose_apply, Matrix.mul_apply, Matrix.mul_apply] at this
    simp only [asMat] at this
    rw [← Fin.sum_univ_eq_sum_range (fun n => A.val (r * P + n) * X.val (n * R + s)),
      ← Fin.sum_univ_eq_sum_range (fun n => A.val (s * P + n) * X.val (n * R + r))]
    refine Eq.trans ?_ (this.trans ?_)
    · exact Fintype.sum_congr _ _ fun n => by rw [Nat.add_comm, Nat.mul_comm, Nat.add_comm (_ * R), Nat.mul_comm _ R]
    · exact Fintype.sum_congr _ _ fun n => by rw [Nat.add_comm, Nat.mul_comm P, Nat.add_comm _ (R * _), Nat.mul_comm R]

theorem projectOne_ok {env : PEnv K} (ht : ∀ x, env.tiny x = true → x = 0) {inv src : Buf K} {Pt Pf kk : Nat}
    (hi : inv.len = Pt * kk) (hs : src.len = kk * Pf) :
    ∃ out, projectOne env inv src Pt Pf kk = .ok out ∧ out.len = Pt * Pf ∧
      ∀ n < Pt, ∀ p < Pf, out.val (n * Pf + p) = ∑ r ∈ range kk, inv.val (n * kk + r) * src.val (r * Pf + p) := by
  obtain ⟨C, e, hl, hC⟩ := C27_matmul (A := inv) (B := src) (C := ⟨Pt * Pf, fun _ => 0⟩) hi hs rfl
  unfold projectOne
  rw [e, Res.bind_ok]
  obtain ⟨out, e', ho, hv⟩ := loop_inv (fun _ (o : Buf K) => o.len = Pt * Pf ∧ o.val = C.val)
    (body := fun i (out : Buf K) => (do
      let x ← out.rd i
      if env.tiny x then out.wr i 0 else .ok out : Res (Buf K))) (n := Pt * Pf) (s := C) ⟨hl, rfl⟩ (by
      rintro i hi o ⟨h1, h2⟩
      rw [Buf.rd_lt (by omega), Res.bind_ok]
      by_cases hx : env.tiny (o.val i) = true
      · rw [if_pos hx, Buf.wr_lt (by omega)]
        refine ⟨_, rfl, h1, ?_⟩
        funext j
        have h0 := ht _ hx
        by_cases hj : j = i
        · subst hj; simp [← h2, h0]
        · simp [hj, ← h2]
      · rw [if_neg hx]; exact ⟨_, rfl, h1, h2⟩)
  refine ⟨out, e', ho, fun n hn p hp => ?_⟩
  have := congrFun (congrFun hC ⟨n, hn⟩) ⟨p, hp⟩
  rw [Matrix.mul_apply] at this
  simp only [asMat] at this
  rw [hv, show n * Pf + p = p + Pf * n by ring, this, ← Fin.sum_univ_eq_sum_range (fun r => inv.val (n * kk + r) * src.val (r * Pf + p))]
  exact Fintype.sum_congr _ _ fun r => by rw [Nat.add_comm, Nat.mul_comm kk, Nat.add_comm p, Nat.mul_comm Pf]

theorem window_ok {b : Buf K} {off n : Nat} (h : off + n ≤ b.len) : window b off n = .ok ⟨n, fun i => b.val (off + i)⟩ := if_pos h

theorem matrices_ok {env : PEnv K} (hsq : IsSqrt env.sqrt) (ht : ∀ x, env.tiny x = true → x = 0) {from_ to_ : Bas K} {both : Bool}
    (hb : (to_.isTensor && from_.isTensor) = both) {Pt Pf Q qc nm : Nat} (hPt : (if both then to_.P1 else to_.P) = Pt)
    (hPf : (if both then from_.P1 else from_.P) = Pf) (hQQ : (if both then from_.Q1 else to_.Q) = Q)
    (hqc : (if both then 1 else from_.qComp .interp) = qc) (hnm : (if both then 1 else from_.dim) = nm)
    (hQ : to_.Q = from_.Q) (hsp : to_.space = from_.space) {mt mi mg : Buf K}
    (eT : interpSource both to_ = .ok (some mt))
    (eF : interpSource both from_ = .ok (some mi))
    (eG : to_.space = .h1 → (if both then Res.ok (some from_.grad1) else getGrad from_) = .ok (some mg))
    (h1 : to_.space = .h1 → qc = 1) (lT : mt.len = Q * qc * Pt) (lF : mi.len = Q * qc * Pf)
    (lG : to_.space = .h1 → mg.len = nm * Q * Pf) (pT : 0 < Pt) (pR : Pt ≤ Q * qc) (hI : Independent (asMat mt (Q * qc) Pt)) :
    ∃ ip gp X, projectMatrices env from_ to_ = .ok (ip, gp) ∧ ip.len = Pt * Pf ∧ gp.len = Pt * Pf * nm ∧
      PInverse (Q * qc) Pt (fun r n => mt.val (r * Pt + n)) X ∧
      (∀ n < Pt, ∀ p < Pf, ip.val (n * Pf + p) = ∑ r ∈ range (Q * qc), X n r * mi.val (r * Pf + p)) ∧
      (to_.space = .h1 → ∀ c < nm, ∀ n < Pt, ∀ p < Pf, gp.val ((c * Pt + n) * Pf + p) =
        ∑ r ∈ range Q, X n r * mg.val ((c * Q + r) * Pf + p)) := by
  obtain ⟨X, eX, lX, hl, hs⟩ := C27_pseudoinverse hsq env.v0 env.v1 (p := ⟨Pt * (Q * qc), fun _ => 0⟩) pT pR lT rfl hI
  obtain ⟨ip, eI, lI, vI⟩ := projectOne_ok ht (inv := X) (src := ⟨Q * Pf * qc, fun i => mi.val (0 + i)⟩) (Pf := Pf) lX
    (by simp only []; ring)
  have wF : window mi 0 (Q * Pf * qc) = .ok ⟨Q * Pf * qc, fun i => mi.val (0 + i)⟩ :=
    window_ok (by rw [lF, Nat.zero_add]; exact le_of_eq (by ring))
  have hgr : ∃ gp, loop (if to_.space = .h1 then nm else 0) (fun m (g : Buf K) => (do
      let gs ← deref (if to_.space = .h1 then some mg else none)
      let src ← window gs (m * Q * Pf) (Q * Pf * qc)
      let out ← projectOne env X src Pt Pf (Q * qc)
      loop (Pt * Pf) (fun i (g : Buf K) => do
        let x ← out.rd i
        g.wr (m * Pt * Pf + i) x) g : Res (Buf K))) ⟨Pt * Pf * nm, fun _ => 0⟩ = .ok gp ∧ gp.len = Pt * Pf * nm ∧
      (to_.space = .h1 → ∀ c < nm, ∀ n < Pt, ∀ p < Pf, gp.val ((c * Pt + n) * Pf + p) =
        ∑ r ∈ range Q, X.val (n * (Q * qc) + r) * mg.val ((c * Q + r) * Pf + p)) := by
    by_cases hh : to_.space = .h1
    · simp only [if_pos hh, deref, Res.bind_ok]
      have hq1 := h1 hh
      subst hq1
      obtain ⟨gp, e, l, v⟩ := loop_inv (fun m (g : Buf K) => g.len = Pt * Pf * nm ∧ ∀ c < m, ∀ n < Pt, ∀ p < Pf,
          g.val ((c * Pt + n) * Pf + p) = ∑ r ∈ range Q, X.val (n * (Q * 1) + r) * mg.val ((c * Q + r) * Pf + p))
        (body := fun m (g : Buf K) => (do
          let src ← window mg (m * Q * Pf) (Q * Pf * 1)
          let out ← projectOne env X src Pt Pf (Q * 1)
          loop (Pt * Pf) (fun i (g : Buf K) => do
            let x ← out.rd i
            g.wr (m * Pt * Pf + i) x) g : Res (Buf K))) (n := nm) (s := ⟨Pt * Pf * nm, fun _ => 0⟩)
        ⟨rfl, fun c hc => absurd hc (Nat.not_lt_zero _)⟩ (by
          rintro m hm g ⟨gl, gv⟩
          obtain ⟨out, eO, lO, vO⟩ := projectOne_ok ht (inv := X)
            (src := ⟨Q * Pf * 1, fun i => mg.val (m * Q * Pf + i)⟩) (Pf := Pf) lX (by simp only []; ring)
          rw [window_ok (by
            rw [lG hh]
            calc m * Q * Pf + Q * Pf * 1 = (m + 1) * (Q * Pf) := by ring
              _ ≤ nm * (Q * Pf) := Nat.mul_le_mul_right _ hm
              _ = nm * Q * Pf := by ring), Res.bind_ok, eO, Res.bind_ok]
          have hroom : ∀ i < Pt * Pf, m * Pt * Pf + i < Pt * Pf * nm := by
            intro i hi
            calc m * Pt * Pf + i < m * Pt * Pf + Pt * Pf := by omega
              _ = (m + 1) * (Pt * Pf) := by ring
              _ ≤ nm * (Pt * Pf) := Nat.mul_le_mul_right _ hm
              _ = Pt * Pf * nm := by ring
          obtain ⟨g', e', l', a', b'⟩ := loop_inv (fun i (g' : Buf K) => g'.len = Pt * Pf * nm ∧
              (∀ x < m * Pt * Pf, g'.val x = g.val x) ∧ ∀ j < i, g'.val (m * Pt * Pf + j) = out.val j)
            (body := fun i (g : Buf K) => (do
              let x ← out.rd i
              g.wr (m * Pt * Pf + i) x : Res (Buf K))) (n := Pt * Pf) (s := g)
            ⟨gl, fun _ _ => rfl, fun j hj => absurd hj (Nat.not_lt_zero _)⟩ (by
              rintro i hi g' ⟨q1, q2, q3⟩
              rw [Buf.rd_lt (by omega), Res.bind_ok, Buf.wr_lt (by rw [q1]; exact hroom i hi)]
              refine ⟨_, rfl, q1, fun x hx => ?_, fun j hj => ?_⟩
              · simp only []
                rw [if_neg (by omega)]; exact q2 x hx
              · simp only []
                by_cases hji : j = i
                · subst hji; rw [if_pos rfl]
                · rw [if_neg (by omega)]; exact q3 j (by omega))
          refine ⟨g', e', l', fun c hc n hn p hp => ?_⟩
          by_cases hcm : c = m
          · subst hcm
            have hlt : n * Pf + p < Pt * Pf := by
              calc n * Pf + p < n * Pf + Pf := by omega
                _ = (n + 1) * Pf := by ring
                _ ≤ Pt * Pf := Nat.mul_le_mul_right _ hn
            rw [show (c * Pt + n) * Pf + p = c * Pt * Pf + (n * Pf + p) by ring, b' _ hlt, vO n hn p hp, Nat.mul_one]
            refine sum_congr rfl fun r _ => ?_
            simp only []
            rw [show c * Q * Pf + (r * Pf + p) = (c * Q + r) * Pf + p by ring]
          · have hlt : (c * Pt + n) * Pf + p < m * Pt * Pf := by
              calc (c * Pt + n) * Pf + p < (c * Pt + n) * Pf + Pf := by omega
                _ = (c * Pt + (n + 1)) * Pf := by ring
                _ ≤ (c * Pt + Pt) * Pf := Nat.mul_le_mul_right _ (by omega)
                _ = (c + 1) * (Pt * Pf) := by ring
                _ ≤ m * (Pt * Pf) := Nat.mul_le_mul_right _ (by omega)
                _ = m * Pt * Pf := by ring
            rw [a' _ hlt]
            exact gv c (by omega) n hn p hp)
      exact ⟨gp, e, l, fun _ => v⟩
    · simp only [if_neg hh]
      exact ⟨_, rfl, rfl, fun h => absurd h hh⟩
  obtain ⟨gp, eP, lP, vP⟩ := hgr
  refine ⟨ip, gp, fun n r => X.val (n * (Q * qc) + r), ?_, lI, lP, pinverse_of hl hs, ?_, vP⟩
  · unfold projectMatrices
    have eG' : gradSource both to_.space from_ =
        .ok (if to_.space = .h1 then some mg else none) := by
      by_cases hh : to_.space = .h1
      · unfold gradSource; rw [if_pos hh, if_pos hh, eG hh]
      · unfold gradSource; rw [if_neg hh, if_neg hh]
    rw [Res.check_true hQ, Res.bind_ok, Res.check_true hsp, Res.bind_ok]
    simp only [hb, hPt, hPf, hQQ, hqc, hnm, eT, eF, Res.bind_ok]
    rw [eG', Res.bind_ok, show deref (some mt) = .ok mt from rfl, Res.bind_ok, eX, Res.bind_ok, show deref (some mi) = .ok mi from rfl,
      Res.bind_ok, wF, Res.bind_ok, eI, Res.bind_ok, eP, Res.bind_ok]
  · intro n hn p hp
    rw [vI n hn p hp]
    exact sum_congr rfl fun r _ => by simp only [Nat.zero_add]

end Basis
end Verif
