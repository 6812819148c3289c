import Verif.Basis.SchurTri

/-!
# The reduction to tridiagonal form and the accumulation of the reflections
-/

namespace Verif
namespace Basis

open Finset Restriction

set_option linter.unusedSectionVars false

variable {K : Type} [Field K] [LinearOrder K]

/-- A loop of which an iteration may be undefined. -/
theorem loop_inv_ub {σ : Type} {n : Nat} {body : Nat → σ → Res σ} {s : σ} (I : Nat → σ → Prop) (Bad : Prop) (h0 : I 0 s)
    (h : ∀ i < n, ∀ s, I i s → (body i s = .ub ∧ Bad) ∨ ∃ s', body i s = .ok s' ∧ I (i + 1) s') :
    (loop n body s = .ub ∧ Bad) ∨ ∃ s', loop n body s = .ok s' ∧ I n s' := by
  induction n with
  | zero => exact .inr ⟨s, rfl, h0⟩
  | succ n ih =>
    rw [loop_succ]
    rcases ih (fun i hi => h i (by omega)) with ⟨e, hb⟩ | ⟨s', e, hI⟩
    · exact .inl ⟨by rw [e]; rfl, hb⟩
    · rcases h n (by omega) s' hI with ⟨e', hb⟩ | ⟨s'', e', hI'⟩
      · exact .inl ⟨by rw [e]; exact e', hb⟩
      · exact .inr ⟨s'', by rw [e]; exact e', hI'⟩

/-- The reflection stored in column `i`. -/
def houseS (T tau : Buf K) (n i : Nat) : Matrix (Fin n) (Fin n) K := refl (uS T n i) (tau.val i)

/-- The product of the first `i` reflections. -/
def prodS (T tau : Buf K) (n : Nat) : Nat → Matrix (Fin n) (Fin n) K
  | 0 => 1
  | i + 1 => prodS T tau n i * houseS T tau n i

theorem houseS_congr {T tau T' tau' : Buf K} {n i : Nat} (ht : tau'.val i = tau.val i) (hT : ∀ r < n, T'.val (i + n * r) = T.val (i + n * r)) :
    houseS T' tau' n i = houseS T tau n i := by
  unfold houseS
  rw [ht]
  congr 1
  funext r
  unfold uS
  rw [hT r r.isLt]

theorem prodS_congr {T tau T' tau' : Buf K} {n i : Nat} (ht : ∀ k < i, tau'.val k = tau.val k)
    (hT : ∀ r < n, ∀ c < i, T'.val (c + n * r) = T.val (c + n * r)) : prodS T' tau' n i = prodS T tau n i := by
  induction i with
  | zero => rfl
  | succ i ih =>
    rw [prodS, prodS, ih (fun k hk => ht k (by omega)) fun r hr c hc => hT r hr c (by omega),
      houseS_congr (ht i (by omega)) fun r hr => hT r hr i (by omega)]

/-- The first row of a reflection. -/
theorem houseS_first {T tau : Buf K} {n i : Nat} (hn : 0 < n) (r : Fin n) : houseS T tau n i r ⟨0, hn⟩ = if r.val = 0 then 1 else 0 := by
  unfold houseS refl
  rw [Matrix.sub_apply, Matrix.smul_apply, Matrix.vecMulVec_apply, show uS T n i ⟨0, hn⟩ = 0 from if_pos (by simp), Matrix.one_apply]
  simp [Fin.ext_iff]

variable [IsStrictOrderedRing K]

/-- `A` maps a proper subspace that contains the first unit vector to itself. -/
def Degenerate {n : Nat} (A : Matrix (Fin n) (Fin n) K) : Prop :=
  ∃ W : Submodule K (Fin n → K), (fun r => if r.val = 0 then 1 else 0) ∈ W ∧ (∀ x ∈ W, A.mulVec x ∈ W) ∧ W ≠ ⊤

/-- The first `i` columns have been reduced. -/
structure TriInv (A : Matrix (Fin n) (Fin n) K) (i : Nat) (s : Tri K) : Prop where
  lT : s.T.len = n * n
  lv : s.v.len = n - 1
  lt : s.tau.len = n - 1
  pos : ∀ k < i, 0 < s.tau.val k
  self : ∀ k < i, houseS s.T s.tau n k * houseS s.T s.tau n k = 1
  eq : workT s.T n i = (prodS s.T s.tau n i).transpose * A * prodS s.T s.tau n i

theorem prodS_orth {T tau : Buf K} {n i : Nat} (h : ∀ k < i, houseS T tau n k * houseS T tau n k = 1) :
    (prodS T tau n i).transpose * prodS T tau n i = 1 := by
  induction i with
  | zero => simp [prodS]
  | succ i ih =>
    have hT : (houseS T tau n i).transpose = houseS T tau n i := refl_transpose _ _
    rw [prodS, Matrix.transpose_mul, hT, Matrix.mul_assoc, ← Matrix.mul_assoc (prodS T tau n i).transpose, ih (fun k hk => h k (by omega)), Matrix.one_mul, h i (by omega)]

theorem prodS_first {T tau : Buf K} {n i : Nat} (hn : 0 < n) (r : Fin n) : prodS T tau n i r ⟨0, hn⟩ = if r.val = 0 then 1 else 0 := by
  induction i generalizing r with
  | zero => simp [prodS, Matrix.one_apply, Fin.ext_iff]
  | succ i ih =>
    rw [prodS, Matrix.mul_apply, sum_congr rfl fun k _ => by rw [houseS_first hn k], sum_eq_single ⟨0, hn⟩]
    · simpa using ih r
    · intro b _ hb
      rw [if_neg (fun h => hb (Fin.ext h)), mul_zero]
    · intro h
      exact absurd (mem_univ _) h

/-- If nothing is left to be reduced before the last columns, the matrix is degenerate. -/
theorem degenerate_of {n i : Nat} {A P W : Matrix (Fin n) (Fin n) K} (hP : P.transpose * P = 1) (hW : W = P.transpose * A * P) (hn : 0 < n)
    (h1 : ∀ r, P r ⟨0, hn⟩ = if r.val = 0 then 1 else 0) (hi : i + 1 < n) (hz : ∀ r c : Fin n, i < r.val → c.val ≤ i → W r c = 0) : Degenerate A := by
  have hP' : P * P.transpose = 1 := mul_eq_one_comm.1 hP
  let V : Submodule K (Fin n → K) :=
    { carrier := {x | ∀ r : Fin n, i < r.val → x r = 0}
      add_mem' := fun {a b} ha hb r hr => by
        show a r + b r = 0
        rw [ha r hr, hb r hr, add_zero]
      zero_mem' := fun r _ => rfl
      smul_mem' := fun c x hx r hr => by
        show c * x r = 0
        rw [hx r hr, mul_zero] }
  have hV : ∀ x ∈ V, W.mulVec x ∈ V := fun x hx r hr => by
    show ∑ c, W r c * x c = 0
    refine sum_eq_zero fun c _ => ?_
    by_cases hc : c.val ≤ i
    · rw [hz r c hr hc, zero_mul]
    · rw [hx c (by omega), mul_zero]
  refine ⟨V.map P.mulVecLin, ?_, ?_, ?_⟩
  · refine ⟨fun r => if r.val = 0 then 1 else 0, fun r hr => if_neg (by omega), ?_⟩
    funext r
    show ∑ c, P r c * (if c.val = 0 then 1 else 0) = _
    rw [sum_eq_single ⟨0, hn⟩]
    · rw [h1]; simp
    · intro b _ hb
      rw [if_neg (fun h => hb (Fin.ext h)), mul_zero]
    · intro h
      exact absurd (mem_univ _) h
  · rintro _ ⟨x, hx, rfl⟩
    refine ⟨W.mulVec x, hV x hx, ?_⟩
    show P.mulVec (W.mulVec x) = A.mulVec (P.mulVec x)
    rw [Matrix.mulVec_mulVec, Matrix.mulVec_mulVec, hW, ← Matrix.mul_assoc, ← Matrix.mul_assoc, hP', Matrix.one_mul]
  · intro htop
    have hl : (fun r : Fin n => if r.val = n - 1 then (1 : K) else 0) ∈ V := by
      have : P.mulVec (fun r : Fin n => if r.val = n - 1 then (1 : K) else 0) ∈ V.map P.mulVecLin := by rw [htop]; trivial
      obtain ⟨y, hy, he⟩ := this
      have : P.transpose.mulVec (P.mulVec y) = P.transpose.mulVec (P.mulVec fun r : Fin n => if r.val = n - 1 then (1 : K) else 0) := by
        rw [show P.mulVec y = _ from he]
      rw [Matrix.mulVec_mulVec, Matrix.mulVec_mulVec, hP, Matrix.one_mulVec, Matrix.one_mulVec] at this
      rw [← this]
      exact hy
    have := hl ⟨n - 1, by omega⟩ (by show i < n - 1; omega)
    simp at this

/-- The reduction to tridiagonal form. -/
theorem tri_loop {sqrt : K → K} (hs : IsSqrt sqrt) {n : Nat} (hn : 1 < n) {T v tau : Buf K} (hT : T.len = n * n) (hv : v.len = n - 1) (ht : tau.len = n - 1)
    (hsym : (asMat T n n).transpose = asMat T n n) :
    (loop (n - 1) (triStep sqrt n) ⟨T, v, tau⟩ = .ub ∧ Degenerate (asMat T n n)) ∨
      ∃ s, loop (n - 1) (triStep sqrt n) ⟨T, v, tau⟩ = .ok s ∧ TriInv (asMat T n n) (n - 1) s := by
  refine loop_inv_ub (I := fun i s => TriInv (asMat T n n) i s) (Bad := Degenerate (asMat T n n)) ⟨hT, hv, ht, fun k hk => by omega, fun k hk => by omega, ?_⟩ ?_
  · simp only [prodS, Matrix.transpose_one, Matrix.one_mul, Matrix.mul_one]
    ext r c
    exact if_neg (by omega)
  · intro i hi s hI
    have horth := prodS_orth hI.self
    have hsymW : (workT s.T n i).transpose = workT s.T n i := by
      rw [hI.eq, Matrix.transpose_mul, Matrix.transpose_mul, Matrix.transpose_transpose, hsym, ← Matrix.mul_assoc]
    by_cases hcol : i + 2 < n → ∃ k, i < k ∧ k < n ∧ s.T.val (i + n * k) ≠ 0
    · obtain ⟨s', e, h1, h2, h3, h4, h5, h6, h7, h8⟩ := triStep_ok hs (by omega) hI.lT hI.lv hI.lt hsymW hcol
      clear hcol
      have hh : ∀ k < i, houseS s'.T s'.tau n k = houseS s.T s.tau n k := fun k hk => houseS_congr (h4 k (by omega)) fun r hr => h7 r hr k hk
      have hp : prodS s'.T s'.tau n i = prodS s.T s.tau n i := prodS_congr (fun k hk => h4 k (by omega)) fun r hr c hc => h7 r hr c hc
      refine .inr ⟨s', e, h1, h2, h3, fun k hk => ?_, fun k hk => ?_, ?_⟩
      · by_cases hki : k = i
        · rw [hki]; exact h5
        · rw [h4 k hki]; exact hI.pos k (by omega)
      · by_cases hki : k = i
        · rw [hki]; exact refl_self h6
        · rw [hh k (by omega)]; exact hI.self k (by omega)
      · rw [h8, hI.eq, prodS, hp, Matrix.transpose_mul, show (houseS s'.T s'.tau n i).transpose = houseS s'.T s'.tau n i from refl_transpose _ _]
        simp only [Matrix.mul_assoc]
        rfl
    · push Not at hcol
      obtain ⟨hin, hz⟩ := hcol
      refine .inl ⟨triStep_ub hs hin hI.lT hI.lv fun k h h' => hz k h h', ?_⟩
      refine degenerate_of (i := i) horth hI.eq (by omega) (prodS_first (by omega)) (by omega) fun r c hr hc => ?_
      by_cases hci : c.val = i
      · show (if _ then _ else _) = _
        rw [if_neg (by omega), hci]
        exact hz r hr r.isLt
      · exact if_pos ⟨by omega, by omega⟩

/-! ## Backwards accumulation -/

theorem backStep_ok {n i : Nat} {mat : Buf K} {s : Tri K} (hi : i + 1 < n) (hm : mat.len = n * n) (hT : s.T.len = n * n) (hv : s.v.len = n - 1) (ht : s.tau.len = n - 1)
    (hpos : 0 < s.tau.val i) (hid : ∀ r c : Fin n, r.val ≤ i + 1 ∨ c.val ≤ i + 1 → asMat mat n n r c = if r = c then 1 else 0) :
    ∃ mat' s', backStep n i (mat, s) = .ok (mat', s') ∧ mat'.len = n * n ∧ s'.T.len = n * n ∧ s'.v.len = n - 1 ∧ s'.tau = s.tau ∧
      asMat mat' n n = houseS s.T s.tau n i * asMat mat n n ∧
      (∀ r < n, ∀ c < n, s'.T.val (c + n * r) = if c = i ∧ i + 1 < r then 0 else s.T.val (c + n * r)) ∧
      ∀ r c : Fin n, r.val ≤ i ∨ c.val ≤ i → asMat mat' n n r c = if r = c then 1 else 0 := by
  obtain ⟨w, e, h1, h2, h3, h4⟩ := loop_inv (n := n - 1 - (i + 1)) (body := fun j' (s : Buf K × Buf K) => do
      let x ← s.2.rd (i + n * (i + 1 + j' + 1))
      let v ← s.1.wr (i + 1 + j') x
      let T ← s.2.wr (i + n * (i + 1 + j' + 1)) 0
      .ok (v, T)) (s := (⟨s.v.len, fun j => if j = i then 1 else s.v.val j⟩, s.T))
    (fun t w => w.1.len = n - 1 ∧ w.2.len = n * n ∧ (∀ k, i < k → k < i + 1 + t → w.1.val k = s.T.val (i + n * (k + 1))) ∧
      ∀ r < n, ∀ c < n, w.2.val (c + n * r) = if c = i ∧ i + 1 < r ∧ r < i + 2 + t then 0 else s.T.val (c + n * r))
    ⟨hv, hT, fun k h h' => by omega, fun r _ c _ => by rw [if_neg (by omega)]⟩ (by
      intro t ht w ⟨h1, h2, h3, h4⟩
      have l : i + n * (i + 1 + t + 1) < w.2.len := h2 ▸ idx_lt (by omega) (by omega)
      refine ⟨_, by rw [Buf.rd_lt l, Res.bind_ok, Buf.wr_lt (by omega), Res.bind_ok, Buf.wr_lt l, Res.bind_ok], by exact h1, by exact h2, ?_, ?_⟩
      · intro k h h'
        simp only
        by_cases hk : k = i + 1 + t
        · rw [if_pos hk, h4 _ (by omega) _ (by omega), if_neg (by omega), hk]
        · rw [if_neg hk, h3 k h (by omega)]
      · intro r hr c hc
        simp only
        by_cases ha : c + n * r = i + n * (i + 1 + t + 1)
        · have := idx_inj hc (by omega) ha
          rw [if_pos ha, if_pos (by omega)]
        · have ha' : ¬ (c = i ∧ r = i + 1 + t + 1) := fun ⟨h, h'⟩ => ha (by rw [h, h'])
          rw [if_neg ha, h4 r hr c hc]
          refine if_congr ?_ rfl rfl
          omega)
  obtain ⟨v', T'⟩ := w
  simp only at h1 h2 h3 h4
  obtain ⟨m', e', hl, hm1, hm2⟩ := reflect_rows (v := v') (s.tau.val i) hm hi h1
  have hu : ∀ r : Fin n, uvT v' i r = uS s.T n i r := fun r => by
    have := r.isLt
    unfold uvT uS hvec
    by_cases a1 : r.val ≤ i
    · rw [if_pos a1, if_pos a1]
    · rw [if_neg a1, if_neg a1]
      by_cases a2 : r.val = i + 1
      · rw [if_pos (by omega), if_pos a2]
      · rw [if_neg (by omega), if_neg a2, h3 _ (by omega) (by omega), show i + (r.val - (i + 1)) + 1 = r.val by omega]
  have hu0 : ∀ r : Fin n, r.val ≤ i → uS s.T n i r = 0 := fun r h => if_pos h
  have hid1 : ∀ r c : Fin n, r.val ≤ i ∨ c.val ≤ i → asMat m' n n r c = if r = c then 1 else 0 := fun r c h => by
    show m'.val (c + n * r) = _
    rw [hm2 r r.isLt c c.isLt h]
    exact hid r c (by omega)
  refine ⟨m', ⟨T', v', s.tau⟩, ?_, hl, h2, h1, rfl, ?_, fun r hr c hc => ?_, hid1⟩
  · unfold backStep
    simp only
    rw [Buf.rd_lt (by omega), Res.bind_ok, if_pos hpos, Buf.wr_lt (by omega), Res.bind_ok, e, Res.bind_ok]
    simp only
    rw [e', Res.bind_ok]
  · ext r c
    unfold houseS
    rw [refl_mul]
    by_cases hc : c.val ≤ i
    · rw [hid1 r c (.inr hc), hid r c (.inr (by omega)), sum_eq_zero fun k _ => ?_]
      · ring
      · rw [hid k c (.inr (by omega))]
        by_cases hk : k = c
        · rw [hk, hu0 c hc, zero_mul]
        · rw [if_neg hk, mul_zero]
    · show m'.val (c + n * r) = _
      rw [hm1 r r.isLt c c.isLt (by omega), hu r, sum_congr rfl fun k _ => by rw [hu k]]
      rfl
  · show T'.val _ = _
    rw [h4 r hr c hc]
    refine if_congr ?_ rfl rfl
    omega

/-- After the accumulation, the matrix of eigenvectors is the product of the reflections, and the vectors have gone. -/
theorem back_loop {n : Nat} (hn : 1 < n) {A : Matrix (Fin n) (Fin n) K} {mat : Buf K} {s : Tri K} (hs : TriInv A (n - 1) s) (hm : mat.len = n * n) (hid : asMat mat n n = 1) :
    ∃ mat' s', loop (n - 1) (fun t s => backStep n (n - 2 - t) s) (mat, s) = .ok (mat', s') ∧ mat'.len = n * n ∧ s'.T.len = n * n ∧
      (asMat mat' n n).transpose * asMat mat' n n = 1 ∧ asMat s'.T n n = (asMat mat' n n).transpose * A * asMat mat' n n ∧
      ∀ r c : Fin n, c.val + 1 < r.val → asMat s'.T n n r c = 0 := by
  obtain ⟨⟨m', s'⟩, e, h1, h2, h3, h4, h5, h6, h7⟩ := loop_inv (n := n - 1) (body := fun t s => backStep n (n - 2 - t) s) (s := (mat, s))
    (fun t w => w.1.len = n * n ∧ w.2.T.len = n * n ∧ w.2.v.len = n - 1 ∧ w.2.tau = s.tau ∧
      prodS s.T s.tau n (n - 1 - t) * asMat w.1 n n = prodS s.T s.tau n (n - 1) ∧
      (∀ r < n, ∀ c < n, w.2.T.val (c + n * r) = if n - 1 - t ≤ c ∧ c + 1 < r then 0 else s.T.val (c + n * r)) ∧
      ∀ r c : Fin n, r.val ≤ n - 1 - t ∨ c.val ≤ n - 1 - t → asMat w.1 n n r c = if r = c then 1 else 0)
    ⟨hm, hs.lT, hs.lv, rfl, by simp [hid], fun r hr c hc => by rw [if_neg (by omega)], fun r c _ => by
      rw [hid, Matrix.one_apply]⟩ (by
      intro t ht w ⟨h1, h2, h3, h4, h5, h6, h7⟩
      obtain ⟨m', s', e, a1, a2, a3, a4, a5, a6, a7⟩ := backStep_ok (n := n) (i := n - 2 - t) (mat := w.1) (s := w.2) (by omega) h1 h2 h3 (h4 ▸ hs.lt)
        (h4 ▸ hs.pos _ (by omega)) fun r c h => h7 r c (by omega)
      refine ⟨(m', s'), e, a1, a2, a3, a4.trans h4, ?_, fun r hr c hc => ?_, fun r c h => a7 r c (by omega)⟩
      · have hh : houseS w.2.T w.2.tau n (n - 2 - t) = houseS s.T s.tau n (n - 2 - t) := houseS_congr (by rw [h4]) fun r hr => by
          rw [h6 r hr _ (by omega), if_neg (by omega)]
        rw [a5, hh, ← Matrix.mul_assoc, show n - 1 - (t + 1) = n - 2 - t by omega]
        have : prodS s.T s.tau n (n - 1 - t) = prodS s.T s.tau n (n - 2 - t) * houseS s.T s.tau n (n - 2 - t) := by
          rw [show n - 1 - t = n - 2 - t + 1 by omega]; rfl
        rw [← this]
        exact h5
      · rw [a6 r hr c hc, h6 r hr c hc]
        by_cases hx : c = n - 2 - t ∧ n - 2 - t + 1 < r
        · rw [if_pos hx, if_pos (by omega)]
        · rw [if_neg hx]
          refine if_congr ?_ rfl rfl
          omega)
  simp only [Nat.sub_self, prodS, Matrix.one_mul] at h5
  have hT : asMat s'.T n n = workT s.T n (n - 1) := by
    ext r c
    show s'.T.val (c + n * r) = _
    rw [h6 r r.isLt c c.isLt]
    refine if_congr ?_ rfl rfl
    have := r.isLt
    omega
  refine ⟨m', s', e, h1, h2, ?_, ?_, fun r c h => ?_⟩
  · rw [h5]; exact prodS_orth hs.self
  · rw [hT, hs.eq, h5]
  · rw [hT]
    have := r.isLt
    exact if_pos ⟨by omega, h⟩

end Basis
end Verif
