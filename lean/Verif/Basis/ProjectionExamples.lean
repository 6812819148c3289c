import Verif.Basis.ProjectionProps

/-!
# Projection bases (C57): Lagrange bases, cases that meet the hypotheses, counterexamples
-/

namespace Verif
namespace Basis

open Finset Restriction

set_option linter.unusedSectionVars false

variable {K : Type} [Field K] [LinearOrder K] [IsStrictOrderedRing K]

theorem separates_of {R P : Nat} {m : Buf K} (h : Independent (asMat m R P)) : Separates R P (fun r n => m.val (r * P + n)) := by
  intro y hy n hn
  have := h (fun j => y j.1) (by
    funext r
    refine Eq.trans ?_ (hy r.1 r.2)
    rw [← Fin.sum_univ_eq_sum_range (fun n => m.val (r.1 * P + n) * y n)]
    simp only [Matrix.mulVec, dotProduct, asMat]
    exact Fintype.sum_congr _ _ fun j => by rw [show r.1 * P + j.1 = j.1 + P * r.1 by ring])
  exact congrFun this ⟨n, hn⟩

theorem lagrange_dims {near : K → Bool} {collo : Nat → Nat → Buf K → Buf K → Res (Buf K)} {quad : Quad K} {dim nc P Q : Nat} {mode : QuadMode}
    {b : Bas K} (h : createLagrange near collo quad dim nc P Q mode = .ok (some b)) : b.dim = dim ∧ b.nc = nc ∧ b.P1 = P ∧ b.Q1 = Q := by
  unfold createLagrange at h
  simp only [Res.bind_eq_ok, Res.check_eq_ok] at h
  obtain ⟨_, _, _, _, _, _, _, _, h⟩ := h
  split at h
  · obtain ⟨⟨I, G⟩, _, h⟩ := Res.bind_eq_ok.1 h
    obtain ⟨b', e, h⟩ := Res.bind_eq_ok.1 h
    injection h with h
    injection h with h
    subst h
    exact create_dims e
  · injection h with h; cases h

/-- C57: prolongation between Lagrange bases. For bases made by `CeedBasisCreateTensorH1Lagrange` with the same dimension,
components and quadrature, `2 ≤ Pf ≤ Pt ≤ Q` nodes and points per direction, all distinct, the projection from the basis with fewer nodes
to the one with more is created, and node values sent through it have at the quadrature points the interpolation they had. -/
theorem C57_lagrange {env : PEnv K} (hsq : IsSqrt env.sqrt) (htiny : ∀ x, env.tiny x = true → x = 0) (hnear : ∀ x, env.near x = true → x = 0)
    {quad : Quad K} (hsz : quad.Sized) {dim nc Pf Pt Q : Nat} {mode : QuadMode} (hdim : 0 < dim) (hnc : 0 < nc) (hPf : 2 ≤ Pf) (hle : Pf ≤ Pt)
    (hQ : Pt ≤ Q) {qref w : Buf K} (hr : quad.rule mode Q = .ok (qref, w)) (hdf : Distinct (quad.lobatto Pf).1 Pf)
    (hdt : Distinct (quad.lobatto Pt).1 Pt) (hdq : Distinct qref Q) :
    ∃ from_ to_ b, createLagrange env.near (collocatedGrad env.sqrt env.v0 env.v1) quad dim nc Pf Q mode = .ok (some from_) ∧
      createLagrange env.near (collocatedGrad env.sqrt env.v0 env.v1) quad dim nc Pt Q mode = .ok (some to_) ∧
      createProjection env from_ to_ = .ok b ∧
      ∀ (junk : Nat → Nat → K) (ne : Nat) (u v w : Buf K),
        ne * nc * Pf ^ dim ≤ u.len → ne * nc * Pt ^ dim ≤ v.len → ne * Q ^ dim * nc ≤ w.len →
        ∃ v' w' w'', apply b junk ne .noTranspose .interp (some u) v = .ok v' ∧
          apply to_ junk ne .noTranspose .interp (some v') w = .ok w' ∧ apply from_ junk ne .noTranspose .interp (some u) w = .ok w'' ∧
          ∀ k < nc, ∀ q < Q ^ dim, ∀ e < ne,
            w'.val (nodePos (Q ^ dim) ne k q e) = w''.val (nodePos (Q ^ dim) ne k q e) := by
  obtain ⟨from_, iF, gF, e1, f1, t1⟩ := C26_usable_partial hsq env.v0 env.v1 hnear hsz hdim hnc hPf (show 1 ≤ Q by omega) hr hdf hdq
  obtain ⟨to_, iT, gT, e2, f2, t2⟩ := C26_usable_partial hsq env.v0 env.v1 hnear hsz hdim hnc (show 2 ≤ Pt by omega) (show 1 ≤ Q by omega) hr hdt hdq
  obtain ⟨d1, n1, p1, q1⟩ := lagrange_dims e1
  obtain ⟨d2, n2, p2, q2⟩ := lagrange_dims e2
  obtain ⟨fT, _⟩ := tensorOK_of t1
  obtain ⟨tT, _⟩ := tensorOK_of t2
  have hlen : Q ≤ qref.len := by
    cases mode with
    | gauss =>
      simp only [Quad.rule, Res.ok.injEq] at hr
      have := (hsz Q).1
      rw [hr] at this
      exact this.ge
    | gaussLobatto =>
      simp only [Quad.rule, Quad.lobattoRule] at hr
      split at hr
      · simp only [Res.ok.injEq] at hr
        have := (hsz Q).2.2.1
        rw [hr] at this
        exact this.ge
      · cases hr
  have sT := separates_of (C26_independent (by omega) hQ (by rw [(hsz Pt).2.2.1]) hlen hdt hdq f2)
  have sF := separates_of (C26_independent (by omega) (by omega) (by rw [(hsz Pf).2.2.1]) hlen hdf hdq f1)
  have hcon : Contains Q Pf Pt (fun r p => iF.val (r * Pf + p)) (fun r n => iT.val (r * Pt + n)) := by
    intro x
    have hinj : Set.InjOn (quad.lobatto Pf).1.val (range Pf : Set Nat) := by
      intro a ha b hb hab
      simp only [coe_range, Set.mem_Iio] at ha hb
      exact hdf a ha b hb hab
    let p : Polynomial K := Lagrange.interpolate (range Pf) (quad.lobatto Pf).1.val x
    have hdeg : p.degree < Pf := by
      have := Lagrange.degree_interpolate_lt (r := x) hinj
      rwa [card_range] at this
    refine ⟨fun n => p.eval ((quad.lobatto Pt).1.val n), fun r hr' => ?_⟩
    have h1 := (C26_reproduces (by omega) (by rw [(hsz Pt).2.2.1]) hlen hdt f2 (lt_of_lt_of_le hdeg (by exact_mod_cast hle)) hr').1
    have h2 := (C26_reproduces (by omega) (by rw [(hsz Pf).2.2.1]) hlen hdf f1 hdeg hr').1
    refine h1.trans (h2.symm.trans (sum_congr rfl fun m hm => ?_))
    rw [Lagrange.eval_interpolate_at_node x hinj hm]
  subst d1 n1 p1 q1
  obtain ⟨b, eb, hb⟩ := C57_exact_tensor hsq htiny hnear t1 t2 d2 q2 n2 (by rw [p2, q2]; exact sT) (by rw [q2]; exact sF)
    (by rw [p2, q2]; exact hcon)
  refine ⟨from_, to_, b, e1, e2, eb, fun junk ne u v w hu hv hw => ?_⟩
  have hqc : to_.qComp .interp = 1 := by simp [Bas.qComp, tT.h1]
  have tQ : to_.Q = from_.Q1 ^ from_.dim := by rw [tT.hQ, q2, d2]
  obtain ⟨v', w', w'', a1, a2, a3, a4⟩ := hb junk ne u v w (by rw [fT.hP]; exact hu) (by rw [tT.hP, n2, p2, d2]; exact hv)
    (by rw [hqc, tQ, n2, Nat.mul_one]; exact hw)
  refine ⟨v', w', w'', a1, a2, a3, fun k hk q hq e he => ?_⟩
  have := a4 0 (by omega) k (by rw [n2]; exact hk) q (by rw [tQ]; exact hq) e he
  simpa only [quadPos, nodePos, Nat.zero_mul, Nat.zero_add, tQ, fT.hQ] using this

/-! ## Cases that meet the hypotheses -/

/-- Real numbers, exact comparisons. -/
noncomputable def pjEnv : PEnv ℝ := ⟨Real.sqrt, fun x => decide (x = 0), fun x => decide (x = 0), fun _ => 7, fun _ => 8⟩

theorem pjEnv_sqrt : IsSqrt pjEnv.sqrt := fun x hx => ⟨Real.sqrt_nonneg x, Real.mul_self_sqrt hx⟩

/-- Nodes `0, 1, 2, …` and points `0, 1, 2, …`. -/
noncomputable def pjLine : Quad ℝ :=
  ⟨fun P => (⟨P, fun i => (i : ℝ)⟩, ⟨P, fun _ => 1⟩), fun P => (⟨P, fun i => (i : ℝ)⟩, ⟨P, fun _ => 1⟩)⟩

/-- The hypotheses of `C57_lagrange` (and with them those of `C57_exact_tensor` and `C57_tensor`) are met: from 2 to 3 nodes
in two dimensions, three points. -/
example : ∃ from_ to_ b, createLagrange pjEnv.near (collocatedGrad pjEnv.sqrt pjEnv.v0 pjEnv.v1) pjLine (2 : Nat) (1 : Nat) (2 : Nat) (3 : Nat) .gauss =
      .ok (some from_) ∧
    createLagrange pjEnv.near (collocatedGrad pjEnv.sqrt pjEnv.v0 pjEnv.v1) pjLine (2 : Nat) (1 : Nat) (3 : Nat) (3 : Nat) .gauss = .ok (some to_) ∧
    createProjection pjEnv from_ to_ = .ok b := by
  have hd : ∀ P, Distinct (⟨P, fun i => (i : ℝ)⟩ : Buf ℝ) P := fun P a _ b _ h => by
    have h : (a : ℝ) = b := h
    exact_mod_cast h
  obtain ⟨f, t, b, e1, e2, e3, _⟩ := C57_lagrange (env := pjEnv) pjEnv_sqrt (fun x h => by simpa [pjEnv] using h)
    (fun x h => by simpa [pjEnv] using h) (quad := pjLine) (fun _ => ⟨rfl, rfl, rfl, rfl⟩) (dim := 2) (nc := 1) (Pf := 2) (Pt := 3) (Q := 3)
    (mode := .gauss) (by omega) (by omega) (by omega) (by omega) (by omega) rfl (hd 2) (hd 3) (hd 3)
  exact ⟨f, t, b, e1, e2, e3⟩

/-- The hypotheses of `C57_nontensor` and `C57_exact_nontensor` are met: `H(div)` bases in two dimensions with one point; one node
projected to two. -/
example : ∃ from_ to_ b : Bas ℝ,
    createNonTensor .hdiv 2 1 1 1 ⟨2, fun _ => 1⟩ ⟨1, fun _ => 0⟩ ⟨1, fun _ => 1⟩ = .ok from_ ∧
    createNonTensor .hdiv 2 1 2 1 ⟨4, fun i => if i = 0 ∨ i = 3 then 1 else 0⟩ ⟨2, fun _ => 0⟩ ⟨1, fun _ => 1⟩ = .ok to_ ∧
    createProjection pjEnv from_ to_ = .ok b ∧ b.nc = 1 ∧ b.P = 1 ∧ b.Q = 2 := by
  obtain ⟨b, _, e, _, _, _, h1, h2, h3, _⟩ := C57_nontensor (env := pjEnv) pjEnv_sqrt (fun x h => by simpa [pjEnv] using h)
    (from_ := ⟨false, false, 2, 1, 0, 0, 1, 1, ⟨0, fun _ => 0⟩, ⟨0, fun _ => 0⟩, ⟨1, fun _ => 1⟩, some ⟨2, fun _ => 1⟩, none,
      some ⟨1, fun _ => 0⟩, none, false, none⟩)
    (to_ := ⟨false, false, 2, 1, 0, 0, 2, 1, ⟨0, fun _ => 0⟩, ⟨0, fun _ => 0⟩, ⟨1, fun _ => 1⟩,
      some ⟨4, fun i => if i = 0 ∨ i = 3 then 1 else 0⟩, none, some ⟨2, fun _ => 0⟩, none, false, none⟩)
    (Or.inr ⟨.hdiv, ⟨2, fun _ => 1⟩, ⟨1, fun _ => 0⟩, ⟨1, fun _ => 1⟩, 2, 1, 1, 1, rfl⟩)
    (Or.inr ⟨.hdiv, ⟨4, fun i => if i = 0 ∨ i = 3 then 1 else 0⟩, ⟨2, fun _ => 0⟩, ⟨1, fun _ => 1⟩, 2, 1, 2, 1, rfl⟩)
    (by simp) rfl rfl (fun _ => rfl) rfl (by
      intro y hy n hn
      simp only [Bas.rows, Bas.qComp] at hy
      have h0 := hy 0 (by decide)
      have h1 := hy 1 (by decide)
      simp [sum_range_succ] at h0 h1
      have hn : n < 2 := hn
      interval_cases n
      · exact h0
      · exact h1)
  exact ⟨_, _, b, rfl, rfl, e, h1, h2, h3⟩

/-! ## Where the requirements fail -/

/-- Rationals; square roots of squares. -/
def pjEnvQ : PEnv ℚ := ⟨exSqrt, fun x => decide (x = 0), fun x => decide (x = 0), fun _ => 7, fun _ => 8⟩

/-- Two tensor bases with four quadrature points: two directions with two points, and one direction with four. -/
def pjTwo : Res (Bas ℚ) := createTensorH1 pjEnvQ.near (collocatedGrad exSqrt (fun _ => 7) fun _ => 8) 2 1 2 2
  (Buf.ofList [1, 0, 0, 1]) (Buf.ofList [-1, 1, -1, 1]) (Buf.ofList [1, 1])
def pjOne : Res (Bas ℚ) := createTensorH1 pjEnvQ.near (collocatedGrad exSqrt (fun _ => 7) fun _ => 8) 1 1 1 4
  (Buf.ofList [1, 1, 1, 1]) (Buf.ofList [0, 0, 0, 0]) (Buf.ofList [1, 1, 1, 1])

/-- C57 needs more than the check of the code: bases with the same number of quadrature points but of different dimension are
accepted; the basis made for four nodes expects two. -/
theorem C57_dimension_witness : ∃ from_ to_ b, pjTwo = .ok from_ ∧ pjOne = .ok to_ ∧ to_.Q = from_.Q ∧
    createProjection pjEnvQ from_ to_ = .ok b ∧ from_.P = 4 ∧ b.P = 2 := by
  have h : (match pjTwo, pjOne with
    | .ok f, .ok t => (match createProjection pjEnvQ f t with | .ok b => decide (t.Q = f.Q ∧ f.P = 4 ∧ b.P = 2) | _ => false)
    | _, _ => false) = true := by decide +kernel
  split at h
  · next f t e1 e2 =>
    split at h
    · next b e3 =>
      obtain ⟨h1, h2, h3⟩ := of_decide_eq_true h
      exact ⟨f, t, b, e1, e2, h1, e3, h2, h3⟩
    · cases h
  · cases h

/-- In the other direction the 1D matrix is read outside its array. -/
theorem C57_outside_witness : ∃ from_ to_, pjOne = .ok from_ ∧ pjTwo = .ok to_ ∧ to_.Q = from_.Q ∧
    createProjection pjEnvQ from_ to_ = .ub := by
  have h : (match pjOne, pjTwo with
    | .ok f, .ok t => (match createProjection pjEnvQ f t with | .ub => decide (t.Q = f.Q) | _ => false)
    | _, _ => false) = true := by decide +kernel
  split at h
  · next f t e1 e2 =>
    split at h
    · next e3 => exact ⟨f, t, e1, e2, of_decide_eq_true h, e3⟩
    · cases h
  · cases h

/-- One function, with the values `1, 1, -1, -1` at the points; orthogonal to the constants of `pjOne`. -/
def pjOdd : Res (Bas ℚ) := createTensorH1 pjEnvQ.near (collocatedGrad exSqrt (fun _ => 7) fun _ => 8) 1 1 1 4
  (Buf.ofList [1, 1, -1, -1]) (Buf.ofList [0, 0, 0, 0]) (Buf.ofList [1, 1, 1, 1])

/-- C57 needs its hypothesis on orthogonal functions: the projection is zero and the creation of a tensor basis with it divides by
zero (`C27_singular_witness`). -/
theorem C57_orthogonal_witness : ∃ from_ to_, pjOdd = .ok from_ ∧ pjOne = .ok to_ ∧ to_.Q1 = from_.Q1 ∧ to_.dim = from_.dim ∧
    createProjection pjEnvQ from_ to_ = .ub := by
  have h : (match pjOdd, pjOne with
    | .ok f, .ok t => (match createProjection pjEnvQ f t with | .ub => decide (t.Q1 = f.Q1 ∧ t.dim = f.dim) | _ => false)
    | _, _ => false) = true := by decide +kernel
  split at h
  · next f t e1 e2 =>
    split at h
    · next e3 =>
      obtain ⟨h1, h2⟩ := of_decide_eq_true h
      exact ⟨f, t, e1, e2, h1, h2, e3⟩
    · cases h
  · cases h

end Basis
end Verif
