import Verif.Basis.PointsState

/-!
# Evaluation at arbitrary points (C25)
-/

namespace Verif
namespace Basis

open Finset Polynomial
open Restriction (TMode)

set_option linter.unusedSectionVars false

variable {K : Type} [Field K] [LinearOrder K] [IsStrictOrderedRing K]

local notation "U" => Chebyshev.U K

variable {s0 s : PBas K} {i1 g1 w q : Buf K}

/-- The shape functions exist and are unique. -/
theorem C25_shapes_exist (h0 : Fresh s0 i1 g1 w q) : ∃ phi, Shape q i1 s0.bas.P1 s0.bas.Q1 phi ∧
    ∀ phi', Shape q i1 s0.bas.P1 s0.bas.Q1 phi' → ∀ n < s0.bas.P1, phi' n = phi n := by
  refine ⟨fun n => Lagrange.interpolate (range s0.bas.Q1) q.val (fun i => i1.val (i * s0.bas.P1 + n)), ?_, ?_⟩
  · intro n hn
    have hinj : Set.InjOn q.val (range s0.bas.Q1) := fun i hi j hj e => h0.distinct i (mem_range.1 hi) j (mem_range.1 hj) e
    refine ⟨?_, fun i hi => Lagrange.eval_interpolate_at_node _ hinj (mem_range.2 hi)⟩
    have := Lagrange.degree_interpolate_lt (fun i => i1.val (i * s0.bas.P1 + n)) hinj
    rwa [card_range] at this
  · intro phi' h n hn
    have hinj : Set.InjOn q.val (range s0.bas.Q1) := fun i hi j hj e => h0.distinct i (mem_range.1 hi) j (mem_range.1 hj) e
    refine poly_unique h0.distinct (h n hn).1 ?_ ?_
    · have := Lagrange.degree_interpolate_lt (fun i => i1.val (i * s0.bas.P1 + n)) hinj
      rwa [card_range] at this
    · intro i hi
      rw [(h n hn).2 i hi, Lagrange.eval_interpolate_at_node _ hinj (mem_range.2 hi)]

/-- C25: after any history, `CeedBasisApplyAtPoints` without transpose succeeds on vectors of the documented lengths and stores, for every
component and every point (any number, also none), the value at this point of the sum of the shape functions times the node values, or
its derivative in every direction; the rest of the vector is unchanged. -/
theorem C25_evaluates_partial (h0 : Fresh s0 i1 g1 w q) (hs : Used s0 s) {phi : Nat → K[X]} (hphi : Shape q i1 s0.bas.P1 s0.bas.Q1 phi)
    {en : Env K} (hen : Exact en) {em : EMode} (hem : em = .interp ∨ em = .grad) {np : Buf Nat} (hnp : 0 < np.len) {x u v : Buf K}
    (hx : np.val 0 * s0.bas.dim ≤ x.len) (hu : s0.bas.nc * s0.bas.P ≤ u.len) (hv : np.val 0 * s0.bas.nc * s0.bas.qComp em ≤ v.len) :
    ∃ s' v', applyAtPoints en 1 np .noTranspose em (some x) (some u) v s = .ok s' v' ∧ v'.len = v.len ∧
      (∀ k < s0.bas.qComp em, ∀ c < s0.bas.nc, ∀ p < np.val 0, v'.val (pointPos s0.bas.nc (np.val 0) k c p) =
        ∑ n ∈ range s0.bas.P, u.val (c * s0.bas.P + n) * shapeAt s0.bas phi em (np.val 0) x k p n) ∧
      ∀ i, np.val 0 * s0.bas.nc * s0.bas.qComp em ≤ i → v'.val i = v.val i := by
  have h := used_inv h0 hs
  obtain ⟨hT, _⟩ := tensorOK_of h0.basis
  obtain ⟨s1, c, e1, h1, hc, hco⟩ := ensureCheb_ok hen h0 h
  obtain ⟨ci, co, hci, e2, hlen, hval⟩ := cheb_nt hco hT.hP en.junk hu
  obtain ⟨s2, e3, h2⟩ := setCoefs_ok h1 hc hlen
  obtain ⟨v', e4, g1, g2, g3⟩ := toPoints_ok hem hT.h1 en.junkP hT.dim h0.two hx (co := co) (by omega) hv
  refine ⟨s2, v', ?_, g1, ?_, g3⟩
  · have hw : em ≠ .weight := by rcases hem with rfl | rfl <;> simp
    unfold applyAtPoints
    rw [M.bind_apply, h.bas, checkDims_nt hem hnp hx hu, M.lift_ok, Out.bind_ok]
    unfold corePoints
    rw [M.bind_apply, Buf.rd_lt hnp, M.lift_ok, Out.bind_ok, h.bas, M.bind_apply, M.check_true hT.dim, Out.bind_ok, M.bind_apply,
      M.check_true hT.tensor, Out.bind_ok, M.bind_apply, M.check_true rfl, Out.bind_ok, if_neg hw, M.bind_apply, e1, Out.bind_ok]
    simp only
    rw [M.bind_apply, e2, M.lift_ok, Out.bind_ok, M.bind_apply, e3, Out.bind_ok, M.bind_apply]
    unfold readArray
    simp only
    rw [M.lift_ok, Out.bind_ok, e4, M.lift_ok]
  · intro k hk c hc p hp
    rw [g2 k hk c hc p hp]
    calc ∑ l ∈ range (s0.bas.Q1 ^ s0.bas.dim), wU s0.bas (np.val 0) x (along em k) p l * co.val (c * s0.bas.Q1 ^ s0.bas.dim + l)
        = ∑ l ∈ range (s0.bas.Q1 ^ s0.bas.dim), ∑ n ∈ range s0.bas.P, u.val (c * s0.bas.P + n) *
            (wU s0.bas (np.val 0) x (along em k) p l *
              ∏ d ∈ range s0.bas.dim, ci.val (coord s0.bas.Q1 d l * s0.bas.P1 + coord s0.bas.P1 d n)) := by
          refine sum_congr rfl fun l hl => ?_
          rw [hval c hc l (mem_range.1 hl), mul_sum]
          refine sum_congr rfl fun n _ => ?_
          ring
      _ = _ := by
          rw [sum_comm]
          refine sum_congr rfl fun n _ => ?_
          rw [← mul_sum, hci.shapeAt h0.distinct hphi hT.P1 hT.Q1]

/-- The run of a transposed call, up to the coefficients. -/
theorem transposed_run (h0 : Fresh s0 i1 g1 w q) (hs : Used s0 s) {en : Env K} (hen : Exact en) {em : EMode} (hem : em = .interp ∨ em = .grad)
    {np : Buf Nat} (hnp : 0 < np.len) {x u : Buf K} (hx : np.val 0 * s0.bas.dim ≤ x.len)
    (hu : np.val 0 * s0.bas.nc * s0.bas.qComp em ≤ u.len) :
    ∃ s1 s2 c co, ensureCheb en s = .ok s1 c ∧ ChebOK s0.bas q i1 c ∧ co.len = s0.bas.coefs ∧
      (0 < np.val 0 → ∀ k < s0.bas.nc, ∀ l < s0.bas.Q1 ^ s0.bas.dim, co.val (k * s0.bas.Q1 ^ s0.bas.dim + l) =
        ∑ p ∈ range (np.val 0), ∑ j ∈ range (s0.bas.qComp em), wU s0.bas (np.val 0) x (along em j) p l *
          u.val (pointPos s0.bas.nc (np.val 0) j k p)) ∧
      (np.val 0 = 0 → co = c.2) ∧
      ∀ v : Buf K, s0.bas.nc * s0.bas.P ≤ v.len →
        applyAtPoints en 1 np .transpose em (some x) (some u) v s =
          M.lift (apply c.1 en.junk 1 .transpose .interp (some co) v) s2 ∧
        applyAddAtPoints en 1 np .transpose em (some x) (some u) v s =
          M.lift (applyAdd c.1 en.junk 1 .transpose .interp (some co) v) s2 := by
  have h := used_inv h0 hs
  obtain ⟨hT, _⟩ := tensorOK_of h0.basis
  obtain ⟨s1, c, e1, h1, hc, hco⟩ := ensureCheb_ok hen h0 h
  have hlen : c.2.len = s0.bas.coefs := by
    obtain ⟨_, _, _, _, _, _, _, _, a, _⟩ := hco
    exact a
  obtain ⟨co, e2, f1, f2, f3⟩ := fromPoints_ok hem hT.h1 en.junkP hT.dim h0.two hx hlen hu
  obtain ⟨s2, e3, h2⟩ := setCoefs_ok h1 hc f1
  have hw : em ≠ .weight := by rcases hem with rfl | rfl <;> simp
  refine ⟨s1, s2, c, co, e1, hco, f1, f2, f3, fun v hv => ⟨?_, ?_⟩⟩
  · unfold applyAtPoints
    rw [M.bind_apply, h.bas, checkDims_t hem hnp hx hv, M.lift_ok, Out.bind_ok]
    unfold corePoints
    rw [M.bind_apply, Buf.rd_lt hnp, M.lift_ok, Out.bind_ok, h.bas, M.bind_apply, M.check_true hT.dim, Out.bind_ok, M.bind_apply,
      M.check_true hT.tensor, Out.bind_ok, M.bind_apply, M.check_true rfl, Out.bind_ok, if_neg hw, M.bind_apply, e1, Out.bind_ok]
    simp only [readArray]
    rw [M.bind_apply, M.lift_ok, Out.bind_ok, M.bind_apply, M.lift_ok, Out.bind_ok, M.bind_apply, e2, M.lift_ok, Out.bind_ok, M.bind_apply, e3,
      Out.bind_ok]
    rfl
  · unfold applyAddAtPoints
    rw [M.bind_apply, M.check_true rfl, Out.bind_ok, M.bind_apply, h.bas, checkDims_t hem hnp hx hv, M.lift_ok, Out.bind_ok]
    unfold corePoints
    rw [M.bind_apply, Buf.rd_lt hnp, M.lift_ok, Out.bind_ok, h.bas, M.bind_apply, M.check_true hT.dim, Out.bind_ok, M.bind_apply,
      M.check_true hT.tensor, Out.bind_ok, M.bind_apply, M.check_true rfl, Out.bind_ok, if_neg hw, M.bind_apply, e1, Out.bind_ok]
    simp only [readArray]
    rw [M.bind_apply, M.lift_ok, Out.bind_ok, M.bind_apply, M.lift_ok, Out.bind_ok, M.bind_apply, e2, M.lift_ok, Out.bind_ok, M.bind_apply, e3,
      Out.bind_ok]
    rfl

theorem transposed_sum (h0 : Fresh s0 i1 g1 w q) {phi : Nat → K[X]} (hphi : Shape q i1 s0.bas.P1 s0.bas.Q1 phi) {ci : Buf K}
    (hci : Coeffs q i1 ci s0.bas.P1 s0.bas.Q1) (em : EMode) (np : Nat) (x u co : Buf K) {k : Nat}
    (hco : ∀ l < s0.bas.Q1 ^ s0.bas.dim, co.val (k * s0.bas.Q1 ^ s0.bas.dim + l) =
      ∑ p ∈ range np, ∑ j ∈ range (s0.bas.qComp em), wU s0.bas np x (along em j) p l * u.val (pointPos s0.bas.nc np j k p)) (n : Nat) :
    ∑ l ∈ range (s0.bas.Q1 ^ s0.bas.dim), (∏ d ∈ range s0.bas.dim, ci.val (coord s0.bas.Q1 d l * s0.bas.P1 + coord s0.bas.P1 d n)) *
      co.val (k * s0.bas.Q1 ^ s0.bas.dim + l) =
    ∑ p ∈ range np, ∑ j ∈ range (s0.bas.qComp em), u.val (pointPos s0.bas.nc np j k p) * shapeAt s0.bas phi em np x j p n := by
  obtain ⟨hT, _⟩ := tensorOK_of h0.basis
  calc _ = ∑ l ∈ range (s0.bas.Q1 ^ s0.bas.dim), ∑ p ∈ range np, ∑ j ∈ range (s0.bas.qComp em),
        u.val (pointPos s0.bas.nc np j k p) * (wU s0.bas np x (along em j) p l *
          ∏ d ∈ range s0.bas.dim, ci.val (coord s0.bas.Q1 d l * s0.bas.P1 + coord s0.bas.P1 d n)) := by
        refine sum_congr rfl fun l hl => ?_
        rw [hco l (mem_range.1 hl), mul_sum]
        refine sum_congr rfl fun p _ => ?_
        rw [mul_sum]
        refine sum_congr rfl fun j _ => ?_
        ring
    _ = _ := by
        rw [sum_comm]
        refine sum_congr rfl fun p _ => ?_
        rw [sum_comm]
        refine sum_congr rfl fun j _ => ?_
        rw [← mul_sum, hci.shapeAt h0.distinct hphi hT.P1 hT.Q1]

/-- C25: after any history, `CeedBasisApplyAtPoints` with transpose, with one point at least, stores for every component and node the sum over the
points (and directions, in gradient mode) of the values times the values of the shape function of the node; the rest of the vector is
set to zero. -/
theorem C25_transpose_partial (h0 : Fresh s0 i1 g1 w q) (hs : Used s0 s) {phi : Nat → K[X]} (hphi : Shape q i1 s0.bas.P1 s0.bas.Q1 phi)
    {en : Env K} (hen : Exact en) {em : EMode} (hem : em = .interp ∨ em = .grad) {np : Buf Nat} (hnp : 0 < np.len) {x u v : Buf K}
    (hone : 0 < np.val 0) (hx : np.val 0 * s0.bas.dim ≤ x.len) (hu : np.val 0 * s0.bas.nc * s0.bas.qComp em ≤ u.len)
    (hv : s0.bas.nc * s0.bas.P ≤ v.len) :
    ∃ s' v', applyAtPoints en 1 np .transpose em (some x) (some u) v s = .ok s' v' ∧ v'.len = v.len ∧
      (∀ c < s0.bas.nc, ∀ n < s0.bas.P, v'.val (c * s0.bas.P + n) = ∑ p ∈ range (np.val 0), ∑ k ∈ range (s0.bas.qComp em),
        u.val (pointPos s0.bas.nc (np.val 0) k c p) * shapeAt s0.bas phi em (np.val 0) x k p n) ∧
      ∀ i, s0.bas.nc * s0.bas.P ≤ i → i < v.len → v'.val i = 0 := by
  obtain ⟨hT, _⟩ := tensorOK_of h0.basis
  obtain ⟨s1, s2, c, co, _, hco, f1, f2, _, hrun⟩ := transposed_run h0 hs hen hem hnp hx hu
  obtain ⟨ci, hci, hap, _⟩ := cheb_t hco hT.hP
  obtain ⟨v', e, r1, r2, r3⟩ := hap en.junk co v f1 hv
  refine ⟨s2, v', by rw [(hrun v hv).1, e, M.lift_ok], r1, ?_, r3⟩
  intro k hk n hn
  rw [r2 k hk n hn, transposed_sum h0 hphi hci em (np.val 0) x u co (fun l hl => f2 hone k hk l hl) n]

/-- C25: `CeedBasisApplyAddAtPoints` adds what `CeedBasisApplyAtPoints` with transpose stores, with one point at least, for a basis that
is not itself the basis of Chebyshev polynomials (whose evaluation overwrites the vector, see C23). -/
theorem C25_add_partial (h0 : Fresh s0 i1 g1 w q) (hs : Used s0 s) {phi : Nat → K[X]} (hphi : Shape q i1 s0.bas.P1 s0.bas.Q1 phi)
    (hne : ∃ n < s0.bas.P1, ∃ i < s0.bas.Q1, i1.val (i * s0.bas.P1 + n) ≠ (U (n : Int)).eval (q.val i))
    {en : Env K} (hen : Exact en) {em : EMode} (hem : em = .interp ∨ em = .grad) {np : Buf Nat} (hnp : 0 < np.len) {x u v : Buf K}
    (hone : 0 < np.val 0) (hx : np.val 0 * s0.bas.dim ≤ x.len) (hu : np.val 0 * s0.bas.nc * s0.bas.qComp em ≤ u.len)
    (hv : s0.bas.nc * s0.bas.P ≤ v.len) :
    ∃ s' v', applyAddAtPoints en 1 np .transpose em (some x) (some u) v s = .ok s' v' ∧ v'.len = v.len ∧
      (∀ c < s0.bas.nc, ∀ n < s0.bas.P, v'.val (c * s0.bas.P + n) = v.val (c * s0.bas.P + n) +
        ∑ p ∈ range (np.val 0), ∑ k ∈ range (s0.bas.qComp em),
          u.val (pointPos s0.bas.nc (np.val 0) k c p) * shapeAt s0.bas phi em (np.val 0) x k p n) ∧
      ∀ i, s0.bas.nc * s0.bas.P ≤ i → v'.val i = v.val i := by
  obtain ⟨hT, _⟩ := tensorOK_of h0.basis
  obtain ⟨s1, s2, c, co, _, hco, f1, f2, _, hrun⟩ := transposed_run h0 hs hen hem hnp hx hu
  obtain ⟨ci, hci, _, hap⟩ := cheb_t hco hT.hP
  obtain ⟨v', e, r1, r2, r3⟩ := hap hne en.junk co v f1 hv
  refine ⟨s2, v', by rw [(hrun v hv).2, e, M.lift_ok], r1, ?_, r3⟩
  intro k hk n hn
  rw [r2 k hk n hn, transposed_sum h0 hphi hci em (np.val 0) x u co (fun l hl => f2 hone k hk l hl) n]

/-- C25: the transpose is the adjoint: the inner product of the values at the points with any values there is the inner product of the
node values with the transposed evaluation, for evaluations after any two histories of the basis. -/
theorem C25_adjoint_partial (h0 : Fresh s0 i1 g1 w q) {s t s' t' : PBas K} (hs : Used s0 s) (ht : Used s0 t) {en en' : Env K} (hen : Exact en)
    (hen' : Exact en') {em : EMode} (hem : em = .interp ∨ em = .grad) {np : Buf Nat} (hnp : 0 < np.len) {x u y v v' z z' : Buf K}
    (hone : 0 < np.val 0) (hx : np.val 0 * s0.bas.dim ≤ x.len) (hu : s0.bas.nc * s0.bas.P ≤ u.len)
    (hv : np.val 0 * s0.bas.nc * s0.bas.qComp em ≤ v.len) (hy : np.val 0 * s0.bas.nc * s0.bas.qComp em ≤ y.len)
    (hz : s0.bas.nc * s0.bas.P ≤ z.len) (e1 : applyAtPoints en 1 np .noTranspose em (some x) (some u) v s = .ok s' v')
    (e2 : applyAtPoints en' 1 np .transpose em (some x) (some y) z t = .ok t' z') :
    dotN (s0.bas.qComp em * s0.bas.nc * np.val 0) v'.val y.val = dotN (s0.bas.nc * s0.bas.P) u.val z'.val := by
  obtain ⟨phi, hphi, _⟩ := C25_shapes_exist h0
  obtain ⟨s1, v1, r1, _, r2, _⟩ := C25_evaluates_partial h0 hs hphi hen hem hnp hx hu hv
  obtain ⟨t1, z1, q1, _, q2, _⟩ := C25_transpose_partial h0 ht hphi hen' hem hnp hone hx hy hz
  rw [r1] at e1
  rw [q1] at e2
  injection e1 with _ e1
  injection e2 with _ e2
  subst e1 e2
  unfold dotN
  rw [Restriction.sum_range_mul, Restriction.sum_range_mul, Restriction.sum_range_mul]
  calc ∑ k ∈ range (s0.bas.qComp em), ∑ c ∈ range s0.bas.nc, ∑ p ∈ range (np.val 0),
        v1.val ((k * s0.bas.nc + c) * np.val 0 + p) * y.val ((k * s0.bas.nc + c) * np.val 0 + p)
      = ∑ k ∈ range (s0.bas.qComp em), ∑ c ∈ range s0.bas.nc, ∑ p ∈ range (np.val 0), ∑ n ∈ range s0.bas.P,
          u.val (c * s0.bas.P + n) * (y.val ((k * s0.bas.nc + c) * np.val 0 + p) * shapeAt s0.bas phi em (np.val 0) x k p n) := by
        refine sum_congr rfl fun k hk => sum_congr rfl fun c hc => sum_congr rfl fun p hp => ?_
        have := r2 k (mem_range.1 hk) c (mem_range.1 hc) p (mem_range.1 hp)
        unfold pointPos at this
        rw [this, sum_mul]
        refine sum_congr rfl fun n _ => ?_
        ring
    _ = ∑ c ∈ range s0.bas.nc, ∑ n ∈ range s0.bas.P, ∑ p ∈ range (np.val 0), ∑ k ∈ range (s0.bas.qComp em),
          u.val (c * s0.bas.P + n) * (y.val ((k * s0.bas.nc + c) * np.val 0 + p) * shapeAt s0.bas phi em (np.val 0) x k p n) := by
        rw [sum_comm]
        refine sum_congr rfl fun c _ => ?_
        rw [sum_comm]
        conv_rhs => rw [sum_comm]
        exact sum_congr rfl fun p _ => sum_comm
    _ = _ := by
        refine sum_congr rfl fun c hc => sum_congr rfl fun n hn => ?_
        rw [q2 c (mem_range.1 hc) n (mem_range.1 hn), mul_sum]
        refine sum_congr rfl fun p _ => ?_
        rw [mul_sum]
        rfl

end Basis
end Verif
