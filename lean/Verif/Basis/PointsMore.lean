import Verif.Basis.PointsProps
import Mathlib.Analysis.SpecialFunctions.Pow.Real

/-!
# Evaluation at points: Lagrange bases, accepted calls and failures (C25)
-/

namespace Verif
namespace Basis

open Finset Polynomial
open Restriction (TMode)

set_option linter.unusedSectionVars false

variable {K : Type} [Field K] [LinearOrder K] [IsStrictOrderedRing K]

variable {s0 s s' : PBas K} {i1 g1 w q : Buf K}

local notation "U" => Chebyshev.U K

/-- C25: for the tables of a Lagrange basis with no more nodes than quadrature points, the shape functions that are evaluated are the cardinal
polynomials of the nodes. -/
theorem C25_lagrange {nodes qref I G : Buf K} {P Q : Nat} (hP : 0 < P) (hPQ : P ≤ Q) (hn : P ≤ nodes.len) (hq : Q ≤ qref.len)
    (hd : Distinct nodes P) (e : fornberg P Q nodes qref = .ok (I, G)) :
    ∃ phi : Nat → K[X], Shape qref I P Q phi ∧ ∀ m < P, (phi m).natDegree < P ∧
      ∀ n < P, (phi m).eval (nodes.val n) = if n = m then 1 else 0 := by
  obtain ⟨I', G', e', h⟩ := C26_tables hP hn hq hd
  rw [e'] at e
  injection e with e
  injection e with e1 e2
  subst e1 e2
  choose! phi h1 h2 h3 using h
  refine ⟨phi, ?_, fun m hm => ⟨by rw [h1 m hm]; omega, h2 m hm⟩⟩
  intro m hm
  refine ⟨?_, fun i hi => ((h3 m hm i hi).1).symm⟩
  refine lt_of_le_of_lt degree_le_natDegree ?_
  rw [h1 m hm]
  exact WithBot.coe_lt_coe.2 (show P - 1 < Q by omega)

theorem cardinal_sum {nodes : Buf K} {P : Nat} (hd : Distinct nodes P) {phi : Nat → K[X]}
    (hphi : ∀ m < P, (phi m).natDegree < P ∧ ∀ n < P, (phi m).eval (nodes.val n) = if n = m then 1 else 0) {f : K[X]} (hf : f.degree < P) :
    ∑ m ∈ range P, C (f.eval (nodes.val m)) * phi m = f := by
  refine poly_unique (q := nodes) hd ?_ hf ?_
  · refine lt_of_le_of_lt (degree_sum_le _ _) ((Finset.sup_lt_iff (WithBot.bot_lt_coe P)).2 ?_)
    intro k hk
    rw [← smul_eq_C_mul]
    refine lt_of_le_of_lt (degree_smul_le _ _) (lt_of_le_of_lt degree_le_natDegree ?_)
    exact WithBot.coe_lt_coe.2 (hphi k (mem_range.1 hk)).1
  · intro i hi
    rw [eval_finsetSum, sum_eq_single i]
    · rw [eval_mul, eval_C, (hphi i hi).2 i hi, if_pos rfl, mul_one]
    · intro m hm hmi
      rw [eval_mul, (hphi m (mem_range.1 hm)).2 i hi, if_neg (fun h => hmi h.symm), mul_zero]
    · intro h; exact absurd (mem_range.2 hi) h

theorem pev_sum (der : Bool) (f : Nat → K) (phi : Nat → K[X]) (P : Nat) (x : K) :
    pev der (∑ k ∈ range P, C (f k) * phi k) x = ∑ k ∈ range P, f k * pev der (phi k) x := by
  unfold pev
  split
  · rw [derivative_sum, eval_finsetSum]
    refine sum_congr rfl fun k _ => ?_
    rw [derivative_C_mul, eval_mul, eval_C]
  · rw [eval_finsetSum]
    refine sum_congr rfl fun k _ => ?_
    rw [eval_mul, eval_C]

/-- C25: a Lagrange basis with no more nodes than quadrature points evaluates exactly, at any points and after any history: a field whose node
values are those of a product of polynomials of degree less than the number of nodes, one per coordinate, has at the points the values of this
product or of its derivatives. By linearity this determines the evaluation of every field. -/
theorem C25_reproduces_partial (h0 : Fresh s0 i1 g1 w q) (hs : Used s0 s) {nodes G : Buf K} (hPQ : s0.bas.P1 ≤ s0.bas.Q1) (hn : s0.bas.P1 ≤ nodes.len)
    (hd : Distinct nodes s0.bas.P1) (hI : fornberg s0.bas.P1 s0.bas.Q1 nodes q = .ok (i1, G))
    {en : Env K} (hen : Exact en) {em : EMode} (hem : em = .interp ∨ em = .grad) {np : Buf Nat} (hnp : 0 < np.len) {x u v : Buf K}
    (hx : np.val 0 * s0.bas.dim ≤ x.len) (hu : s0.bas.nc * s0.bas.P ≤ u.len) (hv : np.val 0 * s0.bas.nc * s0.bas.qComp em ≤ v.len)
    (f : Nat → Nat → K[X]) (hf : ∀ c d, (f c d).degree < s0.bas.P1)
    (hval : ∀ c < s0.bas.nc, ∀ n < s0.bas.P, u.val (c * s0.bas.P + n) =
      ∏ d ∈ range s0.bas.dim, (f c d).eval (nodes.val (coord s0.bas.P1 d n))) :
    ∃ s' v', applyAtPoints en 1 np .noTranspose em (some x) (some u) v s = .ok s' v' ∧
      ∀ k < s0.bas.qComp em, ∀ c < s0.bas.nc, ∀ p < np.val 0, v'.val (pointPos s0.bas.nc (np.val 0) k c p) =
        ∏ d ∈ range s0.bas.dim, pev (along em k d) (f c d) (x.val (d * np.val 0 + p)) := by
  obtain ⟨hT, _⟩ := tensorOK_of h0.basis
  obtain ⟨phi, hphi, hcard⟩ := C25_lagrange hT.P1 hPQ hn (by rw [h0.len]) hd hI
  obtain ⟨s1, v', e, _, h2, _⟩ := C25_evaluates_partial h0 hs hphi hen hem hnp hx hu hv
  refine ⟨s1, v', e, ?_⟩
  intro k hk c hc p hp
  rw [h2 k hk c hc p hp]
  calc ∑ n ∈ range s0.bas.P, u.val (c * s0.bas.P + n) * shapeAt s0.bas phi em (np.val 0) x k p n
      = ∑ n ∈ range (s0.bas.P1 ^ s0.bas.dim), ∏ d ∈ range s0.bas.dim, (f c d).eval (nodes.val (coord s0.bas.P1 d n)) *
          pev (along em k d) (phi (coord s0.bas.P1 d n)) (x.val (d * np.val 0 + p)) := by
        rw [← hT.hP]
        refine sum_congr rfl fun n hn => ?_
        rw [hval c hc n (mem_range.1 hn)]
        unfold shapeAt
        rw [prod_mul_distrib]
    _ = _ := by
        rw [sum_digits (fun d m => (f c d).eval (nodes.val m) * pev (along em k d) (phi m) (x.val (d * np.val 0 + p))) _ hT.P1]
        refine prod_congr rfl fun d _ => ?_
        rw [← pev_sum, cardinal_sum hd hcard (hf c d)]

/-! ## Calls that are accepted -/

/-- C25: a call that succeeds was made for a tensor basis and one element, for values, derivatives or weights, and weights without transpose. -/
theorem C25_accepts {en : Env K} {ne : Nat} {np : Buf Nat} {tm : TMode} {em : EMode} {x u : Option (Buf K)} {v v' : Buf K}
    (h : applyAtPoints en ne np tm em x u v s = .ok s' v') :
    s.bas.isTensor = true ∧ ne = 1 ∧ (em = .interp ∨ em = .grad ∨ em = .weight) ∧ (em = .weight → tm = .noTranspose) := by
  unfold applyAtPoints at h
  rw [M.bind_apply] at h
  obtain ⟨sa, _, h1, hcore⟩ := Out.bind_eq_ok.1 h
  clear h
  have hchk : checkDimsP s.bas ne np tm em x u v = .ok () ∧ sa = s := by
    cases hc : checkDimsP s.bas ne np tm em x u v with
    | ok a => rw [hc, M.lift_ok] at h1; injection h1 with h1 _; exact ⟨rfl, h1.symm⟩
    | err e => rw [hc, M.lift_err] at h1; cases h1
    | ub => rw [hc, M.lift_ub] at h1; cases h1
  obtain ⟨hchk, rfl⟩ := hchk
  unfold corePoints at hcore
  rw [M.bind_apply] at hcore
  obtain ⟨sb, tot, h2, ha⟩ := Out.bind_eq_ok.1 hcore
  rw [M.bind_apply] at ha
  obtain ⟨sc, _, h3, hb⟩ := Out.bind_eq_ok.1 ha
  rw [M.bind_apply] at hb
  obtain ⟨sd, _, h4, hc⟩ := Out.bind_eq_ok.1 hb
  rw [M.bind_apply] at hc
  obtain ⟨se, _, h5, _⟩ := Out.bind_eq_ok.1 hc
  have g4 : sa.bas.isTensor = true := by
    by_contra hc
    rw [M.check_false hc] at h4; cases h4
  have g5 : ne = 1 := by
    by_contra hc
    rw [M.check_false hc] at h5; cases h5
  unfold checkDimsP at hchk
  simp only [Res.bind_eq_ok, Res.check_eq_ok] at hchk
  obtain ⟨t, _, _, _, _, hw, hm⟩ := hchk
  refine ⟨g4, g5, ?_, fun e => hw.resolve_left (not_not.2 e)⟩
  cases em <;> simp at hm ⊢

/-- C25: the weights of points are one. The output vector must have one entry per point. -/
theorem C25_weight {en : Env K} {np : Buf Nat} (hnp : 0 < np.len) {x u : Option (Buf K)} {v : Buf K} (hd : 0 < s.bas.dim)
    (ht : s.bas.isTensor = true) (hv : np.val 0 ≤ v.len) :
    ∃ v', applyAtPoints en 1 np .noTranspose .weight x u v s = .ok s v' ∧ v'.len = v.len ∧ ∀ i < v.len, v'.val i = 1 := by
  obtain ⟨v', e, h1, h2⟩ := Restriction.fill_all (v := v) (1 : K)
  refine ⟨v', ?_, h1, h2⟩
  unfold applyAtPoints
  have hc : checkDimsP s.bas 1 np .noTranspose .weight x u v = .ok () := by
    unfold checkDimsP
    have hl : loop 1 (fun i t => do
      let n ← np.rd i
      Res.ok (t + n)) 0 = .ok (np.val 0) := by simp [loop, Buf.rd, hnp]
    simp only
    rw [hl, Res.bind_ok]
    simp [Res.check, hv]
  rw [M.bind_apply, hc, M.lift_ok, Out.bind_ok]
  unfold corePoints
  rw [M.bind_apply, Buf.rd_lt hnp, M.lift_ok, Out.bind_ok, M.bind_apply, M.check_true hd, Out.bind_ok, M.bind_apply, M.check_true ht,
    Out.bind_ok, M.bind_apply, M.check_true rfl, Out.bind_ok, if_pos rfl, e, M.lift_ok]

/-! ## No points: the result depends on the history -/

/-- C25, no points, basis not used yet: the transposed evaluation stores zeros. -/
theorem C25_no_points_fresh (h0 : Fresh s0 i1 g1 w q) {en : Env K} (hen : Exact en) {em : EMode} (hem : em = .interp ∨ em = .grad)
    {np : Buf Nat} (hnp : 0 < np.len) {x u v : Buf K} (hno : np.val 0 = 0) (hv : s0.bas.nc * s0.bas.P ≤ v.len) :
    ∃ s' v', applyAtPoints en 1 np .transpose em (some x) (some u) v s0 = .ok s' v' ∧ ∀ i < v.len, v'.val i = 0 := by
  obtain ⟨hT, hi, _, _⟩ := tensorOK_of h0.basis
  obtain ⟨s1, s2, c, co, e1, hco, f1, _, f3, hrun⟩ := transposed_run h0 Used.new hen hem hnp (x := x) (u := u) (by rw [hno]; omega) (by rw [hno]; omega)
  obtain ⟨ci, hci, hap, _⟩ := cheb_t hco hT.hP
  obtain ⟨v', e, r1, r2, r3⟩ := hap en.junk co v f1 hv
  refine ⟨s2, v', by rw [(hrun v hv).1, e, M.lift_ok], ?_⟩
  have hz : ∀ i, co.val i = 0 := by
    rw [f3 hno]
    unfold ensureCheb at e1
    rw [h0.cheb] at e1
    simp only at e1
    obtain ⟨sa, c', ea, eb⟩ := Out.bind_eq_ok.1 e1
    injection eb with _ eb
    subst eb
    cases hm : makeCheb en.sqrt en.v0 en.v1 en.near s0.bas s0.qRef with
    | ok a =>
      rw [hm, M.lift_ok] at ea
      injection ea with _ ea
      subst ea
      unfold makeCheb at hm
      simp only [Res.bind_eq_ok] at hm
      obtain ⟨_, _, cb, _, hm⟩ := hm
      injection hm with hm
      subst hm
      intro i; rfl
    | err e => rw [hm, M.lift_err] at ea; cases ea
    | ub => rw [hm, M.lift_ub] at ea; cases ea
  intro i hi
  by_cases h : i < s0.bas.nc * s0.bas.P
  · have hPpos : 0 < s0.bas.P := by
      rcases Nat.eq_zero_or_pos s0.bas.P with h' | h'
      · rw [h'] at h; omega
      · exact h'
    have hk : i / s0.bas.P < s0.bas.nc := Nat.div_lt_of_lt_mul (by rw [Nat.mul_comm]; exact h)
    have := r2 (i / s0.bas.P) hk (i % s0.bas.P) (Nat.mod_lt _ hPpos)
    rw [Nat.div_add_mod'] at this
    rw [this]
    exact sum_eq_zero fun l _ => by rw [hz, mul_zero]
  · exact r3 i (by omega) hi

/-- C25 fails with no points: after an evaluation that gave some value other than zero, the transposed evaluation with no points stores an entry
other than zero, whatever its arguments. -/
theorem C25_no_points_witness (h0 : Fresh s0 i1 g1 w q) (hs : Used s0 s) {en : Env K} (hen : Exact en) {em : EMode}
    (hem : em = .interp ∨ em = .grad) {np : Buf Nat} (hnp : 0 < np.len) {x u v v' : Buf K} (hx : np.val 0 * s0.bas.dim ≤ x.len)
    (hu : s0.bas.nc * s0.bas.P ≤ u.len) (hv : np.val 0 * s0.bas.nc * s0.bas.qComp em ≤ v.len)
    (e : applyAtPoints en 1 np .noTranspose em (some x) (some u) v s = .ok s' v')
    (hne : ∃ k < s0.bas.qComp em, ∃ c < s0.bas.nc, ∃ p < np.val 0, v'.val (pointPos s0.bas.nc (np.val 0) k c p) ≠ 0)
    {np' : Buf Nat} (hnp' : 0 < np'.len) (hno : np'.val 0 = 0) {x' u' z : Buf K} (hz : s0.bas.nc * s0.bas.P ≤ z.len) :
    ∃ s'' z', applyAtPoints en 1 np' .transpose em (some x') (some u') z s' = .ok s'' z' ∧ ∃ i < s0.bas.nc * s0.bas.P, z'.val i ≠ 0 := by
  have hs' : Used s0 s' := hs.apply hen (Or.inl ⟨v', e⟩)
  have h := used_inv h0 hs
  obtain ⟨hT, _⟩ := tensorOK_of h0.basis
  obtain ⟨s1, c, e1, h1, hc, hco⟩ := ensureCheb_ok hen h0 h
  obtain ⟨ci, co, hci, e2, hlen, hval⟩ := cheb_nt hco hT.hP en.junk hu
  obtain ⟨va, e4, g1, g2, g3⟩ := toPoints_ok hem hT.h1 en.junkP hT.dim h0.two hx (co := co) (by omega) hv
  have hw : em ≠ .weight := by rcases hem with rfl | rfl <;> simp
  have hend : s'.cheb = some (c.1, co) ∧ v' = va := by
    unfold applyAtPoints at e
    rw [M.bind_apply, h.bas, checkDims_nt hem hnp hx hu, M.lift_ok, Out.bind_ok] at e
    unfold corePoints at e
    rw [M.bind_apply, Buf.rd_lt hnp, M.lift_ok, Out.bind_ok, h.bas, M.bind_apply, M.check_true hT.dim, Out.bind_ok, M.bind_apply,
      M.check_true hT.tensor, Out.bind_ok, M.bind_apply, M.check_true rfl, Out.bind_ok, if_neg hw, M.bind_apply, e1, Out.bind_ok] at e
    simp only at e
    rw [M.bind_apply, e2, M.lift_ok, Out.bind_ok, M.bind_apply] at e
    unfold setCoefs at e
    rw [hc] at e
    simp only at e
    rw [Out.bind_ok, M.bind_apply] at e
    unfold readArray at e
    simp only at e
    rw [M.lift_ok, Out.bind_ok, e4, M.lift_ok] at e
    injection e with ea eb
    subst ea
    exact ⟨rfl, eb.symm⟩
  obtain ⟨hch, rfl⟩ := hend
  obtain ⟨s3, s4, c', co', e1', hco', f1, _, f3, hrun⟩ := transposed_run h0 hs' hen hem hnp' (x := x') (u := u') (by rw [hno]; omega) (by rw [hno]; omega)
  have hcc : c' = (c.1, co) := by
    unfold ensureCheb at e1'
    rw [hch] at e1'
    simp only at e1'
    injection e1' with _ e1'
    exact e1'.symm
  subst hcc
  have hcoc : co' = co := f3 hno
  subst hcoc
  obtain ⟨ci', hci', hap, _⟩ := cheb_t hco' hT.hP
  obtain ⟨z', ez, r1, r2, r3⟩ := hap en.junk co' z f1 hz
  refine ⟨s4, z', by rw [(hrun z hz).1, ez, M.lift_ok], ?_⟩
  have hcieq : ∀ k < s0.bas.Q1, ∀ n < s0.bas.P1, ci'.val (k * s0.bas.P1 + n) = ci.val (k * s0.bas.P1 + n) := by
    obtain ⟨phi, hphi, _⟩ := C25_shapes_exist h0
    intro k hk n hn
    have hz : ∑ k ∈ range s0.bas.Q1, C (ci'.val (k * s0.bas.P1 + n) - ci.val (k * s0.bas.P1 + n)) * U (k : Int) = 0 := by
      simp only [C_sub, sub_mul, sum_sub_distrib]
      rw [← hci'.shape h0.distinct hphi hn, ← hci.shape h0.distinct hphi hn, sub_self]
    exact sub_eq_zero.1 (cheb_eq_zero hz k hk)
  by_contra hall
  have hall' : ∀ i < s0.bas.nc * s0.bas.P, z'.val i = 0 := by
    intro i hi
    by_contra hne'
    exact hall ⟨i, hi, hne'⟩
  obtain ⟨k, hk, cc, hcc, p, hp, hnz⟩ := hne
  refine hnz ?_
  rw [g2 k hk cc hcc p hp]
  have hsq : ∑ l ∈ range (s0.bas.Q1 ^ s0.bas.dim), co'.val (cc * s0.bas.Q1 ^ s0.bas.dim + l) * co'.val (cc * s0.bas.Q1 ^ s0.bas.dim + l) = 0 := by
    calc _ = ∑ l ∈ range (s0.bas.Q1 ^ s0.bas.dim), ∑ n ∈ range s0.bas.P,
          (∏ d ∈ range s0.bas.dim, ci.val (coord s0.bas.Q1 d l * s0.bas.P1 + coord s0.bas.P1 d n)) * u.val (cc * s0.bas.P + n) *
            co'.val (cc * s0.bas.Q1 ^ s0.bas.dim + l) := by
          refine sum_congr rfl fun l hl => ?_
          nth_rewrite 1 [hval cc hcc l (mem_range.1 hl)]
          rw [sum_mul]
      _ = ∑ n ∈ range s0.bas.P, u.val (cc * s0.bas.P + n) * ∑ l ∈ range (s0.bas.Q1 ^ s0.bas.dim),
          (∏ d ∈ range s0.bas.dim, ci'.val (coord s0.bas.Q1 d l * s0.bas.P1 + coord s0.bas.P1 d n)) *
            co'.val (cc * s0.bas.Q1 ^ s0.bas.dim + l) := by
          rw [sum_comm]
          refine sum_congr rfl fun n _ => ?_
          rw [mul_sum]
          refine sum_congr rfl fun l _ => ?_
          rw [prod_congr rfl fun d _ => hcieq _ (coord_lt hT.Q1 d l) _ (coord_lt hT.P1 d n)]
          ring
      _ = 0 := by
          refine sum_eq_zero fun n hn => ?_
          rw [← r2 cc hcc n (mem_range.1 hn), hall' _ (enc_lt hcc (mem_range.1 hn)), mul_zero]
  rw [sum_eq_zero_iff_of_nonneg (fun l _ => mul_self_nonneg _)] at hsq
  exact sum_eq_zero fun l hl => by rw [mul_self_eq_zero.1 (hsq l hl), mul_zero]

/-! ## One quadrature point -/

/-- C25 fails with one quadrature point per direction: the arrays of Chebyshev values have one entry and two are written. -/
theorem C25_one_point_witness {en : Env K} (hb : TensorBasis s.bas i1 g1 w) (hQ : s.bas.Q1 = 1) (hq : s.qRef.len = 1)
    (hc : s.cheb = none) {em : EMode} (hem : em = .interp ∨ em = .grad) {np : Buf Nat} (hnp : 0 < np.len) {x u v : Buf K}
    (hx : np.val 0 * s.bas.dim ≤ x.len) (hu : s.bas.nc * s.bas.P ≤ u.len) :
    applyAtPoints en 1 np .noTranspose em (some x) (some u) v s = .ub := by
  obtain ⟨hT, _⟩ := tensorOK_of hb
  have hw : em ≠ .weight := by rcases hem with rfl | rfl <;> simp
  unfold applyAtPoints
  rw [M.bind_apply, checkDims_nt hem hnp hx hu, M.lift_ok, Out.bind_ok]
  unfold corePoints
  rw [M.bind_apply, Buf.rd_lt hnp, M.lift_ok, Out.bind_ok, M.bind_apply, M.check_true hT.dim, Out.bind_ok, M.bind_apply,
    M.check_true hT.tensor, Out.bind_ok, M.bind_apply, M.check_true rfl, Out.bind_ok, if_neg hw, M.bind_apply]
  unfold ensureCheb
  rw [hc]
  simp only
  have : makeCheb en.sqrt en.v0 en.v1 en.near s.bas s.qRef = .ub := by
    unfold makeCheb chebInterp
    rw [Res.check_true ⟨hT.P1, hT.Q1⟩, Res.bind_ok, hQ]
    simp [loop, Buf.rd, hq, chebVals, Buf.wr]
  rw [this, M.lift_ub, Out.bind_ub, Out.bind_ub]

/-! ## Bases made by the library -/

/-- The tables of distinct nodes and quadrature points, two of these at least, make a basis to which the theorems apply. -/
theorem C25_fresh {sqrt : K → K} (hs : IsSqrt sqrt) (v0 v1 : Nat → K) {near : K → Bool} (hnear : ∀ x, near x = true → x = 0)
    {dim nc P Q : Nat} (hd : 0 < dim) (hnc : 0 < nc) (hP : 0 < P) (hQ : 2 ≤ Q) {nodes q w : Buf K} (hn : P ≤ nodes.len) (hq : q.len = Q)
    (hw : w.len = Q) (hdn : Distinct nodes P) (hdq : Distinct q Q) :
    ∃ I G b, fornberg P Q nodes q = .ok (I, G) ∧ createTensorH1 near (collocatedGrad sqrt v0 v1) dim nc P Q I G w = .ok b ∧
      b.dim = dim ∧ b.nc = nc ∧ b.P1 = P ∧ b.Q1 = Q ∧ Fresh ⟨b, q, none⟩ I G w q := by
  obtain ⟨I, G, e, hI, hG, _⟩ := fornberg_ok (Q := Q) (qref := q) hP hn (by omega) hdn.lower
  have hind : P ≤ Q → Independent (asMat I Q P) := by
    intro hPQ
    exact C26_independent hP hPQ hn (by omega) hdn hdq e
  obtain ⟨b, eb, hb⟩ := C22_creation_partial hs v0 v1 hnear hd hnc hP (show 0 < Q by omega) (by rw [hI]; ring) (by rw [hG]; ring) hw hind
  obtain ⟨d1, d2, d3, d4⟩ := create_dims eb
  exact ⟨I, G, b, e, eb, d1, d2, d3, d4, hb, rfl, by rw [hq, d4], by rw [d4]; exact hQ, by rw [d4]; exact hdq, by
    rw [d3, d4]; exact hind, rfl⟩

/-- C25 fails with more nodes than quadrature points: with nodes -1, 0, 1 and quadrature points -1/2, 1/2, the field with node values 0, 1, 0
is the polynomial `1 - x²`, whose value at 0 is one; the value computed is 3/4, for any history. -/
theorem C25_more_nodes_witness {sqrt : ℝ → ℝ} (hs : IsSqrt sqrt) (v0 v1 : Nat → ℝ) {near : ℝ → Bool} (hnear : ∀ x, near x = true → x = 0) :
    ∃ I G b, fornberg 3 2 (Buf.ofList [-1, 0, 1]) (Buf.ofList [-1 / 2, 1 / 2]) = .ok (I, G) ∧
      createTensorH1 near (collocatedGrad sqrt v0 v1) 1 1 3 2 I G (Buf.ofList [1, 1]) = .ok b ∧
      ∀ (s : PBas ℝ) (en : Env ℝ), Exact en → Used ⟨b, Buf.ofList [-1 / 2, 1 / 2], none⟩ s → ∃ s' v',
        applyAtPoints en 1 (Buf.ofList [1]) .noTranspose .interp (some (Buf.ofList [0])) (some (Buf.ofList [0, 1, 0])) (Buf.ofList [0]) s =
          .ok s' v' ∧ v'.val 0 = 3 / 4 := by
  have h2 : (2 : ℝ) ≠ 0 := two_ne_zero
  have hdn : Distinct (Buf.ofList [-1, 0, 1] : Buf ℝ) 3 := by
    intro i hi j hj
    have e1 : (-1 : ℝ) ≠ 1 := by norm_num
    interval_cases i <;> interval_cases j <;> simp [Buf.ofList, e1, e1.symm]
  have hdq : Distinct (Buf.ofList [-1 / 2, 1 / 2] : Buf ℝ) 2 := by
    intro i hi j hj
    have e1 : (-1 / 2 : ℝ) ≠ 1 / 2 := by norm_num
    interval_cases i <;> interval_cases j <;> simp [Buf.ofList]
    · intro h; exact e1 (by rw [h]; ring)
    · intro h; exact e1 (by rw [← h]; ring)
  obtain ⟨I, G, b, e, eb, d1, d2, d3, d4, h0⟩ := C25_fresh hs v0 v1 hnear (dim := 1) (nc := 1) (P := 3) (Q := 2) (by omega) (by omega) (by omega)
    (by omega) (nodes := Buf.ofList [-1, 0, 1]) (q := Buf.ofList [-1 / 2, 1 / 2]) (w := Buf.ofList [1, 1]) (by simp [Buf.ofList])
    (by simp [Buf.ofList]) (by simp [Buf.ofList]) hdn hdq
  refine ⟨I, G, b, e, by exact_mod_cast eb, ?_⟩
  intro s en hen hsu
  obtain ⟨hT, _⟩ := tensorOK_of h0.basis
  have hH : b.isH1 = true := hT.h1
  have hPb : b.P = 3 := by have := hT.hP; simp only at this; rw [this, d1, d3]; rfl
  obtain ⟨phi, hphi, _⟩ := C25_shapes_exist h0
  obtain ⟨s', v', e', _, hv, _⟩ := C25_evaluates_partial h0 hsu hphi hen (em := .interp) (Or.inl rfl) (np := Buf.ofList [1]) (by simp [Buf.ofList])
    (x := Buf.ofList [0]) (u := Buf.ofList [0, 1, 0]) (v := Buf.ofList [0]) (by simp [Buf.ofList, d1]) (by simp [Buf.ofList, d2, hPb])
    (by simp [Buf.ofList, d2, Bas.qComp, hH])
  refine ⟨s', v', e', ?_⟩
  have hq1 : Bas.qComp b .interp = 1 := by simp [Bas.qComp, hH]
  have := hv 0 (by simp only [hq1]; omega) 0 (by simp only [d2]; omega) 0 (by simp [Buf.ofList])
  simp only [pointPos, d2, zero_mul, zero_add] at this
  rw [this]
  simp only [hPb]
  rw [sum_range_succ, sum_range_succ, sum_range_succ, sum_range_zero]
  simp only [Buf.ofList, List.getD_cons_zero, List.getD_cons_succ, zero_mul, zero_add, one_mul, add_zero, shapeAt, d1, prod_range_one, coord, d3]
  obtain ⟨I', G', e2, h26⟩ := C26_tables (P := 3) (Q := 2) (by omega) (by simp [Buf.ofList]) (by simp [Buf.ofList]) hdn
    (qref := (Buf.ofList [-1 / 2, 1 / 2] : Buf ℝ))
  rw [e] at e2
  injection e2 with e2
  injection e2 with e3 e4
  subst e3
  obtain ⟨p, hp1, hp2, hp3⟩ := h26 1 (by omega)
  have hp : p = 1 - X ^ 2 := by
    refine poly_unique (Q := 3) hdn ?_ ?_ ?_
    · refine lt_of_le_of_lt degree_le_natDegree ?_
      rw [hp1]; exact WithBot.coe_lt_coe.2 (by omega)
    · refine lt_of_le_of_lt (b := ((2 : Nat) : WithBot Nat)) ?_ (WithBot.coe_lt_coe.2 (by omega))
      compute_degree
      exact le_rfl
    · intro i hi
      rw [hp2 i hi]
      interval_cases i <;> simp [Buf.ofList]
  have hph : phi 1 = C (3 / 4) := by
    refine poly_unique (q := Buf.ofList [-1 / 2, 1 / 2]) (Q := 2) hdq ?_ ?_ ?_
    · have := (hphi 1 (by simp only [d3]; omega)).1
      simp only [d4] at this
      exact this
    · exact lt_of_le_of_lt degree_C_le (WithBot.coe_lt_coe.2 (by omega))
    · intro i hi
      have h1 := (hphi 1 (by simp only [d3]; omega)).2 i (by simp only [d4]; exact hi)
      simp only [d3] at h1
      rw [h1, (hp3 i hi).1, hp, eval_C]
      interval_cases i <;> simp [Buf.ofList] <;> ring
  simp only [pow_zero, Nat.div_one]
  rw [show 1 % 3 = 1 from rfl, hph]
  simp [pev, along]

/-! ## Output too short -/

theorem loop_dich {n L : Nat} {body : Nat → Buf K → Res (Buf K)} (R : Nat → Prop)
    (h : ∀ i < n, ∀ v, v.len = L → body i v = .ub ∨ (∃ v', body i v = .ok v' ∧ v'.len = L) ∧ R i) (v : Buf K) (hv : v.len = L) :
    loop n body v = .ub ∨ (∃ v', loop n body v = .ok v' ∧ v'.len = L) ∧ ∀ i < n, R i := by
  induction n with
  | zero => exact Or.inr ⟨⟨v, rfl, hv⟩, by intro i hi; omega⟩
  | succ n ih =>
    rw [loop_succ]
    rcases ih (fun i hi => h i (by omega)) with e | ⟨⟨v1, e, hl⟩, hr⟩
    · left; rw [e]; rfl
    · rw [e, Res.bind_ok]
      rcases h n (by omega) v1 hl with e' | ⟨⟨v2, e', hl'⟩, hr'⟩
      · exact Or.inl e'
      · refine Or.inr ⟨⟨v2, e', hl'⟩, ?_⟩
        intro i hi
        rcases Nat.lt_succ_iff_lt_or_eq.1 hi with h' | rfl
        · exact hr i h'
        · exact hr'

theorem evalPoint_dich {b : Bas K} {np p : Nat} {x co : Buf K} (deriv : Nat → Bool) (pos : Nat → Nat) (junk : Nat → Nat → K) {L : Nat}
    (hd : 0 < b.dim) (hQ : 2 ≤ b.Q1) (hp : p < np) (hx : np * b.dim ≤ x.len) (hco : b.coefs ≤ co.len) (v : Buf K) (hv : v.len = L) :
    evalPoint b np p x co deriv pos junk v = .ub ∨ (∃ v', evalPoint b np p x co deriv pos junk v = .ok v' ∧ v'.len = L) ∧
      ∀ c < b.nc, pos c < L := by
  obtain ⟨m, em, hm⟩ := pointMats_ok (Q1 := b.Q1) deriv (junk 3) hQ hp hx
  have hQ' : 0 < b.Q1 := by omega
  have hpow : ∀ d ≤ b.dim, b.Q1 ^ (b.dim - d) ≤ b.Q1 ^ b.dim := fun d _ => Nat.pow_le_pow_right hQ' (by omega)
  have hch := chain_eq (dim := b.dim) (nc := b.nc) (ne := 1) (P := b.Q1) (Q := 1) (size := b.coefs) (mat := m) (tm := .noTranspose)
    (add := false) (junk := junk) (u := co) (uo := 0) (v := ⟨b.coefs, junk 2⟩) (vo := 0) hd hQ'
    (fun d hd' => by rw [(hm d hd').1]; omega) (by unfold Bas.coefs at hco; omega)
    (by
      have := Nat.mul_le_mul_left b.nc (Nat.one_le_pow b.dim b.Q1 hQ')
      simp only [one_pow, Bas.coefs]; omega)
    (fun d _ hd' => by
      have := Nat.mul_le_mul_left b.nc (hpow d (by omega))
      simp only [one_pow, Bas.coefs]; omega)
  unfold evalPoint
  rw [em, Res.bind_ok, hch, Res.bind_ok]
  refine loop_dich (fun c => pos c < L) (fun c hc v hv => ?_) v hv
  have hle := Nat.mul_le_mul_left b.nc (Nat.one_le_pow b.dim b.Q1 hQ')
  rw [Buf.rd_lt (by simp only [contrOut, Bas.coefs]; omega), Res.bind_ok]
  by_cases h : pos c < v.len
  · rw [Buf.wr_lt h]
    exact Or.inr ⟨⟨_, rfl, hv⟩, by omega⟩
  · exact Or.inl (by simp [Buf.wr, h])

theorem toPoints_short {b : Bas K} {em : EMode} (hem : em = .interp ∨ em = .grad) (hH : b.isH1 = true) {np : Nat} {x co : Buf K}
    (junk : Nat → Nat → Nat → Nat → K) {v : Buf K} (hd : 0 < b.dim) (hQ : 2 ≤ b.Q1) (hx : np * b.dim ≤ x.len) (hco : b.coefs ≤ co.len)
    (hv : v.len < np * b.nc * b.qComp em) : toPoints b em np x co junk v = .ub := by
  have hnp0 : 0 < np := by
    rcases Nat.eq_zero_or_pos (np) with h' | h'
    · rw [h', zero_mul, zero_mul] at hv; omega
    · exact h'
  have hnc0 : 0 < b.nc := by
    rcases Nat.eq_zero_or_pos b.nc with h' | h'
    · rw [h', mul_zero, zero_mul] at hv; omega
    · exact h'
  obtain ⟨n', hn'⟩ : ∃ n', np = n' + 1 := ⟨np - 1, by omega⟩
  obtain ⟨c', hc'⟩ : ∃ c', b.nc = c' + 1 := ⟨b.nc - 1, by omega⟩
  rcases hem with rfl | rfl
  · have hq1 : b.qComp .interp = 1 := by simp [Bas.qComp, hH]
    unfold toPoints
    simp only
    rcases loop_dich (L := v.len) (fun p => ∀ c < b.nc, c * np + p < v.len) (fun p hp v' hv' =>
      evalPoint_dich (fun _ => false) (fun c => c * np + p) (junk p 0) hd hQ hp hx hco v' hv') v rfl with e | ⟨_, h'⟩
    · exact e
    · have := h' n' (by omega) c' (by omega)
      have e : np * b.nc * b.qComp .interp = c' * np + n' + 1 := by rw [hq1, hc', hn']; ring
      omega
  · have hqd : b.qComp .grad = b.dim := by simp [Bas.qComp]
    obtain ⟨d', hd'⟩ : ∃ d', b.dim = d' + 1 := ⟨b.dim - 1, by omega⟩
    unfold toPoints
    simp only
    rcases loop_dich (L := v.len) (fun p => ∀ k < b.dim, ∀ c < b.nc, (k * b.nc + c) * np + p < v.len) (fun p hp v' hv' =>
      loop_dich (fun k => ∀ c < b.nc, (k * b.nc + c) * np + p < v.len) (fun k hk v'' hv'' =>
        evalPoint_dich (fun d => decide (k = d)) (fun c => (k * b.nc + c) * np + p) (junk p k) hd hQ hp hx hco v'' hv'')
          v' hv') v rfl with e | ⟨_, h'⟩
    · exact e
    · have := h' n' (by omega) d' (by omega) c' (by omega)
      have e : np * b.nc * b.qComp .grad = (d' * b.nc + c') * np + n' + 1 := by rw [hqd, hc', hn', hd']; ring
      omega

/-- C25, memory safety: with a correct input, an output vector without room for the values at the points is not rejected, and entries past its
end are written. -/
theorem C25_short_output_witness (h0 : Fresh s0 i1 g1 w q) (hs : Used s0 s) {en : Env K} (hen : Exact en) {em : EMode}
    (hem : em = .interp ∨ em = .grad) {np : Buf Nat} (hnp : 0 < np.len) {x u v : Buf K} (hx : np.val 0 * s0.bas.dim ≤ x.len)
    (hu : s0.bas.nc * s0.bas.P ≤ u.len) (hv : v.len < np.val 0 * s0.bas.nc * s0.bas.qComp em) :
    applyAtPoints en 1 np .noTranspose em (some x) (some u) v s = .ub := by
  have h := used_inv h0 hs
  obtain ⟨hT, _⟩ := tensorOK_of h0.basis
  obtain ⟨s1, c, e1, h1, hc, hco⟩ := ensureCheb_ok hen h0 h
  obtain ⟨ci, co, hci, e2, hlen, hval⟩ := cheb_nt hco hT.hP en.junk hu
  obtain ⟨s2, e3, h2⟩ := setCoefs_ok h1 hc hlen
  have e4 := toPoints_short hem hT.h1 en.junkP hT.dim h0.two hx (co := co) (by omega) hv
  have hw : em ≠ .weight := by rcases hem with rfl | rfl <;> simp
  unfold applyAtPoints
  rw [M.bind_apply, h.bas, checkDims_nt hem hnp hx hu, M.lift_ok, Out.bind_ok]
  unfold corePoints
  rw [M.bind_apply, Buf.rd_lt hnp, M.lift_ok, Out.bind_ok, h.bas, M.bind_apply, M.check_true hT.dim, Out.bind_ok, M.bind_apply,
    M.check_true hT.tensor, Out.bind_ok, M.bind_apply, M.check_true rfl, Out.bind_ok, if_neg hw, M.bind_apply, e1, Out.bind_ok]
  simp only
  rw [M.bind_apply, e2, M.lift_ok, Out.bind_ok, M.bind_apply, e3, Out.bind_ok, M.bind_apply]
  unfold readArray
  simp only
  rw [M.lift_ok, Out.bind_ok, e4, M.lift_ub]

/-! ## Examples -/

/-- Exact arithmetic over the reals. -/
noncomputable def exEnv : Env ℝ := by
  classical
  exact ⟨Real.sqrt, fun x => decide (x = 0), fun _ => 1, fun _ => 2, fun _ _ => 3, fun _ _ _ _ => 4⟩

theorem exEnv_exact : Exact exEnv := by
  refine ⟨fun x hx => ⟨Real.sqrt_nonneg x, Real.mul_self_sqrt hx⟩, ?_⟩
  intro x hx
  simpa [exEnv] using hx

/-- A basis of two components in two dimensions with two nodes and three quadrature points per direction meets the hypotheses. -/
example : ∃ I G b, fornberg 2 3 (Buf.ofList [-1, 1]) (Buf.ofList [0, 1, 2] : Buf ℝ) = .ok (I, G) ∧ b.dim = 2 ∧ b.nc = 2 ∧ b.P1 = 2 ∧
    b.Q1 = 3 ∧ Fresh ⟨b, Buf.ofList [0, 1, 2], none⟩ I G (Buf.ofList [1, 1, 1]) (Buf.ofList [0, 1, 2]) := by
  obtain ⟨I, G, b, e, _, h⟩ := C25_fresh exEnv_exact.1 (fun _ => 0) (fun _ => 0) exEnv_exact.2 (dim := 2) (nc := 2) (P := 2) (Q := 3)
    (by omega) (by omega) (by omega) (by omega) (nodes := Buf.ofList [-1, 1]) (q := Buf.ofList [0, 1, 2]) (w := Buf.ofList [1, 1, 1])
    (by simp [Buf.ofList]) (by simp [Buf.ofList]) (by simp [Buf.ofList])
    (by
      intro i hi j hj
      interval_cases i <;> interval_cases j <;> norm_num [Buf.ofList])
    (by
      intro i hi j hj
      interval_cases i <;> interval_cases j <;> norm_num [Buf.ofList])
  exact ⟨I, G, b, e, h⟩

end Basis
end Verif
