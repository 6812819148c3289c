import Verif.Flops.Props
import Verif.Basis.Points
import Verif.Flops.Examples
import Mathlib.Algebra.Field.Rat

/-!
# C47: estimates for evaluation at points

The loops of `Verif/Basis/Points.lean` from Chebyshev coefficients to values at points, with a counter of multiplications,
additions and subtractions of scalars.
-/

namespace Verif
namespace Flops

open Restriction (TMode)
open Basis (Bas EMode chebVals chebDers pointRow pointMats evalPoint toPoints)
open Finset (range)

variable {K : Type} [Field K]

/-- `interface/ceed-basis.c` 48-53 (`Basis.chebVals`), counting: one multiplication in line 50, three operations in line 51. -/
def chebValsC (x : K) (n : Nat) (out : Buf K) (off : Nat) : Res (Buf K × Nat) := do
  let out ← out.wr off 1
  let out ← out.wr (off + 1) (2 * x)
  loop (n - 2) (fun i' (w : Buf K × Nat) => do
    let a ← w.1.rd (off + (i' + 1))
    let b ← w.1.rd (off + i')
    let v ← w.1.wr (off + (i' + 2)) (2 * x * a - b)
    Res.ok (v, w.2 + 3)) (out, 1)

/-- `interface/ceed-basis.c` 66-80 (`Basis.chebDers`), counting: one multiplication in line 70, three operations in line 76
and five in line 77. -/
def chebDersC (x : K) (n : Nat) (out : Buf K) : Res (Buf K × Nat) := do
  let out ← out.wr 0 0
  let out ← out.wr 1 2
  let s ← loop (n - 2) (fun i' (w : (K × K × Buf K) × Nat) => do
    let x0 := w.1.1
    let x1 := w.1.2.1
    let x2 := 2 * x * x1 - x0
    let a ← w.1.2.2.rd (i' + 1)
    let b ← w.1.2.2.rd i'
    let out ← w.1.2.2.wr (i' + 2) (2 * x * a + 2 * x1 - b)
    Res.ok ((x1, x2, out), w.2 + 8)) ((1, 2 * x, out), 1)
  .ok (s.1.2.2, s.2)

/-- `Basis.pointRow`, counting; lines 535 and 556-557. -/
def pointRowC (der : Bool) (x : K) (n : Nat) (out : Buf K) : Res (Buf K × Nat) :=
  if der then chebDersC x n out else chebValsC x n out 0

/-- `Basis.pointMats`, counting; lines 535 and 556-557 for all directions. -/
def pointMatsC (dim np Q1 p : Nat) (x : Buf K) (deriv : Nat → Bool) (junk : Nat → K) : Res ((Nat → Buf K) × Nat) :=
  loop dim (fun d (w : (Nat → Buf K) × Nat) => do
    let xd ← x.rd (d * np + p)
    let m ← pointRowC (deriv d) xd Q1 ⟨Q1, junk⟩
    Res.ok ((fun d' => if d' = d then m.1 else w.1 d'), w.2 + m.2)) ((fun _ => ⟨0, fun _ => 0⟩), 0)

/-- `Basis.evalPoint`, counting; lines 531-542 and 552-564. -/
def evalPointC (b : Bas K) (np p : Nat) (x co : Buf K) (deriv : Nat → Bool) (pos : Nat → Nat) (junk : Nat → Nat → K)
    (v : Buf K) : Res (Buf K × Nat) := do
  let m ← pointMatsC b.dim np b.Q1 p x deriv (junk 3)
  let t ← chainC b.dim b.nc 1 b.Q1 1 b.coefs m.1 .noTranspose false junk co 0 ⟨b.coefs, junk 2⟩ 0
  let v ← loop b.nc (fun c v => do
    let y ← t.1.rd c
    v.wr (pos c) y) v
  Res.ok (v, m.2 + t.2)

/-- `Basis.toPoints`, counting; lines 525-571. -/
def toPointsC (b : Bas K) (em : EMode) (np : Nat) (x co : Buf K) (junk : Nat → Nat → Nat → Nat → K) (v : Buf K) :
    Res (Buf K × Nat) :=
  match em with
  | .interp => loop np (fun p (w : Buf K × Nat) => do
      let r ← evalPointC b np p x co (fun _ => false) (fun c => c * np + p) (junk p 0) w.1
      Res.ok (r.1, w.2 + r.2)) (v, 0)
  | .grad => loop np (fun p w => loop b.dim (fun pass (w : Buf K × Nat) => do
      let r ← evalPointC b np p x co (fun d => decide (pass = d)) (fun c => (pass * b.nc + c) * np + p) (junk p pass) w.1
      Res.ok (r.1, w.2 + r.2)) w) (v, 0)
  | _ => .ok (v, 0)

/-! ## Counts -/

/-- Operations for the values or derivatives of `n` Chebyshev polynomials at one coordinate. -/
def rowCount (der : Bool) (n : Nat) : Nat := 1 + (n - 2) * (if der then 8 else 3)

theorem pointRowC_eq (der : Bool) (x : K) (n : Nat) (out : Buf K) :
    pointRowC der x n out = tick (pointRow der x n out) (rowCount der n) := by
  unfold pointRowC pointRow rowCount
  cases der
  · simp only [Bool.false_eq_true, if_false]
    unfold chebValsC chebVals
    rw [tick_bind]
    refine bind_congr' _ fun o1 => ?_
    rw [tick_bind]
    refine bind_congr' _ fun o2 => ?_
    rw [loop_tick_const (w := 3) (body := fun i' out => do
      let a ← out.rd (0 + (i' + 1))
      let b ← out.rd (0 + i')
      out.wr (0 + (i' + 2)) (2 * x * a - b))]
    intro i _ s k
    simp only [tick_bind]
    refine bind_congr' _ fun a => bind_congr' _ fun b => ?_
    rfl
  · simp only [if_true]
    unfold chebDersC chebDers
    rw [tick_bind]
    refine bind_congr' _ fun o1 => ?_
    rw [tick_bind]
    refine bind_congr' _ fun o2 => ?_
    rw [loop_tick_const (w := 8) (body := fun i' (s : K × K × Buf K) => do
      let x0 := s.1
      let x1 := s.2.1
      let x2 := 2 * x * x1 - x0
      let a ← s.2.2.rd (i' + 1)
      let b ← s.2.2.rd i'
      let out ← s.2.2.wr (i' + 2) (2 * x * a + 2 * x1 - b)
      .ok (x1, x2, out)), bind_tick, tick_bind]
    · rfl
    intro i _ s k
    simp only [tick_bind]
    refine bind_congr' _ fun a => bind_congr' _ fun b => bind_congr' _ fun c => ?_
    rfl

theorem pointMatsC_eq (dim np Q1 p : Nat) (x : Buf K) (deriv : Nat → Bool) (junk : Nat → K) :
    pointMatsC dim np Q1 p x deriv junk =
      tick (pointMats dim np Q1 p x deriv junk) (∑ d ∈ range dim, rowCount (deriv d) Q1) := by
  unfold pointMatsC pointMats
  rw [loop_tick (fun d => rowCount (deriv d) Q1) (body := fun d (f : Nat → Buf K) => do
    let xd ← x.rd (d * np + p)
    let m ← pointRow (deriv d) xd Q1 ⟨Q1, junk⟩
    .ok (fun d' => if d' = d then m else f d')), Nat.zero_add]
  intro d _ s k
  rw [tick_bind]
  refine bind_congr' _ fun xd => ?_
  rw [pointRowC_eq, bind_tick, tick_bind]
  rfl

/-- Operations for one point. -/
def pointCount (b : Bas K) (deriv : Nat → Bool) : Nat :=
  ∑ d ∈ range b.dim, rowCount (deriv d) b.Q1 + contractions b.dim b.nc b.Q1 1

theorem evalPointC_eq {b : Bas K} (hQ : 0 < b.Q1) (np p : Nat) (x co : Buf K) (deriv : Nat → Bool) (pos : Nat → Nat)
    (junk : Nat → Nat → K) (v : Buf K) :
    evalPointC b np p x co deriv pos junk v = tick (evalPoint b np p x co deriv pos junk v) (pointCount b deriv) := by
  unfold evalPointC evalPoint pointCount
  rw [pointMatsC_eq, bind_tick, tick_bind]
  refine bind_congr' _ fun m => ?_
  rw [chainC_eq _ _ _ _ _ _ hQ, bind_tick, tick_bind]
  refine bind_congr' _ fun t => ?_
  rw [Nat.one_mul]
  rfl

/-- The operations for all points. -/
def pointsCount (b : Bas K) (em : EMode) (np : Nat) : Nat :=
  match em with
  | .interp => np * pointCount b fun _ => false
  | .grad => np * ∑ pass ∈ range b.dim, pointCount b fun d => decide (pass = d)
  | _ => 0

theorem toPointsC_eq {b : Bas K} (hQ : 0 < b.Q1) (em : EMode) (np : Nat) (x co : Buf K) (junk : Nat → Nat → Nat → Nat → K)
    (v : Buf K) : toPointsC b em np x co junk v = tick (toPoints b em np x co junk v) (pointsCount b em np) := by
  unfold toPointsC toPoints pointsCount
  cases em <;> try rfl
  · dsimp only
    rw [loop_tick_const (w := pointCount b fun _ => false) (body := fun p v =>
      evalPoint b np p x co (fun _ => false) (fun c => c * np + p) (junk p 0) v), Nat.zero_add]
    intro p _ s k
    rw [evalPointC_eq hQ, bind_tick]
    rfl
  · dsimp only
    rw [loop_tick_const (w := ∑ pass ∈ range b.dim, pointCount b fun d => decide (pass = d)) (body := fun p v =>
      loop b.dim (fun pass v => evalPoint b np p x co (fun d => decide (pass = d)) (fun c => (pass * b.nc + c) * np + p)
        (junk p pass) v) v), Nat.zero_add]
    intro p _ s k
    rw [loop_tick (fun pass => pointCount b fun d => decide (pass = d)) (body := fun pass v =>
      evalPoint b np p x co (fun d => decide (pass = d)) (fun c => (pass * b.nc + c) * np + p) (junk p pass) v)]
    intro q _ s k
    rw [evalPointC_eq hQ, bind_tick]
    rfl

/-! ## Properties -/

/-- The counter does not change what evaluation at points returns. -/
theorem C47_same_points {b : Bas K} (hQ : 0 < b.Q1) (em : EMode) (np : Nat) (x co : Buf K)
    (junk : Nat → Nat → Nat → Nat → K) (v : Buf K) :
    (toPointsC b em np x co junk v >>= fun p => Res.ok p.1) = toPoints b em np x co junk v := by
  rw [toPointsC_eq hQ, bind_tick]
  simp

theorem pointTensorFlops_go (dim P Q : Nat) (hQ : 0 < Q) (hP : P = Q) (n : Nat) (hn : n ≤ dim) :
    (pointTensorFlops.go P Q n (0, Q ^ (dim - 1), 1)).1 = n * (2 * Q ^ dim) ∧
    (n < dim → (pointTensorFlops.go P Q n (0, Q ^ (dim - 1), 1)).2.1 = Q ^ (dim - 1 - n)) ∧
    (pointTensorFlops.go P Q n (0, Q ^ (dim - 1), 1)).2.2 = Q ^ n := by
  subst hP
  induction n with
  | zero => simp [pointTensorFlops.go]
  | succ n ih =>
    obtain ⟨h1, h2, h3⟩ := ih (by omega)
    have h2 := h2 (by omega)
    unfold pointTensorFlops.go
    dsimp only
    refine ⟨?_, ?_, ?_⟩
    · rw [h1, h2, h3, show P ^ dim = P ^ (dim - 1 - n) * P * P ^ n by
        rw [← pow_succ, ← pow_add]; congr 1; omega]
      ring
    · intro hd
      have := pow_step (nc := 1) hQ hd
      rw [h2]
      simpa using this
    · rw [h3, pow_succ]

theorem contractions_one (dim Q : Nat) : contractions dim 1 Q 1 = ∑ d ∈ range dim, 2 * Q ^ (dim - d) := by
  unfold contractions
  refine Finset.sum_congr rfl fun d hd => ?_
  have hd := Finset.mem_range.1 hd
  rw [show dim - d = dim - 1 - d + 1 by omega, pow_succ]
  ring

/-- What the estimate adds to what is done for each point, direction by direction: it takes every contraction to be as large as
the first one. -/
def excess (dim Q : Nat) : Nat := ∑ d ∈ range dim, 2 * (Q ^ dim - Q ^ (dim - d))

theorem excess_eq {dim Q : Nat} (hQ : 0 < Q) : contractions dim 1 Q 1 + excess dim Q = dim * (2 * Q ^ dim) := by
  rw [contractions_one, excess, ← Finset.sum_add_distrib]
  rw [Finset.sum_congr rfl (g := fun _ => 2 * Q ^ dim) fun d _ => ?_]
  · simp
  · have : Q ^ (dim - d) ≤ Q ^ dim := Nat.pow_le_pow_right hQ (by omega)
    omega

theorem rowCount_int (der : Bool) {Q : Nat} (hQ : 2 ≤ Q) :
    (rowCount der Q : Int) = ((Q : Int) - 2) * (if der then 8 else 3) + 1 := by
  unfold rowCount
  rw [Nat.cast_add, Nat.cast_mul, Nat.cast_sub hQ]
  cases der <;> simp <;> ring

/-- One component, as many quadrature points as nodes, at least two: the estimate for the values or the gradient of an
element at `np` points is what interpolation to Chebyshev coefficients and evaluation at the points do, and `excess` for every
point (and every direction of the gradient). In one dimension nothing is in excess. -/
theorem C47_at_points_partial {b : Bas K} (ht : b.isTensor = true) (hc : b.nc = 1) (hPQ : b.P1 = b.Q1) (hQ : 2 ≤ b.Q1)
    {em : EMode} (hem : em = .interp ∨ em = .grad) {c : Bas K} (hct : c.isTensor = true)
    (hcs : c.dim = b.dim ∧ c.nc = b.nc ∧ c.P1 = b.P1 ∧ c.Q1 = b.Q1) (hcc : c.colloInterp = false) {junk : Nat → Nat → K}
    {junk' : Nat → Nat → Nat → Nat → K} {np : Nat} {u x co co' v v' : Buf K} {n1 n2 : Nat}
    (h1 : applyCoreC c junk false 1 .noTranspose .interp (some u) co = .ok (co', n1))
    (h2 : toPointsC b em np x co' junk' v = .ok (v', n2)) :
    basisFlops b .noTranspose em true np =
      .ok (((n1 + n2 + np * ((if em = .grad then b.dim else 1) * excess b.dim b.Q1) : Nat)) : Int) := by
  obtain ⟨e1, e2, e3, e4⟩ := hcs
  have hQ0 : 0 < b.Q1 := by omega
  rw [applyCoreC_eq (fun _ => by rw [e3, e4, hPQ]; exact ⟨hQ0, hQ0⟩), tick_eq_ok] at h1
  rw [toPointsC_eq hQ0, tick_eq_ok] at h2
  obtain ⟨_, h1⟩ := h1
  obtain ⟨_, h2⟩ := h2
  dsimp only at h1 h2
  have hn1 : n1 = contractions b.dim b.nc b.P1 b.Q1 := by
    rw [h1]; simp [basisCount, hct, interpCount, hcc, e1, e2, e3, e4]
  have hpf : pointTensorFlops b.dim b.P1 b.Q1 = b.dim * (2 * b.Q1 ^ b.dim) :=
    (pointTensorFlops_go b.dim b.P1 b.Q1 hQ0 hPQ b.dim le_rfl).1
  have hx := excess_eq (dim := b.dim) hQ0
  rcases hem with rfl | rfl
  · have hn2 : n2 = np * (b.dim * rowCount false b.Q1 + contractions b.dim 1 b.Q1 1) := by
      rw [h2]; simp [pointsCount, pointCount, hc]
    have hr := rowCount_int false hQ
    simp only [basisFlops, ht, if_true, tensorFlops_eq _ _ _ _ (show 0 < b.P1 by omega), hpf, Bool.true_eq_false, false_or,
      Res.check_true, Res.bind_ok, ← hx, hn1, hn2]
    congr 1
    simp only [Bool.false_eq_true, if_false] at hr
    push_cast
    rw [hr]
    ring
  · have hrow : ∀ pass ∈ range b.dim, ∑ d ∈ range b.dim, rowCount (decide (pass = d)) b.Q1 =
        rowCount true b.Q1 + (b.dim - 1) * rowCount false b.Q1 := by
      intro pass hp
      rw [← Finset.add_sum_erase _ _ hp]
      congr 1
      · simp
      · rw [Finset.sum_congr rfl (g := fun _ => rowCount false b.Q1) fun d hd => ?_]
        · simp [Finset.card_erase_of_mem hp]
        · have := (Finset.mem_erase.1 hd).1
          simp [this.symm]
    have hn2 : n2 = np * (b.dim * (rowCount true b.Q1 + (b.dim - 1) * rowCount false b.Q1 + contractions b.dim 1 b.Q1 1)) := by
      rw [h2]
      simp only [pointsCount, pointCount, hc]
      rw [Finset.sum_congr rfl fun p hp => by rw [hrow p hp]]
      simp
    have hr := rowCount_int false hQ
    have hr' := rowCount_int true hQ
    simp only [basisFlops, ht, if_true, tensorFlops_eq _ _ _ _ (show 0 < b.P1 by omega), hpf, Bool.true_eq_false, false_or,
      Res.check_true, Res.bind_ok, ← hx, hn1, hn2]
    congr 1
    simp only [Bool.false_eq_true, if_false, if_true] at hr hr'
    by_cases hd : b.dim = 0
    · simp [hd]
    push_cast [Nat.cast_sub (show 1 ≤ b.dim by omega)]
    rw [hr, hr']
    ring

/-- In one dimension, nothing is in excess. -/
theorem C47_excess_one (Q : Nat) : excess 1 Q = 0 := by simp [excess]

theorem avg_total (p : Nat → Nat) (n : Nat) : avgPoints.total p n = ∑ i ∈ range n, p i := by
  induction n with
  | zero => rfl
  | succ n ih => rw [Finset.sum_range_succ, ← ih]; rfl

/-- The number of points per element used for the estimate of an operator is the average, rounded up: the smallest number that
gives room for all points. -/
theorem C47_average_points {ne : Nat} (hn : 0 < ne) (p : Nat → Nat) (k : Nat) :
    avgPoints ne p ≤ k ↔ ∑ e ∈ range ne, p e ≤ ne * k := by
  unfold avgPoints
  rw [avg_total]
  generalize ∑ i ∈ range ne, p i = t
  have h := Nat.div_add_mod t ne
  have hm := Nat.mod_lt t hn
  generalize t / ne = q at *
  generalize t % ne = r at *
  subst h
  by_cases hr : 0 < r
  · rw [if_pos hr]
    constructor
    · intro h
      have : ne * (q + 1) ≤ ne * k := Nat.mul_le_mul_left _ h
      rw [Nat.mul_add, Nat.mul_one] at this
      omega
    · intro h
      by_contra hk
      have : ne * k ≤ ne * q := Nat.mul_le_mul_left _ (by omega)
      omega
  · rw [if_neg hr]
    obtain rfl : r = 0 := by omega
    simp only [Nat.add_zero]
    exact (Nat.mul_le_mul_left_iff hn).symm

/-! ## Examples -/

/-- A basis in two dimensions with two nodes and quadrature points in each direction. -/
def pb (nc : Nat) : Bas Rat where
  isTensor := true
  isH1 := true
  dim := 2
  nc := nc
  P1 := 2
  Q1 := 2
  P := 4
  Q := 4
  interp1 := ⟨4, fun i => 1 + i⟩
  grad1 := ⟨4, fun _ => 0⟩
  qWeight := ⟨2, fun _ => 0⟩
  interp := none
  grad := none
  div := none
  curl := none
  colloInterp := false
  colloGrad := none

/-- Three points, one component: 32 operations for the coefficients, 42 for the points; the estimate is 86, which is 12 more. -/
theorem ex_points : opsOf (applyCoreC (pb 1) (fun _ _ => 7) false 1 .noTranspose .interp (some ⟨4, fun i => i⟩) ⟨4, fun _ => 0⟩) =
      some 32 ∧
    opsOf (toPointsC (pb 1) .interp 3 ⟨6, fun i => i⟩ ⟨4, fun i => i⟩ (fun _ _ _ _ => 7) ⟨3, fun _ => 0⟩) = some 42 ∧
    (match basisFlops (pb 1) .noTranspose .interp true 3 with | .ok f => f == 86 | _ => false) = true ∧ excess 2 2 = 4 := by
  decide +kernel

/-- The hypotheses of `C47_at_points_partial` hold for it. -/
example : ∃ co' v', applyCoreC (pb 1) (fun _ _ => 7) false 1 .noTranspose .interp (some ⟨4, fun i => i⟩) ⟨4, fun _ => 0⟩ =
      .ok (co', 32) ∧
    toPointsC (pb 1) .interp 3 ⟨6, fun i => i⟩ co' (fun _ _ _ _ => 7) ⟨3, fun _ => 0⟩ = .ok (v', 42) := by
  obtain ⟨s, hs⟩ := opsOf_some ex_points.1
  rw [applyCoreC_eq (fun _ => ⟨by decide, by decide⟩), tick_eq_ok] at hs
  obtain ⟨h1, h2⟩ := hs
  cases h1
  exact ⟨_, _, rfl, rfl⟩

/-- C47 fails at points for several components: with two components and three points 78 operations are done after 64 for the
coefficients, and the estimate is 118, because components are left out of the estimate for the points. -/
theorem C47_points_components_witness :
    opsOf (applyCoreC (pb 2) (fun _ _ => 7) false 1 .noTranspose .interp (some ⟨8, fun i => i⟩) ⟨8, fun _ => 0⟩) = some 64 ∧
    opsOf (toPointsC (pb 2) .interp 3 ⟨6, fun i => i⟩ ⟨8, fun i => i⟩ (fun _ _ _ _ => 7) ⟨6, fun _ => 0⟩) = some 78 ∧
    (match basisFlops (pb 2) .noTranspose .interp true 3 with | .ok f => f == 118 | _ => false) = true := by
  decide +kernel

/-- Seven points in three elements: three points per element. -/
example : avgPoints 3 (fun e => 2 ^ e) = 3 := by decide

end Flops
end Verif
