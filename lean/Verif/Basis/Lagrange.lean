import Verif.Basis.Model
import Mathlib.LinearAlgebra.Lagrange

/-!
# Lagrange bases

Models the tabulation in `CeedBasisCreateTensorH1Lagrange`, `interface/ceed-basis.c` 1515-1574. Scalars are an arbitrary
field; the nodes and quadrature points come from Newton iterations that are not modelled (they are arbitrary here).
-/

namespace Verif
namespace Basis

variable {K : Type} [Field K]

/-- Loop-carried variables of the loop over `k`, lines 1551-1560: `interp_1d`, `grad_1d`, `c2`. -/
structure FornK (K : Type) where
  interp : Buf K
  grad : Buf K
  c2 : K

/-- Lines 1554-1557: the entries of a new node; `b` is `i * P`. -/
def fornNew (b j k : Nat) (c1 c4 : K) (s : FornK K) : Res (FornK K) :=
  if k + 1 = j then do
    let a ← s.interp.rd (b + k)
    let g ← s.grad.rd (b + k)
    let grad ← s.grad.wr (b + j) (c1 * (a - c4 * g) / s.c2)
    let interp ← s.interp.wr (b + j) (-c1 * c4 * a / s.c2)
    .ok ⟨interp, grad, s.c2⟩
  else .ok s

/-- Lines 1551-1560: one iteration of the loop over `k`. -/
def fornStep (nodes : Buf K) (b j : Nat) (c1 c3 c4 : K) (k : Nat) (s : FornK K) : Res (FornK K) := do
  let xj ← nodes.rd j
  let xk ← nodes.rd k
  let dx := xj - xk
  let s ← fornNew b j k c1 c4 ⟨s.interp, s.grad, s.c2 * dx⟩
  let g ← s.grad.rd (b + k)
  let a ← s.interp.rd (b + k)
  let grad ← s.grad.wr (b + k) ((c3 * g - a) / dx)
  let interp ← s.interp.wr (b + k) (c3 * a / dx)
  .ok ⟨interp, grad, s.c2⟩

/-- Loop-carried variables of the loop over `j`, lines 1547-1562. -/
structure FornJ (K : Type) where
  interp : Buf K
  grad : Buf K
  c1 : K
  c3 : K

/-- Lines 1548-1561: one iteration of the loop over `j = j' + 1`; `z` is `q_ref_1d[i]`. -/
def fornNode (nodes : Buf K) (b : Nat) (z : K) (j' : Nat) (s : FornJ K) : Res (FornJ K) := do
  let j := j' + 1
  let c4 := s.c3
  let xj ← nodes.rd j
  let c3 := xj - z
  let t ← loop j (fornStep nodes b j s.c1 c3 c4) ⟨s.interp, s.grad, 1⟩
  .ok ⟨t.interp, t.grad, t.c2, c3⟩

/-- Lines 1544-1563: row `i` of both matrices. -/
def fornRow (nodes qref : Buf K) (P i : Nat) (s : Buf K × Buf K) : Res (Buf K × Buf K) := do
  let x0 ← nodes.rd 0
  let z ← qref.rd i
  let interp ← s.1.wr (i * P) 1
  let t ← loop (P - 1) (fornNode nodes (i * P) z) ⟨interp, s.2, 1, x0 - z⟩
  .ok (t.interp, t.grad)

/-- Lines 1525-1526, 1543-1564: the matrices `interp_1d`, `grad_1d`. -/
def fornberg (P Q : Nat) (nodes qref : Buf K) : Res (Buf K × Buf K) :=
  loop Q (fornRow nodes qref P) (⟨P * Q, fun _ => 0⟩, ⟨P * Q, fun _ => 0⟩)

/-- `CeedQuadMode`. -/
inductive QuadMode
  | gauss | gaussLobatto
deriving DecidableEq, Repr

/-- Results of the Newton iterations: `gauss Q`, `lobatto Q` are points and weights. -/
structure Quad (K : Type) where
  gauss : Nat → Buf K × Buf K
  lobatto : Nat → Buf K × Buf K

/-- The arrays have the required lengths. -/
def Quad.Sized (q : Quad K) : Prop :=
  ∀ n, (q.gauss n).1.len = n ∧ (q.gauss n).2.len = n ∧ (q.lobatto n).1.len = n ∧ (q.lobatto n).2.len = n

/-- `CeedLobattoQuadrature`, `interface/ceed-basis.c` 2440-2493: only the check of the number of points (line 2445) is modelled. -/
def Quad.lobattoRule (q : Quad K) (n : Nat) : Res (Buf K × Buf K) :=
  if 1 < n then .ok (q.lobatto n) else .err .dimension

/-- Lines 1531-1541: `none` stands for the jump to `cleanup`. -/
def Quad.rule (q : Quad K) (mode : QuadMode) (n : Nat) : Res (Buf K × Buf K) :=
  match mode with
  | .gauss => .ok (q.gauss n)
  | .gaussLobatto => q.lobattoRule n

/-- `CeedBasisCreateTensorH1Lagrange`, `interface/ceed-basis.c` 1515-1574. The result `none` is a successful return without a
basis: errors of the quadrature functions jump to `cleanup`, and the function returns `CEED_ERROR_SUCCESS` (line 1573). -/
def createLagrange (near : K → Bool) (collo : Nat → Nat → Buf K → Buf K → Res (Buf K)) (quad : Quad K) (dim nc P Q : Int)
    (mode : QuadMode) : Res (Option (Bas K)) := do
  Res.check (0 < dim) .dimension
  Res.check (0 < nc) .dimension
  Res.check (0 < P) .dimension
  Res.check (0 < Q) .dimension
  match quad.lobattoRule P.toNat, quad.rule mode Q.toNat with
  | .ok (nodes, _), .ok (qref, w) => do
    let (interp, grad) ← fornberg P.toNat Q.toNat nodes qref
    let b ← createTensorH1 near collo dim nc P Q interp grad w
    .ok (some b)
  | _, _ => .ok none

/-! ## Recurrences of the cardinal polynomials -/

open Polynomial Finset

theorem basis_old (x : Nat → K) {i m : Nat} (hm : m ≤ i) :
    Lagrange.basis (range (i + 2)) x m = Lagrange.basis (range (i + 1)) x m * Lagrange.basisDivisor (x m) (x (i + 1)) := by
  unfold Lagrange.basis
  rw [range_add_one (n := i + 1), erase_insert_of_ne (by omega), prod_insert (by simp), mul_comm]

theorem basis_new (x : Nat → K) (i : Nat) :
    Lagrange.basis (range (i + 1)) x i = C (∏ m ∈ range i, (x i - x m))⁻¹ * Lagrange.nodal (range i) x := by
  unfold Lagrange.basis Lagrange.basisDivisor Lagrange.nodal
  rw [range_add_one, erase_insert (by simp), prod_mul_distrib, ← map_prod, prod_inv_distrib]

theorem eval_old (x : Nat → K) (z : K) {i m : Nat} (hm : m ≤ i) :
    (Lagrange.basis (range (i + 2)) x m).eval z =
      (x (i + 1) - z) * (Lagrange.basis (range (i + 1)) x m).eval z / (x (i + 1) - x m) := by
  rw [basis_old x hm]
  simp only [Lagrange.basisDivisor, eval_mul, eval_C, eval_sub, eval_X]
  rw [show x m - x (i + 1) = -(x (i + 1) - x m) by ring, inv_neg]
  ring

theorem deriv_old (x : Nat → K) (z : K) {i m : Nat} (hm : m ≤ i) :
    (derivative (Lagrange.basis (range (i + 2)) x m)).eval z =
      ((x (i + 1) - z) * (derivative (Lagrange.basis (range (i + 1)) x m)).eval z -
        (Lagrange.basis (range (i + 1)) x m).eval z) / (x (i + 1) - x m) := by
  rw [basis_old x hm]
  simp only [Lagrange.basisDivisor, derivative_mul, derivative_C, derivative_sub, derivative_X, eval_mul, eval_C, eval_sub,
    eval_X, eval_add, eval_zero, eval_one]
  rw [show x m - x (i + 1) = -(x (i + 1) - x m) by ring, inv_neg]
  ring

theorem eval_new (x : Nat → K) (z : K) {i : Nat} (hd : ∏ m ∈ range i, (x i - x m) ≠ 0) :
    (Lagrange.basis (range (i + 2)) x (i + 1)).eval z =
      -(∏ m ∈ range i, (x i - x m)) * (x i - z) * (Lagrange.basis (range (i + 1)) x i).eval z /
        ∏ m ∈ range (i + 1), (x (i + 1) - x m) := by
  rw [basis_new x (i + 1), basis_new x i]
  unfold Lagrange.nodal
  simp only [eval_mul, eval_C, prod_range_succ (fun m => X - C (x m)) i, eval_sub, eval_X]
  field_simp
  ring

theorem deriv_new (x : Nat → K) (z : K) {i : Nat} (hd : ∏ m ∈ range i, (x i - x m) ≠ 0) :
    (derivative (Lagrange.basis (range (i + 2)) x (i + 1))).eval z =
      (∏ m ∈ range i, (x i - x m)) * ((Lagrange.basis (range (i + 1)) x i).eval z - (x i - z) *
        (derivative (Lagrange.basis (range (i + 1)) x i)).eval z) / ∏ m ∈ range (i + 1), (x (i + 1) - x m) := by
  rw [basis_new x (i + 1), basis_new x i]
  unfold Lagrange.nodal
  simp only [prod_range_succ (fun m => X - C (x m)) i, derivative_mul, derivative_C, derivative_sub, derivative_X, eval_mul,
    eval_C, eval_sub, eval_X, eval_add, eval_zero, eval_one]
  field_simp
  ring

/-! ## The loops -/

/-- State of the loop over `k`: `A`, `G` are the rows before. -/
structure KInv (x : Nat → K) (b j : Nat) (c1 c3 c4 : K) (s0 : FornK K) (k : Nat) (s : FornK K) : Prop where
  li : s.interp.len = s0.interp.len
  lg : s.grad.len = s0.grad.len
  c2 : s.c2 = ∏ m ∈ range k, (x j - x m)
  doneI : ∀ m < k, s.interp.val (b + m) = c3 * s0.interp.val (b + m) / (x j - x m)
  doneG : ∀ m < k, s.grad.val (b + m) = (c3 * s0.grad.val (b + m) - s0.interp.val (b + m)) / (x j - x m)
  newI : k = j → s.interp.val (b + j) = -c1 * c4 * s0.interp.val (b + (j - 1)) / ∏ m ∈ range j, (x j - x m)
  newG : k = j → s.grad.val (b + j) =
    c1 * (s0.interp.val (b + (j - 1)) - c4 * s0.grad.val (b + (j - 1))) / ∏ m ∈ range j, (x j - x m)
  restI : ∀ y, ¬ (b ≤ y ∧ y < b + k) → (k < j ∨ y ≠ b + j) → s.interp.val y = s0.interp.val y
  restG : ∀ y, ¬ (b ≤ y ∧ y < b + k) → (k < j ∨ y ≠ b + j) → s.grad.val y = s0.grad.val y

theorem fornLoop_ok {nodes : Buf K} {b j : Nat} (hj : 0 < j) (hn : j < nodes.len) (c1 c3 c4 : K) {s0 : FornK K}
    (hi : b + j < s0.interp.len) (hg : b + j < s0.grad.len) (h2 : s0.c2 = 1) :
    ∃ s, loop j (fornStep nodes b j c1 c3 c4) s0 = .ok s ∧ KInv nodes.val b j c1 c3 c4 s0 j s := by
  refine loop_inv (KInv nodes.val b j c1 c3 c4 s0) ?_ ?_
  · exact ⟨rfl, rfl, by simp [h2], fun m hm => absurd hm (by omega), fun m hm => absurd hm (by omega), fun h => absurd h (by omega),
      fun h => absurd h (by omega), fun _ _ _ => rfl, fun _ _ _ => rfl⟩
  · intro k hk s h
    have eI : s.interp.val (b + k) = s0.interp.val (b + k) := h.restI _ (by omega) (Or.inl hk)
    have eG : s.grad.val (b + k) = s0.grad.val (b + k) := h.restG _ (by omega) (Or.inl hk)
    have hli := h.li
    have hlg := h.lg
    have hc2 : s.c2 * (nodes.val j - nodes.val k) = ∏ m ∈ range (k + 1), (nodes.val j - nodes.val m) := by
      rw [h.c2, prod_range_succ]
    unfold fornStep fornNew
    rw [Buf.rd_lt hn, Res.bind_ok, Buf.rd_lt (by omega : k < nodes.len), Res.bind_ok]
    by_cases hkj : k + 1 = j
    · simp only [if_pos hkj, Buf.rd_lt (by omega : b + k < s.interp.len), Buf.rd_lt (by omega : b + k < s.grad.len), Res.bind_ok,
        Buf.wr_lt (by omega : b + j < s.interp.len), Buf.wr_lt (by omega : b + j < s.grad.len)]
      rw [Buf.rd_lt (by show b + k < s.grad.len; omega), Res.bind_ok, Buf.rd_lt (by show b + k < s.interp.len; omega), Res.bind_ok,
        Buf.wr_lt (by show b + k < s.grad.len; omega), Res.bind_ok, Buf.wr_lt (by show b + k < s.interp.len; omega), Res.bind_ok]
      refine ⟨_, rfl, ⟨hli, hlg, hc2, ?_, ?_, ?_, ?_, ?_, ?_⟩⟩
      · intro m hm
        by_cases hmk : m = k
        · subst hmk
          simp only [if_pos, if_neg (show b + m ≠ b + j by omega), eI]
        · simp only [if_neg (show b + m ≠ b + k by omega), if_neg (show b + m ≠ b + j by omega)]
          exact h.doneI m (by omega)
      · intro m hm
        by_cases hmk : m = k
        · subst hmk
          simp only [if_pos, if_neg (show b + m ≠ b + j by omega), eI, eG]
        · simp only [if_neg (show b + m ≠ b + k by omega), if_neg (show b + m ≠ b + j by omega)]
          exact h.doneG m (by omega)
      · intro _
        simp only [if_neg (show b + j ≠ b + k by omega), if_pos]
        rw [hc2, eI, ← hkj, Nat.add_sub_cancel]
      · intro _
        simp only [if_neg (show b + j ≠ b + k by omega), if_pos]
        rw [hc2, eI, eG, ← hkj, Nat.add_sub_cancel]
      · intro y hy hyj
        have : y ≠ b + j := hyj.resolve_left (by omega)
        simp only [if_neg (show y ≠ b + k by omega), if_neg this]
        exact h.restI y (by omega) (Or.inl hk)
      · intro y hy hyj
        have : y ≠ b + j := hyj.resolve_left (by omega)
        simp only [if_neg (show y ≠ b + k by omega), if_neg this]
        exact h.restG y (by omega) (Or.inl hk)
    · simp only [if_neg hkj, Res.bind_ok]
      rw [Buf.rd_lt (by omega : b + k < s.grad.len), Res.bind_ok, Buf.rd_lt (by omega : b + k < s.interp.len), Res.bind_ok,
        Buf.wr_lt (by omega : b + k < s.grad.len), Res.bind_ok, Buf.wr_lt (by omega : b + k < s.interp.len), Res.bind_ok]
      refine ⟨_, rfl, ⟨hli, hlg, hc2, ?_, ?_, fun hh => absurd hh hkj, fun hh => absurd hh hkj, ?_, ?_⟩⟩
      · intro m hm
        by_cases hmk : m = k
        · subst hmk
          simp only [if_pos, eI]
        · simp only [if_neg (show b + m ≠ b + k by omega)]
          exact h.doneI m (by omega)
      · intro m hm
        by_cases hmk : m = k
        · subst hmk
          simp only [if_pos, eI, eG]
        · simp only [if_neg (show b + m ≠ b + k by omega)]
          exact h.doneG m (by omega)
      · intro y hy hyj
        simp only [if_neg (show y ≠ b + k by omega)]
        exact h.restI y (by omega) (Or.inl hk)
      · intro y hy hyj
        simp only [if_neg (show y ≠ b + k by omega)]
        exact h.restG y (by omega) (Or.inl hk)

/-- State of the loop over `j`: the first `j + 1` nodes have been used. -/
structure JInv (x : Nat → K) (b : Nat) (z : K) (s0 : FornJ K) (j : Nat) (s : FornJ K) : Prop where
  li : s.interp.len = s0.interp.len
  lg : s.grad.len = s0.grad.len
  c1 : s.c1 = ∏ m ∈ range j, (x j - x m)
  c3 : s.c3 = x j - z
  valI : ∀ m ≤ j, s.interp.val (b + m) = (Lagrange.basis (range (j + 1)) x m).eval z
  valG : ∀ m ≤ j, s.grad.val (b + m) = (derivative (Lagrange.basis (range (j + 1)) x m)).eval z
  restI : ∀ y, ¬ (b ≤ y ∧ y ≤ b + j) → s.interp.val y = s0.interp.val y
  restG : ∀ y, ¬ (b ≤ y ∧ y ≤ b + j) → s.grad.val y = s0.grad.val y

theorem fornRow_loop {nodes : Buf K} {P b : Nat} (hP : 0 < P) (hn : P ≤ nodes.len)
    (hd : ∀ i < P, ∀ j < i, nodes.val i ≠ nodes.val j) (z : K) {s0 : FornJ K}
    (hi : b + P ≤ s0.interp.len) (hg : b + P ≤ s0.grad.len) (h1 : s0.c1 = 1) (h3 : s0.c3 = nodes.val 0 - z)
    (hI : s0.interp.val b = 1) (hG : s0.grad.val b = 0) :
    ∃ s, loop (P - 1) (fornNode nodes b z) s0 = .ok s ∧ JInv nodes.val b z s0 (P - 1) s := by
  refine loop_inv (JInv nodes.val b z s0) ?_ ?_
  · refine ⟨rfl, rfl, by simp [h1], h3, ?_, ?_, fun _ _ => rfl, fun _ _ => rfl⟩
    · intro m hm
      obtain rfl : m = 0 := by omega
      rw [Nat.add_zero, hI]
      simp
    · intro m hm
      obtain rfl : m = 0 := by omega
      rw [Nat.add_zero, hG]
      simp
  · intro j hj s h
    have hli := h.li
    have hlg := h.lg
    unfold fornNode
    simp only
    rw [Buf.rd_lt (by omega : j + 1 < nodes.len), Res.bind_ok]
    obtain ⟨t, e, k⟩ := fornLoop_ok (nodes := nodes) (b := b) (j := j + 1) (by omega) (by omega) s.c1 (nodes.val (j + 1) - z) s.c3
      (s0 := ⟨s.interp, s.grad, 1⟩) (by show b + (j + 1) < s.interp.len; omega) (by show b + (j + 1) < s.grad.len; omega) rfl
    have hprod : ∏ m ∈ range j, (nodes.val j - nodes.val m) ≠ 0 := by
      rw [prod_ne_zero_iff]
      intro m hm
      exact sub_ne_zero.2 (hd j (by omega) m (mem_range.1 hm))
    rw [e, Res.bind_ok]
    refine ⟨_, rfl, ⟨k.li.trans hli, k.lg.trans hlg, k.c2, rfl, ?_, ?_, ?_, ?_⟩⟩
    · intro m hm
      show t.interp.val (b + m) = _
      by_cases hmj : m = j + 1
      · subst hmj
        rw [k.newI rfl, Nat.add_sub_cancel, eval_new nodes.val z hprod, h.c1, h.c3]
        show _ * s.interp.val (b + j) / _ = _
        rw [h.valI j (by omega)]
      · rw [k.doneI m (by omega), eval_old nodes.val z (by omega : m ≤ j)]
        show _ * s.interp.val (b + m) / _ = _
        rw [h.valI m (by omega)]
    · intro m hm
      show t.grad.val (b + m) = _
      by_cases hmj : m = j + 1
      · subst hmj
        rw [k.newG rfl, Nat.add_sub_cancel, deriv_new nodes.val z hprod, h.c1, h.c3]
        show _ * (s.interp.val (b + j) - _ * s.grad.val (b + j)) / _ = _
        rw [h.valI j (by omega), h.valG j (by omega)]
      · rw [k.doneG m (by omega), deriv_old nodes.val z (by omega : m ≤ j)]
        show (_ * s.grad.val (b + m) - s.interp.val (b + m)) / _ = _
        rw [h.valI m (by omega), h.valG m (by omega)]
    · intro y hy
      show t.interp.val y = _
      rw [k.restI y (by omega) (Or.inr (by omega))]
      exact h.restI y (by omega)
    · intro y hy
      show t.grad.val y = _
      rw [k.restG y (by omega) (Or.inr (by omega))]
      exact h.restG y (by omega)

theorem fornberg_ok {nodes qref : Buf K} {P Q : Nat} (hP : 0 < P) (hn : P ≤ nodes.len) (hq : Q ≤ qref.len)
    (hd : ∀ i < P, ∀ j < i, nodes.val i ≠ nodes.val j) :
    ∃ I G, fornberg P Q nodes qref = .ok (I, G) ∧ I.len = P * Q ∧ G.len = P * Q ∧ ∀ i < Q, ∀ m < P,
      I.val (i * P + m) = (Lagrange.basis (range P) nodes.val m).eval (qref.val i) ∧
      G.val (i * P + m) = (derivative (Lagrange.basis (range P) nodes.val m)).eval (qref.val i) := by
  unfold fornberg
  refine Exists.elim (loop_inv (n := Q) (body := fornRow nodes qref P)
    (s := ((⟨P * Q, fun _ => 0⟩ : Buf K), (⟨P * Q, fun _ => 0⟩ : Buf K)))
    (fun n s => s.1.len = P * Q ∧ s.2.len = P * Q ∧ (∀ i < n, ∀ m < P,
      s.1.val (i * P + m) = (Lagrange.basis (range P) nodes.val m).eval (qref.val i) ∧
      s.2.val (i * P + m) = (derivative (Lagrange.basis (range P) nodes.val m)).eval (qref.val i)) ∧
      ∀ y, n * P ≤ y → s.2.val y = 0) ⟨rfl, rfl, fun i hi => absurd hi (by omega), fun _ _ => rfl⟩ ?_)
    (fun s h => ⟨s.1, s.2, h.1, h.2.1, h.2.2.1, h.2.2.2.1⟩)
  · rintro i hi ⟨I, G⟩ ⟨l1, l2, hv, hz⟩
    have hb : i * P + P ≤ P * Q := by
      calc i * P + P = (i + 1) * P := by ring
        _ ≤ Q * P := Nat.mul_le_mul_right _ hi
        _ = P * Q := Nat.mul_comm _ _
    unfold fornRow
    simp only at l1 l2 hz
    rw [Buf.rd_lt (by omega), Res.bind_ok, Buf.rd_lt (by omega), Res.bind_ok, Buf.wr_lt (by show i * P < I.len; omega), Res.bind_ok]
    obtain ⟨s, e, k⟩ := fornRow_loop (nodes := nodes) (P := P) (b := i * P) hP hn hd (qref.val i)
      (s0 := ⟨⟨I.len, fun j => if j = i * P then 1 else I.val j⟩, G, 1, nodes.val 0 - qref.val i⟩) (by show _ ≤ I.len; omega)
      (by show _ ≤ G.len; omega) rfl rfl (by simp) (hz _ (le_refl _))
    have hP1 : P - 1 + 1 = P := by omega
    rw [e, Res.bind_ok]
    refine ⟨_, rfl, k.li.trans l1, k.lg.trans l2, ?_, ?_⟩
    · intro i' hi' m hm
      by_cases hii : i' = i
      · subst hii
        have a := k.valI m (by omega)
        have c := k.valG m (by omega)
        rw [hP1] at a c
        exact ⟨a, c⟩
      · have : i' * P + m < i * P := by
          calc i' * P + m < i' * P + P := by omega
            _ = (i' + 1) * P := by ring
            _ ≤ i * P := Nat.mul_le_mul_right _ (by omega)
        constructor
        · show s.interp.val _ = _
          rw [k.restI _ (by omega)]
          show (if i' * P + m = i * P then 1 else I.val (i' * P + m)) = _
          rw [if_neg (by omega)]
          exact (hv i' (by omega) m hm).1
        · show s.grad.val _ = _
          rw [k.restG _ (by omega)]
          exact (hv i' (by omega) m hm).2
    · intro y hy
      show s.grad.val y = 0
      have : (i + 1) * P = i * P + P := by ring
      rw [k.restG _ (by omega)]
      exact hz y (by omega)

end Basis
end Verif
