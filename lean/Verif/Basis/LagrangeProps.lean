import Verif.Basis.Lagrange
import Verif.Restriction.Create

/-!
# Lagrange bases interpolate (C26)
-/

namespace Verif
namespace Basis

open Polynomial Finset

variable {K : Type} [Field K]

/-- The first `P` nodes are pairwise different. -/
def Distinct (nodes : Buf K) (P : Nat) : Prop := ∀ i < P, ∀ j < P, nodes.val i = nodes.val j → i = j

omit [Field K] in
theorem Distinct.lower {nodes : Buf K} {P : Nat} (h : Distinct nodes P) : ∀ i < P, ∀ j < i, nodes.val i ≠ nodes.val j := by
  intro i hi j hj e
  have := h i hi j (by omega) e
  omega

/-- The tables computed for the nodes and points given are exactly the values and derivatives, at the points, of the cardinal
polynomials of the nodes (degree `P - 1`, one at one node and zero at the others). No access is out of bounds. -/
theorem C26_tables {nodes qref : Buf K} {P Q : Nat} (hP : 0 < P) (hn : P ≤ nodes.len) (hq : Q ≤ qref.len)
    (hd : Distinct nodes P) :
    ∃ I G, fornberg P Q nodes qref = .ok (I, G) ∧ ∀ m < P, ∃ p : K[X], p.natDegree = P - 1 ∧
      (∀ n < P, p.eval (nodes.val n) = if n = m then 1 else 0) ∧
      ∀ i < Q, I.val (i * P + m) = p.eval (qref.val i) ∧ G.val (i * P + m) = (derivative p).eval (qref.val i) := by
  obtain ⟨I, G, e, _, _, h⟩ := fornberg_ok hP hn hq hd.lower
  have hinj : Set.InjOn nodes.val (range P : Set Nat) := by
    intro a ha b hb hab
    simp only [coe_range, Set.mem_Iio] at ha hb
    exact hd a ha b hb hab
  refine ⟨I, G, e, fun m hm => ⟨Lagrange.basis (range P) nodes.val m, ?_, ?_, fun i hi => h i hi m hm⟩⟩
  · rw [Lagrange.natDegree_basis hinj (mem_range.2 hm), card_range]
  · intro n hn
    by_cases hnm : n = m
    · subst hnm
      rw [if_pos rfl]
      exact Lagrange.eval_basis_self hinj (mem_range.2 hn)
    · rw [if_neg hnm]
      exact Lagrange.eval_basis_of_ne (fun hh => hnm hh.symm) (mem_range.2 hn)

/-- Every polynomial of degree less than `P` is reproduced: applying the tables to its values at the nodes gives its values and
derivatives at the points. -/
theorem C26_reproduces {nodes qref : Buf K} {P Q : Nat} (hP : 0 < P) (hn : P ≤ nodes.len) (hq : Q ≤ qref.len)
    (hd : Distinct nodes P) {I G : Buf K} (e : fornberg P Q nodes qref = .ok (I, G)) {p : K[X]} (hp : p.degree < P) {i : Nat}
    (hi : i < Q) :
    ∑ m ∈ range P, I.val (i * P + m) * p.eval (nodes.val m) = p.eval (qref.val i) ∧
    ∑ m ∈ range P, G.val (i * P + m) * p.eval (nodes.val m) = (derivative p).eval (qref.val i) := by
  obtain ⟨I', G', e', _, _, h⟩ := fornberg_ok hP hn hq hd.lower
  rw [e] at e'
  obtain ⟨rfl, rfl⟩ : I = I' ∧ G = G' := by
    injection e' with e'; injection e' with e1 e2; exact ⟨e1, e2⟩
  have hinj : Set.InjOn nodes.val (range P : Set Nat) := by
    intro a ha b hb hab
    simp only [coe_range, Set.mem_Iio] at ha hb
    exact hd a ha b hb hab
  have hpi := Lagrange.eq_interpolate hinj (f := p) (by rw [card_range]; exact hp)
  rw [Lagrange.interpolate_apply] at hpi
  constructor
  · conv_rhs => rw [hpi]
    rw [eval_finsetSum]
    refine sum_congr rfl (fun m hm => ?_)
    rw [(h i hi m (mem_range.1 hm)).1, eval_mul, eval_C, mul_comm]
  · conv_rhs => rw [hpi]
    rw [derivative_sum, eval_finsetSum]
    refine sum_congr rfl (fun m hm => ?_)
    rw [(h i hi m (mem_range.1 hm)).2, derivative_mul, derivative_C, zero_mul, zero_add, eval_mul, eval_C, mul_comm]

/-- A basis returned by `CeedBasisCreateTensorH1Lagrange` holds the tables for the Gauss-Lobatto nodes and the points of the
quadrature rule. -/
theorem C26_create {near : K → Bool} {collo : Nat → Nat → Buf K → Buf K → Res (Buf K)} {quad : Quad K} (hs : quad.Sized)
    {dim nc P Q : Int} {mode : QuadMode} (hd : Distinct (quad.lobatto P.toNat).1 P.toNat) {b : Bas K}
    (e : createLagrange near collo quad dim nc P Q mode = .ok (some b)) :
    ∃ qref w I G, quad.rule mode Q.toNat = .ok (qref, w) ∧ fornberg P.toNat Q.toNat (quad.lobatto P.toNat).1 qref = .ok (I, G) ∧
      (b.P1 : Int) = P ∧ (b.Q1 : Int) = Q ∧ (b.dim : Int) = dim ∧ (b.nc : Int) = nc ∧
      b.interp1 = I ∧ b.grad1 = G ∧ b.qWeight = w := by
  unfold createLagrange at e
  obtain ⟨_, h1, e⟩ := Res.bind_eq_ok.1 e
  obtain ⟨_, h2, e⟩ := Res.bind_eq_ok.1 e
  obtain ⟨_, h3, e⟩ := Res.bind_eq_ok.1 e
  obtain ⟨_, h4, e⟩ := Res.bind_eq_ok.1 e
  rw [Res.check_eq_ok] at h1 h2 h3 h4
  have hqlen : ∀ qref w, quad.rule mode Q.toNat = .ok (qref, w) → qref.len = Q.toNat ∧ w.len = Q.toNat := by
    intro qref w hq
    cases mode with
    | gauss =>
      simp only [Quad.rule, Res.ok.injEq] at hq
      have := hs Q.toNat
      rw [hq] at this
      exact ⟨this.1, this.2.1⟩
    | gaussLobatto =>
      simp only [Quad.rule, Quad.lobattoRule] at hq
      split at hq
      · simp only [Res.ok.injEq] at hq
        have := hs Q.toNat
        rw [hq] at this
        exact ⟨this.2.2.1, this.2.2.2⟩
      · cases hq
  split at e
  · rename_i nodes w0 qref w hl hq
    have hnodes : quad.lobatto P.toNat = (nodes, w0) := by
      unfold Quad.lobattoRule at hl
      split at hl
      · injection hl
      · cases hl
    have hnl : nodes.len = P.toNat := by
      have := (hs P.toNat).2.2.1
      rw [hnodes] at this
      exact this
    obtain ⟨I, G, ef, lI, lG, hv⟩ := fornberg_ok (P := P.toNat) (Q := Q.toNat) (nodes := nodes) (qref := qref) (by omega)
      (by omega) (by have := (hqlen _ _ hq).1; omega) (by rw [hnodes] at hd; exact hd.lower)
    rw [ef, Res.bind_ok] at e
    simp only at e
    obtain ⟨b', eb, e⟩ := Res.bind_eq_ok.1 e
    injection e with e
    injection e with e
    subst e
    refine ⟨qref, w, I, G, hq, by rw [hnodes]; exact ef, ?_⟩
    unfold createTensorH1 at eb
    simp only [Res.check_true h1, Res.check_true h2, Res.check_true h3, Res.check_true h4, Res.bind_ok] at eb
    obtain ⟨w', c1, eb⟩ := Res.bind_eq_ok.1 eb
    obtain ⟨i', c2, eb⟩ := Res.bind_eq_ok.1 eb
    obtain ⟨g', c3, eb⟩ := Res.bind_eq_ok.1 eb
    obtain ⟨_, _, eb⟩ := Res.bind_eq_ok.1 eb
    obtain ⟨_, _, eb⟩ := Res.bind_eq_ok.1 eb
    injection eb with eb
    subst eb
    have hl1 := (hqlen _ _ hq).2
    refine ⟨Int.toNat_of_nonneg (by omega), Int.toNat_of_nonneg (by omega), Int.toNat_of_nonneg (by omega),
      Int.toNat_of_nonneg (by omega), ?_, ?_, ?_⟩
    · obtain ⟨_, c⟩ := Restriction.copyIn_ok c2
      show i' = I
      rw [c, Nat.mul_comm, ← lI]
    · obtain ⟨_, c⟩ := Restriction.copyIn_ok c3
      show g' = G
      rw [c, Nat.mul_comm, ← lG]
    · obtain ⟨_, c⟩ := Restriction.copyIn_ok c1
      show w' = w
      rw [c, ← hl1]
  · cases e

/-- With at least two nodes, and for the Gauss-Lobatto rule at least two points, a successful return has created a basis.
Missing: the other cases, in which nothing is created (`C26_nothing_witness`). -/
theorem C26_created_partial {near : K → Bool} {collo : Nat → Nat → Buf K → Buf K → Res (Buf K)} {quad : Quad K}
    {dim nc P Q : Int} {mode : QuadMode} (hP : 2 ≤ P) (hQ : mode = .gauss ∨ 2 ≤ Q) {x : Option (Bas K)}
    (e : createLagrange near collo quad dim nc P Q mode = .ok x) : ∃ b, x = some b := by
  unfold createLagrange at e
  obtain ⟨_, h1, e⟩ := Res.bind_eq_ok.1 e
  obtain ⟨_, h2, e⟩ := Res.bind_eq_ok.1 e
  obtain ⟨_, h3, e⟩ := Res.bind_eq_ok.1 e
  obtain ⟨_, h4, e⟩ := Res.bind_eq_ok.1 e
  have hl : quad.lobattoRule P.toNat = .ok (quad.lobatto P.toNat) := if_pos (by omega)
  obtain ⟨qref, w, hq⟩ : ∃ qref w, quad.rule mode Q.toNat = .ok (qref, w) := by
    rcases hQ with rfl | hQ
    · exact ⟨_, _, rfl⟩
    · cases mode
      · exact ⟨_, _, rfl⟩
      · exact ⟨_, _, if_pos (by omega)⟩
  rw [hl, hq] at e
  simp only at e
  obtain ⟨t, _, e⟩ := Res.bind_eq_ok.1 e
  obtain ⟨b, _, e⟩ := Res.bind_eq_ok.1 e
  injection e with e
  exact ⟨b, e.symm⟩

/-- With one node `CeedBasisCreateTensorH1Lagrange` returns success without having created a basis, for all other arguments: the
pointer the user goes on with is not set. The same holds for the Gauss-Lobatto rule with one point. -/
theorem C26_nothing_witness {near : K → Bool} {collo : Nat → Nat → Buf K → Buf K → Res (Buf K)} {quad : Quad K} {dim nc P Q : Int}
    {mode : QuadMode} (hdim : 0 < dim) (hnc : 0 < nc) (hP : 0 < P) (hQ : 0 < Q) (h : P = 1 ∨ (mode = .gaussLobatto ∧ Q = 1)) :
    createLagrange near collo quad dim nc P Q mode = .ok none := by
  unfold createLagrange
  simp only [Res.check_true hdim, Res.check_true hnc, Res.check_true hP, Res.check_true hQ, Res.bind_ok]
  rcases h with rfl | ⟨rfl, rfl⟩
  · rw [show quad.lobattoRule (1 : Int).toNat = .err .dimension from if_neg (by decide)]
  · rw [show quad.rule .gaussLobatto (1 : Int).toNat = .err .dimension from
      (if_neg (by decide) : quad.lobattoRule (1 : Int).toNat = .err .dimension)]
    cases quad.lobattoRule P.toNat <;> rfl

/-! ## Example: quadratic Lagrange basis at two points -/

def exNodesQ : Buf ℚ := Buf.ofList [-1, 0, 1]
def exPoints : Buf ℚ := Buf.ofList [0, 3]

example : Distinct exNodesQ 3 := by
  intro i hi j hj
  have : ∀ i : Fin 3, ∀ j : Fin 3, exNodesQ.val i = exNodesQ.val j → i = j := by decide +kernel
  intro e
  exact congrArg Fin.val (this ⟨i, hi⟩ ⟨j, hj⟩ e)

example : (match fornberg 3 2 exNodesQ exPoints with | .ok (I, G) => some (I.toList, G.toList) | _ => none) =
    some ([0, 1, 0, 3, -8, 6], [-1/2, 0, 1/2, 5/2, -6, 7/2]) := by decide +kernel

/-- Quadrature data for the example. -/
def exQuad : Quad ℚ :=
  ⟨fun n => (⟨n, fun i => (i : ℚ) / 3⟩, ⟨n, fun _ => 1⟩), fun n => (⟨n, fun i => (i : ℚ) - 1⟩, ⟨n, fun _ => 1⟩)⟩

example : exQuad.Sized := fun _ => ⟨rfl, rfl, rfl, rfl⟩

end Basis
end Verif
