import Verif.Operator.FdmApply
import Verif.Basis.SimDiagProps

/-!
# C67: what is inverted, and what is rejected
-/

set_option linter.unusedSectionVars false

namespace Verif
namespace Operator

open Finset
open Restriction (Rstr RData Made)
open Basis (Bas EMode TensorBasis coord coord_lt)

variable {K : Type} [Field K] [LinearOrder K]
variable {env : FEnv K} {op : Oper K} {r : Nat} {l : Int} {D : RData K} {b : Bas K} {i1 g1 w : Buf K} {ρ μ : Nat}

/-- **C67.** The separable matrix is the element matrix of a tensor basis with constant coefficients: with the matrices `B` of
interpolation and `G` of differentiation that the library reports for the basis, and with `a` times the quadrature weight at
each point, `Σ_q a w_q (c B_qn B_qm + g Σ_d G_dqn G_dqm)` is `a (c M⊗…⊗M + g Σ_d M⊗…⊗L⊗…⊗M)` with the 1D mass and
stiffness matrices without perturbation. -/
theorem C67_separable (h : TensorBasis b i1 g1 w) (a c g : K) : ∃ B G, Basis.getInterp b = .ok (some B) ∧ Basis.getGrad b = .ok (some G) ∧
    ∀ n < b.P, ∀ m < b.P,
      ∑ q ∈ range b.Q, a * (∏ d ∈ range b.dim, w.val (coord b.Q1 d q)) *
        (c * (B.val (q * b.P + n) * B.val (q * b.P + m)) +
          g * ∑ d ∈ range b.dim, G.val ((d * b.Q + q) * b.P + n) * G.val ((d * b.Q + q) * b.P + m)) =
      a * sepMat c g (quad1 i1 w b.P1 b.Q1) (quad1 g1 w b.P1 b.Q1) b.P1 b.dim n m := by
  obtain ⟨hT, -, -, -⟩ := Basis.tensorOK_of h
  obtain ⟨B, e1, hB, -, -⟩ := Basis.C21_interp_partial h
  obtain ⟨G, e2, hG, -, -⟩ := Basis.C22_grad_partial h
  refine ⟨B, G, e1, e2, fun n hn m hm => ?_⟩
  have key : ∀ F : Nat → Buf K, ∑ q ∈ range b.Q, (∏ d ∈ range b.dim, w.val (coord b.Q1 d q)) *
      ((∏ d ∈ range b.dim, (F d).val (coord b.Q1 d q * b.P1 + coord b.P1 d n)) *
        ∏ d ∈ range b.dim, (F d).val (coord b.Q1 d q * b.P1 + coord b.P1 d m)) =
      ∏ d ∈ range b.dim, quad1 (F d) w b.P1 b.Q1 (coord b.P1 d n) (coord b.P1 d m) := by
    intro F
    unfold quad1
    rw [← Basis.sum_digits (fun d k => (F d).val (k * b.P1 + coord b.P1 d n) * w.val k * (F d).val (k * b.P1 + coord b.P1 d m))
      b.dim hT.Q1, hT.hQ]
    refine sum_congr rfl fun q _ => ?_
    rw [← prod_mul_distrib, ← prod_mul_distrib]
    exact prod_congr rfl fun d _ => by ring
  unfold sepMat kronAll
  have k1 := key (fun _ => i1)
  have k2 : ∀ d, _ := fun d => key (fun d' => if d = d' then g1 else i1)
  rw [← k1]
  have k3 : ∀ d ∈ range b.dim, ∏ d' ∈ range b.dim, (if d = d' then quad1 g1 w b.P1 b.Q1 else quad1 i1 w b.P1 b.Q1)
      (coord b.P1 d' n) (coord b.P1 d' m) = ∑ q ∈ range b.Q, (∏ d ∈ range b.dim, w.val (coord b.Q1 d q)) *
      (G.val ((d * b.Q + q) * b.P + n) * G.val ((d * b.Q + q) * b.P + m)) := by
    intro d hd
    rw [mem_range] at hd
    rw [sum_congr rfl (fun q hq => by rw [hG d hd q (mem_range.1 hq) n hn, hG d hd q (mem_range.1 hq) m hm]), k2 d]
    exact prod_congr rfl fun d' _ => by split <;> rfl
  rw [sum_congr rfl k3, sum_comm, mul_sum, mul_sum, ← sum_add_distrib, mul_sum]
  refine sum_congr rfl fun q hq => ?_
  rw [hB q (mem_range.1 hq) n hn, hB q (mem_range.1 hq) m hm, ← mul_sum]
  ring

/-- **C67.** The averages are right where the coefficients are those of a separable problem: if each entry of the assembled
QFunction at a point of an element is zero or `a` times the quadrature weight, the latter are larger than the bound, and there
is at least one of them, then the average of the element is `a`. -/
theorem C67_average [IsStrictOrderedRing K] {x : Nat → Nat → K} {ω : Nat → K} {a bound : K} {Q ni : Nat} (κ : Nat → Nat → Bool)
    (hb : 0 ≤ bound) (hx : ∀ q < Q, ∀ i < ni, x q i = if κ q i then a * ω q else 0)
    (hκ : ∀ q < Q, ∀ i < ni, κ q i = true → bound < |a * ω q|) (h1 : ∃ q < Q, ∃ i < ni, κ q i = true) :
    average x ω bound Q ni = a := by
  have hc : ∀ q ∈ range Q, ∀ i ∈ range ni, (bound < |x q i| ↔ κ q i = true) := by
    intro q hq i hi
    rw [mem_range] at hq hi
    rw [hx q hq i hi]
    cases hk : κ q i
    · simp [hb]
    · simpa using hκ q hq i hi hk
  have hcnt : counted x bound Q ni = ∑ q ∈ range Q, ∑ i ∈ range ni, if κ q i = true then 1 else 0 := by
    unfold counted
    exact sum_congr rfl fun q hq => sum_congr rfl fun i hi => by simp only [hc q hq i hi]
  have hne : counted x bound Q ni ≠ 0 := by
    obtain ⟨q, hq, i, hi, hk⟩ := h1
    rw [hcnt]
    intro h0
    have := (sum_eq_zero_iff.1 h0) q (mem_range.2 hq)
    have := (sum_eq_zero_iff.1 this) i (mem_range.2 hi)
    rw [if_pos hk] at this
    omega
  have hs : (∑ q ∈ range Q, ∑ i ∈ range ni, if bound < |x q i| then x q i / ω q else 0) = a * (counted x bound Q ni : K) := by
    rw [hcnt]
    push_cast
    rw [mul_sum]
    refine sum_congr rfl fun q hq => ?_
    rw [mul_sum]
    refine sum_congr rfl fun i hi => ?_
    by_cases hk : κ q i = true
    · have hb' := hκ q (mem_range.1 hq) i (mem_range.1 hi) hk
      rw [if_pos ((hc q hq i hi).2 hk), if_pos hk, hx q (mem_range.1 hq) i (mem_range.1 hi), if_pos hk, mul_one]
      have : ω q ≠ 0 := by
        intro h0
        rw [h0, mul_zero, abs_zero] at hb'
        exact absurd hb (not_le.2 hb')
      field_simp
    · rw [if_neg (fun h => hk ((hc q hq i hi).1 h)), if_neg hk, mul_zero]
  unfold average
  rw [if_neg hne, hs]
  have : (counted x bound Q ni : K) ≠ 0 := by exact_mod_cast hne
  field_simp

/-- **C67.** Without an active input the call is rejected. -/
theorem C67_no_active (h : ∀ i < op.nin, (op.inp i).vec ≠ .active) (s : ASt K) : createFdm env op ρ μ s = .err s .backend := by
  unfold createFdm
  rcases scan_act op.inp op.nin with ⟨_, h2⟩ | ⟨i, hi, h1, _⟩
  · rw [h2]; rfl
  · exact absurd h1 (h i hi)

/-- **C67.** If the first active input has a basis that is not a tensor basis, the call is rejected. -/
theorem C67_non_tensor {i : Nat} (hi : i < op.nin) (ha : (op.inp i).vec = .active) (hf : ∀ j < i, (op.inp j).vec ≠ .active)
    (hb : (op.inp i).basis = some b) (ht : b.isTensor = false) (s : ASt K) : createFdm env op ρ μ s = .err s .minor := by
  unfold createFdm
  rcases scan_act op.inp op.nin with ⟨h1, _⟩ | ⟨j, hj, g1, g2, g3⟩
  · exact absurd ha (h1 i hi)
  · have : i = j := by
      rcases Nat.lt_trichotomy i j with h | h | h
      · exact absurd ha (g2 i h)
      · exact h
      · exact absurd g1 (hf j h)
    subst this
    rw [g3, hb]
    simp only
    unfold fdmWith
    rw [M.bind_apply, M.check, if_neg (by rw [ht]; simp)]
    rfl

/-- C67 fails if the first active input has no basis: the call does not return an error, but aborts the program. -/
theorem C67_no_basis_witness {i : Nat} (hi : i < op.nin) (ha : (op.inp i).vec = .active) (hf : ∀ j < i, (op.inp j).vec ≠ .active)
    (hb : (op.inp i).basis = Option.none) (s : ASt K) : createFdm env op ρ μ s = .ub := by
  unfold createFdm
  rcases scan_act op.inp op.nin with ⟨h1, _⟩ | ⟨j, hj, g1, g2, g3⟩
  · exact absurd ha (h1 i hi)
  · have : i = j := by
      rcases Nat.lt_trichotomy i j with h | h | h
      · exact absurd ha (g2 i h)
      · exact h
      · exact absurd g1 (hf j h)
    subst this
    rw [g3, hb]
    rfl

/-- C67 fails for bases with one node in each direction: no inverse is created. -/
theorem C67_one_node_witness [IsStrictOrderedRing K] (h : FdmOK env op r l D b i1 g1 w ρ) (h1 : b.P1 = 1) (s s' : ASt K) (fd : Fdm K) :
    createFdm env op ρ μ s ≠ .ok s' fd := by
  intro e
  obtain ⟨X, lam, v, a, _, _, _, _, hf⟩ := C67_created h e
  obtain ⟨Lb, Mb, _, hM, _, _, e⟩ := hf.eig
  rw [Basis.C64_simdiag_scalar _ _ _ _ _ _ (by omega) (by omega)] at e
  cases e

/-- C67 fails for bases with at least three nodes in each direction whose mass matrix is diagonal, such as those with nodes at
the quadrature points: no inverse is created, and the eigenvalue solver divides zero by zero. -/
theorem C67_collocated_witness [IsStrictOrderedRing K] (hs : Basis.IsSqrt env.sqrt) (h : FdmOK env op r l D b i1 g1 w ρ) (h1 : 2 < b.P1)
    (hd : ∀ i < b.P1, ∀ j < b.P1, i ≠ j → quad1 i1 w b.P1 b.Q1 i j = 0) (s s' : ASt K) (fd : Fdm K) :
    createFdm env op ρ μ s ≠ .ok s' fd := by
  intro e
  obtain ⟨X, lam, v, a, _, _, _, _, hf⟩ := C67_created h e
  obtain ⟨Lb, Mb, _, hM, hMv, _, e⟩ := hf.eig
  rw [Basis.C64_diagonal_mass_witness hs _ _ _ _ _ h1 _ _ _ hM] at e
  · cases e
  · intro r c hr hc hrc
    have := hMv c hc r hr
    rw [Nat.mul_comm b.P1 r, this]
    exact hd c hc r hr (Ne.symm hrc)

end Operator
end Verif
