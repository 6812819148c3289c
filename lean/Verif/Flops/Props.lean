import Verif.Flops.Rstr
import Verif.Restriction.PointsProps
import Verif.Flops.Operator
import Verif.Composite.LengthsProps
import Mathlib.Algebra.Order.BigOperators.Group.Finset
import Mathlib.Tactic.Positivity

/-!
# C47: estimates of floating point operations

`applyCoreC` and `rstrRunC` are the loops of the reference backend with a counter of multiplications and additions of
scalars. The counter does not change results (`C47_same_basis`, `C47_same_restriction`). Estimates are compared with it:
they are per element for bases, and for all elements for restrictions.
-/

namespace Verif
namespace Flops

open Restriction (TMode RType Rstr Made RData laneEnd)
open Basis (Bas EMode)
open Operator (Oper OField)
open Composite (Heap getH checkReady Node)
open Finset (range)

/-! ## Bases -/

section
variable {α : Type _} [CommRing α]

theorem tensorFlops_go (dim nc P Q : Nat) (hP : 0 < P) (n : Nat) (hn : n ≤ dim) :
    (tensorFlops.go P Q n (0, nc * P ^ (dim - 1), 1)).1 = ∑ d ∈ range n, 2 * (nc * P ^ (dim - 1 - d)) * P * Q ^ d * Q ∧
    (n < dim → (tensorFlops.go P Q n (0, nc * P ^ (dim - 1), 1)).2.1 = nc * P ^ (dim - 1 - n)) ∧
    (tensorFlops.go P Q n (0, nc * P ^ (dim - 1), 1)).2.2 = Q ^ n := by
  induction n with
  | zero => simp [tensorFlops.go]
  | succ n ih =>
    obtain ⟨h1, h2, h3⟩ := ih (by omega)
    have h2 := h2 (by omega)
    unfold tensorFlops.go
    dsimp only
    refine ⟨?_, ?_, ?_⟩
    · rw [Finset.sum_range_succ, h1, h2, h3]
    · intro hd
      rw [h2]
      exact pow_step hP hd
    · rw [h3, pow_succ]

theorem tensorFlops_eq (dim nc P Q : Nat) (hP : 0 < P) : tensorFlops dim nc P Q = contractions dim nc P Q :=
  (tensorFlops_go dim nc P Q hP dim le_rfl).1

theorem contractions_diag (dim nc Q : Nat) : contractions dim nc Q Q = dim * (2 * nc * Q ^ (dim + 1)) := by
  unfold contractions
  rw [Finset.sum_congr rfl (g := fun _ => 2 * nc * Q ^ (dim + 1)) (fun d hd => ?_)]
  · simp
  · have hd := Finset.mem_range.1 hd
    have : Q ^ (dim + 1) = Q ^ (dim - 1 - d) * Q * Q ^ d * Q := by
      rw [← pow_succ, ← pow_add, ← pow_succ]; congr 1; omega
    rw [this]; ring

/-- The counter does not change what applying a basis returns. -/
theorem C47_same_basis {b : Bas α} (hb : b.isTensor = true → 0 < b.P1 ∧ 0 < b.Q1) (junk : Nat → Nat → α) (applyAdd : Bool)
    (ne : Nat) (tm : TMode) (em : EMode) (u : Option (Buf α)) (v : Buf α) :
    (applyCoreC b junk applyAdd ne tm em u v >>= fun p => Res.ok p.1) = Basis.applyCore b junk applyAdd ne tm em u v := by
  rw [applyCoreC_eq hb, bind_tick]
  simp

/-- Interpolation with a tensor basis to quadrature points that are not the nodes: the estimate for one element, times the
number of elements, is what is done. -/
theorem C47_interp {b : Bas α} (ht : b.isTensor = true) (hP : 0 < b.P1) (hQ : 0 < b.Q1) (hc : b.colloInterp = false)
    {junk : Nat → Nat → α} {applyAdd : Bool} {ne : Nat} {u : Option (Buf α)} {v v' : Buf α} {n : Nat}
    (h : applyCoreC b junk applyAdd ne .noTranspose .interp u v = .ok (v', n)) :
    ∃ f : Int, basisFlops b .noTranspose .interp false 0 = .ok f ∧ (n : Int) = ne * f := by
  rw [applyCoreC_eq (fun _ => ⟨hP, hQ⟩), tick_eq_ok] at h
  obtain ⟨_, rfl⟩ := h
  refine ⟨contractions b.dim b.nc b.P1 b.Q1, ?_, ?_⟩
  · simp [basisFlops, ht, tensorFlops_eq _ _ _ _ hP]
  · simp [basisCount, ht, interpCount, hc]

/-- The transpose of the interpolation, when there are as many nodes as quadrature points. Missing: other bases, for which the
estimate is wrong (`C47_transpose_witness`): the interchange of the two numbers in `CeedBasisGetFlopsEstimate` loses one of
them. What is done in general, and what is estimated, is in `C47_transpose_general`. -/
theorem C47_transpose_partial {b : Bas α} (ht : b.isTensor = true) (hQ : 0 < b.Q1) (hPQ : b.P1 = b.Q1)
    (hc : b.colloInterp = false) {junk : Nat → Nat → α} {applyAdd : Bool} {ne : Nat} {u : Option (Buf α)} {v v' : Buf α}
    {n : Nat} (h : applyCoreC b junk applyAdd ne .transpose .interp u v = .ok (v', n)) :
    ∃ f : Int, basisFlops b .transpose .interp false 0 = .ok f ∧ (n : Int) = ne * f := by
  rw [applyCoreC_eq (fun _ => ⟨by rw [hPQ]; exact hQ, hQ⟩), tick_eq_ok] at h
  obtain ⟨_, rfl⟩ := h
  refine ⟨contractions b.dim b.nc b.Q1 b.Q1, ?_, ?_⟩
  · simp [basisFlops, ht, tensorFlops_eq _ _ _ _ hQ]
  · simp [basisCount, ht, interpCount, hc, hPQ]

/-- The transpose of the interpolation: the estimate is the same for all numbers of nodes, while the operations done are those
of contractions from the quadrature points to the nodes. With fewer nodes than quadrature points it is too large. -/
theorem C47_transpose_general {b : Bas α} (ht : b.isTensor = true) (hP : 0 < b.P1) (hQ : 0 < b.Q1)
    (hc : b.colloInterp = false) {junk : Nat → Nat → α} {applyAdd : Bool} {ne : Nat} {u : Option (Buf α)} {v v' : Buf α}
    {n : Nat} (h : applyCoreC b junk applyAdd ne .transpose .interp u v = .ok (v', n)) :
    basisFlops b .transpose .interp false 0 = .ok (((b.dim * (2 * b.nc * b.Q1 ^ (b.dim + 1)) : Nat)) : Int) ∧
    n = ne * ∑ d ∈ range b.dim, 2 * b.nc * b.Q1 ^ (b.dim - d) * b.P1 ^ (d + 1) ∧
    (b.P1 ≤ b.Q1 → n ≤ ne * (b.dim * (2 * b.nc * b.Q1 ^ (b.dim + 1)))) := by
  rw [applyCoreC_eq (fun _ => ⟨hP, hQ⟩), tick_eq_ok] at h
  obtain ⟨_, h⟩ := h
  have hn : n = ne * ∑ d ∈ range b.dim, 2 * b.nc * b.Q1 ^ (b.dim - d) * b.P1 ^ (d + 1) := by
    have : n = ne * contractions b.dim b.nc b.Q1 b.P1 := by
      rw [show n = basisCount b ne .transpose .interp from h]
      simp [basisCount, ht, interpCount, hc]
    rw [this, contractions]
    congr 1
    refine Finset.sum_congr rfl fun d hd => ?_
    have hd := Finset.mem_range.1 hd
    have e : b.Q1 ^ (b.dim - d) = b.Q1 ^ (b.dim - 1 - d) * b.Q1 := by rw [← pow_succ]; congr 1; omega
    rw [e, pow_succ]; ring
  refine ⟨?_, hn, fun hle => ?_⟩
  · rw [← contractions_diag]
    simp [basisFlops, ht, tensorFlops_eq _ _ _ _ hQ]
  · rw [hn]
    refine Nat.mul_le_mul_left _ ?_
    calc ∑ d ∈ range b.dim, 2 * b.nc * b.Q1 ^ (b.dim - d) * b.P1 ^ (d + 1)
        ≤ ∑ _d ∈ range b.dim, 2 * b.nc * b.Q1 ^ (b.dim + 1) := Finset.sum_le_sum fun d hd => ?_
      _ = b.dim * (2 * b.nc * b.Q1 ^ (b.dim + 1)) := by simp
    have hd := Finset.mem_range.1 hd
    calc 2 * b.nc * b.Q1 ^ (b.dim - d) * b.P1 ^ (d + 1)
        ≤ 2 * b.nc * b.Q1 ^ (b.dim - d) * b.Q1 ^ (d + 1) := Nat.mul_le_mul_left _ (Nat.pow_le_pow_left hle _)
      _ = 2 * b.nc * b.Q1 ^ (b.dim + 1) := by
        rw [Nat.mul_assoc, ← pow_add]; congr 2; omega

/-- The gradient with a tensor basis by interpolation and differentiation at the quadrature points, when there are as many nodes
as quadrature points. Missing: other bases (`C47_gradient_witness`), the gradient at the nodes and without the derivatives at
quadrature points (`C47_gradient_other`). -/
theorem C47_gradient_partial {b : Bas α} (ht : b.isTensor = true) (hQ : 0 < b.Q1) (hPQ : b.P1 = b.Q1)
    (hc : b.colloGrad.isSome = true) {tm : TMode} {junk : Nat → Nat → α} {applyAdd : Bool} {ne : Nat} {u : Option (Buf α)}
    {v v' : Buf α} {n : Nat} (h : applyCoreC b junk applyAdd ne tm .grad u v = .ok (v', n)) :
    ∃ f : Int, basisFlops b tm .grad false 0 = .ok f ∧ (n : Int) = ne * f := by
  have hP : 0 < b.P1 := by rw [hPQ]; exact hQ
  rw [applyCoreC_eq (fun _ => ⟨hP, hQ⟩), tick_eq_ok] at h
  obtain ⟨_, rfl⟩ := h
  refine ⟨contractions b.dim b.nc b.Q1 b.Q1 * 2, ?_, ?_⟩
  · cases tm <;> simp [basisFlops, ht, hPQ, tensorFlops_eq _ _ _ _ hQ]
  · cases tm <;> simp only [basisCount, ht, if_true, gradCount, hc, hPQ] <;> push_cast <;> ring

/-- The gradient with a tensor basis without the derivatives at quadrature points. With collocated quadrature points the
estimate is twice what is done without transpose; otherwise the operations done are those of one interpolation for each
direction. -/
theorem C47_gradient_other {b : Bas α} (ht : b.isTensor = true) (hP : 0 < b.P1) (hQ : 0 < b.Q1) (hc : b.colloGrad = none)
    {junk : Nat → Nat → α} {applyAdd : Bool} {ne : Nat} {u : Option (Buf α)} {v v' : Buf α} {n : Nat}
    (h : applyCoreC b junk applyAdd ne .noTranspose .grad u v = .ok (v', n)) :
    ∃ f : Int, basisFlops b .noTranspose .grad false 0 = .ok f ∧
      2 * (n : Int) = ne * f * (if b.colloInterp then 1 else (b.dim : Int)) := by
  rw [applyCoreC_eq (fun _ => ⟨hP, hQ⟩), tick_eq_ok] at h
  obtain ⟨_, rfl⟩ := h
  refine ⟨contractions b.dim b.nc b.P1 b.Q1 * 2, ?_, ?_⟩
  · simp [basisFlops, ht, tensorFlops_eq _ _ _ _ hP]
  · by_cases hi : b.colloInterp = true
    · simp only [basisCount, ht, if_true, gradCount, hc, hi, Option.isSome_none, Bool.false_eq_true, if_false]
      push_cast; ring
    · simp only [basisCount, ht, if_true, gradCount, hc, hi, Option.isSome_none, Bool.false_eq_true, if_false]
      push_cast; ring

/-- Quadrature weights of a tensor basis: the products are computed once, for all elements. -/
theorem C47_weight {b : Bas α} (ht : b.isTensor = true) (hP : 0 < b.P1) (hQ : 0 < b.Q1) {junk : Nat → Nat → α}
    {applyAdd : Bool} {ne : Nat} {u : Option (Buf α)} {v v' : Buf α} {n : Nat}
    (h : applyCoreC b junk applyAdd ne .noTranspose .weight u v = .ok (v', n)) :
    ∃ f : Int, basisFlops b .noTranspose .weight false 0 = .ok f ∧ (n : Int) = f := by
  rw [applyCoreC_eq (fun _ => ⟨hP, hQ⟩), tick_eq_ok] at h
  obtain ⟨_, rfl⟩ := h
  refine ⟨b.dim * (b.Q1 : Int) ^ b.dim, ?_, ?_⟩
  · simp [basisFlops, ht]
  · simp [basisCount, ht]

/-- A basis that is not a tensor basis: the estimate counts products only, so it is exactly half of what is done. The weights
are copied. -/
theorem C47_nontensor_half {b : Bas α} (ht : b.isTensor = false) {tm : TMode} {em : EMode} {junk : Nat → Nat → α}
    {applyAdd : Bool} {ne : Nat} {u : Option (Buf α)} {v v' : Buf α} {n : Nat}
    (h : applyCoreC b junk applyAdd ne tm em u v = .ok (v', n)) :
    ∃ f : Int, basisFlops b tm em false 0 = .ok f ∧ (n : Int) = 2 * (ne * f) := by
  rw [applyCoreC_eq (by rw [ht]; intro h; cases h), tick_eq_ok] at h
  obtain ⟨_, rfl⟩ := h
  cases em
  · exact ⟨0, by simp [basisFlops, ht], by simp [basisCount, ht]⟩
  · refine ⟨b.P * b.Q * b.nc * b.qComp .interp, by simp [basisFlops, ht], ?_⟩
    simp only [basisCount, ht, Bool.false_eq_true, if_false]
    push_cast; ring
  · refine ⟨b.P * b.Q * b.nc * b.qComp .grad, by simp [basisFlops, ht], ?_⟩
    simp only [basisCount, ht, Bool.false_eq_true, if_false]
    push_cast; ring
  · refine ⟨b.P * b.Q * b.nc * b.qComp .div, by simp [basisFlops, ht], ?_⟩
    simp only [basisCount, ht, Bool.false_eq_true, if_false]
    push_cast; ring
  · refine ⟨b.P * b.Q * b.nc * b.qComp .curl, by simp [basisFlops, ht], ?_⟩
    simp only [basisCount, ht, Bool.false_eq_true, if_false]
    push_cast; ring
  · exact ⟨0, by simp [basisFlops, ht], by simp [basisCount, ht]⟩

/-- Interpolation to the nodes themselves is a copy; it is estimated like any other interpolation. -/
theorem C47_collocated {b : Bas α} (ht : b.isTensor = true) (hP : 0 < b.P1) (hQ : 0 < b.Q1) (hc : b.colloInterp = true)
    {tm : TMode} {junk : Nat → Nat → α} {applyAdd : Bool} {ne : Nat} {u : Option (Buf α)} {v v' : Buf α} {n : Nat}
    (h : applyCoreC b junk applyAdd ne tm .interp u v = .ok (v', n)) :
    n = 0 ∧ (0 < b.dim → 0 < b.nc → ∃ f : Int, basisFlops b tm .interp false 0 = .ok f ∧ 0 < f) := by
  rw [applyCoreC_eq (fun _ => ⟨hP, hQ⟩), tick_eq_ok] at h
  obtain ⟨_, rfl⟩ := h
  refine ⟨by simp [basisCount, ht, interpCount, hc], fun hd hn => ?_⟩
  have pos : ∀ P Q : Nat, 0 < P → 0 < Q → 0 < contractions b.dim b.nc P Q := by
    intro P Q hP hQ
    unfold contractions
    refine Finset.sum_pos (fun d _ => by positivity) ⟨0, Finset.mem_range.2 hd⟩
  cases tm
  · refine ⟨contractions b.dim b.nc b.P1 b.Q1, by simp [basisFlops, ht, tensorFlops_eq _ _ _ _ hP], ?_⟩
    exact_mod_cast pos _ _ hP hQ
  · refine ⟨contractions b.dim b.nc b.Q1 b.Q1, by simp [basisFlops, ht, tensorFlops_eq _ _ _ _ hQ], ?_⟩
    exact_mod_cast pos _ _ hQ hQ

/-- When there is no estimate: at points for a basis that is not a tensor basis, and divergence or curl of a tensor basis. -/
theorem C47_errors (b : Bas α) (tm : TMode) (em : EMode) (pts : Bool) (np : Nat) :
    ((b.isTensor = false ∧ pts = true) ∨ (b.isTensor = true ∧ (em = .div ∨ em = .curl)) →
      basisFlops b tm em pts np = .err .incompatible) ∧
    (¬ ((b.isTensor = false ∧ pts = true) ∨ (b.isTensor = true ∧ (em = .div ∨ em = .curl))) →
      ∃ f, basisFlops b tm em pts np = .ok f) := by
  cases ht : b.isTensor <;> cases pts <;> cases em <;> cases tm <;> simp [basisFlops, ht, Res.check]

end

/-! ## Restrictions -/

section
variable {α : Type} [CommRing α]

/-- The counter does not change what applying a restriction returns. -/
theorem C47_same_restriction (r : Rstr) (tm : TMode) (u v : Buf α) :
    (rstrRunC r tm u v >>= fun p => Res.ok p.1) = Restriction.apply r .plain tm u v := by
  rw [rstrRunC_eq, bind_tick]
  simp

theorem sum_laneEnd {r : Rstr} {D : RData α} {bs : Nat} {l : Int} (hm : Made .plain r bs l D) :
    ∑ b ∈ range r.numBlock, laneEnd r.blockSize r.numElem (b * r.blockSize) = D.ne := by
  have := hm.rep.1.sum_elems (fun _ => (1 : Nat))
  simpa using this

theorem rep_esize {r : Rstr} {D : RData α} {bs : Nat} {l : Int} (hm : Made .plain r bs l D) :
    r.eSize = r.numBlock * D.nc * D.es * bs ∧ D.ne ≤ r.numBlock * bs ∧ (bs = 1 → r.numBlock = D.ne) := by
  obtain ⟨h, rfl, _⟩ := hm.rep
  refine ⟨h.esz, ?_, fun h1 => ?_⟩
  · rw [h.nb]; exact (Restriction.nb_bounds h.bs).1
  · rw [h.nb, h1]; simp

theorem count_zero {r : Rstr} {D : RData α} {bs : Nat} {l : Int} (hm : Made .plain r bs l D) (tm : TMode)
    (h0 : ¬ 0 < r.numElem) : rstrCount r tm = 0 := by
  obtain ⟨h, rfl, _⟩ := hm.rep
  have hne : D.ne = 0 := by
    have := h.ne
    omega
  have hnb : r.numBlock = 0 := by
    rw [h.nb, hne, Nat.div_eq_of_lt]
    have := h.bs
    omega
  unfold rstrCount
  cases tm <;> cases r.rtype <;> simp [hnb]

theorem run_count {r : Rstr} {D : RData α} {bs : Nat} {l : Int} (hm : Made .plain r bs l D) {tm : TMode} {u v v' : Buf α}
    {n : Nat} (h : rstrRunC r tm u v = .ok (v', n)) : n = rstrCount r tm := by
  rw [rstrRunC_eq, tick_eq_ok] at h
  have h2 := h.2
  dsimp only at h2
  split_ifs at h2 with h0
  · exact h2
  · rw [h2, count_zero hm tm h0]

/-- Gathering counts nothing for offsets and strides, and one operation for each entry of the E-vector with signs: the estimate.
(Restrictions with tridiagonal transformations are in `C47_curl_gather`, those of points in `C47_points_gather`.) -/
theorem C47_gather {r : Rstr} {D : RData α} {bs : Nat} {l : Int} (hm : Made .plain r bs l D)
    (hc : r.rtype ≠ .curlOriented) {u v v' : Buf α} {n : Nat} (h : rstrRunC r .noTranspose u v = .ok (v', n)) :
    rstrFlops r .noTranspose = n ∧ n = (if r.rtype = .oriented then r.eSize else 0) := by
  rw [run_count hm h]
  obtain ⟨hr, rfl, _⟩ := hm.rep
  have he := hr.esz
  have h1 := hr.nc
  have h2 := hr.es
  cases ht : r.rtype with
  | strided => simp [rstrFlops, rstrCount, ht]
  | standard => simp [rstrFlops, rstrCount, ht]
  | points => simp [rstrFlops, rstrCount, ht]
  | curlOriented => exact absurd ht hc
  | oriented =>
    have : r.numBlock * (r.numComp * (r.elemSize * r.blockSize)) = r.eSize := by rw [he, h1, h2]; ring
    simp [rstrFlops, rstrCount, ht, this]

/-- Scattering: one addition for each entry of each element, and one multiplication more with signs. For a restriction that is
not blocked this is the estimate; the estimate for a blocked one includes the padding of the last block. -/
theorem C47_scatter {r : Rstr} {D : RData α} {bs : Nat} {l : Int} (hm : Made .plain r bs l D)
    (hc : r.rtype ≠ .curlOriented) {u v v' : Buf α} {n : Nat} (h : rstrRunC r .transpose u v = .ok (v', n)) :
    n = D.ne * D.nc * D.es * (if r.rtype = .oriented then 2 else 1) ∧
    (bs = 1 → rstrFlops r .transpose = n) ∧ (n : Int) ≤ rstrFlops r .transpose := by
  have hn := run_count hm h
  have hs := sum_laneEnd hm
  obtain ⟨he, hle, hb⟩ := rep_esize hm
  obtain ⟨hr, _, _⟩ := hm.rep
  have h1 := hr.nc
  have h2 := hr.es
  have key : n = D.ne * D.nc * D.es * (if r.rtype = .oriented then 2 else 1) ∧
      rstrFlops r .transpose = ((r.eSize * (if r.rtype = .oriented then 2 else 1) : Nat) : Int) := by
    rw [hn]
    cases ht : r.rtype with
    | strided =>
      refine ⟨?_, by simp [rstrFlops, ht]⟩
      simp only [rstrCount, ht, ← Finset.mul_sum, hs, h1, h2]
      simp; ring
    | standard =>
      refine ⟨?_, by simp [rstrFlops, ht]⟩
      simp only [rstrCount, ht, ← Finset.mul_sum, hs, h1, h2]
      simp; ring
    | points => exact absurd ht hr.cov.notPoints
    | curlOriented => exact absurd ht hc
    | oriented =>
      refine ⟨?_, by simp [rstrFlops, ht]⟩
      simp only [rstrCount, ht, ← Finset.mul_sum, ← Finset.sum_mul, hs, h1, h2]
      simp; ring
  refine ⟨key.1, fun h1 => ?_, ?_⟩
  · rw [key.2, he, hb h1, h1, key.1, Nat.mul_one]
  · rw [key.2, key.1]
    have : D.ne * D.nc * D.es ≤ r.eSize := by
      rw [he]
      calc D.ne * D.nc * D.es ≤ r.numBlock * bs * D.nc * D.es :=
            Nat.mul_le_mul_right _ (Nat.mul_le_mul_right _ hle)
        _ = _ := by ring
    exact_mod_cast Nat.mul_le_mul_right _ this

/-- Gathering with tridiagonal transformations: the first and the last entry of an element take two operations less than the
five that are estimated for each entry. -/
theorem C47_curl_gather {r : Rstr} {D : RData α} {bs : Nat} {l : Int} (hm : Made .plain r bs l D)
    (hc : r.rtype = .curlOriented) {u v v' : Buf α} {n : Nat} (h : rstrRunC r .noTranspose u v = .ok (v', n)) :
    n = r.numBlock * bs * D.nc * (5 * D.es - 4) ∧ rstrFlops r .noTranspose = n + 4 * (r.numBlock * bs * D.nc : Nat) := by
  rw [run_count hm h]
  obtain ⟨hr, rfl, _⟩ := hm.rep
  have he := hr.esz
  have h2 := hr.cov.two hc rfl
  have hes := hr.es
  obtain ⟨m, hm2⟩ : ∃ m, D.es = m + 2 := ⟨D.es - 2, by omega⟩
  have e : rstrCount r .noTranspose = r.numBlock * r.blockSize * D.nc * (5 * D.es - 4) := by
    simp only [rstrCount, hc, hr.nc, hes, hm2]
    have : 5 * (m + 2) - 4 = 5 * m + 6 := by omega
    rw [this, show m + 2 - 2 = m by omega]
    ring
  refine ⟨e, ?_⟩
  have e2 : (5 * D.es - 4) + 4 = 5 * D.es := by omega
  have : r.eSize * 5 = rstrCount r .noTranspose + 4 * (r.numBlock * r.blockSize * D.nc) := by
    rw [e, he, Nat.mul_comm 4, ← Nat.mul_add, e2]; ring
  simp only [rstrFlops, hc]
  exact_mod_cast this

/-- Scattering with tridiagonal transformations: as for gathering, with six operations estimated for each entry. -/
theorem C47_curl_scatter {r : Rstr} {D : RData α} {bs : Nat} {l : Int} (hm : Made .plain r bs l D)
    (hc : r.rtype = .curlOriented) {u v v' : Buf α} {n : Nat} (h : rstrRunC r .transpose u v = .ok (v', n)) :
    n = D.ne * D.nc * (6 * D.es - 4) ∧ (bs = 1 → rstrFlops r .transpose = n + 4 * (D.ne * D.nc : Nat)) := by
  have hs := sum_laneEnd hm
  obtain ⟨he, hle, hb⟩ := rep_esize hm
  rw [run_count hm h]
  obtain ⟨hr, rfl, _⟩ := hm.rep
  have h2 := hr.cov.two hc rfl
  have hes := hr.es
  obtain ⟨m, hm2⟩ : ∃ m, D.es = m + 2 := ⟨D.es - 2, by omega⟩
  have e : rstrCount r .transpose = D.ne * D.nc * (6 * D.es - 4) := by
    have e1 : 6 * (m + 2) - 4 = 6 * m + 8 := by omega
    simp only [rstrCount, hc, hr.nc, hes, hm2]
    rw [e1, show m + 2 - 2 = m by omega, ← hs, Finset.sum_mul, Finset.sum_mul]
    refine Finset.sum_congr rfl fun b _ => ?_
    ring
  refine ⟨e, fun h1 => ?_⟩
  have e2 : (6 * D.es - 4) + 4 = 6 * D.es := by omega
  have : r.eSize * 6 = rstrCount r .transpose + 4 * (D.ne * D.nc) := by
    rw [e, he, hb h1, h1, Nat.mul_comm 4, ← Nat.mul_add, e2]; ring
  simp only [rstrFlops, hc]
  exact_mod_cast this

/-- Restrictions to points: gathering counts nothing, as estimated. -/
theorem C47_points_gather {r : Rstr} (ht : r.rtype = .points) {u v v' : Buf α} {n : Nat}
    (h : rstrRunC r .noTranspose u v = .ok (v', n)) : n = 0 ∧ rstrFlops r .noTranspose = 0 := by
  rw [rstrRunC_eq, tick_eq_ok] at h
  refine ⟨?_, by simp [rstrFlops, ht]⟩
  rw [show n = _ from h.2]
  simp [rstrCount, ht]

/-- Restrictions to points: scattering adds every component of every point, and nothing is estimated. -/
theorem C47_points_scatter {ne np nc : Nat} {lSize : Int} {offsets : Buf Int} {r : Rstr}
    (hr : Restriction.createAtPoints ne np nc lSize offsets = .ok r)
    (ho : Restriction.PointsOK ne np nc lSize offsets) {u v v' : Buf α} {n : Nat}
    (h : rstrRunC r .transpose u v = .ok (v', n)) :
    n = (∑ e ∈ range ne, Restriction.ptsIn offsets e) * nc ∧ rstrFlops r .transpose = 0 := by
  obtain ⟨hp, _, _⟩ := Restriction.createAtPoints_rep ho hr
  rw [rstrRunC_eq, tick_eq_ok] at h
  refine ⟨?_, by simp [rstrFlops, hp.rtype]⟩
  have hn : n = if 0 < r.numElem then rstrCount r .transpose else 0 := h.2
  have hc : rstrCount r .transpose = (∑ e ∈ range ne, Restriction.ptsIn offsets e) * nc := by
    simp only [rstrCount, hp.rtype, hp.nb, hp.hnc]
    rw [Finset.sum_mul]
    refine Finset.sum_congr rfl fun e he => ?_
    have := hp.num (Finset.mem_range.1 he)
    simp [pts, this]
  rw [hn]
  split_ifs with h0
  · exact hc
  · rw [hp.hne] at h0
    have : ne = 0 := by omega
    simp [this]

/-! ## Operators that are not composite -/

/-- Bases whose estimate is exact. -/
inductive Exact (b : Bas α) : TMode → EMode → Prop
  | interp (ht : b.isTensor = true) (hP : 0 < b.P1) (hQ : 0 < b.Q1) (hc : b.colloInterp = false) : Exact b .noTranspose .interp
  | interpT (ht : b.isTensor = true) (hQ : 0 < b.Q1) (hPQ : b.P1 = b.Q1) (hc : b.colloInterp = false) :
      Exact b .transpose .interp
  | grad {tm : TMode} (ht : b.isTensor = true) (hQ : 0 < b.Q1) (hPQ : b.P1 = b.Q1) (hc : b.colloGrad.isSome = true) :
      Exact b tm .grad

/-- The operations of a field in an application of the operator: none for a passive field; for an active field those of a run of
its restriction and of a run of its basis on all elements. -/
inductive Work (op : Oper α) (tm : TMode) (f : OField α) : Nat → Prop
  | passive (h : f.vec ≠ .active) : Work op tm f 0
  | plain {r : Nat} {l : Int} {D : RData α} {u v v' : Buf α} {a : Nat} (h : f.vec = .active) (hr : f.rid = some r)
      (hm : Made .plain (op.rstrs r) 1 l D) (hc : (op.rstrs r).rtype ≠ .curlOriented)
      (e1 : rstrRunC (op.rstrs r) tm u v = .ok (v', a)) (hb : f.basis = none) (he : f.mode = .none) : Work op tm f a
  | basis {r : Nat} {l : Int} {D : RData α} {u v v' w w' : Buf α} {x : Option (Buf α)} {a c : Nat} {b : Bas α}
      {junk : Nat → Nat → α} {add : Bool} (h : f.vec = .active) (hr : f.rid = some r)
      (hm : Made .plain (op.rstrs r) 1 l D) (hc : (op.rstrs r).rtype ≠ .curlOriented)
      (e1 : rstrRunC (op.rstrs r) tm u v = .ok (v', a)) (hb : f.basis = some b) (he : Exact b tm f.mode)
      (e2 : applyCoreC b junk add op.ne tm f.mode x w = .ok (w', c)) : Work op tm f (a + c)

theorem work_rstr {r : Rstr} {l : Int} {D : RData α} (hm : Made .plain r 1 l D) (hc : r.rtype ≠ .curlOriented) {tm : TMode}
    {u v v' : Buf α} {a : Nat} (e : rstrRunC r tm u v = .ok (v', a)) : rstrFlops r tm = a := by
  cases tm
  · exact (C47_gather hm hc e).1
  · exact (C47_scatter hm hc e).2.1 rfl

theorem work_field {op : Oper α} {tm : TMode} {f : OField α} {n : Nat} (h : Work op tm f n) :
    fieldFlops op tm none f = .ok n := by
  cases h with
  | passive h => simp [fieldFlops, h]
  | plain h hr hm hc e1 hb he =>
    simp [fieldFlops, h, hr, work_rstr hm hc e1, hb, he, basisFlops, basisNone, Res.check]
  | @basis r l D u v v' w w' x a c b junk add h hr hm hc e1 hb he e2 =>
    have : ∃ g : Int, basisFlops b tm f.mode false 0 = .ok g ∧ (c : Int) = op.ne * g := by
      generalize hem : f.mode = em at he e2
      cases he with
      | interp ht hP hQ hc => exact C47_interp ht hP hQ hc e2
      | interpT ht hQ hPQ hc => exact C47_transpose_partial ht hQ hPQ hc e2
      | grad ht hQ hPQ hc => exact C47_gradient_partial ht hQ hPQ hc e2
    obtain ⟨g, hg, hcg⟩ := this
    simp [fieldFlops, h, hr, work_rstr hm hc e1, hb, hg, hcg, mul_comm]

theorem loop_fields {n : Nat} {g : Nat → Res Int} {w : Nat → Nat} (h : ∀ i < n, g i = .ok (w i : Int)) (a : Int) :
    loop n (fun i acc => do
      let x ← g i
      Res.ok (acc + x)) a = .ok (a + ((∑ i ∈ range n, w i : Nat) : Int)) := by
  induction n with
  | zero => simp
  | succ n ih =>
    rw [loop_succ, ih (fun i hi => h i (by omega)), Res.bind_ok, h n (by omega), Res.bind_ok, Finset.sum_range_succ]
    push_cast
    rw [add_assoc]

/-- The estimate of an operator that is not composite is the number of operations of its application to the active vectors: those
of restrictions and bases of active inputs, the estimate given for the QFunction at each quadrature point of each element,
and those of bases and restrictions of active outputs. Missing: fields whose own estimate is not exact (restrictions with
tridiagonal transformations, collocated or other than tensor bases, bases with different numbers of nodes and quadrature
points in a gradient or a transpose), and operators at points. -/
theorem C47_operator_partial {p : Part α} (hne : p.op.ne ≠ 0) (hp : p.points = none) (hq : 0 ≤ p.qfl) {wi wo : Nat → Nat}
    (hi : ∀ i < p.op.nin, Work p.op .noTranspose (p.op.inp i) (wi i))
    (ho : ∀ o < p.op.nout, Work p.op .transpose (p.op.out o) (wo o)) :
    partFlops p = .ok (((∑ i ∈ range p.op.nin, wi i : Nat) : Int) + p.op.ne * p.op.Q * p.qfl +
      ((∑ o ∈ range p.op.nout, wo o : Nat) : Int)) := by
  unfold partFlops
  rw [if_neg hne, hp]
  simp only [Option.map_none, Option.getD_none]
  rw [loop_fields (fun i h => work_field (hi i h)), Res.bind_ok, Res.check_true (by omega), Res.bind_ok,
    loop_fields (fun i h => work_field (ho i h)), zero_add]

/-- Without an estimate for the QFunction there is none for the operator. -/
theorem C47_unset {p : Part α} (hne : p.op.ne ≠ 0) (hq : p.qfl < 0) :
    (∀ f, partFlops p ≠ .ok f) ∧
    (p.points = none → ∀ wi : Nat → Nat, (∀ i < p.op.nin, Work p.op .noTranspose (p.op.inp i) (wi i)) →
      partFlops p = .err .incomplete) := by
  have hc : ¬ (-1 < p.qfl) := by omega
  constructor
  · intro f e
    unfold partFlops at e
    rw [if_neg hne] at e
    obtain ⟨a, _, e⟩ := Res.bind_eq_ok.1 e
    rw [Res.check_false hc] at e
    cases e
  · intro hp wi hi
    unfold partFlops
    rw [if_neg hne, hp]
    simp only [Option.map_none]
    rw [loop_fields (fun i h => work_field (hi i h)), Res.bind_ok, Res.check_false hc]
    rfl

/-- Without elements the estimate is zero, whatever the fields. -/
theorem C47_empty {p : Part α} (hne : p.op.ne = 0) : partFlops p = .ok 0 := by
  unfold partFlops
  rw [if_pos hne]

/-! ## Composite operators -/

/-- The estimate of operator `k` is `f`: that of the operator itself if it is not composite, the sum over the sub-operators if it
is. -/
inductive Sums (parts : Nat → Part α) (h : Heap) : Nat → Int → Prop
  | part {k : Nat} {f : Int} (hc : (h k).comp = false) (hf : partFlops (parts k) = .ok f) : Sums parts h k f
  | sum {k : Nat} {fs : List Int} (hc : (h k).comp = true) (hl : fs.length = (h k).subs.length)
      (hs : ∀ (i : Nat) (s : Nat) (f : Int), (h k).subs[i]? = some s → fs[i]? = some f → Sums parts h s f) : Sums parts h k fs.sum

/-- Same operators with the same sub-operators. -/
def Shape (h h' : Heap) : Prop := ∀ k, (h' k).comp = (h k).comp ∧ (h' k).subs = (h k).subs

theorem Shape.refl (h : Heap) : Shape h h := fun _ => ⟨rfl, rfl⟩
theorem Shape.trans {h1 h2 h3 : Heap} (a : Shape h1 h2) (b : Shape h2 h3) : Shape h1 h3 := fun k =>
  ⟨(b k).1.trans (a k).1, (b k).2.trans (a k).2⟩

theorem shape_update {h : Heap} {k : Nat} {x : Node} (hc : x.comp = (h k).comp) (hs : x.subs = (h k).subs) :
    Shape h (Function.update h k x) := by
  intro j
  by_cases e : j = k
  · rw [e, Function.update_self]; exact ⟨hc, hs⟩
  · rw [Function.update_of_ne e]; exact ⟨rfl, rfl⟩

theorem join_shape (k : Nat) (a b : Int) (h : Heap) : (Composite.join k a b h).Post (Shape h) := by
  rw [Composite.join_eq]
  split
  · exact shape_update rfl rfl
  · exact shape_update rfl rfl

theorem bind_shape {β γ : Type} {h : Heap} {x : Out Heap β} {g : Heap → β → Out Heap γ} (hx : x.Post (Shape h))
    (hg : ∀ h' a, (g h' a).Post (Shape h')) : (x.bind g).Post (Shape h) := by
  cases x with
  | ub => trivial
  | err h' e => exact hx
  | ok h' a =>
    have hx : Shape h h' := hx
    have := hg h' a
    rw [Out.bind_ok]
    cases e : g h' a with
    | ub => trivial
    | err h2 e' => rw [e] at this; exact hx.trans this
    | ok h2 a' => rw [e] at this; exact hx.trans this

theorem lensLoop_shape {g : Nat → M Heap (Int × Int)} (hg : ∀ s h, (g s h).Post (Shape h)) (k : Nat) (l : List Nat) (h : Heap) :
    (Composite.lensLoop g k l h).Post (Shape h) := by
  induction l generalizing h with
  | nil => exact Shape.refl h
  | cons s t ih =>
    unfold Composite.lensLoop
    simp only [M.bind_apply]
    exact bind_shape (hg s h) fun h' a => bind_shape (join_shape _ _ _ _) fun h2 _ => ih h2

theorem getLens_shape (n k : Nat) (h : Heap) : (Composite.getLens n k h).Post (Shape h) := by
  induction n generalizing k h with
  | zero => trivial
  | succ n ih =>
    unfold Composite.getLens
    simp only [M.bind_apply, Composite.getH_apply, Out.bind_ok]
    split
    · rw [M.bind_apply]
      exact bind_shape (lensLoop_shape (fun s h => ih s h) _ _ _) fun h' _ => Shape.refl h'
    · exact Shape.refl h

theorem forAll_shape {g : Nat → M Heap Unit} (hg : ∀ s h, (g s h).Post (Shape h)) (l : List Nat) (h : Heap) :
    (Composite.forAll g l h).Post (Shape h) := by
  induction l generalizing h with
  | nil => exact Shape.refl h
  | cons s t ih =>
    unfold Composite.forAll
    rw [M.bind_apply]
    exact bind_shape (hg s h) fun h' _ => ih h'

theorem checkReady_shape (n k : Nat) (h : Heap) : (checkReady n k h).Post (Shape h) := by
  induction n generalizing k h with
  | zero => trivial
  | succ n ih =>
    unfold checkReady
    simp only [M.bind_apply, Composite.getH_apply, Out.bind_ok]
    split
    · exact Shape.refl h
    · rw [M.bind_apply]
      refine bind_shape ?_ fun h' _ => shape_update rfl rfl
      split
      · unfold Composite.readyComposite
        split
        · exact shape_update rfl rfl
        · simp only [M.bind_apply]
          exact bind_shape (forAll_shape ih _ _) fun h' _ => bind_shape (getLens_shape _ _ _) fun h2 _ => Shape.refl h2
      · rw [M.check_apply]
        split
        · exact Shape.refl h
        · exact Shape.refl h

theorem Sums.shape {parts : Nat → Part α} {h h' : Heap} (hs : Shape h h') {k : Nat} {f : Int} (a : Sums parts h' k f) :
    Sums parts h k f := by
  induction a with
  | part hc hf => exact .part ((hs _).1.symm.trans hc) hf
  | sum hc hl _ ih =>
    refine .sum ((hs _).1.symm.trans hc) (by rw [hl, (hs _).2]) fun i s f h1 h2 => ih i s f ?_ h2
    rw [(hs _).2]; exact h1

theorem sumSubs_adds {parts : Nat → Part α} {g : Nat → M Heap Int} {h0 : Heap}
    (hg : ∀ s h h' f, Shape h0 h → g s h = .ok h' f → Sums parts h0 s f ∧ Shape h0 h') (l : List Nat) {h h' : Heap}
    (hh : Shape h0 h) {a f : Int} (e : sumSubs g l a h = .ok h' f) :
    Shape h0 h' ∧ ∃ fs : List Int, fs.length = l.length ∧ f = a + fs.sum ∧
      ∀ (i : Nat) (s : Nat) (x : Int), l[i]? = some s → fs[i]? = some x → Sums parts h0 s x := by
  induction l generalizing h a with
  | nil =>
    cases e
    exact ⟨hh, [], rfl, by simp, by simp⟩
  | cons s t ih =>
    unfold sumSubs at e
    rw [M.bind_apply] at e
    obtain ⟨h1, x, e1, e2⟩ := Out.bind_eq_ok.1 e
    obtain ⟨a1, s1⟩ := hg s h h1 x hh e1
    obtain ⟨s2, fs, hl, hf, hfs⟩ := ih s1 e2
    refine ⟨s2, x :: fs, by simp [hl], by rw [hf, List.sum_cons]; ring, ?_⟩
    intro i s' x' h1 h2
    cases i with
    | zero =>
      simp at h1 h2
      rw [← h1, ← h2]; exact a1
    | succ i => exact hfs i s' x' (by simpa using h1) (by simpa using h2)

/-- The estimate of a composite operator is the sum of the estimates of its sub-operators, at any depth of nesting. -/
theorem C47_composite {parts : Nat → Part α} {n k : Nat} {h h' : Heap} {f : Int} (e : flops parts n k h = .ok h' f) :
    Sums parts h k f := by
  have main : ∀ n k h0 h h' f, Shape h0 h → flops parts n k h = .ok h' f → Sums parts h0 k f ∧ Shape h0 h' := by
    intro n
    induction n with
    | zero => intro k h0 h h' f _ e; cases e
    | succ n ih =>
      intro k h0 h h' f hs e
      unfold flops at e
      simp only [M.bind_apply] at e
      obtain ⟨h1, _, e1, e2⟩ := Out.bind_eq_ok.1 e
      have hs1 := checkReady_shape (n + 1) k h
      rw [e1] at hs1
      have hs1 : Shape h0 h1 := hs.trans hs1
      simp only [Composite.getH_apply, Out.bind_ok] at e2
      split at e2
      · rename_i hc
        obtain ⟨s2, fs, hl, hf, hfs⟩ := sumSubs_adds (fun s h h' f a b => ih s h0 h h' f a b) _ hs1 e2
        refine ⟨?_, s2⟩
        rw [hf, zero_add]
        refine .sum ((hs1 k).1.symm.trans hc) (by rw [hl, (hs1 k).2]) fun i s x a b => hfs i s x ?_ b
        rw [(hs1 k).2]; exact a
      · rename_i hc
        cases hp : partFlops (parts k) with
        | ok x =>
          simp only [M.lift, hp] at e2
          cases e2
          exact ⟨.part (by rw [← (hs1 k).1]; simpa using hc) hp, hs1⟩
        | err x => simp only [M.lift, hp] at e2; cases e2
        | ub => simp only [M.lift, hp] at e2; cases e2
  exact (main n k h h h' f (Shape.refl h) e).1

end

end Flops
end Verif
