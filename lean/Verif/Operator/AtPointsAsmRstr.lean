import Verif.Operator.AtPointsAsm
import Verif.Restriction.LayoutProps

/-!
# C79: the restriction returned with the assembled QFunction

The entries it reads are not where the assembly put them (`C79_restriction_witness`), but it exists, fits the array, and
has the points of the operator.
-/

namespace Verif
namespace Operator
open Restriction

variable {K : Type} [Field K]

/-- Creation of an at-points restriction on the array of another one, with other components. -/
theorem createAtPoints_again {ne np nc nc' : Nat} {L : Int} {offs : Buf Int} {r : Rstr} (hok : PointsOK ne np nc L offs)
    (h : createAtPoints ne np nc L offs = .ok r) (hc : 0 < nc') :
    ∃ r', createAtPoints ne np nc' (nc' * np : Nat) r.offsets = .ok r' := by
  obtain ⟨hr, h0, -⟩ := createAtPoints_rep hok h
  have hl := hok.len
  have hpos := hok.pos
  have hrd : ∀ i : Int, 0 ≤ i → i ≤ ne → r.offsets.rdI i = offs.rdI i := by
    intro i h1 h2
    rw [hr.offs, Buf.rdI_lt h1 (by simp only; push_cast; omega), Buf.rdI_lt h1 (by omega)]
  simp only [createAtPoints, Res.bind_eq_ok, Res.check_eq_ok] at h
  obtain ⟨_, _, _, _, _, _, _, _, s, hs, a, ha, b, hb, _, ht, o, _, _⟩ := h
  unfold createAtPoints
  rw [Res.check_true (by omega), Res.check_true (by omega), Res.check_true (by omega),
    Res.check_true (by push_cast; rw [Int.mul_comm])]
  simp only [Res.bind_ok]
  rw [loop_congr (g := fun i (s : Int × Int) => do
    let a ← offs.rdI ((i : Int) + 1)
    let b ← offs.rdI (i : Int)
    Res.ok (max s.1 (a - b), s.2 + (a - b))) (fun i hi s => by
      have hi' : (i : Int) < ne := by omega
      rw [hrd _ (by omega) (by omega), hrd _ (by omega) (by omega)]), hs]
  simp only [Res.bind_ok]
  rw [hrd _ (by omega) (by omega), hrd _ (by omega) (by omega), ha, hb]
  simp only [Res.bind_ok]
  have ht' : (np : Int) ≤ s.2 + (s.1 - (a - b)) := le_of_mul_le_mul_right ht (by omega)
  rw [Res.check_true (mul_le_mul_of_nonneg_right ht' (by omega)), Res.bind_ok]
  have : copyIn r.offsets (ne + 1 + np : Int).toNat = .ok ⟨(ne + 1 + np : Int).toNat, r.offsets.val⟩ := by
    unfold copyIn
    rw [if_pos (by rw [hr.offs]; simp only; omega)]
  rw [this, Res.bind_ok]
  exact ⟨_, rfl⟩

/-- The restriction returned with the assembled QFunction can be created whenever the points of the operator have
numbers below their number; it is compatible with the restriction of the points, its L-vector has the length of the
assembled array, and it reads `qin*qout` components of every point of an element, those of point `p` from entry
`p*qin*qout` on. Partial: these are not the entries the assembly wrote for that point (`C79_restriction_witness`). -/
theorem C79_restriction_shape_partial {P : POper K} {p : Rstr} {m : Nat} (hP : P.points = some (p, m)) {ne np nc : Nat} {L : Int}
    {offs : Buf Int} (hok : PointsOK ne np nc L offs) (h : createAtPoints ne np nc L offs = .ok p) (hne : P.op.ne = ne)
    (hnum : ∀ e < ne, ∀ i < ptsIn offs e, ptAt offs e i < np) {qin qout : Nat} (h1 : 0 < qin) (h2 : 0 < qout) :
    ∃ r, asmRstr P qin qout = some (.ok r) ∧ atPointsAreCompatible p r = .ok true ∧
      (createVector r).1 = qin * qout * np ∧
      ∀ e < ne, ∀ u v : Buf K, qin * qout * np ≤ u.len → ptsIn offs e * (qin * qout) ≤ v.len →
        ∃ v', applyAtPointsInElement r e .noTranspose u v = .ok v' ∧ ∀ i < ptsIn offs e, ∀ j < qin * qout,
          v'.val (j * ptsIn offs e + i) = u.val (ptAt offs e i * (qin * qout) + j) := by
  obtain ⟨hr, -, -⟩ := createAtPoints_rep hok h
  have hpp := Nat.mul_pos h1 h2
  obtain ⟨r, e1⟩ := createAtPoints_again hok h hpp
  have hnp : p.numPoints = np := by
    have := C80_num_points h
    unfold getNumPoints at this
    rw [Res.check_true hr.rtype, Res.bind_ok] at this
    have := Res.ok.inj this
    omega
  have hval : p.offsets.val = offs.val := by rw [hr.offs]
  have hin : ptsIn p.offsets = ptsIn offs := by funext e; unfold ptsIn; rw [hval]
  have hat : ptAt p.offsets = ptAt offs := by funext e i; unfold ptAt; rw [hval]
  have hok' : PointsOK ne np (qin * qout) (qin * qout * np : Nat) p.offsets := by
    refine ⟨hok.pos, by rw [hr.offs], by rw [hval]; exact hok.first, by rw [hval]; exact hok.mono, by rw [hval]; exact hok.last, ?_⟩
    intro e he i hi
    rw [hin] at hi
    rw [hval]
    have a1 := (hok.idx e he i hi).1
    have a2 := hnum e he i hi
    unfold ptAt at a2
    refine ⟨a1, ?_⟩
    have a3 : offs.val ((offs.val e).toNat + i) + 1 ≤ np := by omega
    have := mul_le_mul_of_nonneg_right a3 (show (0 : Int) ≤ (qin * qout : Nat) by omega)
    refine this.trans (le_of_eq ?_)
    push_cast
    ring
  obtain ⟨hr', -, -⟩ := createAtPoints_rep hok' e1
  refine ⟨r, ?_, ?_, ?_, ?_⟩
  · unfold asmRstr
    rw [hP, Option.map_some, hne, hnp, e1]
  · rw [compat_eq hok h hok' e1, hval]
    simp
  · simp only [createVector, hr'.lsz]
    push_cast
    ring
  · intro e he u v hu hv
    obtain ⟨v', b1, -, b2, -⟩ := C19_element_gather hok' e1 he (u := u) (v := v) (by exact_mod_cast hu) (by rw [hin]; exact hv)
    rw [hin, hat] at b2
    exact ⟨v', b1, b2⟩

end Operator
end Verif
