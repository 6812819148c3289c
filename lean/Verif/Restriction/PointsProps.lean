import Verif.Restriction.Points

/-!
# C19: at-points restrictions

`ptsIn`, `ptAt`, `ptsBefore` (see `PointsSpec.lean`) read the user's array: number of points of an element, its `i`-th
point, number of points of the preceding elements.
-/

namespace Verif.Restriction
open Finset

variable {α : Type} [CommRing α] {r : Rstr} {ne np nc : Nat} {lSize : Int} {offsets : Buf Int}

/-- `GetNumPointsInElement` reports the length of the slice. -/
theorem C19_num_points (hok : PointsOK ne np nc lSize offsets) (h : createAtPoints ne np nc lSize offsets = .ok r)
    {e : Nat} (he : e < ne) : numPointsInElement r e = .ok (ptsIn offsets e : Int) :=
  (createAtPoints_rep hok h).1.num he

/-- `GetMinPointsInElement` and `GetMaxPointsInElement` report the least and the largest slice length: both are attained
and bound all slices. -/
theorem C19_min_max_points (hok : PointsOK ne np nc lSize offsets) (h : createAtPoints ne np nc lSize offsets = .ok r) :
    ∃ lo hi : Nat, minMaxPointsInElement r = .ok ((lo : Int), (hi : Int)) ∧
      (∀ e < ne, lo ≤ ptsIn offsets e ∧ ptsIn offsets e ≤ hi) ∧
      (∃ e < ne, ptsIn offsets e = lo) ∧ ∃ e < ne, ptsIn offsets e = hi := by
  obtain ⟨hr, -, -⟩ := createAtPoints_rep hok h
  have hpos := hok.pos
  unfold minMaxPointsInElement
  rw [Res.check_true hr.rtype, Res.bind_ok, if_neg (by rw [hr.hne]; omega)]
  have h0 := hr.num (e := 0) hpos
  rw [Int.ofNat_zero] at h0
  rw [h0, Res.bind_ok, hr.hne, show ((ne : Int) - 1).toNat = ne - 1 by omega]
  obtain ⟨s, e1, lo, hi, rfl, h1, h2, h3⟩ := loop_inv (n := ne - 1)
    (body := fun i (s : Int × Int) => do
      let np ← numPointsInElement r ((i + 1 : Nat) : Int)
      Res.ok (min np s.1, max np s.2)) (s := ((ptsIn offsets 0 : Int), (ptsIn offsets 0 : Int)))
    (fun i s => ∃ lo hi : Nat, s = ((lo : Int), (hi : Int)) ∧
      (∀ e < i + 1, lo ≤ ptsIn offsets e ∧ ptsIn offsets e ≤ hi) ∧
      (∃ e < i + 1, ptsIn offsets e = lo) ∧ ∃ e < i + 1, ptsIn offsets e = hi)
    ⟨_, _, rfl, by intro e he; have : e = 0 := by omega
                   subst this; omega, ⟨0, by omega, rfl⟩, ⟨0, by omega, rfl⟩⟩
    (by
      rintro i hi s ⟨lo, hi', rfl, h1, ⟨e2, he2, h2⟩, ⟨e3, he3, h3⟩⟩
      rw [hr.num (e := i + 1) (by omega)]
      refine ⟨_, rfl, min (ptsIn offsets (i + 1)) lo, max (ptsIn offsets (i + 1)) hi', by push_cast; rfl, ?_, ?_, ?_⟩
      · intro e he
        rcases Nat.lt_succ_iff_lt_or_eq.1 he with h | rfl
        · have := h1 e h; omega
        · omega
      · by_cases hc : ptsIn offsets (i + 1) ≤ lo
        · exact ⟨i + 1, by omega, by omega⟩
        · exact ⟨e2, by omega, by omega⟩
      · by_cases hc : hi' ≤ ptsIn offsets (i + 1)
        · exact ⟨i + 1, by omega, by omega⟩
        · exact ⟨e3, by omega, by omega⟩)
  rw [show ne - 1 + 1 = ne by omega] at h1 h2 h3
  exact ⟨lo, hi, e1, h1, h2, h3⟩

/-- `GetAtPointsElementOffset` reports where the slice of an element starts in the E-vector. -/
theorem C19_element_offset (hok : PointsOK ne np nc lSize offsets) (h : createAtPoints ne np nc lSize offsets = .ok r)
    {e : Nat} (he : e ≤ ne) : atPointsElementOffset r e = .ok ((ptsBefore offsets e * nc : Nat) : Int) := by
  obtain ⟨hr, -, -⟩ := createAtPoints_rep hok h
  unfold atPointsElementOffset
  rw [Res.check_true hr.rtype, Res.bind_ok, Int.toNat_natCast]
  refine loop_pure (f := fun i => ((ptsBefore offsets i * nc : Nat) : Int)) (by simp [ptsBefore]) ?_
  intro i hi
  rw [hr.num (by omega), Res.bind_ok, before_succ, hr.hnc]
  push_cast
  congr 1; ring

/-- Gather of one element: `E u` restricted to element `e`, component by component, point by point. -/
theorem C19_element_gather (hok : PointsOK ne np nc lSize offsets) (h : createAtPoints ne np nc lSize offsets = .ok r)
    {e : Nat} (he : e < ne) {u v : Buf α} (hu : lSize ≤ u.len) (hv : ptsIn offsets e * nc ≤ v.len) :
    ∃ v', applyAtPointsInElement r e .noTranspose u v = .ok v' ∧ v'.len = v.len ∧
      (∀ i < ptsIn offsets e, ∀ j < nc, v'.val (j * ptsIn offsets e + i) = u.val (ptAt offsets e i * nc + j)) ∧
      ∀ x, ptsIn offsets e * nc ≤ x → v'.val x = v.val x := by
  obtain ⟨hr, -, -⟩ := createAtPoints_rep hok h
  obtain ⟨v', e1, l1, a1, c1⟩ := hr.gather he (eo := 0) (L := v.len) (by omega) hu v rfl
  refine ⟨v', ?_, l1, ?_, ?_⟩
  · simp only [applyAtPointsInElement]
    rw [Res.check_true hr.rtype, Res.bind_ok, hr.num he, Res.bind_ok, hr.lsz, hr.hne, hr.hnc]
    rw [Res.check_true hu, Res.check_true (by rw [← Int.natCast_mul]; omega), Res.check_true (by omega)]
    simp only [Res.bind_ok, Int.toNat_natCast]
    rw [if_pos (by omega), hr.implApply, hr.kernel_eq (by omega)]
    simp only [show e + 1 - e = 1 by omega, loop_succ, loop_zero, Res.bind_ok, range_zero, sum_empty, Nat.add_zero]
    exact e1
  · intro i hi j hj
    have := enc_lt hj hi
    rw [Nat.mul_comm nc] at this
    rw [a1 _ (by omega)]
    simp only [Nat.sub_zero]
    rw [div_enc hi, mod_enc hi]
  · intro x hx
    exact c1 x (by omega)

/-- Scatter of one element: adds every point value to the L-vector entry of that point. -/
theorem C19_element_scatter (hok : PointsOK ne np nc lSize offsets) (h : createAtPoints ne np nc lSize offsets = .ok r)
    {e : Nat} (he : e < ne) {u v : Buf α} (hv : lSize ≤ v.len) (hu : ptsIn offsets e * nc ≤ u.len) :
    applyAtPointsInElement r e .transpose u v = .ok ⟨v.len, fun t => v.val t +
      ∑ i ∈ range (ptsIn offsets e), ∑ j ∈ range nc,
        if t = ptAt offsets e i * nc + j then u.val (j * ptsIn offsets e + i) else 0⟩ := by
  obtain ⟨hr, -, -⟩ := createAtPoints_rep hok h
  have e1 := hr.scatter he (eo := 0) (L := v.len) (u := u) (by omega) hv v rfl
  simp only [applyAtPointsInElement]
  rw [Res.check_true hr.rtype, Res.bind_ok, hr.num he, Res.bind_ok, hr.lsz, hr.hne, hr.hnc]
  rw [Res.check_true (by rw [← Int.natCast_mul]; omega), Res.check_true hv, Res.check_true (by omega)]
  simp only [Res.bind_ok, Int.toNat_natCast]
  rw [if_pos (by omega), hr.implApply, hr.kernel_eq (by omega)]
  simp only [show e + 1 - e = 1 by omega, loop_succ, loop_zero, Res.bind_ok, range_zero, sum_empty, Nat.add_zero]
  rw [e1]
  simp only [Nat.zero_add]

/-- Gather of all elements: the slices follow each other in the E-vector, at the reported offsets. -/
theorem C19_gather (hok : PointsOK ne np nc lSize offsets) (h : createAtPoints ne np nc lSize offsets = .ok r)
    (var : Variant) {u v : Buf α} (hu : lSize ≤ u.len) (hv : r.eSize ≤ v.len) :
    ∃ v', apply r var .noTranspose u v = .ok v' ∧ v'.len = v.len ∧
      ∀ e < ne, ∀ i < ptsIn offsets e, ∀ j < nc,
        v'.val (ptsBefore offsets e * nc + (j * ptsIn offsets e + i)) = u.val (ptAt offsets e i * nc + j) := by
  obtain ⟨hr, -, -⟩ := createAtPoints_rep hok h
  have hE := hr.esz
  have hpos := hok.pos
  obtain ⟨v', e1, l1, a1, _⟩ := hr.gather_all (B := ne) le_rfl (u := u) (v := v) hu (by omega)
  refine ⟨v', ?_, l1, a1⟩
  simp only [apply]
  rw [hr.lsz, Res.check_true hu, Res.check_true (by omega)]
  simp only [Res.bind_ok]
  rw [if_pos (by rw [hr.hne]; omega), hr.hnc, hr.implApply, hr.kernel_eq (by rw [hr.nb]), hr.nb]
  simp only [Nat.sub_zero, Nat.zero_add, before_eq]
  exact e1

/-- Scatter of all elements. -/
theorem C19_scatter (hok : PointsOK ne np nc lSize offsets) (h : createAtPoints ne np nc lSize offsets = .ok r)
    (var : Variant) {u v : Buf α} (hu : r.eSize ≤ u.len) (hv : lSize ≤ v.len) :
    apply r var .transpose u v = .ok ⟨v.len, fun t => v.val t +
      ∑ e ∈ range ne, ∑ i ∈ range (ptsIn offsets e), ∑ j ∈ range nc,
        if t = ptAt offsets e i * nc + j then u.val (ptsBefore offsets e * nc + (j * ptsIn offsets e + i)) else 0⟩ := by
  obtain ⟨hr, -, -⟩ := createAtPoints_rep hok h
  have hE := hr.esz
  have hpos := hok.pos
  simp only [apply]
  rw [hr.lsz, Res.check_true (by omega), Res.check_true hv]
  simp only [Res.bind_ok]
  rw [if_pos (by rw [hr.hne]; omega), hr.hnc, hr.implApply, hr.kernel_eq (by rw [hr.nb]), hr.nb]
  simp only [Nat.sub_zero, Nat.zero_add, before_eq]
  have := Adds.loop (n := ne) (L := v.len) (body := fun e => ptScatter r nc e (ptsBefore offsets e * nc) u)
    (fun e he => hr.scatter he (eo := ptsBefore offsets e * nc) (u := u) (by
      have h1 : ptsBefore offsets (e + 1) * nc ≤ ptsBefore offsets ne * nc := Nat.mul_le_mul_right _ (before_mono _ he)
      rw [before_succ, Nat.add_mul] at h1
      omega) hv)
  exact this v rfl

/-- The E-vector reported for the restriction has room for every element to be processed with the largest number of
points: offset plus `max` points stays inside. -/
theorem C19_evector_size (hok : PointsOK ne np nc lSize offsets) (h : createAtPoints ne np nc lSize offsets = .ok r)
    {e : Nat} (he : e + 1 = ne) {hi : Nat} (hm : ∃ lo, minMaxPointsInElement r = .ok (lo, (hi : Int))) :
    ptsBefore offsets e * nc + hi * nc = r.eSize := by
  obtain ⟨lo', hi', e1, h1, _, h3⟩ := C19_min_max_points hok h
  obtain ⟨lo, hm⟩ := hm
  rw [e1] at hm
  have : hi' = hi := by
    injection hm with hm; have := congrArg Prod.snd hm; simp only at this; omega
  subst this
  obtain ⟨hr, -, hE⟩ := createAtPoints_rep hok h
  have hmax : maxPts offsets ne = hi' := by
    have hup : ∀ B ≤ ne, maxPts offsets B ≤ hi' := by
      intro B
      induction B with
      | zero => intro _; simp [maxPts]
      | succ B ih => intro hB; simp only [maxPts]; have := ih (by omega); have := h1 B (by omega); omega
    obtain ⟨e3, he3, h3⟩ := h3
    have := le_maxPts offsets he3
    have := hup ne le_rfl
    omega
  subst he
  rw [hE, hmax, before_succ, Nat.add_sub_cancel, ← Nat.add_mul]
  have := h1 e (by omega)
  congr 1
  omega

/-- An at-points restriction without elements reads before the array of offsets when it is created. -/
theorem C19_no_elements_witness (np nc lSize : Int) (offsets : Buf Int) (h0 : 0 ≤ np) (h1 : 0 < nc)
    (h2 : np * nc ≤ lSize) (h3 : 0 < offsets.len) : createAtPoints 0 np nc lSize offsets = .ub := by
  have e : Buf.rdI offsets ((0 : Int) - 1) = .ub := rfl
  simp only [createAtPoints]
  rw [Res.check_true (by omega), Res.check_true h0, Res.check_true h1, Res.check_true h2]
  simp only [Res.bind_ok, Int.toNat_zero, loop_zero, e]
  rw [Buf.rdI_lt (i := 0) (by omega) (by omega)]
  rfl

/-- Indices of points are never checked: point number 7 in an L-vector of one entry. -/
theorem C19_unchecked_point_witness :
    ∃ r, createAtPoints 1 1 1 1 (Buf.ofList [2, 3, 7]) = .ok r ∧
      apply r .plain .noTranspose (⟨1, fun _ => 0⟩ : Buf Int) ⟨1, fun _ => 0⟩ = .ub := ⟨_, rfl, rfl⟩

/-- Three elements with 2, 0 and 1 points (points 3, 0 and 2), two components. -/
example : PointsOK 3 3 2 8 (Buf.ofList [4, 6, 6, 7, 3, 0, 2]) ∧
    ∃ r, createAtPoints 3 3 2 8 (Buf.ofList [4, 6, 6, 7, 3, 0, 2]) = .ok r ∧ r.eSize = 8 := by
  refine ⟨⟨by decide, by decide, by decide, by decide, by decide, ?_⟩, _, rfl, rfl⟩
  intro e he i hi
  rcases (by omega : e = 0 ∨ e = 1 ∨ e = 2) with rfl | rfl | rfl
  · rw [show ptsIn (Buf.ofList [4, 6, 6, 7, 3, 0, 2]) 0 = 2 by rfl] at hi
    rcases (by omega : i = 0 ∨ i = 1) with rfl | rfl <;> decide
  · rw [show ptsIn (Buf.ofList [4, 6, 6, 7, 3, 0, 2]) 1 = 0 by rfl] at hi
    omega
  · rw [show ptsIn (Buf.ofList [4, 6, 6, 7, 3, 0, 2]) 2 = 1 by rfl] at hi
    have : i = 0 := by omega
    subst this; decide

end Verif.Restriction
