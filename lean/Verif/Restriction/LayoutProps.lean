import Verif.Restriction.Layout
import Verif.Restriction.Props
import Verif.Restriction.PointsProps

/-!
# C80: layouts describe the data, compatibility of at-points restrictions
-/

namespace Verif.Restriction
open Finset

variable {α : Type} [CommRing α]

theorem getELayout_eq (r : Rstr) : getELayout r = .ok (1, r.elemSize, (r.elemSize : Int) * r.numComp) := rfl

theorem layoutPos_ref (es nc i j k : Nat) : layoutPos (1, es, (es : Int) * nc) i j k = k * nc * es + j * es + i := by
  unfold layoutPos
  rw [show (i * 1 + j * es + k * ((es : Int) * nc) : Int) = ((k * nc * es + j * es + i : Nat) : Int) by push_cast; ring]
  exact Int.toNat_natCast _

/-- The E-vector layout reported by a restriction that is not blocked says where `Apply` puts the data: node `i` of
component `j` of element `k` is found at `i*l[0] + j*l[1] + k*l[2]`. Missing: blocked and at-points restrictions, for
which the reported layout is wrong (`C80_blocked_layout_witness`, `C80_points_layout_witness`). -/
theorem C80_elayout_partial {var : Variant} {r : Rstr} {lSize : Int} {D : RData α} (hm : Made var r 1 lSize D)
    {u v : Buf α} (hu : lSize ≤ u.len) (hv : r.eSize ≤ v.len) :
    ∃ l v', getELayout r = .ok l ∧ apply r var .noTranspose u v = .ok v' ∧
      ∀ k < D.ne, ∀ j < D.nc, ∀ i < D.es,
        v'.val (layoutPos l i j k) = ∑ m ∈ range D.es, D.coef k i m * u.val (D.lidx k m j) := by
  obtain ⟨v', h1, -, h3, -⟩ := C11_apply_gathers hm hu hv
  obtain ⟨h, -, -⟩ := hm.rep
  refine ⟨_, v', getELayout_eq r, h1, fun k hk j hj i hi => ?_⟩
  rw [h.es, h.nc, layoutPos_ref, ← ePos_one]
  exact h3 k hk j hj i hi

/-- In the other direction: what `Apply` in transpose mode adds to entry `t` of the L-vector is made of the entries of
the E-vector at the reported positions. -/
theorem C80_elayout_transpose_partial {var : Variant} {r : Rstr} {lSize : Int} {D : RData α} (hm : Made var r 1 lSize D)
    {u v : Buf α} (hu : r.eSize ≤ u.len) (hv : lSize ≤ v.len) :
    ∃ l v', getELayout r = .ok l ∧ apply r var .transpose u v = .ok v' ∧
      ∀ t, v'.val t = v.val t + ∑ k ∈ range D.ne, ∑ j ∈ range D.nc, ∑ i ∈ range D.es, ∑ m ∈ range D.es,
        if D.lidx k m j = t then D.coef k i m * u.val (layoutPos l i j k) else 0 := by
  obtain ⟨h, hb, hl⟩ := hm.rep
  have h1 := h.apply_t hu (by rw [hl]; exact hv)
  refine ⟨_, _, getELayout_eq r, h1, fun t => ?_⟩
  simp only [h.es, h.nc, layoutPos_ref, ← ePos_one, hb]
  rfl

/-- The positions of the reported E-vector layout are inside the E-vector and distinct. -/
theorem C80_elayout_injective_partial {var : Variant} {r : Rstr} {lSize : Int} {D : RData α} (hm : Made var r 1 lSize D) :
    ∃ l, getELayout r = .ok l ∧
      (∀ k < D.ne, ∀ j < D.nc, ∀ i < D.es, layoutPos l i j k < r.eSize) ∧
      ∀ k < D.ne, ∀ j < D.nc, ∀ i < D.es, ∀ k' < D.ne, ∀ j' < D.nc, ∀ i' < D.es,
        layoutPos l i j k = layoutPos l i' j' k' → i = i' ∧ j = j' ∧ k = k' := by
  obtain ⟨h, hb, -⟩ := hm.rep
  refine ⟨_, getELayout_eq r, ?_, ?_⟩
  · intro k hk j hj i hi
    rw [h.es, h.nc, layoutPos_ref, h.esz, h.nb, hb]
    simp only [Nat.add_sub_cancel, Nat.div_one, Nat.mul_one]
    have e1 : k * D.nc * D.es + j * D.es + i = (k * D.nc + j) * D.es + i := by ring
    have := enc_lt (enc_lt hk hj) hi
    rw [e1]
    exact this
  · intro k hk j hj i hi k' hk' j' hj' i' hi' he
    rw [h.es, h.nc, layoutPos_ref, layoutPos_ref] at he
    have e1 : ∀ k j i, k * D.nc * D.es + j * D.es + i = (k * D.nc + j) * D.es + i := by intros; ring
    rw [e1, e1] at he
    have a1 := congrArg (· / D.es) he
    have a2 := congrArg (· % D.es) he
    simp only [div_enc hi, div_enc hi', mod_enc hi, mod_enc hi'] at a1 a2
    have a3 := congrArg (· / D.nc) a1
    have a4 := congrArg (· % D.nc) a1
    simp only [div_enc hj, div_enc hj', mod_enc hj, mod_enc hj'] at a3 a4
    exact ⟨a2, a4, a3⟩

theorem getLLayout_backend {r : Rstr} (ht : r.rtype = .strided) (hs : r.strides = some (0, 0, 0)) :
    getLLayout r = .ok (1, r.elemSize, (r.elemSize : Int) * r.numComp) := by
  simp [getLLayout, hasBackendStrides, lLayoutField, refLayout, ht, hs]

theorem getLLayout_user {r : Rstr} {s : Lay} (ht : r.rtype = .strided) (hs : r.strides = some s) (h0 : s ≠ (0, 0, 0)) :
    getLLayout r = .ok s := by
  have : (decide (s.1 = 0) && decide (s.2.1 = 0) && decide (s.2.2 = 0)) = false := by
    obtain ⟨a, b, c⟩ := s
    by_contra hc
    simp only [Bool.not_eq_false, Bool.and_eq_true, decide_eq_true_eq] at hc
    exact h0 (by rw [hc.1.1, hc.1.2, hc.2])
  simp [getLLayout, hasBackendStrides, getStrides, ht, hs, this]

/-- Positions of strided restrictions in terms of the layout they report. -/
theorem getLLayout_strided {r : Rstr} {ne es nc : Nat} {s : Lay} (ht : r.rtype = .strided) (hs : r.strides = some s)
    (he : r.elemSize = es) (hn : r.numComp = nc) : ∃ l, getLLayout r = .ok l ∧
      ∀ i j k, (stridedData (α := α) ne es nc s).lidx k i j = layoutPos l i j k := by
  by_cases h0 : s = (0, 0, 0)
  · subst h0
    refine ⟨_, getLLayout_backend ht hs, fun i j k => ?_⟩
    rw [he, hn, layoutPos_ref]
    simp only [stridedData, if_true]
    ring
  · refine ⟨_, getLLayout_user ht hs h0, fun i j k => ?_⟩
    simp only [stridedData, if_neg h0, layoutPos]

/-- A strided restriction reports both layouts, and `Apply` copies the entry of the L-vector at the position of its
L-vector layout to the entry of the E-vector at the position of its E-vector layout, for backend strides as for
strides given by the user. -/
theorem C80_llayout {var : Variant} {ne es nc : Nat} {lSize : Int} {s : Lay} {r : Rstr}
    (h : createStrided ne es nc lSize s = .ok r) (hin : s = (0, 0, 0) ∨ StridesInRange ne es nc lSize s)
    {u v : Buf α} (hu : lSize ≤ u.len) (hv : r.eSize ≤ v.len) :
    ∃ l le v', getLLayout r = .ok l ∧ getELayout r = .ok le ∧ apply r var .noTranspose u v = .ok v' ∧
      ∀ k < ne, ∀ j < nc, ∀ i < es, layoutPos l i j k < lSize ∧
        v'.val (layoutPos le i j k) = u.val (layoutPos l i j k) := by
  have hm : Made (α := α) var r 1 lSize (stridedData ne es nc s) := Made.strided h hin
  obtain ⟨hr, -, hl⟩ := hm.rep
  have hf : r.rtype = .strided ∧ r.strides = some s := by
    simp only [createStrided, Res.bind_eq_ok, Res.check_eq_ok] at h
    obtain ⟨_, h1, _, h2, _, h3, _, h4, h5⟩ := h
    cases h5
    exact ⟨rfl, rfl⟩
  obtain ⟨le, v', e1, e2, e3⟩ := C80_elayout_partial hm hu hv
  obtain ⟨l, e4, e5⟩ := getLLayout_strided (α := α) (ne := ne) (es := es) (nc := nc) hf.1 hf.2 hr.es hr.nc
  refine ⟨l, le, v', e4, e1, e2, fun k hk j hj i hi => ⟨?_, ?_⟩⟩
  · have := hr.rng k hk i hi j hj
    rw [hl, e5] at this
    exact this
  · rw [e3 k hk j hj i hi, ← e5]
    simp only [stridedData, idCoef, ite_mul, one_mul, zero_mul]
    rw [sum_ite_eq' (range es) i, if_pos (mem_range.2 hi)]

/-- A blocked strided restriction reports the L-vector layout its data is read from. -/
theorem C80_llayout_blocked {var : Variant} {ne es bs nc : Nat} {lSize : Int} {s : Lay} {r : Rstr}
    (h : createBlockedStrided ne es bs nc lSize s = .ok r) (hin : s = (0, 0, 0) ∨ StridesInRange ne es nc lSize s)
    {u v : Buf α} (hu : lSize ≤ u.len) (hv : r.eSize ≤ v.len) :
    ∃ l v', getLLayout r = .ok l ∧ apply r var .noTranspose u v = .ok v' ∧
      ∀ k < ne, ∀ j < nc, ∀ i < es, v'.val (ePos es nc bs k j i) = u.val (layoutPos l i j k) := by
  have hm : Made (α := α) var r bs lSize (stridedData ne es nc s) := Made.blockedStrided h hin
  obtain ⟨hr, -, -⟩ := hm.rep
  have hf : r.rtype = .strided ∧ r.strides = some s := by
    simp only [createBlockedStrided, Res.bind_eq_ok, Res.check_eq_ok] at h
    obtain ⟨_, _, _, h1, _, h2, _, _, _, h3, _, h4, h5⟩ := h
    cases h5
    exact ⟨rfl, rfl⟩
  obtain ⟨v', e2, -, e3, -⟩ := C11_apply_gathers hm hu hv
  obtain ⟨l, e4, e5⟩ := getLLayout_strided (α := α) (ne := ne) (es := es) (nc := nc) hf.1 hf.2 hr.es hr.nc
  refine ⟨l, v', e4, e2, fun k hk j hj i hi => ?_⟩
  refine (e3 k hk j hj i hi).trans ?_
  rw [← e5]
  simp only [stridedData, idCoef, ite_mul, one_mul, zero_mul]
  rw [sum_ite_eq' (range es) i, if_pos (mem_range.2 hi)]

/-- Restrictions that are not strided have no L-vector layout: asking for it is an error. -/
theorem C80_no_llayout {r : Rstr} (hr : r.rtype ≠ .strided) : getLLayout r = .err .minor := by
  unfold getLLayout
  rw [Res.check_false hr]; rfl

/-- Vectors made by `CreateVector` have the lengths `Apply` asks for, in both directions. -/
theorem C80_vectors {var : Variant} {r : Rstr} {bs : Nat} {lSize : Int} {D : RData α} (hm : Made var r bs lSize D)
    {l e : Buf α} (hl : (createVector r).1 ≤ l.len) (he : (createVector r).2 ≤ e.len) :
    (∃ e', apply r var .noTranspose l e = .ok e') ∧ ∃ l', apply r var .transpose e l = .ok l' := by
  obtain ⟨-, -, h3⟩ := hm.rep
  simp only [createVector, h3] at hl he
  have he' : r.eSize ≤ e.len := by omega
  obtain ⟨e', h, -⟩ := C11_apply_gathers hm hl he'
  obtain ⟨g, hg⟩ := C12_transpose_accumulates hm he'
  exact ⟨⟨e', h⟩, ⟨_, hg l hl⟩⟩

/-! ## At points -/

section Points
variable {r ra rb : Rstr} {ne nea neb np npa npb nc nca ncb : Nat} {lSize lSizea lSizeb : Int} {offsets oa ob : Buf Int}

/-- At points with one component: the data of point `i` of element `k` is at `i*l[0]` from the reported offset of the
element. Missing: several components (`C80_points_layout_witness`). -/
theorem C80_points_layout_partial (hok : PointsOK ne np 1 lSize offsets)
    (h : createAtPoints ne np (1 : Nat) lSize offsets = .ok r)
    (var : Variant) {u v : Buf α} (hu : lSize ≤ u.len) (hv : r.eSize ≤ v.len) :
    ∃ l v', getELayout r = .ok l ∧ apply r var .noTranspose u v = .ok v' ∧
      ∀ k < ne, ∀ i < ptsIn offsets k, ∃ off : Int, atPointsElementOffset r k = .ok off ∧
        v'.val (i * l.1 + 0 * l.2.1 + off).toNat = u.val (ptAt offsets k i) := by
  obtain ⟨v', h1, -, h3⟩ := C19_gather hok h var hu hv
  refine ⟨_, v', getELayout_eq r, h1, fun k hk i hi => ⟨_, C19_element_offset hok h (by omega), ?_⟩⟩
  have := h3 k hk i hi 0 (by omega)
  simp only [Nat.zero_mul, Nat.zero_add, Nat.mul_one, Nat.add_zero] at this
  rw [← this]
  congr 1
  push_cast
  omega

/-- The number of points reported is the one given at creation. -/
theorem C80_num_points (h : createAtPoints ne np nc lSize offsets = .ok r) : getNumPoints r = .ok (np : Int) := by
  simp only [createAtPoints, Res.bind_eq_ok, Res.check_eq_ok] at h
  obtain ⟨_, _, _, _, _, _, _, _, s, _, a, _, b, _, _, _, o, _, h⟩ := h
  cases h
  simp [getNumPoints]

/-- Restrictions that are not at points have no number of points, no offsets of elements, and an E-vector whose size is
fixed. -/
theorem C80_points_only (h : r.rtype ≠ .points) (n : Int) : getNumPoints r = .err .incompatible ∧
    atPointsElementOffset r n = .err .incompatible ∧ setAtPointsEVectorSize r n = .err .incompatible := by
  unfold getNumPoints atPointsElementOffset setAtPointsEVectorSize
  rw [Res.check_false h]
  exact ⟨rfl, rfl, rfl⟩

/-- Vectors made by `CreateVector` for an at-points restriction have the lengths `Apply` asks for. -/
theorem C80_vectors_points (hok : PointsOK ne np nc lSize offsets) (h : createAtPoints ne np nc lSize offsets = .ok r)
    (var : Variant) {l e : Buf α} (hl : (createVector r).1 ≤ l.len) (he : (createVector r).2 ≤ e.len) :
    (∃ e', apply r var .noTranspose l e = .ok e') ∧ ∃ l', apply r var .transpose e l = .ok l' := by
  obtain ⟨hr, -, -⟩ := createAtPoints_rep hok h
  simp only [createVector, hr.lsz] at hl he
  have he' : r.eSize ≤ e.len := by omega
  obtain ⟨e', h1, -⟩ := C19_gather hok h var hl he'
  exact ⟨⟨e', h1⟩, ⟨_, C19_scatter hok h var he' hl⟩⟩

theorem compat_loop {x y : Buf Int} {n : Nat} (hx : n ≤ x.len) (hy : n ≤ y.len) :
    loop n (fun i c => do
      let x ← x.rd i
      let y ← y.rd i
      Res.ok (c && decide (x = y))) true = .ok (decide (∀ i < n, x.val i = y.val i)) := by
  refine loop_pure (f := fun m => decide (∀ i < m, x.val i = y.val i)) (by simp) ?_
  intro i hi
  rw [Buf.rd_lt (by omega), Buf.rd_lt (by omega)]
  simp only [Res.bind_ok]
  congr 1
  rw [← Bool.decide_and]
  refine decide_eq_decide.2 ⟨fun h j hj => ?_, fun h => ⟨fun j hj => h j (by omega), h i (by omega)⟩⟩
  rcases Nat.lt_succ_iff_lt_or_eq.1 hj with h' | rfl
  · exact h.1 j h'
  · exact h.2

/-- What the comparison computes: equality of the numbers of elements, of points, and of the two arrays. -/
theorem compat_eq (hoka : PointsOK nea npa nca lSizea oa) (ha : createAtPoints nea npa nca lSizea oa = .ok ra)
    (hokb : PointsOK neb npb ncb lSizeb ob) (hb : createAtPoints neb npb ncb lSizeb ob = .ok rb) :
    atPointsAreCompatible ra rb =
      .ok (decide (nea = neb ∧ npa = npb ∧ ∀ i < nea + 1 + npa, oa.val i = ob.val i)) := by
  obtain ⟨pa, -, -⟩ := createAtPoints_rep hoka ha
  obtain ⟨pb, -, -⟩ := createAtPoints_rep hokb hb
  simp only [atPointsAreCompatible]
  rw [Res.check_true pa.rtype, Res.check_true pb.rtype, C80_num_points ha, C80_num_points hb, pa.hne, pb.hne]
  simp only [Res.bind_ok]
  by_cases h1 : nea = neb
  · by_cases h2 : npa = npb
    · subst h1 h2
      simp only [ne_eq, not_true_eq_false, if_false, if_true, true_and]
      rw [pa.offs, pb.offs, show ((nea : Int) + 1 + npa).toNat = nea + 1 + npa by omega]
      exact compat_loop le_rfl le_rfl
    · simp [h1, h2]
  · simp [h1]

/-- Every position after the boundaries belongs to one of the slices. -/
theorem slice_exists (hok : PointsOK ne np nc lSize offsets) (har : Arranged ne np offsets) {p : Nat} (h1 : ne + 1 ≤ p)
    (h2 : p < ne + 1 + np) : ∃ e < ne, offsets.val e ≤ p ∧ (p : Int) < offsets.val (e + 1) := by
  by_contra hc
  have : ∀ e ≤ ne, offsets.val e ≤ p := by
    intro e
    induction e with
    | zero => intro _; rw [har.1]; omega
    | succ e ih =>
      intro he
      by_contra hh
      exact hc ⟨e, by omega, ih (by omega), by omega⟩
  have := this ne le_rfl
  rw [har.2] at this
  omega

/-- Two at-points restrictions on arrays arranged as documented are reported compatible exactly when they have the same
elements with the same points in the same order, whatever their components and L-vectors are. -/
theorem C80_compatible (hoka : PointsOK nea npa nca lSizea oa) (ha : createAtPoints nea npa nca lSizea oa = .ok ra)
    (hokb : PointsOK neb npb ncb lSizeb ob) (hb : createAtPoints neb npb ncb lSizeb ob = .ok rb)
    (hara : Arranged nea npa oa) (harb : Arranged neb npb ob) :
    ∃ c, atPointsAreCompatible ra rb = .ok c ∧ (c = true ↔ nea = neb ∧ SamePoints nea oa ob) := by
  refine ⟨_, compat_eq hoka ha hokb hb, ?_⟩
  rw [decide_eq_true_iff]
  constructor
  · rintro ⟨rfl, rfl, h⟩
    refine ⟨rfl, fun e he => ?_⟩
    have e1 := h e (by omega)
    have e2 := h (e + 1) (by omega)
    refine ⟨by unfold ptsIn; rw [e1, e2], fun i hi => ?_⟩
    have b1 := hoka.bounds (e := e) (by omega)
    have b2 := hoka.bounds (e := e + 1) (by omega)
    unfold ptsIn at hi
    unfold ptAt
    rw [← e1, h _ (by omega)]
  · rintro ⟨rfl, h⟩
    have hbd : ∀ e ≤ nea, oa.val e = ob.val e := by
      intro e
      induction e with
      | zero => intro _; rw [hara.1, harb.1]
      | succ e ih =>
        intro he
        have h0 := ih (by omega)
        have h1 := (h e (by omega)).1
        have m1 := hoka.mono e (by omega)
        have m2 := hokb.mono e (by omega)
        unfold ptsIn at h1
        omega
    have hl := hbd nea le_rfl
    rw [hara.2, harb.2] at hl
    have hnp : npa = npb := by omega
    subst hnp
    refine ⟨rfl, rfl, fun p hp => ?_⟩
    by_cases h1 : p ≤ nea
    · exact hbd p h1
    · obtain ⟨e, he, h2, h3⟩ := slice_exists hoka hara (p := p) (by omega) hp
      have b1 := hoka.bounds (e := e) (by omega)
      have hi : p - (oa.val e).toNat < ptsIn oa e := by unfold ptsIn; omega
      have hs := h e he
      have hv := hs.2 _ hi
      have i1 := (hoka.idx e he _ hi).1
      have i2 := (hokb.idx e he _ (hs.1 ▸ hi)).1
      unfold ptAt at hv
      rw [← hbd e (by omega)] at hv i2
      rw [show (oa.val e).toNat + (p - (oa.val e).toNat) = p by omega] at hv i1 i2
      omega

/-- Without the arrangement: restrictions reported compatible have the same points; the answer never errs on that
side. -/
theorem C80_compatible_sound (hoka : PointsOK nea npa nca lSizea oa) (ha : createAtPoints nea npa nca lSizea oa = .ok ra)
    (hokb : PointsOK neb npb ncb lSizeb ob) (hb : createAtPoints neb npb ncb lSizeb ob = .ok rb)
    (h : atPointsAreCompatible ra rb = .ok true) : nea = neb ∧ SamePoints nea oa ob := by
  rw [compat_eq hoka ha hokb hb] at h
  have h' := decide_eq_true_iff.1 (Res.ok.inj h)
  clear h
  obtain ⟨rfl, rfl, h⟩ := h'
  refine ⟨rfl, fun e he => ?_⟩
  have e1 := h e (by omega)
  have e2 := h (e + 1) (by omega)
  refine ⟨by unfold ptsIn; rw [e1, e2], fun i hi => ?_⟩
  have b1 := hoka.bounds (e := e) (by omega)
  have b2 := hoka.bounds (e := e + 1) (by omega)
  unfold ptsIn at hi
  unfold ptAt
  rw [← e1, h _ (by omega)]

/-- Restrictions that are not at points cannot be compared. -/
theorem C80_compatible_rejects (h : ra.rtype ≠ .points ∨ rb.rtype ≠ .points) :
    atPointsAreCompatible ra rb = .err .unsupported := by
  unfold atPointsAreCompatible
  by_cases h1 : ra.rtype = .points
  · rw [Res.check_true h1, Res.bind_ok, Res.check_false (by tauto)]; rfl
  · rw [Res.check_false h1]; rfl

/-- The E-vector of an at-points restriction can only grow; after growing, the restriction gathers the same values to
the same places and leaves the new entries alone. -/
theorem C80_grow (hok : PointsOK ne np nc lSize offsets) (h : createAtPoints ne np nc lSize offsets = .ok r) (n : Int) :
    (n < r.eSize → setAtPointsEVectorSize r n = .err .incompatible) ∧
    (r.eSize ≤ n → ∃ r', setAtPointsEVectorSize r n = .ok r' ∧ (createVector r').2 = n ∧
      (createVector r').1 = (createVector r).1 ∧
      ∀ (var : Variant) (tm : TMode) (u v : Buf α), n ≤ (match tm with | .noTranspose => v | .transpose => u).len →
        apply r' var tm u v = apply r var tm u v) := by
  obtain ⟨hr, -, -⟩ := createAtPoints_rep hok h
  unfold setAtPointsEVectorSize
  rw [Res.check_true hr.rtype, Res.bind_ok]
  refine ⟨fun hn => by rw [Res.check_false (by omega)]; rfl, fun hn => ?_⟩
  rw [Res.check_true hn, Res.bind_ok]
  refine ⟨_, rfl, by simp only [createVector]; omega, rfl, fun var tm u v hl => ?_⟩
  cases tm with
  | noTranspose =>
    simp only at hl
    simp only [apply]
    have h1 : ((n.toNat : Nat) : Int) ≤ v.len := by omega
    have h2 : (r.eSize : Int) ≤ v.len := by omega
    rw [Res.check_true h1, Res.check_true h2]
    rfl
  | transpose =>
    simp only at hl
    simp only [apply]
    have h1 : ((n.toNat : Nat) : Int) ≤ u.len := by omega
    have h2 : (r.eSize : Int) ≤ u.len := by omega
    rw [Res.check_true h1, Res.check_true h2]
    rfl

end Points

/-! ## Disagreements and examples -/

/-- The reported E-vector layout of a blocked restriction is not the one of its data: two elements of two nodes in one
block; node 1 of element 0 is at position 2 of the E-vector and reported at position 1, which holds node 0 of
element 1. -/
theorem C80_blocked_layout_witness : ∃ r v', createBlocked true 2 2 2 1 1 4 (Buf.ofList [0, 1, 2, 3]) .none = .ok r ∧
    getELayout r = .ok (1, 2, 2) ∧
    apply r .plain .noTranspose (Buf.ofList [10, 11, 12, 13] : Buf Int) (Buf.ofList [0, 0, 0, 0]) = .ok v' ∧
    v'.val (layoutPos (1, 2, 2) 1 0 0) = 12 ∧ v'.val 2 = 11 := ⟨_, _, rfl, rfl, rfl, by decide +kernel, by decide +kernel⟩

/-- The reported E-vector layout of an at-points restriction gives the same position to all components of a point: two
points in one element, two components; the second component of point 0 is at position 2 and reported at position 0. -/
theorem C80_points_layout_witness : ∃ r v', createAtPoints 1 2 2 4 (Buf.ofList [2, 4, 0, 1]) = .ok r ∧
    getELayout r = .ok (1, 0, 0) ∧ atPointsElementOffset r 0 = .ok 0 ∧
    apply r .plain .noTranspose (Buf.ofList [10, 11, 12, 13] : Buf Int) (Buf.ofList [0, 0, 0, 0]) = .ok v' ∧
    v'.val (0 * 1 + 1 * 0 + 0) = 10 ∧ v'.val 2 = 11 :=
  ⟨_, _, rfl, rfl, rfl, rfl, by decide +kernel, by decide +kernel⟩

/-- Two restrictions with the same points in every element whose arrays differ in an entry that belongs to no element
are reported incompatible. -/
theorem C80_compatible_witness : ∃ ra rb, createAtPoints 2 4 1 4 (Buf.ofList [3, 5, 6, 0, 1, 2, 3]) = .ok ra ∧
    createAtPoints 2 4 1 4 (Buf.ofList [3, 5, 6, 0, 1, 2, 0]) = .ok rb ∧
    SamePoints 2 (Buf.ofList [3, 5, 6, 0, 1, 2, 3]) (Buf.ofList [3, 5, 6, 0, 1, 2, 0]) ∧
    atPointsAreCompatible ra rb = .ok false :=
  ⟨_, _, rfl, rfl, by unfold SamePoints; decide +kernel, rfl⟩

example : ∃ r, createStrided 2 3 2 12 (0, 0, 0) = .ok r ∧ getLLayout r = .ok (1, 3, 6) ∧ getELayout r = .ok (1, 3, 6) :=
  ⟨_, rfl, rfl, rfl⟩
example : ∃ r, createStrided 2 3 2 12 (2, 1, 6) = .ok r ∧ getLLayout r = .ok (2, 1, 6) ∧ StridesInRange 2 3 2 12 (2, 1, 6) :=
  ⟨_, rfl, rfl, by intro e he m hm k hk; simp only; omega⟩
example : ∃ r, createBlockedStrided 3 2 2 1 6 (1, 1, 2) = .ok r ∧ getLLayout r = .ok (1, 1, 2) := ⟨_, rfl, rfl⟩
example : ∃ r, create true 2 2 2 1 6 exOffsets .none = .ok r ∧ getELayout r = .ok (1, 2, 4) ∧ r.rtype ≠ .strided ∧
    createVector r = (6, 8) := ⟨_, rfl, rfl, by decide, rfl⟩

/-- Two elements with two and one points. -/
def exPts : Buf Int := Buf.ofList [3, 5, 6, 2, 0, 1]

theorem exPts_ok : PointsOK 2 3 1 3 exPts ∧ PointsOK 2 3 2 6 exPts ∧ Arranged 2 3 exPts := by
  have h : ∀ nc : Nat, PointsOK 2 3 nc (3 * nc : Nat) exPts := by
    intro nc
    refine ⟨by decide, by decide, by decide, by decide, by decide, ?_⟩
    intro e he i hi
    rcases (by omega : e = 0 ∨ e = 1) with rfl | rfl
    · have : i < 2 := hi
      rcases (by omega : i = 0 ∨ i = 1) with rfl | rfl
      · exact ⟨by decide, by change ((2 : Int) + 1) * nc ≤ _; push_cast; omega⟩
      · exact ⟨by decide, by change ((0 : Int) + 1) * nc ≤ _; push_cast; omega⟩
    · have : i < 1 := hi
      have : i = 0 := by omega
      subst this
      exact ⟨by decide, by change ((1 : Int) + 1) * nc ≤ _; push_cast; omega⟩
  exact ⟨h 1, h 2, rfl, rfl⟩

example : ∃ ra rb, createAtPoints 2 3 1 3 exPts = .ok ra ∧ createAtPoints 2 3 2 6 exPts = .ok rb ∧
    atPointsAreCompatible ra rb = .ok true ∧ getNumPoints rb = .ok 3 := ⟨_, _, rfl, rfl, rfl, rfl⟩
example : ∃ ra rb, createAtPoints 2 3 1 3 exPts = .ok ra ∧
    createAtPoints 2 3 1 3 (Buf.ofList [3, 5, 6, 0, 2, 1]) = .ok rb ∧
    atPointsAreCompatible ra rb = .ok false := ⟨_, _, rfl, rfl, by decide +kernel⟩
example : ∃ r r', createAtPoints 2 3 1 3 exPts = .ok r ∧ createVector r = (3, 4) ∧
    setAtPointsEVectorSize r 7 = .ok r' ∧ createVector r' = (3, 7) := ⟨_, _, rfl, rfl, rfl, rfl⟩

end Verif.Restriction
