import Verif.Gpu.Apply

/-!
# C61: element restrictions on a device give the reference result on every schedule

`Runs G B c Q` (`Verif.Gpu.Machine`): whatever the interleaving of the threads of the launch, no access is out of bounds,
no two threads race, every execution ends, and the memory then satisfies `Q`.
-/

namespace Verif.Gpu
open Finset Verif.Restriction

variable {α : Type} [CommRing α]

theorem runs_none {u v : Buf α} {Q : Vals α → Prop} (h : Q (memOf u v).val) :
    Runs 0 0 (launch (fun _ _ => pure ()) (memOf u v)) Q := by
  refine runs_apart (F := ⟨fun _ _ _ _ => False, fun _ _ => True, fun _ _ => False⟩)
    ⟨fun _ _ _ _ h _ => h.elim, fun _ _ h => h.elim, fun _ _ h => h.elim, fun _ h => h⟩
    (fun b hb => by omega) fun s _ _ ho => ?_
  have : s = (memOf u v).val := by
    funext a i
    exact ho a i (fun h => h) fun _ _ _ _ h => h
  rwa [this]

/-- Layout of E-vectors reported by `CeedElemRestrictionGetELayout` (strides between nodes, components, elements),
`ceed-cuda-ref-restriction.c` 532-534. -/
def eLayoutCuda (ne es : Nat) : Nat × Nat × Nat := (1, ne * es, es)

/-- The position the theorems below use is the one the layout describes. -/
theorem C61_layout (ne es e k n : Nat) :
    gPos ne es e k n = n * (eLayoutCuda ne es).1 + k * (eLayoutCuda ne es).2.1 + e * (eLayoutCuda ne es).2.2 := by
  unfold gPos eLayoutCuda
  rw [Nat.mul_one]

/-- Creation succeeds, on the deterministic backend for host offsets. -/
theorem C61_create {det : Bool} {mt : MemType} (junk : Nat → Int) {ne es nc : Nat} {cs lSize : Int} {offsets : Buf Int}
    {o : Orient} {r : Rstr} (h : create false ne es nc cs lSize offsets o = .ok r)
    (hin : OffsetsInRange ne es nc cs lSize offsets) (hm : det = false ∨ mt = .host) :
    ∃ x, createCuda det mt junk r = .ok x :=
  createCuda_ok junk (offsetArgs h) hin hm

section
variable {var : Variant} {x : CRstr} {lSize : Int} {D : RData α} {u v : Buf α}

theorem apply_noTranspose (hu : x.base.lSize ≤ u.len) (hv : (x.base.eSize : Int) ≤ v.len) :
    applyCuda x var .noTranspose u v = if 0 < x.base.numElem then launchNT x var.flags.1 var.flags.2 u v
      else .ok ⟨0, 0, launch (fun _ _ => pure ()) (memOf u v)⟩ := by
  unfold applyCuda
  simp only [Res.check_true hu, Res.bind_ok, Res.check_true hv]

theorem apply_transpose (hu : (x.base.eSize : Int) ≤ u.len) (hv : x.base.lSize ≤ v.len) :
    applyCuda x var .transpose u v = if 0 < x.base.numElem then launchT x var.flags.1 var.flags.2 u v
      else .ok ⟨0, 0, launch (fun _ _ => pure ()) (memOf u v)⟩ := by
  unfold applyCuda
  simp only [Res.check_true hu, Res.bind_ok, Res.check_true hv]

theorem gather_empty (h : D.ne = 0) (u w : Nat → α) : IsGatherG D u w := fun e he => by omega

theorem scatter_empty (h : D.ne = 0) (u : Nat → α) (t : Nat) : scatterG D u t = 0 := by
  unfold scatterG
  rw [h, Finset.range_zero, Finset.sum_empty]

/-- L-vector to E-vector, every kind of restriction, every variant: the launch computes `E u` on every schedule and
touches nothing else. -/
theorem C61_gather (hx : MadeG var x lSize D) (hu : lSize ≤ u.len) (hv : D.ne * D.es * D.nc ≤ v.len) :
    ∃ L, applyCuda x var .noTranspose u v = .ok L ∧ L.cfg.mem = memOf u v ∧ Runs L.G L.B L.cfg fun s =>
      IsGatherG D u.val (s .v) ∧ (∀ i, D.ne * D.es * D.nc ≤ i → s .v i = v.val i) ∧ s .u = u.val := by
  cases hx with
  | @offset det mt junk ne es nc cs _ offsets o r _ h hc hin =>
    have ha := offsetArgs h
    obtain ⟨hb, hn, -⟩ := createCuda_offset (α := α) ha hc hin
    rw [apply_noTranspose (by rw [hb, ha.lSz]; exact hu) (by rw [hb, ha.eSize]; exact_mod_cast hv), hb, ha.numElem]
    by_cases hne : 0 < ne
    · rw [if_pos (by omega)]
      obtain ⟨term, e, ht⟩ := launchNT_offset (v := v) ha hb hin hu var
      have hG := divUp_pos (hn hne) (blockNT_pos es)
      refine ⟨⟨divUp x.numNodes (blockNT es), blockNT es, launch (gatherKernel ne es nc term
        (divUp x.numNodes (blockNT es)) (blockNT es)) (memOf u v)⟩, ?_, rfl, ?_⟩
      · simp only [e]
        unfold runKernel
        rw [if_neg (by omega)]
      · obtain ⟨r1, r2, r3, r4⟩ := gather_runs (G := divUp x.numNodes (blockNT es)) hG (blockNT_pos es) hv ht
        exact ⟨r1, r2, r3, fun c h1 h2 => ⟨gather_of_nodes (r4 c h1 h2).1, (r4 c h1 h2).2⟩⟩
    · rw [if_neg (by omega)]
      refine ⟨_, rfl, rfl, runs_none ⟨gather_empty (by show ne = 0; omega) _ _, fun i _ => rfl, rfl⟩⟩
  | @strided det mt junk ne es nc _ s r _ h hc hin =>
    obtain ⟨hes, hnc, hl, h1, h2, h3, h4, h5, h6, h7⟩ := createStrided_inv h
    obtain rfl := createCuda_strided h1 hc
    rw [apply_noTranspose (by rw [h5]; exact hu) (by simp only [h6]; exact_mod_cast hv)]
    simp only [h2]
    by_cases hne : 0 < ne
    · rw [if_pos (by omega)]
      have hG := divUp_pos (Nat.mul_pos hne hes) (blockNT_pos es)
      have hr := strides_range hl hin
      refine ⟨⟨divUp (ne * es) (blockNT es), blockNT es, launch (gatherKernel ne es nc (stridedTerm es (cudaStrides ne es s))
        (divUp (ne * es) (blockNT es)) (blockNT es)) (memOf u v)⟩, ?_, rfl, ?_⟩
      · unfold launchNT
        simp only [h1, h2, h3, h4, h7, Int.toNat_natCast]
        unfold runKernel
        rw [if_neg (by omega)]
      · obtain ⟨r1, r2, r3, r4⟩ := gather_runs (u := u) (v := v) (ne := ne) (es := es) (nc := nc)
          (term := stridedTerm es (cudaStrides ne es s))
          (val := fun p k => (stridedDataG (α := α) ne es nc s).row u.val (p / es) k (p % es)) hG (blockNT_pos es) hv
          (fun p hp k hk => by
            have hrow : (stridedDataG (α := α) ne es nc s).row u.val (p / es) k (p % es) =
                u.val ((stridedDataG (α := α) ne es nc s).lidx (p / es) (p % es) k) :=
              row_id (node_elem hp).2 fun m => u.val ((stridedDataG (α := α) ne es nc s).lidx (p / es) m k)
            rw [hrow, ← strides_idx]
            have := hr (p / es) (node_elem hp).1 (p % es) (node_elem hp).2 k hk
            exact computes_rd ⟨this.1, lt_of_lt_of_le this.2 hu⟩)
        exact ⟨r1, r2, r3, fun c h1 h2 => ⟨gather_of_nodes (r4 c h1 h2).1, (r4 c h1 h2).2⟩⟩
    · rw [if_neg (by omega)]
      refine ⟨_, rfl, rfl, runs_none ⟨gather_empty (by show ne = 0; omega) _ _, fun i _ => rfl, rfl⟩⟩

section Offset
variable {mt : MemType} {junk : Nat → Int} {ne es nc : Nat} {cs : Int} {offsets : Buf Int} {o : Orient} {r : Rstr}

/-- E-vector to L-vector with atomic additions (the default): `v += E^T u` on every schedule. -/
theorem C61_scatter_atomic (h : create false ne es nc cs lSize offsets o = .ok r)
    (hc : createCuda false mt junk r = .ok x) (hin : OffsetsInRange ne es nc cs lSize offsets) (var : Variant)
    (hu : ne * es * nc ≤ u.len) (hv : lSize ≤ v.len) :
    ∃ L, applyCuda x var .transpose u v = .ok L ∧ L.cfg.mem = memOf u v ∧ Runs L.G L.B L.cfg fun s =>
      (∀ t, s .v t = v.val t + scatterG (offsetData ne es nc cs offsets o var) u.val t) ∧ s .u = u.val := by
  have ha := offsetArgs h
  obtain ⟨hb, hn, hd⟩ := createCuda_offset (α := α) ha hc hin
  have hd' : x.det = none := by
    have hns : r.rtype ≠ .strided := by rw [ha.rtype]; exact o.rtype_ne.2
    unfold createCuda at hc
    simp only [hns, if_false, Bool.false_eq_true] at hc
    cases hc
    rfl
  rw [apply_transpose (by rw [hb, ha.eSize]; exact_mod_cast hu) (by rw [hb, ha.lSz]; exact hv), hb, ha.numElem]
  by_cases hne : 0 < ne
  · rw [if_pos (by omega)]
    obtain ⟨term, e, ht⟩ := launchT_offset (v := v) ha hb hu var
    rw [hd'] at e
    have hG := divUp_pos (hn hne) (show 0 < 32 by omega)
    refine ⟨⟨divUp x.numNodes 32, 32, launch (atomicKernel ne es nc cs ⟨ne * es, offsets.val⟩
      (fun node => term (node : Int)) (divUp x.numNodes 32) 32) (memOf u v)⟩, ?_, rfl, ?_⟩
    · simp only [e]
      unfold runKernel
      rw [if_neg (by omega)]
    · obtain ⟨r1, r2, r3, r4⟩ := atomic_runs (u := u) (v := v) (indices := ⟨ne * es, offsets.val⟩) (cs := cs) hG
        (show 0 < 32 by omega) le_rfl (fun p hp k hk => inB_offsets (a := .v) hin hv hp hk) ht
      refine ⟨r1, r2, r3, fun c h1 h2 => ⟨fun t => ?_, (r4 c h1 h2).2⟩⟩
      rw [(r4 c h1 h2).1 t, ← scatter_of_nodes (offsetData ne es nc cs offsets o var) u.val
        (fun p k => (offsets.val p + (k : Nat) * cs).toNat) t fun _ _ _ _ _ _ => rfl]
      rfl
  · rw [if_neg (by omega)]
    refine ⟨_, rfl, rfl, runs_none ⟨fun t => ?_, rfl⟩⟩
    rw [scatter_empty (by show ne = 0; omega), add_zero]
    rfl

/-- E-vector to L-vector on a deterministic backend. Missing: restrictions whose nodes overlap, see
`C61_deterministic_overlap_witness`. -/
theorem C61_scatter_deterministic_partial (h : create false ne es nc cs lSize offsets o = .ok r)
    (hc : createCuda true mt junk r = .ok x) (hin : OffsetsInRange ne es nc cs lSize offsets)
    (hno : NoOverlap ne es nc cs offsets) (var : Variant) (hu : ne * es * nc ≤ u.len) (hv : lSize ≤ v.len) :
    ∃ L, applyCuda x var .transpose u v = .ok L ∧ L.cfg.mem = memOf u v ∧ Runs L.G L.B L.cfg fun s =>
      (∀ t, s .v t = v.val t + scatterG (offsetData ne es nc cs offsets o var) u.val t) ∧ s .u = u.val := by
  have ha := offsetArgs h
  obtain ⟨hb, hn, hd⟩ := createCuda_offset (α := α) ha hc hin
  rcases hd with ⟨-, hcon⟩ | ⟨lVec, tInd, tOff, hd, htr, hused, hall, hinj, hval⟩
  · cases hcon
  rw [apply_transpose (by rw [hb, ha.eSize]; exact_mod_cast hu) (by rw [hb, ha.lSz]; exact hv), hb, ha.numElem]
  by_cases hne : 0 < ne
  · rw [if_pos (by omega)]
    obtain ⟨term, e, ht⟩ := launchT_offset (v := v) ha hb hu var
    rw [hd] at e
    have hG := divUp_pos (hn hne) (show 0 < 32 by omega)
    refine ⟨⟨divUp x.numNodes 32, 32, launch (detKernel x.numNodes nc cs lVec tInd tOff term (divUp x.numNodes 32) 32)
      (memOf u v)⟩, ?_, rfl, ?_⟩
    · simp only [e]
      unfold runKernel
      rw [if_neg (by omega)]
    · obtain ⟨r1, r2, r3, r4⟩ := det_runs (u := u) (v := v) (cs := cs) hG (show 0 < 32 by omega) htr
        (fun y hy k hk => by
          obtain ⟨p, hp, hpe⟩ := hused y hy
          rw [hpe]
          exact inB_offsets (a := .v) hin hv hp hk)
        (fun y hy z hz k hk k' hk' he => by
          obtain ⟨p, hp, hpe⟩ := hused y hy
          obtain ⟨q, hq, hqe⟩ := hused z hz
          rw [hpe, hqe] at he
          exact hinj y hy z hz (by rw [hpe, hqe, hno p hp q hq k hk k' hk' he])) ht
      refine ⟨r1, r2, r3, fun c h1 h2 => ⟨fun t => ?_, (r4 c h1 h2).2⟩⟩
      rw [(r4 c h1 h2).1 t, ← scatter_of_nodes (offsetData ne es nc cs offsets o var) u.val
        (fun p k => (offsets.val p + (k : Nat) * cs).toNat) t fun _ _ _ _ _ _ => rfl]
      refine congrArg (v.val t + ·) ?_
      show _ = ∑ p ∈ range (ne * es), ∑ k ∈ range nc, _
      have hper : ∀ y ∈ range x.numNodes, ∑ k ∈ range nc, (if (lVec.val y + (k : Nat) * cs).toNat = t then
          detVal tInd tOff (fun p k => colVal (offsetData ne es nc cs offsets o var) u.val p k) y k else 0) =
          ∑ p ∈ range (ne * es), if offsets.val p = lVec.val y then ∑ k ∈ range nc,
            (if (offsets.val p + (k : Nat) * cs).toNat = t then
              colVal (offsetData ne es nc cs offsets o var) u.val p k else 0) else 0 := by
        intro y hy
        rw [Finset.mem_range] at hy
        have : ∀ k ∈ range nc, (if (lVec.val y + (k : Nat) * cs).toNat = t then
            detVal tInd tOff (fun p k => colVal (offsetData ne es nc cs offsets o var) u.val p k) y k else 0) =
            ∑ p ∈ range (ne * es), if offsets.val p = lVec.val y then
              (if (offsets.val p + (k : Nat) * cs).toNat = t then
                colVal (offsetData ne es nc cs offsets o var) u.val p k else 0) else 0 := by
          intro k _
          rw [hval _ y hy]
          by_cases hk : (lVec.val y + (k : Nat) * cs).toNat = t
          · rw [if_pos hk]
            refine Finset.sum_congr rfl fun p _ => ?_
            by_cases hp : offsets.val p = lVec.val y
            · rw [if_pos hp, if_pos hp, hp, if_pos hk]
            · rw [if_neg hp, if_neg hp]
          · rw [if_neg hk]
            symm
            refine Finset.sum_eq_zero fun p _ => ?_
            by_cases hp : offsets.val p = lVec.val y
            · rw [if_pos hp, hp, if_neg hk]
            · rw [if_neg hp]
        rw [Finset.sum_congr rfl this, Finset.sum_comm]
        refine Finset.sum_congr rfl fun p _ => ?_
        by_cases hp : offsets.val p = lVec.val y
        · simp only [if_pos hp]
        · simp only [if_neg hp, Finset.sum_const_zero]
      rw [Finset.sum_congr rfl hper, Finset.sum_comm]
      refine Finset.sum_congr rfl fun p hp => ?_
      rw [Finset.mem_range] at hp
      obtain ⟨y, hy, hye⟩ := hall p hp
      have hone : ∀ z ∈ range x.numNodes, (if offsets.val p = lVec.val z then ∑ k ∈ range nc,
          (if (offsets.val p + (k : Nat) * cs).toNat = t then
            colVal (offsetData ne es nc cs offsets o var) u.val p k else 0) else 0) =
          if z = y then ∑ k ∈ range nc, (if (offsets.val p + (k : Nat) * cs).toNat = t then
            colVal (offsetData ne es nc cs offsets o var) u.val p k else 0) else 0 := fun z hz =>
        if_congr ⟨fun hpz => hinj z (Finset.mem_range.mp hz) y hy (by rw [← hpz, hye]),
          fun hzy => by rw [hzy, hye]⟩ rfl rfl
      rw [Finset.sum_congr rfl hone]
      exact sum_pick (fun _ => _) hy
  · rw [if_neg (by omega)]
    refine ⟨_, rfl, rfl, runs_none ⟨fun t => ?_, rfl⟩⟩
    rw [scatter_empty (by show ne = 0; omega), add_zero]
    rfl

end Offset

/-- E-vector to L-vector, strided: `v += E^T u` on every schedule for `CEED_STRIDES_BACKEND` and for strides that give
different entries to different nodes. Missing: overlapping strides, see `C61_strided_overlap_witness`. -/
theorem C61_scatter_strided_partial {det : Bool} {mt : MemType} {junk : Nat → Int} {ne es nc : Nat}
    {s : Int × Int × Int} {r : Rstr} (h : createStrided ne es nc lSize s = .ok r)
    (hc : createCuda det mt junk r = .ok x) (hin : s = (0, 0, 0) ∨ StridesInRange ne es nc lSize s ∧ StridesApart ne es nc s)
    (var : Variant) (hu : ne * es * nc ≤ u.len) (hv : lSize ≤ v.len) :
    ∃ L, applyCuda x var .transpose u v = .ok L ∧ L.cfg.mem = memOf u v ∧ Runs L.G L.B L.cfg fun m =>
      (∀ t, m .v t = v.val t + scatterG (stridedDataG ne es nc s) u.val t) ∧ m .u = u.val := by
  obtain ⟨hes, hnc, hl, h1, h2, h3, h4, h5, h6, h7⟩ := createStrided_inv h
  obtain rfl := createCuda_strided h1 hc
  rw [apply_transpose (by simp only [h6]; exact_mod_cast hu) (by rw [h5]; exact hv)]
  simp only [h2]
  by_cases hne : 0 < ne
  · rw [if_pos (by omega)]
    have hG := divUp_pos (Nat.mul_pos hne hes) (show 0 < 32 by omega)
    have hr := strides_range hl (hin.imp_right And.left)
    have hap := strides_apart (nc := nc) (hin.imp_right And.right)
    refine ⟨⟨divUp (ne * es) 32, 32, launch (stridedTransposeKernel ne es nc (cudaStrides ne es s)
      (divUp (ne * es) 32) 32) (memOf u v)⟩, ?_, rfl, ?_⟩
    · unfold launchT
      simp only [h1, h2, h3, h4, h7, Int.toNat_natCast]
      unfold runKernel
      rw [if_neg (by omega)]
    · obtain ⟨r1, r2, r3, r4⟩ := strided_runs (u := u) (v := v) (ne := ne) (es := es) (nc := nc)
        (s := cudaStrides ne es s) hG (show 0 < 32 by omega) hu
        (fun p hp k hk => by
          have := hr (p / es) (node_elem hp).1 (p % es) (node_elem hp).2 k hk
          exact ⟨this.1, lt_of_lt_of_le this.2 hv⟩)
        (fun p hp q hq k hk k' hk' he => by
          have := hap _ (node_elem hp).1 _ (node_elem hp).2 k hk _ (node_elem hq).1 _ (node_elem hq).2 k' hk' he
          rw [← node_eq es p, ← node_eq es q, this.1, this.2])
      refine ⟨r1, r2, r3, fun c h1 h2 => ⟨fun t => ?_, (r4 c h1 h2).2⟩⟩
      rw [(r4 c h1 h2).1 t, ← scatter_of_nodes (stridedDataG ne es nc s) u.val
        (fun p k => (stridedDataG (α := α) ne es nc s).lidx (p / es) (p % es) k) t
        fun e _ m (hm : m < es) k _ => by
          show (stridedDataG (α := α) ne es nc s).lidx ((e * es + m) / es) ((e * es + m) % es) k = _
          rw [node_div hm, node_mod hm]]
      refine congrArg (v.val t + ·) ?_
      refine Finset.sum_congr rfl fun p hp => Finset.sum_congr rfl fun k hk => ?_
      have hp' : p < ne * es := Finset.mem_range.mp hp
      rw [strides_idx (α := α) (nc := nc)]
      have hcol : colVal (stridedDataG ne es nc s) u.val p k = u.val (p + k * (ne * es)) := by
        have := col_id (node_elem hp').2 fun n => u.val (gPos ne es (p / es) k n)
        rw [gPos_node] at this
        exact this
      rw [hcol]
  · rw [if_neg (by omega)]
    refine ⟨_, rfl, rfl, runs_none ⟨fun t => ?_, rfl⟩⟩
    rw [scatter_empty (by show ne = 0; omega), add_zero]
    rfl

/-- Vectors that are too short are refused before anything is launched. -/
theorem C61_size_checks (x : CRstr) (var : Variant) (u v : Buf α) :
    ((u.len < x.base.lSize ∨ (v.len : Int) < x.base.eSize) → applyCuda x var .noTranspose u v = .err .dimension) ∧
      (((u.len : Int) < x.base.eSize ∨ v.len < x.base.lSize) → applyCuda x var .transpose u v = .err .dimension) := by
  have key : ∀ (a b : Int) (k : Unit → Res (Launch α)), (u.len < a ∨ v.len < b) →
      ((Res.check (a ≤ u.len) .dimension >>= fun _ => Res.check (b ≤ v.len) .dimension >>= k) : Res (Launch α)) =
        .err .dimension := by
    intro a b k h
    by_cases ha : a ≤ u.len
    · rw [Res.check_true ha, Res.bind_ok, Res.check_false (by omega)]
      rfl
    · rw [Res.check_false ha]
      rfl
  exact ⟨key _ _ _, key _ _ _⟩

end

end Verif.Gpu
