import Verif.Gpu.Rows
import Verif.Restriction.Create

/-!
# The launches chosen by the host code
-/

namespace Verif.Gpu
open Finset Verif.Restriction

variable {α : Type} [CommRing α]

theorem divUp_pos {n b : Nat} (hn : 0 < n) (hb : 0 < b) : 0 < divUp n b := by
  unfold divUp
  exact Nat.div_pos (by omega) hb

theorem blockNT_pos (es : Nat) : 0 < blockNT es := by
  unfold blockNT
  split
  · split <;> omega
  · omega

/-- The user data of an accepted offset restriction and what the device holds of it. -/
structure OffsetArgs (ne es nc : Nat) (cs lSize : Int) (offsets : Buf Int) (o : Orient) (r : Rstr) : Prop where
  rtype : r.rtype = o.rtype
  numElem : r.numElem = (ne : Int)
  elemSize : r.elemSize = es
  numComp : r.numComp = nc
  compStride : r.compStride = cs
  lSz : r.lSize = lSize
  eSize : r.eSize = ne * es * nc
  offs : r.offsets = ⟨ne * es, offsets.val⟩
  signs : ∀ s, o = .signs s → r.orients = ⟨ne * es, s.val⟩
  curl : ∀ c, o = .curl c → r.curlOrients = ⟨3 * (ne * es), c.val⟩
  es_pos : 0 < es
  nc_pos : 0 < nc

theorem offsetArgs {ne es nc : Nat} {cs lSize : Int} {offsets : Buf Int} {o : Orient} {r : Rstr}
    (h : create false ne es nc cs lSize offsets o = .ok r) : OffsetArgs ne es nc cs lSize offsets o r := by
  obtain ⟨h1, h2, h3, h4, h5, h6, h7, -, -, -, h11, -, h13, h14, -⟩ := create_fields h
  obtain ⟨-, ha, hb, -⟩ := create_args h
  exact ⟨h1, h2, h3, h4, h5, h6, h7, h11, h13, h14, by omega, by omega⟩

/-- What the deterministic backend computes when the restriction is created. -/
theorem createCuda_offset {det : Bool} {mt : MemType} {junk : Nat → Int} {ne es nc : Nat} {cs lSize : Int}
    {offsets : Buf Int} {o : Orient} {r : Rstr} {x : CRstr} (ha : OffsetArgs ne es nc cs lSize offsets o r)
    (hc : createCuda det mt junk r = .ok x) (hin : OffsetsInRange ne es nc cs lSize offsets) :
    x.base = r ∧ (0 < ne → 0 < x.numNodes) ∧ (x.det = none ∧ det = false ∨ ∃ lVec tInd tOff, x.det = some (lVec, tInd, tOff) ∧
      Transposed x.numNodes (ne * es) lVec tInd tOff ∧
      (∀ y < x.numNodes, ∃ p < ne * es, lVec.val y = offsets.val p) ∧
      (∀ p < ne * es, ∃ y < x.numNodes, lVec.val y = offsets.val p) ∧
      (∀ y < x.numNodes, ∀ z < x.numNodes, lVec.val y = lVec.val z → y = z) ∧
      ∀ (val : Nat → Nat → α), ∀ y < x.numNodes, ∀ c, detVal tInd tOff val y c =
        ∑ p ∈ range (ne * es), if offsets.val p = lVec.val y then val p c else 0) := by
  have hns : r.rtype ≠ .strided := by rw [ha.rtype]; exact o.rtype_ne.2
  unfold createCuda at hc
  simp only [hns, if_false, ha.numElem, ha.elemSize, ha.lSz, ha.offs, Int.toNat_natCast] at hc
  cases det with
  | false =>
    simp only [Bool.false_eq_true, if_false] at hc
    cases hc
    exact ⟨rfl, fun h => Nat.mul_pos h ha.es_pos, .inl ⟨rfl, rfl⟩⟩
  | true =>
    simp only [if_true] at hc
    split at hc
    · cases hc
    · have hin' : ∀ p < ne * es, 0 ≤ (⟨ne * es, offsets.val⟩ : Buf Int).val p ∧
          (⟨ne * es, offsets.val⟩ : Buf Int).val p < lSize := by
        intro p hp
        have := hin (p / es) (node_elem hp).1 (p % es) (node_elem hp).2 0 ha.nc_pos
        rw [node_eq] at this
        simpa using this
      obtain ⟨nn, lVec, tInd, tOff, e, h1, h2, h3, h4, h5, h6⟩ :=
        offsetCuda_ok (α := α) (lSize := lSize) (indices := ⟨ne * es, offsets.val⟩) junk le_rfl hin'
      rw [e, Res.bind_ok] at hc
      cases hc
      exact ⟨rfl, fun h => h2 (Nat.mul_pos h ha.es_pos), .inr ⟨lVec, tInd, tOff, rfl, h1, h3, h4, h5, h6⟩⟩

/-- The creation itself succeeds, for offsets the host can read. -/
theorem createCuda_ok {det : Bool} {mt : MemType} (junk : Nat → Int) {ne es nc : Nat} {cs lSize : Int}
    {offsets : Buf Int} {o : Orient} {r : Rstr} (ha : OffsetArgs ne es nc cs lSize offsets o r)
    (hin : OffsetsInRange ne es nc cs lSize offsets) (hm : det = false ∨ mt = .host) :
    ∃ x, createCuda det mt junk r = .ok x := by
  have hns : r.rtype ≠ .strided := by rw [ha.rtype]; exact o.rtype_ne.2
  unfold createCuda
  simp only [hns, if_false, ha.numElem, ha.elemSize, ha.lSz, ha.offs, Int.toNat_natCast]
  cases det with
  | false => exact ⟨_, rfl⟩
  | true =>
    have hm' : mt = .host := by simpa using hm
    subst hm'
    have hin' : ∀ p < ne * es, 0 ≤ (⟨ne * es, offsets.val⟩ : Buf Int).val p ∧
        (⟨ne * es, offsets.val⟩ : Buf Int).val p < lSize := by
      intro p hp
      have := hin (p / es) (node_elem hp).1 (p % es) (node_elem hp).2 0 ha.nc_pos
      rw [node_eq] at this
      simpa using this
    obtain ⟨nn, lVec, tInd, tOff, e, -⟩ :=
      offsetCuda_ok (α := Int) (lSize := lSize) (indices := ⟨ne * es, offsets.val⟩) junk le_rfl hin'
    rw [if_pos rfl, if_neg (by simp), e]
    exact ⟨_, rfl⟩

section Launch
variable {ne es nc : Nat} {cs lSize : Int} {offsets : Buf Int} {o : Orient} {r : Rstr} {x : CRstr} {u v : Buf α}

theorem inB_offsets {len : Arr → Nat} {a : Arr} (hin : OffsetsInRange ne es nc cs lSize offsets)
    (hlen : lSize ≤ len a) {p : Nat} (hp : p < ne * es) {k : Nat} (hk : k < nc) :
    InB len a (offsets.val p + (k : Nat) * cs) := by
  have := hin (p / es) (node_elem hp).1 (p % es) (node_elem hp).2 k hk
  rw [node_eq] at this
  exact ⟨this.1, lt_of_lt_of_le this.2 hlen⟩

theorem coef_none (var : Variant) (e n m : Nat) : (orientCoef .none var es e n m : α) = idCoef n m := by
  cases var <;> rfl

theorem coef_unoriented (o : Orient) (e n m : Nat) : (orientCoef o .unoriented es e n m : α) = idCoef n m := by
  cases o <;> rfl

theorem natAbs_abs (c : Int) : ((c.natAbs : Int) : α) = ((|c| : Int) : α) := by rw [Int.natCast_natAbs]

theorem launchNT_offset (ha : OffsetArgs ne es nc cs lSize offsets o r) (hx : x.base = r)
    (hin : OffsetsInRange ne es nc cs lSize offsets) (hu : lSize ≤ u.len) (var : Variant) :
    ∃ term : Nat → Nat → K α α, launchNT x var.flags.1 var.flags.2 u v =
        runKernel (divUp x.numNodes (blockNT es)) (blockNT es) (gatherKernel ne es nc term) u v ∧
      ∀ p < ne * es, ∀ k < nc, Computes (memOf u v).len u.val (term p k)
        ((offsetData ne es nc cs offsets o var).row u.val (p / es) k (p % es)) := by
  subst hx
  have hr : ∀ p < ne * es, ∀ k < nc, InB (memOf u v).len .u ((⟨ne * es, offsets.val⟩ : Buf Int).val p + (k : Nat) * cs) :=
    fun p hp k hk => inB_offsets hin hu hp hk
  have plain : (∀ e n m, (orientCoef o var es e n m : α) = idCoef n m) → ∀ p < ne * es, ∀ k < nc,
      Computes (memOf u v).len u.val (offsetTerm cs ⟨ne * es, offsets.val⟩ p k)
        ((offsetData ne es nc cs offsets o var).row u.val (p / es) k (p % es)) := by
    intro hc p hp k hk
    rw [row_plain hc u.val hp]
    exact computes_offset (offs := ⟨ne * es, offsets.val⟩) le_rfl hr hp hk
  unfold launchNT
  simp only [ha.rtype, ha.numElem, ha.elemSize, ha.numComp, ha.compStride, ha.offs, Int.toNat_natCast]
  cases o with
  | none => exact ⟨_, rfl, plain (coef_none var)⟩
  | signs s =>
    cases var with
    | plain =>
      refine ⟨_, rfl, fun p hp k hk => ?_⟩
      rw [row_signs s u.val hp, ha.signs s rfl]
      exact computes_oriented (offs := ⟨ne * es, offsets.val⟩) (orients := ⟨ne * es, s.val⟩) le_rfl le_rfl hr hp hk
    | unsigned => exact ⟨_, rfl, plain fun _ _ _ => rfl⟩
    | unoriented => exact ⟨_, rfl, plain fun _ _ _ => rfl⟩
  | curl c =>
    cases var with
    | plain =>
      refine ⟨_, rfl, fun p hp k hk => ?_⟩
      rw [row_curl (.curl c) .plain (fun z => (z : α)) c (fun _ _ _ => rfl) u.val hp, ha.curl c rfl]
      exact computes_curl (offs := ⟨ne * es, offsets.val⟩) (cur := ⟨3 * (ne * es), c.val⟩) le_rfl le_rfl hr hp hk
    | unsigned =>
      refine ⟨_, rfl, fun p hp k hk => ?_⟩
      rw [row_curl (.curl c) .unsigned (fun z => ((z.natAbs : Int) : α)) c
        (fun _ _ _ => by simp only [natAbs_abs]; rfl) u.val hp, ha.curl c rfl]
      exact computes_curl (offs := ⟨ne * es, offsets.val⟩) (cur := ⟨3 * (ne * es), c.val⟩) le_rfl le_rfl hr hp hk
    | unoriented => exact ⟨_, rfl, plain fun _ _ _ => rfl⟩

theorem launchT_offset (ha : OffsetArgs ne es nc cs lSize offsets o r) (hx : x.base = r) (hu : ne * es * nc ≤ u.len)
    (var : Variant) :
    ∃ term : Int → Nat → K α α, launchT x var.flags.1 var.flags.2 u v = (match x.det with
        | none => runKernel (divUp x.numNodes 32) 32
            (atomicKernel ne es nc cs ⟨ne * es, offsets.val⟩ (fun node => term (node : Int))) u v
        | some (lVec, tInd, tOff) => runKernel (divUp x.numNodes 32) 32
            (detKernel x.numNodes nc cs lVec tInd tOff term) u v) ∧
      ∀ p < ne * es, ∀ k < nc, Computes (memOf u v).len u.val (term (p : Int) k)
        (colVal (offsetData ne es nc cs offsets o var) u.val p k) := by
  subst hx
  have hr : ∀ i < ne * es * nc, InB (memOf u v).len .u (i : Nat) := fun i hi =>
    ⟨Int.natCast_nonneg _, by show (i : Int) < (u.len : Int); exact_mod_cast lt_of_lt_of_le hi hu⟩
  have plain : (∀ e n m, (orientCoef o var es e n m : α) = idCoef n m) → ∀ p < ne * es, ∀ k < nc,
      Computes (memOf u v).len u.val (offsetTermT ne es (p : Int) k)
        (colVal (offsetData ne es nc cs offsets o var) u.val p k) := by
    intro hc p hp k hk
    rw [col_plain hc u.val hp]
    exact computes_offsetT hr hp hk
  unfold launchT
  simp only [ha.rtype, ha.numElem, ha.elemSize, ha.numComp, ha.compStride, ha.offs, Int.toNat_natCast]
  cases o with
  | none => exact ⟨_, rfl, plain (coef_none var)⟩
  | signs s =>
    cases var with
    | plain =>
      refine ⟨_, rfl, fun p hp k hk => ?_⟩
      rw [col_signs s u.val hp, ha.signs s rfl]
      exact computes_orientedT (orients := ⟨ne * es, s.val⟩) le_rfl hr hp hk
    | unsigned => exact ⟨_, rfl, plain fun _ _ _ => rfl⟩
    | unoriented => exact ⟨_, rfl, plain fun _ _ _ => rfl⟩
  | curl c =>
    cases var with
    | plain =>
      refine ⟨_, rfl, fun p hp k hk => ?_⟩
      rw [col_curl (.curl c) .plain (fun z => (z : α)) c (fun _ _ _ => rfl) u.val hp, ha.curl c rfl]
      exact computes_curlT (cur := ⟨3 * (ne * es), c.val⟩) le_rfl hr hp hk
    | unsigned =>
      refine ⟨_, rfl, fun p hp k hk => ?_⟩
      rw [col_curl (.curl c) .unsigned (fun z => ((z.natAbs : Int) : α)) c
        (fun _ _ _ => by simp only [natAbs_abs]; rfl) u.val hp, ha.curl c rfl]
      exact computes_curlT (cur := ⟨3 * (ne * es), c.val⟩) le_rfl hr hp hk
    | unoriented => exact ⟨_, rfl, plain fun _ _ _ => rfl⟩

end Launch

/-! ### Strides -/

/-- The strides the kernels are compiled with are in range, and give the entries of the specification. -/
theorem strides_idx {ne es nc : Nat} {s : Int × Int × Int} {e m k : Nat} :
    ((m : Int) * (cudaStrides ne es s).1 + (k : Nat) * (cudaStrides ne es s).2.1 +
      (e : Int) * (cudaStrides ne es s).2.2).toNat = (stridedDataG (α := α) ne es nc s).lidx e m k := by
  unfold cudaStrides stridedDataG
  simp only
  split
  · unfold gPos
    rw [mul_one]
    have : (m : Int) + (k : Nat) * ((ne * es : Nat) : Int) + (e : Int) * (es : Int) = ((m + k * (ne * es) + e * es : Nat) : Int) := by
      push_cast
      rfl
    rw [this, Int.toNat_natCast]
  · rfl

theorem gPos_lt {ne es nc e k m : Nat} (he : e < ne) (hk : k < nc) (hm : m < es) :
    gPos ne es e k m < ne * es * nc := by
  have h1 := node_lt he hm
  have h2 := eIn h1 hk
  unfold gPos
  omega

theorem gPos_inj {ne es e k m e' k' m' : Nat} (he : e < ne) (hm : m < es) (he' : e' < ne) (hm' : m' < es)
    (h : gPos ne es e k m = gPos ne es e' k' m') : e = e' ∧ m = m' := by
  have h1 := node_lt he hm
  have h2 := node_lt he' hm'
  have hh : (e * es + m) + k * (ne * es) = (e' * es + m') + k' * (ne * es) := by unfold gPos at h; omega
  have h3 := congrArg (· % (ne * es)) hh
  simp only [Nat.add_mul_mod_self_right, Nat.mod_eq_of_lt h1, Nat.mod_eq_of_lt h2] at h3
  have h4 := congrArg (· / es) h3
  have h5 := congrArg (· % es) h3
  simp only [node_div hm, node_div hm', node_mod hm, node_mod hm'] at h4 h5
  exact ⟨h4, h5⟩

theorem strides_range {ne es nc : Nat} {lSize : Int} {s : Int × Int × Int} (hl : ((ne * es * nc : Nat) : Int) ≤ lSize)
    (hin : s = (0, 0, 0) ∨ StridesInRange ne es nc lSize s) : StridesInRange ne es nc lSize (cudaStrides ne es s) := by
  unfold cudaStrides
  split
  · intro e he m hm k hk
    have := gPos_lt he hk hm
    unfold gPos at this
    have h2 : (m : Int) * 1 + (k : Nat) * ((ne * es : Nat) : Int) + (e : Int) * (es : Int) =
        ((m + k * (ne * es) + e * es : Nat) : Int) := by
      push_cast
      rw [mul_one]
    simp only [h2]
    omega
  · next h => exact hin.resolve_left h

theorem strides_apart {ne es nc : Nat} {s : Int × Int × Int} (h : s = (0, 0, 0) ∨ StridesApart ne es nc s) :
    StridesApart ne es nc (cudaStrides ne es s) := by
  unfold cudaStrides
  split
  · intro e he m hm k hk e' he' m' hm' k' hk' heq
    refine gPos_inj (ne := ne) (k := k) (k' := k') he hm he' hm' ?_
    unfold gPos
    have cast : ∀ a b c : Nat, (a : Int) * 1 + (b : Nat) * ((ne * es : Nat) : Int) + (c : Int) * (es : Int) =
        ((a + b * (ne * es) + c * es : Nat) : Int) := by
      intro a b c
      push_cast
      rw [mul_one]
    simp only [cast] at heq
    exact_mod_cast heq
  · next h' => exact h.resolve_left h'

theorem createStrided_inv {ne es nc : Nat} {lSize : Int} {s : Int × Int × Int} {r : Rstr}
    (h : createStrided ne es nc lSize s = .ok r) :
    0 < es ∧ 0 < nc ∧ ((ne * es * nc : Nat) : Int) ≤ lSize ∧ r.rtype = .strided ∧ r.numElem = (ne : Int) ∧
      r.elemSize = es ∧ r.numComp = nc ∧ r.lSize = lSize ∧ r.eSize = ne * es * nc ∧ r.strides = some s := by
  simp only [createStrided, Res.bind_eq_ok, Res.check_eq_ok] at h
  obtain ⟨_, h1, _, h2, _, h3, _, h4, h5⟩ := h
  cases h5
  exact ⟨by omega, by omega, by exact_mod_cast h4, rfl, rfl, by simp, by simp, rfl, by simp [prod3_toNat], rfl⟩

theorem createCuda_strided {det : Bool} {mt : MemType} {junk : Nat → Int} {r : Rstr} {x : CRstr}
    (hr : r.rtype = .strided) (hc : createCuda det mt junk r = .ok x) :
    x = ⟨r, r.numElem.toNat * r.elemSize, none⟩ := by
  unfold createCuda at hc
  simp only [hr, if_true] at hc
  cases hc
  rfl

end Verif.Gpu
