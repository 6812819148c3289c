import Verif.Restriction.Apply

/-!
# Properties of element restrictions: C11 - C18

`Made var r bs lSize D` (see `Spec.lean`) says that `r` came out of one of the creation functions and that `D` is what
the user described; `bs` is the block size (1 for the plain creation functions).
-/

namespace Verif.Restriction
open Finset

variable {α : Type} [CommRing α]

/-! ## C11: gather -/

/-- C11, for all creation functions: `Apply` succeeds on vectors of the right lengths, every entry of every element is
the combination described by the user's data, and entries beyond the E-vector size are untouched. -/
theorem C11_apply_gathers {var : Variant} {r : Rstr} {bs : Nat} {lSize : Int} {D : RData α}
    (hm : Made var r bs lSize D) {u v : Buf α} (hu : lSize ≤ u.len) (hv : r.eSize ≤ v.len) :
    ∃ v', apply r var .noTranspose u v = .ok v' ∧ v'.len = v.len ∧
      (∀ e < D.ne, ∀ k < D.nc, ∀ n < D.es,
        v'.val (ePos D.es D.nc bs e k n) = ∑ m ∈ range D.es, D.coef e n m * u.val (D.lidx e m k)) ∧
      ∀ x, r.eSize ≤ x → v'.val x = v.val x := by
  obtain ⟨h, rfl, rfl⟩ := hm.rep
  obtain ⟨v', h1, h2, h3, _, h5⟩ := h.apply_nt hu hv
  exact ⟨v', h1, h2, h3, h5⟩

/-- C11 for `CeedElemRestrictionCreate`, spelled out. -/
theorem C11_standard {checked : Bool} {ne es nc : Nat} {cs lSize : Int} {offsets : Buf Int} {r : Rstr}
    (h : create checked ne es nc cs lSize offsets .none = .ok r)
    (hin : checked = true ∨ OffsetsInRange ne es nc cs lSize offsets) {u v : Buf α} (hu : lSize ≤ u.len)
    (hv : r.eSize ≤ v.len) :
    ∃ v', apply r .plain .noTranspose u v = .ok v' ∧ ∀ e < ne, ∀ k < nc, ∀ n < es,
      v'.val (e * nc * es + k * es + n) = u.val (offsets.val (e * es + n) + k * cs).toNat := by
  obtain ⟨v', h1, _, h3, _⟩ := C11_apply_gathers (Made.offset (var := .plain) h trivial hin) hu hv
  refine ⟨v', h1, fun e he k hk n hn => ?_⟩
  have := h3 e he k hk n hn
  simp only [offsetData, orientCoef, idCoef, ite_mul, one_mul, zero_mul] at this
  rw [sum_ite_eq' (range es) n, if_pos (mem_range.2 hn), ePos_one] at this
  exact this

/-- C11 for `CeedElemRestrictionCreateOriented`, spelled out. -/
theorem C11_oriented {checked : Bool} {ne es nc : Nat} {cs lSize : Int} {offsets : Buf Int} {s : Buf Bool} {r : Rstr}
    (h : create checked ne es nc cs lSize offsets (.signs s) = .ok r)
    (hin : checked = true ∨ OffsetsInRange ne es nc cs lSize offsets) {u v : Buf α} (hu : lSize ≤ u.len)
    (hv : r.eSize ≤ v.len) :
    ∃ v', apply r .plain .noTranspose u v = .ok v' ∧ ∀ e < ne, ∀ k < nc, ∀ n < es,
      v'.val (e * nc * es + k * es + n) =
        (if s.val (e * es + n) then -1 else 1) * u.val (offsets.val (e * es + n) + k * cs).toNat := by
  obtain ⟨v', h1, _, h3, _⟩ := C11_apply_gathers (Made.offset (var := .plain) h trivial hin) hu hv
  refine ⟨v', h1, fun e he k hk n hn => ?_⟩
  have := h3 e he k hk n hn
  rw [← ePos_one]
  refine this.trans ?_
  simp only [offsetData, orientCoef, idCoef]
  split <;> simp [sum_ite_eq', hn]

/-- C11 for `CeedElemRestrictionCreateCurlOriented`, spelled out for elements of at least two nodes. -/
theorem C11_curl_oriented {checked : Bool} {ne es nc : Nat} {cs lSize : Int} {offsets : Buf Int} {c : Buf Int} {r : Rstr}
    (h : create checked ne es nc cs lSize offsets (.curl c) = .ok r) (hes : 2 ≤ es)
    (hin : checked = true ∨ OffsetsInRange ne es nc cs lSize offsets) {u v : Buf α} (hu : lSize ≤ u.len)
    (hv : r.eSize ≤ v.len) :
    ∃ v', apply r .plain .noTranspose u v = .ok v' ∧ ∀ e < ne, ∀ k < nc, ∀ n < es,
      v'.val (e * nc * es + k * es + n) =
        (if n = 0 then 0
          else c.val (3 * (e * es + n)) * u.val (offsets.val (e * es + n - 1) + k * cs).toNat) +
        c.val (3 * (e * es + n) + 1) * u.val (offsets.val (e * es + n) + k * cs).toNat +
        (if n + 1 = es then 0
          else c.val (3 * (e * es + n) + 2) * u.val (offsets.val (e * es + n + 1) + k * cs).toNat) := by
  obtain ⟨v', h1, _, h3, _⟩ := C11_apply_gathers (Made.offset (var := .plain) h (Or.inr hes) hin) hu hv
  refine ⟨v', h1, fun e he k hk n hn => ?_⟩
  have := h3 e he k hk n hn
  rw [← ePos_one]
  refine this.trans ?_
  simp only [offsetData, orientCoef, triCoef]
  rw [sum_tri hn]
  have hc : ∀ i, e * (3 * es) + (3 * n + i) = 3 * (e * es + n) + i := by intro i; ring
  rw [show e * (3 * es) + 3 * n = 3 * (e * es + n) by ring, hc, hc]
  congr 1
  · congr 1
    · split
      · rfl
      · rw [show e * es + (n - 1) = e * es + n - 1 by omega]; ring
    · ring
  · by_cases hl : n + 1 = es
    · rw [if_pos hl, if_neg (by omega)]
    · rw [if_neg hl, if_pos (by omega)]
      rw [show e * es + (n + 1) = e * es + n + 1 by omega]; ring

/-- C11 for `CeedElemRestrictionCreateStrided`, spelled out. -/
theorem C11_strided {ne es nc : Nat} {lSize : Int} {s : Int × Int × Int} {r : Rstr}
    (h : createStrided ne es nc lSize s = .ok r) (hs : s ≠ (0, 0, 0)) (hin : StridesInRange ne es nc lSize s)
    {u v : Buf α} (hu : lSize ≤ u.len) (hv : r.eSize ≤ v.len) :
    ∃ v', apply r .plain .noTranspose u v = .ok v' ∧ ∀ e < ne, ∀ k < nc, ∀ n < es,
      v'.val (e * nc * es + k * es + n) = u.val (n * s.1 + k * s.2.1 + e * s.2.2).toNat := by
  obtain ⟨v', h1, _, h3, _⟩ := C11_apply_gathers (Made.strided (var := .plain) h (Or.inr hin)) hu hv
  refine ⟨v', h1, fun e he k hk n hn => ?_⟩
  have := h3 e he k hk n hn
  rw [← ePos_one]
  refine this.trans ?_
  simp [stridedData, idCoef, hs, hn]

/-- C11 with `CEED_STRIDES_BACKEND`: the E-vector is the L-vector. -/
theorem C11_strided_backend {ne es nc : Nat} {lSize : Int} {r : Rstr}
    (h : createStrided ne es nc lSize (0, 0, 0) = .ok r)
    {u v : Buf α} (hu : lSize ≤ u.len) (hv : r.eSize ≤ v.len) :
    ∃ v', apply r .plain .noTranspose u v = .ok v' ∧ ∀ x < ne * nc * es, v'.val x = u.val x := by
  obtain ⟨v', h1, _, h3, _⟩ := C11_apply_gathers (Made.strided (var := .plain) h (Or.inl rfl)) hu hv
  refine ⟨v', h1, fun x hx => ?_⟩
  obtain ⟨e, he, k, hk, n, hn, j, hj, rfl⟩ := eIdx_exists (bs := 1) (by simpa using hx)
  have hj0 : j = 0 := by omega
  subst hj0
  have := h3 e he k hk n hn
  have e2 : eIdx nc es 1 e k n 0 = ePos es nc 1 e k n := by rw [ePos_one, eIdx]; ring
  rw [e2]
  refine this.trans ?_
  simp only [stridedData, idCoef, if_true, ite_mul, one_mul, zero_mul]
  rw [sum_ite_eq' (range es) n, if_pos (mem_range.2 hn)]
  congr 1; rw [ePos_one]; ring

/-- Two elements of two nodes sharing a node, two components interleaved. -/
def exOffsets : Buf Int := Buf.ofList [0, 2, 2, 4]

example : ∃ r, create true 2 2 2 1 6 exOffsets .none = .ok r ∧ r.eSize = 8 := ⟨_, rfl, rfl⟩
example : ∃ r, create true 2 2 2 1 6 exOffsets (.signs (Buf.ofList [false, true, true, false])) = .ok r := ⟨_, rfl⟩
example : ∃ r, create true 2 2 2 1 6 exOffsets (.curl (Buf.ofList [0, 1, 0, 0, 1, 0, 0, 0, -1, 1, 0, 0])) = .ok r :=
  ⟨_, rfl⟩
example : ∃ r, createStrided 2 2 1 6 (2, 1, 1) = .ok r ∧ StridesInRange 2 2 1 6 (2, 1, 1) :=
  ⟨_, rfl, by intro e he m hm k hk; simp only; omega⟩
example : ∃ r, createBlocked true 3 1 2 1 1 4 (Buf.ofList [0, 3, 1]) .none = .ok r ∧
    OffsetsInRange 3 1 1 1 4 (Buf.ofList [0, 3, 1]) := by
  refine ⟨_, rfl, ?_⟩
  intro e he m hm k hk
  have hm0 : m = 0 := by omega
  have hk0 : k = 0 := by omega
  subst hm0 hk0
  rcases (by omega : e = 0 ∨ e = 1 ∨ e = 2) with rfl | rfl | rfl <;> decide

/-! ## C12: transpose -/

/-- C12: transpose application adds a vector depending on the input alone to the previous contents. -/
theorem C12_transpose_accumulates {var : Variant} {r : Rstr} {bs : Nat} {lSize : Int} {D : RData α}
    (hm : Made var r bs lSize D) {w : Buf α} (hw : r.eSize ≤ w.len) :
    ∃ g : Nat → α, ∀ v : Buf α, lSize ≤ v.len →
      apply r var .transpose w v = .ok ⟨v.len, fun t => v.val t + g t⟩ := by
  obtain ⟨h, rfl, rfl⟩ := hm.rep
  exact ⟨_, fun v hv => h.apply_t hw hv⟩

/-- C12: `⟨E u, w⟩ = ⟨u, E^T w⟩`, where `E u` and `E^T w` are what the two application modes compute (the latter into a
zero vector) and the left inner product runs over the entries of the elements. -/
theorem C12_transpose_is_adjoint {var : Variant} {r : Rstr} {bs : Nat} {lSize : Int} {D : RData α}
    (hm : Made var r bs lSize D) {u v w z : Buf α} (hu : lSize ≤ u.len) (hv : r.eSize ≤ v.len)
    (hw : r.eSize ≤ w.len) (hz : lSize ≤ z.len) (hzero : ∀ t, z.val t = 0) :
    ∃ eu etw, apply r var .noTranspose u v = .ok eu ∧ apply r var .transpose w z = .ok etw ∧
      ∑ e ∈ range D.ne, ∑ k ∈ range D.nc, ∑ n ∈ range D.es,
        eu.val (ePos D.es D.nc bs e k n) * w.val (ePos D.es D.nc bs e k n) =
      ∑ t ∈ range lSize.toNat, u.val t * etw.val t := by
  obtain ⟨h, rfl, rfl⟩ := hm.rep
  obtain ⟨eu, h1, _, h3, _⟩ := h.apply_nt hu hv
  refine ⟨eu, _, h1, h.apply_t hw hz, ?_⟩
  simp only [hzero, zero_add]
  rw [← D.adjoint r.blockSize r.lSize.toNat (fun e he m hm k hk => by have := h.rng e he m hm k hk; omega)]
  refine sum_congr rfl fun e he => sum_congr rfl fun k hk => sum_congr rfl fun n hn => ?_
  rw [mem_range] at he hk hn
  rw [h3 e he k hk n hn]

/-- C12 for unblocked restrictions: the left inner product is over the whole E-vector. -/
theorem C12_transpose_is_adjoint_plain {var : Variant} {r : Rstr} {lSize : Int} {D : RData α}
    (hm : Made var r 1 lSize D) {u v w z : Buf α} (hu : lSize ≤ u.len) (hv : r.eSize ≤ v.len)
    (hw : r.eSize ≤ w.len) (hz : lSize ≤ z.len) (hzero : ∀ t, z.val t = 0) :
    ∃ eu etw, apply r var .noTranspose u v = .ok eu ∧ apply r var .transpose w z = .ok etw ∧
      ∑ x ∈ range r.eSize, eu.val x * w.val x = ∑ t ∈ range lSize.toNat, u.val t * etw.val t := by
  obtain ⟨eu, etw, h1, h2, h3⟩ := C12_transpose_is_adjoint hm hu hv hw hz hzero
  refine ⟨eu, etw, h1, h2, ?_⟩
  rw [← h3]
  obtain ⟨h, hbs, -⟩ := hm.rep
  have hE : r.eSize = D.ne * (D.nc * D.es) := by
    rw [h.esz, h.nb, hbs]; simp; ring
  rw [hE, sum_range_mul]
  refine sum_congr rfl fun e _ => ?_
  rw [sum_range_mul]
  refine sum_congr rfl fun k _ => sum_congr rfl fun n _ => ?_
  have : e * (D.nc * D.es) + (k * D.es + n) = ePos D.es D.nc 1 e k n := by rw [ePos_one]; ring
  rw [this]

/-! ## C13: memory safety -/

/-- C13, for all creation functions under the documented conditions on the arrays: `Apply` either succeeds or, exactly
when a vector is too short, returns `CEED_ERROR_DIMENSION`; it never accesses memory outside its arrays. -/
theorem C13_apply_safe {var : Variant} {r : Rstr} {bs : Nat} {lSize : Int} {D : RData α}
    (hm : Made var r bs lSize D) (t : TMode) (u v : Buf α) :
    apply r var t u v = .err .dimension ∨ ∃ v', apply r var t u v = .ok v' ∧ v'.len = v.len := by
  obtain ⟨h, -, -⟩ := hm.rep
  cases t
  · by_cases hs : (u.len : Int) < r.lSize ∨ (v.len : Int) < r.eSize
    · exact Or.inl (apply_short r var .noTranspose u v hs)
    · obtain ⟨v', h1, h2, _⟩ := h.apply_nt (u := u) (v := v) (by omega) (by omega)
      exact Or.inr ⟨v', h1, h2⟩
  · by_cases hs : (u.len : Int) < r.eSize ∨ (v.len : Int) < r.lSize
    · exact Or.inl (apply_short r var .transpose u v hs)
    · exact Or.inr ⟨_, h.apply_t (by omega) (by omega), rfl⟩

/-- C13: with the reference backends, plain creation itself guarantees the range condition. -/
theorem C13_create_checks_offsets {ne es nc : Nat} {cs lSize : Int} {offsets : Buf Int} {o : Orient} {r : Rstr}
    (h : create true ne es nc cs lSize offsets o = .ok r) : OffsetsInRange ne es nc cs lSize offsets := by
  obtain ⟨_, _, _, hcs⟩ := create_args h
  obtain ⟨_, _, _, _, _, _, _, _, _, _, _, _, _, _, h14⟩ := create_fields h
  intro e he m hm k hk
  obtain ⟨_, hx⟩ := checkOffsets_ok (h14 rfl) (e * es + m) (enc_lt he hm)
  exact comp_range (by omega) hx hk

/-- C13, complete for plain offset restrictions on the reference backends (at least two nodes if curl oriented): no
condition on the offsets is left to the caller. -/
theorem C13_create_then_apply_safe {ne es nc cs lSize : Int} {offsets : Buf Int} {o : Orient} {r : Rstr}
    (h : create true ne es nc cs lSize offsets o = .ok r) {var : Variant} (hf : o.Fits es.toNat var)
    (t : TMode) (u v : Buf α) :
    apply r var t u v = .err .dimension ∨ ∃ v', apply r var t u v = .ok v' ∧ v'.len = v.len := by
  obtain ⟨h1, h2, h3, _⟩ := create_args h
  obtain ⟨ne, rfl⟩ := Int.eq_ofNat_of_zero_le h1
  obtain ⟨es, rfl⟩ := Int.eq_ofNat_of_zero_le h2.le
  obtain ⟨nc, rfl⟩ := Int.eq_ofNat_of_zero_le h3.le
  exact C13_apply_safe (Made.offset (α := α) h hf (Or.inl rfl)) t u v

/-- C13 for strided restrictions with the backend's own strides: no condition at all. -/
theorem C13_backend_strides_safe {ne es nc lSize : Int} {r : Rstr}
    (h : createStrided ne es nc lSize (0, 0, 0) = .ok r) (var : Variant) (t : TMode) (u v : Buf α) :
    apply r var t u v = .err .dimension ∨ ∃ v', apply r var t u v = .ok v' ∧ v'.len = v.len := by
  have h' := h
  simp only [createStrided, Res.bind_eq_ok, Res.check_eq_ok] at h'
  obtain ⟨_, h1, _, h2, _, h3, _⟩ := h'
  obtain ⟨ne, rfl⟩ := Int.eq_ofNat_of_zero_le h1
  obtain ⟨es, rfl⟩ := Int.eq_ofNat_of_zero_le h2.le
  obtain ⟨nc, rfl⟩ := Int.eq_ofNat_of_zero_le h3.le
  exact C13_apply_safe (Made.strided (α := α) h (Or.inl rfl)) t u v

/-! The unconditional claim of C13 is false of the code; the four witnesses are: -/

/-- Blocked creation checks only the first `num_elem * elem_size` entries of the permuted offsets: three elements of two
nodes in blocks of two, the last offset (1000) is beyond the L-vector, creation succeeds and `Apply` reads out of range. -/
theorem C13_blocked_check_incomplete_witness :
    ∃ r, createBlocked true 3 2 2 1 1 4 (Buf.ofList [0, 1, 1, 2, 2, 1000]) .none = .ok r ∧
      apply r .plain .noTranspose (⟨4, fun _ => 0⟩ : Buf Int) ⟨8, fun _ => 0⟩ = .ub := ⟨_, rfl, rfl⟩

/-- User strides are not checked against the L-vector size. -/
theorem C13_strides_unchecked_witness :
    ∃ r, createStrided 1 2 1 2 (1000, 1, 1) = .ok r ∧
      apply r .plain .noTranspose (⟨2, fun _ => 0⟩ : Buf Int) ⟨2, fun _ => 0⟩ = .ub := ⟨_, rfl, rfl⟩

/-- A curl oriented restriction with one node per element is accepted and its kernels read past the arrays. -/
theorem C13_curl_one_node_witness :
    ∃ r, create true 1 1 1 1 1 (Buf.ofList [0]) (.curl (Buf.ofList [0, 1, 0])) = .ok r ∧
      apply r .plain .noTranspose (⟨1, fun _ => 0⟩ : Buf Int) ⟨1, fun _ => 0⟩ = .ub := ⟨_, rfl, rfl⟩

/-- `CreateBlockedOriented` does not check the number of elements: with `-1` elements it reads before the offsets. -/
theorem C13_blocked_oriented_negative_witness :
    createBlocked true (-1) 2 2 1 1 4 (Buf.ofList [0, 1]) (.signs (Buf.ofList [true, false])) = .ub := rfl

/-- Blocked creation divides by the block size before checking it. -/
theorem C13_blocked_zero_block_size_witness (checked : Bool) (ne es nc cs lSize : Int) (offsets : Buf Int) (o : Orient) :
    createBlocked checked ne es 0 nc cs lSize offsets o = .ub := by
  simp [createBlocked, numBlocks]

/-- C13 for blocked restrictions on the reference backends: what is missing for the full claim is the range check of
the offsets in the last, incomplete block, hence the divisibility hypothesis. -/
theorem C13_blocked_safe_partial {ne es bs nc : Nat} {cs lSize : Int} {offsets : Buf Int} {o : Orient} {r : Rstr}
    (h : createBlocked true ne es bs nc cs lSize offsets o = .ok r) (hl : ne * es ≤ offsets.len) (ho : o.Has (ne * es))
    {var : Variant} (hf : o.Fits es var) (hd : bs ∣ ne) (t : TMode) (u v : Buf α) :
    apply r var t u v = .err .dimension ∨ ∃ v', apply r var t u v = .ok v' ∧ v'.len = v.len :=
  C13_apply_safe (Made.blocked (α := α) h hl ho hf (Or.inl ⟨rfl, hd⟩)) t u v

/-! ## C14: blocked and plain -/

/-- C14, gather: same values for every real element. -/
theorem C14_blocked_gather {c1 c2 : Bool} {ne es bs nc : Nat} {cs lSize : Int} {offsets : Buf Int} {o : Orient}
    {rp rb : Rstr} {var : Variant} (hp : create c1 ne es nc cs lSize offsets o = .ok rp)
    (hb : createBlocked c2 ne es bs nc cs lSize offsets o = .ok rb) (hl : ne * es ≤ offsets.len)
    (ho : o.Has (ne * es)) (hf : o.Fits es var) (hin : OffsetsInRange ne es nc cs lSize offsets)
    {u vp vb : Buf α} (hu : lSize ≤ u.len) (hvp : rp.eSize ≤ vp.len) (hvb : rb.eSize ≤ vb.len) :
    ∃ vp' vb', apply rp var .noTranspose u vp = .ok vp' ∧ apply rb var .noTranspose u vb = .ok vb' ∧
      ∀ e < ne, ∀ k < nc, ∀ n < es, vb'.val (ePos es nc bs e k n) = vp'.val (ePos es nc 1 e k n) := by
  obtain ⟨vp', h1, _, h3, _⟩ := C11_apply_gathers (Made.offset (var := var) hp hf (Or.inr hin)) hu hvp
  obtain ⟨vb', h4, _, h6, _⟩ := C11_apply_gathers (Made.blocked (var := var) hb hl ho hf (Or.inr hin)) hu hvb
  exact ⟨vp', vb', h1, h4, fun e he k hk n hn => (h6 e he k hk n hn).trans (h3 e he k hk n hn).symm⟩

/-- C14, transpose: inputs that agree on the real elements give the same result, whatever the padding contains. -/
theorem C14_blocked_scatter {c1 c2 : Bool} {ne es bs nc : Nat} {cs lSize : Int} {offsets : Buf Int} {o : Orient}
    {rp rb : Rstr} {var : Variant} (hp : create c1 ne es nc cs lSize offsets o = .ok rp)
    (hb : createBlocked c2 ne es bs nc cs lSize offsets o = .ok rb) (hl : ne * es ≤ offsets.len)
    (ho : o.Has (ne * es)) (hf : o.Fits es var) (hin : OffsetsInRange ne es nc cs lSize offsets)
    {wp wb v : Buf α} (hwp : rp.eSize ≤ wp.len) (hwb : rb.eSize ≤ wb.len) (hv : lSize ≤ v.len)
    (hw : ∀ e < ne, ∀ k < nc, ∀ n < es, wb.val (ePos es nc bs e k n) = wp.val (ePos es nc 1 e k n)) :
    ∃ v', apply rp var .transpose wp v = .ok v' ∧ apply rb var .transpose wb v = .ok v' := by
  obtain ⟨h1, b1, l1⟩ := (Made.offset (α := α) (var := var) hp hf (Or.inr hin)).rep
  obtain ⟨h2, b2, l2⟩ := (Made.blocked (α := α) (var := var) hb hl ho hf (Or.inr hin)).rep
  refine ⟨_, h1.apply_t hwp (by omega), ?_⟩
  rw [h2.apply_t hwb (by omega), b1, b2]
  congr 2
  funext t
  congr 1
  unfold RData.scatter
  refine sum_congr rfl fun e he => sum_congr rfl fun k hk => sum_congr rfl fun n hn => sum_congr rfl fun m _ => ?_
  rw [mem_range] at he hk hn
  have := hw e he k hk n hn
  simp only [offsetData] at this ⊢
  rw [this]

/-- C14 for strided restrictions, gather. -/
theorem C14_blocked_strided_gather {ne es bs nc : Nat} {lSize : Int} {s : Int × Int × Int} {rp rb : Rstr}
    {var : Variant} (hp : createStrided ne es nc lSize s = .ok rp)
    (hb : createBlockedStrided ne es bs nc lSize s = .ok rb) (hin : s = (0, 0, 0) ∨ StridesInRange ne es nc lSize s)
    {u vp vb : Buf α} (hu : lSize ≤ u.len) (hvp : rp.eSize ≤ vp.len) (hvb : rb.eSize ≤ vb.len) :
    ∃ vp' vb', apply rp var .noTranspose u vp = .ok vp' ∧ apply rb var .noTranspose u vb = .ok vb' ∧
      ∀ e < ne, ∀ k < nc, ∀ n < es, vb'.val (ePos es nc bs e k n) = vp'.val (ePos es nc 1 e k n) := by
  obtain ⟨vp', h1, _, h3, _⟩ := C11_apply_gathers (Made.strided (var := var) hp hin) hu hvp
  obtain ⟨vb', h4, _, h6, _⟩ := C11_apply_gathers (Made.blockedStrided (var := var) hb hin) hu hvb
  exact ⟨vp', vb', h1, h4, fun e he k hk n hn => (h6 e he k hk n hn).trans (h3 e he k hk n hn).symm⟩

/-- C14 for strided restrictions, transpose. -/
theorem C14_blocked_strided_scatter {ne es bs nc : Nat} {lSize : Int} {s : Int × Int × Int} {rp rb : Rstr}
    {var : Variant} (hp : createStrided ne es nc lSize s = .ok rp)
    (hb : createBlockedStrided ne es bs nc lSize s = .ok rb) (hin : s = (0, 0, 0) ∨ StridesInRange ne es nc lSize s)
    {wp wb v : Buf α} (hwp : rp.eSize ≤ wp.len) (hwb : rb.eSize ≤ wb.len) (hv : lSize ≤ v.len)
    (hw : ∀ e < ne, ∀ k < nc, ∀ n < es, wb.val (ePos es nc bs e k n) = wp.val (ePos es nc 1 e k n)) :
    ∃ v', apply rp var .transpose wp v = .ok v' ∧ apply rb var .transpose wb v = .ok v' := by
  obtain ⟨h1, b1, l1⟩ := (Made.strided (α := α) (var := var) hp hin).rep
  obtain ⟨h2, b2, l2⟩ := (Made.blockedStrided (α := α) (var := var) hb hin).rep
  refine ⟨_, h1.apply_t hwp (by omega), ?_⟩
  rw [h2.apply_t hwb (by omega), b1, b2]
  congr 2
  funext t
  congr 1
  unfold RData.scatter
  refine sum_congr rfl fun e he => sum_congr rfl fun k hk => sum_congr rfl fun n hn => sum_congr rfl fun m _ => ?_
  rw [mem_range] at he hk hn
  have := hw e he k hk n hn
  simp only [stridedData] at this ⊢
  rw [this]

example : ∃ rp rb, create true 3 1 1 1 4 (Buf.ofList [0, 3, 1]) .none = .ok rp ∧
    createBlocked true 3 1 2 1 1 4 (Buf.ofList [0, 3, 1]) .none = .ok rb ∧ rp.eSize = 3 ∧ rb.eSize = 4 :=
  ⟨_, _, rfl, rfl, rfl, rfl⟩

/-! ## C15: block by block -/

/-- C15, gather: block `b` of the result of `Apply` is the result of `ApplyBlock`. -/
theorem C15_block_gather {r : Rstr} {bs : Nat} {lSize : Int} {D : RData α} (hm : Made .plain r bs lSize D)
    {u v w : Buf α} (hu : lSize = u.len) (hv : r.eSize ≤ v.len) (hw : w.len = bs * D.es * D.nc) :
    ∃ v', apply r .plain .noTranspose u v = .ok v' ∧ ∀ b < r.numBlock,
      ∃ w', applyBlock r b .noTranspose u w = .ok w' ∧
        ∀ i < bs * D.es * D.nc, w'.val i = v'.val (b * (bs * D.es * D.nc) + i) := by
  obtain ⟨h, rfl, rfl⟩ := hm.rep
  obtain ⟨v', h1, _, _, h4, _⟩ := h.apply_nt (u := u) hu.le hv
  refine ⟨v', h1, fun b hb => ?_⟩
  obtain ⟨w', e1, _, e3⟩ := h.block_nt hb hu hw
  refine ⟨w', e1, fun i hi => ?_⟩
  have hi' : i < 1 * D.nc * D.es * r.blockSize := by
    rw [show 1 * D.nc * D.es * r.blockSize = r.blockSize * D.es * D.nc by ring]; exact hi
  obtain ⟨b0, hb0, k, hk, n, hn, j, hj, rfl⟩ := eIdx_exists hi'
  have : b0 = 0 := by omega
  subst this
  rw [e3 k hk n hn j hj, ← eIdx_shift, h4 b hb k hk n hn j hj]

/-- C15, transpose: applying the transpose block by block, in any order, to the pieces of `w` accumulates the same
L-vector as `Apply`. -/
theorem C15_block_scatter {r : Rstr} {bs : Nat} {lSize : Int} {D : RData α} (hm : Made .plain r bs lSize D)
    {w v : Buf α} (hv : lSize = v.len) (hw : r.eSize ≤ w.len) {l : List Nat} (hl : l.Perm (List.range r.numBlock)) :
    l.foldlM (fun v (b : Nat) => applyBlock r b .transpose
      ⟨bs * D.es * D.nc, fun i => w.val (b * (bs * D.es * D.nc) + i)⟩ v) v = apply r .plain .transpose w v := by
  obtain ⟨h, rfl, rfl⟩ := hm.rep
  rw [h.apply_t hw (by omega)]
  have hmem : ∀ b ∈ l, b < r.numBlock := fun b hb => List.mem_range.1 (hl.mem_iff.1 hb)
  have key : ∀ (l : List Nat) (v : Buf α), (∀ b ∈ l, b < r.numBlock) → r.lSize = v.len →
      l.foldlM (fun v (b : Nat) => applyBlock r b .transpose
        ⟨r.blockSize * D.es * D.nc, fun i => w.val (b * (r.blockSize * D.es * D.nc) + i)⟩ v) v =
      Res.ok ⟨v.len, fun t => v.val t + (l.map (fun b =>
        ∑ j ∈ range (laneEnd r.blockSize r.numElem (b * r.blockSize)),
          D.elemScatter (fun k n => w.val (eIdx D.nc D.es r.blockSize b k n j)) (b * r.blockSize + j) t)).sum⟩ := by
    intro l
    induction l with
    | nil => intro v _ _; simp
    | cons b l ih =>
      intro v hb hv
      rw [List.foldlM_cons, h.block_t (hb b (by simp)) hv rfl, Res.bind_ok]
      refine (ih _ (fun b' hb' => hb b' (by simp [hb'])) ?_).trans ?_
      · exact hv
      simp only [List.map_cons, List.sum_cons, add_assoc, ← eIdx_shift]
  rw [key l v hmem hv]
  congr 2
  funext t
  rw [h.scatter_blocks, (hl.map _).sum_eq, list_sum_range]

/-- C15, rejection: block numbers beyond the last block are rejected, except the one that starts right after the last
element (see the witness). -/
theorem C15_block_rejected_partial (r : Rstr) (block : Int) (hb : r.numElem < r.blockSize * block) (t : TMode)
    (u v : Buf α) : applyBlock r block t u v = .err .dimension := by
  cases t <;> simp only [applyBlock]
  all_goals
    unfold Res.check
    split <;> [skip; rfl]
    rw [Res.bind_ok]
    split <;> [skip; rfl]
    rw [Res.bind_ok, if_neg (by omega)]; rfl

/-- C15: what is missing above. The check `block_size * block <= num_elem` accepts the block number `num_block` when the
block size divides the number of elements; the call then reads past the offsets. -/
theorem C15_block_off_by_one_witness :
    ∃ r, createBlocked true 2 1 2 1 1 2 (Buf.ofList [0, 1]) .none = .ok r ∧ r.numBlock = 1 ∧
      applyBlock r 1 .noTranspose (⟨2, fun _ => 0⟩ : Buf Int) ⟨2, fun _ => 0⟩ = .ub := ⟨_, rfl, rfl, rfl⟩

/-- Negative block numbers are not rejected either. -/
theorem C15_block_negative_witness :
    ∃ r, createBlocked true 2 1 2 1 1 2 (Buf.ofList [0, 1]) .none = .ok r ∧
      applyBlock r (-1) .noTranspose (⟨2, fun _ => 0⟩ : Buf Int) ⟨2, fun _ => 0⟩ = .ub := ⟨_, rfl, rfl⟩

/-! ## C16: multiplicity -/

/-- Number of (element, node, component) triples referring to entry `t`. -/
def RData.count (D : RData α) (t : Nat) : Nat :=
  ∑ e ∈ range D.ne, ∑ k ∈ range D.nc, ∑ m ∈ range D.es, if D.lidx e m k = t then 1 else 0

/-- C16 when every row picks one node with coefficient `1` or `-1`. -/
theorem multiplicity_of_signs {var : Variant} {r : Rstr} {bs : Nat} {lSize : Int} {D : RData α}
    (hm : Made var r bs lSize D)
    (hc : ∃ σ : Nat → Nat → α, (∀ e n, σ e n * σ e n = 1) ∧ ∀ e n m, D.coef e n m = if m = n then σ e n else 0)
    {mult : Buf α} (hl : lSize ≤ mult.len) :
    ∃ mult', getMultiplicity r var mult = .ok mult' ∧ mult'.len = mult.len ∧
      ∀ t < mult.len, mult'.val t = (D.count t : α) := by
  obtain ⟨h, rfl, rfl⟩ := hm.rep
  obtain ⟨σ, hσ, hc⟩ := hc
  obtain ⟨ones, f1, f2, f3⟩ := fill_all (v := mult) 1
  obtain ⟨e, g1, g2, g3, _⟩ := h.apply_nt (u := ones) (v := ⟨r.eSize, fun _ => 0⟩) (by omega) le_rfl
  obtain ⟨zeros, z1, z2, z3⟩ := fill_all (v := ones) 0
  have e1 := h.apply_t (u := e) (v := zeros) (by simp only at g2; omega) (by omega)
  refine ⟨⟨zeros.len, fun t => zeros.val t + D.scatter r.blockSize e.val t⟩, ?_, by simp [z2, f2], ?_⟩
  · simp only [getMultiplicity, f1, Res.bind_ok, g1, z1, e1]
  · intro t ht
    simp only [z3 t (by omega), zero_add, RData.scatter, RData.count]
    push_cast
    refine sum_congr rfl fun x hx => sum_congr rfl fun k hk => ?_
    rw [mem_range] at hx hk
    rw [sum_comm]
    refine sum_congr rfl fun m hm => ?_
    rw [mem_range] at hm
    by_cases hlt : D.lidx x m k = t
    · simp only [hlt, if_true]
      rw [sum_eq_single m]
      · have h1 := g3 x hx k hk m hm
        rw [h1]
        simp only [RData.row, hc, if_true]
        have h2 : ∀ m' ∈ range D.es, (if m' = m then σ x m else 0) * ones.val (D.lidx x m' k) =
            if m' = m then σ x m else 0 := by
          intro m' hm'
          rw [mem_range] at hm'
          rw [f3 _ (by have := h.rng x hx m' hm' k hk; omega), mul_one]
        rw [sum_congr rfl h2, sum_ite_eq', if_pos (mem_range.2 hm), hσ]
      · intro n _ hn
        rw [hc, if_neg (fun h => hn h.symm), zero_mul]
      · intro hh; exact absurd (mem_range.2 hm) hh
    · simp [hlt]

/-- C16 for standard and oriented restrictions, plain or blocked, and for the unsigned and unoriented copies: the result
counts the occurrences. (Curl oriented restrictions are excluded unless unoriented, see the witness.) -/
theorem C16_multiplicity_partial {checked : Bool} {ne es nc : Nat} {cs lSize : Int} {offsets : Buf Int} {o : Orient}
    {r : Rstr} {var : Variant} (h : create checked ne es nc cs lSize offsets o = .ok r)
    (hin : checked = true ∨ OffsetsInRange ne es nc cs lSize offsets)
    (ho : ∀ c, o = .curl c → var = .unoriented) {mult : Buf α} (hl : lSize ≤ mult.len) :
    ∃ mult', getMultiplicity r var mult = .ok mult' ∧ mult'.len = mult.len ∧
      ∀ t < mult.len, mult'.val t =
        ((∑ e ∈ range ne, ∑ k ∈ range nc, ∑ m ∈ range es,
          if (offsets.val (e * es + m) + k * cs).toNat = t then 1 else 0 : Nat) : α) := by
  have hf : o.Fits es var := by
    cases o with
    | curl c => exact Or.inl (ho c rfl)
    | _ => trivial
  refine multiplicity_of_signs (Made.offset (α := α) (var := var) h hf hin) ?_ hl
  cases o with
  | none => exact ⟨fun _ _ => 1, by simp, by intros; cases var <;> simp [offsetData, orientCoef, idCoef]⟩
  | curl c =>
    have := ho c rfl
    subst this
    exact ⟨fun _ _ => 1, by simp, by intros; simp [offsetData, orientCoef, idCoef]⟩
  | signs s =>
    cases var
    · refine ⟨fun e n => if s.val (e * es + n) then -1 else 1, ?_, ?_⟩
      · intro e n; dsimp only; split <;> simp
      · intro e n m; simp only [offsetData, orientCoef, idCoef]; split <;> split <;> simp
    all_goals exact ⟨fun _ _ => 1, by simp, by intros; simp [offsetData, orientCoef, idCoef]⟩

/-- C16 for strided restrictions. -/
theorem C16_multiplicity_strided {ne es nc : Nat} {lSize : Int} {s : Int × Int × Int} {r : Rstr} {var : Variant}
    (h : createStrided ne es nc lSize s = .ok r) (hs : s ≠ (0, 0, 0)) (hin : StridesInRange ne es nc lSize s)
    {mult : Buf α} (hl : lSize ≤ mult.len) :
    ∃ mult', getMultiplicity r var mult = .ok mult' ∧ mult'.len = mult.len ∧
      ∀ t < mult.len, mult'.val t =
        ((∑ e ∈ range ne, ∑ k ∈ range nc, ∑ m ∈ range es,
          if (m * s.1 + k * s.2.1 + e * s.2.2 : Int).toNat = t then 1 else 0 : Nat) : α) := by
  have := multiplicity_of_signs (Made.strided (α := α) (var := var) h (Or.inr hin))
    ⟨fun _ _ => 1, by simp, by intros; simp [stridedData, idCoef]⟩ hl
  simpa only [RData.count, stridedData, if_neg hs] using this

/-- C16 for blocked restrictions (standard or oriented): padding lanes are not counted. -/
theorem C16_multiplicity_blocked {checked : Bool} {ne es bs nc : Nat} {cs lSize : Int} {offsets : Buf Int}
    {r : Rstr} {var : Variant} (h : createBlocked checked ne es bs nc cs lSize offsets .none = .ok r)
    (hlen : ne * es ≤ offsets.len) (hin : OffsetsInRange ne es nc cs lSize offsets)
    {mult : Buf α} (hl : lSize ≤ mult.len) :
    ∃ mult', getMultiplicity r var mult = .ok mult' ∧ mult'.len = mult.len ∧
      ∀ t < mult.len, mult'.val t =
        ((∑ e ∈ range ne, ∑ k ∈ range nc, ∑ m ∈ range es,
          if (offsets.val (e * es + m) + k * cs).toNat = t then 1 else 0 : Nat) : α) :=
  multiplicity_of_signs (Made.blocked (α := α) (var := var) h hlen trivial trivial (Or.inr hin))
    ⟨fun _ _ => 1, by simp, by intros; cases var <;> simp [offsetData, orientCoef, idCoef]⟩ hl

/-- C16 fails for curl oriented restrictions: here every entry occurs once, the reported multiplicity of entry 0 is 5. -/
theorem C16_curl_witness :
    ∃ r m, create true 1 2 1 1 2 (Buf.ofList [0, 1]) (.curl (Buf.ofList [0, 1, 1, 1, 2, 0])) = .ok r ∧
      getMultiplicity r .plain (⟨2, fun _ => 0⟩ : Buf Int) = .ok m ∧ m.val 0 = 5 := ⟨_, _, rfl, rfl, rfl⟩

/-! ## C17: specialised kernels -/

/-- C17: for every restriction, range of blocks, mode and flags, the dispatch to a specialised kernel computes what the
generic kernel computes (including errors and undefined behaviour). -/
theorem C17_specialised_kernels (r : Rstr) (start stop : Nat) (t : TMode) (signs orients : Bool) (u v : Buf α) :
    implApply r r.numComp r.blockSize r.compStride start stop t signs orients u v =
      applyCore r r.numComp r.blockSize r.compStride start stop t signs orients u v :=
  implApply_eq r start stop t signs orients u v

/-! ## C18: unsigned and unoriented copies -/

/-- Absolute values of the orientation. -/
def Orient.abs : Orient → Orient
  | .none => .none
  | .signs s => .signs ⟨s.len, fun _ => false⟩
  | .curl c => .curl ⟨c.len, fun i => |c.val i|⟩

/-- Non-oriented restrictions: the three variants coincide. -/
theorem C18_standard {checked : Bool} {ne es nc : Nat} {cs lSize : Int} {offsets : Buf Int} {r : Rstr} (var : Variant)
    (h : create checked ne es nc cs lSize offsets .none = .ok r)
    (hin : checked = true ∨ OffsetsInRange ne es nc cs lSize offsets) (t : TMode) (u v : Buf α) :
    apply r var t u v = apply r .plain t u v := by
  obtain ⟨h1, b1, l1⟩ := (Made.offset (α := α) (var := var) h trivial hin).rep
  obtain ⟨h2, b2, l2⟩ := (Made.offset (α := α) (var := .plain) h trivial hin).rep
  refine h1.apply_congr (?_ : Rep r .plain _) rfl rfl t u v
  cases var <;> exact h2

theorem C18_strided {ne es nc : Nat} {lSize : Int} {s : Int × Int × Int} {r : Rstr} (var : Variant)
    (h : createStrided ne es nc lSize s = .ok r) (hin : s = (0, 0, 0) ∨ StridesInRange ne es nc lSize s)
    (t : TMode) (u v : Buf α) : apply r var t u v = apply r .plain t u v := by
  obtain ⟨h1, b1, l1⟩ := (Made.strided (α := α) (var := var) h hin).rep
  obtain ⟨h2, b2, l2⟩ := (Made.strided (α := α) (var := .plain) h hin).rep
  exact h1.apply_congr h2 rfl rfl t u v

/-- Without signs: the restriction whose orientation is replaced by absolute values. -/
theorem C18_unsigned {checked checked' : Bool} {ne es nc : Nat} {cs lSize : Int} {offsets : Buf Int} {o : Orient}
    {r r' : Rstr} (h : create checked ne es nc cs lSize offsets o = .ok r)
    (h' : create checked' ne es nc cs lSize offsets o.abs = .ok r') (hf : o.Fits es .unsigned)
    (hin : OffsetsInRange ne es nc cs lSize offsets) (t : TMode) (u v : Buf α) :
    apply r .unsigned t u v = apply r' .plain t u v := by
  have hf' : o.abs.Fits es .plain := by
    cases o with
    | curl c => rcases hf with hf | hf
                · cases hf
                · exact Or.inr hf
    | _ => trivial
  obtain ⟨h1, b1, l1⟩ := (Made.offset (α := α) (var := .unsigned) h hf (Or.inr hin)).rep
  obtain ⟨h2, b2, l2⟩ := (Made.offset (α := α) (var := .plain) h' hf' (Or.inr hin)).rep
  refine h1.apply_congr (?_ : Rep r' .plain _) (by omega) (by omega) t u v
  have : (offsetData ne es nc cs offsets o .unsigned : RData α) = offsetData ne es nc cs offsets o.abs .plain := by
    unfold offsetData
    congr 1
    funext e n m
    cases o <;> simp [orientCoef, Orient.abs]
  rw [this]; exact h2

/-- Without orientation: the standard restriction with the same offsets. -/
theorem C18_unoriented {checked checked' : Bool} {ne es nc : Nat} {cs lSize : Int} {offsets : Buf Int} {o : Orient}
    {r r' : Rstr} (h : create checked ne es nc cs lSize offsets o = .ok r)
    (h' : create checked' ne es nc cs lSize offsets .none = .ok r')
    (hin : OffsetsInRange ne es nc cs lSize offsets) (t : TMode) (u v : Buf α) :
    apply r .unoriented t u v = apply r' .plain t u v := by
  have hf : o.Fits es .unoriented := by cases o <;> simp [Orient.Fits]
  obtain ⟨h1, b1, l1⟩ := (Made.offset (α := α) (var := .unoriented) h hf (Or.inr hin)).rep
  obtain ⟨h2, b2, l2⟩ := (Made.offset (α := α) (var := .plain) h' trivial (Or.inr hin)).rep
  refine h1.apply_congr (?_ : Rep r' .plain _) (by omega) (by omega) t u v
  have : (offsetData ne es nc cs offsets o .unoriented : RData α) = offsetData ne es nc cs offsets .none .plain := by
    unfold offsetData
    congr 1
    funext e n m
    cases o <;> simp [orientCoef]
  rw [this]; exact h2

/-- The same for blocked restrictions. -/
theorem C18_blocked_unsigned {checked checked' : Bool} {ne es bs nc : Nat} {cs lSize : Int} {offsets : Buf Int}
    {o : Orient} {r r' : Rstr} (h : createBlocked checked ne es bs nc cs lSize offsets o = .ok r)
    (h' : createBlocked checked' ne es bs nc cs lSize offsets o.abs = .ok r') (hl : ne * es ≤ offsets.len)
    (ho : o.Has (ne * es)) (hf : o.Fits es .unsigned)
    (hin : OffsetsInRange ne es nc cs lSize offsets) (t : TMode) (u v : Buf α) :
    apply r .unsigned t u v = apply r' .plain t u v := by
  have hf' : o.abs.Fits es .plain := by
    cases o with
    | curl c => rcases hf with hf | hf
                · cases hf
                · exact Or.inr hf
    | _ => trivial
  have ho' : o.abs.Has (ne * es) := by cases o <;> exact ho
  obtain ⟨h1, b1, l1⟩ := (Made.blocked (α := α) (var := .unsigned) h hl ho hf (Or.inr hin)).rep
  obtain ⟨h2, b2, l2⟩ := (Made.blocked (α := α) (var := .plain) h' hl ho' hf' (Or.inr hin)).rep
  refine h1.apply_congr (?_ : Rep r' .plain _) (by omega) (by omega) t u v
  have : (offsetData ne es nc cs offsets o .unsigned : RData α) = offsetData ne es nc cs offsets o.abs .plain := by
    unfold offsetData
    congr 1
    funext e n m
    cases o <;> simp [orientCoef, Orient.abs]
  rw [this]; exact h2

theorem C18_blocked_unoriented {checked checked' : Bool} {ne es bs nc : Nat} {cs lSize : Int} {offsets : Buf Int}
    {o : Orient} {r r' : Rstr} (h : createBlocked checked ne es bs nc cs lSize offsets o = .ok r)
    (h' : createBlocked checked' ne es bs nc cs lSize offsets .none = .ok r') (hl : ne * es ≤ offsets.len)
    (ho : o.Has (ne * es)) (hin : OffsetsInRange ne es nc cs lSize offsets) (t : TMode) (u v : Buf α) :
    apply r .unoriented t u v = apply r' .plain t u v := by
  have hf : o.Fits es .unoriented := by cases o <;> simp [Orient.Fits]
  obtain ⟨h1, b1, l1⟩ := (Made.blocked (α := α) (var := .unoriented) h hl ho hf (Or.inr hin)).rep
  obtain ⟨h2, b2, l2⟩ := (Made.blocked (α := α) (var := .plain) h' hl trivial trivial (Or.inr hin)).rep
  refine h1.apply_congr (?_ : Rep r' .plain _) (by omega) (by omega) t u v
  have : (offsetData ne es nc cs offsets o .unoriented : RData α) = offsetData ne es nc cs offsets .none .plain := by
    unfold offsetData
    congr 1
    funext e n m
    cases o <;> simp [orientCoef]
  rw [this]; exact h2

/-- The variants do differ on oriented data. -/
example : ∃ r v w, create true 1 1 1 1 1 (Buf.ofList [0]) (.signs (Buf.ofList [true])) = .ok r ∧
    apply r .plain .noTranspose (⟨1, fun _ => 3⟩ : Buf Int) ⟨1, fun _ => 0⟩ = .ok v ∧ v.val 0 = -3 ∧
    apply r .unsigned .noTranspose (⟨1, fun _ => 3⟩ : Buf Int) ⟨1, fun _ => 0⟩ = .ok w ∧ w.val 0 = 3 :=
  ⟨_, _, _, rfl, rfl, rfl, rfl, rfl⟩

end Verif.Restriction
