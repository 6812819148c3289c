import Verif.Restriction.Rep

/-!
# Creation stores the user's data (helper lemmas)
-/

set_option linter.unusedSectionVars false

namespace Verif.Restriction
open Finset

variable {α : Type} [CommRing α]

/-- `CeedPermutePad*`: entry (block, row, lane) of the result is row `k` of the element in that lane, the last element
being repeated in the lanes that have none. -/
theorem permutePad_ok {β : Type} {src : Buf β} {nb ne bs es : Nat} (z : β) (hsrc : ne * es ≤ src.len)
    (hne : nb = 0 ∨ 0 < ne) :
    ∃ d, permutePad src (calloc (nb * bs * es) z) nb ne bs es = .ok d ∧ d.len = nb * bs * es ∧
      ∀ b < nb, ∀ j < bs, ∀ k < es, d.val (j + k * bs + b * bs * es) = src.val (min (b * bs + j) (ne - 1) * es + k) := by
  have key : Sets (fun d => permutePad src d nb ne bs es) (nb * bs * es)
      (fun x => ∃ b < nb, ∃ j < bs, ∃ k < es, x = eIdx 1 es bs b 0 k j)
      (eDec 1 es bs (fun b _ k j => src.val (min (b * bs + j) (ne - 1) * es + k))) := by
    refine Sets.loop (fun b hb => Sets.loop (fun j hj => Sets.loop (fun k hk => ?_)))
    have hlt := eIdx_lt (nc := 1) (k := 0) hb (by omega) hk hj
    refine (Sets.wr (i := eIdx 1 es bs b 0 k j) (by rw [Nat.mul_one] at hlt; rw [Nat.mul_right_comm]; exact hlt)
      (x := src.val (min (b * bs + j) (ne - 1) * es + k)) ?_).of_eq ?_
    · rw [eDec_eIdx _ (by omega) hk hj]
    · intro v hv
      have h1 : (min (((b * bs + j : Nat)) : Int) ((ne : Int) - 1)) = ((min (b * bs + j) (ne - 1) : Nat) : Int) := by omega
      have h2 : min (b * bs + j) (ne - 1) * es + k < ne * es := enc_lt (by omega) hk
      rw [h1]
      rw [show ((min (b * bs + j) (ne - 1) : Nat) : Int) * (es : Int) + (k : Int) =
        ((min (b * bs + j) (ne - 1) * es + k : Nat) : Int) by push_cast; ring]
      rw [Buf.rdI_lt (by omega) (by omega)]
      simp only [Res.bind_ok, Int.toNat_natCast]
      congr 1
      simp only [eIdx]; ring
  obtain ⟨d, e, l, a, _⟩ := key (calloc (nb * bs * es) z) rfl
  refine ⟨d, e, l, fun b hb j hj k hk => ?_⟩
  have := a (eIdx 1 es bs b 0 k j) ⟨b, hb, j, hj, k, hk, rfl⟩
  rw [eDec_eIdx _ (by omega) hk hj] at this
  rw [← this]
  congr 1
  simp only [eIdx]; ring

theorem checkOffsets_ok {ne es nc : Nat} {cs lSize : Int} {offs : Buf Int}
    (h : checkOffsets true (ne : Int) es nc cs lSize offs = .ok ()) :
    ∀ i < ne * es, i < offs.len ∧ 0 ≤ offs.val i ∧ offs.val i + ((nc : Int) - 1) * cs < lSize := by
  simp only [checkOffsets, if_true] at h
  have e : ((ne : Int) * es).toNat = ne * es := by
    rw [show (ne : Int) * es = ((ne * es : Nat) : Int) by push_cast; ring, Int.toNat_natCast]
  rw [e] at h
  generalize ne * es = N at h
  induction N with
  | zero => intro i hi; omega
  | succ N ih =>
    rw [loop_succ, Res.bind_eq_ok] at h
    obtain ⟨_, h1, h2⟩ := h
    intro i hi
    rcases Nat.lt_succ_iff_lt_or_eq.1 hi with h3 | rfl
    · exact ih h1 i h3
    · rw [Res.bind_eq_ok] at h2
      obtain ⟨o, h2, h3⟩ := h2
      rw [Res.check_eq_ok] at h3
      by_cases hl : i < offs.len
      · rw [Buf.rd_lt hl] at h2
        cases h2
        exact ⟨hl, h3⟩
      · rw [Buf.rd_ge hl] at h2; cases h2

/-- Range of one checked offset, for all components. -/
theorem comp_range {nc : Nat} {cs lSize o : Int} (hcs : nc = 1 ∨ 0 < cs)
    (h : 0 ≤ o ∧ o + ((nc : Int) - 1) * cs < lSize) {k : Nat} (hk : k < nc) : 0 ≤ o + k * cs ∧ o + k * cs < lSize := by
  rcases hcs with rfl | hcs
  · have : k = 0 := by omega
    subst this
    simp at h ⊢; exact h
  · have h1 : 0 ≤ (k : Int) * cs := by positivity
    have h2 : (k : Int) * cs ≤ ((nc : Int) - 1) * cs := Int.mul_le_mul_of_nonneg_right (by omega) (by omega)
    omega

theorem natAbs_cast (c : Int) : ((c.natAbs : Int)) = |c| := Int.natCast_natAbs c

theorem orientCoef_tm {o : Orient} {var : Variant} {es bs : Nat} {r : Rstr} {e b j n m : Nat} (hr : r.rtype = o.rtype)
    (_hes : r.elemSize = es)
    (hs : ∀ s, o = .signs s → r.orients.val (j + n * bs + b * bs * r.elemSize) = s.val (e * es + n))
    (hc : ∀ c, o = .curl c → ∀ i < 3 * es, r.curlOrients.val (j + i * bs + b * bs * 3 * r.elemSize) =
      c.val (e * (3 * es) + i)) (hn : n < es) :
    (tm r bs var.flags.1 var.flags.2 b j n m : α) = orientCoef o var es e n m := by
  unfold tm
  rw [hr]
  cases o with
  | none => cases var <;> simp [Orient.rtype, orientCoef, idCoef]
  | signs s =>
    have := hs s rfl
    cases var <;> simp [Orient.rtype, orientCoef, idCoef, Variant.flags]
    rw [this]
    split <;> split <;> simp_all
  | curl c =>
    have := hc c rfl
    cases var <;> simp only [Orient.rtype, orientCoef, idCoef, Variant.flags, tri, triCoef]
    · rw [this (3 * n) (by omega), this (3 * n + 1) (by omega), this (3 * n + 2) (by omega)]; simp
    · rw [this (3 * n) (by omega), this (3 * n + 1) (by omega), this (3 * n + 2) (by omega)]
      simp
    · simp

/-- The arguments a creation function accepted. -/
theorem create_args {checked : Bool} {ne es nc cs lSize : Int} {offsets : Buf Int} {o : Orient} {r : Rstr}
    (h : create checked ne es nc cs lSize offsets o = .ok r) :
    0 ≤ ne ∧ 0 < es ∧ 0 < nc ∧ (nc = 1 ∨ 0 < cs) := by
  simp only [create, Res.bind_eq_ok, Res.check_eq_ok] at h
  obtain ⟨_, h1, _, h2, _, h3, _, h4, _⟩ := h
  exact ⟨h1, h2, h3, h4⟩

theorem copyIn_ok {β : Type} {src d : Buf β} {n : Nat} (h : copyIn src n = .ok d) : n ≤ src.len ∧ d = ⟨n, src.val⟩ := by
  unfold copyIn at h
  split at h
  · next hl => cases h; exact ⟨hl, rfl⟩
  · cases h

theorem prod_toNat {a b : Nat} : ((a : Int) * b).toNat = a * b := by
  rw [← Int.natCast_mul, Int.toNat_natCast]

theorem prod3_toNat {a b c : Nat} : ((a : Int) * b * c).toNat = a * b * c := by
  rw [← Int.natCast_mul, ← Int.natCast_mul, Int.toNat_natCast]

theorem create_fields {checked : Bool} {ne es nc : Nat} {cs lSize : Int} {offsets : Buf Int} {o : Orient} {r : Rstr}
    (h : create checked ne es nc cs lSize offsets o = .ok r) :
    r.rtype = o.rtype ∧ r.numElem = ne ∧ r.elemSize = es ∧ r.numComp = nc ∧ r.compStride = cs ∧ r.lSize = lSize ∧
    r.eSize = ne * es * nc ∧ r.numBlock = ne ∧ r.blockSize = 1 ∧ r.strides = none ∧
    r.offsets = ⟨ne * es, offsets.val⟩ ∧ ne * es ≤ offsets.len ∧
    (∀ s, o = .signs s → r.orients = ⟨ne * es, s.val⟩) ∧ (∀ c, o = .curl c → r.curlOrients = ⟨3 * (ne * es), c.val⟩) ∧
    (checked = true → checkOffsets true (ne : Int) es nc cs lSize offsets = .ok ()) := by
  simp only [create, createRef, Res.bind_eq_ok, Res.check_eq_ok, prod_toNat, prod3_toNat, Int.toNat_natCast] at h
  obtain ⟨_, h1, _, h2, _, h3, _, h4, r', ⟨_, h5, hr'⟩, offs, h6, h7⟩ := h
  cases hr'
  obtain ⟨hl, rfl⟩ := copyIn_ok h6
  have hck : checked = true → checkOffsets true (ne : Int) es nc cs lSize offsets = .ok () := by
    rintro rfl; exact h5
  cases o with
  | none => cases h7; simp [Orient.rtype, hl]; exact hck
  | signs s =>
    simp only [Res.bind_eq_ok] at h7
    obtain ⟨s', h8, h9⟩ := h7
    obtain ⟨_, rfl⟩ := copyIn_ok h8
    cases h9; simp [Orient.rtype, hl]; exact hck
  | curl c =>
    simp only [Res.bind_eq_ok] at h7
    obtain ⟨s', h8, h9⟩ := h7
    obtain ⟨_, rfl⟩ := copyIn_ok h8
    cases h9; simp [Orient.rtype, hl]; exact hck

theorem Orient.rtype_ne (o : Orient) : o.rtype ≠ .points ∧ o.rtype ≠ .strided := by
  cases o <;> simp [Orient.rtype]

theorem li_offset {r : Rstr} {nc bs : Nat} {cs : Int} {b j m k : Nat} (h : r.strides = none) :
    li r nc bs cs b j m k = r.offsets.val (j + m * bs + b * bs * r.elemSize) + k * cs := by
  unfold li; rw [h]; cases r.rtype <;> rfl

theorem create_rep {checked : Bool} {ne es nc : Nat} {cs lSize : Int} {offsets : Buf Int} {o : Orient} {r : Rstr}
    (h : create checked ne es nc cs lSize offsets o = .ok r) (var : Variant) (hf : o.Fits es var)
    (hin : checked = true ∨ OffsetsInRange ne es nc cs lSize offsets) :
    Rep r var (offsetData ne es nc cs offsets o var : RData α) := by
  obtain ⟨_, _, hnc, hcs⟩ := create_args h
  obtain ⟨h1, h2, h3, h4, h5, h6, h7, h8, h9, h10, h11, hl, h12, h13, h14⟩ := create_fields h
  have hin : OffsetsInRange ne es nc cs lSize offsets := by
    rcases hin with hin | hin
    · intro e he m hm k hk
      obtain ⟨_, hx⟩ := checkOffsets_ok (h14 hin) (e * es + m) (enc_lt he hm)
      exact comp_range (by omega) hx hk
    · exact hin
  have hmin : ∀ {b j}, b < ne → j < 1 → min (b * 1 + j) (ne - 1) = b := by intros; omega
  refine ⟨h2, h3, h4, by omega, by rw [h8, h9]; simp [offsetData], by rw [h7, h8, h9]; simp [offsetData]; ring,
    ⟨?_, ?_, ?_, ?_, ?_, ?_⟩, ?_, ?_, ?_⟩
  · rw [h1]; exact o.rtype_ne.1
  · rw [h1]; exact fun x => absurd x o.rtype_ne.2
  · intro; rw [h8, h9, h3, h11]; simp
  · intro hh; rw [h1] at hh
    cases o with
    | signs s => rw [h8, h9, h3, h12 s rfl]; simp
    | _ => simp [Orient.rtype] at hh
  · intro hh; rw [h1] at hh
    cases o with
    | curl s => intro; rw [h8, h9, h3, h13 s rfl]; simp; exact le_of_eq (by ring)
    | _ => simp [Orient.rtype] at hh
  · intro hh hv; rw [h1] at hh
    cases o with
    | curl s =>
      rw [h3]
      rcases hf with rfl | hf
      · simp [Variant.flags] at hv
      · exact hf
    | _ => simp [Orient.rtype] at hh
  · rw [h8, h9, h4, h5]
    intro b hb j hj m hm k hk
    rw [li_offset h10, h11, h3]
    have hj0 : j = 0 := by omega
    subst hj0
    simp only [offsetData] at hm hk ⊢
    rw [hmin hb hj]
    have := hin b hb m hm k hk
    simp only [Nat.mul_one, Nat.zero_add]
    rw [Nat.add_comm m]
    omega
  · intro e he m hm k hk
    have := hin e he m hm k hk
    rw [h6]
    simp only [offsetData]
    omega
  · rw [h8, h9]
    intro b hb j hj n hn m hm
    have hj0 : j = 0 := by omega
    subst hj0
    simp only [offsetData] at hn hm ⊢
    rw [hmin hb hj]
    refine orientCoef_tm h1 h3 ?_ ?_ hn
    · intro s hs; rw [h12 s hs, h3]; simp [Nat.add_comm]
    · intro c hc i hi; rw [h13 c hc, h3]; simp only [Nat.mul_one, Nat.zero_add]; rw [Nat.add_comm]; congr 2; ring

theorem createStrided_rep {ne es nc : Nat} {lSize : Int} {s : Int × Int × Int} {r : Rstr}
    (h : createStrided ne es nc lSize s = .ok r) (var : Variant)
    (hin : s = (0, 0, 0) ∨ StridesInRange ne es nc lSize s) :
    Rep r var (stridedData ne es nc s : RData α) := by
  simp only [createStrided, Res.bind_eq_ok, Res.check_eq_ok, prod3_toNat, Int.toNat_natCast] at h
  obtain ⟨_, h1, _, h2, _, h3, _, h4, h5⟩ := h
  cases h5
  have hmin : ∀ {b j}, b < ne → j < 1 → min (b * 1 + j) (ne - 1) = b := by intros; omega
  have hmin' : ∀ {b}, b < ne → min ((b : Nat) : Int) ((ne : Int) - 1) = b := by intros; omega
  refine ⟨rfl, rfl, rfl, by simp, by simp [stridedData], by simp [stridedData]; ring,
    ⟨by simp, by simp, by simp, by simp, by simp, by simp⟩, ?_, ?_, ?_⟩
  · intro b hb j hj m hm k hk
    simp only [stridedData] at hj hm hk ⊢
    have hj0 : j = 0 := by omega
    subst hj0
    rw [hmin hb (by omega)]
    simp only [li, Nat.mul_one, Nat.add_zero]
    rw [hmin' hb]
    split
    · simp only [backendIdx]; push_cast; ring
    · next hs =>
      have := (hin.resolve_left hs) b hb m hm k hk
      simp only [userIdx]
      omega
  · intro e he m hm k hk
    simp only [stridedData] at he hm hk ⊢
    split
    · next hs =>
      have : e * es * nc + k * es + m < ne * es * nc := by
        have := eIdx_lt (nc := nc) (es := es) (bs := 1) (j := 0) he hk hm (by omega)
        simp only [eIdx] at this
        calc e * es * nc + k * es + m = ((e * nc + k) * es + m) * 1 + 0 := by ring
          _ < _ := this
          _ = _ := by ring
      have h4' : ((ne * es * nc : Nat) : Int) ≤ lSize := by push_cast; exact h4
      have h5' : ((m + k * es + e * es * nc : Nat) : Int) < ((ne * es * nc : Nat) : Int) := by
        rw [Int.ofNat_lt]; omega
      exact lt_of_lt_of_le h5' h4'
    · next hs =>
      have := (hin.resolve_left hs) e he m hm k hk
      omega
  · intro b hb j hj n hn m hm
    simp [tm, stridedData, idCoef]

theorem numBlocks_nat {ne bs : Nat} (h : 0 < bs) : numBlocks ne bs = .ok (((ne + bs - 1) / bs : Nat) : Int) := by
  unfold numBlocks
  rw [if_neg (by omega)]
  congr 1
  rw [← Int.ofNat_tdiv, ← Int.ofNat_tmod]
  have h1 := Nat.div_add_mod ne bs
  have h2 := Nat.mod_lt ne h
  have key : (ne + bs - 1) / bs = ne / bs + (if ne % bs ≠ 0 then 1 else 0) := by
    split
    · rw [Nat.div_eq_of_lt_le]
      · rw [Nat.add_mul, Nat.mul_comm]; omega
      · rw [Nat.add_mul, Nat.add_mul, Nat.mul_comm]; omega
    · rw [Nat.div_eq_of_lt_le]
      · rw [Nat.add_zero, Nat.mul_comm]; omega
      · rw [Nat.add_zero, Nat.add_mul, Nat.mul_comm]; omega
  rw [key]
  push_cast
  congr 1
  split <;> split <;> first | rfl | omega

theorem createBlocked_fields {checked : Bool} {ne es bs nc : Nat} {cs lSize : Int} {offsets : Buf Int} {o : Orient}
    {r : Rstr} (h : createBlocked checked ne es bs nc cs lSize offsets o = .ok r) (hl : ne * es ≤ offsets.len)
    (ho : o.Has (ne * es)) :
    0 < es ∧ 0 < bs ∧ 0 < nc ∧ (nc = 1 ∨ 0 < cs) ∧
    r.rtype = o.rtype ∧ r.numElem = ne ∧ r.elemSize = es ∧ r.numComp = nc ∧ r.compStride = cs ∧ r.lSize = lSize ∧
    r.eSize = r.numBlock * bs * es * nc ∧ r.numBlock = (ne + bs - 1) / bs ∧ r.blockSize = bs ∧ r.strides = none ∧
    (r.offsets.len = r.numBlock * bs * es ∧ ∀ b < r.numBlock, ∀ j < bs, ∀ k < es,
      r.offsets.val (j + k * bs + b * bs * es) = offsets.val (min (b * bs + j) (ne - 1) * es + k)) ∧
    (∀ s, o = .signs s → r.orients.len = r.numBlock * bs * es ∧ ∀ b < r.numBlock, ∀ j < bs, ∀ k < es,
      r.orients.val (j + k * bs + b * bs * es) = s.val (min (b * bs + j) (ne - 1) * es + k)) ∧
    (∀ c, o = .curl c → r.curlOrients.len = r.numBlock * bs * (3 * es) ∧ ∀ b < r.numBlock, ∀ j < bs, ∀ k < 3 * es,
      r.curlOrients.val (j + k * bs + b * bs * (3 * es)) = c.val (min (b * bs + j) (ne - 1) * (3 * es) + k)) ∧
    (checked = true → checkOffsets true (ne : Int) es nc cs lSize r.offsets = .ok ()) := by
  by_cases hb0 : bs = 0
  · subst hb0; simp [createBlocked, numBlocks] at h
  have hb : 0 < bs := by omega
  simp only [createBlocked] at h
  rw [numBlocks_nat hb] at h
  have hpos : (ne + bs - 1) / bs = 0 ∨ 0 < ne := by
    rcases Nat.eq_zero_or_pos ne with h0 | h0
    · left; subst h0; rw [Nat.div_eq_of_lt]; omega
    · exact Or.inr h0
  generalize hN : (ne + bs - 1) / bs = N at h hpos
  have h3n : 3 * (N * bs * es) = N * bs * (3 * es) := by ring
  simp only [Res.bind_ok, prod3_toNat, Int.toNat_natCast, createRef] at h
  obtain ⟨d1, e1, l1, v1⟩ := permutePad_ok (bs := bs) (nb := N) (0 : Int) hl hpos
  have e4 : (((N : Int) * bs * es * nc).toNat) = N * bs * es * nc := by
    rw [← Int.natCast_mul, ← Int.natCast_mul, ← Int.natCast_mul, Int.toNat_natCast]
  rw [e1, e4] at h
  cases o with
  | none =>
    simp only [Res.bind_eq_ok, Res.check_eq_ok, Res.bind_ok] at h
    obtain ⟨_, _, _, h2, _, h3, _, h4, _, h5, _, h6, _, h7, h8⟩ := h
    cases h8
    refine ⟨by omega, hb, by omega, by omega, rfl, rfl, rfl, rfl, rfl, rfl, rfl, rfl, rfl, rfl, ⟨l1, v1⟩, ?_, ?_, ?_⟩
    · rintro s ⟨⟩
    · rintro s ⟨⟩
    · rintro rfl; exact h7
  | signs s =>
    obtain ⟨d2, e2, l2, v2⟩ := permutePad_ok (bs := bs) (nb := N) (z := false) ho hpos
    simp only [e2, Res.bind_eq_ok, Res.check_eq_ok, Res.bind_ok] at h
    obtain ⟨_, h2, _, h3, _, h4, _, h5, _, h6, _, h7, h8⟩ := h
    cases h8
    refine ⟨by omega, hb, by omega, by omega, rfl, rfl, rfl, rfl, rfl, rfl, rfl, rfl, rfl, rfl, ⟨l1, v1⟩, ?_, ?_, ?_⟩
    · rintro s ⟨⟩; exact ⟨l2, v2⟩
    · rintro s ⟨⟩
    · rintro rfl; exact h7
  | curl c =>
    have ho' : ne * (3 * es) ≤ c.len := by
      have : 3 * (ne * es) ≤ c.len := ho
      calc ne * (3 * es) = 3 * (ne * es) := by ring
        _ ≤ _ := this
    obtain ⟨d2, e2, l2, v2⟩ := permutePad_ok (bs := bs) (nb := N) (z := (0 : Int)) ho' hpos
    simp only [h3n, e2, Res.bind_eq_ok, Res.check_eq_ok, Res.bind_ok] at h
    obtain ⟨_, _, _, h2, _, h3, _, h4, _, h5, _, h6, _, h7, h8⟩ := h
    cases h8
    refine ⟨by omega, hb, by omega, by omega, rfl, rfl, rfl, rfl, rfl, rfl, rfl, rfl, rfl, rfl, ⟨l1, v1⟩, ?_, ?_, ?_⟩
    · rintro s ⟨⟩
    · rintro s ⟨⟩; exact ⟨l2, v2⟩
    · rintro rfl; exact h7

theorem blocked_min {ne bs b : Nat} (hbs : 0 < bs) (hb : b < (ne + bs - 1) / bs) (j : Nat) :
    min (b * bs + j) (ne - 1) < ne := by
  have := nb_lt hbs hb; omega

/-- The check made at creation covers the first `num_elem * elem_size` entries of the permuted array, which are all the
real ones when the block size divides the number of elements. -/
theorem blocked_checked {ne es bs nc : Nat} {cs lSize : Int} {offsets : Buf Int} {o : Orient}
    {r : Rstr} (h : createBlocked true ne es bs nc cs lSize offsets o = .ok r) (hl : ne * es ≤ offsets.len)
    (ho : o.Has (ne * es)) (hdvd : bs ∣ ne) : OffsetsInRange ne es nc cs lSize offsets := by
  obtain ⟨_, hbs, hnc, hcs, h1, h2, h3, h4, h5, h6, h7, h8, h9, h10, ⟨h11, h12⟩, h13, h14, h15⟩ := createBlocked_fields h hl ho
  intro e he m hm k hk
  have hb : e / bs < r.numBlock := by rw [h8]; exact div_lt_nb hbs he
  have hj := Nat.mod_lt e hbs
  have hv := h12 (e / bs) hb (e % bs) hj m hm
  rw [dec_eq, show min e (ne - 1) = e by omega] at hv
  obtain ⟨q, rfl⟩ := hdvd
  have hnb : r.numBlock = q := by
    rw [h8, Nat.div_eq_of_lt_le]
    · rw [Nat.mul_comm]; omega
    · rw [Nat.add_mul, Nat.mul_comm]; omega
  have hlt : e % bs + m * bs + e / bs * bs * es < bs * q * es := by
    have := eIdx_lt (nc := 1) (k := 0) hb (by omega) hm hj
    rw [hnb] at this
    simp only [eIdx] at this
    calc _ = ((e / bs * 1 + 0) * es + m) * bs + e % bs := by ring
      _ < _ := this
      _ = _ := by ring
  obtain ⟨_, hx⟩ := checkOffsets_ok (h15 rfl) _ hlt
  rw [hv] at hx
  exact comp_range hcs hx hk

theorem createBlocked_rep {checked : Bool} {ne es bs nc : Nat} {cs lSize : Int} {offsets : Buf Int} {o : Orient}
    {r : Rstr} (h : createBlocked checked ne es bs nc cs lSize offsets o = .ok r) (hl : ne * es ≤ offsets.len)
    (ho : o.Has (ne * es)) (var : Variant) (hf : o.Fits es var) (hin : OffsetsInRange ne es nc cs lSize offsets) :
    Rep r var (offsetData ne es nc cs offsets o var : RData α) := by
  obtain ⟨_, hbs, hnc, hcs, h1, h2, h3, h4, h5, h6, h7, h8, h9, h10, ⟨h11, h12⟩, h13, h14, h15⟩ := createBlocked_fields h hl ho
  refine ⟨h2, h3, h4, by omega, by rw [h8, h9]; rfl, by rw [h7, h9]; simp [offsetData]; ring,
    ⟨?_, ?_, ?_, ?_, ?_, ?_⟩, ?_, ?_, ?_⟩
  · rw [h1]; exact o.rtype_ne.1
  · rw [h1]; exact fun x => absurd x o.rtype_ne.2
  · intro; rw [h9, h3, h11]
  · intro hh; rw [h1] at hh
    cases o with
    | signs s => rw [h9, h3, (h13 s rfl).1]
    | _ => simp [Orient.rtype] at hh
  · intro hh; rw [h1] at hh
    cases o with
    | curl s => intro; rw [h9, h3, (h14 s rfl).1]
    | _ => simp [Orient.rtype] at hh
  · intro hh hv; rw [h1] at hh
    cases o with
    | curl s =>
      rw [h3]
      rcases hf with rfl | hf
      · simp [Variant.flags] at hv
      · exact hf
    | _ => simp [Orient.rtype] at hh
  · rw [h9, h4, h5]
    intro b hb j hj m hm k hk
    rw [li_offset h10, h3, h12 b hb j hj m hm]
    simp only [offsetData] at hm hk ⊢
    have := hin _ (blocked_min hbs (h8 ▸ hb) j) m hm k hk
    omega
  · intro e he m hm k hk
    have := hin e he m hm k hk
    rw [h6]
    simp only [offsetData]
    omega
  · rw [h9]
    intro b hb j hj n hn m hm
    simp only [offsetData] at hn hm ⊢
    refine orientCoef_tm h1 h3 ?_ ?_ hn
    · intro s hs; rw [h3, (h13 s hs).2 b hb j hj n hn]
    · intro c hc i hi
      rw [h3, ← (h14 c hc).2 b hb j hj i hi]
      congr 1; ring

theorem createBlockedStrided_rep {ne es bs nc : Nat} {lSize : Int} {s : Int × Int × Int} {r : Rstr}
    (h : createBlockedStrided ne es bs nc lSize s = .ok r) (var : Variant)
    (hin : s = (0, 0, 0) ∨ StridesInRange ne es nc lSize s) :
    Rep r var (stridedData ne es nc s : RData α) ∧ r.blockSize = bs := by
  by_cases hb0 : bs = 0
  · subst hb0; simp [createBlockedStrided, numBlocks] at h
  have hbs : 0 < bs := by omega
  simp only [createBlockedStrided] at h
  rw [numBlocks_nat hbs] at h
  simp only [Res.bind_ok] at h
  simp only [Res.bind_eq_ok, Res.check_eq_ok, Int.toNat_natCast] at h
  obtain ⟨_, h1, _, h2, _, _, _, h3, _, h4, h5⟩ := h
  cases h5
  refine ⟨?_, rfl⟩
  have hmin : ∀ {b : Nat} (j : Nat), b < (ne + bs - 1) / bs →
      min (((b * bs + j : Nat)) : Int) ((ne : Int) - 1) = ((min (b * bs + j) (ne - 1) : Nat) : Int) := by
    intro b j hb
    have := nb_lt hbs hb
    omega
  refine ⟨rfl, rfl, rfl, hbs, by simp [stridedData], ?_,
    ⟨by simp, by simp, by simp, by simp, by simp, by simp⟩, ?_, ?_, ?_⟩
  · simp only [stridedData]
    rw [← Int.natCast_mul, ← Int.natCast_mul, ← Int.natCast_mul, Int.toNat_natCast]; ring
  · intro b hb j hj m hm k hk
    simp only [stridedData] at hj hm hk ⊢
    simp only [li]
    rw [hmin j hb]
    split
    · simp only [backendIdx]; push_cast; ring
    · next hs =>
      have := (hin.resolve_left hs) _ (blocked_min hbs hb j) m hm k hk
      simp only [userIdx]
      omega
  · intro e he m hm k hk
    simp only [stridedData] at he hm hk ⊢
    split
    · next hs =>
      have : e * es * nc + k * es + m < ne * es * nc := by
        have := eIdx_lt (nc := nc) (es := es) (bs := 1) (j := 0) he hk hm (by omega)
        simp only [eIdx] at this
        calc e * es * nc + k * es + m = ((e * nc + k) * es + m) * 1 + 0 := by ring
          _ < _ := this
          _ = _ := by ring
      have h4' : ((ne * es * nc : Nat) : Int) ≤ lSize := by push_cast; exact h4
      have h5' : ((m + k * es + e * es * nc : Nat) : Int) < ((ne * es * nc : Nat) : Int) := by
        rw [Int.ofNat_lt]; omega
      exact lt_of_lt_of_le h5' h4'
    · next hs =>
      have := (hin.resolve_left hs) e he m hm k hk
      omega
  · intro b hb j hj n hn m hm
    simp [tm, stridedData, idCoef]

theorem createBlocked_bs {checked : Bool} {ne es bs nc : Nat} {cs lSize : Int} {offsets : Buf Int} {o : Orient}
    {r : Rstr} (h : createBlocked checked ne es bs nc cs lSize offsets o = .ok r) (hl : ne * es ≤ offsets.len)
    (ho : o.Has (ne * es)) : r.blockSize = bs ∧ r.lSize = lSize := by
  obtain ⟨_, _, _, _, _, _, _, _, _, h6, _, _, h9, _⟩ := createBlocked_fields h hl ho
  exact ⟨h9, h6⟩

theorem Made.rep {var : Variant} {r : Rstr} {bs : Nat} {lSize : Int} {D : RData α} (h : Made var r bs lSize D) :
    Rep r var D ∧ r.blockSize = bs ∧ r.lSize = lSize := by
  cases h with
  | offset h hf hin =>
    obtain ⟨_, _, _, _, _, h6, _, _, h9, _⟩ := create_fields h
    exact ⟨create_rep h var hf hin, h9, h6⟩
  | strided h hin =>
    have := createStrided_rep (α := α) h var hin
    simp only [createStrided, Res.bind_eq_ok, Res.check_eq_ok] at h
    obtain ⟨_, h1, _, h2, _, h3, _, h4, h5⟩ := h
    cases h5
    exact ⟨this, rfl, rfl⟩
  | blocked h hl ho hf hin =>
    rcases hin with ⟨rfl, hd⟩ | hin
    · exact ⟨createBlocked_rep h hl ho var hf (blocked_checked h hl ho hd), createBlocked_bs h hl ho⟩
    · exact ⟨createBlocked_rep h hl ho var hf hin, createBlocked_bs h hl ho⟩
  | blockedStrided h hin =>
    have := createBlockedStrided_rep (α := α) h var hin
    refine ⟨this.1, this.2, ?_⟩
    simp only [createBlockedStrided, Res.bind_eq_ok, Res.check_eq_ok] at h
    obtain ⟨_, _, _, h1, _, h2, _, _, _, h3, _, h4, h5⟩ := h
    cases h5; rfl

end Verif.Restriction
