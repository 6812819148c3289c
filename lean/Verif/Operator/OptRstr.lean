import Verif.Operator.BlockIn

/-!
# Copies of restrictions with blocks (helper lemmas)
-/

set_option linter.unusedSectionVars false

namespace Verif
namespace Restriction

open Finset

variable {α : Type} [CommRing α]

/-- A restriction represents all data that agree on the elements, nodes and components that exist. -/
theorem Rep.congr {r : Rstr} {var : Variant} {D D' : RData α} (h : Rep r var D) (h1 : D'.ne = D.ne) (h2 : D'.es = D.es)
    (h3 : D'.nc = D.nc) (h4 : ∀ e < D.ne, ∀ m < D.es, ∀ k < D.nc, D'.lidx e m k = D.lidx e m k)
    (h5 : ∀ e < D.ne, ∀ n < D.es, ∀ m < D.es, D'.coef e n m = D.coef e n m) : Rep r var D' := by
  have hlt : ∀ b < r.numBlock, ∀ j : Nat, min (b * r.blockSize + j) (D.ne - 1) < D.ne := by
    intro b hb j
    have := nb_lt h.bs (h.nb ▸ hb)
    omega
  refine ⟨by rw [h1]; exact h.ne, by rw [h2]; exact h.es, by rw [h3]; exact h.nc, h.bs, by rw [h1]; exact h.nb,
    by rw [h2, h3]; exact h.esz, h.cov, ?_, ?_, ?_⟩
  · intro b hb j hj m hm k hk
    rw [h1, h4 _ (hlt b hb j) m (by omega) k (by omega)]
    exact h.li b hb j hj m (by omega) k (by omega)
  · intro e he m hm k hk
    rw [h4 e (by omega) m (by omega) k (by omega)]
    exact h.rng e (by omega) m (by omega) k (by omega)
  · intro b hb j hj n hn m hm
    rw [h1, h5 _ (hlt b hb j) n (by omega) m (by omega)]
    exact h.tm b hb j hj n (by omega) m (by omega)

theorem checkOffsets_fwd {checked : Bool} {ne es nc : Nat} {cs lSize : Int} {offs : Buf Int} (hl : ne * es ≤ offs.len)
    (h : ∀ i < ne * es, 0 ≤ offs.val i ∧ offs.val i + ((nc : Int) - 1) * cs < lSize) :
    checkOffsets checked (ne : Int) es nc cs lSize offs = .ok () := by
  unfold checkOffsets
  split
  · rw [prod_toNat]
    obtain ⟨_, e, _⟩ := loop_inv (n := ne * es) (s := ()) (body := fun i _ => do
      let o ← offs.rd i
      Res.check (0 ≤ o ∧ o + ((nc : Int) - 1) * cs < lSize) .backend) (fun _ _ => True) trivial
      (by
        intro i hi _ _
        refine ⟨(), ?_, trivial⟩
        show (offs.rd i >>= fun o => _) = _
        rw [Buf.rd_lt (by omega)]
        exact Res.check_true (h i hi) _)
    exact e
  · rfl

/-- The creation functions with blocks accept data that the documentation asks for. -/
theorem createBlocked_ok {ne es bs nc : Nat} {cs lSize : Int} {offsets : Buf Int} {o : Orient} (checked : Bool)
    (hes : 0 < es) (hb : 0 < bs) (hnc : 0 < nc) (hcs : nc = 1 ∨ 0 < cs) (hl : ne * es ≤ offsets.len)
    (ho : o.Has (ne * es)) (hin : OffsetsInRange ne es nc cs lSize offsets) :
    ∃ r, createBlocked checked ne es bs nc cs lSize offsets o = .ok r := by
  simp only [createBlocked]
  rw [numBlocks_nat hb]
  have hpos : (ne + bs - 1) / bs = 0 ∨ 0 < ne := by
    rcases Nat.eq_zero_or_pos ne with h0 | h0
    · left; subst h0; rw [Nat.div_eq_of_lt]; omega
    · exact Or.inr h0
  have hNb := nb_bounds (ne := ne) hb
  have hmin : ∀ b < (ne + bs - 1) / bs, ∀ j, min (b * bs + j) (ne - 1) < ne := fun b h j => blocked_min hb h j
  generalize hN : (ne + bs - 1) / bs = N at hpos hNb hmin
  have h3n : 3 * (N * bs * es) = N * bs * (3 * es) := by ring
  simp only [Res.bind_ok, prod3_toNat, Int.toNat_natCast, createRef]
  obtain ⟨d1, e1, l1, v1⟩ := permutePad_ok (bs := bs) (nb := N) (0 : Int) hl hpos
  have hle : ne * es ≤ d1.len := by rw [l1]; exact Nat.mul_le_mul_right _ hNb.1
  have hchk : checkOffsets checked (ne : Int) es nc cs lSize d1 = .ok () := by
    refine checkOffsets_fwd hle ?_
    intro i hi
    have hi' : i < N * (es * bs) := by
      calc i < ne * es := hi
        _ ≤ N * bs * es := by rw [← l1]; exact hle
        _ = _ := by ring
    have hEB : 0 < es * bs := Nat.mul_pos hes hb
    have hbN : i / (es * bs) < N := Nat.div_lt_of_lt_mul (by rw [Nat.mul_comm]; exact hi')
    have hk : i % (es * bs) / bs < es := Nat.div_lt_of_lt_mul (by rw [Nat.mul_comm bs]; exact Nat.mod_lt _ hEB)
    have hj : i % (es * bs) % bs < bs := Nat.mod_lt _ hb
    have hv := v1 _ hbN _ hj _ hk
    have hidx : i % (es * bs) % bs + i % (es * bs) / bs * bs + i / (es * bs) * bs * es = i := by
      have h1 := Nat.div_add_mod i (es * bs)
      have h2 := Nat.div_add_mod (i % (es * bs)) bs
      have h3 : i / (es * bs) * bs * es = es * bs * (i / (es * bs)) := by ring
      have h4 : i % (es * bs) / bs * bs = bs * (i % (es * bs) / bs) := by ring
      rw [h3, h4]
      clear hi' hv h3 h4
      generalize i % (es * bs) = x at *
      generalize es * bs * (i / (es * bs)) = y at *
      generalize bs * (x / bs) = z at *
      omega
    rw [hidx] at hv
    rw [hv]
    have hlt := hmin _ hbN (i % (es * bs) % bs)
    have r0 := hin _ hlt _ hk 0 hnc
    have r1 := hin _ hlt _ hk (nc - 1) (by omega)
    refine ⟨by simpa using r0.1, ?_⟩
    have hc : ((nc - 1 : Nat) : Int) = (nc : Int) - 1 := by omega
    rw [hc] at r1
    exact r1.2
  have c1 : Res.check ((0 : Int) ≤ ne) .dimension = .ok () := Res.check_true (by omega) _
  have c2 : Res.check ((0 : Int) < es) .dimension = .ok () := Res.check_true (by omega) _
  have c3 : Res.check ((0 : Int) < bs) .dimension = .ok () := Res.check_true (by omega) _
  have c4 : Res.check ((0 : Int) < nc) .dimension = .ok () := Res.check_true (by omega) _
  have c5 : Res.check ((nc : Int) = 1 ∨ 0 < cs) .dimension = .ok () := Res.check_true (by omega) _
  have c6 : Res.check ((0 : Int) ≤ (N : Int)) .major = .ok () := Res.check_true (by omega) _
  cases o with
  | none =>
    simp only [c1, c2, c3, c4, c5, c6, e1, hchk, Res.bind_ok]
    exact ⟨_, rfl⟩
  | signs s =>
    obtain ⟨d2, e2, l2, v2⟩ := permutePad_ok (bs := bs) (nb := N) (z := false) ho hpos
    simp only [c2, c3, c4, c5, c6, e1, e2, hchk, Res.bind_ok]
    exact ⟨_, rfl⟩
  | curl c =>
    have ho' : ne * (3 * es) ≤ c.len := by
      have : 3 * (ne * es) ≤ c.len := ho
      calc ne * (3 * es) = 3 * (ne * es) := by ring
        _ ≤ _ := this
    obtain ⟨d2, e2, l2, v2⟩ := permutePad_ok (bs := bs) (nb := N) (z := (0 : Int)) ho' hpos
    simp only [c1, c2, c3, c4, c5, c6, e1, h3n, e2, hchk, Res.bind_ok]
    exact ⟨_, rfl⟩

end Restriction

namespace Operator

open Finset
open Restriction

variable {α : Type} [CommRing α]

/-- `r` has the data of an offset based restriction with `D`. -/
theorem blockRstr_offset {chk : Bool} {ne es nc bs : Nat} {cs lSize : Int} {o o' : Orient} {r : Rstr}
    {offsets : Buf Int} (hb : 0 < bs)
    (h1 : r.rtype = o'.rtype) (h2 : r.numElem = ne) (h3 : r.elemSize = es) (h4 : r.numComp = nc)
    (h5 : r.compStride = cs) (h6 : r.lSize = lSize) (hes : 0 < es) (hnc : 0 < nc) (hcs : nc = 1 ∨ 0 < cs)
    (hl : ne * es ≤ r.offsets.len) (ho : o'.Has (ne * es)) (hf : o'.Fits es .plain)
    (hs : ∀ s, o' = .signs s → r.orients = s) (hc : ∀ c, o' = .curl c → r.curlOrients = c)
    (hoff : ∀ e < ne, ∀ m < es, r.offsets.val (e * es + m) = offsets.val (e * es + m))
    (hco : ∀ e < ne, ∀ n < es, ∀ m < es, (orientCoef o .plain es e n m : α) = orientCoef o' .plain es e n m)
    (hin : OffsetsInRange ne es nc cs lSize offsets) :
    ∃ r', blockRstr chk bs r = .ok r' ∧ Rep r' .plain (offsetData ne es nc cs offsets o .plain : RData α) ∧
      r'.blockSize = bs ∧ r'.lSize = r.lSize := by
  have hin' : OffsetsInRange ne es nc cs lSize r.offsets := by
    intro e he m hm k hk
    rw [hoff e he m hm]; exact hin e he m hm k hk
  obtain ⟨r', e⟩ := createBlocked_ok chk hes hb hnc hcs hl ho hin'
  have hrun : blockRstr chk bs r = .ok r' := by
    unfold blockRstr
    rw [h1]
    cases o' with
    | none => simp only [Orient.rtype]; rw [h2, h3, h4, h5, h6]; exact e
    | signs s => simp only [Orient.rtype]; rw [h2, h3, h4, h5, h6, hs s rfl]; exact e
    | curl c => simp only [Orient.rtype]; rw [h2, h3, h4, h5, h6, hc c rfl]; exact e
  have hrep := createBlocked_rep (α := α) e hl ho .plain hf hin'
  obtain ⟨_, _, _, _, _, _, _, _, _, g6, _, _, g9, _⟩ := createBlocked_fields e hl ho
  refine ⟨r', hrun, hrep.congr rfl rfl rfl ?_ ?_, g9, by rw [g6, h6]⟩
  · intro e he m hm k hk
    show (offsets.val (e * es + m) + k * cs).toNat = (r.offsets.val (e * es + m) + k * cs).toNat
    rw [hoff e he m hm]
  · exact hco

theorem orientCoef_signs {s s' : Buf Bool} {ne es : Nat} (h : ∀ e < ne, ∀ n < es, s'.val (e * es + n) = s.val (e * es + n))
    {e n m : Nat} (he : e < ne) (hn : n < es) :
    (orientCoef (.signs s) .plain es e n m : α) = orientCoef (.signs s') .plain es e n m := by
  unfold orientCoef
  simp only [h e he n hn]

theorem orientCoef_curl {c c' : Buf Int} {ne es : Nat}
    (h : ∀ e < ne, ∀ i < 3 * es, c'.val (e * (3 * es) + i) = c.val (e * (3 * es) + i))
    {e n m : Nat} (he : e < ne) (hn : n < es) :
    (orientCoef (.curl c) .plain es e n m : α) = orientCoef (.curl c') .plain es e n m := by
  unfold orientCoef triCoef
  simp only []
  rw [h e he (3 * n) (by omega), h e he (3 * n + 1) (by omega), h e he (3 * n + 2) (by omega)]

/-- The copy with blocks of a restriction acts as the restriction does. -/
theorem blockRstr_ok (chk : Bool) {bs : Nat} (hb : 0 < bs) {r : Rstr} {l : Int} {D : RData α} (h : Made .plain r 1 l D) :
    ∃ r', blockRstr chk bs r = .ok r' ∧ Rep r' .plain D ∧ r'.blockSize = bs ∧ r'.lSize = r.lSize := by
  generalize h1 : 1 = one at h
  cases h with
  | offset h hf hin =>
    rename_i checked ne es nc cs offsets o
    obtain ⟨_, a2, a3, a4⟩ := create_args h
    obtain ⟨g1, g2, g3, g4, g5, g6, g7, g8, g9, g10, g11, g12, g13, g14, g15⟩ := create_fields h
    have hin' : OffsetsInRange ne es nc cs l offsets := by
      rcases hin with hin | hin
      · subst hin
        intro e he m hm k hk
        have hlt : e * es + m < ne * es := by
          have : (e + 1) * es ≤ ne * es := Nat.mul_le_mul_right _ he
          rw [Nat.add_mul] at this; omega
        exact comp_range (by omega) (checkOffsets_ok (g15 rfl) _ hlt).2 hk
      · exact hin
    have key : ∀ o' : Orient, o'.rtype = o.rtype → o'.Has (ne * es) → o'.Fits es .plain →
        (∀ s, o' = .signs s → r.orients = s) → (∀ c, o' = .curl c → r.curlOrients = c) →
        (∀ e < ne, ∀ n < es, ∀ m < es, (orientCoef o .plain es e n m : α) = orientCoef o' .plain es e n m) →
        ∃ r', blockRstr chk bs r = .ok r' ∧ Rep r' .plain (offsetData ne es nc cs offsets o .plain : RData α) ∧
          r'.blockSize = bs ∧ r'.lSize = r.lSize := by
      intro o' k1 k2 k3 k4 k5 k6
      exact blockRstr_offset hb (by rw [g1, k1]) g2 g3 g4 g5 g6 (by omega) (by omega) (by omega) (by rw [g11]) k2 k3 k4 k5
        (fun e _ m _ => by rw [g11]) k6 hin'
    cases o with
    | none => exact key .none rfl trivial trivial (fun s hh => by cases hh) (fun s hh => by cases hh) (fun _ _ _ _ _ _ => rfl)
    | signs s =>
      refine key (.signs r.orients) rfl ?_ trivial (fun s hh => by cases hh; rfl) (fun s hh => by cases hh) ?_
      · show ne * es ≤ r.orients.len
        rw [g13 s rfl]
      · intro e he n hn m hm
        refine orientCoef_signs (ne := ne) ?_ he hn
        intro e _ n _
        rw [g13 s rfl]
    | curl c =>
      refine key (.curl r.curlOrients) rfl ?_ hf (fun s hh => by cases hh) (fun s hh => by cases hh; rfl) ?_
      · show 3 * (ne * es) ≤ r.curlOrients.len
        rw [g14 c rfl]
      · intro e he n hn m hm
        refine orientCoef_curl (ne := ne) ?_ he hn
        intro e _ n _
        rw [g14 c rfl]
  | blocked h hl ho hf hin =>
    rename_i checked ne es nc cs offsets o
    subst h1
    obtain ⟨a1, a2, a3, a4, g1, g2, g3, g4, g5, g6, g7, g8, g9, g10, ⟨g11, g12⟩, g13, g14, g15⟩ := createBlocked_fields h hl ho
    have hin' : OffsetsInRange ne es nc cs l offsets := by
      rcases hin with ⟨hc, hd⟩ | hin
      · subst hc; exact blocked_checked h hl ho hd
      · exact hin
    have hnb : r.numBlock = ne := by rw [g8]; simp
    have hoff : ∀ e < ne, ∀ m < es, r.offsets.val (e * es + m) = offsets.val (e * es + m) := by
      intro e he m hm
      have := g12 e (by omega) 0 (by omega) m hm
      rw [show min (e * 1 + 0) (ne - 1) = e by omega] at this
      rw [← this]; congr 1; ring
    have key : ∀ o' : Orient, o'.rtype = o.rtype → o'.Has (ne * es) → o'.Fits es .plain →
        (∀ s, o' = .signs s → r.orients = s) → (∀ c, o' = .curl c → r.curlOrients = c) →
        (∀ e < ne, ∀ n < es, ∀ m < es, (orientCoef o .plain es e n m : α) = orientCoef o' .plain es e n m) →
        ∃ r', blockRstr chk bs r = .ok r' ∧ Rep r' .plain (offsetData ne es nc cs offsets o .plain : RData α) ∧
          r'.blockSize = bs ∧ r'.lSize = r.lSize := by
      intro o' k1 k2 k3 k4 k5 k6
      exact blockRstr_offset hb (by rw [g1, k1]) g2 g3 g4 g5 g6 a1 a3 a4 (by rw [g11, hnb, Nat.mul_one]) k2 k3 k4 k5 hoff k6 hin'
    cases o with
    | none => exact key .none rfl trivial trivial (fun s hh => by cases hh) (fun s hh => by cases hh) (fun _ _ _ _ _ _ => rfl)
    | signs s =>
      refine key (.signs r.orients) rfl ?_ trivial (fun s hh => by cases hh; rfl) (fun s hh => by cases hh) ?_
      · show ne * es ≤ r.orients.len
        rw [(g13 s rfl).1, hnb, Nat.mul_one]
      · intro e he n hn m hm
        refine orientCoef_signs (ne := ne) ?_ he hn
        intro e he n hn
        have := (g13 s rfl).2 e (by omega) 0 (by omega) n hn
        rw [show min (e * 1 + 0) (ne - 1) = e by omega] at this
        rw [← this]; congr 1; ring
    | curl c =>
      refine key (.curl r.curlOrients) rfl ?_ hf (fun s hh => by cases hh) (fun s hh => by cases hh; rfl) ?_
      · show 3 * (ne * es) ≤ r.curlOrients.len
        rw [(g14 c rfl).1, hnb]
        exact le_of_eq (by ring)
      · intro e he n hn m hm
        refine orientCoef_curl (ne := ne) ?_ he hn
        intro e he n hn
        have := (g14 c rfl).2 e (by omega) 0 (by omega) n hn
        rw [show min (e * 1 + 0) (ne - 1) = e by omega] at this
        rw [← this]; congr 1; ring
  | strided h hin =>
    rename_i ne es nc s
    simp only [createStrided, Res.bind_eq_ok, Res.check_eq_ok, prod3_toNat, Int.toNat_natCast] at h
    obtain ⟨_, a1, _, a2, _, a3, _, a4, a5⟩ := h
    cases a5
    have e : ∃ r', createBlockedStrided (ne : Int) es bs nc l s = .ok r' ∧ r'.lSize = l := by
      simp only [createBlockedStrided]
      rw [numBlocks_nat hb]
      simp only [Res.bind_ok]
      rw [Res.check_true a1, Res.check_true a2, Res.check_true (show (0 : Int) < bs by omega), Res.check_true a3,
        Res.check_true a4]
      exact ⟨_, rfl, rfl⟩
    obtain ⟨r', e, e'⟩ := e
    obtain ⟨k1, k2⟩ := createBlockedStrided_rep (α := α) e .plain hin
    exact ⟨r', e, k1, k2, e'⟩
  | blockedStrided h hin =>
    rename_i ne es nc s
    subst h1
    simp only [createBlockedStrided] at h
    rw [show ((1 : Nat) : Int) = ((1 : Nat) : Int) from rfl, numBlocks_nat (by omega)] at h
    simp only [Res.bind_ok] at h
    simp only [Res.bind_eq_ok, Res.check_eq_ok, Int.toNat_natCast] at h
    obtain ⟨_, a1, _, a2, _, _, _, a3, _, a4, a5⟩ := h
    cases a5
    have e : ∃ r', createBlockedStrided (ne : Int) es bs nc l s = .ok r' ∧ r'.lSize = l := by
      simp only [createBlockedStrided]
      rw [numBlocks_nat hb]
      simp only [Res.bind_ok]
      rw [Res.check_true a1, Res.check_true a2, Res.check_true (show (0 : Int) < bs by omega), Res.check_true a3,
        Res.check_true a4]
      exact ⟨_, rfl, rfl⟩
    obtain ⟨r', e, e'⟩ := e
    obtain ⟨k1, k2⟩ := createBlockedStrided_rep (α := α) e .plain hin
    exact ⟨r', e, k1, k2, e'⟩

end Operator
end Verif
