import Verif.Restriction.Create

/-!
# `Apply` and `ApplyBlock` on represented restrictions (helper lemmas)
-/

set_option linter.unusedSectionVars false

namespace Verif.Restriction
open Finset

variable {α : Type} [CommRing α]

theorem sum_range_mul {β : Type _} [AddCommMonoid β] (f : Nat → β) (A B : Nat) :
    ∑ x ∈ range (A * B), f x = ∑ a ∈ range A, ∑ b ∈ range B, f (a * B + b) := by
  induction A with
  | zero => simp
  | succ A ih => rw [Nat.succ_mul, Finset.sum_range_add, ih, sum_range_succ]

theorem Rep.gather_real {r : Rstr} {var : Variant} {D : RData α} (h : Rep r var D) {e k n : Nat} (he : e < D.ne)
    (hk : k < D.nc) (hn : n < D.es) : ePos D.es D.nc r.blockSize e k n < r.eSize := by
  rw [h.esz]
  exact eIdx_lt (by rw [h.nb]; exact div_lt_nb h.bs he) hk hn (Nat.mod_lt _ h.bs)

/-- `Apply` without transpose. -/
theorem Rep.apply_nt {r : Rstr} {var : Variant} {D : RData α} (h : Rep r var D) {u v : Buf α} (hu : r.lSize ≤ u.len)
    (hv : r.eSize ≤ v.len) :
    ∃ v', apply r var .noTranspose u v = .ok v' ∧ v'.len = v.len ∧ D.IsGather r.blockSize u.val v'.val ∧
      (∀ b < r.numBlock, ∀ k < D.nc, ∀ n < D.es, ∀ j < r.blockSize, v'.val (eIdx D.nc D.es r.blockSize b k n j) =
        D.row u.val (min (b * r.blockSize + j) (D.ne - 1)) k n) ∧
      (∀ x, r.eSize ≤ x → v'.val x = v.val x) := by
  have hE := h.esz
  simp only [apply]
  rw [Res.check_true hu, Res.check_true (by omega)]
  simp only [Res.bind_ok]
  by_cases hne : 0 < r.numElem
  · rw [if_pos hne]
    obtain ⟨v', e1, l1, a1, c1⟩ := h.core_gathers (start := 0) (stop := r.numBlock) le_rfl hu
      (L := v.len) (by rw [Nat.sub_zero, ← hE]; exact hv) v rfl
    simp only [Nat.zero_add] at a1
    refine ⟨v', e1, l1, ?_, ?_, ?_⟩
    · intro e he k hk n hn
      have := a1 (e / r.blockSize) (by rw [Nat.sub_zero, h.nb]; exact div_lt_nb h.bs he) k hk n hn (e % r.blockSize)
        (Nat.mod_lt _ h.bs)
      rw [dec_eq, show min e (D.ne - 1) = e by omega] at this
      exact this
    · intro b hb k hk n hn j hj
      exact a1 b (by omega) k hk n hn j hj
    · intro x hx
      exact c1 x (by rw [Nat.sub_zero, ← hE]; exact hx)
  · rw [if_neg hne]
    have h0 : D.ne = 0 := by have := h.ne; omega
    have hb0 : r.numBlock = 0 := by rw [h.nb, h0, Nat.div_eq_of_lt]; have := h.bs; omega
    exact ⟨v, rfl, rfl, fun e he => by omega, fun b hb => by omega, fun _ _ => rfl⟩

/-- `Apply` with transpose. -/
theorem Rep.apply_t {r : Rstr} {var : Variant} {D : RData α} (h : Rep r var D) {u v : Buf α} (hu : r.eSize ≤ u.len)
    (hv : r.lSize ≤ v.len) :
    apply r var .transpose u v = .ok ⟨v.len, fun t => v.val t + D.scatter r.blockSize u.val t⟩ := by
  have hE := h.esz
  simp only [apply]
  rw [Res.check_true (by omega), Res.check_true hv]
  simp only [Res.bind_ok]
  have hsc : ∀ t, D.scatter r.blockSize u.val t = ∑ b ∈ range r.numBlock,
      ∑ j ∈ range (laneEnd r.blockSize r.numElem (b * r.blockSize)),
        D.elemScatter (fun k n => u.val (eIdx D.nc D.es r.blockSize b k n j)) (b * r.blockSize + j) t := by
    intro t
    have hs := h.sum_elems (fun e => D.elemScatter (fun k n => u.val (ePos D.es D.nc r.blockSize e k n)) e t)
    unfold RData.scatter
    simp only [RData.elemScatter] at hs ⊢
    rw [← hs]
    refine sum_congr rfl fun b _ => sum_congr rfl fun j hj => ?_
    have hj' : j < r.blockSize := by have := laneEnd_le r.blockSize r.numElem (b * r.blockSize); simp at hj; omega
    refine sum_congr rfl fun k _ => sum_congr rfl fun n _ => ?_
    rw [Rep.ePos_block hj']
  by_cases hne : 0 < r.numElem
  · rw [if_pos hne, h.core_adds (start := 0) (stop := r.numBlock) le_rfl (by rw [Nat.sub_zero, ← hE]; exact hu)
      (L := v.len) hv v rfl]
    simp only [Nat.sub_zero, Nat.zero_add, hsc]
  · rw [if_neg hne]
    have h0 : D.ne = 0 := by have := h.ne; omega
    have : ∀ t, D.scatter r.blockSize u.val t = 0 := by intro t; simp [RData.scatter, h0]
    simp [this]

/-- Vectors that are too short are rejected. -/
theorem apply_short (r : Rstr) (var : Variant) (t : TMode) (u v : Buf α)
    (h : match t with
      | .noTranspose => (u.len : Int) < r.lSize ∨ (v.len : Int) < r.eSize
      | .transpose => (u.len : Int) < r.eSize ∨ (v.len : Int) < r.lSize) :
    apply r var t u v = .err .dimension := by
  cases t <;> simp only [apply] at h ⊢
  · by_cases h1 : r.lSize ≤ u.len
    · rw [Res.check_true h1, Res.check_false (by omega)]; rfl
    · rw [Res.check_false h1]; rfl
  · by_cases h1 : (r.eSize : Int) ≤ u.len
    · rw [Res.check_true h1, Res.check_false (by omega)]; rfl
    · rw [Res.check_false h1]; rfl

/-- `⟨E u, w⟩ = ⟨u, E^T w⟩` for the specification. -/
theorem RData.adjoint (D : RData α) (bs L : Nat) (hL : ∀ e < D.ne, ∀ m < D.es, ∀ k < D.nc, D.lidx e m k < L)
    (u w : Nat → α) :
    ∑ e ∈ range D.ne, ∑ k ∈ range D.nc, ∑ n ∈ range D.es, D.row u e k n * w (ePos D.es D.nc bs e k n) =
      ∑ t ∈ range L, u t * D.scatter bs w t := by
  simp only [RData.scatter, mul_sum]
  symm
  rw [sum_comm]
  refine sum_congr rfl fun e he => ?_
  rw [sum_comm]
  refine sum_congr rfl fun k hk => ?_
  rw [sum_comm]
  refine sum_congr rfl fun n _ => ?_
  rw [sum_comm]
  simp only [RData.row, sum_mul]
  refine sum_congr rfl fun m hm => ?_
  rw [mem_range] at he hk hm
  simp only [mul_ite, mul_zero]
  rw [sum_ite_eq, if_pos (mem_range.2 (hL e he m hm k hk))]
  ring

theorem Rep.plain_flags {r : Rstr} {D : RData α} (_ : Rep r .plain D) :
    Variant.plain.flags.1 = true ∧ Variant.plain.flags.2 = true := ⟨rfl, rfl⟩

/-- `ApplyBlock` without transpose. -/
theorem Rep.block_nt {r : Rstr} {D : RData α} (h : Rep r .plain D) {b : Nat} (hb : b < r.numBlock) {u v : Buf α}
    (hu : r.lSize = u.len) (hv : v.len = r.blockSize * D.es * D.nc) :
    ∃ v', applyBlock r b .noTranspose u v = .ok v' ∧ v'.len = v.len ∧
      ∀ k < D.nc, ∀ n < D.es, ∀ j < r.blockSize, v'.val (eIdx D.nc D.es r.blockSize 0 k n j) =
        D.row u.val (min (b * r.blockSize + j) (D.ne - 1)) k n := by
  have hb2 := h.numBlock_lt hb
  have hne := h.ne
  simp only [applyBlock]
  rw [Res.check_true hu, Res.check_true (by rw [hv, h.es, h.nc]; push_cast; ring),
    Res.check_true (by rw [hne, ← Int.natCast_mul, Nat.mul_comm]; exact_mod_cast hb2.le)]
  simp only [Res.bind_ok]
  rw [if_neg (by omega)]
  have hL : (b + 1 - b) * D.nc * D.es * r.blockSize ≤ v.len := by
    rw [hv, show b + 1 - b = 1 by omega]; exact le_of_eq (by ring)
  obtain ⟨v', e1, l1, a1, _⟩ := h.core_gathers (start := b) (stop := b + 1) (u := u) (by omega) (by omega) hL v rfl
  refine ⟨v', e1, l1, fun k hk n hn j hj => ?_⟩
  exact a1 0 (by omega) k hk n hn j hj

/-- `ApplyBlock` with transpose. -/
theorem Rep.block_t {r : Rstr} {D : RData α} (h : Rep r .plain D) {b : Nat} (hb : b < r.numBlock) {u v : Buf α}
    (hv : r.lSize = v.len) (hu : u.len = r.blockSize * D.es * D.nc) :
    applyBlock r b .transpose u v = .ok ⟨v.len, fun t => v.val t +
      ∑ j ∈ range (laneEnd r.blockSize r.numElem (b * r.blockSize)),
        D.elemScatter (fun k n => u.val (eIdx D.nc D.es r.blockSize 0 k n j)) (b * r.blockSize + j) t⟩ := by
  have hb2 := h.numBlock_lt hb
  have hne := h.ne
  simp only [applyBlock]
  rw [Res.check_true (by rw [hu, h.es, h.nc]; push_cast; ring), Res.check_true hv,
    Res.check_true (by rw [hne, ← Int.natCast_mul, Nat.mul_comm]; exact_mod_cast hb2.le)]
  simp only [Res.bind_ok]
  rw [if_neg (by omega)]
  have hL : (b + 1 - b) * D.nc * D.es * r.blockSize ≤ u.len := by
    rw [hu, show b + 1 - b = 1 by omega]; exact le_of_eq (by ring)
  have := h.core_adds (start := b) (stop := b + 1) (by omega) hL (L := v.len) (by omega) v rfl
  refine this.trans ?_
  simp [show b + 1 - b = 1 by omega]

/-- The transpose as a sum over blocks. -/
theorem Rep.scatter_blocks {r : Rstr} {var : Variant} {D : RData α} (h : Rep r var D) (u : Nat → α) (t : Nat) :
    D.scatter r.blockSize u t = ∑ b ∈ range r.numBlock,
      ∑ j ∈ range (laneEnd r.blockSize r.numElem (b * r.blockSize)),
        D.elemScatter (fun k n => u (eIdx D.nc D.es r.blockSize b k n j)) (b * r.blockSize + j) t := by
  have hs := h.sum_elems (fun e => D.elemScatter (fun k n => u (ePos D.es D.nc r.blockSize e k n)) e t)
  unfold RData.scatter
  simp only [RData.elemScatter] at hs ⊢
  rw [← hs]
  refine sum_congr rfl fun b _ => sum_congr rfl fun j hj => ?_
  have hj' : j < r.blockSize := by have := laneEnd_le r.blockSize r.numElem (b * r.blockSize); simp at hj; omega
  refine sum_congr rfl fun k _ => sum_congr rfl fun n _ => ?_
  rw [Rep.ePos_block hj']

theorem eIdx_shift (nc es bs b k n j : Nat) : eIdx nc es bs b k n j = b * (bs * es * nc) + eIdx nc es bs 0 k n j := by
  simp only [eIdx]; ring

/-- Fills of a whole array. -/
theorem fill_all {v : Buf α} (x : α) : ∃ v', Buf.fill v.len x v = .ok v' ∧ v'.len = v.len ∧ ∀ j < v.len, v'.val j = x := by
  exact (Sets.fill (n := v.len) le_rfl x (g := fun _ => x) (fun _ _ => rfl)).all (fun _ h => h) rfl

theorem ePos_one (es nc e k n : Nat) : ePos es nc 1 e k n = e * nc * es + k * es + n := by
  unfold ePos
  rw [Nat.div_one, Nat.mod_one, Nat.mul_one, Nat.add_zero]; ring

/-- Restrictions representing the same data act the same, on all vectors, including errors. -/
theorem Rep.apply_congr {r1 r2 : Rstr} {var1 var2 : Variant} {D : RData α} (h1 : Rep r1 var1 D) (h2 : Rep r2 var2 D)
    (hb : r1.blockSize = r2.blockSize) (hl : r1.lSize = r2.lSize) (t : TMode) (u v : Buf α) :
    apply r1 var1 t u v = apply r2 var2 t u v := by
  have hnb : r1.numBlock = r2.numBlock := by rw [h1.nb, h2.nb, hb]
  have hE : r1.eSize = r2.eSize := by rw [h1.esz, h2.esz, hb, hnb]
  cases t
  · by_cases hs : (u.len : Int) < r1.lSize ∨ (v.len : Int) < r1.eSize
    · rw [apply_short r1 var1 .noTranspose u v hs, apply_short r2 var2 .noTranspose u v (by rw [← hl, ← hE]; exact hs)]
    · obtain ⟨v1, a1, b1, _, c1, d1⟩ := h1.apply_nt (u := u) (v := v) (by omega) (by omega)
      obtain ⟨v2, a2, b2, _, c2, d2⟩ := h2.apply_nt (u := u) (v := v) (by omega) (by omega)
      rw [a1, a2]
      congr 1
      ext x
      · rw [b1, b2]
      · by_cases hx : x < r1.eSize
        · have hx' := hx
          rw [h1.esz] at hx'
          obtain ⟨b, hb', k, hk, n, hn, j, hj, rfl⟩ := eIdx_exists hx'
          rw [c1 b hb' k hk n hn j hj, hb, c2 b (by omega) k hk n hn j (by omega)]
        · rw [d1 x (by omega), d2 x (by omega)]
  · by_cases hs : (u.len : Int) < r1.eSize ∨ (v.len : Int) < r1.lSize
    · rw [apply_short r1 var1 .transpose u v hs, apply_short r2 var2 .transpose u v (by rw [← hl, ← hE]; exact hs)]
    · rw [h1.apply_t (by omega) (by omega), h2.apply_t (by omega) (by omega), hb]

theorem list_sum_range {β : Type _} [AddCommMonoid β] (f : Nat → β) (n : Nat) :
    ((List.range n).map f).sum = ∑ i ∈ range n, f i := by
  induction n with
  | zero => simp
  | succ n ih => rw [List.range_succ, List.map_append, List.sum_append, ih, sum_range_succ]; simp

end Verif.Restriction
