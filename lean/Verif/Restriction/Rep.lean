import Verif.Restriction.Unified
import Verif.Restriction.Spec

/-!
# From the stored restriction to the user's data (helper lemmas)
-/

set_option linter.unusedSectionVars false

namespace Verif.Restriction
open Finset

variable {α : Type} [CommRing α]

/-- The stored restriction `r`, applied in variant `var`, represents the user data `D`. -/
structure Rep (r : Rstr) (var : Variant) (D : RData α) : Prop where
  ne : r.numElem = D.ne
  es : r.elemSize = D.es
  nc : r.numComp = D.nc
  bs : 0 < r.blockSize
  nb : r.numBlock = (D.ne + r.blockSize - 1) / r.blockSize
  esz : r.eSize = r.numBlock * D.nc * D.es * r.blockSize
  cov : Covers r r.blockSize r.numBlock var.flags.2
  li : ∀ b < r.numBlock, ∀ j < r.blockSize, ∀ m < D.es, ∀ k < D.nc,
    li r r.numComp r.blockSize r.compStride b j m k = D.lidx (min (b * r.blockSize + j) (D.ne - 1)) m k
  rng : ∀ e < D.ne, ∀ m < D.es, ∀ k < D.nc, (D.lidx e m k : Int) < r.lSize
  tm : ∀ b < r.numBlock, ∀ j < r.blockSize, ∀ n < D.es, ∀ m < D.es,
    tm r r.blockSize var.flags.1 var.flags.2 b j n m = D.coef (min (b * r.blockSize + j) (D.ne - 1)) n m

theorem nb_bounds {ne bs : Nat} (h : 0 < bs) : ne ≤ (ne + bs - 1) / bs * bs ∧ ((ne + bs - 1) / bs) * bs < ne + bs := by
  have h1 := Nat.div_add_mod (ne + bs - 1) bs
  have h2 := Nat.mod_lt (ne + bs - 1) h
  rw [Nat.mul_comm] at h1
  omega

theorem nb_lt {ne bs b : Nat} (h : 0 < bs) (hb : b < (ne + bs - 1) / bs) : b * bs < ne := by
  have h1 := (nb_bounds (ne := ne) h).2
  have h2 : (b + 1) * bs ≤ (ne + bs - 1) / bs * bs := Nat.mul_le_mul_right _ hb
  rw [Nat.add_mul] at h2
  omega

theorem div_lt_nb {ne bs e : Nat} (h : 0 < bs) (he : e < ne) : e / bs < (ne + bs - 1) / bs := by
  have h1 := (nb_bounds (ne := ne) h).1
  exact Nat.div_lt_of_lt_mul (by rw [Nat.mul_comm]; omega)

/-- Summing over real lanes of all blocks is summing over elements. -/
theorem sum_lanes {β : Type _} [AddCommMonoid β] {ne bs : Nat} (f : Nat → β) :
    ∀ nb, ∑ b ∈ range nb, ∑ j ∈ range (laneEnd bs ne (b * bs)), f (b * bs + j) =
      ∑ e ∈ range (min (nb * bs) ne), f e := by
  intro nb
  induction nb with
  | zero => simp
  | succ b ih =>
    rw [sum_range_succ, ih]
    have hl : laneEnd bs ne (b * bs) = min bs (ne - b * bs) := by unfold laneEnd; omega
    rw [hl]
    by_cases h : b * bs ≤ ne
    · have e1 : min (b * bs) ne = b * bs := by omega
      have e2 : min ((b + 1) * bs) ne = b * bs + min bs (ne - b * bs) := by rw [Nat.add_mul]; omega
      rw [e1, e2, Finset.sum_range_add]
    · have e1 : min bs (ne - b * bs) = 0 := by omega
      have e2 : min ((b + 1) * bs) ne = min (b * bs) ne := by rw [Nat.add_mul]; omega
      rw [e1, e2]; simp

theorem Rep.sum_elems {r : Rstr} {var : Variant} {D : RData α} (h : Rep r var D) {β : Type _} [AddCommMonoid β]
    (f : Nat → β) :
    ∑ b ∈ range r.numBlock, ∑ j ∈ range (laneEnd r.blockSize r.numElem (b * r.blockSize)), f (b * r.blockSize + j) =
      ∑ e ∈ range D.ne, f e := by
  rw [h.ne, sum_lanes]
  congr 2
  have := (nb_bounds (ne := D.ne) h.bs).1
  rw [← h.nb] at this
  omega

theorem Rep.numBlock_lt {r : Rstr} {var : Variant} {D : RData α} (h : Rep r var D) {b : Nat} (hb : b < r.numBlock) :
    b * r.blockSize < D.ne := by
  rw [h.nb] at hb; exact nb_lt h.bs hb

theorem Variant.flags_imp (var : Variant) : var.flags.1 = true → var.flags.2 = true := by
  cases var <;> simp [Variant.flags]

theorem Rep.cov_le {r : Rstr} {var : Variant} {D : RData α} (h : Rep r var D) {stop : Nat} (hs : stop ≤ r.numBlock) :
    Covers r r.blockSize stop var.flags.2 := by
  obtain ⟨h1, h2, h3, h4, h5, h6⟩ := h.cov
  have m1 : stop * r.blockSize * r.elemSize ≤ r.numBlock * r.blockSize * r.elemSize :=
    Nat.mul_le_mul_right _ (Nat.mul_le_mul_right _ hs)
  have m2 : stop * r.blockSize * (3 * r.elemSize) ≤ r.numBlock * r.blockSize * (3 * r.elemSize) :=
    Nat.mul_le_mul_right _ (Nat.mul_le_mul_right _ hs)
  exact ⟨h1, h2, fun a => m1.trans (h3 a), fun a => m1.trans (h4 a), fun a b => m2.trans (h5 a b), h6⟩

/-- Blocks `start..stop` of `E u`. -/
theorem Rep.core_gathers {r : Rstr} {var : Variant} {D : RData α} (h : Rep r var D) {start stop : Nat}
    (hs : stop ≤ r.numBlock) {u : Buf α} (hu : r.lSize ≤ u.len) {L : Nat}
    (hL : (stop - start) * D.nc * D.es * r.blockSize ≤ L) :
    Gathers (implApply r r.numComp r.blockSize r.compStride start stop .noTranspose var.flags.1 var.flags.2 u)
      D.nc D.es r.blockSize (stop - start) L
      (fun b k n j => D.row u.val (min ((start + b) * r.blockSize + j) (D.ne - 1)) k n) := by
  have h1 : ∀ vv, implApply r r.numComp r.blockSize r.compStride start stop .noTranspose var.flags.1 var.flags.2 u vv =
      applyCore r r.numComp r.blockSize r.compStride start stop .noTranspose var.flags.1 var.flags.2 u vv :=
    fun vv => implApply_eq r start stop .noTranspose _ _ u vv
  rw [funext h1, ← h.es, ← h.nc]
  refine (applyCore_gathers (h.cov_le hs) var.flags_imp (by rw [h.es, h.nc]; exact hL) ?_).congr ?_
  · intro b hb k hk n hn j hj
    rw [h.es] at hn
    rw [h.nc] at hk
    rw [h.li (start + b) (by omega) j hj n hn k hk]
    have hlt := h.numBlock_lt (b := start + b) (by omega)
    have := h.rng (min ((start + b) * r.blockSize + j) (D.ne - 1)) (by omega) n hn k hk
    omega
  · intro b hb k hk n hn j hj
    rw [h.es] at hn
    rw [h.nc] at hk
    simp only [RData.row]
    rw [h.es]
    refine sum_congr rfl fun m hm => ?_
    rw [mem_range] at hm
    rw [h.tm (start + b) (by omega) j hj n hn m hm, h.li (start + b) (by omega) j hj m hm k hk]
    simp

theorem Rep.ePos_block {r : Rstr} {D : RData α} {b k n j : Nat}
    (hj : j < r.blockSize) : ePos D.es D.nc r.blockSize (b * r.blockSize + j) k n = eIdx D.nc D.es r.blockSize b k n j := by
  simp [ePos, eIdx, div_enc hj, mod_enc hj]

/-- Contribution of one element (lane) to the transpose. -/
def RData.elemScatter (D : RData α) (u : Nat → Nat → α) (e t : Nat) : α :=
  ∑ k ∈ range D.nc, ∑ n ∈ range D.es, ∑ m ∈ range D.es, if D.lidx e m k = t then D.coef e n m * u k n else 0

theorem Rep.core_adds {r : Rstr} {var : Variant} {D : RData α} (h : Rep r var D) {start stop : Nat}
    (hs : stop ≤ r.numBlock) {u : Buf α} (hu : (stop - start) * D.nc * D.es * r.blockSize ≤ u.len) {L : Nat}
    (hL : r.lSize ≤ L) :
    Adds (implApply r r.numComp r.blockSize r.compStride start stop .transpose var.flags.1 var.flags.2 u) L
      (fun t => ∑ b ∈ range (stop - start), ∑ j ∈ range (laneEnd r.blockSize r.numElem ((start + b) * r.blockSize)),
        D.elemScatter (fun k n => u.val (eIdx D.nc D.es r.blockSize b k n j)) ((start + b) * r.blockSize + j) t) := by
  have h1 : ∀ vv, implApply r r.numComp r.blockSize r.compStride start stop .transpose var.flags.1 var.flags.2 u vv =
      applyCore r r.numComp r.blockSize r.compStride start stop .transpose var.flags.1 var.flags.2 u vv :=
    fun vv => implApply_eq r start stop .transpose _ _ u vv
  have hlane : ∀ {b j}, start + b < stop → j < laneEnd r.blockSize r.numElem ((start + b) * r.blockSize) →
      j < r.blockSize ∧ (start + b) * r.blockSize + j < D.ne := by
    intro b j hb hj
    have := h.ne
    unfold laneEnd at hj
    constructor <;> omega
  rw [funext h1]
  refine (applyCore_adds (h.cov_le hs) var.flags_imp (by rw [h.es, h.nc]; exact hu) ?_).congr ?_
  · intro b hb k hk n hn j hj
    obtain ⟨hj', hne⟩ := hlane (by omega) hj
    rw [h.es] at hn
    rw [h.nc] at hk
    rw [h.li (start + b) (by omega) j hj' n hn k hk]
    have := h.rng (min ((start + b) * r.blockSize + j) (D.ne - 1)) (by omega) n hn k hk
    omega
  · intro t
    refine sum_congr rfl fun b hb => ?_
    rw [mem_range] at hb
    have comm4 : ∀ f : Nat → Nat → Nat → α, ∑ k ∈ range r.numComp, ∑ n ∈ range r.elemSize,
        ∑ j ∈ range (laneEnd r.blockSize r.numElem ((start + b) * r.blockSize)), f k n j =
        ∑ j ∈ range (laneEnd r.blockSize r.numElem ((start + b) * r.blockSize)),
          ∑ k ∈ range r.numComp, ∑ n ∈ range r.elemSize, f k n j := by
      intro f
      symm
      rw [sum_comm]
      refine sum_congr rfl fun k _ => ?_
      rw [sum_comm]
    rw [comm4]
    refine sum_congr rfl fun j hj => ?_
    rw [mem_range] at hj
    obtain ⟨hj', hne⟩ := hlane (by omega) hj
    simp only [RData.elemScatter]
    have hli := h.li
    rw [h.nc] at hli
    rw [h.es, h.nc]
    refine sum_congr rfl fun k hk => ?_
    rw [mem_range] at hk
    rw [sum_comm (s := range D.es) (t := range D.es)]
    refine sum_congr rfl fun n hn => ?_
    rw [mem_range] at hn
    rw [hli (start + b) (by omega) j hj' n hn k hk]
    have e1 : min ((start + b) * r.blockSize + j) (D.ne - 1) = (start + b) * r.blockSize + j := by omega
    rw [e1]
    by_cases ht : D.lidx ((start + b) * r.blockSize + j) n k = t
    · simp only [ht, if_true]
      refine sum_congr rfl fun m hm => ?_
      rw [mem_range] at hm
      rw [h.tm (start + b) (by omega) j hj' m hm n hn, e1]
    · have ht' : ¬ ((t : Int) = (D.lidx ((start + b) * r.blockSize + j) n k : Int)) := by omega
      simp [ht, ht']

end Verif.Restriction
