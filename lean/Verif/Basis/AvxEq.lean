import Verif.Basis.AvxCore
import Mathlib.Algebra.BigOperators.Pi

/-!
# The contraction with vector registers is the contraction of the reference backend (helper lemmas)
-/

namespace Verif
namespace Basis

open Restriction (TMode)
open Finset

section
variable {α : Type} [CommRing α]

/-- Entries of an array of shape `·, J, C` starting at `vo`: index `a`, rows from `j0`, columns from `c0`. -/
def Box (vo J C a j0 n c0 w x : Nat) : Prop :=
  vo ≤ x ∧ (x - vo) / C / J = a ∧ (j0 ≤ (x - vo) / C % J ∧ (x - vo) / C % J < j0 + n) ∧
    (c0 ≤ (x - vo) % C ∧ (x - vo) % C < c0 + w)

theorem owned_box {vo J C a j0 n c0 w x : Nat} (hj : j0 + n ≤ J) (hc : c0 + w ≤ C) (hC : 0 < C) (hJ : 0 < J) :
    Owned (vo + ((a * J + j0) * C + c0)) C n w x ↔ Box vo J C a j0 n c0 w x := by
  constructor
  · rintro ⟨h1, h2, h3⟩
    obtain ⟨y, rfl⟩ : ∃ y, x = vo + ((a * J + j0) * C + c0) + y := ⟨_, (Nat.add_sub_cancel' h1).symm⟩
    rw [Nat.add_sub_cancel_left] at h3
    have hr : y / C < n := by
      rw [Nat.div_lt_iff_lt_mul hC]; omega
    have hy : y = y / C * C + y % C := by rw [Nat.mul_comm]; exact (Nat.div_add_mod y C).symm
    have e : vo + ((a * J + j0) * C + c0) + y - vo = (a * J + (j0 + y / C)) * C + (c0 + y % C) := by
      rw [Nat.add_assoc vo, Nat.add_sub_cancel_left]
      conv_lhs => rw [hy]
      ring
    refine ⟨by omega, ?_⟩
    rw [e]
    clear e hy h2 h1
    generalize y / C = r at *
    generalize y % C = l at *
    rw [div_enc (show c0 + l < C by omega), mod_enc (show c0 + l < C by omega),
      div_enc (show j0 + r < J by omega), mod_enc (show j0 + r < J by omega)]
    exact ⟨rfl, ⟨by omega, by omega⟩, by omega, by omega⟩
  · rintro ⟨h1, h2, ⟨h3, h4⟩, h5, h6⟩
    obtain ⟨y, rfl⟩ : ∃ y, x = vo + y := ⟨_, (Nat.add_sub_cancel' h1).symm⟩
    rw [Nat.add_sub_cancel_left] at *
    obtain ⟨r, hr⟩ := Nat.le.dest h3
    obtain ⟨l, hl⟩ := Nat.le.dest h5
    have e : y = (a * J + j0) * C + c0 + (r * C + l) := by
      have e1 : y = (y / C / J * J + y / C % J) * C + y % C := by
        rw [Nat.mul_comm (y / C / J), Nat.div_add_mod, Nat.mul_comm (y / C), Nat.div_add_mod]
      rw [e1, h2, ← hr, ← hl]
      ring
    have hrn : r < n := by omega
    have hlC : l < C := by omega
    have := enc_lt hrn hlC
    refine ⟨by omega, by omega, ?_⟩
    have e2 : vo + y - (vo + ((a * J + j0) * C + c0)) = r * C + l := by omega
    rw [e2, mod_enc hlC]
    omega

theorem contr_at {B C J : Nat} {T : Nat → Nat → α} {U : Nat → α} {a j c : Nat} (hj : j < J) (hc : c < C) :
    contr B C J T U ((a * J + j) * C + c) = ∑ b ∈ range B, T j b * U ((a * B + b) * C + c) := by
  unfold contr
  rw [div_enc hc, mod_enc hc, div_enc hj, mod_enc hj]

/-- The entry of the result at `x`. -/
abbrev Gf (B C J : Nat) (t : Buf α) (tof : Nat) (tm : TMode) (u : Buf α) (uo vo x : Nat) : α :=
  contr B C J (tmat t tof tm B J) (fun i => u.val (uo + i)) (x - vo)

/-! ## Blocks -/

theorem blockedTile_adds {a j0 c0 n A B C J L : Nat} {t : Buf α} {tof : Nat} {tm : TMode} {u : Buf α} {uo vo : Nat}
    {junk : Nat → Reg α} (ht : tof + B * J ≤ t.len) (hu : uo + A * B * C ≤ u.len) (hv : vo + A * J * C ≤ L)
    (ha : a < A) (hn : n ≤ 4) (hn0 : 0 < n) (hj : j0 + n ≤ J) (hc : c0 + 8 ≤ C) :
    Adds (tile (4 * (8 / 4)) n (8 / 4) (fun jj cc => vo + ((a * J + j0 + jj) * C + c0 + cc * 4)) junk
      (accBlocked a j0 c0 n 8 B C J t tof tm u uo)) L
      (ind (Box vo J C a j0 n c0 8) (Gf B C J t tof tm u uo vo)) := by
  refine (tile_adds (base := vo + ((a * J + j0) * C + c0)) (S := C) (w := 8) (G := Gf B C J t tof tm u uo vo) (by omega)
    (accBlocked_adds ht hu ha hj (by omega) (by omega)) (fun r _ k _ => ?_) (fun r hr k hk => ?_) (by omega) (by omega)
    (by omega) (fun r hr k hk l => ?_)).congrU (fun x => owned_box hj hc (by omega) (by omega)) fun _ _ => rfl
  · ring
  · have h := enc_lt (enc_lt ha (show j0 + r < J by omega)) (show c0 + (k * 4 + 3) < C by omega)
    rw [← Nat.add_assoc (a * J)] at h
    omega
  · rw [if_pos (by omega), div_enc hk, mod_enc hk, Finset.sum_apply]
    have e : vo + ((a * J + j0) * C + c0) + r * C + (k * 4 + l.val) - vo =
        (a * J + (j0 + r)) * C + (c0 + (k * 4 + l.val)) := by
      rw [Nat.add_assoc vo, Nat.add_assoc vo, Nat.add_sub_cancel_left]
      ring
    rw [Gf, e, contr_at (by omega) (by omega)]
    refine Finset.sum_congr rfl fun b _ => ?_
    rw [if_pos (enc_lt hr hk)]

theorem avxBlocked_adds {A B C J L : Nat} {t : Buf α} {tof : Nat} {tm : TMode} {u : Buf α} {uo vo : Nat}
    {junk : Nat → Reg α} (ht : tof + B * J ≤ t.len) (hu : uo + A * B * C ≤ u.len) (hv : vo + A * J * C ≤ L)
    (hJ : 0 < J) (hC : 0 < C) :
    Adds (fun v => avxBlocked 4 8 A B C J t tof tm junk u uo v vo) L
      (ind (fun x => vo ≤ x ∧ (x - vo) / C / J < A ∧ (x - vo) % C < C / 8 * 8) (Gf B C J t tof tm u uo vo)) := by
  unfold avxBlocked
  refine Adds.loopU (G := Gf B C J t tof tm u uo vo) (S := fun a x => vo ≤ x ∧ (x - vo) / C / J = a ∧ (x - vo) % C < C / 8 * 8)
    (T := fun x => vo ≤ x ∧ (x - vo) / C / J < A ∧ (x - vo) % C < C / 8 * 8) (fun a ha => ?_)
    (fun i _ i' _ x h h' => by omega) fun x => ⟨fun h => ⟨_, h.2.1, h.1, rfl, h.2.2⟩, fun ⟨i, hi, h⟩ => ⟨h.1, by omega, h.2.2⟩⟩
  have h1 : Adds (Verif.loop (J / 4) (fun j v => Verif.loop (C / 8) (fun c v =>
      tile (4 * (8 / 4)) 4 (8 / 4) (fun jj cc => vo + ((a * J + j * 4 + jj) * C + c * 8 + cc * 4)) junk
        (accBlocked a (j * 4) (c * 8) 4 8 B C J t tof tm u uo) v) v)) L
      (ind (fun x => vo ≤ x ∧ (x - vo) / C / J = a ∧ (x - vo) / C % J < J / 4 * 4 ∧ (x - vo) % C < C / 8 * 8) (Gf B C J t tof tm u uo vo)) := by
    refine Adds.loopU (G := Gf B C J t tof tm u uo vo) (S := fun j x => vo ≤ x ∧ (x - vo) / C / J = a ∧ (j * 4 ≤ (x - vo) / C % J ∧
      (x - vo) / C % J < j * 4 + 4) ∧ (x - vo) % C < C / 8 * 8) (fun j hj => ?_) (fun i _ i' _ x h h' => by omega)
      fun x => ⟨fun h => ⟨(x - vo) / C % J / 4, by omega, by omega⟩, fun ⟨i, hi, h⟩ => by omega⟩
    refine Adds.loopU (G := Gf B C J t tof tm u uo vo) (S := fun c x => Box vo J C a (j * 4) 4 (c * 8) 8 x) (fun c hc => ?_)
      (fun i _ i' _ x h h' => by unfold Box at h h'; omega)
      fun x => ⟨fun h => ⟨(x - vo) % C / 8, by omega, by unfold Box; omega⟩, fun ⟨i, hi, h⟩ => by unfold Box at h; omega⟩
    exact blockedTile_adds ht hu hv ha le_rfl (by omega) (by omega) (by omega)
  have hm : ∀ x, (x - vo) / C % J < J := fun x => Nat.mod_lt _ hJ
  refine Adds.seqU (G := Gf B C J t tof tm u uo vo) (S := fun x => vo ≤ x ∧ (x - vo) / C / J = a ∧ (x - vo) / C % J < J / 4 * 4 ∧ (x - vo) % C < C / 8 * 8)
    (S' := fun x => vo ≤ x ∧ (x - vo) / C / J = a ∧ J / 4 * 4 ≤ (x - vo) / C % J ∧ (x - vo) % C < C / 8 * 8) h1 ?_
    (fun x h h' => by omega) fun x => by have := hm x; omega
  by_cases hlt : J / 4 * 4 < J
  · simp only [if_pos hlt]
    refine Adds.loopU (G := Gf B C J t tof tm u uo vo) (S := fun c x => Box vo J C a (J / 4 * 4) (J - J / 4 * 4) (c * 8) 8 x) (fun c hc => ?_)
      (fun i _ i' _ x h h' => by unfold Box at h h'; omega)
      fun x => ⟨fun h => ⟨(x - vo) % C / 8, by omega, by have := hm x; unfold Box; omega⟩,
        fun ⟨i, hi, h⟩ => by unfold Box at h; omega⟩
    exact blockedTile_adds ht hu hv ha (by omega) (by omega) (by omega) (by omega)
  · simp only [if_neg hlt]
    exact Adds.noneU fun x h => by have := hm x; omega

/-! ## Other columns -/

theorem brk8 {J : Nat} (h : 0 < J) : ∃ q, brk J 8 = ((q * 8 : Nat) : Int) ∧ q * 8 < J ∧ J ≤ q * 8 + 8 := by
  unfold brk
  by_cases hm : J % 8 ≠ 0
  · exact ⟨J / 8, by rw [if_pos hm], by omega, by omega⟩
  · exact ⟨J / 8 - 1, by rw [if_neg hm]; omega, by omega, by omega⟩

theorem brk4 {J : Nat} (h : 0 < J) : ∃ q, brk J 4 = ((q * 4 : Nat) : Int) ∧ q * 4 < J ∧ J ≤ q * 4 + 4 := by
  unfold brk
  by_cases hm : J % 4 ≠ 0
  · exact ⟨J / 4, by rw [if_pos hm], by omega, by omega⟩
  · exact ⟨J / 4 - 1, by rw [if_neg hm]; omega, by omega, by omega⟩

theorem remainderTile_adds {a j0 c0 A B C J L : Nat} {t : Buf α} {tof : Nat} {tm : TMode} {u : Buf α} {uo vo : Nat}
    {junk : Nat → Reg α} (ht : tof + B * J ≤ t.len) (hu : uo + A * B * C ≤ u.len) (hv : vo + A * J * C ≤ L)
    (ha : a < A) (hj : j0 + 8 < J) (hc : c0 < C) (hc2 : c0 + 4 ≤ 2 * C) :
    Adds (tile 8 8 1 (fun jj _ => vo + ((a * J + j0 + jj) * C + c0)) junk
      (accRemainder a j0 c0 8 B C J t tof tm u uo)) L
      (ind (Box vo J C a j0 8 c0 (min 4 (C - c0))) (Gf B C J t tof tm u uo vo)) := by
  refine (tile_adds (base := vo + ((a * J + j0) * C + c0)) (S := C) (w := min 4 (C - c0)) (G := Gf B C J t tof tm u uo vo)
    (by omega) (accRemainder_adds ht hu ha (by omega) hc le_rfl) (fun r _ k hk => ?_) (fun r hr k hk => ?_) (by omega) (by omega)
    (by omega) (fun r hr k hk l => ?_)).congrU (fun x => owned_box (by omega) (by omega) (by omega) (by omega)) fun _ _ => rfl
  · obtain rfl : k = 0 := by omega
    ring
  · have h := enc_lt (enc_lt ha (show j0 + r + 1 < J by omega)) (show C - 1 < C by omega)
    have e : (a * J + (j0 + r + 1)) * C + (C - 1) = (a * J + j0 + r) * C + (2 * C - 1) := by
      obtain ⟨C', rfl⟩ : ∃ C', C = C' + 1 := ⟨C - 1, by omega⟩
      have : 2 * (C' + 1) - 1 = (C' + 1) + (C' + 1 - 1) := by omega
      rw [this]
      ring
    omega
  · obtain rfl : k = 0 := by omega
    rw [Nat.mul_one, Nat.add_zero, Finset.sum_apply, Nat.zero_mul, Nat.zero_add]
    by_cases hl : l.val < min 4 (C - c0)
    · rw [if_pos hl]
      have e : vo + ((a * J + j0) * C + c0) + r * C + l.val - vo = (a * J + (j0 + r)) * C + (c0 + l.val) := by
        rw [Nat.add_assoc vo, Nat.add_assoc vo, Nat.add_sub_cancel_left]
        ring
      rw [Gf, e, contr_at (by omega) (by omega)]
      refine Finset.sum_congr rfl fun b _ => ?_
      rw [if_pos hr]
      rw [if_pos (by omega), mul_comm]
    · rw [if_neg hl]
      refine Finset.sum_eq_zero fun b _ => ?_
      rw [if_pos hr]
      rw [if_neg (by have := l.2; omega), zero_mul]

theorem avxRemainder_adds {A B C J L : Nat} {t : Buf α} {tof : Nat} {tm : TMode} {u : Buf α} {uo vo : Nat}
    {junk : Nat → Reg α} (ht : tof + B * J ≤ t.len) (hu : uo + A * B * C ≤ u.len) (hv : vo + A * J * C ≤ L)
    (hJ : 0 < J) (hC : 2 ≤ C) :
    Adds (fun v => avxRemainder 8 8 A B C J t tof tm junk u uo v vo) L
      (ind (fun x => vo ≤ x ∧ (x - vo) / C / J < A ∧ C / 8 * 8 ≤ (x - vo) % C) (Gf B C J t tof tm u uo vo)) := by
  obtain ⟨q, hq, hq1, hq2⟩ := brk8 hJ
  have hm : ∀ x, (x - vo) / C % J < J := fun x => Nat.mod_lt _ hJ
  have hmC : ∀ x, (x - vo) % C < C := fun x => Nat.mod_lt _ (by omega)
  unfold avxRemainder
  simp only [hq, Int.toNat_natCast]
  refine Adds.loopU (G := Gf B C J t tof tm u uo vo) (S := fun a x => vo ≤ x ∧ (x - vo) / C / J = a ∧ C / 8 * 8 ≤ (x - vo) % C)
    (T := fun x => vo ≤ x ∧ (x - vo) / C / J < A ∧ C / 8 * 8 ≤ (x - vo) % C) (fun a ha => ?_)
    (fun i _ i' _ x h h' => by omega) fun x => ⟨fun h => ⟨_, h.2.1, h.1, rfl, h.2.2⟩, fun ⟨i, hi, h⟩ => ⟨h.1, by omega, h.2.2⟩⟩
  refine Adds.seqU (G := Gf B C J t tof tm u uo vo) (S := fun x => vo ≤ x ∧ (x - vo) / C / J = a ∧ (x - vo) / C % J < q * 8 ∧ C / 8 * 8 ≤ (x - vo) % C)
    (S' := fun x => vo ≤ x ∧ (x - vo) / C / J = a ∧ q * 8 ≤ (x - vo) / C % J ∧ C / 8 * 8 ≤ (x - vo) % C) ?_ ?_
    (fun x h h' => by omega) fun x => by have := hm x; omega
  · refine Adds.loopU (G := Gf B C J t tof tm u uo vo) (S := fun i x => vo ≤ x ∧ (x - vo) / C / J = a ∧ (x - vo) / C % J < q * 8 ∧
      (C / 8 * 8 + i * 4 ≤ (x - vo) % C ∧ (x - vo) % C < C / 8 * 8 + i * 4 + 4)) (fun i hi => ?_)
      (fun i _ i' _ x h h' => by omega)
      fun x => ⟨fun h => ⟨((x - vo) % C - C / 8 * 8) / 4, by have := hmC x; omega, by omega⟩, fun ⟨i, hi, h⟩ => by omega⟩
    refine Adds.loopU (G := Gf B C J t tof tm u uo vo) (S := fun j x => Box vo J C a (j * 8) 8 (C / 8 * 8 + i * 4) (min 4 (C - (C / 8 * 8 + i * 4))) x)
      (fun j hj => ?_) (fun i _ i' _ x h h' => by unfold Box at h h'; omega)
      fun x => ⟨fun h => ⟨(x - vo) / C % J / 8, by omega, by have := hmC x; unfold Box; omega⟩,
        fun ⟨j, hj, h⟩ => by unfold Box at h; omega⟩
    exact remainderTile_adds ht hu hv ha (by omega) (by omega) (by omega)
  · simp only [if_neg (show ¬ (((q * 8 : Nat) : Int) < 0 ∧ 0 < B) by omega)]
    refine Adds.loopU (G := Gf B C J t tof tm u uo vo) (S := fun r x => Box vo J C a (q * 8 + r) 1 (C / 8 * 8) (C - C / 8 * 8) x) (fun r hr => ?_)
      (fun i _ i' _ x h h' => by unfold Box at h h'; omega)
      fun x => ⟨fun h => ⟨(x - vo) / C % J - q * 8, by have := hm x; omega, by have := hmC x; unfold Box; omega⟩,
        fun ⟨j, hj, h⟩ => by unfold Box at h; omega⟩
    refine (Adds.loop (c := fun b x => ∑ c ∈ range (C - C / 8 * 8), if x = vo + ((a * J + (q * 8 + r)) * C + (C / 8 * 8 + c))
      then tmat t tof tm B J (q * 8 + r) b * u.val (uo + ((a * B + b) * C + (C / 8 * 8 + c))) else 0)
      fun b hb => ?_).congr fun x => ?_
    · refine (Adds.loop (c := fun c x => if x = vo + ((a * J + (q * 8 + r)) * C + (C / 8 * 8 + c))
        then tmat t tof tm B J (q * 8 + r) b * u.val (uo + ((a * B + b) * C + (C / 8 * 8 + c))) else 0)
        (body := fun c v => do
          let x ← u.rd (uo + ((a * B + b) * C + (C / 8 * 8 + c)))
          v.addAt (vo + ((a * J + (q * 8 + r)) * C + (C / 8 * 8 + c))) (tmat t tof tm B J (q * 8 + r) b * x))
        fun c hc => ?_).of_eq fun v _ => ?_
      · refine (Adds.addAt (L := L) ?_ _).of_eq fun v _ => ?_
        · have := enc_lt (enc_lt ha (show q * 8 + r < J by omega)) (show C / 8 * 8 + c < C by omega)
          omega
        · have := enc_lt (enc_lt ha hb) (show C / 8 * 8 + c < C by omega)
          rw [Buf.rd_lt (by omega), Res.bind_ok]
      · rw [trd ht (by omega) hb, Res.bind_ok]
    · rw [Finset.sum_comm]
      have key : ∀ c ∈ range (C - C / 8 * 8), (∑ b ∈ range B, if x = vo + ((a * J + (q * 8 + r)) * C + (C / 8 * 8 + c))
          then tmat t tof tm B J (q * 8 + r) b * u.val (uo + ((a * B + b) * C + (C / 8 * 8 + c))) else 0) =
          if x = vo + ((a * J + (q * 8 + r)) * C + (C / 8 * 8 + c)) then Gf B C J t tof tm u uo vo x else 0 := by
        intro c hc
        have hc := mem_range.1 hc
        by_cases hx : x = vo + ((a * J + (q * 8 + r)) * C + (C / 8 * 8 + c))
        · simp only [if_pos hx]
          rw [Gf, hx, Nat.add_sub_cancel_left, contr_at (by omega) (by omega)]
        · simp only [if_neg hx]
          exact Finset.sum_const_zero
      rw [Finset.sum_congr rfl key]
      have hbox : Box vo J C a (q * 8 + r) 1 (C / 8 * 8) (C - C / 8 * 8) x ↔
          ∃ c < C - C / 8 * 8, x = vo + ((a * J + (q * 8 + r)) * C + (C / 8 * 8 + c)) := by
        rw [← owned_box (by omega) (by omega) (by omega) hJ]
        constructor
        · rintro ⟨h1, h2, h3⟩
          rw [Nat.mod_eq_of_lt (by omega)] at h3
          exact ⟨x - (vo + ((a * J + (q * 8 + r)) * C + C / 8 * 8)), h3, by omega⟩
        · rintro ⟨c, hc, rfl⟩
          refine ⟨by omega, by omega, ?_⟩
          rw [show vo + ((a * J + (q * 8 + r)) * C + (C / 8 * 8 + c)) - (vo + ((a * J + (q * 8 + r)) * C + C / 8 * 8)) = c by
            omega, Nat.mod_eq_of_lt (by omega)]
          exact hc
      by_cases hB : Box vo J C a (q * 8 + r) 1 (C / 8 * 8) (C - C / 8 * 8) x
      · obtain ⟨c, hc, hx⟩ := hbox.1 hB
        rw [Finset.sum_eq_single c, if_pos hx]
        · exact (ind_pos hB).symm
        · intro c' _ hne
          rw [if_neg (by omega)]
        · intro h; exact absurd (mem_range.2 hc) h
      · refine Eq.trans ?_ (ind_neg hB).symm
        refine Finset.sum_eq_zero fun c hc => if_neg fun hx => hB (hbox.2 ⟨c, mem_range.1 hc, hx⟩)

/-! ## One column -/

theorem contr_one {B J : Nat} {T : Nat → Nat → α} {U : Nat → α} {a j : Nat} (hj : j < J) :
    contr B 1 J T U (a * J + j) = ∑ b ∈ range B, T j b * U (a * B + b) := by
  have := contr_at (B := B) (T := T) (U := U) (a := a) hj (show 0 < 1 by omega)
  simpa only [Nat.mul_one, Nat.add_zero] using this

theorem singleTile_adds {a j0 n A B J L : Nat} {t : Buf α} {tof : Nat} {tm : TMode} {u : Buf α} {uo vo : Nat}
    {junk : Nat → Reg α} (ht : tof + B * J ≤ t.len) (hu : uo + A * B ≤ u.len) (hv : vo + A * J ≤ L) (hA : 0 < A)
    (hn : n ≤ 4) (ha : a + n ≤ A) (hj : j0 + 8 ≤ J) :
    Adds (tile (4 * (8 / 4)) n (8 / 4) (fun aa jj => vo + ((a + aa) * J + j0 + jj * 4)) junk
      (accSingle a j0 n 8 B J t tof tm u uo)) L (ind (Box vo A J 0 a n j0 8) (Gf B 1 J t tof tm u uo vo)) := by
  refine (tile_adds (base := vo + ((0 * A + a) * J + j0)) (S := J) (w := 8) (G := Gf B 1 J t tof tm u uo vo) (by omega)
    (accSingle_adds ht hu ha hj (by omega)) (fun r _ k _ => ?_) (fun r hr k hk => ?_) (by omega) (by omega)
    (by omega) (fun r hr k hk l => ?_)).congrU (fun x => owned_box ha hj (by omega) hA) fun _ _ => rfl
  · ring
  · have h := enc_lt (show a + r < A by omega) (show j0 + (k * 4 + 3) < J by omega)
    omega
  · rw [if_pos (by omega), Finset.sum_apply]
    have e : vo + ((0 * A + a) * J + j0) + r * J + (k * 4 + l.val) - vo = (a + r) * J + (j0 + (k * 4 + l.val)) := by
      rw [Nat.add_assoc vo, Nat.add_assoc vo, Nat.add_sub_cancel_left]
      ring
    rw [Gf, e, contr_one (by omega)]
    refine Finset.sum_congr rfl fun b _ => ?_
    rw [if_pos (by omega), show (r * (8 / 4) + k) / 2 = r by omega, show (r * (8 / 4) + k) % 2 = k by omega]

theorem singleTail_adds {a j0 A B J L : Nat} {t : Buf α} {tof : Nat} {tm : TMode} {u : Buf α} {uo vo : Nat}
    {junk : Nat → Reg α} (ht : tof + B * J ≤ t.len) (hu : uo + A * B ≤ u.len) (hv : vo + A * J ≤ L)
    (ha : a + 4 < A) (hj : j0 < J) (hj2 : 2 ≤ J → j0 + 4 ≤ 2 * J) (h1 : J = 1 → vo + a + 7 ≤ L) :
    Adds (tile 4 4 1 (fun aa _ => vo + ((a + aa) * J + j0)) junk
      (accSingleTail a j0 4 B J t tof tm u uo)) L
      (ind (Box vo A J 0 a 4 j0 (min 4 (J - j0))) (Gf B 1 J t tof tm u uo vo)) := by
  refine (tile_adds (base := vo + ((0 * A + a) * J + j0)) (S := J) (w := min 4 (J - j0)) (G := Gf B 1 J t tof tm u uo vo)
    (by omega) (accSingleTail_adds ht hu (by omega) hj le_rfl) (fun r _ k hk => ?_) (fun r hr k hk => ?_) (by omega) (by omega)
    (by omega) (fun r hr k hk l => ?_)).congrU (fun x => owned_box (by omega) (by omega) (by omega) (by omega)) fun _ _ => rfl
  · obtain rfl : k = 0 := by omega
    ring
  · by_cases hJ : J = 1
    · have := h1 hJ
      subst hJ
      omega
    · have h := enc_lt (show a + r + 1 < A by omega) (show J - 1 < J by omega)
      have e : (a + r + 1) * J + (J - 1) = (a + r) * J + (2 * J - 1) := by
        obtain ⟨J', rfl⟩ : ∃ J', J = J' + 1 := ⟨J - 1, by omega⟩
        have : 2 * (J' + 1) - 1 = (J' + 1) + (J' + 1 - 1) := by omega
        rw [this]
        ring
      have := hj2 (by omega)
      omega
  · obtain rfl : k = 0 := by omega
    rw [Nat.mul_one, Nat.add_zero, Finset.sum_apply, Nat.zero_mul, Nat.zero_add]
    by_cases hl : l.val < min 4 (J - j0)
    · rw [if_pos hl]
      have e : vo + ((0 * A + a) * J + j0) + r * J + l.val - vo = (a + r) * J + (j0 + l.val) := by
        rw [Nat.add_assoc vo, Nat.add_assoc vo, Nat.add_sub_cancel_left]
        ring
      rw [Gf, e, contr_one (by omega)]
      refine Finset.sum_congr rfl fun b _ => ?_
      rw [if_pos hr, if_pos (by omega)]
    · rw [if_neg hl]
      refine Finset.sum_eq_zero fun b _ => ?_
      rw [if_pos hr, if_neg (by have := l.2; omega), zero_mul]

theorem avxSingle_adds {A B J L : Nat} {t : Buf α} {tof : Nat} {tm : TMode} {u : Buf α} {uo vo : Nat}
    {junk : Nat → Reg α} (ht : tof + B * J ≤ t.len) (hu : uo + A * B ≤ u.len) (hv : vo + A * J ≤ L)
    (hA : 0 < A) (hJ : 0 < J) (h1 : J = 1 → 0 < brk A 4 → vo + (brk A 4).toNat + 3 ≤ L) :
    Adds (fun v => avxSingle 4 8 A B J t tof tm junk u uo v vo) L
      (ind (fun x => vo ≤ x ∧ (x - vo) / J / A = 0) (Gf B 1 J t tof tm u uo vo)) := by
  obtain ⟨q, hq, hq1, hq2⟩ := brk4 hA
  have hm : ∀ x, (x - vo) / J % A < A := fun x => Nat.mod_lt _ hA
  have hmJ : ∀ x, (x - vo) % J < J := fun x => Nat.mod_lt _ hJ
  rw [hq, Int.toNat_natCast] at h1
  unfold avxSingle
  simp only [hq, Int.toNat_natCast, if_neg (show ¬ (((q * 4 : Nat) : Int) < 0 ∧ 0 < B ∧ J / 8 * 8 < J) by omega)]
  refine Adds.seqU (G := Gf B 1 J t tof tm u uo vo)
    (S := fun x => vo ≤ x ∧ (x - vo) / J / A = 0 ∧ (x - vo) / J % A < A / 4 * 4 ∧ (x - vo) % J < J / 8 * 8)
    (S' := fun x => vo ≤ x ∧ (x - vo) / J / A = 0 ∧ ¬ ((x - vo) / J % A < A / 4 * 4 ∧ (x - vo) % J < J / 8 * 8)) ?_ ?_
    (fun x h h' => h'.2.2 h.2.2) fun x => ⟨fun h => by
      by_cases hh : (x - vo) / J % A < A / 4 * 4 ∧ (x - vo) % J < J / 8 * 8
      · exact Or.inl ⟨h.1, h.2, hh⟩
      · exact Or.inr ⟨h.1, h.2, hh⟩, fun h => h.elim (fun h => ⟨h.1, h.2.1⟩) fun h => ⟨h.1, h.2.1⟩⟩
  · refine Adds.loopU (G := Gf B 1 J t tof tm u uo vo) (S := fun a x => vo ≤ x ∧ (x - vo) / J / A = 0 ∧
      (a * 4 ≤ (x - vo) / J % A ∧ (x - vo) / J % A < a * 4 + 4) ∧ (x - vo) % J < J / 8 * 8) (fun a ha => ?_)
      (fun i _ i' _ x h h' => by omega)
      fun x => ⟨fun h => ⟨(x - vo) / J % A / 4, by omega, by omega⟩, fun ⟨i, hi, h⟩ => by omega⟩
    refine Adds.loopU (G := Gf B 1 J t tof tm u uo vo) (S := fun j x => Box vo A J 0 (a * 4) 4 (j * 8) 8 x) (fun j hj => ?_)
      (fun i _ i' _ x h h' => by unfold Box at h h'; omega)
      fun x => ⟨fun h => ⟨(x - vo) % J / 8, by omega, by unfold Box; omega⟩, fun ⟨i, hi, h⟩ => by unfold Box at h; omega⟩
    exact singleTile_adds ht hu hv hA le_rfl (by omega) (by omega)
  refine Adds.seqU (G := Gf B 1 J t tof tm u uo vo)
    (S := fun x => vo ≤ x ∧ (x - vo) / J / A = 0 ∧ A / 4 * 4 ≤ (x - vo) / J % A ∧ (x - vo) % J < J / 8 * 8)
    (S' := fun x => vo ≤ x ∧ (x - vo) / J / A = 0 ∧ J / 8 * 8 ≤ (x - vo) % J) ?_ ?_
    (fun x h h' => by omega) fun x => by omega
  · refine Adds.loopU (G := Gf B 1 J t tof tm u uo vo)
      (S := fun j x => Box vo A J 0 (A / 4 * 4) (A - A / 4 * 4) (j * 8) 8 x) (fun j hj => ?_)
      (fun i _ i' _ x h h' => by unfold Box at h h'; omega)
      fun x => ⟨fun h => ⟨(x - vo) % J / 8, by omega, by have := hm x; unfold Box; omega⟩,
        fun ⟨i, hi, h⟩ => by unfold Box at h; omega⟩
    exact singleTile_adds ht hu hv hA (by omega) (by omega) (by omega)
  refine Adds.seqU (G := Gf B 1 J t tof tm u uo vo)
    (S := fun x => vo ≤ x ∧ (x - vo) / J / A = 0 ∧ (x - vo) / J % A < q * 4 ∧ J / 8 * 8 ≤ (x - vo) % J)
    (S' := fun x => vo ≤ x ∧ (x - vo) / J / A = 0 ∧ q * 4 ≤ (x - vo) / J % A ∧ J / 8 * 8 ≤ (x - vo) % J) ?_ ?_
    (fun x h h' => by omega) fun x => by omega
  · refine Adds.loopU (G := Gf B 1 J t tof tm u uo vo) (S := fun i x => vo ≤ x ∧ (x - vo) / J / A = 0 ∧
      (x - vo) / J % A < q * 4 ∧ (J / 8 * 8 + i * 4 ≤ (x - vo) % J ∧ (x - vo) % J < J / 8 * 8 + i * 4 + 4)) (fun i hi => ?_)
      (fun i _ i' _ x h h' => by omega)
      fun x => ⟨fun h => ⟨((x - vo) % J - J / 8 * 8) / 4, by have := hmJ x; omega, by omega⟩, fun ⟨i, hi, h⟩ => by omega⟩
    refine Adds.loopU (G := Gf B 1 J t tof tm u uo vo)
      (S := fun a x => Box vo A J 0 (a * 4) 4 (J / 8 * 8 + i * 4) (min 4 (J - (J / 8 * 8 + i * 4))) x)
      (fun a ha => ?_) (fun i _ i' _ x h h' => by unfold Box at h h'; omega)
      fun x => ⟨fun h => ⟨(x - vo) / J % A / 4, by omega, by have := hmJ x; unfold Box; omega⟩,
        fun ⟨a, ha, h⟩ => by unfold Box at h; omega⟩
    refine singleTail_adds ht hu hv (by omega) (by omega) (by omega) fun hJ1 => ?_
    have := h1 hJ1 (by omega)
    omega
  · refine (Adds.loop (c := fun b x => ∑ j ∈ range (J - J / 8 * 8), ∑ r ∈ range (A - q * 4),
      if x = vo + ((q * 4 + r) * J + (J / 8 * 8 + j)) then tmat t tof tm B J (J / 8 * 8 + j) b *
        u.val (uo + ((q * 4 + r) * B + b)) else 0) fun b hb => Adds.loop fun j hj => ?_).congr fun x => ?_
    · refine (Adds.loop (c := fun r x => if x = vo + ((q * 4 + r) * J + (J / 8 * 8 + j)) then
          tmat t tof tm B J (J / 8 * 8 + j) b * u.val (uo + ((q * 4 + r) * B + b)) else 0)
        (body := fun r v => do
          let x ← u.rd (uo + ((q * 4 + r) * B + b))
          v.addAt (vo + ((q * 4 + r) * J + (J / 8 * 8 + j))) (tmat t tof tm B J (J / 8 * 8 + j) b * x))
        fun r hr => ?_).of_eq fun v _ => ?_
      · refine (Adds.addAt (L := L) ?_ _).of_eq fun v _ => ?_
        · have := enc_lt (show q * 4 + r < A by omega) (show J / 8 * 8 + j < J by omega)
          omega
        · have := enc_lt (show q * 4 + r < A by omega) hb
          rw [Buf.rd_lt (by omega), Res.bind_ok]
      · rw [trd ht (by omega) hb, Res.bind_ok]
    · rw [Finset.sum_comm]
      have key : ∀ j ∈ range (J - J / 8 * 8), (∑ b ∈ range B, ∑ r ∈ range (A - q * 4),
          if x = vo + ((q * 4 + r) * J + (J / 8 * 8 + j)) then tmat t tof tm B J (J / 8 * 8 + j) b *
            u.val (uo + ((q * 4 + r) * B + b)) else 0) =
          ∑ r ∈ range (A - q * 4), if x = vo + ((q * 4 + r) * J + (J / 8 * 8 + j)) then Gf B 1 J t tof tm u uo vo x else 0 := by
        intro j hj
        have hj := mem_range.1 hj
        rw [Finset.sum_comm]
        refine Finset.sum_congr rfl fun r _ => ?_
        by_cases hx : x = vo + ((q * 4 + r) * J + (J / 8 * 8 + j))
        · simp only [if_pos hx]
          rw [Gf, hx, Nat.add_sub_cancel_left, contr_one (by omega)]
        · simp only [if_neg hx]
          exact Finset.sum_const_zero
      rw [Finset.sum_congr rfl key]
      by_cases hS : vo ≤ x ∧ (x - vo) / J / A = 0 ∧ q * 4 ≤ (x - vo) / J % A ∧ J / 8 * 8 ≤ (x - vo) % J
      · rw [ind_pos hS]
        obtain ⟨s1, s2, s3, s4⟩ := hS
        have hx : x = vo + ((x - vo) / J % A * J + (x - vo) % J) := by
          have e1 : x - vo = ((x - vo) / J / A * A + (x - vo) / J % A) * J + (x - vo) % J := by
            rw [Nat.mul_comm ((x - vo) / J / A), Nat.div_add_mod, Nat.mul_comm ((x - vo) / J), Nat.div_add_mod]
          rw [s2, Nat.zero_mul, Nat.zero_add] at e1
          omega
        have m1 := hm x
        have m2 := hmJ x
        rw [Finset.sum_eq_single ((x - vo) % J - J / 8 * 8), Finset.sum_eq_single ((x - vo) / J % A - q * 4), if_pos]
        · rw [Nat.add_sub_cancel' s3, Nat.add_sub_cancel' s4]; exact hx
        · intro r hr hne
          refine if_neg fun hx' => hne ?_
          have hr := mem_range.1 hr
          have e : x - vo = (q * 4 + r) * J + (J / 8 * 8 + ((x - vo) % J - J / 8 * 8)) := by omega
          have e2 : (x - vo) / J % A = q * 4 + r := by
            rw [e, div_enc (by omega), Nat.mod_eq_of_lt (by omega)]
          omega
        · intro h; exact absurd (mem_range.2 (by omega)) h
        · intro j hj hne
          refine Finset.sum_eq_zero fun r _ => if_neg fun hx' => hne ?_
          have hj := mem_range.1 hj
          have e : x - vo = (q * 4 + r) * J + (J / 8 * 8 + j) := by omega
          have e2 : (x - vo) % J = J / 8 * 8 + j := by rw [e, mod_enc (by omega)]
          omega
        · intro h; exact absurd (mem_range.2 (by omega)) h
      · rw [ind_neg hS]
        refine Finset.sum_eq_zero fun j hj => Finset.sum_eq_zero fun r hr => if_neg fun hx' => hS ?_
        have hj := mem_range.1 hj
        have hr := mem_range.1 hr
        have e : x - vo = (q * 4 + r) * J + (J / 8 * 8 + j) := by omega
        refine ⟨by omega, ?_⟩
        rw [e, div_enc (by omega), mod_enc (by omega), Nat.div_eq_of_lt (by omega), Nat.mod_eq_of_lt (by omega)]
        exact ⟨rfl, by omega, by omega⟩

/-! ## The contraction -/

/-- With one column and one row of results, whole registers are loaded and stored beyond the last rows; the array has to go
on there. -/
def AvxFits (A C J vo L : Nat) : Prop := C = 1 → J = 1 → 0 < brk A 4 → vo + (brk A 4).toNat + 3 ≤ L

theorem region_iff {vo A J C x : Nat} (hC : 0 < C) (hJ : 0 < J) :
    (vo ≤ x ∧ (x - vo) / C / J < A) ↔ vo ≤ x ∧ x < vo + A * J * C := by
  rw [Nat.div_div_eq_div_mul, Nat.div_lt_iff_lt_mul (Nat.mul_pos hC hJ), Nat.mul_comm C, ← Nat.mul_assoc]
  omega

theorem contractAvx_eq {junk : Nat → Reg α} {A B C J : Nat} {t : Buf α} {tof : Nat} {tm : TMode} {add : Bool} {u : Buf α}
    {uo : Nat} {v : Buf α} {vo : Nat} (hA : 0 < A) (hJ : 0 < J)
    (ht : tof + B * J ≤ t.len) (hu : uo + A * B * C ≤ u.len) (hv : vo + A * J * C ≤ v.len) (hf : AvxFits A C J vo v.len) :
    contractAvx junk A B C J t tof tm add u uo v vo =
      .ok (contrOut A B C J (tmat t tof tm B J) add (fun i => u.val (uo + i)) v vo) := by
  have core : Adds (fun v => if C = 1 then avxSingle 4 8 A B J t tof tm junk u uo v vo
      else do
        let v ← if 8 ≤ C then avxBlocked 4 8 A B C J t tof tm junk u uo v vo else Res.ok v
        if C % 8 ≠ 0 then avxRemainder 8 8 A B C J t tof tm junk u uo v vo else Res.ok v) v.len
      (ind (fun x => vo ≤ x ∧ x < vo + A * J * C) (Gf B C J t tof tm u uo vo)) := by
    by_cases h1 : C = 1
    · subst h1
      simp only [if_true]
      refine (avxSingle_adds ht (by simpa using hu) (by simpa using hv) hA hJ fun h => hf rfl h).congrU (fun x => ?_)
        fun _ _ => rfl
      rw [← region_iff (by omega) hJ, Nat.div_one, Nat.div_div_eq_div_mul, Nat.div_eq_zero_iff_lt (Nat.mul_pos hJ hA),
        Nat.div_lt_iff_lt_mul hJ, Nat.mul_comm]
    · simp only [if_neg h1]
      by_cases h0 : C = 0
      · subst h0
        simp only [show ¬ 8 ≤ 0 by omega, if_false, Nat.zero_mod, ne_eq, not_true_eq_false, Res.bind_ok]
        exact Adds.noneU fun x h => by rw [Nat.mul_zero] at h; omega
      have hmC : ∀ x, (x - vo) % C < C := fun x => Nat.mod_lt _ (by omega)
      have hrem : Adds (fun v => if C % 8 ≠ 0 then avxRemainder 8 8 A B C J t tof tm junk u uo v vo else Res.ok v) v.len
          (ind (fun x => vo ≤ x ∧ (x - vo) / C / J < A ∧ C / 8 * 8 ≤ (x - vo) % C) (Gf B C J t tof tm u uo vo)) := by
        by_cases h8 : C % 8 ≠ 0
        · simp only [if_pos h8]
          exact avxRemainder_adds ht hu hv hJ (by omega)
        · simp only [if_neg h8]
          exact Adds.noneU fun x h => by have := hmC x; omega
      by_cases h8 : 8 ≤ C
      · simp only [if_pos h8]
        exact Adds.seqU (G := Gf B C J t tof tm u uo vo) (T := fun x => vo ≤ x ∧ x < vo + A * J * C)
          (avxBlocked_adds ht hu hv hJ (by omega)) hrem (fun x h h' => by omega)
          fun x => by rw [← region_iff (by omega) hJ]; omega
      · simp only [if_neg h8, Res.bind_ok]
        exact hrem.congrU (fun x => by rw [← region_iff (by omega) hJ]; omega) fun _ _ => rfl
  unfold contractAvx
  cases add with
  | true =>
    simp only [if_true, Res.bind_ok]
    refine (core v rfl).trans ?_
    simp only [contrOut, if_true]
    congr 2
    funext x
    by_cases hx : vo ≤ x ∧ x < vo + A * J * C
    · rw [ind_pos hx, if_pos hx]
    · rw [ind_neg hx, if_neg hx, add_zero]
  | false =>
    simp only [Bool.false_eq_true, if_false]
    rw [zero_eq hv]
    simp only [Res.bind_ok]
    refine (core ⟨v.len, fun x => if vo ≤ x ∧ x < vo + A * J * C then 0 else v.val x⟩ rfl).trans ?_
    simp only [contrOut, Bool.false_eq_true, if_false]
    congr 2
    funext x
    by_cases hx : vo ≤ x ∧ x < vo + A * J * C
    · rw [ind_pos hx, if_pos hx, if_pos hx]
    · rw [ind_neg hx, if_neg hx, if_neg hx, add_zero]

end
end Basis
end Verif
