import Verif.Basis.Model
import Verif.Restriction.Apply

/-!
# Tensor contractions as sums (helper lemmas)
-/

namespace Verif

open Finset

theorem Sets.exact {α : Type _} {f : Buf α → Res (Buf α)} {L : Nat} {S : Nat → Prop} [DecidablePred S] {g : Nat → α}
    (h : Sets f L S g) {v : Buf α} (hv : v.len = L) :
    f v = .ok ⟨L, fun j => if S j then g j else v.val j⟩ := by
  obtain ⟨v', e, l, a, b⟩ := h v hv
  rw [e]
  congr 1
  ext j
  · simpa using l
  · by_cases hj : S j
    · simp [hj, a j hj]
    · simp [hj, b j hj]

theorem sum_enc2 {β : Type _} [AddCommMonoid β] (A C y : Nat) (F : Nat → Nat → β) :
    (∑ a ∈ range A, ∑ c ∈ range C, if y = a * C + c then F a c else 0) =
      if y < A * C then F (y / C) (y % C) else 0 := by
  rw [← Finset.sum_congr rfl (fun a _ => Finset.sum_congr rfl (fun c hc => show
    (if y = a * C + c then F ((a * C + c) / C) ((a * C + c) % C) else 0) = _ by
      rw [div_enc (mem_range.1 hc), mod_enc (mem_range.1 hc)]))]
  rw [← Restriction.sum_range_mul (fun z => if y = z then F (z / C) (z % C) else 0), Finset.sum_ite_eq]
  simp

theorem sum_enc3 {β : Type _} [AddCommMonoid β] (A J C y : Nat) (F : Nat → Nat → Nat → β) :
    (∑ a ∈ range A, ∑ j ∈ range J, ∑ c ∈ range C, if y = (a * J + j) * C + c then F a j c else 0) =
      if y < A * J * C then F (y / C / J) (y / C % J) (y % C) else 0 := by
  rw [← sum_enc2 (A * J) C y (fun z c => F (z / J) (z % J) c), Restriction.sum_range_mul]
  refine Finset.sum_congr rfl (fun a _ => Finset.sum_congr rfl (fun j hj => Finset.sum_congr rfl (fun c _ => ?_)))
  rw [div_enc (mem_range.1 hj), mod_enc (mem_range.1 hj)]

namespace Basis

open Restriction (TMode)
variable {α : Type} [CommRing α]

/-- The matrix used by a contraction from `B` to `J` entries: `t` row-major without transpose, its transpose else. -/
def tmat (t : Buf α) (tof : Nat) (tm : TMode) (B J j b : Nat) : α :=
  match tm with
  | .noTranspose => t.val (tof + (j * B + b))
  | .transpose => t.val (tof + (b * J + j))

/-- Entry `y` of the contraction of `U` (shape `A, B, C`) with `T` on the middle index. -/
def contr (B C J : Nat) (T : Nat → Nat → α) (U : Nat → α) (y : Nat) : α :=
  ∑ b ∈ range B, T (y / C % J) b * U ((y / C / J * B + b) * C + y % C)

theorem contrCore_adds (A B C J : Nat) (t : Buf α) (tof : Nat) (tm : TMode) (u : Buf α) (uo vo L : Nat)
    (ht : tof + B * J ≤ t.len) (hu : uo + A * B * C ≤ u.len) (hv : vo + A * J * C ≤ L) :
    Adds (fun v => loop A (fun a v => loop B (fun b v => loop J (fun j v => do
      let tq ← t.rd (tof + (j * (tStride tm B J).1 + b * (tStride tm B J).2))
      loop C (fun c v => do
        let x ← u.rd (uo + ((a * B + b) * C + c))
        v.addAt (vo + ((a * J + j) * C + c)) (tq * x)) v) v) v) v) L
      (fun x => if vo ≤ x ∧ x < vo + A * J * C then contr B C J (tmat t tof tm B J) (fun i => u.val (uo + i)) (x - vo)
        else 0) := by
  refine (Adds.loop (c := fun a x => ∑ b ∈ range B, ∑ j ∈ range J, ∑ c ∈ range C,
    if x = vo + ((a * J + j) * C + c) then tmat t tof tm B J j b * u.val (uo + ((a * B + b) * C + c)) else 0)
    (fun a ha => Adds.loop (fun b hb => Adds.loop (fun j hj => ?_)))).congr ?_
  · have h1 : t.rd (tof + (j * (tStride tm B J).1 + b * (tStride tm B J).2)) = .ok (tmat t tof tm B J j b) := by
      cases tm <;> simp only [tStride]
      · have := enc_lt hj hb
        rw [Nat.mul_comm J] at this
        simp only [tmat, Nat.mul_one]
        exact Buf.rd_lt (by omega)
      · have := enc_lt hb hj
        simp only [tmat, Nat.mul_one]
        rw [Nat.add_comm j]
        exact Buf.rd_lt (by omega)
    refine Adds.of_eq (f' := fun v => loop C (fun c v => do
        let x ← u.rd (uo + ((a * B + b) * C + c))
        v.addAt (vo + ((a * J + j) * C + c)) (tmat t tof tm B J j b * x)) v) ?_ (fun v _ => by rw [h1]; rfl)
    refine Adds.loop (fun c hc => ?_)
    refine Adds.of_eq (Adds.addAt (i := vo + ((a * J + j) * C + c)) ?_ _) (fun v _ => ?_)
    · have := enc_lt (enc_lt ha hj) hc; omega
    · rw [Buf.rd_lt (by have := enc_lt (enc_lt ha hb) hc; omega), Res.bind_ok]
  · intro x
    have key : ∀ a ∈ range A, (∑ b ∈ range B, ∑ j ∈ range J, ∑ c ∈ range C,
        if x = vo + ((a * J + j) * C + c) then tmat t tof tm B J j b * u.val (uo + ((a * B + b) * C + c)) else 0) =
        ∑ j ∈ range J, ∑ c ∈ range C, if x = vo + ((a * J + j) * C + c) then
          ∑ b ∈ range B, tmat t tof tm B J j b * u.val (uo + ((a * B + b) * C + c)) else 0 := by
      intro a _
      rw [Finset.sum_comm]
      refine Finset.sum_congr rfl (fun j _ => ?_)
      rw [Finset.sum_comm]
      refine Finset.sum_congr rfl (fun c _ => ?_)
      split <;> simp
    rw [Finset.sum_congr rfl key]
    by_cases hx : vo ≤ x
    · have e : ∀ a j c, (x = vo + ((a * J + j) * C + c)) = (x - vo = (a * J + j) * C + c) := by
        intro a j c; apply propext; omega
      simp only [e]
      rw [sum_enc3 A J C (x - vo) (fun a j c => ∑ b ∈ range B, tmat t tof tm B J j b * u.val (uo + ((a * B + b) * C + c)))]
      by_cases hy : x < vo + A * J * C
      · rw [if_pos (by omega), if_pos ⟨hx, hy⟩]; rfl
      · rw [if_neg (by omega), if_neg (by omega)]
    · rw [if_neg (by omega)]
      refine Finset.sum_eq_zero (fun a _ => Finset.sum_eq_zero (fun j _ => Finset.sum_eq_zero (fun c _ => ?_)))
      rw [if_neg (by omega)]

/-- What a contraction leaves in the output array. -/
def contrOut (A B C J : Nat) (T : Nat → Nat → α) (add : Bool) (U : Nat → α) (v : Buf α) (vo : Nat) : Buf α :=
  ⟨v.len, fun x => if vo ≤ x ∧ x < vo + A * J * C then (if add then v.val x else 0) + contr B C J T U (x - vo)
    else v.val x⟩

theorem zero_eq {v : Buf α} {vo n : Nat} (h : vo + n ≤ v.len) :
    loop n (fun q v => v.wr (vo + q) 0) v = .ok ⟨v.len, fun x => if vo ≤ x ∧ x < vo + n then 0 else v.val x⟩ := by
  refine Sets.exact (L := v.len) (S := fun x => vo ≤ x ∧ x < vo + n) (g := fun _ => 0) ?_ rfl
  refine (Sets.loop (S := fun q x => x = vo + q) (g := fun _ => (0 : α)) (fun q hq => Sets.wr (by omega) rfl)).congr ?_
    (by simp)
  intro x; constructor
  · rintro ⟨i, hi, rfl⟩; omega
  · intro hx; exact ⟨x - vo, by omega, by omega⟩

theorem contract_eq (A B C J : Nat) (t : Buf α) (tof : Nat) (tm : TMode) (add : Bool) (u : Buf α) (uo : Nat)
    (v : Buf α) (vo : Nat)
    (ht : tof + B * J ≤ t.len) (hu : uo + A * B * C ≤ u.len) (hv : vo + A * J * C ≤ v.len) :
    contract A B C J t tof tm add u uo v vo =
      .ok (contrOut A B C J (tmat t tof tm B J) add (fun i => u.val (uo + i)) v vo) := by
  have core := contrCore_adds A B C J t tof tm u uo vo v.len ht hu hv
  unfold contract
  simp only
  cases add with
  | true =>
    simp only [if_true, Res.bind_ok]
    refine (core v rfl).trans ?_
    simp only [contrOut, if_true]
    congr 2
    funext x
    split <;> simp
  | false =>
    simp only [Bool.false_eq_true, if_false]
    rw [zero_eq hv]
    simp only [Res.bind_ok]
    refine (core ⟨v.len, fun x => if vo ≤ x ∧ x < vo + A * J * C then 0 else v.val x⟩ rfl).trans ?_
    simp only [contrOut, Bool.false_eq_true, if_false]
    congr 2
    funext x
    split <;> simp

theorem contractOpt_eq (A B C J : Nat) (t : Buf α) (tof : Nat) (tm : TMode) (add : Bool) (u : Buf α) (uo : Nat)
    (v : Buf α) (vo : Nat) : contractOpt A B C J t tof tm add u uo v vo = contract A B C J t tof tm add u uo v vo := by
  unfold contractOpt contract contractCoreOpt
  by_cases hC : C = 1
  · subst hC; simp
  · simp [hC]

end Basis
end Verif
