import Verif.Basis.AvxLemmas

/-!
# Contractions with vector registers as sums (helper lemmas)
-/

namespace Verif
namespace Basis

open Restriction (TMode)
open Finset

section
variable {α : Type} [CommRing α]

/-! ## Registers -/

theorem trd {t : Buf α} {tof B J : Nat} {tm : TMode} (ht : tof + B * J ≤ t.len) {j b : Nat} (hj : j < J) (hb : b < B) :
    t.rd (tof + (j * (tStride tm B J).1 + b * (tStride tm B J).2)) = .ok (tmat t tof tm B J j b) := by
  cases tm <;> simp only [tStride]
  · have := enc_lt hj hb
    rw [Nat.mul_comm J] at this
    simp only [tmat, Nat.mul_one]
    exact Buf.rd_lt (by omega)
  · have := enc_lt hb hj
    simp only [tmat, Nat.mul_one]
    rw [Nat.add_comm j]
    exact Buf.rd_lt (by omega)

theorem set4_eq {w : Nat} {f : Nat → α} {x0 x1 x2 x3 : α} (h0 : x0 = if 0 < w then f 0 else 0)
    (h1 : x1 = if 1 < w then f 1 else 0) (h2 : x2 = if 2 < w then f 2 else 0) (h3 : x3 = if 3 < w then f 3 else 0) :
    set4 x0 x1 x2 x3 = fun l : Fin 4 => if l.val < w then f l.val else 0 := by
  funext l
  obtain ⟨l, hl⟩ := l
  have : l = 0 ∨ l = 1 ∨ l = 2 ∨ l = 3 := by omega
  rcases this with rfl | rfl | rfl | rfl
  · simpa [set4] using h0
  · simpa [set4] using h1
  · simpa [set4] using h2
  · simpa [set4] using h3

theorem all4_eq {ent : Nat → Res α} {f : Nat → α} {w : Nat} (hw : 4 ≤ w) (h : ∀ l < 4, ent l = .ok (f l)) :
    all4 ent = .ok fun l : Fin 4 => if l.val < w then f l.val else 0 := by
  unfold all4
  rw [h 3 (by omega), h 2 (by omega), h 1 (by omega), h 0 (by omega)]
  simp only [Res.bind_ok]
  rw [set4_eq (w := w) (f := f)] <;> rw [if_pos (by omega)]

theorem tail4_eq {ent : Nat → Res α} {full : Res (Reg α)} {f : Nat → α} {w : Nat} (hw : 0 < w)
    (h : ∀ l < w, l < 4 → ent l = .ok (f l)) (hf : 4 ≤ w → full = .ok fun l : Fin 4 => if l.val < w then f l.val else 0) :
    tail4 ent full w = .ok fun l : Fin 4 => if l.val < w then f l.val else 0 := by
  unfold tail4
  split_ifs with h1 h2 h3
  · subst h1
    rw [h 0 (by omega) (by omega)]
    simp only [Res.bind_ok]
    rw [set4_eq (w := 1) (f := f)] <;> rfl
  · subst h2
    rw [h 1 (by omega) (by omega), h 0 (by omega) (by omega)]
    simp only [Res.bind_ok]
    rw [set4_eq (w := 2) (f := f)] <;> rfl
  · subst h3
    rw [h 2 (by omega) (by omega), h 1 (by omega) (by omega), h 0 (by omega) (by omega)]
    simp only [Res.bind_ok]
    rw [set4_eq (w := 3) (f := f)] <;> rfl
  · exact hf (by omega)

/-! ## Accumulation -/

theorem accBlocked_adds {a j c n CC A B C J N : Nat} {t : Buf α} {tof : Nat} {tm : TMode} {u : Buf α} {uo : Nat}
    (ht : tof + B * J ≤ t.len) (hu : uo + A * B * C ≤ u.len) (ha : a < A) (hj : j + n ≤ J)
    (hc : c + CC / 4 * 4 ≤ C) (hN : n * (CC / 4) ≤ N) :
    Adds (accBlocked a j c n CC B C J t tof tm u uo) N (fun i => ∑ b ∈ range B, if i < n * (CC / 4) then
      (fun l : Fin 4 => tmat t tof tm B J (j + i / (CC / 4)) b * u.val (uo + ((a * B + b) * C + (c + (i % (CC / 4) * 4 + l.val)))))
      else 0) := by
  unfold accBlocked
  refine (Adds.loop (c := fun b i => if i < n * (CC / 4) then
    (fun l : Fin 4 => tmat t tof tm B J (j + i / (CC / 4)) b * u.val (uo + ((a * B + b) * C + (c + (i % (CC / 4) * 4 + l.val)))))
      else 0) fun b hb => ?_)
  refine (Adds.loop (c := fun jj i => ∑ cc ∈ range (CC / 4), if i = jj * (CC / 4) + cc then
    (fun l : Fin 4 => tmat t tof tm B J (j + jj) b * u.val (uo + ((a * B + b) * C + (c + (cc * 4 + l.val))))) else 0)
    fun jj hjj => ?_).congr fun i => ?_
  · refine (Adds.loop (c := fun cc i => if i = jj * (CC / 4) + cc then
      (fun l : Fin 4 => tmat t tof tm B J (j + jj) b * u.val (uo + ((a * B + b) * C + (c + (cc * 4 + l.val))))) else 0)
      (body := fun cc vv => do
        let x ← loadu u (uo + ((a * B + b) * C + c + cc * 4))
        vv.addAt (jj * (CC / 4) + cc) (set1 (tmat t tof tm B J (j + jj) b) * x)) fun cc hcc => ?_).of_eq fun vv _ => ?_
    · refine (Adds.addAt (L := N) (i := jj * (CC / 4) + cc) (by have := enc_lt hjj hcc; omega) _).of_eq fun vv _ => ?_
      have hb' := enc_lt (enc_lt ha hb) (show c + (cc * 4 + 3) < C by omega)
      rw [loadu_lt (by omega), Res.bind_ok]
      congr 1
      funext l
      simp only [Pi.mul_apply, set1]
      rw [show uo + ((a * B + b) * C + c + cc * 4) + l.val = uo + ((a * B + b) * C + (c + (cc * 4 + l.val))) by omega]
    · rw [trd ht (by omega) hb, Res.bind_ok]
  · rw [sum_enc2 n (CC / 4) i (fun jj cc => (fun l : Fin 4 =>
      tmat t tof tm B J (j + jj) b * u.val (uo + ((a * B + b) * C + (c + (cc * 4 + l.val))))))]

theorem accRemainder_adds {a j c n A B C J N : Nat} {t : Buf α} {tof : Nat} {tm : TMode} {u : Buf α} {uo : Nat}
    (ht : tof + B * J ≤ t.len) (hu : uo + A * B * C ≤ u.len) (ha : a < A) (hj : j + n ≤ J)
    (hc : c < C) (hN : n ≤ N) :
    Adds (accRemainder a j c n B C J t tof tm u uo) N (fun i => ∑ b ∈ range B, if i < n then
      (fun l : Fin 4 => (if l.val < C - c then u.val (uo + ((a * B + b) * C + (c + l.val))) else 0) *
        tmat t tof tm B J (j + i) b) else 0) := by
  unfold accRemainder
  refine (Adds.loop (c := fun b i => if i < n then
      (fun l : Fin 4 => (if l.val < C - c then u.val (uo + ((a * B + b) * C + (c + l.val))) else 0) *
        tmat t tof tm B J (j + i) b) else 0) fun b hb => ?_)
  have e : tail4 (fun l => u.rd (uo + ((a * B + b) * C + c + l))) (loadu u (uo + ((a * B + b) * C + c))) (C - c) =
      .ok fun l : Fin 4 => if l.val < C - c then u.val (uo + ((a * B + b) * C + (c + l.val))) else 0 := by
    refine tail4_eq (f := fun l => u.val (uo + ((a * B + b) * C + (c + l)))) (by omega) (fun l hl _ => ?_) fun hw => ?_
    · have hb' := enc_lt (enc_lt ha hb) (show c + l < C by omega)
      rw [Buf.rd_lt (by omega)]
      congr 2; omega
    · have hb' := enc_lt (enc_lt ha hb) (show c + 3 < C by omega)
      rw [loadu_lt (by omega)]
      congr 1
      funext l
      rw [if_pos (by omega)]
      congr 1; omega
  refine (Adds.loop (c := fun jj i => if i = jj then
      (fun l : Fin 4 => (if l.val < C - c then u.val (uo + ((a * B + b) * C + (c + l.val))) else 0) *
        tmat t tof tm B J (j + jj) b) else 0) (n := n)
      (body := fun jj vv => do
        let tq ← t.rd (tof + ((j + jj) * (tStride tm B J).1 + b * (tStride tm B J).2))
        vv.addAt (jj * 1 + 0) ((fun l : Fin 4 => if l.val < C - c then u.val (uo + ((a * B + b) * C + (c + l.val))) else 0) *
          set1 tq)) fun jj hjj => ?_).of_eq (fun vv _ => ?_) |>.congr fun i => ?_
  · refine (Adds.addAt (L := N) (i := jj) (by omega) _).of_eq fun vv _ => ?_
    rw [trd ht (by omega) hb, Res.bind_ok]
    congr 1
    omega
  · rw [e, Res.bind_ok]
  · rw [Finset.sum_ite_eq]
    simp only [mem_range]

theorem accSingle_adds {a j n A B J N : Nat} {t : Buf α} {tof : Nat} {tm : TMode} {u : Buf α} {uo : Nat}
    (ht : tof + B * J ≤ t.len) (hu : uo + A * B ≤ u.len) (ha : a + n ≤ A) (hj : j + 8 ≤ J) (hN : n * 2 ≤ N) :
    Adds (accSingle a j n 8 B J t tof tm u uo) N (fun i => ∑ b ∈ range B, if i < n * 2 then
      (fun l : Fin 4 => tmat t tof tm B J (j + (i % 2 * 4 + l.val)) b * u.val (uo + ((a + i / 2) * B + b))) else 0) := by
  unfold accSingle
  refine (Adds.loop (c := fun b i => if i < n * 2 then
      (fun l : Fin 4 => tmat t tof tm B J (j + (i % 2 * 4 + l.val)) b * u.val (uo + ((a + i / 2) * B + b))) else 0)
      fun b hb => ?_)
  refine (Adds.loop (c := fun jj i => ∑ aa ∈ range n, if i = aa * 2 + jj then
    (fun l : Fin 4 => tmat t tof tm B J (j + (jj * 4 + l.val)) b * u.val (uo + ((a + aa) * B + b))) else 0)
    fun jj hjj => ?_).congr fun i => ?_
  · have e : all4 (fun l => t.rd (tof + ((j + jj * 4 + l) * (tStride tm B J).1 + b * (tStride tm B J).2))) =
        .ok fun l : Fin 4 => if l.val < 4 then tmat t tof tm B J (j + (jj * 4 + l.val)) b else 0 := by
      refine all4_eq (f := fun l => tmat t tof tm B J (j + (jj * 4 + l)) b) le_rfl fun l hl => ?_
      rw [trd ht (by omega) hb]
      congr 2; omega
    refine (Adds.loop (c := fun aa i => if i = aa * 2 + jj then
      (fun l : Fin 4 => tmat t tof tm B J (j + (jj * 4 + l.val)) b * u.val (uo + ((a + aa) * B + b))) else 0)
      (body := fun aa vv => do
        let y ← u.rd (uo + ((a + aa) * B + b))
        vv.addAt (aa * (8 / 4) + jj) ((fun l : Fin 4 => if l.val < 4 then tmat t tof tm B J (j + (jj * 4 + l.val)) b else 0) *
          set1 y)) fun aa haa => ?_).of_eq fun vv _ => ?_
    · refine (Adds.addAt (L := N) (i := aa * 2 + jj) (by omega) _).of_eq fun vv _ => ?_
      have hb' := enc_lt (show a + aa < A by omega) hb
      rw [Buf.rd_lt (by omega), Res.bind_ok]
      congr 1
      funext l
      simp only [Pi.mul_apply, set1, if_pos l.2]
    · rw [e, Res.bind_ok]
  · rw [Finset.sum_comm, sum_enc2 n 2 i (fun aa jj => (fun l : Fin 4 =>
      tmat t tof tm B J (j + (jj * 4 + l.val)) b * u.val (uo + ((a + aa) * B + b))))]

theorem accSingleTail_adds {a j n A B J N : Nat} {t : Buf α} {tof : Nat} {tm : TMode} {u : Buf α} {uo : Nat}
    (ht : tof + B * J ≤ t.len) (hu : uo + A * B ≤ u.len) (ha : a + n ≤ A) (hj : j < J) (hN : n ≤ N) :
    Adds (accSingleTail a j n B J t tof tm u uo) N (fun i => ∑ b ∈ range B, if i < n then
      (fun l : Fin 4 => (if l.val < J - j then tmat t tof tm B J (j + l.val) b else 0) * u.val (uo + ((a + i) * B + b)))
      else 0) := by
  unfold accSingleTail
  refine (Adds.loop (c := fun b i => if i < n then
      (fun l : Fin 4 => (if l.val < J - j then tmat t tof tm B J (j + l.val) b else 0) * u.val (uo + ((a + i) * B + b)))
      else 0) fun b hb => ?_)
  have e : tail4 (fun l => t.rd (tof + ((j + l) * (tStride tm B J).1 + b * (tStride tm B J).2)))
      (all4 fun l => t.rd (tof + ((j + l) * (tStride tm B J).1 + b * (tStride tm B J).2))) (J - j) =
      .ok fun l : Fin 4 => if l.val < J - j then tmat t tof tm B J (j + l.val) b else 0 := by
    refine tail4_eq (f := fun l => tmat t tof tm B J (j + l) b) (by omega) (fun l hl _ => ?_) fun hw => ?_
    · exact trd ht (by omega) hb
    · exact all4_eq (f := fun l => tmat t tof tm B J (j + l) b) hw fun l hl => trd ht (by omega) hb
  refine (Adds.loop (c := fun aa i => if i = aa then
      (fun l : Fin 4 => (if l.val < J - j then tmat t tof tm B J (j + l.val) b else 0) * u.val (uo + ((a + aa) * B + b)))
      else 0) (n := n)
      (body := fun aa vv => do
        let y ← u.rd (uo + ((a + aa) * B + b))
        vv.addAt (aa * 1 + 0) ((fun l : Fin 4 => if l.val < J - j then tmat t tof tm B J (j + l.val) b else 0) *
          set1 y)) fun aa haa => ?_).of_eq (fun vv _ => ?_) |>.congr fun i => ?_
  · refine (Adds.addAt (L := N) (i := aa) (by omega) _).of_eq fun vv _ => ?_
    have hb' := enc_lt (show a + aa < A by omega) hb
    rw [Buf.rd_lt (by omega), Res.bind_ok]
    congr 1
    omega
  · rw [e, Res.bind_ok]
  · rw [Finset.sum_ite_eq]
    simp only [mem_range]

end
end Basis
end Verif
