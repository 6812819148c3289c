import Verif.Memcheck.Spec
import Verif.Vector.StridedProps

/-!
# Vectors of the memcheck backend: what each call does
-/

namespace Verif
namespace Memcheck

open Vector (Mem Mode)

variable {α : Type}

/-! ## Worlds -/

@[simp] theorem setVec_same (w : W α) (v : Nat) (x : Option (MVec α)) : (w.setVec v x).vecs v = x := if_pos rfl
theorem setVec_ne (w : W α) {v u : Nat} (x : Option (MVec α)) (h : u ≠ v) : (w.setVec v x).vecs u = w.vecs u := if_neg h
@[simp] theorem setVec_heap (w : W α) (v : Nat) (x : Option (MVec α)) : (w.setVec v x).heap = w.heap := rfl
@[simp] theorem setArr_vecs (w : W α) (a : Nat) (b : Option (Buf α)) : (w.setArr a b).vecs = w.vecs := rfl
@[simp] theorem setArr_same (w : W α) (a : Nat) (b : Option (Buf α)) : (w.setArr a b).heap a = b := if_pos rfl
theorem setArr_ne (w : W α) {a c : Nat} (b : Option (Buf α)) (h : c ≠ a) : (w.setArr a b).heap c = w.heap c := if_neg h
@[simp] theorem setVec_setVec (w : W α) (v : Nat) (x y : Option (MVec α)) : (w.setVec v x).setVec v y = w.setVec v y := by
  unfold W.setVec
  congr 1
  funext u
  by_cases h : u = v <;> simp [h]

theorem getV_eq {w : W α} {v : Nat} {x : MVec α} (h : w.vecs v = some x) : getV v w = .ok w x := by
  unfold getV; rw [h]

@[simp] theorem getV_put (w : W α) (v : Nat) (x : MVec α) : getV v (w.setVec v (some x)) = .ok (w.setVec v (some x)) x :=
  getV_eq (setVec_same _ _ _)

@[simp] theorem putV_eq (w : W α) (v : Nat) (x : MVec α) : putV v x w = .ok (w.setVec v (some x)) () := rfl

/-! ## Loops -/

/-- The buffer with the first `n` entries replaced. -/
def over (b : Buf α) (n : Nat) (f : Nat → α) : Buf α := ⟨b.len, fun i => if i < n then f i else b.val i⟩

theorem wr_over {b : Buf α} {f : Nat → α} {i : Nat} (hi : i < b.len) {x : α} (hx : x = f i) :
    (over b i f).wr i x = .ok (over b (i + 1) f) := by
  rw [Buf.wr_lt (show i < (over b i f).len from hi)]
  congr 1
  unfold over
  simp only [Buf.mk.injEq, true_and]
  funext j
  by_cases h : j = i
  · subst h
    simp [hx]
  · by_cases h1 : j < i
    · simp [h, h1, Nat.lt_succ_of_lt h1]
    · have : ¬ j < i + 1 := by omega
      simp [h, h1, this]

theorem over_zero (b : Buf α) (f : Nat → α) : over b 0 f = b := by simp [over]

theorem rd_over {b : Buf α} {f : Nat → α} {i : Nat} (hi : i < b.len) : (over b i f).rd i = .ok (b.val i) := by
  rw [Buf.rd_lt (show i < (over b i f).len from hi)]
  simp [over]

theorem mapLoop_ok {n : Nat} (f : α → α) {b : Buf α} (h : n ≤ b.len) :
    mapLoop n f b = .ok (over b n (fun i => f (b.val i))) := by
  unfold mapLoop
  refine loop_pure (f := fun i => over b i (fun i => f (b.val i))) (over_zero _ _) (fun i hi => ?_)
  rw [rd_over (by omega), Res.bind_ok, wr_over (by omega) rfl]

theorem zipLoop_ok {n : Nat} (f : α → α → α) {a c : Buf α} (ha : n ≤ a.len) (hc : n ≤ c.len) :
    zipLoop n f a c = .ok (over c n (fun i => f (a.val i) (c.val i))) := by
  unfold zipLoop
  refine loop_pure (f := fun i => over c i (fun i => f (a.val i) (c.val i))) (over_zero _ _) (fun i hi => ?_)
  rw [Buf.rd_lt (show i < a.len by omega), Res.bind_ok, rd_over (by omega), Res.bind_ok, wr_over (by omega) rfl]

theorem zip3Loop_ok {n : Nat} (f : α → α → α) {a b c : Buf α} (ha : n ≤ a.len) (hb : n ≤ b.len) (hc : n ≤ c.len) :
    zip3Loop n f a b c = .ok (over c n (fun i => f (a.val i) (b.val i))) := by
  unfold zip3Loop
  refine loop_pure (f := fun i => over c i (fun i => f (a.val i) (b.val i))) (over_zero _ _) (fun i hi => ?_)
  rw [Buf.rd_lt (show i < a.len by omega), Res.bind_ok, Buf.rd_lt (show i < b.len by omega), Res.bind_ok, wr_over (by omega) rfl]

open Classical in
theorem strideFill_ok {start stop step : Int} (h0 : 0 ≤ start) (hs : 0 < step) (z : α) {b : Buf α} (hb : stop ≤ b.len) :
    ∃ c, strideFill start stop step z b = .ok c ∧ c.len = b.len ∧
      ∀ i : Nat, c.val i = if (∃ k : Nat, (i : Int) = start + step * k ∧ (i : Int) < stop) then z else b.val i := by
  unfold strideFill
  by_cases h1 : start < stop
  swap
  · rw [if_neg h1]
    refine ⟨b, rfl, rfl, fun i => ?_⟩
    rw [if_neg]
    rintro ⟨k, e, hk⟩
    have : 0 ≤ step * (k : Int) := Int.mul_nonneg (by omega) (by omega)
    omega
  rw [if_pos h1, if_pos hs]
  obtain ⟨c, e, hc⟩ := loop_inv (n := Vector.strideCount start stop step)
    (body := fun k b => b.wrI (start + step * k) z) (s := b)
    (fun (n : Nat) (c : Buf α) => c.len = b.len ∧ ∀ i : Nat, c.val i = if (∃ k : Nat, k < n ∧ (i : Int) = start + step * k) then z else b.val i)
    ⟨rfl, fun i => by rw [if_neg]; rintro ⟨k, hk, _⟩; omega⟩ (fun n hn c hc => by
      have hlt := (Vector.lt_strideCount (start := start) (stop := stop) hs n).1 hn
      have hnn : 0 ≤ step * (n : Int) := Int.mul_nonneg (by omega) (by omega)
      have hin : (start + step * (n : Int)).toNat < c.len := by rw [hc.1]; omega
      refine ⟨⟨c.len, fun j => if j = (start + step * (n : Int)).toNat then z else c.val j⟩, by
        unfold Buf.wrI; rw [if_pos (by omega), Buf.wr_lt hin], hc.1, fun i => ?_⟩
      show (if i = (start + step * (n : Int)).toNat then z else c.val i) = _
      by_cases hi : i = (start + step * (n : Int)).toNat
      · rw [if_pos hi, if_pos ⟨n, by omega, by omega⟩]
      · rw [if_neg hi, hc.2 i]
        by_cases hk : ∃ k : Nat, k < n ∧ (i : Int) = start + step * k
        · obtain ⟨k, h1, h2⟩ := hk
          rw [if_pos ⟨k, h1, h2⟩, if_pos ⟨k, by omega, h2⟩]
        · rw [if_neg hk, if_neg]
          rintro ⟨k, h1, h2⟩
          rcases Nat.lt_or_ge k n with h3 | h3
          · exact hk ⟨k, h3, h2⟩
          · have : k = n := by omega
            subst this
            omega)
  refine ⟨c, e, hc.1, fun i => ?_⟩
  rw [hc.2 i]
  congr 1
  apply propext
  constructor
  · rintro ⟨k, hk, e⟩
    have := (Vector.lt_strideCount (start := start) (stop := stop) hs k).1 hk
    exact ⟨k, e, by omega⟩
  · rintro ⟨k, e, hk⟩
    exact ⟨k, (Vector.lt_strideCount hs k).2 (by omega), e⟩

/-! ## Invariant -/

/-- State of one vector. -/
structure VInv (w : W α) (x : MVec α) : Prop where
  al : ∀ b, x.alloc = some b → b.len = x.len
  wl : ∀ b, x.wcopy = some b → b.len = x.len
  rl : ∀ b, x.rcopy = some b → b.len = x.len
  wc : 0 < x.len → (x.state % 2 = 1 ↔ x.wcopy.isSome)
  wa : x.wcopy.isSome → x.alloc.isSome
  rc : 0 < x.len → 0 < x.readers → x.rcopy.isSome ∧ x.alloc.isSome
  slots : x.alloc = none → x.owned = none ∧ x.borrowed = none
  one : x.owned = none ∨ x.borrowed = none
  arr : ∀ a, x.owned = some a ∨ x.borrowed = some a → ∃ b, w.heap a = some b ∧ x.len ≤ b.len
  lock : x.state % 2 = 1 → x.readers = 0

structure Inv (w : W α) : Prop where
  each : ∀ v x, w.vecs v = some x → VInv w x
  excl : ∀ u v x y a, w.vecs u = some x → w.vecs v = some y → (x.owned = some a ∨ x.borrowed = some a) →
    (y.owned = some a ∨ y.borrowed = some a) → u = v

theorem Inv.init : Inv (W.init : W α) := ⟨fun _ _ h => (by cases h), fun _ _ _ _ _ h => (by cases h)⟩

theorem VInv.congr {w w' : W α} {x : MVec α} (h : VInv w x)
    (ha : ∀ a, x.owned = some a ∨ x.borrowed = some a → ∀ b, w.heap a = some b → ∃ b', w'.heap a = some b' ∧ b'.len = b.len) : VInv w' x := by
  refine ⟨h.al, h.wl, h.rl, h.wc, h.wa, h.rc, h.slots, h.one, fun a hh => ?_, h.lock⟩
  obtain ⟨b, e, hb⟩ := h.arr a hh
  obtain ⟨b', e', hb'⟩ := ha a hh b e
  exact ⟨b', e', by omega⟩

/-- Change of one vector that keeps its slots or drops them, with arrays of the same lengths. -/
theorem Inv.setVec {w : W α} (hi : Inv w) {v : Nat} {x x' : MVec α} (hx : w.vecs v = some x) (hv : VInv w x')
    (hs : ∀ a, (x'.owned = some a ∨ x'.borrowed = some a) → (x.owned = some a ∨ x.borrowed = some a)) :
    Inv (w.setVec v (some x')) := by
  refine ⟨fun u y hy => ?_, fun u1 u2 y1 y2 a h1 h2 h3 h4 => ?_⟩
  · by_cases hu : u = v
    · subst hu
      rw [setVec_same] at hy
      cases hy
      exact hv.congr (fun a _ b e => ⟨b, e, rfl⟩)
    · rw [setVec_ne _ _ hu] at hy
      exact (hi.each u y hy).congr (fun a _ b e => ⟨b, e, rfl⟩)
  · by_cases hu1 : u1 = v
    · by_cases hu2 : u2 = v
      · rw [hu1, hu2]
      · subst hu1
        rw [setVec_same] at h1
        cases h1
        rw [setVec_ne _ _ hu2] at h2
        exact hi.excl _ _ x y2 a hx h2 (hs a h3) h4
    · rw [setVec_ne _ _ hu1] at h1
      by_cases hu2 : u2 = v
      · subst hu2
        rw [setVec_same] at h2
        cases h2
        exact hi.excl _ _ y1 x a h1 hx h3 (hs a h4)
      · rw [setVec_ne _ _ hu2] at h2
        exact hi.excl _ _ y1 y2 a h1 h2 h3 h4

/-- Change of arrays that keeps lengths. -/
theorem Inv.heap {w w' : W α} (hi : Inv w) (hv : w'.vecs = w.vecs)
    (ha : ∀ a, Held w a → ∀ b, w.heap a = some b → ∃ b', w'.heap a = some b' ∧ b'.len = b.len) : Inv w' := by
  refine ⟨fun u y hy => ?_, fun u1 u2 y1 y2 a h1 h2 => ?_⟩
  · rw [hv] at hy
    exact (hi.each u y hy).congr (fun a hh => ha a ⟨u, y, hy, hh⟩)
  · rw [hv] at h1 h2
    exact hi.excl u1 u2 y1 y2 a h1 h2

end Memcheck
end Verif
