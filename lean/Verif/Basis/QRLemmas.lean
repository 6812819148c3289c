import Verif.Basis.QR
import Mathlib.Tactic.Ring
import Mathlib.Tactic.FieldSimp
import Mathlib.Tactic.LinearCombination
import Mathlib.Tactic.Linarith

/-!
# Effects of the loops of the QR factorisation
-/

namespace Verif
namespace Basis

open Finset Restriction

set_option linter.unusedSectionVars false

variable {K : Type} [Field K] [LinearOrder K]

theorem fdiv_ok {x y : K} (h : y ≠ 0) : fdiv x y = .ok (x / y) := by simp [fdiv, h]

/-- The Householder vector read by `reflect`: 1 followed by the entries after `v[vo]`. -/
def hvec (v : Buf K) (vo : Nat) (k : Nat) : K := if k = 0 then 1 else v.val (vo + k)

theorem sum_hvec (v : Buf K) (vo m : Nat) (hm : 1 ≤ m) (f : Nat → K) :
    ∑ k ∈ range m, hvec v vo k * f k = f 0 + ∑ k ∈ range (m - 1), v.val (vo + (k + 1)) * f (k + 1) := by
  obtain ⟨m, rfl⟩ : ∃ m', m = m' + 1 := ⟨m - 1, by omega⟩
  rw [sum_range_succ', add_comm]
  simp [hvec]

/-- A strided matrix inside an array: its entries are apart and in range. -/
structure Window (A : Buf K) (off m n row col : Nat) : Prop where
  inj : ∀ i < m, ∀ j < n, ∀ i' < m, ∀ j' < n, i * row + j * col = i' * row + j' * col → i = i' ∧ j = j'
  lt : ∀ i < m, ∀ j < n, off + (i * row + j * col) < A.len

theorem reflect_ok {A v : Buf K} {off vo m n row col : Nat} (b : K) (hm : 1 ≤ m) (hw : Window A off m n row col)
    (hv : vo + m ≤ v.len) :
    ∃ A', reflect A off v vo b m n row col = .ok A' ∧ A'.len = A.len ∧
      (∀ i < m, ∀ j < n, A'.val (off + (i * row + j * col)) = A.val (off + (i * row + j * col)) -
        b * hvec v vo i * ∑ k ∈ range m, hvec v vo k * A.val (off + (k * row + j * col))) ∧
      ∀ x, (∀ i < m, ∀ j < n, x ≠ off + (i * row + j * col)) → A'.val x = A.val x := by
  have key := loop_inv (n := n) (s := A) (body := fun j A => do
    let w ← A.rd (off + (0 * row + j * col))
    let w ← loop (m - 1) (fun i' w => do
      let x ← v.rd (vo + (i' + 1))
      let y ← A.rd (off + ((i' + 1) * row + j * col))
      .ok (w + x * y)) w
    let x ← A.rd (off + (0 * row + j * col))
    let A ← A.wr (off + (0 * row + j * col)) (x - b * w)
    loop (m - 1) (fun i' A => do
      let x ← v.rd (vo + (i' + 1))
      let y ← A.rd (off + ((i' + 1) * row + j * col))
      A.wr (off + ((i' + 1) * row + j * col)) (y - b * w * x)) A)
    (fun J (B : Buf K) => B.len = A.len ∧
      (∀ i < m, ∀ j < n, B.val (off + (i * row + j * col)) = A.val (off + (i * row + j * col)) -
        if j < J then b * hvec v vo i * ∑ k ∈ range m, hvec v vo k * A.val (off + (k * row + j * col)) else 0) ∧
      ∀ x, (∀ i < m, ∀ j < n, x ≠ off + (i * row + j * col)) → B.val x = A.val x)
    ⟨rfl, by intros; simp, fun _ _ => rfl⟩ ?_
  · obtain ⟨A', e, h1, h2, h3⟩ := key
    refine ⟨A', e, h1, ?_, h3⟩
    intro i hi j hj
    rw [h2 i hi j hj, if_pos hj]
  intro j hj B ⟨hB, hB1, hB2⟩
  have hl : ∀ i < m, off + (i * row + j * col) < B.len := fun i hi => hB ▸ hw.lt i hi j hj
  have hval : ∀ i < m, B.val (off + (i * row + j * col)) = A.val (off + (i * row + j * col)) := by
    intro i hi; rw [hB1 i hi j hj]; simp
  have hsum : loop (m - 1) (fun i' w => do
      let x ← v.rd (vo + (i' + 1))
      let y ← B.rd (off + ((i' + 1) * row + j * col))
      .ok (w + x * y)) (B.val (off + (0 * row + j * col))) =
      .ok (∑ k ∈ range m, hvec v vo k * A.val (off + (k * row + j * col))) := by
    rw [sum_hvec v vo m hm (fun k => A.val (off + (k * row + j * col)))]
    refine loop_pure (f := fun t => A.val (off + (0 * row + j * col)) +
      ∑ k ∈ range t, v.val (vo + (k + 1)) * A.val (off + ((k + 1) * row + j * col))) ?_ ?_
    · simpa using (hval 0 (by omega)).symm
    · intro i hi
      rw [Buf.rd_lt (by omega), Res.bind_ok, Buf.rd_lt (hl _ (by omega)), Res.bind_ok, sum_range_succ, hval (i + 1) (by omega),
        add_assoc]
  generalize hW : ∑ k ∈ range m, hvec v vo k * A.val (off + (k * row + j * col)) = W at hsum
  have key2 := loop_inv (n := m - 1) (body := fun i' A => do
      let x ← v.rd (vo + (i' + 1))
      let y ← A.rd (off + ((i' + 1) * row + j * col))
      A.wr (off + ((i' + 1) * row + j * col)) (y - b * W * x))
    (s := ⟨B.len, fun x => if x = off + (0 * row + j * col) then B.val (off + (0 * row + j * col)) - b * W else B.val x⟩)
    (fun T (C : Buf K) => C.len = B.len ∧
      (∀ i < m, C.val (off + (i * row + j * col)) = B.val (off + (i * row + j * col)) -
        if i < T + 1 then b * hvec v vo i * W else 0) ∧
      ∀ x, (∀ i < m, x ≠ off + (i * row + j * col)) → C.val x = B.val x)
    ⟨rfl, ?_, ?_⟩ ?_
  · obtain ⟨C, e, hC, hC1, hC2⟩ := key2
    refine ⟨C, ?_, by omega, ?_, ?_⟩
    · rw [Buf.rd_lt (hl 0 (by omega)), Res.bind_ok, hsum, Res.bind_ok, Res.bind_ok, Buf.wr_lt (hl 0 (by omega)), Res.bind_ok]
      exact e
    · intro i hi j' hj'
      by_cases hjj : j' = j
      · subst hjj
        rw [hC1 i hi, hval i hi, if_pos (by omega), if_pos (by omega), hW]
      · rw [hC2, hB1 i hi j' hj']
        · have : j' < j ↔ j' < j + 1 := by omega
          simp only [this]
        · intro i' hi' h
          exact hjj (hw.inj i hi j' hj' i' hi' j hj (by omega)).2
    · intro x hx
      rw [hC2 x (fun i hi => hx i hi j hj), hB2 x hx]
  · intro i hi
    by_cases h0 : i = 0
    · subst h0; simp [hvec]
    · rw [if_neg (by omega)]
      have : ¬ off + (i * row + j * col) = off + (0 * row + j * col) := by
        intro h
        exact h0 (hw.inj i hi j hj 0 (by omega) j hj (by omega)).1
      simp only [sub_zero]
      rw [if_neg this]
  · intro x hx
    simp only
    rw [if_neg (hx 0 (by omega))]
  · intro t ht C ⟨hC, hC1, hC2⟩
    have hlt : off + ((t + 1) * row + j * col) < C.len := by rw [hC]; exact hl (t + 1) (by omega)
    refine ⟨_, by rw [Buf.rd_lt (by omega), Res.bind_ok, Buf.rd_lt hlt, Res.bind_ok, Buf.wr_lt hlt], ?_, ?_, ?_⟩
    · exact hC
    · intro i hi
      by_cases hit : i = t + 1
      · subst hit
        simp only [if_true]
        rw [hC1 _ hi, if_neg (by omega), if_pos (by omega)]
        simp only [hvec]
        rw [if_neg (by omega)]
        ring
      · have : ¬ off + (i * row + j * col) = off + ((t + 1) * row + j * col) := by
          intro h
          exact hit (hw.inj i hi j hj (t + 1) (by omega) j hj (by omega)).1
        simp only
        rw [if_neg this, hC1 i hi]
        have : i < t + 1 ↔ i < t + 1 + 1 := by omega
        simp only [this]
    · intro x hx
      simp only
      rw [if_neg (hx (t + 1) (by omega)), hC2 x hx]

theorem qrColumn_ok {mat v : Buf K} {m n i : Nat} (hi : i < m) (hin : i < n) (hmat : m * n ≤ mat.len) (hv : v.len = m) :
    ∃ v', qrColumn mat m n i v = .ok (v', ∑ k ∈ range (m - (i + 1)), mat.val (i + n * (i + 1 + k)) * mat.val (i + n * (i + 1 + k)))
      ∧ v'.len = m ∧ ∀ k, i ≤ k → k < m → v'.val k = mat.val (i + n * k) := by
  have hidx : ∀ k < m, i + n * k < mat.len := by
    intro k hk
    have : n * (k + 1) ≤ n * m := Nat.mul_le_mul_left n (by omega)
    rw [Nat.mul_add] at this
    rw [Nat.mul_comm m n] at hmat
    omega
  have key := loop_inv (n := m - (i + 1)) (body := fun j' (s : Buf K × K) => do
    let y ← mat.rd (i + n * (i + 1 + j'))
    let v ← s.1.wr (i + 1 + j') y
    .ok (v, s.2 + y * y)) (s := (⟨v.len, fun j => if j = i then mat.val (i + n * i) else v.val j⟩, 0))
    (fun t s => s.1.len = m ∧ s.2 = ∑ k ∈ range t, mat.val (i + n * (i + 1 + k)) * mat.val (i + n * (i + 1 + k)) ∧
      ∀ k, i ≤ k → k < i + 1 + t → s.1.val k = mat.val (i + n * k)) ⟨hv, by simp, ?_⟩ ?_
  · obtain ⟨⟨v', sg⟩, e, h1, h2, h3⟩ := key
    refine ⟨v', ?_, h1, fun k h h' => h3 k h (by omega)⟩
    unfold qrColumn
    rw [Buf.rd_lt (hidx i hi), Res.bind_ok, Buf.wr_lt (by omega), Res.bind_ok, e]
    simp only at h2
    rw [h2]
  · intro k h h'
    have : k = i := by omega
    simp [this]
  · intro t ht ⟨w, sg⟩ ⟨h1, h2, h3⟩
    simp only at h1 h2 h3
    refine ⟨_, by simp only; rw [Buf.rd_lt (hidx _ (by omega)), Res.bind_ok, Buf.wr_lt (by omega), Res.bind_ok], h1, ?_, ?_⟩
    · simp only; rw [h2, sum_range_succ]
    · intro k h h'
      simp only
      split
      · next hh => rw [hh]
      · exact h3 k h (by omega)

theorem qrScale_ok {v : Buf K} {m i : Nat} (hi : i < m) (hv : v.len = m) (h0 : v.val i ≠ 0) :
    ∃ v', qrScale m i v = .ok v' ∧ v'.len = m ∧ ∀ k, i < k → k < m → v'.val k = v.val k / v.val i := by
  have key := loop_inv (n := m - (i + 1)) (body := fun j' v => do
    let x ← v.rd (i + 1 + j')
    let y ← v.rd i
    let z ← fdiv x y
    v.wr (i + 1 + j') z) (s := v)
    (fun t (w : Buf K) => w.len = m ∧ (∀ k, i < k → k < m → w.val k = if k < i + 1 + t then v.val k / v.val i else v.val k) ∧
      w.val i = v.val i) ⟨hv, ?_, rfl⟩ ?_
  · obtain ⟨v', e, h1, h2, h3⟩ := key
    exact ⟨v', e, h1, fun k h h' => by rw [h2 k h h', if_pos (by omega)]⟩
  · intro k h h'; rw [if_neg (by omega)]
  · intro t ht w ⟨h1, h2, h3⟩
    have hne : w.val i ≠ 0 := by rw [h3]; exact h0
    refine ⟨_, by rw [Buf.rd_lt (by omega), Res.bind_ok, Buf.rd_lt (by omega), Res.bind_ok, fdiv_ok hne, Res.bind_ok,
      Buf.wr_lt (by omega)], ?_, ?_, ?_⟩
    · exact h1
    · intro k h h'
      simp only
      split
      · next hh => rw [hh, h2 _ (by omega) (by omega), if_neg (by omega), if_pos (by omega), h3]
      · next hh =>
        rw [h2 k h h']
        have : k < i + 1 + t ↔ k < i + 1 + (t + 1) := by omega
        simp only [this]
    · simp only
      rw [if_neg (by omega), h3]

theorem idx_inj {n a b c d : Nat} (ha : a < n) (hc : c < n) (h : a + n * b = c + n * d) : a = c ∧ b = d := by
  have h1 : (a + n * b) % n = a := by rw [Nat.add_mul_mod_self_left, Nat.mod_eq_of_lt ha]
  have h2 : (c + n * d) % n = c := by rw [Nat.add_mul_mod_self_left, Nat.mod_eq_of_lt hc]
  have hac : a = c := by rw [← h1, h, h2]
  refine ⟨hac, ?_⟩
  have : n * b = n * d := by omega
  exact Nat.eq_of_mul_eq_mul_left (by omega) this

theorem idx_lt {n m a b : Nat} (ha : a < n) (hb : b < m) : a + n * b < m * n := by
  have : n * (b + 1) ≤ n * m := Nat.mul_le_mul_left n (by omega)
  rw [Nat.mul_add] at this
  rw [Nat.mul_comm m n]
  omega

theorem qrSave_ok {v mat : Buf K} {m n i : Nat} (Rii : K) (hi : i < m) (hin : i < n) (hmat : m * n ≤ mat.len) (hv : v.len = m) :
    ∃ mat', qrSave m n i v Rii mat = .ok mat' ∧ mat'.len = mat.len ∧ mat'.val (i + n * i) = Rii ∧
      (∀ k, i < k → k < m → mat'.val (i + n * k) = v.val k) ∧
      ∀ x, (∀ k, i ≤ k → k < m → x ≠ i + n * k) → mat'.val x = mat.val x := by
  have hidx : ∀ k < m, i + n * k < mat.len := fun k hk => lt_of_lt_of_le (idx_lt hin hk) hmat
  have key := loop_inv (n := m - (i + 1)) (body := fun j' (mat : Buf K) => do
    let x ← v.rd (i + 1 + j')
    mat.wr (i + n * (i + 1 + j')) x) (s := ⟨mat.len, fun j => if j = i + n * i then Rii else mat.val j⟩)
    (fun t (w : Buf K) => w.len = mat.len ∧ w.val (i + n * i) = Rii ∧
      (∀ k, i < k → k < i + 1 + t → w.val (i + n * k) = v.val k) ∧
      ∀ x, (∀ k, i ≤ k → k < m → x ≠ i + n * k) → w.val x = mat.val x) ⟨rfl, by simp, ?_, ?_⟩ ?_
  · obtain ⟨w, e, h1, h2, h3, h4⟩ := key
    refine ⟨w, ?_, h1, h2, fun k h h' => h3 k h (by omega), h4⟩
    unfold qrSave
    rw [Buf.wr_lt (hidx i hi), Res.bind_ok]
    exact e
  · intro k h h'; omega
  · intro x hx
    simp only
    rw [if_neg (hx i le_rfl hi)]
  · intro t ht w ⟨h1, h2, h3, h4⟩
    refine ⟨_, by rw [Buf.rd_lt (by omega), Res.bind_ok, Buf.wr_lt (by rw [h1]; exact hidx _ (by omega))], ?_, ?_, ?_, ?_⟩
    · exact h1
    · simp only
      rw [if_neg, h2]
      intro h
      have := (idx_inj hin hin h).2
      omega
    · intro k h h'
      simp only
      split
      · next hh => rw [(idx_inj hin hin hh).2]
      · next hh =>
        refine h3 k h ?_
        by_contra hc
        exact hh (by rw [show k = i + 1 + t by omega])
    · intro x hx
      simp only
      rw [if_neg (hx _ (by omega) (by omega)), h4 x hx]

end Basis
end Verif
