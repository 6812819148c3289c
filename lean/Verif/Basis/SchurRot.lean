import Verif.Basis.SchurBack

/-!
# Rotations of the symmetric QR algorithm
-/

namespace Verif
namespace Basis

open Finset Restriction

set_option linter.unusedSectionVars false

variable {K : Type} [Field K] [LinearOrder K]

/-- The entries of an array of `n` columns. -/
def ent (T : Buf K) (n r c : Nat) : K := T.val (c + n * r)

/-- Columns `k` and `k + 1` rotated. -/
def colRot (k : Nat) (c s : K) (f : Nat → Nat → K) (r j : Nat) : K :=
  if j = k then c * f r k - s * f r (k + 1) else if j = k + 1 then s * f r k + c * f r (k + 1) else f r j

/-- Rows `k` and `k + 1` rotated. -/
def rowRot (k : Nat) (c s : K) (f : Nat → Nat → K) (r j : Nat) : K := colRot k c s (fun a b => f b a) j r

theorem givens_cols {A : Buf K} {n k : Nat} (c s : K) (hk : k + 1 < n) (hA : A.len = n * n) :
    ∃ A', givens A c s .noTranspose k (k + 1) n n = .ok A' ∧ A'.len = n * n ∧ ∀ r < n, ∀ j < n, ent A' n r j = colRot k c s (ent A n) r j := by
  have e1 : ∀ j, k * 1 + j * n = k + n * j := fun j => by ring
  have e2 : ∀ j, (k + 1) * 1 + j * n = k + 1 + n * j := fun j => by ring
  obtain ⟨A', e, h1, h2⟩ := loop_inv (n := n) (s := A) (body := fun j A => do
    let t1 ← A.rd (k * 1 + j * n)
    let t2 ← A.rd ((k + 1) * 1 + j * n)
    let A ← A.wr (k * 1 + j * n) (c * t1 - s * t2)
    A.wr ((k + 1) * 1 + j * n) (s * t1 + c * t2))
    (fun t A' => A'.len = n * n ∧ ∀ r < n, ∀ j < n, ent A' n r j = if r < t then colRot k c s (ent A n) r j else ent A n r j)
    ⟨hA, fun r _ j _ => by rw [if_neg (by omega)]⟩ (by
      intro t ht B ⟨h1, h2⟩
      simp only [e1, e2]
      have l1 : k + n * t < B.len := h1 ▸ idx_lt (by omega) ht
      have l2 : k + 1 + n * t < B.len := h1 ▸ idx_lt (by omega) ht
      refine ⟨_, by rw [Buf.rd_lt l1, Res.bind_ok, Buf.rd_lt l2, Res.bind_ok, Buf.wr_lt l1, Res.bind_ok, Buf.wr_lt (by exact l2)], by exact h1, fun r hr j hj => ?_⟩
      have v1 : B.val (k + n * t) = ent A n t k := by have := h2 t ht k (by omega); rwa [if_neg (by omega)] at this
      have v2 : B.val (k + 1 + n * t) = ent A n t (k + 1) := by have := h2 t ht (k + 1) (by omega); rwa [if_neg (by omega)] at this
      show (if j + n * r = k + 1 + n * t then _ else if j + n * r = k + n * t then _ else B.val (j + n * r)) = _
      by_cases ha : j + n * r = k + 1 + n * t
      · obtain ⟨rfl, rfl⟩ := idx_inj hj (by omega) ha
        rw [if_pos ha, if_pos (by omega), v1, v2]
        unfold colRot
        rw [if_neg (by omega), if_pos rfl]
      · rw [if_neg ha]
        by_cases hb : j + n * r = k + n * t
        · obtain ⟨rfl, rfl⟩ := idx_inj hj (by omega) hb
          rw [if_pos hb, if_pos (by omega), v1, v2]
          unfold colRot
          rw [if_pos rfl]
        · rw [if_neg hb]
          have := h2 r hr j hj
          rw [show B.val (j + n * r) = ent B n r j from rfl, this]
          by_cases hrt : r = t
          · subst hrt
            rw [if_neg (by omega), if_pos (by omega)]
            unfold colRot
            rw [if_neg (fun h => hb (by rw [h])), if_neg (fun h => ha (by rw [h]))]
          · exact if_congr (by omega) rfl rfl)
  refine ⟨A', e, h1, fun r hr j hj => ?_⟩
  rw [h2 r hr j hj, if_pos hr]

theorem givens_rows {A : Buf K} {n k : Nat} (c s : K) (hk : k + 1 < n) (hA : A.len = n * n) :
    ∃ A', givens A c s .transpose k (k + 1) n n = .ok A' ∧ A'.len = n * n ∧ ∀ r < n, ∀ j < n, ent A' n r j = rowRot k c s (ent A n) r j := by
  have e1 : ∀ j, k * n + j * 1 = j + n * k := fun j => by ring
  have e2 : ∀ j, (k + 1) * n + j * 1 = j + n * (k + 1) := fun j => by ring
  obtain ⟨A', e, h1, h2⟩ := loop_inv (n := n) (s := A) (body := fun j A => do
    let t1 ← A.rd (k * n + j * 1)
    let t2 ← A.rd ((k + 1) * n + j * 1)
    let A ← A.wr (k * n + j * 1) (c * t1 - s * t2)
    A.wr ((k + 1) * n + j * 1) (s * t1 + c * t2))
    (fun t A' => A'.len = n * n ∧ ∀ r < n, ∀ j < n, ent A' n r j = if j < t then rowRot k c s (ent A n) r j else ent A n r j)
    ⟨hA, fun r _ j _ => by rw [if_neg (by omega)]⟩ (by
      intro t ht B ⟨h1, h2⟩
      simp only [e1, e2]
      have l1 : t + n * k < B.len := h1 ▸ idx_lt ht (by omega)
      have l2 : t + n * (k + 1) < B.len := h1 ▸ idx_lt ht (by omega)
      refine ⟨_, by rw [Buf.rd_lt l1, Res.bind_ok, Buf.rd_lt l2, Res.bind_ok, Buf.wr_lt l1, Res.bind_ok, Buf.wr_lt (by exact l2)], by exact h1, fun r hr j hj => ?_⟩
      have v1 : B.val (t + n * k) = ent A n k t := by have := h2 k (by omega) t ht; rwa [if_neg (by omega)] at this
      have v2 : B.val (t + n * (k + 1)) = ent A n (k + 1) t := by have := h2 (k + 1) (by omega) t ht; rwa [if_neg (by omega)] at this
      show (if j + n * r = t + n * (k + 1) then _ else if j + n * r = t + n * k then _ else B.val (j + n * r)) = _
      by_cases ha : j + n * r = t + n * (k + 1)
      · obtain ⟨rfl, rfl⟩ := idx_inj hj ht ha
        rw [if_pos ha, if_pos (by omega), v1, v2]
        unfold rowRot colRot
        rw [if_neg (by omega), if_pos rfl]
      · rw [if_neg ha]
        by_cases hb : j + n * r = t + n * k
        · obtain ⟨rfl, rfl⟩ := idx_inj hj ht hb
          rw [if_pos hb, if_pos (by omega), v1, v2]
          unfold rowRot colRot
          rw [if_pos rfl]
        · rw [if_neg hb]
          have := h2 r hr j hj
          rw [show B.val (j + n * r) = ent B n r j from rfl, this]
          by_cases hjt : j = t
          · subst hjt
            rw [if_neg (by omega), if_pos (by omega)]
            unfold rowRot colRot
            rw [if_neg (fun h => hb (by rw [h])), if_neg (fun h => ha (by rw [h]))]
          · exact if_congr (by omega) rfl rfl)
  refine ⟨A', e, h1, fun r hr j hj => ?_⟩
  rw [h2 r hr j hj, if_pos hj]

/-- Sums of functions that differ at two places only. -/
theorem sum_two {n k : Nat} (hk : k + 1 < n) {F G : Nat → K} (h : ∀ j, j ≠ k → j ≠ k + 1 → F j = G j) (h2 : F k + F (k + 1) = G k + G (k + 1)) :
    ∑ j ∈ range n, F j = ∑ j ∈ range n, G j := by
  rw [← sub_eq_zero, ← sum_sub_distrib]
  have hs : ({k, k + 1} : Finset Nat) ⊆ range n := fun x hx => by
    rcases mem_insert.1 hx with rfl | hx
    · exact mem_range.2 (by omega)
    · rw [mem_singleton.1 hx]; exact mem_range.2 hk
  rw [← sum_subset hs fun x _ hx => ?_]
  · rw [sum_pair (by omega)]
    linear_combination h2
  · have h1 : x ≠ k := fun hc => hx (by rw [hc]; exact mem_insert_self _ _)
    have h2 : x ≠ k + 1 := fun hc => hx (by rw [hc]; exact mem_insert_of_mem (mem_singleton_self _))
    rw [h x h1 h2, sub_self]

/-- The rotation as a matrix. -/
def rotM (n k : Nat) (c s : K) : Matrix (Fin n) (Fin n) K := fun r j => colRot k c s (fun a b => if a = b then 1 else 0) r j

theorem mul_rotM {n k : Nat} (hk : k + 1 < n) (c s : K) {A A' : Buf K} (h : ∀ r < n, ∀ j < n, ent A' n r j = colRot k c s (ent A n) r j) :
    asMat A' n n = asMat A n n * rotM n k c s := by
  ext r j
  rw [Matrix.mul_apply]
  show ent A' n r j = ∑ x : Fin n, ent A n r x * colRot k c s (fun a b => if a = b then 1 else 0) x j
  rw [h r r.isLt j j.isLt, Fin.sum_univ_eq_sum_range (fun x => ent A n r x * colRot k c s (fun a b => if a = b then 1 else 0) x j) n]
  by_cases h1 : j.val = k
  · rw [sum_two hk (G := fun x => if x = k then colRot k c s (ent A n) r j else 0)]
    · rw [sum_ite_eq' (range n) k, if_pos (mem_range.2 (by omega))]
    · intro x hx hx'
      simp [colRot, h1, hx, hx']
    · simp only [colRot, h1, if_true]
      rw [if_neg (by omega), if_neg (by omega)]
      simp
      ring
  · by_cases h2 : j.val = k + 1
    · rw [sum_two hk (G := fun x => if x = k then colRot k c s (ent A n) r j else 0)]
      · rw [sum_ite_eq' (range n) k, if_pos (mem_range.2 (by omega))]
      · intro x hx hx'
        simp [colRot, h2, hx, hx']
      · simp [colRot, h2]
        ring
    · simp only [colRot, h1, h2, if_false]
      rw [sum_congr rfl fun x _ => mul_ite _ _ _ _]
      simp only [mul_one, mul_zero]
      rw [sum_ite_eq' (range n) j.val, if_pos (mem_range.2 j.isLt)]

theorem rotM_mul {n k : Nat} (hk : k + 1 < n) (c s : K) {A A' : Buf K} (h : ∀ r < n, ∀ j < n, ent A' n r j = rowRot k c s (ent A n) r j) :
    asMat A' n n = (rotM n k c s).transpose * asMat A n n := by
  let B : Buf K := ⟨n * n, fun x => A.val (x / n + n * (x % n))⟩
  let B' : Buf K := ⟨n * n, fun x => A'.val (x / n + n * (x % n))⟩
  have hB : ∀ r, ∀ j < n, ent B n r j = ent A n j r := fun r j hj => by
    show A.val ((j + n * r) / n + n * ((j + n * r) % n)) = A.val (r + n * j)
    rw [Nat.add_mul_div_left _ _ (by omega), Nat.div_eq_of_lt hj, Nat.add_mul_mod_self_left, Nat.mod_eq_of_lt hj, Nat.zero_add]
  have hB' : ∀ r, ∀ j < n, ent B' n r j = ent A' n j r := fun r j hj => by
    show A'.val ((j + n * r) / n + n * ((j + n * r) % n)) = A'.val (r + n * j)
    rw [Nat.add_mul_div_left _ _ (by omega), Nat.div_eq_of_lt hj, Nat.add_mul_mod_self_left, Nat.mod_eq_of_lt hj, Nat.zero_add]
  have := mul_rotM hk c s (A := B) (A' := B') fun r hr j hj => by
    rw [hB' r j hj, h j hj r hr]
    unfold rowRot colRot
    simp only
    rw [hB r k (by omega), hB r (k + 1) hk]
    by_cases h1 : j = k
    · rw [if_pos h1, if_pos h1]
    · rw [if_neg h1, if_neg h1]
      by_cases h2 : j = k + 1
      · rw [if_pos h2, if_pos h2]
      · rw [if_neg h2, if_neg h2, hB r j hj]
  have t1 : asMat B n n = (asMat A n n).transpose := by
    ext r j
    exact hB r j j.isLt
  have t2 : asMat B' n n = (asMat A' n n).transpose := by
    ext r j
    exact hB' r j j.isLt
  rw [t1, t2] at this
  rw [← Matrix.transpose_transpose (asMat A' n n), this, Matrix.transpose_mul, Matrix.transpose_transpose]

theorem rotM_orth {n k : Nat} (hk : k + 1 < n) {c s : K} (h : c * c + s * s = 1) : (rotM n k c s).transpose * rotM n k c s = 1 := by
  ext r j
  rw [Matrix.mul_apply, Matrix.one_apply]
  show ∑ x : Fin n, colRot k c s (fun a b => if a = b then 1 else 0) x r * colRot k c s (fun a b => if a = b then 1 else 0) x j = _
  rw [Fin.sum_univ_eq_sum_range (fun x => colRot k c s (fun a b => if a = b then 1 else 0) x r * colRot k c s (fun a b => if a = b then 1 else 0) x j) n]
  rw [sum_two hk (G := fun x => if x = r.val then (if r = j then 1 else 0) else 0)]
  · rw [sum_ite_eq' (range n) r.val, if_pos (mem_range.2 r.isLt)]
  · intro x hx hx'
    simp only [colRot, Fin.ext_iff]
    by_cases a1 : r.val = k
    · simp [a1, hx, hx']
    · by_cases a2 : r.val = k + 1
      · simp [a2, hx, hx']
      · by_cases a3 : x = r.val
        · subst a3
          by_cases b1 : j.val = k
          · simp [b1, a1, a2]
          · by_cases b2 : j.val = k + 1
            · simp [b2, a1, a2]
            · simp [a1, a2, b1, b2]
        · simp [a1, a2, a3]
  · simp only [colRot, Fin.ext_iff]
    by_cases a1 : r.val = k
    · by_cases b1 : j.val = k
      · simp [a1, b1, h]
      · by_cases b2 : j.val = k + 1
        · simp [a1, b2]; ring
        · simp [a1, b1, b2, Ne.symm b1, Ne.symm b2]
    · by_cases a2 : r.val = k + 1
      · by_cases b1 : j.val = k
        · simp [a2, b1]; ring
        · by_cases b2 : j.val = k + 1
          · simp [a2, b2]; linear_combination h
          · simp [a2, b1, b2, Ne.symm b1, Ne.symm b2]
      · simp [a1, a2, Ne.symm a1, Ne.symm a2]

end Basis
end Verif
