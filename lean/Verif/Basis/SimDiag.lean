import Verif.Basis.SchurProps

/-!
# C64: simultaneous diagonalisation
-/

namespace Verif
namespace Basis

open Finset Restriction

set_option linter.unusedSectionVars false

variable {K : Type} [Field K] [LinearOrder K]

/-- `l'` and `m'` are `l` and the columns of `m` in the order `p`. -/
structure Permuted (n : Nat) (p : Equiv.Perm (Fin n)) (l m l' m' : Buf K) : Prop where
  ll : l'.len = n
  lm : m'.len = n * n
  lam : ∀ i : Fin n, l'.val i = l.val (p i)
  col : ∀ r c : Fin n, asMat m' n n r c = asMat m n n r (p c)

/-- Columns `j` and `j + 1` exchanged. -/
theorem swapCols_ok {n j : Nat} (hj : j + 1 < n) {m : Buf K} (hm : m.len = n * n) :
    ∃ m', loop n (fun k mat => do
        let a ← mat.rd (k * n + j)
        let b ← mat.rd (k * n + j + 1)
        let mat ← mat.wr (k * n + j) b
        mat.wr (k * n + j + 1) a) m = .ok m' ∧ m'.len = n * n ∧
      ∀ r < n, ∀ c < n, m'.val (c + n * r) = if c = j then m.val (j + 1 + n * r) else if c = j + 1 then m.val (j + n * r) else m.val (c + n * r) := by
  have i1 : ∀ k, k * n + j = j + n * k := fun k => by ring
  have i2 : ∀ k, j + n * k + 1 = j + 1 + n * k := fun k => by ring
  simp only [i1, i2]
  obtain ⟨m', e, h1, h2⟩ := loop_inv (n := n) (s := m) (body := fun k mat => do
        let a ← mat.rd (j + n * k)
        let b ← mat.rd (j + 1 + n * k)
        let mat ← mat.wr (j + n * k) b
        mat.wr (j + 1 + n * k) a)
    (fun t w => w.len = n * n ∧ ∀ r < n, ∀ c < n, w.val (c + n * r) =
      if r < t then (if c = j then m.val (j + 1 + n * r) else if c = j + 1 then m.val (j + n * r) else m.val (c + n * r)) else m.val (c + n * r))
    ⟨hm, fun r _ c _ => by rw [if_neg (by omega)]⟩ (by
      intro t ht w ⟨h1, h2⟩
      have l1 : j + n * t < w.len := h1 ▸ idx_lt (by omega) ht
      have l2 : j + 1 + n * t < w.len := h1 ▸ idx_lt (by omega) ht
      refine ⟨_, by rw [Buf.rd_lt l1, Res.bind_ok, Buf.rd_lt l2, Res.bind_ok, Buf.wr_lt l1, Res.bind_ok, Buf.wr_lt (by exact l2)], by exact h1, fun r hr c hc => ?_⟩
      have v1 := h2 t ht j (by omega)
      have v2 := h2 t ht (j + 1) hj
      rw [if_neg (by omega)] at v1 v2
      show (if c + n * r = j + 1 + n * t then _ else if c + n * r = j + n * t then _ else w.val (c + n * r)) = _
      by_cases ha : c + n * r = j + 1 + n * t
      · obtain ⟨rfl, rfl⟩ := idx_inj hc hj ha
        rw [if_pos ha, if_pos (by omega), if_neg (by omega), if_pos rfl, v1]
      · rw [if_neg ha]
        by_cases hb : c + n * r = j + n * t
        · obtain ⟨rfl, rfl⟩ := idx_inj hc (by omega) hb
          rw [if_pos hb, if_pos (by omega), if_pos rfl, v2]
        · rw [if_neg hb, h2 r hr c hc]
          by_cases hrt : r = t
          · subst hrt
            rw [if_neg (by omega), if_pos (by omega), if_neg (fun h => hb (by rw [h])), if_neg (fun h => ha (by rw [h]))]
          · exact if_congr (by omega) rfl rfl)
  exact ⟨m', e, h1, fun r hr c hc => by rw [h2 r hr c hc, if_pos hr]⟩

/-- One comparison of the sort. -/
theorem sortStep_ok {n j : Nat} (hj : j + 1 < n) {l m : Buf K} {s : Buf K × Buf K} {p : Equiv.Perm (Fin n)} (h : Permuted n p l m s.1 s.2) :
    ∃ s' p', (do
      let x ← s.1.rd j
      let y ← s.1.rd (j + 1)
      if |y| < |x| then do
        let lam ← s.1.wr j y
        let lam ← lam.wr (j + 1) x
        let mat ← loop n (fun k mat => do
          let a ← mat.rd (k * n + j)
          let b ← mat.rd (k * n + j + 1)
          let mat ← mat.wr (k * n + j) b
          mat.wr (k * n + j + 1) a) s.2
        .ok (lam, mat)
      else .ok s : Res (Buf K × Buf K)) = .ok s' ∧ Permuted n p' l m s'.1 s'.2 ∧ (∀ i, i ≠ j → i ≠ j + 1 → s'.1.val i = s.1.val i) ∧
      ((s'.1.val j = s.1.val j ∧ s'.1.val (j + 1) = s.1.val (j + 1)) ∨ (s'.1.val j = s.1.val (j + 1) ∧ s'.1.val (j + 1) = s.1.val j)) ∧
      |s'.1.val j| ≤ |s'.1.val (j + 1)| := by
  have l1 : j < s.1.len := by rw [h.ll]; omega
  have l2 : j + 1 < s.1.len := by rw [h.ll]; omega
  rw [Buf.rd_lt l1, Res.bind_ok, Buf.rd_lt l2, Res.bind_ok]
  by_cases hx : |s.1.val (j + 1)| < |s.1.val j|
  · obtain ⟨m', e, g1, g2⟩ := swapCols_ok hj h.lm
    rw [if_pos hx, Buf.wr_lt l1, Res.bind_ok, Buf.wr_lt (by exact l2), Res.bind_ok, e, Res.bind_ok]
    have sw : ∀ c : Fin n, (Equiv.swap (⟨j, by omega⟩ : Fin n) ⟨j + 1, hj⟩ c).val = if c.val = j then j + 1 else if c.val = j + 1 then j else c.val := fun c => by
      rw [Equiv.swap_apply_def]
      simp only [Fin.ext_iff]
      split_ifs <;> rfl
    refine ⟨_, p * Equiv.swap ⟨j, by omega⟩ ⟨j + 1, hj⟩, rfl, ⟨by exact h.ll, g1, fun i => ?_, fun r c => ?_⟩, fun i h1 h2 => ?_, .inr ⟨?_, ?_⟩, ?_⟩
    · rw [Equiv.Perm.mul_apply, ← h.lam, sw]
      show (if i.val = j + 1 then _ else if i.val = j then _ else s.1.val i) = _
      by_cases a1 : i.val = j
      · rw [if_neg (by omega), if_pos a1, if_pos a1]
      · by_cases a2 : i.val = j + 1
        · rw [if_pos a2, if_neg a1, if_pos a2]
        · rw [if_neg a2, if_neg a1, if_neg a1, if_neg a2]
    · rw [Equiv.Perm.mul_apply, ← h.col]
      show m'.val (c + n * r) = s.2.val ((Equiv.swap (⟨j, by omega⟩ : Fin n) ⟨j + 1, hj⟩ c).val + n * r)
      rw [g2 r r.isLt c c.isLt, sw]
      split_ifs <;> rfl
    · show (if i = j + 1 then _ else if i = j then _ else s.1.val i) = _
      rw [if_neg h2, if_neg h1]
    · show (if j = j + 1 then _ else if j = j then _ else _) = _
      rw [if_neg (by omega), if_pos rfl]
    · show (if j + 1 = j + 1 then _ else _) = _
      rw [if_pos rfl]
    · show |if j = j + 1 then _ else if j = j then _ else _| ≤ |if j + 1 = j + 1 then _ else _|
      rw [if_neg (by omega), if_pos rfl, if_pos rfl]
      exact hx.le
  · rw [if_neg hx]
    exact ⟨s, p, rfl, h, fun _ _ _ => rfl, .inl ⟨rfl, rfl⟩, not_lt.1 hx⟩

/-- The sort: the eigenvalues by magnitude, the columns with them. -/
theorem sortEig_ok {n : Nat} {l m : Buf K} (hl : l.len = n) (hm : m.len = n * n) :
    ∃ l' m' p, sortEig n l m = .ok (l', m') ∧ Permuted n p l m l' m' ∧ ∀ a b, a ≤ b → b < n → |l'.val a| ≤ |l'.val b| := by
  obtain ⟨s', e, ⟨p, hp⟩, h2⟩ := loop_inv (n := n) (s := (l, m)) (body := fun i' s => loop (n - 1 - i') (fun j (s : Buf K × Buf K) => do
    let x ← s.1.rd j
    let y ← s.1.rd (j + 1)
    if |y| < |x| then do
      let lam ← s.1.wr j y
      let lam ← lam.wr (j + 1) x
      let mat ← loop n (fun k mat => do
        let a ← mat.rd (k * n + j)
        let b ← mat.rd (k * n + j + 1)
        let mat ← mat.wr (k * n + j) b
        mat.wr (k * n + j + 1) a) s.2
      .ok (lam, mat)
    else .ok s) s)
    (fun t s => (∃ p, Permuted n p l m s.1 s.2) ∧ ∀ a b, a ≤ b → b < n → n - t ≤ b → |s.1.val a| ≤ |s.1.val b|)
    ⟨⟨1, ⟨hl, hm, fun _ => rfl, fun _ _ => rfl⟩⟩, fun a b _ h1 h2 => by omega⟩ (by
      intro t ht s ⟨hp, h2⟩
      obtain ⟨s', e, g1, g2, g3⟩ := loop_inv (n := n - 1 - t) (s := s) (body := fun j (s : Buf K × Buf K) => do
          let x ← s.1.rd j
          let y ← s.1.rd (j + 1)
          if |y| < |x| then do
            let lam ← s.1.wr j y
            let lam ← lam.wr (j + 1) x
            let mat ← loop n (fun k mat => do
              let a ← mat.rd (k * n + j)
              let b ← mat.rd (k * n + j + 1)
              let mat ← mat.wr (k * n + j) b
              mat.wr (k * n + j + 1) a) s.2
            .ok (lam, mat)
          else .ok s)
        (fun j w => (∃ p, Permuted n p l m w.1 w.2) ∧ (∀ a ≤ j, |w.1.val a| ≤ |w.1.val j|) ∧
          ∀ a b, a ≤ b → b < n → n - t ≤ b → |w.1.val a| ≤ |w.1.val b|)
        ⟨hp, fun a ha => by
          obtain rfl : a = 0 := by omega
          exact le_refl _, h2⟩ (by
          intro j hj w ⟨⟨p, hp⟩, g2, g3⟩
          obtain ⟨w', p', e, k1, k2, k3, k4⟩ := sortStep_ok (show j + 1 < n by omega) hp
          refine ⟨w', e, ⟨p', k1⟩, fun a ha => ?_, fun a b hab hb hnb => ?_⟩
          · rcases Nat.lt_trichotomy a j with h | h | h
            · rw [k2 a (by omega) (by omega)]
              rcases k3 with ⟨c1, c2⟩ | ⟨c1, c2⟩
              · rw [c1] at k4
                exact (g2 a h.le).trans k4
              · rw [c2]
                exact g2 a h.le
            · rw [h]; exact k4
            · obtain rfl : a = j + 1 := by omega
              exact le_refl _
          · rw [k2 b (by omega) (by omega)]
            by_cases h1 : a = j
            · subst h1
              rcases k3 with ⟨c1, c2⟩ | ⟨c1, c2⟩
              · rw [c1]; exact g3 _ _ hab hb hnb
              · rw [c1]; exact g3 _ _ (by omega) hb hnb
            · by_cases h3 : a = j + 1
              · subst h3
                rcases k3 with ⟨c1, c2⟩ | ⟨c1, c2⟩
                · rw [c2]; exact g3 _ _ hab hb hnb
                · rw [c2]; exact g3 _ _ (by omega) hb hnb
              · rw [k2 a h1 h3]
                exact g3 _ _ hab hb hnb)
      refine ⟨s', e, g1, fun a b hab hb hnb => ?_⟩
      by_cases hbt : n - t ≤ b
      · exact g3 a b hab hb hbt
      · obtain rfl : b = n - 1 - t := by omega
        exact g2 a hab)
  refine ⟨s'.1, s'.2, p, e, hp, fun a b hab hb => h2 a b hab hb (by omega)⟩

end Basis
end Verif
