import Verif.Gpu.Terms

/-!
# The right-hand sides are the rows and columns of the restriction
-/

namespace Verif.Gpu
open Finset Verif.Restriction

variable {α : Type} [CommRing α]

section
variable {len : Arr → Nat} {u₀ : Nat → α} {ne es nc : Nat} {cs : Int} {offs offsets cur : Buf Int} {orients : Buf Bool}

theorem computes_offset (hl : ne * es ≤ offs.len) (hin : ∀ p < ne * es, ∀ k < nc, InB len .u (offs.val p + (k : Nat) * cs))
    {p k : Nat} (hp : p < ne * es) (hk : k < nc) :
    Computes len u₀ (offsetTerm cs offs p k) (u₀ (offs.val p + (k : Nat) * cs).toNat) :=
  computes_ird (Int.natCast_nonneg _) (by exact_mod_cast lt_of_lt_of_le hp hl) (computes_rd (hin p hp k hk))

theorem computes_oriented (hl : ne * es ≤ offs.len) (ho : ne * es ≤ orients.len)
    (hin : ∀ p < ne * es, ∀ k < nc, InB len .u (offs.val p + (k : Nat) * cs))
    {p k : Nat} (hp : p < ne * es) (hk : k < nc) :
    Computes len u₀ (orientedTerm cs offs orients p k)
      (u₀ (offs.val p + (k : Nat) * cs).toNat * (if orients.val p then -1 else 1)) :=
  computes_ird (Int.natCast_nonneg _) (by exact_mod_cast lt_of_lt_of_le hp hl)
    (computes_ird (Int.natCast_nonneg _) (by exact_mod_cast lt_of_lt_of_le hp ho)
      (computes_bind (g := fun y => y * (if orients.val p then -1 else 1)) (computes_rd (hin p hp k hk))
        fun y => computes_pure _))

theorem computes_curlRead {conv : Int → α} (hl : ne * es ≤ offs.len) (hc : 3 * (ne * es) ≤ cur.len)
    (hin : ∀ p < ne * es, ∀ k < nc, InB len .u (offs.val p + (k : Nat) * cs))
    {p j k : Nat} {i' j' : Int} (hp : p < ne * es) (hj : j < 3 * (ne * es)) (hk : k < nc) (hi' : i' = (p : Int))
    (hj' : j' = (j : Int)) :
    Computes len u₀ (curlRead cs offs cur conv i' j' k) (u₀ (offs.val p + (k : Nat) * cs).toNat * conv (cur.val j)) := by
  subst hi' hj'
  exact computes_ird (Int.natCast_nonneg _) (by exact_mod_cast lt_of_lt_of_le hp hl)
    (computes_ird (Int.natCast_nonneg _) (by exact_mod_cast lt_of_lt_of_le hj hc)
      (computes_bind (g := fun y => y * conv (cur.val j)) (computes_rd (hin p hp k hk)) fun y => computes_pure _))

theorem node_succ_lt {p : Nat} (hp : p < ne * es) (h : p % es < es - 1) : p + 1 < ne * es := by
  have h1 := node_lt (node_elem hp).1 (show p % es + 1 < es by omega)
  rw [← Nat.add_assoc, node_eq] at h1
  exact h1

theorem mod_pos_pos {p : Nat} (h : 0 < p % es) : 0 < p := by
  rcases Nat.eq_zero_or_pos p with rfl | h'
  · simp at h
  · exact h'

theorem computes_curl {conv : Int → α} (hl : ne * es ≤ offs.len) (hc : 3 * (ne * es) ≤ cur.len)
    (hin : ∀ p < ne * es, ∀ k < nc, InB len .u (offs.val p + (k : Nat) * cs))
    {p k : Nat} (hp : p < ne * es) (hk : k < nc) :
    Computes len u₀ (curlTerm es cs offs cur conv p k)
      (0 + (if 0 < p % es then u₀ (offs.val (p - 1) + (k : Nat) * cs).toNat * conv (cur.val (3 * p)) else 0) +
        u₀ (offs.val p + (k : Nat) * cs).toNat * conv (cur.val (3 * p + 1)) +
        (if p % es < es - 1 then u₀ (offs.val (p + 1) + (k : Nat) * cs).toNat * conv (cur.val (3 * p + 2)) else 0)) := by
  have h1 := computes_part (c := decide (0 < p % es)) (x := u₀ (offs.val (p - 1) + (k : Nat) * cs).toNat * conv (cur.val (3 * p)))
    (m := curlRead cs offs cur conv ((p : Int) - 1) (3 * p + 0) k) (len := len) (u₀ := u₀) fun h => by
      have := mod_pos_pos (of_decide_eq_true h)
      exact computes_curlRead hl hc hin (by omega) (by omega) hk (by omega) (by omega)
  have h2 := computes_curlRead (len := len) (u₀ := u₀) (cs := cs) (conv := conv) hl hc hin hp
    (show 3 * p + 1 < 3 * (ne * es) by omega) hk rfl (show (3 * (p : Int) + 1) = ((3 * p + 1 : Nat) : Int) by omega)
  have h3 := computes_part (c := decide (p % es < es - 1)) (x := u₀ (offs.val (p + 1) + (k : Nat) * cs).toNat * conv (cur.val (3 * p + 2)))
    (m := curlRead cs offs cur conv ((p : Int) + 1) (3 * p + 2) k) (len := len) (u₀ := u₀) fun h =>
      computes_curlRead hl hc hin (node_succ_lt hp (of_decide_eq_true h)) (by omega) hk (by omega) (by omega)
  simp only [decide_eq_true_eq] at h1 h3
  unfold curlTerm
  exact computes_bind (g := fun x => 0 + x + _ + _) h1 fun x =>
    computes_bind (g := fun y => 0 + x + y + _) h2 fun y =>
      computes_bind (g := fun z => 0 + x + y + z) h3 fun z => computes_pure _

/-! ### Columns -/

theorem eIn {ne es nc p k : Nat} (hp : p < ne * es) (hk : k < nc) : p + k * (ne * es) < ne * es * nc := by
  have : (k + 1) * (ne * es) ≤ nc * (ne * es) := Nat.mul_le_mul_right _ hk
  rw [Nat.add_mul, Nat.one_mul, Nat.mul_comm nc] at this
  omega

theorem ePosC_shift {ne es : Nat} (p k : Nat) (d : Int) (hd : 0 ≤ (p : Int) + d) :
    ePosC ne es ((p : Int).tmod es + d) k ((p : Int).tdiv es) = ((((p : Int) + d).toNat + k * (ne * es) : Nat) : Int) := by
  have h := ePosC_tInd ne es p k
  unfold ePosC at h ⊢
  push_cast at h ⊢
  omega

theorem computes_offsetT (hu : ∀ i < ne * es * nc, InB len .u (i : Nat)) {p k : Nat} (hp : p < ne * es) (hk : k < nc) :
    Computes len u₀ (offsetTermT ne es (p : Int) k) (u₀ (p + k * (ne * es))) := by
  unfold offsetTermT
  rw [ePosC_tInd]
  exact computes_rd (hu _ (eIn hp hk))

theorem computes_orientedT (ho : ne * es ≤ orients.len) (hu : ∀ i < ne * es * nc, InB len .u (i : Nat)) {p k : Nat}
    (hp : p < ne * es) (hk : k < nc) :
    Computes len u₀ (orientedTermT ne es orients (p : Int) k)
      (u₀ (p + k * (ne * es)) * (if orients.val p then -1 else 1)) := by
  unfold orientedTermT
  rw [ePosC_tInd]
  exact computes_ird (Int.natCast_nonneg _) (by exact_mod_cast lt_of_lt_of_le hp ho)
    (computes_bind (g := fun y => y * (if orients.val p then -1 else 1)) (computes_rd (hu _ (eIn hp hk)))
        fun y => computes_pure _)

theorem computes_curlReadT {conv : Int → α} (hc : 3 * (ne * es) ≤ cur.len)
    (hu : ∀ i < ne * es * nc, InB len .u (i : Nat)) {p q j k : Nat} {d j' : Int} (hq : q < ne * es)
    (hd : (p : Int) + d = (q : Int)) (hj : j < 3 * (ne * es)) (hk : k < nc) (hj' : j' = (j : Int)) :
    Computes len u₀ (curlReadT ne es cur conv (p : Int) d j' k) (u₀ (q + k * (ne * es)) * conv (cur.val j)) := by
  subst hj'
  unfold curlReadT
  rw [ePosC_shift p k d (by omega), hd, Int.toNat_natCast]
  exact computes_ird (Int.natCast_nonneg _) (by exact_mod_cast lt_of_lt_of_le hj hc)
    (computes_bind (g := fun y => y * conv (cur.val j)) (computes_rd (hu _ (eIn hq hk))) fun y => computes_pure _)

theorem computes_curlT {conv : Int → α} (hc : 3 * (ne * es) ≤ cur.len)
    (hu : ∀ i < ne * es * nc, InB len .u (i : Nat)) {p k : Nat} (hp : p < ne * es) (hk : k < nc) :
    Computes len u₀ (curlTermT ne es cur conv (p : Int) k)
      (0 + (if 0 < p % es then u₀ (p - 1 + k * (ne * es)) * conv (cur.val (3 * p - 1)) else 0) +
        u₀ (p + k * (ne * es)) * conv (cur.val (3 * p + 1)) +
        (if p % es < es - 1 then u₀ (p + 1 + k * (ne * es)) * conv (cur.val (3 * p + 3)) else 0)) := by
  have hm : (p : Int).tmod es = ((p % es : Nat) : Int) := rfl
  have hes := node_es hp
  have h1 := computes_part (c := decide (0 < (p : Int).tmod es))
    (x := u₀ (p - 1 + k * (ne * es)) * conv (cur.val (3 * p - 1)))
    (m := curlReadT ne es cur conv (p : Int) (-1) (3 * (p : Int) - 1) k) (len := len) (u₀ := u₀) fun h => by
      have h' := of_decide_eq_true h
      rw [hm] at h'
      have := mod_pos_pos (es := es) (p := p) (by omega)
      exact computes_curlReadT hc hu (by omega) (by omega) (by omega) hk (by omega)
  have h2 := computes_curlReadT (len := len) (u₀ := u₀) (conv := conv) (p := p) (d := 0) hc hu hp (by omega)
    (show 3 * p + 1 < 3 * (ne * es) by omega) hk (show (3 * (p : Int) + 1) = ((3 * p + 1 : Nat) : Int) by omega)
  have h3 := computes_part (c := decide ((p : Int).tmod es < (es : Int) - 1))
    (x := u₀ (p + 1 + k * (ne * es)) * conv (cur.val (3 * p + 3)))
    (m := curlReadT ne es cur conv (p : Int) 1 (3 * (p : Int) + 3) k) (len := len) (u₀ := u₀) fun h => by
      have h' := of_decide_eq_true h
      rw [hm] at h'
      have := node_succ_lt hp (es := es) (by omega)
      exact computes_curlReadT hc hu this (by omega) (by omega) hk (by omega)
  simp only [decide_eq_true_eq] at h1 h3
  have e1 : (0 < (p : Int).tmod es) ↔ 0 < p % es := by rw [hm]; omega
  have e3 : ((p : Int).tmod es < (es : Int) - 1) ↔ p % es < es - 1 := by rw [hm]; omega
  rw [if_congr e1 rfl rfl] at h1
  rw [if_congr e3 rfl rfl] at h3
  unfold curlTermT
  exact computes_bind (g := fun x => 0 + x + _ + _) h1 fun x =>
    computes_bind (g := fun y => 0 + x + y + _) h2 fun y =>
      computes_bind (g := fun z => 0 + x + y + z) h3 fun z => computes_pure _

end

/-! ### The values are those of the specification -/

section
variable {ne es nc : Nat} {cs : Int} {offsets : Buf Int}

theorem row_plain {o : Orient} {var : Variant} (hc : ∀ e n m, (orientCoef o var es e n m : α) = idCoef n m) (u : Nat → α)
    {p k : Nat} (hp : p < ne * es) :
    (offsetData ne es nc cs offsets o var).row u (p / es) k (p % es) = u (offsets.val p + (k : Nat) * cs).toNat := by
  unfold RData.row offsetData
  simp only [hc]
  rw [row_id (node_elem hp).2, node_eq]

theorem col_plain {o : Orient} {var : Variant} (hc : ∀ e n m, (orientCoef o var es e n m : α) = idCoef n m) (u : Nat → α)
    {p k : Nat} (hp : p < ne * es) :
    colVal (offsetData ne es nc cs offsets o var) u p k = u (p + k * (ne * es)) := by
  unfold colVal offsetData
  simp only [hc]
  rw [col_id (node_elem hp).2, gPos_node]

theorem row_signs (s : Buf Bool) (u : Nat → α) {p k : Nat} (hp : p < ne * es) :
    (offsetData ne es nc cs offsets (.signs s) .plain).row u (p / es) k (p % es) =
      u (offsets.val p + (k : Nat) * cs).toNat * (if s.val p then -1 else 1) := by
  unfold RData.row offsetData orientCoef
  simp only [node_eq]
  cases s.val p with
  | false =>
    simp only [Bool.false_eq_true, if_false]
    rw [row_id (node_elem hp).2, node_eq, mul_one]
  | true =>
    simp only [if_true, neg_mul, Finset.sum_neg_distrib]
    rw [row_id (node_elem hp).2, node_eq, mul_neg, mul_one]

theorem col_signs (s : Buf Bool) (u : Nat → α) {p k : Nat} (hp : p < ne * es) :
    colVal (offsetData ne es nc cs offsets (.signs s) .plain) u p k =
      u (p + k * (ne * es)) * (if s.val p then -1 else 1) := by
  have hm := (node_elem hp).2
  unfold colVal offsetData orientCoef
  have h : ∀ n ∈ range es, (if s.val (p / es * es + n) then -idCoef n (p % es) else idCoef n (p % es)) *
      u (gPos ne es (p / es) k n) = idCoef n (p % es) * ((if s.val (p / es * es + n) then -1 else 1) *
        u (gPos ne es (p / es) k n)) := by
    intro n _
    split <;> simp
  rw [Finset.sum_congr rfl h, col_id hm fun n => (if s.val (p / es * es + n) then -1 else 1) *
        u (gPos ne es (p / es) k n), gPos_node, node_eq, mul_comm]

/-- The orientation matrices of the two curl oriented variants. -/
theorem row_curl (o : Orient) (var : Variant) (conv : Int → α) (c : Buf Int)
    (hc : ∀ e n m, orientCoef o var es e n m = triCoef (fun i => conv (c.val (e * (3 * es) + i))) n m)
    (u : Nat → α) {p k : Nat} (hp : p < ne * es) :
    (offsetData ne es nc cs offsets o var).row u (p / es) k (p % es) =
      0 + (if 0 < p % es then u (offsets.val (p - 1) + (k : Nat) * cs).toNat * conv (c.val (3 * p)) else 0) +
        u (offsets.val p + (k : Nat) * cs).toNat * conv (c.val (3 * p + 1)) +
        (if p % es < es - 1 then u (offsets.val (p + 1) + (k : Nat) * cs).toNat * conv (c.val (3 * p + 2)) else 0) := by
  unfold RData.row offsetData
  simp only [hc]
  rw [row_tri (node_elem hp).2, node_eq]
  have hn := node_eq es p
  have e1 : p / es * (3 * es) + 3 * (p % es) = 3 * p := by
    rw [Nat.mul_left_comm, ← Nat.mul_add, hn]
  have e2 : p / es * es + (p % es + 1) = p + 1 := by omega
  simp only [← Nat.add_assoc, e1]
  rw [hn]
  congr 1
  · congr 1
    · rw [zero_add]
      by_cases h : 0 < p % es
      · rw [if_pos h, if_pos h, show p / es * es + (p % es - 1) = p - 1 by omega, mul_comm]
      · rw [if_neg h, if_neg h]
    · rw [mul_comm]
  · by_cases h : p % es < es - 1
    · rw [if_pos h, if_pos h, mul_comm]
    · rw [if_neg h, if_neg h]

theorem col_curl (o : Orient) (var : Variant) (conv : Int → α) (c : Buf Int)
    (hc : ∀ e n m, orientCoef o var es e n m = triCoef (fun i => conv (c.val (e * (3 * es) + i))) n m)
    (u : Nat → α) {p k : Nat} (hp : p < ne * es) :
    colVal (offsetData ne es nc cs offsets o var) u p k =
      0 + (if 0 < p % es then u (p - 1 + k * (ne * es)) * conv (c.val (3 * p - 1)) else 0) +
        u (p + k * (ne * es)) * conv (c.val (3 * p + 1)) +
        (if p % es < es - 1 then u (p + 1 + k * (ne * es)) * conv (c.val (3 * p + 3)) else 0) := by
  unfold colVal offsetData
  simp only [hc]
  rw [col_tri (node_elem hp).2]
  have hn := node_eq es p
  have e1 : p / es * (3 * es) + 3 * (p % es) = 3 * p := by
    rw [Nat.mul_left_comm, ← Nat.mul_add, hn]
  have hg := gPos_node (ne := ne) (es := es) k p
  unfold gPos at hg ⊢
  simp only [← Nat.add_assoc, e1]
  congr 1
  · congr 1
    · rw [zero_add]
      by_cases h : 0 < p % es
      · rw [if_pos h, if_pos h, show p / es * (3 * es) + (3 * (p % es) - 1) = 3 * p - 1 by omega,
          show p % es - 1 + k * (ne * es) + p / es * es = p - 1 + k * (ne * es) by omega, mul_comm]
      · rw [if_neg h, if_neg h]
    · rw [hg, mul_comm]
  · by_cases h : p % es < es - 1
    · rw [if_pos h, if_pos h, show p % es + 1 + k * (ne * es) + p / es * es = p + 1 + k * (ne * es) by omega, mul_comm]
    · rw [if_neg h, if_neg h]

end

end Verif.Gpu
