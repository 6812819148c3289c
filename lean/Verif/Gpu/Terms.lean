import Verif.Gpu.Transpose
import Verif.Gpu.Spec

/-!
# What the right-hand sides of the restriction kernels compute
-/

namespace Verif.Gpu
open Finset Verif.Restriction

variable {α : Type} [CommRing α]

section Computes
variable {len : Arr → Nat} {u₀ : Nat → α}

theorem computes_pure (x : α) : Computes len u₀ (pure x) x := ⟨gives_pure x, fun _ _ _ _ => safe_pure trivial⟩

theorem computes_bind {m : K α α} {f : α → K α α} {x : α} {g : α → α} (hm : Computes len u₀ m x)
    (hf : ∀ y, Computes len u₀ (f y) (g y)) : Computes len u₀ (m >>= f) (g x) :=
  ⟨gives_bind hm.1 (hf x).1, fun F b t hF => safe_bind (hm.2 F b t hF) fun y _ => (hf y).2 F b t hF⟩

theorem computes_ird {β : Type} {c : Buf β} {i : Int} {f : β → K α α} {x : α} (h0 : 0 ≤ i) (hl : i < c.len)
    (h : Computes len u₀ (f (c.val i.toNat)) x) : Computes len u₀ (ird c i >>= f) x :=
  ⟨gives_bind (gives_ird h0 hl) h.1, fun F b t hF => safe_bind (safe_ird h0 hl) fun y hy => by
    subst hy
    exact h.2 F b t hF⟩

theorem computes_rd {i : Int} (h : InB len .u i) : Computes len u₀ (rd .u i) (u₀ i.toNat) :=
  ⟨gives_rdu, fun _ _ _ hF => safe_rd h (.inr (hF _))⟩

theorem computes_part {c : Bool} {m : K α α} {x : α} (h : c = true → Computes len u₀ m x) :
    Computes len u₀ (curlPart c m) (if c then x else 0) := by
  cases c with
  | false => exact computes_pure 0
  | true => exact h rfl

end Computes

/-! ### Sums against the orientation matrices -/

theorem triCoef_add (c : Nat → α) (n m : Nat) : triCoef c n m =
    (if m + 1 = n then c (3 * n) else 0) + (if m = n then c (3 * n + 1) else 0) +
      (if m = n + 1 then c (3 * n + 2) else 0) := by
  unfold triCoef
  by_cases h1 : m + 1 = n
  · rw [if_pos h1, if_pos h1, if_neg (by omega), if_neg (by omega), add_zero, add_zero]
  · rw [if_neg h1, if_neg h1]
    by_cases h2 : m = n
    · rw [if_pos h2, if_pos h2, if_neg (by omega), zero_add, add_zero]
    · rw [if_neg h2, if_neg h2, zero_add, zero_add]

theorem sum_pick {n i : Nat} (f : Nat → α) (hi : i < n) : ∑ m ∈ range n, (if m = i then f m else 0) = f i := by
  rw [Finset.sum_ite_eq', if_pos (Finset.mem_range.mpr hi)]

theorem sum_none {n : Nat} {p : Nat → Prop} [DecidablePred p] (f : Nat → α) (h : ∀ m < n, ¬ p m) :
    ∑ m ∈ range n, (if p m then f m else 0) = 0 :=
  Finset.sum_eq_zero fun m hm => if_neg (h m (Finset.mem_range.mp hm))

theorem sum_pick' {n i : Nat} {p : Nat → Prop} [DecidablePred p] (f : Nat → α) (hi : i < n)
    (h : ∀ m, p m ↔ m = i) : ∑ m ∈ range n, (if p m then f m else 0) = f i := by
  rw [← sum_pick f hi]
  exact Finset.sum_congr rfl fun m _ => if_congr (h m) rfl rfl

theorem row_id {es n : Nat} (hn : n < es) (f : Nat → α) : ∑ m ∈ range es, idCoef n m * f m = f n := by
  simp only [idCoef, ite_mul, one_mul, zero_mul]
  exact sum_pick f hn

theorem col_id {es m : Nat} (hm : m < es) (f : Nat → α) : ∑ n ∈ range es, idCoef n m * f n = f m := by
  simp only [idCoef, ite_mul, one_mul, zero_mul]
  exact sum_pick' f hm fun n => eq_comm

theorem row_tri {es n : Nat} (hn : n < es) (c f : Nat → α) : ∑ m ∈ range es, triCoef c n m * f m =
    (if 0 < n then c (3 * n) * f (n - 1) else 0) + c (3 * n + 1) * f n +
      (if n < es - 1 then c (3 * n + 2) * f (n + 1) else 0) := by
  simp only [triCoef_add, add_mul, ite_mul, zero_mul, Finset.sum_add_distrib]
  congr 1
  · congr 1
    · by_cases h : 0 < n
      · rw [if_pos h, sum_pick' (i := n - 1) (fun m => c (3 * n) * f m) (by omega) fun m => by omega]
      · rw [if_neg h, sum_none _ fun m _ => by omega]
    · exact sum_pick' (fun m => c (3 * n + 1) * f m) hn fun m => Iff.rfl
  · by_cases h : n < es - 1
    · rw [if_pos h, sum_pick' (i := n + 1) (fun m => c (3 * n + 2) * f m) (by omega) fun m => Iff.rfl]
    · rw [if_neg h, sum_none _ fun m _ => by omega]

theorem col_tri {es m : Nat} (hm : m < es) (c f : Nat → α) : ∑ n ∈ range es, triCoef c n m * f n =
    (if 0 < m then c (3 * m - 1) * f (m - 1) else 0) + c (3 * m + 1) * f m +
      (if m < es - 1 then c (3 * m + 3) * f (m + 1) else 0) := by
  simp only [triCoef_add, add_mul, ite_mul, zero_mul, Finset.sum_add_distrib]
  have h1 : ∑ n ∈ range es, (if m + 1 = n then c (3 * n) * f n else 0) =
      if m < es - 1 then c (3 * m + 3) * f (m + 1) else 0 := by
    by_cases h : m < es - 1
    · rw [if_pos h, sum_pick' (i := m + 1) (fun n => c (3 * n) * f n) (by omega) fun n => eq_comm,
        show 3 * (m + 1) = 3 * m + 3 by omega]
    · rw [if_neg h, sum_none _ fun n _ => by omega]
  have h2 : ∑ n ∈ range es, (if m = n then c (3 * n + 1) * f n else 0) = c (3 * m + 1) * f m :=
    sum_pick' (fun n => c (3 * n + 1) * f n) hm fun n => eq_comm
  have h3 : ∑ n ∈ range es, (if m = n + 1 then c (3 * n + 2) * f n else 0) =
      if 0 < m then c (3 * m - 1) * f (m - 1) else 0 := by
    by_cases h : 0 < m
    · rw [if_pos h, sum_pick' (i := m - 1) (fun n => c (3 * n + 2) * f n) (by omega) fun n => by omega,
        show 3 * (m - 1) + 2 = 3 * m - 1 by omega]
    · rw [if_neg h, sum_none _ fun n _ => by omega]
  rw [h1, h2, h3, add_right_comm, add_comm, add_left_comm, ← add_assoc]
  ac_rfl

/-! ### Positions -/

theorem gPos_node {ne es : Nat} (k node : Nat) : gPos ne es (node / es) k (node % es) = node + k * (ne * es) := by
  unfold gPos
  have := Nat.mod_add_div node es
  rw [Nat.mul_comm] at this
  omega

theorem node_div {es e n : Nat} (hn : n < es) : (e * es + n) / es = e := by
  rw [Nat.add_comm, Nat.add_mul_div_right _ _ (by omega), Nat.div_eq_of_lt hn, Nat.zero_add]

theorem node_mod {es e n : Nat} (hn : n < es) : (e * es + n) % es = n := by
  rw [Nat.add_comm, Nat.add_mul_mod_self_right, Nat.mod_eq_of_lt hn]

theorem node_eq (es node : Nat) : node / es * es + node % es = node := by
  have := Nat.mod_add_div node es
  rw [Nat.mul_comm] at this
  omega

theorem node_lt {ne es e n : Nat} (he : e < ne) (hn : n < es) : e * es + n < ne * es := by
  have : (e + 1) * es ≤ ne * es := Nat.mul_le_mul_right es he
  rw [Nat.add_mul, Nat.one_mul] at this
  omega

theorem node_es {ne es node : Nat} (h : node < ne * es) : 0 < es := by
  rcases Nat.eq_zero_or_pos es with rfl | h'
  · simp at h
  · exact h'

theorem node_elem {ne es node : Nat} (h : node < ne * es) : node / es < ne ∧ node % es < es :=
  ⟨Nat.div_lt_of_lt_mul (by rw [Nat.mul_comm]; exact h), Nat.mod_lt _ (node_es h)⟩

theorem sum_nodes {ne es : Nat} (f : Nat → α) :
    ∑ p ∈ range (ne * es), f p = ∑ e ∈ range ne, ∑ n ∈ range es, f (e * es + n) := by
  induction ne with
  | zero => simp
  | succ ne ih => rw [Nat.add_mul, Nat.one_mul, Finset.sum_range_add, ih, Finset.sum_range_succ]

/-- A statement about every E-vector node, by element and node. -/
theorem gather_of_nodes {D : RData α} {u w : Nat → α}
    (h : ∀ p < D.ne * D.es, ∀ k < D.nc, w (p + k * (D.ne * D.es)) = D.row u (p / D.es) k (p % D.es)) :
    IsGatherG D u w := by
  intro e he k hk n hn
  have := h (e * D.es + n) (node_lt he hn) k hk
  rw [node_div hn, node_mod hn] at this
  rw [← this]
  refine congrArg w ?_
  unfold gPos
  omega

/-- What node `p` of the elements receives in component `k`. -/
def colVal (D : RData α) (u : Nat → α) (p k : Nat) : α :=
  ∑ n ∈ range D.es, D.coef (p / D.es) n (p % D.es) * u (gPos D.ne D.es (p / D.es) k n)

theorem scatter_of_nodes (D : RData α) (u : Nat → α) (pos : Nat → Nat → Nat) (i : Nat)
    (hpos : ∀ e < D.ne, ∀ m < D.es, ∀ k < D.nc, pos (e * D.es + m) k = D.lidx e m k) :
    ∑ p ∈ range (D.ne * D.es), ∑ k ∈ range D.nc, (if pos p k = i then colVal D u p k else 0) = scatterG D u i := by
  unfold scatterG
  rw [sum_nodes]
  refine Finset.sum_congr rfl fun e he => ?_
  rw [Finset.sum_comm]
  refine Finset.sum_congr rfl fun k hk => ?_
  rw [Finset.sum_comm]
  refine Finset.sum_congr rfl fun m hm => ?_
  rw [Finset.mem_range] at he hk hm
  rw [hpos e he m hm k hk]
  by_cases h : D.lidx e m k = i
  · simp only [if_pos h, colVal, node_div hm, node_mod hm]
  · simp only [if_neg h, Finset.sum_const_zero]

end Verif.Gpu
