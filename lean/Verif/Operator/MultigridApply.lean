import Verif.Operator.MultigridProps

/-!
# C46: applying the transfer operators
-/

set_option linter.unusedSectionVars false

namespace Verif
namespace Operator

open Finset
open Restriction (Rstr RData Made idCoef)
open Basis (Bas EMode MulBy MulByT AddByT)

variable {α : Type} [Field α] [LinearOrder α]
variable {rs : Nat → Rstr} {D : Nat → RData α} {lf lc : Int} {rf rc ρ : Nat} {b : Bas α} {B : Buf α} {nc μ : Nat}
variable {eps : α} {fine : OpI α} {pm : Buf α} {bc : Bas α} {wantR wantP : Bool} {lev : Level α}

/-- What a successful application of the prolongation operator stores. -/
theorem prolong_stores (h : Created rs D lf lc rf rc ρ μ eps fine pm bc b B wantR wantP lev) {P : OpI α}
    (hP : lev.prolong = some P) {s s' : St α} {junk : Nat → Nat → α} {u x : Nat}
    (hs : Reach (P.oper lev.rstrs false scaleF) True s)
    (e : apply (P.oper lev.rstrs false scaleF) junk (.vec u) (.vec x) s = .ok s' ()) (hux : u ≠ x ∧ x ≠ μ) (t : Nat) :
    s'.L x t = spread (D rf) (fun e k n => interpE B (D rc) (s.L u) e k n * s.L μ ((D rf).lidx e n k)) t := by
  obtain ⟨a1, a2, a3, a4⟩ := h.prolong hP
  rw [a2] at a3 a4 hs e
  have hna : NoAlias (P.oper (Function.update rs ρ (unsignedCopy (rs rf))) false scaleF) (.vec u) (.vec x) := by
    intro i hi o ho _
    rw [a4.nin] at hi
    rw [a4.nout] at ho
    obtain rfl : o = 0 := by omega
    rw [a4.out0]
    rcases (by omega : i = 0 ∨ i = 1) with rfl | rfl
    · rw [a4.inp0]
      intro hh
      simp only [FVec.ptr, VPtr.vec.injEq] at hh
      exact hux.1 hh
    · rw [a4.inp1]
      intro hh
      simp only [FVec.ptr, VPtr.vec.injEq] at hh
      exact hux.2 hh.symm
  rw [(C37_apply (prolong_opOK h.level a1 a3 a4) hs hna e).1 x ⟨0, by rw [a4.nout]; omega, by rw [a4.out0]; rfl⟩ t,
    prolong_action h.level a3 a4]

/-- What a successful application of the restriction operator stores. -/
theorem restrict_stores (h : Created rs D lf lc rf rc ρ μ eps fine pm bc b B wantR wantP lev) {R : OpI α}
    (hR : lev.restrict = some R) {s s' : St α} {junk : Nat → Nat → α} {w y : Nat}
    (hs : Reach (R.oper lev.rstrs false scaleF) True s)
    (e : apply (R.oper lev.rstrs false scaleF) junk (.vec w) (.vec y) s = .ok s' ()) (hwy : w ≠ y ∧ y ≠ μ) (t : Nat) :
    s'.L y t = spread (D rc) (fun e k c => ∑ n ∈ range (D rf).es,
        B.val (n * (D rc).es + c) * ((D rf).row (s.L w) e k n * s.L μ ((D rf).lidx e n k))) t := by
  obtain ⟨a1, a2, a3, a4⟩ := h.restrict hR
  rw [a2] at a3 a4 hs e
  have hna : NoAlias (R.oper (Function.update rs ρ (unsignedCopy (rs rf))) false scaleF) (.vec w) (.vec y) := by
    intro i hi o ho _
    rw [a4.nin] at hi
    rw [a4.nout] at ho
    obtain rfl : o = 0 := by omega
    rw [a4.out0]
    rcases (by omega : i = 0 ∨ i = 1) with rfl | rfl
    · rw [a4.inp0]
      intro hh
      simp only [FVec.ptr, VPtr.vec.injEq] at hh
      exact hwy.1 hh
    · rw [a4.inp1]
      intro hh
      simp only [FVec.ptr, VPtr.vec.injEq] at hh
      exact hwy.2 hh.symm
  rw [(C37_apply (restrict_opOK h.level a1 a3 a4) hs hna e).1 y ⟨0, by rw [a4.nout]; omega, by rw [a4.out0]; rfl⟩ t,
    restrict_action h.level a3 a4]

/-- **C46.** Applied to vectors, after any histories of the two operators: `⟨w, P u⟩ = ⟨R w, u⟩`, as long as the vector of
inverse multiplicities held the same values in both calls. -/
theorem C46_apply (h : Created rs D lf lc rf rc ρ μ eps fine pm bc b B wantR wantP lev) {R P : OpI α}
    (hR : lev.restrict = some R) (hP : lev.prolong = some P) {s s' q q' : St α} {junk junk' : Nat → Nat → α} {u x w y : Nat}
    (hs : Reach (P.oper lev.rstrs false scaleF) True s) (hq : Reach (R.oper lev.rstrs false scaleF) True q)
    (e : apply (P.oper lev.rstrs false scaleF) junk (.vec u) (.vec x) s = .ok s' ()) (hux : u ≠ x ∧ x ≠ μ)
    (e' : apply (R.oper lev.rstrs false scaleF) junk' (.vec w) (.vec y) q = .ok q' ()) (hwy : w ≠ y ∧ y ≠ μ)
    (hm : s.L μ = q.L μ) :
    ∑ t ∈ range lf.toNat, q.L w t * s'.L x t = ∑ t ∈ range lc.toNat, q'.L y t * s.L u t := by
  obtain ⟨a1, a2, a3, a4⟩ := h.restrict hR
  have z := h.level.sizes (by rw [a2] at a3; exact a3)
  simp only [prolong_stores h hP hs e hux, restrict_stores h hR hq e' hwy, hm]
  rw [transfer_adjoint h.level z]
  exact sum_congr rfl fun t _ => mul_comm _ _

/-- Restrictions that are not curl-oriented have diagonal coefficients `1` or `-1`. -/
theorem made_signs {r : Rstr} {bs : Nat} {l : Int} {D : RData α} (h : Made .plain r bs l D) (hr : r.rtype ≠ .curlOriented) :
    ∃ σ : Nat → Nat → α, (∀ e n, σ e n * σ e n = 1) ∧ ∀ e n m, D.coef e n m = σ e n * idCoef n m := by
  have hu : ∀ (o : Restriction.Orient) (es : Nat), o.rtype ≠ .curlOriented → ∃ σ : Nat → Nat → α,
      (∀ e n, σ e n * σ e n = 1) ∧ ∀ e n m, Restriction.orientCoef o .plain es e n m = σ e n * idCoef n m := by
    intro o es ho
    cases o with
    | none => exact ⟨fun _ _ => 1, fun _ _ => one_mul _, fun e n m => (one_mul _).symm⟩
    | signs s =>
      refine ⟨fun e n => if s.val (e * es + n) then -1 else 1, fun e n => ?_, fun e n m => ?_⟩
      · dsimp only; split <;> ring
      · show (if s.val (e * es + n) then -idCoef n m else idCoef n m) = (if s.val (e * es + n) then -1 else 1) * idCoef n m
        split <;> ring
    | curl c => exact absurd rfl ho
  cases h with
  | @offset checked ne es nc cs _ offsets o _ h hf hin =>
    exact hu o es (by rw [← Restriction.create_rtype h]; exact hr)
  | strided h hin => exact ⟨fun _ _ => 1, fun _ _ => one_mul _, fun e n m => (one_mul _).symm⟩
  | @blocked checked ne es bs nc cs _ offsets o _ h hl ho hf hin =>
    refine hu o es ?_
    cases o with
    | none => simp [Restriction.Orient.rtype]
    | signs s => simp [Restriction.Orient.rtype]
    | curl c =>
      refine absurd ?_ hr
      unfold Restriction.createBlocked Restriction.createRef at h
      obtain ⟨_, _, h⟩ := Res.bind_eq_ok.1 h
      obtain ⟨_, _, h⟩ := Res.bind_eq_ok.1 h
      obtain ⟨_, _, h⟩ := Res.bind_eq_ok.1 h
      obtain ⟨_, _, h⟩ := Res.bind_eq_ok.1 h
      obtain ⟨_, _, h⟩ := Res.bind_eq_ok.1 h
      obtain ⟨_, _, h⟩ := Res.bind_eq_ok.1 h
      obtain ⟨_, _, h⟩ := Res.bind_eq_ok.1 h
      obtain ⟨_, _, h⟩ := Res.bind_eq_ok.1 h
      obtain ⟨_, _, h⟩ := Res.bind_eq_ok.1 h
      obtain ⟨_, _, h⟩ := Res.bind_eq_ok.1 h
      cases h; rfl
  | blockedStrided h hin => exact ⟨fun _ _ => 1, fun _ _ => one_mul _, fun e n m => (one_mul _).symm⟩

/-- `v` holds at the fine nodes the function that `u` gives on the coarse elements. -/
def Interpolates (D : Nat → RData α) (rf rc : Nat) (B : Buf α) (u v : Nat → α) : Prop :=
  ∀ e < (D rf).ne, ∀ k < (D rf).nc, ∀ n < (D rf).es, interpE B (D rc) u e k n = (D rf).row v e k n

theorem spread_diag {D : RData α} {σ : Nat → Nat → α} (hσ : ∀ e n m, D.coef e n m = σ e n * idCoef n m)
    (g : Nat → Nat → Nat → α) (t : Nat) : spread D g t =
    ∑ e ∈ range D.ne, ∑ k ∈ range D.nc, ∑ n ∈ range D.es, if D.lidx e n k = t then σ e n * g e k n else 0 := by
  unfold spread
  refine sum_congr rfl fun e _ => sum_congr rfl fun k _ => sum_congr rfl fun n hn => ?_
  rw [sum_eq_single n]
  · rw [hσ]; simp [idCoef]
  · intro m _ hm
    rw [hσ, idCoef, if_neg hm]; simp
  · intro hh; exact absurd hn hh

theorem row_diag {D : RData α} {σ : Nat → Nat → α} (hσ : ∀ e n m, D.coef e n m = σ e n * idCoef n m) (v : Nat → α)
    (e k : Nat) {n : Nat} (hn : n < D.es) : D.row v e k n = σ e n * v (D.lidx e n k) := by
  unfold RData.row
  rw [sum_eq_single n]
  · rw [hσ]; simp [idCoef]
  · intro m _ hm
    rw [hσ, idCoef, if_neg hm]; simp
  · intro hh; exact absurd (mem_range.2 hn) hh

/-- Prolongation of a function that is interpolated conformingly. -/
theorem spread_conforming {D : Nat → RData α} {σ : Nat → Nat → α} (hσ2 : ∀ e n, σ e n * σ e n = 1)
    (hσ : ∀ e n m, (D rf).coef e n m = σ e n * idCoef n m) {u v m : Nat → α} (hc : Interpolates D rf rc B u v) (t : Nat) :
    spread (D rf) (fun e k n => interpE B (D rc) u e k n * m ((D rf).lidx e n k)) t = (D rf).count t * (v t * m t) := by
  rw [spread_diag hσ]
  unfold RData.count
  push_cast
  rw [sum_mul]
  refine sum_congr rfl fun e he => ?_
  rw [sum_mul]
  refine sum_congr rfl fun k hk => ?_
  rw [sum_mul]
  refine sum_congr rfl fun n hn => ?_
  rw [mem_range] at he hk hn
  split
  · rename_i ht
    rw [hc e he k hk n hn, row_diag hσ _ _ _ hn, ht]
    have := hσ2 e n
    rw [show σ e n * (σ e n * v t * m t) = σ e n * σ e n * (v t * m t) by ring, this]
  · rw [zero_mul]

/-- **C46.** Prolongation is exact: where the interpolations from all elements that share a node agree (`v`), and the
multiplicity there is not negligible, the prolongation operator gives `v`, up to the multiplicity the user supplied. -/
theorem C46_exact (h : Created rs D lf lc rf rc ρ μ eps fine pm bc b B wantR wantP lev) {P : OpI α}
    (hP : lev.prolong = some P) {m : Buf α} (hm : lev.mult = some m) {s s' : St α} {junk : Nat → Nat → α} {u x : Nat}
    (hs : Reach (P.oper lev.rstrs false scaleF) True s)
    (e : apply (P.oper lev.rstrs false scaleF) junk (.vec u) (.vec x) s = .ok s' ()) (hux : u ≠ x ∧ x ≠ μ)
    (hμ : ∀ t < lf.toNat, s.L μ t = m.val t) {v : Nat → α} (hc : Interpolates D rf rc B (s.L u) v) {t : Nat}
    (ht : t < lf.toNat) (hne : (D rf).count t * pm.val t ≠ 0) (heps : eps < |(D rf).count t * pm.val t|) :
    pm.val t * s'.L x t = v t := by
  have hw : wantR = true ∨ wantP = true := by
    by_contra hw
    obtain ⟨c, x, -, h2, h3, h4⟩ := multigrid_inv h.ok
    rcases h4 with ⟨_, _, h4⟩ | ⟨h4, _⟩
    · rw [h4] at hP; cases hP
    · exact hw h4
  obtain ⟨-, -, -, m', hm', -, hmv⟩ := C46_created h hw
  rw [hm] at hm'; cases hm'
  obtain ⟨σ, h2, h3⟩ := made_signs h.level.fine (h.prolong hP).1
  rw [prolong_stores h hP hs e hux, spread_conforming h2 h3 hc, hμ t ht, hmv t ht, recipOf, if_pos heps]
  rw [show pm.val t * (((D rf).count t : α) * (v t * (1 / (((D rf).count t : α) * pm.val t)))) =
    v t * ((((D rf).count t : α) * pm.val t) * (1 / (((D rf).count t : α) * pm.val t))) by ring, mul_one_div_cancel hne, mul_one]

end Operator
end Verif
