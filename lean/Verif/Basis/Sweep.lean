import Verif.Basis.Chain

/-!
# Contractions in a single direction, products of matrices on the tensor grid (helper lemmas)
-/

namespace Verif
namespace Basis

open Finset
open Restriction (TMode sum_range_mul)
variable {α : Type} [CommRing α]

/-- The matrix on a grid of `N^dim` points that applies `T` to digit `d`. -/
def dirMat (N d : Nat) (T : Nat → Nat → α) (q l : Nat) : α :=
  if q / N ^ d / N = l / N ^ d / N ∧ q % N ^ d = l % N ^ d then T (q / N ^ d % N) (l / N ^ d % N) else 0

theorem dirMat_enc {N d : Nat} (T : Nat → Nat → α) {h x lo h' b lo' : Nat} (hx : x < N) (hb : b < N)
    (hlo : lo < N ^ d) (hlo' : lo' < N ^ d) :
    dirMat N d T ((h * N + x) * N ^ d + lo) ((h' * N + b) * N ^ d + lo') =
      if h = h' ∧ lo = lo' then T x b else 0 := by
  unfold dirMat
  rw [div_enc hlo, div_enc hlo', mod_enc hlo, mod_enc hlo', div_enc hx, div_enc hb, mod_enc hx, mod_enc hb]

theorem dirMat_transpose (N d : Nat) (T : Nat → Nat → α) (q l : Nat) :
    dirMat N d (fun a b => T b a) q l = dirMat N d T l q := by
  unfold dirMat
  simp only [eq_comm (a := q / N ^ d / N), eq_comm (a := q % N ^ d)]

theorem pow_split {N d dim : Nat} (h : d < dim) : N ^ dim = N ^ (dim - 1 - d) * N * N ^ d := by
  rw [← pow_succ, ← pow_add]; congr 1; omega

/-- Sum over a row of `dirMat`. -/
theorem dirMat_sum {N d dim : Nat} (hd : d < dim) (T : Nat → Nat → α) (f : Nat → α) {h x lo : Nat}
    (hh : h < N ^ (dim - 1 - d)) (hx : x < N) (hlo : lo < N ^ d) :
    ∑ l ∈ range (N ^ dim), dirMat N d T ((h * N + x) * N ^ d + lo) l * f l =
      ∑ b ∈ range N, T x b * f ((h * N + b) * N ^ d + lo) := by
  rw [pow_split hd, sum_range_mul, sum_range_mul]
  have e : ∀ h' ∈ range (N ^ (dim - 1 - d)), (∑ b ∈ range N, ∑ lo' ∈ range (N ^ d),
      dirMat N d T ((h * N + x) * N ^ d + lo) ((h' * N + b) * N ^ d + lo') * f ((h' * N + b) * N ^ d + lo')) =
      if h = h' then ∑ b ∈ range N, T x b * f ((h' * N + b) * N ^ d + lo) else 0 := by
    intro h' _
    by_cases hc : h = h'
    · rw [if_pos hc]
      refine Finset.sum_congr rfl (fun b hb => ?_)
      rw [Finset.sum_congr rfl (fun lo' hlo' => show _ =
        if lo = lo' then T x b * f ((h' * N + b) * N ^ d + lo') else 0 by
          rw [dirMat_enc T hx (mem_range.1 hb) hlo (mem_range.1 hlo')]
          by_cases hl : lo = lo' <;> simp [hc, hl]), Finset.sum_ite_eq]
      simp [hlo]
    · rw [if_neg hc]
      refine Finset.sum_eq_zero (fun b hb => Finset.sum_eq_zero (fun lo' hlo' => ?_))
      rw [dirMat_enc T hx (mem_range.1 hb) hlo (mem_range.1 hlo'), if_neg (by tauto), zero_mul]
  rw [Finset.sum_congr rfl e, Finset.sum_ite_eq]
  simp [hh]

/-- Positions of a grid, decoded around digit `d`. -/
theorem grid_dec {N d dim q : Nat} (hd : d < dim) (hq : q < N ^ dim) :
    ∃ h x lo, h < N ^ (dim - 1 - d) ∧ x < N ∧ lo < N ^ d ∧ q = (h * N + x) * N ^ d + lo := by
  rw [pow_split hd] at hq
  obtain ⟨h1, h2⟩ := dec_lt hq
  obtain ⟨h3, h4⟩ := dec_lt h1
  exact ⟨_, _, _, h3, h4, h2, by rw [dec_eq, dec_eq]⟩

theorem contr_dir {N d dim ne : Nat} (hd : d < dim) (T : Nat → Nat → α) (U : Nat → α) {k q e : Nat}
    (hq : q < N ^ dim) (he : e < ne) :
    contr N (ne * N ^ d) N T U ((k * N ^ dim + q) * ne + e) =
      contr (N ^ dim) ne (N ^ dim) (dirMat N d T) U ((k * N ^ dim + q) * ne + e) := by
  rw [contr_enc _ _ hq he]
  obtain ⟨h, x, lo, hh, hx, hlo, rfl⟩ := grid_dec hd hq
  rw [dirMat_sum hd T (fun l => U ((k * N ^ dim + l) * ne + e)) hh hx hlo, pow_split hd]
  have hc : lo * ne + e < ne * N ^ d := by rw [Nat.mul_comm ne]; exact enc_lt hlo he
  rw [show (k * (N ^ (dim - 1 - d) * N * N ^ d) + ((h * N + x) * N ^ d + lo)) * ne + e =
    ((k * N ^ (dim - 1 - d) + h) * N + x) * (ne * N ^ d) + (lo * ne + e) by ring, contr_enc _ _ hx hc]
  refine Finset.sum_congr rfl (fun b _ => ?_)
  congr 2
  ring

/-- One direction of `sweep`. -/
def dirStep (dim nc ne N : Nat) (mat : Buf α) (tm : TMode) (add : Bool) (u : Buf α) (uo : Nat) (vo d : Nat)
    (v : Buf α) : Res (Buf α) :=
  contract (nc * N ^ (dim - 1 - d)) N (ne * N ^ d) N mat 0 tm add u uo v vo

theorem sweep_loop {dim nc ne N : Nat} (hN : 0 < N) (mat : Buf α) (tm : TMode) (add : Nat → Bool) (u : Buf α)
    (uo : Nat → Nat) (v : Buf α) (vo : Nat → Nat) :
    sweep dim nc ne N N mat tm add u uo v vo =
      loop dim (fun d => dirStep dim nc ne N mat tm (add d) u (uo d) (vo d) d) v := by
  rcases Nat.eq_zero_or_pos dim with h0 | h0
  · subst h0; rfl
  have key : ∀ n ≤ dim, loop n (fun d (s : Nat × Nat × Buf α) => do
      let v ← contract s.1 N s.2.1 N mat 0 tm (add d) u (uo d) s.2.2 (vo d)
      Res.ok (s.1 / N, s.2.1 * N, v)) (nc * N ^ (dim - 1), ne, v) =
      (loop n (fun d => dirStep dim nc ne N mat tm (add d) u (uo d) (vo d) d) v >>= fun v =>
        Res.ok (if n < dim then nc * N ^ (dim - 1 - n) else nc / N, ne * N ^ n, v)) := by
    intro n
    induction n with
    | zero =>
      intro h
      simp [h0]
    | succ n ih =>
      intro h
      rw [loop_succ, ih (by omega), loop_succ, Res.bind_assoc', Res.bind_assoc']
      cases loop n (fun d => dirStep dim nc ne N mat tm (add d) u (uo d) (vo d) d) v with
      | err => rfl
      | ub => rfl
      | ok w =>
        simp only [Res.bind_ok, if_pos (show n < dim by omega)]
        unfold dirStep
        congr 1
        funext w
        congr 2
        · by_cases hc : n + 1 < dim
          · rw [if_pos hc, show dim - 1 - n = (dim - 1 - (n + 1)) + 1 by omega, pow_succ, ← Nat.mul_assoc,
              Nat.mul_div_cancel _ hN]
          · rw [if_neg hc, show dim - 1 - n = 0 by omega]; simp
        · rw [pow_succ, Nat.mul_assoc]
  unfold sweep
  rw [key dim le_rfl, Res.bind_assoc']
  simp

theorem dirStep_eq {dim nc ne N : Nat} {mat : Buf α} {tm : TMode} {add : Bool} {u : Buf α} {uo : Nat} {vo d : Nat}
    {v : Buf α} (hd : d < dim) (hm : N * N ≤ mat.len) (hu : uo + nc * N ^ dim * ne ≤ u.len)
    (hv : vo + nc * N ^ dim * ne ≤ v.len) :
    dirStep dim nc ne N mat tm add u uo vo d v =
      .ok (contrOut nc (N ^ dim) ne (N ^ dim) (dirMat N d (tmat mat 0 tm N N)) add (fun i => u.val (uo + i)) v vo) := by
  have e : nc * N ^ (dim - 1 - d) * N * (ne * N ^ d) = nc * N ^ dim * ne := by rw [pow_split hd]; ring
  unfold dirStep
  rw [contract_eq _ _ _ _ _ _ _ _ _ _ _ _ (by omega) (by rw [e]; exact hu) (by rw [e]; exact hv)]
  congr 1
  refine contrOut_congr e ?_
  rw [e]
  exact forall_enc (fun k hk q hq e he => contr_dir hd _ _ hq he)

/-! ## Digits and products -/

theorem digit_mid {N d h b lo : Nat} (hb : b < N) (hlo : lo < N ^ d) :
    ((h * N + b) * N ^ d + lo) / N ^ d % N = b := by
  rw [div_enc hlo, mod_enc hb]

theorem digit_up {N d i h b lo : Nat} (hb : b < N) (hlo : lo < N ^ d) (hi : d < i) :
    ((h * N + b) * N ^ d + lo) / N ^ i % N = h / N ^ (i - d - 1) % N := by
  obtain ⟨c, rfl⟩ := Nat.exists_eq_add_of_lt hi
  rw [show N ^ (d + c + 1) = N ^ d * (N * N ^ c) by ring, ← Nat.div_div_eq_div_mul, ← Nat.div_div_eq_div_mul,
    div_enc hlo, div_enc hb]
  congr 3
  omega

/-- The factors of a Kronecker product other than the one of direction `d` do not depend on digit `d`. -/
theorem kron_dir (M : Nat → Nat → Nat → α) {N P d dim h x lo l : Nat} (hd : d < dim) (hx : x < N) (hlo : lo < N ^ d) :
    kron M N P dim ((h * N + x) * N ^ d + lo) l = M d x (l / P ^ d % P) *
      ∏ i ∈ (range dim).erase d, M i (if i < d then lo / N ^ i % N else h / N ^ (i - d - 1) % N) (l / P ^ i % P) := by
  unfold kron
  rw [← Finset.mul_prod_erase _ _ (mem_range.2 hd), digit_mid hx hlo]
  congr 1
  refine Finset.prod_congr rfl (fun i hi => ?_)
  have hne : i ≠ d := (Finset.mem_erase.1 hi).1
  by_cases hc : i < d
  · rw [if_pos hc, digit_lo _ _ (by omega) hc]
  · rw [if_neg hc, digit_up hx hlo (by omega)]

/-- Applying `D` in direction `d` after interpolating in all directions gives the Kronecker product with `G = D I` in
direction `d`. -/
theorem dir_kron {N P d dim : Nat} (hP : 0 < P) (hd : d < dim) (D I G : Nat → Nat → α)
    (hG : ∀ x < N, ∀ p < P, ∑ m ∈ range N, D x m * I m p = G x p) {q l : Nat} (hq : q < N ^ dim) :
    ∑ m ∈ range (N ^ dim), dirMat N d D q m * kron (fun _ => I) N P dim m l =
      kron (fun i => if d = i then G else I) N P dim q l := by
  obtain ⟨h, x, lo, hh, hx, hlo, rfl⟩ := grid_dec hd hq
  rw [dirMat_sum hd D _ hh hx hlo, kron_dir _ hd hx hlo,
    Finset.sum_congr rfl (fun b hb => by rw [kron_dir _ hd (mem_range.1 hb) hlo, ← mul_assoc]), ← Finset.sum_mul,
    hG x hx _ (Nat.mod_lt _ hP)]
  simp only [if_true]
  congr 1
  refine Finset.prod_congr rfl (fun i hi => ?_)
  rw [if_neg (Finset.mem_erase.1 hi).1.symm]

theorem kron_transpose (M : Nat → Nat → Nat → α) (Q P d q l : Nat) :
    kron (fun i a b => M i b a) P Q d l q = kron M Q P d q l := rfl

/-- The Kronecker product of identity matrices is the identity. -/
theorem kron_id {N dim : Nat} (I : Nat → Nat → α) (hI : ∀ a < N, ∀ b < N, I a b = if a = b then 1 else 0) {q l : Nat}
    (hq : q < N ^ dim) (hl : l < N ^ dim) : kron (fun _ => I) N N dim q l = if q = l then 1 else 0 := by
  induction dim generalizing q l with
  | zero =>
    have : q = 0 := by simpa using hq
    have : l = 0 := by simpa using hl
    subst_vars; simp [kron]
  | succ n ih =>
    have hq2 : q < N * N ^ n := by rwa [Nat.mul_comm, ← pow_succ]
    have hl2 : l < N * N ^ n := by rwa [Nat.mul_comm, ← pow_succ]
    obtain ⟨h1, h2⟩ := dec_lt hq2
    obtain ⟨h3, h4⟩ := dec_lt hl2
    conv_lhs => rw [← dec_eq q (N ^ n), ← dec_eq l (N ^ n)]
    rw [kron_enc _ h1 h2 h3 h4, hI _ h1 _ h3, ih h2 h4]
    have hiff : q = l ↔ (q / N ^ n = l / N ^ n ∧ q % N ^ n = l % N ^ n) := by
      constructor
      · rintro rfl; exact ⟨rfl, rfl⟩
      · rintro ⟨e1, e2⟩
        rw [← dec_eq q (N ^ n), ← dec_eq l (N ^ n), e1, e2]
    by_cases c1 : q / N ^ n = l / N ^ n <;> by_cases c2 : q % N ^ n = l % N ^ n <;> simp [hiff, c1, c2]

end Basis
end Verif
