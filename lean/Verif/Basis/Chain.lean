import Verif.Basis.Contract

/-!
# A sequence of 1D contractions is one contraction with the Kronecker product (helper lemmas)
-/

namespace Verif
namespace Basis

open Finset
open Restriction (TMode)
variable {α : Type} [CommRing α]

/-- Entry `(q, l)` of the Kronecker product of `M 0, ..., M (d-1)`: direction 0 is the fastest running digit. -/
def kron (M : Nat → Nat → Nat → α) (Q P d q l : Nat) : α := ∏ i ∈ range d, M i (q / Q ^ i % Q) (l / P ^ i % P)

theorem digit_lo {Q i d : Nat} (j q : Nat) (hQ : 0 < Q) (h : i < d) : (j * Q ^ d + q) / Q ^ i % Q = q / Q ^ i % Q := by
  obtain ⟨c, rfl⟩ := Nat.exists_eq_add_of_lt h
  have e : j * Q ^ (i + c + 1) = (j * Q ^ c * Q) * Q ^ i := by ring
  rw [e, Nat.add_comm, Nat.add_mul_div_right _ _ (Nat.pow_pos hQ), Nat.add_mul_mod_self_right]

theorem digit_hi {Q d j q : Nat} (hj : j < Q) (hq : q < Q ^ d) : (j * Q ^ d + q) / Q ^ d % Q = j := by
  rw [div_enc hq, Nat.mod_eq_of_lt hj]

theorem kron_enc (M : Nat → Nat → Nat → α) {Q P d j q b l : Nat} (hj : j < Q) (hq : q < Q ^ d) (hb : b < P)
    (hl : l < P ^ d) : kron M Q P (d + 1) (j * Q ^ d + q) (b * P ^ d + l) = M d j b * kron M Q P d q l := by
  unfold kron
  rw [prod_range_succ, digit_hi hj hq, digit_hi hb hl, mul_comm]
  congr 1
  refine prod_congr rfl (fun i hi => ?_)
  rw [digit_lo _ _ (by omega) (mem_range.1 hi), digit_lo _ _ (by omega) (mem_range.1 hi)]

theorem contr_enc {B C J : Nat} (T : Nat → Nat → α) (U : Nat → α) {a j c : Nat} (hj : j < J) (hc : c < C) :
    contr B C J T U ((a * J + j) * C + c) = ∑ b ∈ range B, T j b * U ((a * B + b) * C + c) := by
  unfold contr
  rw [div_enc hc, mod_enc hc, div_enc hj, mod_enc hj]

theorem contr_step {P Q ne d A : Nat} {M : Nat → Nat → Nat → α} {U cur : Nat → α}
    (hcur : ∀ a < A * P, ∀ q < Q ^ d, ∀ e < ne, cur ((a * Q ^ d + q) * ne + e) =
      ∑ l ∈ range (P ^ d), kron M Q P d q l * U ((a * P ^ d + l) * ne + e)) :
    ∀ a < A, ∀ q < Q ^ (d + 1), ∀ e < ne, contr P (ne * Q ^ d) Q (M d) cur ((a * Q ^ (d + 1) + q) * ne + e) =
      ∑ l ∈ range (P ^ (d + 1)), kron M Q P (d + 1) q l * U ((a * P ^ (d + 1) + l) * ne + e) := by
  intro a ha q' hq' e he
  have hq2 : q' < Q * Q ^ d := by rwa [Nat.mul_comm, ← pow_succ]
  obtain ⟨hj, hq⟩ := dec_lt hq2
  rw [← dec_eq q' (Q ^ d)]
  generalize q' / Q ^ d = j at *
  generalize q' % Q ^ d = q at *
  have hc : q * ne + e < ne * Q ^ d := by rw [Nat.mul_comm ne]; exact enc_lt hq he
  rw [show (a * Q ^ (d + 1) + (j * Q ^ d + q)) * ne + e = (a * Q + j) * (ne * Q ^ d) + (q * ne + e) by ring,
    contr_enc _ _ hj hc, show P ^ (d + 1) = P * P ^ d by ring, Restriction.sum_range_mul]
  refine Finset.sum_congr rfl (fun b hb => ?_)
  have hb := mem_range.1 hb
  rw [show (a * P + b) * (ne * Q ^ d) + (q * ne + e) = ((a * P + b) * Q ^ d + q) * ne + e by ring,
    hcur _ (enc_lt ha hb) _ hq _ he, mul_sum]
  refine Finset.sum_congr rfl (fun l hl => ?_)
  rw [kron_enc M hj hq hb (mem_range.1 hl), mul_assoc]
  congr 3
  ring

theorem contrOut_congr {A B C J A' B' C' J' : Nat} {T T' : Nat → Nat → α} {add : Bool} {U U' : Nat → α} {v : Buf α}
    {vo : Nat} (hs : A * J * C = A' * J' * C')
    (h : ∀ y < A * J * C, contr B C J T U y = contr B' C' J' T' U' y) :
    contrOut A B C J T add U v vo = contrOut A' B' C' J' T' add U' v vo := by
  unfold contrOut
  congr 1
  funext x
  rw [← hs]
  by_cases hx : vo ≤ x ∧ x < vo + A * J * C
  · rw [if_pos hx, if_pos hx, h _ (by omega)]
  · rw [if_neg hx, if_neg hx]

/-- A statement about all entries of an array of shape `A, J, C` from one about encoded positions. -/
theorem forall_enc {A J C : Nat} {p : Nat → Prop} (h : ∀ a < A, ∀ j < J, ∀ c < C, p ((a * J + j) * C + c)) :
    ∀ y < A * J * C, p y := by
  intro y hy
  obtain ⟨h1, hc⟩ := dec_lt hy
  obtain ⟨ha, hj⟩ := dec_lt h1
  have := h _ ha _ hj _ hc
  rwa [dec_eq, dec_eq] at this

theorem chain_eq {dim nc ne P Q size : Nat} {mat : Nat → Buf α} {tm : TMode} {add : Bool} {junk : Nat → Nat → α}
    {u : Buf α} {uo : Nat} {v : Buf α} {vo : Nat} (hdim : 0 < dim) (hP : 0 < P)
    (hm : ∀ d < dim, P * Q ≤ (mat d).len) (hu : uo + nc * P ^ dim * ne ≤ u.len) (hv : vo + nc * Q ^ dim * ne ≤ v.len)
    (hsz : ∀ d, 0 < d → d < dim → nc * P ^ (dim - d) * Q ^ d * ne ≤ size) :
    chain dim nc ne P Q size mat tm add junk u uo v vo =
      .ok (contrOut nc (P ^ dim) ne (Q ^ dim) (kron (fun d => tmat (mat d) 0 tm P Q) Q P dim) add
        (fun i => u.val (uo + i)) v vo) := by
  obtain ⟨n, rfl⟩ : ∃ n, dim = n + 1 := ⟨dim - 1, by omega⟩
  set M : Nat → Nat → Nat → α := fun d => tmat (mat d) 0 tm P Q with hM
  set U : Nat → α := fun i => u.val (uo + i) with hU
  unfold chain
  simp only [Nat.add_sub_cancel]
  rw [loop_succ]
  -- source of step `d`
  let src : Nat → ChainSt α → Buf α × Nat := fun d s =>
    if d = 0 then (u, uo) else if d % 2 = 0 then (s.tmp0, 0) else (s.tmp1, 0)
  obtain ⟨s, e1, hpre, hpost, hout, h0, h1, hlen, hcur⟩ := loop_inv (n := n)
    (body := fun d (s : ChainSt α) => do
      let (src, so) := if d = 0 then (u, uo) else if d % 2 = 0 then (s.tmp0, 0) else (s.tmp1, 0)
      let s ←
        if d = n then do
          let o ← contract s.pre P s.post Q (mat d) 0 tm add src so s.out vo
          Res.ok { s with out := o }
        else if (d + 1) % 2 = 0 then do
          let o ← contract s.pre P s.post Q (mat d) 0 tm false src so s.tmp0 0
          Res.ok { s with tmp0 := o }
        else do
          let o ← contract s.pre P s.post Q (mat d) 0 tm false src so s.tmp1 0
          Res.ok { s with tmp1 := o }
      Res.ok { s with pre := s.pre / P, post := s.post * Q })
    (s := { pre := nc * P ^ n, post := ne, tmp0 := ⟨size, junk 0⟩, tmp1 := ⟨size, junk 1⟩, out := v })
    (fun d s => s.pre = nc * P ^ (n - d) ∧ s.post = ne * Q ^ d ∧ s.out = v ∧ s.tmp0.len = size ∧ s.tmp1.len = size ∧
      (src d s).2 + nc * P ^ (n + 1 - d) * Q ^ d * ne ≤ (src d s).1.len ∧
      ∀ a < nc * P ^ (n - d) * P, ∀ q < Q ^ d, ∀ e < ne, (src d s).1.val ((src d s).2 + ((a * Q ^ d + q) * ne + e)) =
        ∑ l ∈ range (P ^ d), kron M Q P d q l * U ((a * P ^ d + l) * ne + e))
    (by
      refine ⟨by simp, by simp, rfl, rfl, rfl, ?_, ?_⟩
      · simpa [src] using hu
      · intro a _ q hq e _
        have : q = 0 := by simpa using hq
        subst this
        simp [src, kron, hU])
    (by
      rintro d hd s ⟨hpre, hpost, hout, h0, h1, hlen, hcur⟩
      simp only [hpre, hpost, if_neg (show ¬ d = n by omega)]
      have hA : nc * P ^ (n - d) * P * (ne * Q ^ d) = nc * P ^ (n + 1 - d) * Q ^ d * ne := by
        rw [show n + 1 - d = (n - d) + 1 by omega]; ring
      have hA' : nc * P ^ (n - d) * Q * (ne * Q ^ d) = nc * P ^ (n + 1 - (d + 1)) * Q ^ (d + 1) * ne := by
        rw [show n + 1 - (d + 1) = n - d by omega]; ring
      have hszd := hsz (d + 1) (by omega) (by omega)
      have hpd : nc * P ^ (n - d) / P = nc * P ^ (n - (d + 1)) := by
        rw [show n - d = (n - (d + 1)) + 1 by omega, pow_succ, ← Nat.mul_assoc, Nat.mul_div_cancel _ hP]
      have hpp : nc * P ^ (n - (d + 1)) * P = nc * P ^ (n - d) := by
        rw [show n - d = (n - (d + 1)) + 1 by omega, pow_succ]; ring
      have step := contr_step (P := P) (Q := Q) (ne := ne) (d := d) (A := nc * P ^ (n - d)) (M := M) (U := U)
        (cur := fun i => (src d s).1.val ((src d s).2 + i)) hcur
      by_cases hpar : (d + 1) % 2 = 0
      · simp only [if_pos hpar]
        rw [contract_eq (nc * P ^ (n - d)) P (ne * Q ^ d) Q (mat d) 0 tm false (src d s).1 (src d s).2 s.tmp0 0
          (by have := hm d (by omega); omega) (by omega) (by omega)]
        refine ⟨_, rfl, hpd, by simp only [pow_succ]; ring, hout, h0, h1, ?_, ?_⟩
        · simp only [src, Nat.add_one_ne_zero, if_false, hpar, if_true, contrOut]
          omega
        · intro a ha q hq e he
          rw [hpp] at ha
          have hb : (a * Q ^ (d + 1) + q) * ne + e < nc * P ^ (n - d) * Q ^ (d + 1) * ne := enc_lt (enc_lt ha hq) he
          rw [← step a ha q hq e he]
          simp only [src, Nat.add_one_ne_zero, if_false, hpar, if_true, contrOut, Nat.zero_add, Nat.zero_le, true_and]
          rw [if_pos (by rw [hA', show n + 1 - (d + 1) = n - d by omega]; exact hb)]
          simp only [Bool.false_eq_true, if_false, zero_add, Nat.sub_zero]
          rfl
      · simp only [if_neg hpar]
        rw [contract_eq (nc * P ^ (n - d)) P (ne * Q ^ d) Q (mat d) 0 tm false (src d s).1 (src d s).2 s.tmp1 0
          (by have := hm d (by omega); omega) (by omega) (by omega)]
        refine ⟨_, rfl, hpd, by simp only [pow_succ]; ring, hout, h0, h1, ?_, ?_⟩
        · simp only [src, Nat.add_one_ne_zero, if_false, hpar, contrOut]
          omega
        · intro a ha q hq e he
          rw [hpp] at ha
          have hb : (a * Q ^ (d + 1) + q) * ne + e < nc * P ^ (n - d) * Q ^ (d + 1) * ne := enc_lt (enc_lt ha hq) he
          rw [← step a ha q hq e he]
          simp only [src, Nat.add_one_ne_zero, if_false, hpar, contrOut, Nat.zero_add, Nat.zero_le, true_and]
          rw [if_pos (by rw [hA', show n + 1 - (d + 1) = n - d by omega]; exact hb)]
          simp only [Bool.false_eq_true, if_false, zero_add, Nat.sub_zero]
          rfl)
  refine (congrArg (fun r => (r >>= _) >>= _) e1).trans ?_
  simp only [Res.bind_ok, if_true, hpre, hpost, hout, Nat.sub_self, pow_zero, Nat.mul_one]
  simp only [Nat.sub_self, pow_zero, Nat.mul_one, show n + 1 - n = 1 by omega, pow_one] at hcur hlen
  rw [contract_eq nc P (ne * Q ^ n) Q (mat n) 0 tm add (src n s).1 (src n s).2 v vo
    (by have := hm n (by omega); omega)
    (by rw [show nc * P * (ne * Q ^ n) = nc * P * Q ^ n * ne by ring]; exact hlen)
    (by rw [show nc * Q * (ne * Q ^ n) = nc * Q ^ (n + 1) * ne by ring]; exact hv)]
  simp only [Res.bind_ok]
  congr 1
  have step := contr_step (P := P) (Q := Q) (ne := ne) (d := n) (A := nc) (M := M) (U := U)
    (cur := fun i => (src n s).1.val ((src n s).2 + i)) hcur
  refine contrOut_congr (by ring) ?_
  rw [show nc * Q * (ne * Q ^ n) = nc * Q ^ (n + 1) * ne by ring]
  refine forall_enc (fun a ha q hq e he => ?_)
  rw [contr_enc _ _ hq he, ← step a ha q hq e he]

end Basis
end Verif
