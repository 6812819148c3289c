import Verif.Basis.Apply
import Verif.Restriction.Create

/-!
# Creation and quadrature weights (helper lemmas)
-/

namespace Verif
namespace Basis

open Finset
open Restriction (TMode)
variable {α : Type} [CommRing α]

omit [CommRing α] in
theorem loop_add {σ : Type} (m n : Nat) (f : Nat → σ → Res σ) (s : σ) :
    loop (m + n) f s = (loop m f s >>= fun s => loop n (fun i => f (m + i)) s) := by
  induction n with
  | zero => simp only [Nat.add_zero, loop_zero]; cases loop m f s <;> rfl
  | succ n ih =>
    rw [← Nat.add_assoc, loop_succ, ih]
    cases loop m f s <;> rfl

omit [CommRing α] in
theorem loop_mul {σ : Type} (A B : Nat) (f : Nat → σ → Res σ) (s : σ) :
    loop A (fun a s => loop B (fun b s => f (a * B + b) s) s) s = loop (A * B) f s := by
  induction A with
  | zero => simp
  | succ A ih => rw [loop_succ, ih, Nat.succ_mul, loop_add]

omit [CommRing α] in
theorem loop_grid {σ : Type} (A B C : Nat) (f : Nat → Nat → Nat → σ → Res σ) (g : Nat → σ → Res σ) (s : σ)
    (h : ∀ a < A, ∀ b < B, ∀ c < C, ∀ s, f a b c s = g ((a * B + b) * C + c) s) :
    loop A (fun a s => loop B (fun b s => loop C (fun c s => f a b c s) s) s) s = loop (A * B * C) g s := by
  rw [← loop_mul (A * B) C g, ← loop_mul A B]
  exact loop_congr (fun a ha s => loop_congr (fun b hb s => loop_congr (fun c hc s => h a ha b hb c hc s)))

/-- One pass of the weight computation. -/
theorem weight_pass {N ne : Nat} (hne : 0 < ne) (W : Nat → α) (first : Bool) {v : Buf α} (hv : N * ne ≤ v.len) :
    ∃ v', loop N (fun q (v : Buf α) => do
        let y ← if first then Res.ok 1 else v.rd (q * ne)
        loop ne (fun e v => v.wr (q * ne + e) (W q * y)) v) v = .ok v' ∧ v'.len = v.len ∧
      (∀ q < N, ∀ e < ne, v'.val (q * ne + e) = W q * (if first then 1 else v.val (q * ne))) ∧
      ∀ x, N * ne ≤ x → v'.val x = v.val x := by
  refine Exists.imp (fun v' ⟨e, l, a, b⟩ => ⟨e, l, a, b⟩) (loop_inv (n := N) (s := v) (body := fun q (v : Buf α) => do
        let y ← if first then Res.ok 1 else v.rd (q * ne)
        loop ne (fun e v => v.wr (q * ne + e) (W q * y)) v)
    (fun n w => w.len = v.len ∧
      (∀ q < n, ∀ e < ne, w.val (q * ne + e) = W q * (if first then 1 else v.val (q * ne))) ∧
      ∀ x, n * ne ≤ x → w.val x = v.val x) ⟨rfl, fun q hq => by omega, fun x _ => rfl⟩ ?_)
  · rintro q hq w ⟨lw, aw, bw⟩
    have hb : q * ne + ne ≤ N * ne := by
      calc q * ne + ne = (q + 1) * ne := by ring
        _ ≤ N * ne := Nat.mul_le_mul_right _ hq
    have hy : w.rd (q * ne) = Res.ok (v.val (q * ne)) := by
      rw [Buf.rd_lt (by omega), bw _ (le_refl _)]
    simp only [hy, Res.bind_ok]
    obtain ⟨z, e, l, a, b⟩ := (Sets.loop (n := ne) (S := fun e x => x = q * ne + e) (L := v.len)
      (g := fun _ => W q * (if first then 1 else v.val (q * ne))) (fun e he =>
        Sets.wr (i := q * ne + e) (by omega) rfl)) w lw
    refine ⟨z, ?_, l, ?_, ?_⟩
    · rw [← e]
      cases first <;> rfl
    · intro q' hq' e' he'
      rcases Nat.lt_succ_iff_lt_or_eq.1 hq' with h | h
      · rw [b, aw q' h e' he']
        rintro ⟨e'', he'', h2⟩
        have : q' * ne + e' < q * ne := enc_lt h he'
        omega
      · subst h
        exact a _ ⟨e', he', rfl⟩
    · intro x hx
      have : q * ne + ne ≤ x := by
        calc q * ne + ne = (q + 1) * ne := by ring
          _ ≤ x := hx
      rw [b, bw x (by omega)]
      rintro ⟨e'', he'', h2⟩
      omega

theorem tensorWeight_eq {b : Bas α} {ne : Nat} {v : Buf α} (hd : 0 < b.dim) (hQ : b.Q = b.Q1 ^ b.dim)
    (hw : b.Q1 ≤ b.qWeight.len) (hne : 0 < ne) (hv : ne * b.Q ≤ v.len) :
    ∃ v', tensorWeight b ne v = .ok v' ∧ v'.len = v.len ∧
      (∀ q < b.Q, ∀ e < ne, v'.val (q * ne + e) = ∏ d ∈ range b.dim, b.qWeight.val (q / b.Q1 ^ d % b.Q1)) ∧
      ∀ x, b.Q * ne ≤ x → v'.val x = v.val x := by
  unfold tensorWeight
  refine Exists.imp (fun v' ⟨e, l, a, c⟩ => ⟨e, l, a hd, c⟩) (loop_inv (n := b.dim) (s := v) (body := fun d v =>
    let pre := b.Q1 ^ (b.dim - d - 1)
    let post := b.Q1 ^ d
    loop pre (fun i v => loop b.Q1 (fun j v => loop post (fun k v => do
      let x ← b.qWeight.rd j
      let y ← if d = 0 then Res.ok 1 else v.rd (((i * b.Q1 + j) * post + k) * ne)
      let w := x * y
      loop ne (fun e v => v.wr (((i * b.Q1 + j) * post + k) * ne + e) w) v) v) v) v)
    (fun n w => w.len = v.len ∧
      (0 < n → ∀ q < b.Q, ∀ e < ne, w.val (q * ne + e) = ∏ d ∈ range n, b.qWeight.val (q / b.Q1 ^ d % b.Q1)) ∧
      ∀ x, b.Q * ne ≤ x → w.val x = v.val x) ⟨rfl, fun h => by omega, fun x _ => rfl⟩ ?_)
  · rintro d hd w ⟨lw, aw, cw⟩
    simp only
    have hN : b.Q1 ^ (b.dim - d - 1) * b.Q1 * b.Q1 ^ d = b.Q := by
      rw [hQ, ← pow_succ, ← pow_add]; congr 1; omega
    obtain ⟨z, e, l, a, c⟩ := weight_pass hne (N := b.Q) (fun q => b.qWeight.val (q / b.Q1 ^ d % b.Q1)) (decide (d = 0))
      (v := w) (by rw [lw, Nat.mul_comm]; exact hv)
    refine ⟨z, ?_, by rw [l, lw], fun _ q hq e he => ?_, fun x hx => by rw [c x hx, cw x hx]⟩
    · rw [← e, ← hN]
      refine loop_grid _ _ _ (fun i j k (v : Buf α) => do
        let x ← b.qWeight.rd j
        let y ← if d = 0 then Res.ok 1 else v.rd (((i * b.Q1 + j) * b.Q1 ^ d + k) * ne)
        loop ne (fun e v => v.wr (((i * b.Q1 + j) * b.Q1 ^ d + k) * ne + e) (x * y)) v) _ _ (fun i hi j hj k hk s => ?_)
      rw [Buf.rd_lt (by omega), Res.bind_ok, div_enc hk, mod_enc hj]
      simp only [decide_eq_true_eq]
    · rw [a q hq e he, prod_range_succ]
      by_cases h0 : d = 0
      · subst h0; simp
      · simp only [decide_eq_true_eq, if_neg h0]
        have := aw (by omega) q hq 0 hne
        rw [Nat.add_zero] at this
        rw [this, mul_comm]

/-! ## Collocation test and creation -/

theorem colloTest_ok {near : α → Bool} {P1 Q1 : Nat} {m : Buf α} (hl : P1 * P1 ≤ m.len ∨ Q1 ≠ P1) :
    ∃ r, colloTest near P1 Q1 m = .ok r ∧ (r = true → Q1 = P1 ∧ ∀ i < P1, ∀ j < P1,
      near (if j = i then m.val (j + P1 * i) - 1 else m.val (j + P1 * i)) = true) := by
  unfold colloTest
  by_cases h : Q1 = P1
  · rw [if_pos h]
    have hl' : P1 * P1 ≤ m.len := by rcases hl with hl | hl; exact hl; exact absurd h hl
    refine Exists.imp (fun r ⟨e, a⟩ => ⟨e, fun hr => ⟨h, a hr⟩⟩) (loop_inv (n := P1) (s := true) (body := fun i c => do
      let x ← m.rd (i + P1 * i)
      let c := c && near (x - 1)
      loop P1 (fun j c =>
        if j ≠ i then do
          let x ← m.rd (j + P1 * i)
          Res.ok (c && near x)
        else Res.ok c) c)
      (fun n c => c = true → ∀ i < n, ∀ j < P1,
        near (if j = i then m.val (j + P1 * i) - 1 else m.val (j + P1 * i)) = true) (fun _ i hi => by omega) ?_)
    · intro i hi c hc
      have hb : ∀ j < P1, j + P1 * i < m.len := fun j hj => by
        have : i * P1 + j < P1 * P1 := enc_lt hi hj
        rw [Nat.mul_comm] at this; omega
      simp only [Buf.rd_lt (hb i hi), Res.bind_ok]
      obtain ⟨r, e, a⟩ := loop_inv (n := P1) (s := (c && near (m.val (i + P1 * i) - 1))) (body := fun j c =>
        if j ≠ i then do
          let x ← m.rd (j + P1 * i)
          Res.ok (c && near x)
        else Res.ok c)
        (fun n r => r = true → (c && near (m.val (i + P1 * i) - 1)) = true ∧ ∀ j < n, j ≠ i → near (m.val (j + P1 * i)) = true)
        (fun h => ⟨h, fun j hj => by omega⟩) (fun j hj r hr => by
          by_cases hji : j = i
          · refine ⟨r, by simp [hji], fun h => ⟨(hr h).1, fun k hk hki => (hr h).2 k (by omega) hki⟩⟩
          · refine ⟨r && near (m.val (j + P1 * i)), by simp [hji, hb j hj], fun h => ?_⟩
            simp only [Bool.and_eq_true] at h
            refine ⟨(hr h.1).1, fun k hk hki => ?_⟩
            rcases Nat.lt_succ_iff_lt_or_eq.1 hk with h2 | h2
            · exact (hr h.1).2 k h2 hki
            · subst h2; exact h.2)
      refine ⟨r, e, fun hr k hk j hj => ?_⟩
      obtain ⟨h1, h2⟩ := a hr
      simp only [Bool.and_eq_true] at h1
      rcases Nat.lt_succ_iff_lt_or_eq.1 hk with h3 | h3
      · exact hc h1.1 k h3 j hj
      · subst h3
        split
        · rename_i h4; subst h4; exact h1.2
        · rename_i h4; exact h2 j hj h4
  · rw [if_neg h]
    exact ⟨false, rfl, by simp⟩

/-- What the creation of a tensor basis guarantees, when the collocation test only accepts the identity matrix and
the collocated gradient is a solution of its defining equation. -/
theorem create_ok {near : α → Bool} {collo : Nat → Nat → Buf α → Buf α → Res (Buf α)} {dim nc P1 Q1 : Int}
    {i1 g1 w : Buf α} {b : Bas α} (h : createTensorH1 near collo dim nc P1 Q1 i1 g1 w = .ok b)
    (hnear : b.colloInterp = true → ∀ i < b.P1, ∀ j < b.P1, i1.val (i * b.P1 + j) = if i = j then 1 else 0)
    (hcollo : ∀ cg, b.colloGrad = some cg → cg.len = b.Q1 * b.Q1 ∧ ∀ q < b.Q1, ∀ p < b.P1,
      ∑ m ∈ range b.Q1, cg.val (q * b.Q1 + m) * i1.val (m * b.P1 + p) = g1.val (q * b.P1 + p)) :
    TensorOK b := by
  unfold createTensorH1 at h
  simp only [Res.bind_eq_ok, Res.check_eq_ok] at h
  obtain ⟨_, h1, _, h2, _, h3, _, h4, w', hw, i1', hi, g1', hg, ci, hci, cg, hcg, h⟩ := h
  obtain ⟨_, rfl⟩ := Restriction.copyIn_ok hw
  obtain ⟨_, rfl⟩ := Restriction.copyIn_ok hi
  obtain ⟨_, rfl⟩ := Restriction.copyIn_ok hg
  obtain ⟨r, er, hr⟩ := colloTest_ok (near := near) (P1 := P1.toNat) (Q1 := Q1.toNat)
    (m := (⟨Q1.toNat * P1.toNat, i1.val⟩ : Buf α)) (by
      by_cases h : Q1.toNat = P1.toNat
      · left; rw [h]
      · right; exact h)
  rw [er] at hci
  cases hci
  unfold colloOpt at hcg
  injection h with h
  subst h
  refine ⟨rfl, rfl, by simp only; omega, by simp only; omega, by simp only; omega, by simp only; omega, rfl, rfl, rfl, rfl,
    rfl, rfl, rfl, ?_, ?_⟩
  · intro hc
    simp only at hc
    refine ⟨(hr hc).1.symm, ?_, hnear hc⟩
    simp only [hc] at hcg
    simpa using hcg.symm
  · intro cg' hcg'
    simp only at hcg'
    refine ⟨?_, hcollo cg' hcg'⟩
    split at hcg
    · rename_i hh; exact hh.1
    · injection hcg with hcg; rw [hcg'] at hcg; cases hcg

end Basis
end Verif
