import Verif.Operator.Full
import Verif.Operator.DiagRun
import Verif.Basis.Contract

/-!
# Lemmas about the assembly of the matrix: arrays and loops
-/

namespace Verif
namespace Operator

open Finset
open Restriction (RData Made Rep Variant Rstr)
open Basis (EMode)

set_option linter.unusedSectionVars false

/-! ## Loops -/

/-- A loop that counts. -/
theorem loop_count {σ : Type _} {n k : Nat} {body : Nat → σ × Nat → Res (σ × Nat)} {g : Nat → Nat → σ → Res σ}
    (h : ∀ i < n, ∀ v c, body i (v, c) = (g i c v >>= fun v => .ok (v, c + k))) (v : σ) (c : Nat) :
    loop n body (v, c) = (loop n (fun i v => g i (c + i * k) v) v >>= fun v => .ok (v, c + n * k)) := by
  induction n with
  | zero => simp
  | succ n ih =>
    rw [loop_succ, loop_succ, ih (fun i hi => h i (by omega)), Res.bind_assoc', Res.bind_assoc']
    congr 1
    funext w
    rw [Res.bind_ok, h n (by omega)]
    congr 1
    funext w
    congr 2
    ring

theorem loop2_sets {α : Type _} {A B L : Nat} {body : Nat → Nat → Buf α → Res (Buf α)} {pos : Nat → Nat → Nat}
    {X : Nat → Nat → α} (dec : Nat → α) (h : ∀ i < A, ∀ j < B, ∀ v, v.len = L → body i j v = v.wr (pos i j) (X i j))
    (hp : ∀ i < A, ∀ j < B, pos i j < L) (hd : ∀ i < A, ∀ j < B, dec (pos i j) = X i j) :
    Sets (fun v => loop A (fun i v => loop B (fun j v => body i j v) v) v) L
      (fun x => ∃ i < A, ∃ j < B, x = pos i j) dec := by
  refine Sets.loop (fun i hi => Sets.loop (fun j hj => ?_))
  intro v hv
  show ∃ v', body i j v = _ ∧ _
  rw [h i hi j hj v hv]
  exact Sets.wr (hp i hi j hj) (hd i hi j hj).symm v hv

theorem loop3_sets {α : Type _} {A B C L : Nat} {body : Nat → Nat → Nat → Buf α → Res (Buf α)}
    {pos : Nat → Nat → Nat → Nat}
    {X : Nat → Nat → Nat → α} (dec : Nat → α)
    (h : ∀ i < A, ∀ j < B, ∀ k < C, ∀ v, v.len = L → body i j k v = v.wr (pos i j k) (X i j k))
    (hp : ∀ i < A, ∀ j < B, ∀ k < C, pos i j k < L) (hd : ∀ i < A, ∀ j < B, ∀ k < C, dec (pos i j k) = X i j k) :
    Sets (fun v => loop A (fun i v => loop B (fun j v => loop C (fun k v => body i j k v) v) v) v) L
      (fun x => ∃ i < A, ∃ j < B, ∃ k < C, x = pos i j k) dec :=
  Sets.loop (fun i hi => loop2_sets dec (h i hi) (hp i hi) (hd i hi))

/-- A change of every entry of a matrix. -/
theorem loop2_map {α : Type _} {A B : Nat} {f : Nat → Nat → α → α} {body : Nat → Nat → Buf α → Res (Buf α)}
    (h : ∀ i < A, ∀ j < B, ∀ v : Buf α, v.len = A * B → body i j v = v.wr (i * B + j) (f i j (v.val (i * B + j))))
    {v : Buf α} (hv : v.len = A * B) :
    ∃ v', loop A (fun i v => loop B (fun j v => body i j v) v) v = .ok v' ∧ v'.len = A * B ∧
      ∀ i < A, ∀ j < B, v'.val (i * B + j) = f i j (v.val (i * B + j)) := by
  obtain ⟨v', e, h1, h2, _⟩ := loop_inv (n := A) (body := fun i v => loop B (fun j v => body i j v) v) (s := v)
    (fun i w => w.len = A * B ∧ (∀ a < i, ∀ j < B, w.val (a * B + j) = f a j (v.val (a * B + j))) ∧
      ∀ x, i * B ≤ x → w.val x = v.val x) ⟨hv, fun a ha => absurd ha (by omega), fun x _ => rfl⟩ (by
    intro i hi w ⟨w1, w2, w3⟩
    obtain ⟨w', e, k1, k2, k3, k4⟩ := loop_inv (n := B) (body := fun j v => body i j v) (s := w)
      (fun j u => u.len = A * B ∧ (∀ b < j, u.val (i * B + b) = f i b (v.val (i * B + b))) ∧
        (∀ x, x < i * B → u.val x = w.val x) ∧ ∀ x, i * B + j ≤ x → u.val x = v.val x)
      ⟨w1, fun b hb => absurd hb (by omega), fun x _ => rfl, fun x hx => w3 x (by omega)⟩ (by
      intro j hj u ⟨u1, u2, u3, u4⟩
      have hl : i * B + j < u.len := by rw [u1]; exact enc_lt hi hj
      refine ⟨⟨u.len, fun x => if x = i * B + j then f i j (v.val (i * B + j)) else u.val x⟩, ?_, u1, ?_, ?_, ?_⟩
      · rw [h i hi j hj u u1, Buf.wr_lt hl, u4 _ (Nat.le_refl _)]
      · intro b hb
        rcases Nat.lt_succ_iff_lt_or_eq.1 hb with hb | rfl
        · simp only []
          rw [if_neg (by omega), u2 b hb]
        · simp
      · intro x hx
        simp only []
        rw [if_neg (by omega), u3 x hx]
      · intro x hx
        simp only []
        rw [if_neg (by omega), u4 x (by omega)])
    refine ⟨w', e, k1, ?_, ?_⟩
    · intro a ha j hj
      rcases Nat.lt_succ_iff_lt_or_eq.1 ha with ha | rfl
      · have : a * B + j < i * B := enc_lt ha hj
        rw [k3 _ this, w2 a ha j hj]
      · exact k2 j hj
    · intro x hx
      rw [Nat.succ_mul] at hx
      exact k4 x hx)
  exact ⟨v', e, h1, h2⟩

/-- All entries of a matrix are written. -/
theorem loop2_all {α : Type _} {A B : Nat} {X : Nat → Nat → α} {body : Nat → Nat → Buf α → Res (Buf α)}
    (h : ∀ i < A, ∀ j < B, ∀ v : Buf α, v.len = A * B → body i j v = v.wr (i * B + j) (X i j))
    {v : Buf α} (hv : v.len = A * B) :
    ∃ v', loop A (fun i v => loop B (fun j v => body i j v) v) v = .ok v' ∧ v'.len = A * B ∧
      ∀ i < A, ∀ j < B, v'.val (i * B + j) = X i j :=
  loop2_map (f := fun i j _ => X i j) h hv

/-- A sum computed in a loop. -/
theorem loop_sum {α : Type} [CommRing α] {n : Nat} {body : Nat → α → Res α} {f : Nat → α}
    (h : ∀ i < n, ∀ x, body i x = .ok (x + f i)) : loop n body 0 = .ok (∑ i ∈ range n, f i) :=
  loop_pure (f := fun m => ∑ i ∈ range m, f i) (by simp) (fun i hi => by rw [h i hi, sum_range_succ])

variable {α : Type} [CommRing α]

/-! ## Element matrices -/

theorem matMul_ok {A B C : Buf α} {m n kk : Nat} (hA : m * kk ≤ A.len) (hB : kk * n ≤ B.len) (hC : C.len = m * n) :
    ∃ C', matMul A B C m n kk = .ok C' ∧ C'.len = m * n ∧
      ∀ i < m, ∀ j < n, C'.val (i * n + j) = ∑ k ∈ range kk, A.val (i * kk + k) * B.val (k * n + j) := by
  refine loop2_all (fun i hi j hj v hv => ?_) hC
  rw [loop_sum (f := fun k => A.val (i * kk + k) * B.val (k * n + j)), Res.bind_ok, Nat.add_comm j]
  intro k hk x
  have h1 : i * kk + k < m * kk := enc_lt hi hk
  have h2 : k * n + j < kk * n := enc_lt hk hj
  rw [Nat.add_comm k, Nat.add_comm j, Buf.rd_lt (by omega), Res.bind_ok, Buf.rd_lt (by omega), Res.bind_ok]

theorem elemMat_ok (tensor : Bool) {A B : Buf α} {esO esI k : Nat} (hA : esO * k ≤ A.len) (hB : k * esI ≤ B.len) :
    ∃ C, elemMat tensor A B esO esI k = .ok C ∧ C.len = esO * esI ∧
      ∀ i < esO, ∀ j < esI, C.val (i * esI + j) = ∑ x ∈ range k, A.val (i * k + x) * B.val (x * esI + j) := by
  unfold elemMat
  cases tensor with
  | false => exact matMul_ok hA hB rfl
  | true =>
    simp only [if_true]
    rw [Basis.contract_eq 1 k esI esO A 0 .noTranspose false B 0 _ 0 (by rw [Nat.mul_comm k]; omega) (by rw [Nat.one_mul]; omega)
      (by simp)]
    refine ⟨_, rfl, rfl, ?_⟩
    intro i hi j hj
    have hl : i * esI + j < esO * esI := enc_lt hi hj
    simp only [Basis.contrOut, Basis.contr, Basis.tmat, Nat.zero_add, Nat.sub_zero, Nat.one_mul, Nat.zero_le, true_and,
      if_pos hl, div_enc hj, mod_enc hj, Nat.div_eq_of_lt hi, Nat.mod_eq_of_lt hi, Bool.false_eq_true, if_false, zero_add,
      Nat.zero_mul]

theorem btd_ok {Bout D : Buf α} {esO ncI ncO nI nO Q Qf sz e ci co : Nat} (hB : Q * nO * esO ≤ Bout.len)
    (hD : ∀ q < Q, ∀ ei < nI, ∀ eo < nO, q + (((ei * ncI + ci) * nO + eo) * ncO + co) * Qf + e * (Qf * sz) < D.len) :
    ∃ A, btd Bout D esO ncI ncO nI nO Q Qf sz e ci co = .ok A ∧ A.len = esO * (Q * nI) ∧
      ∀ n < esO, ∀ q < Q, ∀ ei < nI, A.val (n * (Q * nI) + (q * nI + ei)) =
        ∑ eo ∈ range nO, Bout.val ((q * nO + eo) * esO + n) *
          D.val (q + (((ei * ncI + ci) * nO + eo) * ncO + co) * Qf + e * (Qf * sz)) := by
  let X : Nat → Nat → Nat → α := fun n q ei => ∑ eo ∈ range nO, Bout.val ((q * nO + eo) * esO + n) *
          D.val (q + (((ei * ncI + ci) * nO + eo) * ncO + co) * Qf + e * (Qf * sz))
  have key := loop3_sets (A := esO) (B := Q) (C := nI) (L := esO * Q * nI)
    (body := fun n q ei v => do
      let x ← loop nO (fun eo x => do
        let b ← Bout.rd ((q * nO + eo) * esO + n)
        let d ← qfAt D Qf sz q (((ei * ncI + ci) * nO + eo) * ncO + co) e
        .ok (x + b * d)) 0
      v.wr (n * (Q * nI) + q * nI + ei) x)
    (pos := fun n q ei => n * (Q * nI) + q * nI + ei) (X := X)
    (fun x => X (x / (Q * nI)) (x % (Q * nI) / nI) (x % (Q * nI) % nI)) ?_ ?_ ?_
  · obtain ⟨v', e1, e2, e3, _⟩ := key ⟨esO * Q * nI, fun _ => 0⟩ rfl
    refine ⟨v', e1, by rw [e2, Nat.mul_assoc], ?_⟩
    intro n hn q hq ei hei
    have h1 : q * nI + ei < Q * nI := enc_lt hq hei
    rw [e3 _ ⟨n, hn, q, hq, ei, hei, by omega⟩]
    simp only [div_enc h1, mod_enc h1, div_enc hei, mod_enc hei, X]
  · intro n hn q hq ei hei v hv
    rw [loop_sum (f := fun eo => Bout.val ((q * nO + eo) * esO + n) *
          D.val (q + (((ei * ncI + ci) * nO + eo) * ncO + co) * Qf + e * (Qf * sz))), Res.bind_ok]
    intro eo heo x
    have h1 : (q * nO + eo) * esO + n < Q * nO * esO := enc_lt (enc_lt hq heo) hn
    unfold qfAt
    rw [Buf.rd_lt (by omega), Res.bind_ok, Buf.rd_lt (hD q hq ei hei eo heo), Res.bind_ok]
  · intro n hn q hq ei hei
    have h1 : q * nI + ei < Q * nI := enc_lt hq hei
    have h2 : n * (Q * nI) + (q * nI + ei) < esO * (Q * nI) := enc_lt hn h1
    rw [Nat.mul_assoc]; omega
  · intro n hn q hq ei hei
    have h1 : q * nI + ei < Q * nI := enc_lt hq hei
    simp only [Nat.add_assoc, div_enc h1, mod_enc h1, div_enc hei, mod_enc hei]

/-! ## Orientations -/

/-- The coefficients are those of the stored arrays. -/
theorem coef_tm {r : Rstr} {D : RData α} (h : Rep r .plain D) (hb : r.blockSize = 1) {e n m : Nat} (he : e < D.ne)
    (hn : n < D.es) (hm : m < D.es) : D.coef e n m = Restriction.tm r 1 true true e 0 n m := by
  have hnb : r.numBlock = D.ne := by rw [h.nb, hb]; simp
  have := h.tm e (by omega) 0 (by omega) n hn m hm
  rw [hb] at this
  rw [show min (e * 1 + 0) (D.ne - 1) = e by omega] at this
  exact this.symm

theorem sum_tri_col {es m : Nat} (hm : m < es) (a b c f : Nat → α) :
    ∑ n ∈ range es, (if m + 1 = n then a n else if m = n then b n else if m = n + 1 then c n else 0) * f n =
      f m * b m + (if 0 < m then f (m - 1) * c (m - 1) else 0) + (if m + 1 < es then f (m + 1) * a (m + 1) else 0) := by
  have h : ∀ n, (if m + 1 = n then a n else if m = n then b n else if m = n + 1 then c n else 0) * f n =
      (if n = m then f n * b n else 0) + (if 0 < m then if n = m - 1 then f n * c n else 0 else 0) +
        (if n = m + 1 then f n * a n else 0) := by
    intro n
    by_cases h1 : m + 1 = n
    · rw [if_pos h1, if_neg (by omega), if_neg (by omega : ¬ n = m - 1), if_pos h1.symm]; simp [mul_comm]
    · by_cases h2 : m = n
      · subst h2
        rw [if_neg h1, if_pos rfl, if_pos rfl, if_neg (by omega : ¬ m = m + 1)]
        by_cases h3 : 0 < m
        · rw [if_pos h3, if_neg (by omega)]; ring
        · rw [if_neg h3]; ring
      · by_cases h3 : m = n + 1
        · rw [if_neg h1, if_neg h2, if_pos h3, if_neg (by omega), if_pos (by omega), if_pos (by omega),
            if_neg (by omega)]
          ring
        · rw [if_neg h1, if_neg h2, if_neg h3, if_neg (by omega), if_neg (by omega : ¬ n = m + 1)]
          by_cases h4 : 0 < m
          · rw [if_pos h4, if_neg (by omega)]; ring
          · rw [if_neg h4]; ring
  simp only [h, sum_add_distrib]
  congr 1
  · congr 1
    · rw [sum_ite_eq' (range es) m, if_pos (mem_range.2 hm)]
    · by_cases h3 : 0 < m
      · simp only [if_pos h3]
        rw [sum_ite_eq' (range es) (m - 1), if_pos (mem_range.2 (by omega))]
      · simp only [if_neg h3, sum_const_zero]
  · rw [sum_ite_eq' (range es) (m + 1)]
    simp only [mem_range]

/-- Column `m` of the orientation matrix, applied to `f`. -/
theorem coef_col {r : Rstr} {D : RData α} (h : Rep r .plain D) (hb : r.blockSize = 1) {e m : Nat} (he : e < D.ne)
    (hm : m < D.es) (f : Nat → α) : ∑ n ∈ range D.es, D.coef e n m * f n = match r.rtype with
      | .oriented => f m * (if r.orients.val (e * D.es + m) then -1 else 1)
      | .curlOriented => f m * ((r.curlOrients.val (e * 3 * D.es + (3 * m + 1)) : Int) : α) +
          (if 0 < m then f (m - 1) * ((r.curlOrients.val (e * 3 * D.es + (3 * m - 1)) : Int) : α) else 0) +
          (if m + 1 < D.es then f (m + 1) * ((r.curlOrients.val (e * 3 * D.es + (3 * m + 3)) : Int) : α) else 0)
      | _ => f m := by
  have hes : r.elemSize = D.es := by have := h.es; omega
  have h0 : ∑ n ∈ range D.es, D.coef e n m * f n = ∑ n ∈ range D.es, Restriction.tm r 1 true true e 0 n m * f n :=
    sum_congr rfl (fun n hn => by rw [coef_tm h hb he (mem_range.1 hn) hm])
  have hid : ∑ n ∈ range D.es, (if m = n then (1 : α) else 0) * f n = f m := by
    simp [hm]
  rw [h0]
  unfold Restriction.tm
  rcases r.rtype with _ | _ | _ | _ | _
  case oriented =>
    rw [sum_eq_single m]
    · simp only [if_true, Nat.mul_one, hes, Nat.zero_add]
      rw [Nat.add_comm m, mul_comm]
    · intro n _ hne
      rw [if_neg (fun hh => hne hh.symm), zero_mul]
    · intro hh; exact absurd (mem_range.2 hm) hh
  case curlOriented =>
    simp only [Bool.and_self, if_true]
    unfold Restriction.tri
    rw [sum_tri_col hm (fun n => ((r.curlOrients.val (0 + 3 * n * 1 + e * 1 * 3 * r.elemSize) : Int) : α))
      (fun n => ((r.curlOrients.val (0 + (3 * n + 1) * 1 + e * 1 * 3 * r.elemSize) : Int) : α))
      (fun n => ((r.curlOrients.val (0 + (3 * n + 2) * 1 + e * 1 * 3 * r.elemSize) : Int) : α)) f]
    have e1 : ∀ x, 0 + x * 1 + e * 1 * 3 * r.elemSize = e * 3 * D.es + x := by intro x; rw [hes]; ring
    simp only [e1]
    congr 1
    congr 1
    by_cases h3 : 0 < m
    · rw [if_pos h3, if_pos h3, show 3 * (m - 1) + 2 = 3 * m - 1 by omega]
    · rw [if_neg h3, if_neg h3]
  all_goals simpa using hid

theorem curl_len {r : Rstr} {D : RData α} (h : Rep r .plain D) (hb : r.blockSize = 1) (hc : r.rtype = .curlOriented)
    {e x : Nat} (he : e < D.ne) (hx : x < 3 * D.es) : e * 3 * D.es + x < r.curlOrients.len := by
  have h1 := h.cov.cur hc rfl
  have hes : r.elemSize = D.es := by have := h.es; omega
  have hnb : r.numBlock = D.ne := by rw [h.nb, hb]; simp
  rw [hnb, hb, hes, Nat.mul_one] at h1
  have h2 : e * (3 * D.es) + x < D.ne * (3 * D.es) := enc_lt he hx
  rw [Nat.mul_assoc]; omega

theorem sign_len {r : Rstr} {D : RData α} (h : Rep r .plain D) (hb : r.blockSize = 1) (hc : r.rtype = .oriented)
    {e x : Nat} (he : e < D.ne) (hx : x < D.es) : e * D.es + x < r.orients.len := by
  have h1 := h.cov.ors hc
  have hes : r.elemSize = D.es := by have := h.es; omega
  have hnb : r.numBlock = D.ne := by rw [h.nb, hb]; simp
  rw [hnb, hb, hes, Nat.mul_one] at h1
  have h2 : e * D.es + x < D.ne * D.es := enc_lt he hx
  omega

theorem timesIf_ok {c : Prop} [Decidable c] {m : Buf α} {i : Nat} {t : Buf Int} {k : Nat} (h1 : c → i < m.len)
    (h2 : c → k < t.len) : timesIf c m i t k = .ok (if c then m.val i * ((t.val k : Int) : α) else 0) := by
  unfold timesIf
  by_cases h : c
  · rw [if_pos h, if_pos h, Buf.rd_lt (h1 h), Res.bind_ok, Buf.rd_lt (h2 h), Res.bind_ok]
  · rw [if_neg h, if_neg h]

theorem orientRows_ok {r : Rstr} {D : RData α} (h : Rep r .plain D) (hb : r.blockSize = 1) {e esI : Nat} (he : e < D.ne)
    {m : Buf α} (hm : m.len = D.es * esI) :
    ∃ m', orientRows r e D.es esI m = .ok m' ∧ m'.len = D.es * esI ∧ ∀ i < D.es, ∀ j < esI,
      m'.val (i * esI + j) = ∑ n ∈ range D.es, D.coef e n i * m.val (n * esI + j) := by
  have key : ∀ i < D.es, ∀ j < esI, _ := fun i hi j (_ : j < esI) => coef_col h hb he hi (fun n => m.val (n * esI + j))
  unfold orientRows
  rcases hc : r.rtype with _ | _ | _ | _ | _ <;> simp only [hc] at key
  case oriented =>
    simp only
    obtain ⟨v', e1, e2, e3⟩ := loop2_map (A := D.es) (B := esI)
      (f := fun i j x => x * (if r.orients.val (e * D.es + i) then -1 else 1))
      (body := fun i j m => do
        let x ← m.rd (i * esI + j)
        m.wr (i * esI + j) (x * if r.orients.val (e * D.es + i) then -1 else 1)) (by
        intro i hi j hj v hv
        rw [Buf.rd_lt (by rw [hv]; exact enc_lt hi hj), Res.bind_ok]) hm
    refine ⟨v', ?_, e2, fun i hi j hj => by rw [e3 i hi j hj, key i hi j hj]⟩
    rw [← e1]
    refine loop_congr (fun i hi v => ?_)
    rw [Buf.rd_lt (sign_len h hb hc he hi), Res.bind_ok]
  case curlOriented =>
    simp only
    refine loop2_all (fun i hi j hj v hv => ?_) hm
    rw [key i hi j hj]
    have hl : ∀ a < D.es, a * esI + j < m.len := fun a ha => by rw [hm]; exact enc_lt ha hj
    rw [Buf.rd_lt (hl i hi), Res.bind_ok, Buf.rd_lt (curl_len h hb hc he (by omega)), Res.bind_ok,
      timesIf_ok (fun h0 => hl _ (by omega)) (fun h0 => curl_len h hb hc he (by omega)), Res.bind_ok,
      timesIf_ok (fun h0 => hl _ h0) (fun h0 => curl_len h hb hc he (by omega)), Res.bind_ok]
  all_goals exact ⟨m, rfl, hm, fun i hi j hj => (key i hi j hj).symm⟩

theorem orientCols_ok {r : Rstr} {D : RData α} (h : Rep r .plain D) (hb : r.blockSize = 1) {e esO : Nat} (he : e < D.ne)
    {m : Buf α} (hm : m.len = esO * D.es) :
    ∃ m', orientCols r e esO D.es m = .ok m' ∧ m'.len = esO * D.es ∧ ∀ i < esO, ∀ j < D.es,
      m'.val (i * D.es + j) = ∑ n ∈ range D.es, D.coef e n j * m.val (i * D.es + n) := by
  have key : ∀ i < esO, ∀ j < D.es, _ := fun i (_ : i < esO) j hj => coef_col h hb he hj (fun n => m.val (i * D.es + n))
  unfold orientCols
  rcases hc : r.rtype with _ | _ | _ | _ | _ <;> simp only [hc] at key
  case oriented =>
    simp only
    obtain ⟨v', e1, e2, e3⟩ := loop2_map (A := esO) (B := D.es)
      (f := fun i j x => x * (if r.orients.val (e * D.es + j) then -1 else 1))
      (body := fun i j m => do
        let x ← m.rd (i * D.es + j)
        let b ← r.orients.rd (e * D.es + j)
        m.wr (i * D.es + j) (x * if b then -1 else 1)) (by
        intro i hi j hj v hv
        rw [Buf.rd_lt (by rw [hv]; exact enc_lt hi hj), Res.bind_ok, Buf.rd_lt (sign_len h hb hc he hj), Res.bind_ok]) hm
    exact ⟨v', e1, e2, fun i hi j hj => by rw [e3 i hi j hj, key i hi j hj]⟩
  case curlOriented =>
    simp only
    refine loop2_all (fun i hi j hj v hv => ?_) hm
    rw [key i hi j hj]
    have hl : ∀ a < D.es, i * D.es + a < m.len := fun a ha => by rw [hm]; exact enc_lt hi ha
    have hm1 : (if 0 < j then m.val (i * D.es + j - 1) * ((r.curlOrients.val (e * 3 * D.es + (3 * j - 1)) : Int) : α)
        else 0) = if 0 < j then m.val (i * D.es + (j - 1)) * ((r.curlOrients.val (e * 3 * D.es + (3 * j - 1)) : Int) : α)
        else 0 := by
      by_cases h0 : 0 < j
      · rw [if_pos h0, if_pos h0, show i * D.es + j - 1 = i * D.es + (j - 1) by omega]
      · rw [if_neg h0, if_neg h0]
    rw [Buf.rd_lt (hl j hj), Res.bind_ok, Buf.rd_lt (curl_len h hb hc he (by omega)), Res.bind_ok,
      timesIf_ok (fun h0 => by rw [show i * D.es + j - 1 = i * D.es + (j - 1) by omega]; exact hl _ (by omega))
        (fun h0 => curl_len h hb hc he (by omega)), Res.bind_ok, hm1,
      timesIf_ok (fun h0 => by rw [Nat.add_assoc]; exact hl _ h0) (fun h0 => curl_len h hb hc he (by omega)), Res.bind_ok,
      Nat.add_assoc (i * D.es)]
  all_goals exact ⟨m, rfl, hm, fun i hi j hj => (key i hi j hj).symm⟩

end Operator
end Verif
